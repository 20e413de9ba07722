import Verif.Basic.Outcome
import Mathlib.Algebra.BigOperators.Group.List.Basic
/-!
# Tensors, memory accesses and loops

Model of the parts of stdtensor v0.7.0 (the external dependency of /repo, see /repo/CMakeLists.txt) that the kernels
use: row-major tensors with unchecked element access. A tensor is its list of dimensions and its flat buffer. An access
outside the buffer is undefined behaviour (`Outcome.ub`).

Output tensors (`tensor_ref`) are modelled as state: a kernel maps the old contents of the output buffer to the new.
-/
namespace StdNN

/-- A tensor (`ttl::tensor`, `tensor_view`, imported at include/ttl/nn/common.hpp:1-36): dimensions and flat row-major data. -/
structure Tensor (R : Type u) where
  dims : List Nat
  data : List R
  deriving DecidableEq, Repr

/-- Row-major offset (`ttl::shape::offset`, used at kernels/cpu/im2col.hpp:38 and by every `at`): unchecked, any index
values are accepted. -/
def offset : List Nat → List Nat → Nat
  | _ :: ds, i :: is => i * ds.prod + offset ds is
  | _, _ => 0

/-- Inverse of `offset` (specification side: enumerates the index loops, e.g. kernels/cpu/im2col.hpp:24-36, in row-major order). -/
def unravel : List Nat → Nat → List Nat
  | [], _ => []
  | _ :: ds, p => p / ds.prod :: unravel ds (p % ds.prod)

/-- An index within the dimensions (specification side: the precondition of `at`, e.g. kernels/cpu/pool.hpp:90). -/
def Valid : List Nat → List Nat → Prop
  | [], [] => True
  | d :: ds, i :: is => i < d ∧ Valid ds is
  | _, _ => False

/-- Read one cell of a buffer, e.g. `x.data()[i]` (kernels/cpu/bias.hpp:28); reading outside is undefined behaviour. -/
def rd {R : Type u} (b : List R) (p : Nat) : Outcome R :=
  match b[p]? with
  | some r => .ok r
  | none => .ub

/-- Write one cell of a buffer, e.g. `y.data()[i] = v` (kernels/cpu/bias.hpp:28); writing outside is undefined behaviour. -/
def wr {R : Type u} (b : List R) (p : Nat) (v : R) : Outcome (List R) :=
  if p < b.length then .ok (b.set p v) else .ub

/-- Read-modify-write of one cell, e.g. `y.at(i) += v` (ops/impl/col2im1d.hpp:16, kernels/cpu/col2im.hpp:36). -/
def upd {R : Type u} (b : List R) (p : Nat) (g : R → R) : Outcome (List R) := do
  let r ← rd b p
  wr b p (g r)

/-- `for (auto i : ttl::range(n)) body(i)` (e.g. ops/impl/col2im1d.hpp:13, kernels/cpu/loss.hpp:27). -/
def forRange {σ : Type u} (n : Nat) (body : Nat → σ → Outcome σ) (s : σ) : Outcome σ :=
  (List.range n).foldlM (fun s i => body i s) s

/-- `ttl::fill(y, v)` (e.g. kernels/cpu/col2im.hpp:26, kernels/cpu/reduce.hpp:30). -/
def fillAll {R : Type u} (v : R) (b : List R) : Outcome (List R) := .ok (b.map fun _ => v)

/-- Run a kernel on the sub-buffer `[off, off + len)` (the sub-tensor `y[i]` of an output, e.g.
kernels/cpu/activation.hpp:36, kernels/cpu/im2col.hpp:175). -/
def onSlice {R : Type u} (off len : Nat) (g : List R → Outcome (List R)) (b : List R) : Outcome (List R) :=
  if off + len ≤ b.length then do
    let s ← g ((b.drop off).take len)
    return b.take off ++ s ++ b.drop (off + len)
  else .ub

namespace Tensor
variable {R : Type u}

/-- The buffer has as many cells as the shape says (invariant of `ttl::tensor`, relied on by every kernel, e.g.
kernels/cpu/elementary.hpp:21). -/
def WF (t : Tensor R) : Prop := t.data.length = t.dims.prod

/-- `t.at(i, j, ...)` (e.g. kernels/cpu/pool.hpp:86). -/
def at_ (t : Tensor R) (idx : List Nat) : Outcome R := rd t.data (offset t.dims idx)

/-- Sub-tensor `t[i]` (e.g. kernels/cpu/utility.hpp:35). -/
def sub (t : Tensor R) (i : Nat) : Tensor R :=
  ⟨t.dims.tail, (t.data.drop (i * t.dims.tail.prod)).take t.dims.tail.prod⟩

/-- The same buffer seen with other dimensions (`as_matrix`, ops/reshape.hpp:6-18). -/
def withDims (t : Tensor R) (dims : List Nat) : Tensor R := ⟨dims, t.data⟩

end Tensor

/-- Row-major tabulation of a function of the multi-index: the specification-side view of a tensor (not code of /repo; the
layout is that of `offset`). -/
def tab {R : Type u} (dims : List Nat) (f : List Nat → R) : Tensor R :=
  ⟨dims, (List.range dims.prod).map fun p => f (unravel dims p)⟩

/-! Functions of a multi-index given by a curried function (specification side); lists of another length do not occur
as indices of a tensor of that rank. -/

/-- Rank 1 (specification side; not code of /repo). -/
def fn1 {R : Type u} [Zero R] (f : Nat → R) : List Nat → R
  | [i] => f i
  | _ => 0

@[simp] theorem fn1_apply {R : Type u} [Zero R] (f : Nat → R) (i : Nat) :
    fn1 f [i] = f i := rfl

/-- Rank 2 (specification side; not code of /repo). -/
def fn2 {R : Type u} [Zero R] (f : Nat → Nat → R) : List Nat → R
  | [i, j] => f i j
  | _ => 0

@[simp] theorem fn2_apply {R : Type u} [Zero R] (f : Nat → Nat → R) (i j : Nat) :
    fn2 f [i, j] = f i j := rfl

/-- Rank 3 (specification side; not code of /repo). -/
def fn3 {R : Type u} [Zero R] (f : Nat → Nat → Nat → R) : List Nat → R
  | [i, j, k] => f i j k
  | _ => 0

@[simp] theorem fn3_apply {R : Type u} [Zero R] (f : Nat → Nat → Nat → R) (i j k : Nat) :
    fn3 f [i, j, k] = f i j k := rfl

/-- Rank 4 (specification side; not code of /repo). -/
def fn4 {R : Type u} [Zero R] (f : Nat → Nat → Nat → Nat → R) : List Nat → R
  | [i, j, k, l] => f i j k l
  | _ => 0

@[simp] theorem fn4_apply {R : Type u} [Zero R] (f : Nat → Nat → Nat → Nat → R) (i j k l : Nat) :
    fn4 f [i, j, k, l] = f i j k l := rfl

/-- Rank 5 (specification side; not code of /repo). -/
def fn5 {R : Type u} [Zero R] (f : Nat → Nat → Nat → Nat → Nat → R) : List Nat → R
  | [i, j, k, l, m] => f i j k l m
  | _ => 0

@[simp] theorem fn5_apply {R : Type u} [Zero R] (f : Nat → Nat → Nat → Nat → Nat → R) (i j k l m : Nat) :
    fn5 f [i, j, k, l, m] = f i j k l m := rfl

/-- Rank 6 (specification side; not code of /repo). -/
def fn6 {R : Type u} [Zero R] (f : Nat → Nat → Nat → Nat → Nat → Nat → R) : List Nat → R
  | [i, j, k, l, m, n] => f i j k l m n
  | _ => 0

@[simp] theorem fn6_apply {R : Type u} [Zero R] (f : Nat → Nat → Nat → Nat → Nat → Nat → R) (i j k l m n : Nat) :
    fn6 f [i, j, k, l, m, n] = f i j k l m n := rfl

end StdNN
