import Verif.Basic.Tensor
import Verif.Basic.IntTy
/-!
# Model of the linear algebra engines

include/ttl/nn/bits/engines/plain_impl.hpp (built-in engine) and cblas_impl.hpp. The outputs are buffers (state), their
shape is passed as `cdims`. `linag` (engines/linag.hpp:22-67) and the `mm`, `mtm`, `mmt` kernel wrappers
(kernels/cpu/blas.hpp:28-65) only forward and reorder arguments.

`T` has only notation classes here: no algebraic law is assumed, so statements about these definitions also hold for
floating point. The ranks of `a`, `b`, `c` are static in C++; other ranks (impossible there) are `ub`.
-/
namespace StdNN
open Outcome
variable {T : Type} [Add T] [Mul T] [Zero T]

namespace Plain

/-- `plain_impl<T>::mm` (engines/plain_impl.hpp:23-38). `memset(c.data(), 0, ...)` is filling with `0`, which holds for
the arithmetic types. -/
def mm (a b : Tensor T) (cdims : List Nat) (c : List T) : Outcome (List T) :=
  match a.dims, b.dims, cdims with
  | [m, l], [l', n], [cm, cn] => do
    contractAssert (l' = l)
    contractAssert (m = cm)
    contractAssert (n = cn)
    let c ← fillAll 0 c
    forRange m (fun i c =>
      forRange l (fun k c => do
        let aa ← a.at_ [i, k]
        forRange n (fun j c => do
          let bb ← b.at_ [k, j]
          upd c (offset cdims [i, j]) (fun x => x + aa * bb)) c) c) c
  | _, _, _ => .ub

/-- `plain_impl<T>::mmt` (engines/plain_impl.hpp:41-56). -/
def mmt (a b : Tensor T) (cdims : List Nat) (c : List T) : Outcome (List T) :=
  match a.dims, b.dims, cdims with
  | [m, l], [n, l'], [cm, cn] => do
    contractAssert (l' = l)
    contractAssert (m = cm)
    contractAssert (n = cn)
    forRange m (fun i c =>
      forRange n (fun j c => do
        let tmp ← forRange l (fun k tmp => do
          let aa ← a.at_ [i, k]
          let bb ← b.at_ [j, k]
          return tmp + aa * bb) 0
        wr c (offset cdims [i, j]) tmp) c) c
  | _, _, _ => .ub

/-- `plain_impl<T>::mtm` (engines/plain_impl.hpp:59-74). -/
def mtm (a b : Tensor T) (cdims : List Nat) (c : List T) : Outcome (List T) :=
  match a.dims, b.dims, cdims with
  | [l, m], [l', n], [cm, cn] => do
    contractAssert (l' = l)
    contractAssert (m = cm)
    contractAssert (n = cn)
    forRange m (fun i c =>
      forRange n (fun j c => do
        let tmp ← forRange l (fun k tmp => do
          let aa ← a.at_ [k, i]
          let bb ← b.at_ [k, j]
          return tmp + aa * bb) 0
        wr c (offset cdims [i, j]) tmp) c) c
  | _, _, _ => .ub

/-- `plain_impl<T>::mv` (engines/plain_impl.hpp:77-88). -/
def mv (a b : Tensor T) (cdims : List Nat) (c : List T) : Outcome (List T) :=
  match a.dims, b.dims, cdims with
  | [m, n], [n'], [cm] => do
    contractAssert (n = n')
    contractAssert (m = cm)
    forRange m (fun i c => do
      let tmp ← forRange n (fun j tmp => do
        let aa ← a.at_ [i, j]
        let bb ← b.at_ [j]
        return tmp + aa * bb) 0
      wr c (offset cdims [i]) tmp) c
  | _, _, _ => .ub

/-- `plain_impl<T>::vm` (engines/plain_impl.hpp:91-102). -/
def vm (a b : Tensor T) (cdims : List Nat) (c : List T) : Outcome (List T) :=
  match a.dims, b.dims, cdims with
  | [m'], [m, n], [cn] => do
    contractAssert (m = m')
    contractAssert (n = cn)
    forRange n (fun i c => do
      let tmp ← forRange m (fun j tmp => do
        let aa ← a.at_ [j]
        let bb ← b.at_ [j, i]
        return tmp + aa * bb) 0
      wr c (offset cdims [i]) tmp) c
  | _, _, _ => .ub

end Plain

namespace Cblas
variable [One T] [DecidableEq T]

/-- Row-major `cblas_?gemm` with the argument conventions of the netlib reference implementation (external, trusted;
called at engines/cblas_impl.hpp:55-61): illegal sizes or leading dimensions end the program (`ub` here), otherwise
`C[i*ldc+j] := alpha * sum_p opA(i,p) * opB(p,j) + beta * C[i*ldc+j]`, where `C` is not read if `beta = 0`.
The order of summation is the increasing one. -/
def gemm (transA transB : Bool) (M N K : Int) (alpha : T) (a : List T) (lda : Int) (b : List T) (ldb : Int)
    (beta : T) (c : List T) (ldc : Int) : Outcome (List T) :=
  if M < 0 ∨ N < 0 ∨ K < 0 ∨ lda < max 1 (if transA then M else K) ∨ ldb < max 1 (if transB then K else N)
      ∨ ldc < max 1 N then .ub
  else
    forRange M.toNat (fun i c =>
      forRange N.toNat (fun j c => do
        let s ← forRange K.toNat (fun p s => do
          let x ← rd a (if transA then p * lda.toNat + i else i * lda.toNat + p)
          let y ← rd b (if transB then j * ldb.toNat + p else p * ldb.toNat + j)
          return s + x * y) 0
        if beta = 0 then wr c (i * ldc.toNat + j) (alpha * s)
        else upd c (i * ldc.toNat + j) (fun x => alpha * s + beta * x)) c) c

/-- Row-major `cblas_?gemv` with unit increments (external, trusted; called at engines/cblas_impl.hpp:85,91):
`y := alpha * op(A) * x + beta * y` for an `M`-by-`N` matrix `A`. -/
def gemv (trans : Bool) (M N : Int) (alpha : T) (a : List T) (lda : Int) (x : List T) (beta : T) (y : List T) :
    Outcome (List T) :=
  if M < 0 ∨ N < 0 ∨ lda < max 1 N then .ub
  else
    forRange (if trans then N else M).toNat (fun i y => do
      let s ← forRange (if trans then M else N).toNat (fun p s => do
        let u ← rd a (if trans then p * lda.toNat + i else i * lda.toNat + p)
        let w ← rd x p
        return s + u * w) 0
      if beta = 0 then wr y i (alpha * s) else upd y i (fun x => alpha * s + beta * x)) y

/-- `len` (engines/cblas_impl.hpp:40-44): dimension 0 converted to `int`. -/
def len (dims : List Nat) : Int := IntTy.i32.conv (dims.getD 0 0)
/-- `wid` (engines/cblas_impl.hpp:46-50): dimension 1 converted to `int`. -/
def wid (dims : List Nat) : Int := IntTy.i32.conv (dims.getD 1 0)

/-- `_gemm` (engines/cblas_impl.hpp:52-62), with `alpha = 1`, `beta = 0` (lines 29-30). -/
def gemm_ (a : Tensor T) (transA : Bool) (b : Tensor T) (transB : Bool) (cdims : List Nat) (c : List T) :
    Outcome (List T) :=
  gemm transA transB (len cdims) (wid cdims) (if transB then wid b.dims else len b.dims)
    1 a.data (wid a.dims) b.data (wid b.dims) 0 c (wid cdims)

/-- `cblas_impl<R>::mm` (engines/cblas_impl.hpp:66-69). -/
def mm (a b : Tensor T) (cdims : List Nat) (c : List T) : Outcome (List T) := gemm_ a false b false cdims c
/-- `cblas_impl<R>::mmt` (engines/cblas_impl.hpp:72-75). -/
def mmt (a b : Tensor T) (cdims : List Nat) (c : List T) : Outcome (List T) := gemm_ a false b true cdims c
/-- `cblas_impl<R>::mtm` (engines/cblas_impl.hpp:78-81). -/
def mtm (a b : Tensor T) (cdims : List Nat) (c : List T) : Outcome (List T) := gemm_ a true b false cdims c
/-- `cblas_impl<R>::mv` (engines/cblas_impl.hpp:83-87). -/
def mv (a b : Tensor T) (_cdims : List Nat) (c : List T) : Outcome (List T) :=
  gemv false (len a.dims) (wid a.dims) 1 a.data (wid a.dims) b.data 0 c
/-- `cblas_impl<R>::vm` (engines/cblas_impl.hpp:89-93). -/
def vm (a b : Tensor T) (_cdims : List Nat) (c : List T) : Outcome (List T) :=
  gemv true (len b.dims) (wid b.dims) 1 b.data (wid b.dims) a.data 0 c

end Cblas

namespace Ops

/-- Shape function of `ops::matmul` (ops/blas.hpp:32-38). -/
def matmulShape (x y : List Nat) : Outcome (List Nat) :=
  match x, y with
  | [n, m], [m', k] => do
    contractAssert (m = m')
    return [n, k]
  | _, _ => .ub

/-- `ops::matmul` on tensors with the built-in engine (ops/blas.hpp:40-46). -/
def matmul (zdims : List Nat) (x y : Tensor T) (z : List T) : Outcome (List T) := Plain.mm x y zdims z

end Ops
end StdNN
