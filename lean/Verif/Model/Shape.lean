import Verif.Model.Layout
import Verif.Basic.IntTy
/-!
# Model of the generic shape functions

ops/std_function.hpp and ops/shape_algo.hpp. A shape is its list of dimensions; the ranks are static in C++, so
different ranks (impossible there) are `ub`.
-/
namespace StdNN.Ops
open Outcome IntTy

/-- `basic_endofunction` (ops/std_function.hpp:14-22): shape of `identity`, `pointwise`, `relu`, `softmax`. -/
def endoShape (x : List Nat) : Outcome (List Nat) := .ok x

/-- `basic_binary_endofunction` (ops/std_function.hpp:24-34): shape of `add`, `sub`, `mul`. -/
def binaryEndoShape (x y : List Nat) : Outcome (List Nat) :=
  if x.length ≠ y.length then .ub
  else if x ≠ y then .throw .invalidArgument
  else .ok x

/-- `basic_reduce_function` (ops/std_function.hpp:36-46): shape of `mean`, `argmax`; rank 0 does not compile. -/
def reduceShape (s : List Nat) : Outcome (List Nat) :=
  if s = [] then .ub else .ok s.dropLast

/-- `basic_binary_reduce_function` (ops/std_function.hpp:48-60): shape of `xentropy`. -/
def binaryReduceShape (s t : List Nat) : Outcome (List Nat) :=
  if s.length ≠ t.length ∨ s = [] then .ub
  else if s ≠ t then .throw .invalidArgument
  else .ok s.dropLast

/-- `basic_vectorize_function` (ops/std_function.hpp:62-80): shape of `onehot(k)`. -/
def vectorizeShape (k : Nat) (s : List Nat) : Outcome (List Nat) := .ok (s ++ [k])

/-- `basic_gradient_function<F, i>` (ops/std_function.hpp:82-100) and `gradient_shape<i>` (ops/shape_algo.hpp:48-55):
`infer` is the shape function of the operator, `xs` the shapes of its arguments; `i` beyond the arity does not compile. -/
def gradientShape (infer : List (List Nat) → Outcome (List Nat)) (i : Nat) (gy y : List Nat) (xs : List (List Nat)) :
    Outcome (List Nat) := do
  let y' ← infer xs
  contractAssert (y = y')
  contractAssert (y = gy)
  match xs[i]? with
  | some x => .ok x
  | none => .ub

/-- `check_shape` (ops/shape_algo.hpp:40-46). -/
def checkShape (infer : List (List Nat) → Outcome (List Nat)) (y : List Nat) (xs : List (List Nat)) : Outcome PUnit := do
  let y' ← infer xs
  if y ≠ y' then .throw .logicError else .ok ⟨⟩

/-- The loop of `concat2shapes<p>` (ops/shape_algo.hpp:16-23) from axis `i` on; dimensions are `uint32_t`, the sum wraps. -/
def concatDims (p : Nat) : Nat → List Nat → List Nat → Outcome (List Nat)
  | _, [], [] => .ok []
  | i, a :: s, b :: t =>
    if i = p then do
      let d ← u32.add a b
      let r ← concatDims p (i + 1) s t
      return d.toNat :: r
    else do
      contractAssert (a = b)
      let r ← concatDims p (i + 1) s t
      return a :: r
  | _, _, _ => .ub

/-- `concat2shapes<p>` (ops/shape_algo.hpp:11-25). -/
def concat2 (p : Nat) (s t : List Nat) : Outcome (List Nat) := concatDims p 0 s t

/-- `concat_shape<p>` (ops/shape_algo.hpp:27-37), right-associated; the empty pack does not compile. -/
def concatShape (p : Nat) : List (List Nat) → Outcome (List Nat)
  | [] => .ub
  | [s] => .ok s
  | s :: t :: ss => do
    let r ← concatShape p (t :: ss)
    concat2 p s r

/-- Shape of `concat_channel4d<order>` (ops/concat.hpp:12-17). -/
def concatChannelShape (o : Order) (ss : List (List Nat)) : Outcome (List Nat) :=
  match o.channelPos with
  | some p => concatShape p ss
  | none => .ub

/-- `ttl::internal::flatten_shape<rs...>` (stdtensor; used by ops/reshape.hpp:10, 17, 30): group consecutive dimensions by
the ranks `rs` and multiply each group; `sum rs` must be the rank. -/
def flattenShape : List Nat → List Nat → Outcome (List Nat)
  | [], [] => .ok []
  | [], _ :: _ => .ub
  | r :: rs, dims =>
    if dims.length < r then .ub
    else do
      let rest ← flattenShape rs (dims.drop r)
      return (dims.take r).prod :: rest

/-- Shape of `apply_bias<order, F>` (ops/bias.hpp:16-20). -/
def biasShape (o : Order) (x y : List Nat) : Outcome (List Nat) :=
  match o.rankOf, y with
  | some r, [k] => do
    if x.length ≠ r then .ub
    let d ← getDim o.biasPos x
    contractAssert (d = k)
    return x
  | _, _ => .ub

/-- Shape of `axpy` (ops/blas.hpp:11-17). -/
def axpyShape (x y : List Nat) : Outcome (List Nat) := do
  if x.length ≠ y.length then .ub
  contractAssert (x = y)
  return x

/-- Shape of `transpose<nchw, nhwc>` (ops/transpose.hpp:19-23). -/
def toFirstShape (x : List Nat) : Outcome (List Nat) :=
  match x with
  | [n, h, w, c] => .ok [n, c, h, w]
  | _ => .ub

/-- Shape of `transpose<nhwc, nchw>` (ops/transpose.hpp:46-50). -/
def toLastShape (x : List Nat) : Outcome (List Nat) :=
  match x with
  | [n, c, h, w] => .ok [n, h, w, c]
  | _ => .ub

end StdNN.Ops
