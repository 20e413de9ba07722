import Verif.Model.Shape
import Verif.Basic.Tensor
/-!
# Model of the elementwise kernels, bias, transposes, concatenation and contractions

kernels/cpu/elementary.hpp, kernels/cpu/bias.hpp, kernels/cpu/reduce.hpp, kernels/cpu/concat.hpp, the `axpy` kernel of
kernels/cpu/blas.hpp, the relu kernels of kernels/cpu/activation.hpp, ops/transpose.hpp.

Outputs of these operators may alias inputs (ops/bn.hpp:58, kernels/cpu/reduce.hpp:32), so the output lives at an
address of a flat memory `m`, and an input is either in memory that is not written (`Src.ext`) or at an address of `m`.
-/
namespace StdNN
open Outcome
variable {R : Type}

/-- Where the data of an input tensor is (`tensor_view::data()`): in separate memory, or at an address of the memory that
holds the output, as for the in-place calls at layers/dense.hpp:42-43. -/
inductive Src (R : Type) where
  | ext (b : List R)
  | mem (p : Nat)

namespace Src

/-- `x.data()[i]` while the output memory is `m` (e.g. kernels/cpu/bias.hpp:28). -/
def rd (x : Src R) (m : List R) (i : Nat) : Outcome R :=
  match x with
  | ext b => StdNN.rd b i
  | mem p => StdNN.rd m (p + i)

/-- `x.data() + k` (sub-tensor at flat offset `k`, e.g. `x[i]` in kernels/cpu/bias.hpp:54). -/
def shift (x : Src R) (k : Nat) : Src R :=
  match x with
  | ext b => ext (b.drop k)
  | mem p => mem (p + k)

end Src

namespace Kernels

/-- `std::transform(x, x + n, z, f)` (kernels/cpu/elementary.hpp:21, ops/elementary.hpp:76); `z` may equal `x`. -/
def transform1 (f : R → R) (n : Nat) (x : Src R) (z : Nat) (m : List R) : Outcome (List R) :=
  forRange n (fun i m => do
    let a ← x.rd m i
    wr m (z + i) (f a)) m

/-- `std::transform(x, x + n, y, z, f)` (kernels/cpu/elementary.hpp:53, ops/elementary.hpp:90, kernels/cpu/blas.hpp:22-24). -/
def transform2 (f : R → R → R) (n : Nat) (x y : Src R) (z : Nat) (m : List R) : Outcome (List R) :=
  forRange n (fun i m => do
    let a ← x.rd m i
    let b ← y.rd m i
    wr m (z + i) (f a b)) m

/-- `std::copy(x, x + n, z)` (kernels/cpu/elementary.hpp:38, ops/reshape.hpp:37, ops/gradients/reshape.hpp:28). The standard
makes it undefined if `z` lies in `[x, x + n)`. -/
def copy (n : Nat) (x : Src R) (z : Nat) (m : List R) : Outcome (List R) :=
  match x with
  | .mem p => if p ≤ z ∧ z < p + n then .ub else transform1 id n x z m
  | .ext _ => transform1 id n x z m

/-- Generic `apply_bias` (kernels/cpu/bias.hpp:20-30), used for `hw` and `nchw`: `dims` is the shape of `x`, `p` the bias
position, `y` the bias; `coord<p>(i)` is component `p` of the multi-index of `i`. -/
def applyBias (f : R → R → R) (p : Nat) (dims : List Nat) (x : Src R) (y : List R) (z : Nat) (m : List R) :
    Outcome (List R) :=
  forRange dims.prod (fun i m => do
    let j := (unravel dims i).getD p 0
    let a ← x.rd m i
    let b ← rd y j
    wr m (z + i) (f a b)) m

/-- `apply_bias<nhwc>` on a matrix (kernels/cpu/bias.hpp:50-56): `zrows` and `zcols` are the dimensions of `z`,
`xcols` the columns of `x`. -/
def applyBiasRows (f : R → R → R) (zrows zcols xcols : Nat) (x : Src R) (y : List R) (z : Nat) (m : List R) :
    Outcome (List R) :=
  forRange zrows (fun i m => transform2 f xcols (x.shift (i * xcols)) (.ext y) (z + i * zcols) m) m

/-- `apply_bias<nhwc>` on a rank 4 tensor (kernels/cpu/bias.hpp:58-62). -/
def applyBiasNhwc (f : R → R → R) (zdims xdims : List Nat) (x : Src R) (y : List R) (z : Nat) (m : List R) :
    Outcome (List R) :=
  applyBiasRows f (zdims.take 3).prod (zdims.drop 3).prod (xdims.drop 3).prod x y z m

section
variable [Zero R] [Add R]

/-- `outter_contraction` (kernels/cpu/reduce.hpp:28-34): `y` has `cols` elements; rows are added with the in-place `add`
kernel. -/
def outerContraction (x : Tensor R) (y : List R) : Outcome (List R) :=
  match x.dims with
  | [rows, cols] => do
    let y ← fillAll 0 y
    forRange rows (fun i y => transform2 (· + ·) y.length (.mem 0) (.ext (x.data.drop (i * cols))) 0 y) y
  | _ => .ub

/-- `inner_contraction` (kernels/cpu/reduce.hpp:16-21); `ttl::sum` (stdtensor) accumulates from `0` in order. -/
def innerContraction (x : Tensor R) (y : List R) : Outcome (List R) :=
  match x.dims with
  | [rows, cols] => forRange rows (fun i y => do
      let s ← forRange cols (fun j s => do
        let v ← x.at_ [i, j]
        return s + v) 0
      wr y i s) y
  | _ => .ub

end

/-- `host_scalar_relu` (kernels/cpu/activation.hpp:40-46). -/
def scalarRelu [Zero R] [LT R] [DecidableLT R] (x : R) : R := if x > 0 then x else 0

/-- `host_scaler_relu_grad` (kernels/cpu/activation.hpp:53-59). -/
def scalarReluGrad [Zero R] [LT R] [DecidableLT R] (gy x : R) : R := if x > 0 then gy else 0

/-- `transpose<nchw, nhwc>` (ops/transpose.hpp:25-40). -/
def toFirst {S : Type} (f : S → R) (ydims : List Nat) (x : Tensor S) (y : List R) : Outcome (List R) :=
  match x.dims with
  | [n, h, w, c] =>
    forRange n (fun l y => forRange c (fun k y => forRange h (fun i y => forRange w (fun j y => do
      let v ← x.at_ [l, i, j, k]
      wr y (offset ydims [l, k, i, j]) (f v)) y) y) y) y
  | _ => .ub

/-- `transpose<nhwc, nchw>` (ops/transpose.hpp:52-67). -/
def toLast {S : Type} (f : S → R) (ydims : List Nat) (x : Tensor S) (y : List R) : Outcome (List R) :=
  match x.dims with
  | [n, c, h, w] =>
    forRange n (fun l y => forRange h (fun i y => forRange w (fun j y => forRange c (fun k y => do
      let v ← x.at_ [l, k, i, j]
      wr y (offset ydims [l, i, j, k]) (f v)) y) y) y) y
  | _ => .ub

/-- `concat_channel4d<nchw, 2>` (kernels/cpu/concat.hpp:14-41). -/
def concatNchw (tdims : List Nat) (x y : Tensor R) (t : List R) : Outcome (List R) :=
  match tdims with
  | [n, cAll, h, w] => do
    let c1 ← getDim Order.nchw.channelPos x.dims
    forRange n (fun l t => forRange cAll (fun k t => forRange h (fun i t => forRange w (fun j t => do
      let v ← if k < c1 then x.at_ [l, k, i, j] else y.at_ [l, k - c1, i, j]
      wr t (offset tdims [l, k, i, j]) v) t) t) t) t
  | _ => .ub

/-- `concat_channel4d<nhwc, 3>` (kernels/cpu/concat.hpp:48-81); `c1 + c2` is a `uint32_t` sum. -/
def concatNhwc (tdims : List Nat) (x y z : Tensor R) (t : List R) : Outcome (List R) :=
  match tdims with
  | [n, h, w, cAll] => do
    let c1 ← getDim Order.nhwc.channelPos x.dims
    let c2 ← getDim Order.nhwc.channelPos y.dims
    let c12 ← IntTy.u32.add c1 c2
    forRange n (fun l t => forRange h (fun i t => forRange w (fun j t => forRange cAll (fun k t => do
      let v ← if k < c1 then x.at_ [l, i, j, k]
        else if (k : Int) < c12 then y.at_ [l, i, j, k - c1]
        else z.at_ [l, i, j, k - c1 - c2]
      wr t (offset tdims [l, i, j, k]) v) t) t) t) t
  | _ => .ub

end Kernels

namespace Ops
variable [Zero R]

/-- `ops::add` (ops/elementary.hpp:94-105, kernels/cpu/elementary.hpp:60-63); `n` is `x.size()`. -/
def add [Add R] (n : Nat) (x y : Src R) (z : Nat) (m : List R) : Outcome (List R) :=
  Kernels.transform2 (· + ·) n x y z m
/-- `ops::sub` (ops/elementary.hpp:107-118, kernels/cpu/elementary.hpp:65-68). -/
def sub [Sub R] (n : Nat) (x y : Src R) (z : Nat) (m : List R) : Outcome (List R) :=
  Kernels.transform2 (· - ·) n x y z m
/-- `ops::mul` (ops/elementary.hpp:120-131, kernels/cpu/elementary.hpp:70-73). -/
def mul [Mul R] (n : Nat) (x y : Src R) (z : Nat) (m : List R) : Outcome (List R) :=
  Kernels.transform2 (· * ·) n x y z m
/-- `ops::axpy` (ops/blas.hpp:19-26, kernels/cpu/blas.hpp:18-25). -/
def axpy [Add R] [Mul R] (n : Nat) (a : R) (x y : Src R) (z : Nat) (m : List R) : Outcome (List R) :=
  Kernels.transform2 (fun x y => a * x + y) n x y z m
/-- `ops::identity` (ops/elementary.hpp:14-19, kernels/cpu/elementary.hpp:28-40). -/
def identity (n : Nat) (x : Src R) (z : Nat) (m : List R) : Outcome (List R) := Kernels.copy n x z m
/-- `ops::pointwise<F>` (ops/elementary.hpp:62-78). -/
def pointwise (f : R → R) (n : Nat) (x : Src R) (z : Nat) (m : List R) : Outcome (List R) :=
  Kernels.transform1 f n x z m
/-- `ops::relu` (ops/activation.hpp:33-44, kernels/cpu/activation.hpp:48-51). -/
def relu [LT R] [DecidableLT R] (n : Nat) (x : Src R) (z : Nat) (m : List R) : Outcome (List R) :=
  Kernels.transform1 Kernels.scalarRelu n x z m

/-- `apply_bias<order, F>` (ops/bias.hpp:22-27): `nhwc` has a kernel of its own, `hw` and `nchw` use the generic one;
`hwc` and `chw` do not compile (no `rank_of`). -/
def applyBias (f : R → R → R) (o : Order) (zdims xdims : List Nat) (x : Src R) (y : List R) (z : Nat) (m : List R) :
    Outcome (List R) :=
  match o with
  | .nhwc => Kernels.applyBiasNhwc f zdims xdims x y z m
  | .hw | .nchw => match o.biasPos with
    | some p => Kernels.applyBias f p xdims x y z m
    | none => .ub
  | _ => .ub

/-- `copy_flatten<rs...>` on tensors (ops/reshape.hpp:33-38): `n` is `x.size()`. -/
def copyFlatten (x : Tensor R) (y : List R) : Outcome (List R) := Kernels.copy x.data.length (.ext x.data) 0 y

end Ops

namespace Grad
variable [Zero R]

/-- `grad::copy_flatten<rs...>` (ops/gradients/reshape.hpp:22-29). -/
def copyFlatten (gy : Tensor R) (gx : List R) : Outcome (List R) := Kernels.copy gy.data.length (.ext gy.data) 0 gx
/-- `grad::add<0>` and `grad::add<1>` (ops/gradients/add.hpp:20-27, 38-45). -/
def add (gz : Tensor R) (g : List R) : Outcome (List R) := Kernels.copy gz.data.length (.ext gz.data) 0 g
/-- `grad::mul<0>` (ops/gradients/mul.hpp:20-27) with `other = y`, `grad::mul<1>` (lines 38-45) with `other = x`. -/
def mul [Mul R] (gz other : Tensor R) (g : List R) : Outcome (List R) :=
  Ops.mul gz.data.length (.ext gz.data) (.ext other.data) 0 g
/-- `grad::add_bias<order, 0>` (ops/gradients/bias.hpp:29-36). -/
def biasX (gz : Tensor R) (gx : List R) : Outcome (List R) := Kernels.copy gz.data.length (.ext gz.data) 0 gx
/-- `grad::add_bias<hw, 1>` (ops/gradients/bias.hpp:49-56). -/
def biasHw [Add R] (gz : Tensor R) (gy : List R) : Outcome (List R) := Kernels.outerContraction gz gy
/-- `grad::add_bias<nhwc, 1>` (ops/gradients/bias.hpp:69-76). -/
def biasNhwc [Add R] (gz : Tensor R) (gy : List R) : Outcome (List R) :=
  Kernels.outerContraction (gz.withDims [(gz.dims.take 3).prod, (gz.dims.drop 3).prod]) gy
/-- `grad::relu<0>` (ops/gradients/activation.hpp:20-27). -/
def relu [LT R] [DecidableLT R] (n : Nat) (gy x : Src R) (gx : Nat) (m : List R) : Outcome (List R) :=
  Kernels.transform2 Kernels.scalarReluGrad n gy x gx m

end Grad
end StdNN
