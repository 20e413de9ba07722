import Verif.Model.Elementwise
import Verif.Model.Engine
/-!
# Model of softmax, cross-entropy, batch normalisation and the gradients of softmax, cross-entropy and matmul

kernels/cpu/activation.hpp, kernels/cpu/loss.hpp, kernels/cpu/normalization.hpp, ops/activation.hpp, ops/loss.hpp, ops/bn.hpp,
ops/gradients/{softmax,xentropy,matmul}.hpp. The element type has only notation classes; `std::exp`, `std::log` and
`std::sqrt` are parameters. Inputs that may alias the output are `Src`s into the memory `m` of the output.
-/
namespace StdNN
open Outcome
variable {R : Type}

/-- `std::max(a, b)` (used at kernels/cpu/activation.hpp:30): `(a < b) ? b : a`. -/
def stdMax [LT R] [DecidableLT R] (a b : R) : R := if a < b then b else a

/-- `as_matrix<r - 1, 1>` of a shape of rank `r` (ops/reshape.hpp:6-18): the leading dimensions multiplied, the last one. -/
def rowsOf (dims : List Nat) : Nat × Nat := ((dims.take (dims.length - 1)).prod, (dims.drop (dims.length - 1)).prod)

namespace Kernels

section
variable [Zero R] [One R] [Add R] [Sub R] [Div R] [LT R] [DecidableLT R]

/-- `softmax::operator()` on vectors (kernels/cpu/activation.hpp:22-32); `n` is the size of `x`. -/
def softmaxRow (exp : R → R) (eps : R) (n : Nat) (x : Src R) (y : Nat) (m : List R) : Outcome (List R) :=
  forRange n (fun i m => do
    let xi ← x.rd m i
    let tot ← forRange n (fun j acc => do
      let xj ← x.rd m j
      return acc + exp (xj - xi)) 0
    wr m (y + i) (stdMax eps (1 / tot))) m

/-- `softmax::operator()` on matrices (kernels/cpu/activation.hpp:34-37): `x` is `rows` by `xcols`, `y` has `ycols` columns. -/
def softmax (exp : R → R) (eps : R) (ycols rows xcols : Nat) (x : Src R) (y : Nat) (m : List R) : Outcome (List R) :=
  forRange rows (fun i m => softmaxRow exp eps xcols (x.shift (i * xcols)) (y + i * ycols) m) m

end

section
variable [Zero R] [Add R] [Mul R] [Neg R]

/-- `xentropy::operator()` on vectors (kernels/cpu/loss.hpp:16-22): `n` is the size of `x`; the `i`-th `z` is written. -/
def xentropyRow (log : R → R) (n : Nat) (x y : List R) (z : List R) (i : Nat) : Outcome (List R) := do
  let s ← forRange n (fun j acc => do
    let a ← rd x j
    let b ← rd y j
    return acc + a * log b) 0
  wr z i (-s)

/-- `xentropy::operator()` on matrices (kernels/cpu/loss.hpp:24-28): `zn` is the length of `z`. -/
def xentropy (log : R → R) (zn : Nat) (xcols ycols : Nat) (x y z : List R) : Outcome (List R) :=
  forRange zn (fun i z => xentropyRow log xcols (x.drop (i * xcols)) (y.drop (i * ycols)) z i) z

end

/-- `normalizer_mean_var` (kernels/cpu/normalization.hpp:18-28); `eps` is `.000001f`. -/
def normalize [Add R] [Sub R] [Div R] (sqrt : R → R) (eps x mean var : R) : R := (x - mean) / (sqrt var + eps)

/-- `batch_norm<nhwc>` (kernels/cpu/normalization.hpp:31-52). -/
def batchNormNhwc [Add R] [Sub R] [Div R] (sqrt : R → R) (eps : R) (ydims xdims : List Nat) (x : Src R)
    (mean var : List R) (y : Nat) (m : List R) : Outcome (List R) :=
  match xdims with
  | [n, h, w, c] =>
    forRange n (fun l m => forRange h (fun i m => forRange w (fun j m => forRange c (fun k m => do
      let a ← x.rd m (offset xdims [l, i, j, k])
      let u ← rd mean k
      let v ← rd var k
      wr m (y + offset ydims [l, i, j, k]) (normalize sqrt eps a u v)) m) m) m) m
  | _ => .ub

/-- `batch_norm<nchw>` (kernels/cpu/normalization.hpp:54-75). -/
def batchNormNchw [Add R] [Sub R] [Div R] (sqrt : R → R) (eps : R) (ydims xdims : List Nat) (x : Src R)
    (mean var : List R) (y : Nat) (m : List R) : Outcome (List R) :=
  match xdims with
  | [n, c, h, w] =>
    forRange n (fun l m => forRange c (fun k m => forRange h (fun i m => forRange w (fun j m => do
      let a ← x.rd m (offset xdims [l, k, i, j])
      let u ← rd mean k
      let v ← rd var k
      wr m (y + offset ydims [l, k, i, j]) (normalize sqrt eps a u v)) m) m) m) m
  | _ => .ub

end Kernels

namespace Ops

/-- `ops::softmax` (ops/activation.hpp:14-20). -/
def softmax [Zero R] [One R] [Add R] [Sub R] [Div R] [LT R] [DecidableLT R] (exp : R → R) (eps : R)
    (ydims xdims : List Nat) (x : Src R) (y : Nat) (m : List R) : Outcome (List R) :=
  Kernels.softmax exp eps (rowsOf ydims).2 (rowsOf xdims).1 (rowsOf xdims).2 x y m

/-- `ops::xentropy` (ops/loss.hpp:13-20); `zdims` is the shape of `z`. -/
def xentropy [Zero R] [Add R] [Mul R] [Neg R] (log : R → R) (zdims : List Nat) (x y : Tensor R) (z : List R) :
    Outcome (List R) :=
  Kernels.xentropy log zdims.prod (rowsOf x.dims).2 (rowsOf y.dims).2 x.data y.data z

/-- Shape function of `ops::batch_norm` (ops/bn.hpp:12-20). -/
def batchNormShape (o : Order) (x mean var : List Nat) : Outcome (List Nat) := do
  let c ← getDim o.channelPos x
  let m ← getDim (some 0) mean
  contractAssert (c = m)
  let v ← getDim (some 0) var
  contractAssert (c = v)
  return x

/-- Shape function of `ops::batch_norm_with_bias` (ops/bn.hpp:37-48). -/
def batchNormWithBiasShape (o : Order) (x mean var beta gamma : List Nat) : Outcome (List Nat) := do
  let c ← getDim o.channelPos x
  let m ← getDim (some 0) mean
  contractAssert (c = m)
  let v ← getDim (some 0) var
  contractAssert (c = v)
  let b ← getDim (some 0) beta
  contractAssert (c = b)
  let g ← getDim (some 0) gamma
  contractAssert (c = g)
  return x

/-- `ops::batch_norm` (ops/bn.hpp:22-29); only `nhwc` and `nchw` have a kernel. -/
def batchNorm [Add R] [Sub R] [Div R] (sqrt : R → R) (eps : R) (o : Order) (ydims xdims : List Nat) (x : Src R)
    (mean var : List R) (y : Nat) (m : List R) : Outcome (List R) :=
  match o with
  | .nhwc => Kernels.batchNormNhwc sqrt eps ydims xdims x mean var y m
  | .nchw => Kernels.batchNormNchw sqrt eps ydims xdims x mean var y m
  | _ => .ub

/-- `ops::batch_norm_with_bias` (ops/bn.hpp:50-60): the multiplication and the addition read and write `y`. -/
def batchNormWithBias [Zero R] [Add R] [Sub R] [Mul R] [Div R] (sqrt : R → R) (eps : R) (o : Order)
    (ydims xdims : List Nat) (x : Src R) (mean var beta gamma : List R) (y : Nat) (m : List R) : Outcome (List R) := do
  let m ← batchNorm sqrt eps o ydims xdims x mean var y m
  let m ← applyBias (· * ·) o ydims ydims (.mem y) gamma y m
  applyBias (· + ·) o ydims ydims (.mem y) beta y m

end Ops

namespace Grad

/-- `grad::matmul<0>` (ops/gradients/matmul.hpp:21-29) with the built-in engine. -/
def matmul0 [Zero R] [Add R] [Mul R] (gxdims : List Nat) (gz y : Tensor R) (gx : List R) : Outcome (List R) :=
  Plain.mmt gz y gxdims gx

/-- `grad::matmul<1>` (ops/gradients/matmul.hpp:41-49) with the built-in engine. -/
def matmul1 [Zero R] [Add R] [Mul R] (gydims : List Nat) (gz x : Tensor R) (gy : List R) : Outcome (List R) :=
  Plain.mtm x gz gydims gy

section
variable [Zero R] [One R] [Add R] [Sub R] [Mul R] [Neg R]

/-- `grad::softmax<0>` on vectors (ops/gradients/softmax.hpp:24-45): `n` is `x.size()`; `g` is freshly allocated, its
contents are `junk`. `gxdims` is the shape of `gx`. -/
def softmaxRow (junk : Nat → R) (gxdims : List Nat) (n : Nat) (gy y : Tensor R) (gx : List R) : Outcome (List R) := do
  let g ← forRange n (fun i g => forRange n (fun j g => do
    if i = j then
      let v ← y.at_ [i]
      wr g (offset [n, n] [i, j]) (v * (1 - v))
    else
      let a ← y.at_ [i]
      let b ← y.at_ [j]
      wr g (offset [n, n] [i, j]) (-a * b)) g) ((List.range (n * n)).map junk)
  Plain.vm gy ⟨[n, n], g⟩ gxdims gx

/-- `grad::softmax<0>` on matrices (ops/gradients/softmax.hpp:47-54); `x` is `rows` by `n`. -/
def softmax (junk : Nat → R) (gxdims : List Nat) (rows n : Nat) (gy y : Tensor R) (gx : List R) : Outcome (List R) :=
  forRange rows (fun i gx => onSlice (i * gxdims.tail.prod) gxdims.tail.prod
    (softmaxRow junk gxdims.tail n (gy.sub i) (y.sub i)) gx) gx

end

section
variable [Mul R] [Neg R] [Div R]

/-- `grad::xentropy<1>` on vectors (ops/gradients/xentropy.hpp:23-33): `n` is the size of `x`, `gz` the scalar. -/
def xentropyRow (n : Nat) (gz x y : List R) (gx : List R) : Outcome (List R) :=
  forRange n (fun i gx => do
    let c ← rd gz 0
    let a ← rd x i
    let b ← rd y i
    wr gx i (c * (-a / b))) gx

/-- `grad::xentropy<1>` on matrices (ops/gradients/xentropy.hpp:35-45). -/
def xentropy (gxdims : List Nat) (gz x y : Tensor R) (gx : List R) : Outcome (List R) :=
  match x.dims with
  | [rows, n] => forRange rows (fun i gx => onSlice (i * gxdims.tail.prod) gxdims.tail.prod
      (xentropyRow n (gz.sub i).data (x.sub i).data (y.sub i).data) gx) gx
  | _ => .ub

end

end Grad
end StdNN
