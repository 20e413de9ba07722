import Verif.Model.Activation
import Verif.Model.Conv
import Verif.Model.Pool
/-!
# Operators whose output shares memory with an input

`tensor_ref` and `tensor_view` are pointers with a shape, and no operator of /repo checks that its arguments are separate.
The definitions here repeat matrix products, transposes, gradients, convolution and pooling with every input being a `Src`:
in separate memory or at an address of the memory `m` that also holds the output (at address `z`). Reads see what the call
itself has written so far. `Model/Elementwise.lean` and `Model/Activation.lean` do the same for the other operators.

Matrix products are those of the built-in engine; a BLAS library (engines/cblas_impl.hpp) forbids sharing altogether.
The ranks are static in C++; other ranks (impossible there) are `ub`.
-/
namespace StdNN
open Outcome
variable {R : Type}

/-- `x.at(i, j, ...)` for an input of shape `dims` while the output memory is `m` (e.g. engines/plain_impl.hpp:34). -/
def Src.at_ (x : Src R) (dims idx : List Nat) (m : List R) : Outcome R := x.rd m (offset dims idx)

/-- The elements of an input as they are while the output memory is `m`: what a callee reads that writes to fresh memory only
(`x` at kernels/cpu/conv2d.hpp:45 and 78, `gz` and `y` at ops/gradients/conv2d.hpp:38-41). -/
def Src.now (x : Src R) (dims : List Nat) (m : List R) : Tensor R :=
  match x with
  | .ext b => ⟨dims, b⟩
  | .mem p => ⟨dims, (m.drop p).take dims.prod⟩

namespace Shared

section
variable [Add R] [Mul R] [Zero R]

/-- `plain_impl<T>::mm` (engines/plain_impl.hpp:23-38): the output is cleared before anything is read. -/
def mm (ad bd cd : List Nat) (a b : Src R) (z : Nat) (mem : List R) : Outcome (List R) :=
  match ad, bd, cd with
  | [m, l], [l', n], [cm, cn] => do
    contractAssert (l' = l)
    contractAssert (m = cm)
    contractAssert (n = cn)
    let mem ← onSlice z cd.prod (fillAll 0) mem
    forRange m (fun i mem =>
      forRange l (fun k mem => do
        let aa ← a.at_ ad [i, k] mem
        forRange n (fun j mem => do
          let bb ← b.at_ bd [k, j] mem
          upd mem (z + offset cd [i, j]) (fun x => x + aa * bb)) mem) mem) mem
  | _, _, _ => .ub

/-- `plain_impl<T>::mmt` (engines/plain_impl.hpp:41-56), the product of `grad::matmul<0>` (ops/gradients/matmul.hpp:21-29). -/
def mmt (ad bd cd : List Nat) (a b : Src R) (z : Nat) (mem : List R) : Outcome (List R) :=
  match ad, bd, cd with
  | [m, l], [n, l'], [cm, cn] => do
    contractAssert (l' = l)
    contractAssert (m = cm)
    contractAssert (n = cn)
    forRange m (fun i mem =>
      forRange n (fun j mem => do
        let tmp ← forRange l (fun k tmp => do
          let aa ← a.at_ ad [i, k] mem
          let bb ← b.at_ bd [j, k] mem
          return tmp + aa * bb) 0
        wr mem (z + offset cd [i, j]) tmp) mem) mem
  | _, _, _ => .ub

/-- `plain_impl<T>::mtm` (engines/plain_impl.hpp:59-74), the product of `grad::matmul<1>` (ops/gradients/matmul.hpp:41-49). -/
def mtm (ad bd cd : List Nat) (a b : Src R) (z : Nat) (mem : List R) : Outcome (List R) :=
  match ad, bd, cd with
  | [l, m], [l', n], [cm, cn] => do
    contractAssert (l' = l)
    contractAssert (m = cm)
    contractAssert (n = cn)
    forRange m (fun i mem =>
      forRange n (fun j mem => do
        let tmp ← forRange l (fun k tmp => do
          let aa ← a.at_ ad [k, i] mem
          let bb ← b.at_ bd [k, j] mem
          return tmp + aa * bb) 0
        wr mem (z + offset cd [i, j]) tmp) mem) mem
  | _, _, _ => .ub

/-- `plain_impl<T>::mv` (engines/plain_impl.hpp:77-88). -/
def mv (ad bd cd : List Nat) (a b : Src R) (z : Nat) (mem : List R) : Outcome (List R) :=
  match ad, bd, cd with
  | [m, n], [n'], [cm] => do
    contractAssert (n = n')
    contractAssert (m = cm)
    forRange m (fun i mem => do
      let tmp ← forRange n (fun j tmp => do
        let aa ← a.at_ ad [i, j] mem
        let bb ← b.at_ bd [j] mem
        return tmp + aa * bb) 0
      wr mem (z + offset cd [i]) tmp) mem
  | _, _, _ => .ub

/-- `plain_impl<T>::vm` (engines/plain_impl.hpp:91-102). -/
def vm (ad bd cd : List Nat) (a b : Src R) (z : Nat) (mem : List R) : Outcome (List R) :=
  match ad, bd, cd with
  | [m'], [m, n], [cn] => do
    contractAssert (m = m')
    contractAssert (n = cn)
    forRange n (fun i mem => do
      let tmp ← forRange m (fun j tmp => do
        let aa ← a.at_ ad [j] mem
        let bb ← b.at_ bd [j, i] mem
        return tmp + aa * bb) 0
      wr mem (z + offset cd [i]) tmp) mem
  | _, _, _ => .ub

end

/-- `transpose<nchw, nhwc>` (ops/transpose.hpp:25-40); sharing memory needs one element type. -/
def toFirst (f : R → R) (xd yd : List Nat) (x : Src R) (z : Nat) (mem : List R) : Outcome (List R) :=
  match xd with
  | [n, h, w, c] =>
    forRange n (fun l mem => forRange c (fun k mem => forRange h (fun i mem => forRange w (fun j mem => do
      let v ← x.at_ xd [l, i, j, k] mem
      wr mem (z + offset yd [l, k, i, j]) (f v)) mem) mem) mem) mem
  | _ => .ub

/-- `transpose<nhwc, nchw>` (ops/transpose.hpp:52-67). -/
def toLast (f : R → R) (xd yd : List Nat) (x : Src R) (z : Nat) (mem : List R) : Outcome (List R) :=
  match xd with
  | [n, c, h, w] =>
    forRange n (fun l mem => forRange h (fun i mem => forRange w (fun j mem => forRange c (fun k mem => do
      let v ← x.at_ xd [l, k, i, j] mem
      wr mem (z + offset yd [l, i, j, k]) (f v)) mem) mem) mem) mem
  | _ => .ub

/-- Generic `apply_bias` (kernels/cpu/bias.hpp:20-30) with the bias `y` wherever it is: `dims` is the shape of `x`, `p` the bias
position. -/
def applyBias (f : R → R → R) (p : Nat) (dims : List Nat) (x y : Src R) (z : Nat) (mem : List R) : Outcome (List R) :=
  forRange dims.prod (fun i mem => do
    let a ← x.rd mem i
    let b ← y.rd mem ((unravel dims i).getD p 0)
    wr mem (z + i) (f a b)) mem

/-- `outter_contraction` (kernels/cpu/reduce.hpp:28-34) of a `rows` by `cols` matrix, wherever it is: the gradient of a bias
(ops/gradients/bias.hpp:49-56, 69-76). -/
def sumRows [Zero R] [Add R] (rows cols : Nat) (x : Src R) (z : Nat) (mem : List R) : Outcome (List R) := do
  let mem ← onSlice z cols (fillAll 0) mem
  forRange rows (fun i mem => Kernels.transform2 (· + ·) cols (.mem z) (x.shift (i * cols)) z mem) mem

/-- `grad::mul<0>` (ops/gradients/mul.hpp:20-27) with `other = y`, `grad::mul<1>` (lines 38-45) with `other = x`; `n` is the
number of elements. -/
def mulGrad [Zero R] [Mul R] (n : Nat) (gz other : Src R) (g : Nat) (mem : List R) : Outcome (List R) :=
  Ops.mul n gz other g mem

/-- `grad::add<0>` and `grad::add<1>` (ops/gradients/add.hpp:20-27, 38-45), `grad::add_bias<order, 0>`
(ops/gradients/bias.hpp:29-36), `grad::copy_flatten<rs...>` (ops/gradients/reshape.hpp:22-29) and `copy_flatten<rs...>`
(ops/reshape.hpp:33-38): all are one `std::copy` of `n` elements. -/
def copyGrad (n : Nat) (gz : Src R) (g : Nat) (mem : List R) : Outcome (List R) := Kernels.copy n gz g mem

section
variable [Zero R] [One R] [Add R] [Sub R] [Mul R] [Neg R]

/-- `grad::softmax<0>` on vectors (ops/gradients/softmax.hpp:24-45): the matrix `g` is filled in fresh memory (contents
`junk`) before `gx` is written. -/
def softmaxGradRow (junk : Nat → R) (n : Nat) (gy y : Src R) (gx : Nat) (mem : List R) : Outcome (List R) := do
  let g ← forRange n (fun i g => forRange n (fun j g => do
    if i = j then
      let v ← y.at_ [n] [i] mem
      wr g (offset [n, n] [i, j]) (v * (1 - v))
    else
      let a ← y.at_ [n] [i] mem
      let b ← y.at_ [n] [j] mem
      wr g (offset [n, n] [i, j]) (-a * b)) g) ((List.range (n * n)).map junk)
  vm [n] [n, n] [n] gy (.ext g) gx mem

/-- `grad::softmax<0>` on matrices (ops/gradients/softmax.hpp:47-54); all are `rows` by `n`. -/
def softmaxGrad (junk : Nat → R) (rows n : Nat) (gy y : Src R) (gx : Nat) (mem : List R) : Outcome (List R) :=
  forRange rows (fun i mem => softmaxGradRow junk n (gy.shift (i * n)) (y.shift (i * n)) (gx + i * n) mem) mem

end

/-- `grad::xentropy<1>` (ops/gradients/xentropy.hpp:23-45): `x`, `y` and `gx` are `rows` by `n`, `gz` has `rows` entries in
separate memory. -/
def xentropyGrad [Mul R] [Neg R] [Div R] (rows n : Nat) (gz : List R) (x y : Src R) (gx : Nat) (mem : List R) :
    Outcome (List R) :=
  forRange rows (fun i mem => forRange n (fun j mem => do
    let c ← rd gz i
    let a ← (x.shift (i * n)).rd mem j
    let b ← (y.shift (i * n)).rd mem j
    wr mem (gx + i * n + j) (c * (-a / b))) mem) mem

section
variable [Zero R] [Add R] [Mul R]

/-- `conv2d<host_memory, nhwc, rscd, R>` (kernels/cpu/conv2d.hpp:28-52): all patches of all examples are copied to fresh
memory before the product writes `z`. -/
def convNhwc (t : ConvTrait) (junkI : Nat → Int) (junk : Nat → R) (zd xd yd : List Nat) (x y : Src R) (z : Nat)
    (mem : List R) : Outcome (List R) := do
  let (r, s) ← filterShape .rscd yd
  let hs ← t.h.getSample r
  let ws ← t.w.getSample s
  let upper ← Ops.batchedShape (Ops.im2colHwrscShape [hs, ws]) xd
  let xUpper ← Kernels.im2colNhwrsc [hs, ws] junkI upper (x.now xd mem) (fresh junk upper.prod)
  mm (asMatrix 3 upper) (asMatrix 3 yd) (asMatrix 3 zd) (.ext xUpper) y z mem

/-- `conv2d<host_memory, nchw, dcrs, R>` (kernels/cpu/conv2d.hpp:66-82): the patches of an example are copied when its turn
comes, after the results of the examples before it have been written. -/
def convNchw (t : ConvTrait) (junk : Nat → R) (zd xd yd : List Nat) (x y : Src R) (z : Nat) (mem : List R) :
    Outcome (List R) := do
  let (r, s) ← filterShape .dcrs yd
  let hs ← t.h.getSample r
  let ws ← t.w.getSample s
  let upper ← Ops.batchedShape (Ops.im2colRshwShape [hs, ws]) xd.tail
  let n ← batchSize .nchw zd
  let st ← forRange n (fun l (st : List R × List R) => do
    let xl := (x.shift (l * xd.tail.prod)).now xd.tail st.2
    let xUpper ← Ops.batched (Kernels.im2colRshw [hs, ws]) upper xl st.1
    let mem ← mm (asMatrix 1 yd) (asMatrix 3 upper) (asMatrix 1 zd.tail) y (.ext xUpper) (z + l * zd.tail.prod) st.2
    return (xUpper, mem)) (fresh junk upper.prod, mem)
  return st.2

/-- `grad::conv<nhwc, rscd, 0>` (ops/gradients/conv2d.hpp:22-44): the product of `gz` and the filter goes to fresh memory
before `col2im` clears and writes `gx`. -/
def convGradX (t : ConvTrait) (junk : Nat → R) (gxd gzd yd : List Nat) (gz y : Src R) (gx : Nat) (mem : List R) :
    Outcome (List R) := do
  let (r, s) ← filterShape .rscd yd
  let hs ← t.h.getSample r
  let ws ← t.w.getSample s
  let upper ← Ops.batchedShape (Ops.im2colHwrscShape [hs, ws]) gxd
  let gxUpper ← Plain.mmt ((gz.now gzd mem).withDims (asMatrix 3 gzd)) ((y.now yd mem).withDims (asMatrix 3 yd))
    (asMatrix 3 upper) (fresh junk upper.prod)
  onSlice gx gxd.prod (Ops.batched (Kernels.col2imHwrsc [hs, ws]) gxd ⟨upper, gxUpper⟩) mem

end

/-- `pool<host_memory, hw, algo, R>` (kernels/cpu/pool.hpp:71-93). -/
def poolHw (acc : Acc R) (t : PoolTrait) (yd xd : List Nat) (x : Src R) (y : Nat) (mem : List R) : Outcome (List R) :=
  match xd, yd with
  | [h, w], [h_, w_] =>
    forRange h_ (fun i_ mem => forRange w_ (fun j_ mem => do
      let st ← forRange t.ksize.1 (fun u st => forRange t.ksize.2 (fun v st => do
        let o ← Kernels.locate t.h t.w h w i_ j_ u v
        match o with
        | some (a, b) => do
          let xv ← x.at_ xd [a, b] mem
          acc.step st xv
        | none => .ok st) st) acc.init
      let v ← acc.result st
      wr mem (y + offset yd [i_, j_]) v) mem) mem
  | _, _ => .ub

/-- `pool<algo, nchw>` on tensors (ops/pool.hpp:92-100). -/
def poolNchw (acc : Acc R) (t : PoolTrait) (yd xd : List Nat) (x : Src R) (y : Nat) (mem : List R) : Outcome (List R) := do
  let op ← PoolTrait.makeKS t.ksize t.stride
  match xd with
  | n :: c :: _ => forRange n (fun i mem => forRange c (fun j mem =>
      poolHw acc op yd.tail.tail xd.tail.tail (x.shift (i * xd.tail.prod + j * xd.tail.tail.prod))
        (y + i * yd.tail.prod + j * yd.tail.tail.prod) mem) mem) mem
  | _ => .ub

/-- `pool<host_memory, hwc, algo, R>` (kernels/cpu/pool.hpp:105-133). -/
def poolHwc (acc : Acc R) (t : PoolTrait) (yd xd : List Nat) (x : Src R) (y : Nat) (mem : List R) : Outcome (List R) :=
  match xd, yd with
  | [h, w, c], [h_, w_, c'] => do
    contractAssert (c = c')
    forRange c' (fun k mem => forRange h_ (fun i_ mem => forRange w_ (fun j_ mem => do
      let st ← forRange t.ksize.1 (fun u st => forRange t.ksize.2 (fun v st => do
        let o ← Kernels.locate t.h t.w h w i_ j_ u v
        match o with
        | some (a, b) => do
          let xv ← x.at_ xd [a, b, k] mem
          acc.step st xv
        | none => .ok st) st) acc.init
      let v ← acc.result st
      wr mem (y + offset yd [i_, j_, k]) v) mem) mem) mem
  | _, _ => .ub

/-- `pool<algo, nhwc>` on tensors (ops/pool.hpp:70-76). -/
def poolNhwc (acc : Acc R) (t : PoolTrait) (yd xd : List Nat) (x : Src R) (y : Nat) (mem : List R) : Outcome (List R) := do
  let op ← PoolTrait.makeKS t.ksize t.stride
  match xd with
  | n :: _ => forRange n (fun i mem =>
      poolHwc acc op yd.tail xd.tail (x.shift (i * xd.tail.prod)) (y + i * yd.tail.prod) mem) mem
  | _ => .ub

end Shared
end StdNN
