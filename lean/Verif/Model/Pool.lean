import Verif.Model.Im2col
import Verif.Model.Layout
/-!
# Model of pooling

ops/pool2d_trait.hpp, ops/pool.hpp, kernels/cpu/pool.hpp.
-/
namespace StdNN
open Outcome IntTy

/-- `pool_trait<hw>` (ops/pool2d_trait.hpp:16-34): the two samples, `dim_t = uint32_t`. -/
structure PoolTrait where
  h : Sample
  w : Sample
  deriving DecidableEq, Repr

namespace PoolTrait

/-- Constructor `(ksize, padding, stride)` (ops/pool2d_trait.hpp:92-97): rate 1. -/
def make (ksize : Nat × Nat) (padding : Padding × Padding) (stride : Nat × Nat) : Outcome PoolTrait := do
  let h ← Sample.make u32 ksize.1 stride.1 1 padding.1
  let w ← Sample.make u32 ksize.2 stride.2 1 padding.2
  return ⟨h, w⟩

/-- Constructor `(ksize, padding)` (ops/pool2d_trait.hpp:87-90). -/
def makeKP (ksize : Nat × Nat) (padding : Padding × Padding) : Outcome PoolTrait := make ksize padding ksize

/-- Constructor `(ksize, stride)` (ops/pool2d_trait.hpp:82-85), `padding(0, 0)` (lines 66-69). -/
def makeKS (ksize stride : Nat × Nat) : Outcome PoolTrait := make ksize (Padding.same 0, Padding.same 0) stride

/-- Constructor `(ksize)` (ops/pool2d_trait.hpp:77-80). -/
def makeK (ksize : Nat × Nat) : Outcome PoolTrait := makeKS ksize ksize

/-- Default constructor (ops/pool2d_trait.hpp:75), `default_ksize` (line 31). -/
def default : Outcome PoolTrait := makeK (2, 2)

/-- `get_ksize()` (ops/pool2d_trait.hpp:36-39). -/
def ksize (t : PoolTrait) : Nat × Nat := (t.h.filter.ksize.toNat, t.w.filter.ksize.toNat)

/-- `get_stride()` (ops/pool2d_trait.hpp:41-44). -/
def stride (t : PoolTrait) : Nat × Nat := (t.h.filter.stride.toNat, t.w.filter.stride.toNat)

/-- `operator()(shape<2>)` (ops/pool2d_trait.hpp:104-107): shape of `pool<algo, hw>`. -/
def outShape (t : PoolTrait) (x : Nat × Nat) : Outcome (Nat × Nat) := do
  let h ← t.h.outSize u32 x.1
  let w ← t.w.outSize u32 x.2
  return (h.toNat, w.toNat)

end PoolTrait

namespace Ops

/-- `pooled_shape<order>` (ops/pool.hpp:49-55), used by `pool<algo, nhwc>` (lines 65-68) and `pool<algo, nchw>`
(lines 87-90). -/
def pooledShape (o : Order) (t : PoolTrait) (x : List Nat) : Outcome (List Nat) := do
  let n ← batchSize o x
  let hw ← imageShape o x
  let hw' ← t.outShape hw
  let c ← channelSize o x
  batchedImageShape o n hw' c

end Ops

/-- An accumulator class (kernels/cpu/pool.hpp:47-58): its state, default constructor, call operator and conversion to
`R`. -/
structure Acc (R : Type) where
  S : Type
  init : S
  step : S → R → Outcome S
  result : S → Outcome R

namespace Acc
variable {R : Type}

/-- `max_accumulator<R>` (kernels/cpu/pool.hpp:13-28); `lowest` is `std::numeric_limits<R>::lowest()`. -/
def max [LT R] [DecidableLT R] (lowest : R) : Acc R where
  S := R
  init := lowest
  step v x := .ok (if x > v then x else v)
  result v := .ok v

/-- `mean_accumulator<R>` (kernels/cpu/pool.hpp:30-46) for a type whose addition and division cannot fail (floating
point); `divn s n` is `s / n` with the `uint32_t` count `n` converted to `R`. -/
def mean [Zero R] [Add R] (divn : R → Nat → R) : Acc R where
  S := R × Nat
  init := (0, 0)
  step st x := do
    let n ← u32.add st.2 1
    return (st.1 + x, n.toNat)
  result st := .ok (divn st.1 st.2)

/-- `mean_accumulator<int32_t>` (kernels/cpu/pool.hpp:30-46): `sum += x` in `int`; in `sum / n` the `int` operand is
converted to `uint32_t` and the quotient back to `int`. -/
def meanI32 : Acc Int where
  S := Int × Nat
  init := (0, 0)
  step st x := do
    let s ← i32.add st.1 x
    let n ← u32.add st.2 1
    return (s, n.toNat)
  result st := do
    let q ← u32.div (u32.conv st.1) st.2
    return i32.conv q

end Acc

namespace Kernels
variable {R : Type}

/-- `pool<host_memory, hw, algo, R>` (kernels/cpu/pool.hpp:71-93). -/
def poolHw (acc : Acc R) (t : PoolTrait) (ydims : List Nat) (x : Tensor R) (y : List R) : Outcome (List R) :=
  match x.dims, ydims with
  | [h, w], [h_, w_] =>
    forRange h_ (fun i_ y => forRange w_ (fun j_ y => do
      let st ← forRange t.ksize.1 (fun u st => forRange t.ksize.2 (fun v st => do
        let o ← locate t.h t.w h w i_ j_ u v
        match o with
        | some (a, b) => do
          let xv ← x.at_ [a, b]
          acc.step st xv
        | none => .ok st) st) acc.init
      let v ← acc.result st
      wr y (offset ydims [i_, j_]) v) y) y
  | _, _ => .ub

/-- `pool<host_memory, hwc, algo, R>` (kernels/cpu/pool.hpp:105-133). -/
def poolHwc (acc : Acc R) (t : PoolTrait) (ydims : List Nat) (x : Tensor R) (y : List R) : Outcome (List R) :=
  match x.dims, ydims with
  | [h, w, c], [h_, w_, c'] => do
    contractAssert (c = c')
    forRange c' (fun k y => forRange h_ (fun i_ y => forRange w_ (fun j_ y => do
      let st ← forRange t.ksize.1 (fun u st => forRange t.ksize.2 (fun v st => do
        let o ← locate t.h t.w h w i_ j_ u v
        match o with
        | some (a, b) => do
          let xv ← x.at_ [a, b, k]
          acc.step st xv
        | none => .ok st) st) acc.init
      let v ← acc.result st
      wr y (offset ydims [i_, j_, k]) v) y) y) y
  | _, _ => .ub

end Kernels

namespace Ops
variable {R : Type}

/-- `pool<algo, nhwc>` on tensors (ops/pool.hpp:70-76): the inner operator is built from kernel size and stride only. -/
def poolNhwc (acc : Acc R) (t : PoolTrait) (ydims : List Nat) (x : Tensor R) (y : List R) : Outcome (List R) := do
  let op ← PoolTrait.makeKS t.ksize t.stride
  match x.dims with
  | n :: _ => forRange n (fun i y =>
      onSlice (i * ydims.tail.prod) ydims.tail.prod (Kernels.poolHwc acc op ydims.tail (x.sub i)) y) y
  | [] => .ub

/-- `pool<algo, nchw>` on tensors (ops/pool.hpp:92-100). -/
def poolNchw (acc : Acc R) (t : PoolTrait) (ydims : List Nat) (x : Tensor R) (y : List R) : Outcome (List R) := do
  let op ← PoolTrait.makeKS t.ksize t.stride
  match x.dims with
  | n :: c :: _ => forRange n (fun i y => forRange c (fun j y =>
      onSlice (i * ydims.tail.prod) ydims.tail.prod (onSlice (j * ydims.tail.tail.prod) ydims.tail.tail.prod
        (Kernels.poolHw acc op ydims.tail.tail ((x.sub i).sub j))) y) y) y
  | _ => .ub

end Ops
end StdNN
