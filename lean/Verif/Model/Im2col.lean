import Verif.Model.Traits
import Verif.Basic.Tensor
/-!
# Model of im2col and col2im

include/ttl/nn/bits/kernels/cpu/im2col.hpp, kernels/cpu/col2im.hpp, ops/im2col.hpp, ops/col2im.hpp (`im2col_trait<hw>` is
`multi_linear_sample_trait<2, uint32_t>`), and the one-dimensional operators ops/im2col1d.hpp, ops/impl/im2col1d.hpp,
ops/col2im1d.hpp, ops/impl/col2im1d.hpp (whose dimension type is `int32_t`).

Outputs are buffers, their shape is passed as `ydims`. Freshly allocated tensors have arbitrary contents, given by a
parameter `junk`.
-/
namespace StdNN
open Outcome IntTy

/-- A freshly allocated buffer of `n` elements with indeterminate contents (`tensor<...> q(shape)`,
e.g. kernels/cpu/im2col.hpp:173). -/
def fresh {R : Type} (junk : Nat → R) (n : Nat) : List R := (List.range n).map junk

namespace Kernels
variable {R : Type} [Zero R] [Add R]

/-- The part shared by all two-dimensional kernels (kernels/cpu/im2col.hpp:34-38, 78-81, 110-113, 144-149;
kernels/cpu/col2im.hpp:32-36): sample both axes, test `inside` on both (short-circuit), `unpad` both. -/
def locate (hs ws : Sample) (h w i_ j_ u v : Nat) : Outcome (Option (Nat × Nat)) := do
  let i ← hs.tap u32 i_ u
  let j ← ws.tap u32 j_ v
  let inH ← hs.inside u32 i h
  let inHW ← if inH then ws.inside u32 j w else pure false
  if inHW then do
    let a ← hs.unpad u32 i
    let b ← ws.unpad u32 j
    return some (a.toNat, b.toNat)
  else return none

/-- `im2col_2d<hw, hwrs>` (kernels/cpu/im2col.hpp:68-88). -/
def im2colHwrs (t : MultiSample) (ydims : List Nat) (x : Tensor R) (y : List R) : Outcome (List R) :=
  match t, x.dims, ydims with
  | [hs, ws], [h, w], [h_, w_, r, s] =>
    forRange h_ (fun i_ y => forRange w_ (fun j_ y => forRange r (fun u y => forRange s (fun v y => do
      let o ← locate hs ws h w i_ j_ u v
      let value ← match o with
        | some (a, b) => x.at_ [a, b]
        | none => .ok 0
      wr y (offset ydims [i_, j_, u, v]) value) y) y) y) y
  | _, _, _ => .ub

/-- `im2col_2d<hw, rshw>` (kernels/cpu/im2col.hpp:100-120). -/
def im2colRshw (t : MultiSample) (ydims : List Nat) (x : Tensor R) (y : List R) : Outcome (List R) :=
  match t, x.dims, ydims with
  | [hs, ws], [h, w], [r, s, h_, w_] =>
    forRange r (fun u y => forRange s (fun v y => forRange h_ (fun i_ y => forRange w_ (fun j_ y => do
      let o ← locate hs ws h w i_ j_ u v
      let value ← match o with
        | some (a, b) => x.at_ [a, b]
        | none => .ok 0
      wr y (offset ydims [u, v, i_, j_]) value) y) y) y) y
  | _, _, _ => .ub

/-- `im2col_2d<hwc, hwrsc>` (kernels/cpu/im2col.hpp:132-157). -/
def im2colHwrsc (t : MultiSample) (ydims : List Nat) (x : Tensor R) (y : List R) : Outcome (List R) :=
  match t, x.dims, ydims with
  | [hs, ws], [h, w, c], [h_, w_, r, s, c'] => do
    contractAssert (c' = c)
    forRange h_ (fun i_ y => forRange w_ (fun j_ y => forRange r (fun u y => forRange s (fun v y =>
      forRange c (fun k y => do
        let o ← locate hs ws h w i_ j_ u v
        let value ← match o with
          | some (a, b) => x.at_ [a, b, k]
          | none => .ok 0
        wr y (offset ydims [i_, j_, u, v, k]) value) y) y) y) y) y
  | _, _, _ => .ub

/-- `im2col_idx_map::operator()(y, x_shape)` (kernels/cpu/im2col.hpp:22-43) with `N = int`: the flat offset of the sampled
element converted to `int`, or -1. -/
def idxMap (t : MultiSample) (ydims xdims : List Nat) (y : List Int) : Outcome (List Int) :=
  match t, xdims with
  | [hs, ws], [h, w, _] =>
    forRange ydims.prod (fun idx y =>
      match unravel ydims idx with
      | [i_, j_, u, v, k] => do
        let o ← locate hs ws h w i_ j_ u v
        match o with
        | some (a, b) => wr y idx (i32.conv (offset xdims [a, b, k]))
        | none => wr y idx (-1)
      | _ => .ub) y
  | _, _ => .ub

/-- `im2col_idx_map::operator()(z, y, x)` (kernels/cpu/im2col.hpp:45-56): gather through the map. -/
def idxGather (map : List Int) (x : List R) (z : List R) : Outcome (List R) :=
  forRange z.length (fun i z => do
    let j ← rd map i
    if 0 ≤ j then do
      let v ← rd x j.toNat
      wr z i v
    else wr z i 0) z

/-- `im2col_2d<nhwc, nhwrsc>` (kernels/cpu/im2col.hpp:169-176). -/
def im2colNhwrsc (t : MultiSample) (junk : Nat → Int) (ydims : List Nat) (x : Tensor R) (y : List R) :
    Outcome (List R) := do
  let sub := ydims.tail
  let q ← idxMap t sub x.dims.tail (fresh junk sub.prod)
  match x.dims with
  | n :: _ => forRange n (fun i y => onSlice (i * sub.prod) sub.prod (idxGather q (x.sub i).data) y) y
  | [] => .ub

/-- `col2im_2d<hwc, hwrsc>` (kernels/cpu/col2im.hpp:20-44). -/
def col2imHwrsc (t : MultiSample) (ydims : List Nat) (x : Tensor R) (y : List R) : Outcome (List R) :=
  match t, x.dims, ydims with
  | [hs, ws], [h_, w_, r, s, c], [h, w, c'] => do
    contractAssert (c' = c)
    let y ← fillAll 0 y
    forRange h_ (fun i_ y => forRange w_ (fun j_ y => forRange r (fun u y => forRange s (fun v y =>
      forRange c (fun k y => do
        let o ← locate hs ws h w i_ j_ u v
        match o with
        | some (a, b) => do
          let xv ← x.at_ [i_, j_, u, v, k]
          upd y (offset ydims [a, b, k]) (fun r => r + xv)
        | none => .ok y) y) y) y) y) y
  | _, _, _ => .ub

end Kernels

namespace Ops
variable {R : Type} [Zero R] [Add R]

/-- Per-axis sample results as unsigned dimensions of a `ttl::shape` (traits/multi_linear_sample.hpp:182-187 with
`dim_t = uint32_t`, traits/conv_traits.hpp:11). -/
def outShapeU32 (t : MultiSample) (x : List Nat) : Outcome (List Nat) := do
  let m ← t.outShape u32 (x.map fun d => (d : Int))
  return m.map Int.toNat

/-- Kernel shape as unsigned dimensions (`get_ksize()`, traits/multi_linear_sample.hpp:158-161). -/
def ksizeU32 (t : MultiSample) : List Nat := t.getKsize.map Int.toNat

/-- Shape of `im2col<hw, hwrs>` (ops/im2col.hpp:17-21). -/
def im2colHwrsShape (t : MultiSample) (x : List Nat) : Outcome (List Nat) := do
  let m ← outShapeU32 t x
  return m ++ ksizeU32 t

/-- Shape of `im2col<hw, rshw>` (ops/im2col.hpp:38-42). -/
def im2colRshwShape (t : MultiSample) (x : List Nat) : Outcome (List Nat) := do
  let m ← outShapeU32 t x
  return ksizeU32 t ++ m

/-- Shape of `im2col<hwc, hwrsc>` (ops/im2col.hpp:61-67). -/
def im2colHwrscShape (t : MultiSample) (x : List Nat) : Outcome (List Nat) :=
  match x with
  | [h, w, c] => do
    let m ← outShapeU32 t [h, w]
    return m ++ ksizeU32 t ++ [c]
  | _ => .ub

/-- `batched<Op>` on shapes (ops/combinators.hpp:14-19). -/
def batchedShape (op : List Nat → Outcome (List Nat)) (x : List Nat) : Outcome (List Nat) :=
  match x with
  | n :: sub => do
    let s ← op sub
    return n :: s
  | [] => .ub

/-- `batched<Op>` on tensors (ops/combinators.hpp:21-27). -/
def batched (op : List Nat → Tensor R → List R → Outcome (List R)) (ydims : List Nat) (x : Tensor R) (y : List R) :
    Outcome (List R) :=
  match x.dims with
  | n :: _ => forRange n (fun i y =>
      onSlice (i * ydims.tail.prod) ydims.tail.prod (op ydims.tail (x.sub i)) y) y
  | [] => .ub

/-- `origin_size` (ops/col2im.hpp:18-24), `dim_t = uint32_t`; `get_padding()(0)` is evaluated with `dim_t = int` and
converted back to `uint32_t` by the subtraction. -/
def originSize (m : Int) (t : Sample) : Outcome Int := do
  let a ← u32.sub m 1
  let b ← u32.mul a t.filter.stride
  let ps ← t.filter.patchSize u32
  let c ← u32.add b ps
  let p ← t.padding.apply u32 i32 0
  u32.sub c p

/-- Shape of `col2im<hwc, hwrsc>` (ops/col2im.hpp:27-35); `h`, `w` pass through `int` and back to the shape's `uint32_t`. -/
def col2imHwrscShape (t : MultiSample) (x : List Nat) : Outcome (List Nat) :=
  match t, x with
  | [hs, ws], [h_, w_, r, s, c] => do
    contractAssert (ksizeU32 t = [r, s])
    let h ← originSize h_ hs
    let w ← originSize w_ ws
    return [(u32.conv (i32.conv h)).toNat, (u32.conv (i32.conv w)).toNat, c]
  | _, _ => .ub

/-- Shape of `im2col1d` (ops/im2col1d.hpp:24-29); `(*this)(n)` has `dim_t = int32_t`. -/
def im2col1dShape (t : Sample) (x : List Nat) : Outcome (List Nat) :=
  match x with
  | [n] => do
    let m ← t.outSize i32 (i32.conv n)
    return [(u32.conv m).toNat, (u32.conv t.filter.ksize).toNat]
  | _ => .ub

/-- Value of an element index of type `int32_t` passed to `at` (which takes unsigned indices), ops/impl/col2im1d.hpp:16. -/
def idx32 (i : Int) : Nat := (u32.conv i).toNat

/-- `im2col1d::operator()(y, x)` (ops/impl/im2col1d.hpp:6-22). -/
def im2col1d (t : Sample) (ydims : List Nat) (x : Tensor R) (y : List R) : Outcome (List R) :=
  match x.dims, ydims with
  | [n], [m, k] =>
    forRange m (fun j y => forRange k (fun u y => do
      let i ← t.tap i32 (i32.conv j) (i32.conv u)
      let b ← t.inside i32 i (i32.conv n)
      if b then do
        let a ← t.unpad i32 i
        let v ← x.at_ [idx32 a]
        wr y (offset ydims [j, u]) v
      else wr y (offset ydims [j, u]) 0) y) y
  | _, _ => .ub

/-- Shape of `col2im1d` (ops/col2im1d.hpp:25-32): `m` is `uint32_t`, so `(m - 1) * stride + patch_size` is evaluated in
`uint32_t` and converted to `int`; `n - padding_(0)` is evaluated in `int`. -/
def col2im1dShape (t : Sample) (x : List Nat) : Outcome (List Nat) :=
  match x with
  | [m, k] => do
    contractAssert ((u32.conv t.filter.ksize) = (k : Int))
    let a ← u32.sub m 1
    let b ← u32.mul a t.filter.stride
    let ps ← t.filter.patchSize i32
    let c ← u32.add b ps
    let n := i32.conv c
    let p ← t.padding.apply i32 i32 0
    let d ← i32.sub n p
    return [(u32.conv d).toNat]
  | _ => .ub

/-- `col2im1d::operator()(y, x)` (ops/impl/col2im1d.hpp:7-19). -/
def col2im1d (t : Sample) (ydims : List Nat) (x : Tensor R) (y : List R) : Outcome (List R) :=
  match x.dims, ydims with
  | [m, k], [n] => do
    let y ← fillAll 0 y
    forRange m (fun j y => forRange k (fun u y => do
      let i ← t.tap i32 (i32.conv j) (i32.conv u)
      let b ← t.inside i32 i (i32.conv n)
      if b then do
        let a ← t.unpad i32 i
        let xv ← x.at_ [j, u]
        upd y (offset ydims [idx32 a]) (fun r => r + xv)
      else .ok y) y) y
  | _, _ => .ub

end Ops
end StdNN
