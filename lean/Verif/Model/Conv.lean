import Verif.Model.Im2col
import Verif.Model.Layout
import Verif.Model.Engine
/-!
# Model of the convolutions and of their gradients

ops/conv2d_trait.hpp, ops/conv2d.hpp, kernels/cpu/conv2d.hpp, ops/gradients/conv2d.hpp, ops/conv1d.hpp,
ops/impl/conv1d.hpp, ops/reshape.hpp. The engine is the built-in one (see C19 for the other).
-/
namespace StdNN
open Outcome IntTy

/-- `linear_conv_trait<dim_t>` (ops/conv2d_trait.hpp:8-62), built by the constructor at lines 48-54. -/
structure LinConv where
  padL : Int
  padR : Int
  rate : Int
  stride : Int
  deriving DecidableEq, Repr

namespace LinConv

/-- Constructor (ops/conv2d_trait.hpp:48-54). The shorter constructors (lines 32-46) end in a call of the undeclared
name `paddint` and cannot be instantiated. -/
def make (pad : Padding) (stride rate : Int) : LinConv := ⟨pad.left, pad.right, rate, stride⟩

/-- `get_sample` (ops/conv2d_trait.hpp:56-59). -/
def getSample (t : LinConv) (ksize : Int) : Outcome Sample :=
  Sample.make u32 ksize t.stride t.rate ⟨t.padL, t.padR⟩

/-- `operator()(n, k)` (ops/conv2d_trait.hpp:61). -/
def outSize (t : LinConv) (n k : Int) : Outcome Int := do
  let s ← t.getSample k
  s.outSize u32 n

end LinConv

/-- `conv_trait<hw>` (ops/conv2d_trait.hpp:67-168): one linear trait per axis. -/
structure ConvTrait where
  h : LinConv
  w : LinConv
  deriving DecidableEq, Repr

namespace ConvTrait

/-- Constructor from padding, stride and rate (ops/conv2d_trait.hpp:130-135). -/
def make (padding : Padding × Padding) (stride rate : Int × Int) : ConvTrait :=
  ⟨LinConv.make padding.1 stride.1 rate.1, LinConv.make padding.2 stride.2 rate.2⟩

/-- Constructor from padding and stride (ops/conv2d_trait.hpp:125-128). -/
def makePS (padding : Padding × Padding) (stride : Int × Int) : ConvTrait := make padding stride (1, 1)
/-- Constructor from padding (ops/conv2d_trait.hpp:117-119). -/
def makeP (padding : Padding × Padding) : ConvTrait := makePS padding (1, 1)
/-- `default_padding` (ops/conv2d_trait.hpp:91, 101-104). -/
def defaultPadding : Padding × Padding := (Padding.same 0, Padding.same 0)
/-- Constructor from stride (ops/conv2d_trait.hpp:121-123). -/
def makeS (stride : Int × Int) : ConvTrait := makePS defaultPadding stride
/-- Default constructor (ops/conv2d_trait.hpp:115). -/
def default : ConvTrait := makeP defaultPadding

/-- `infer<image_order, filter_order>` (ops/conv2d_trait.hpp:146-163). -/
def infer (t : ConvTrait) (io : Order) (fo : FOrder) (x y : List Nat) : Outcome (List Nat) := do
  let n ← batchSize io x
  let hw ← imageShape io x
  let c ← channelSize io x
  let rs ← filterShape fo y
  let cy ← filterIn fo y
  contractAssert (cy = c)
  let d ← filterOut fo y
  let h_ ← t.h.outSize hw.1 rs.1
  let w_ ← t.w.outSize hw.2 rs.2
  batchedImageShape io n (h_.toNat, w_.toNat) d

end ConvTrait

/-- Dimensions of `as_matrix<p, q>` (ops/reshape.hpp:6-18, `ttl::internal::flatten_shape<p, q>`). -/
def asMatrix (p : Nat) (dims : List Nat) : List Nat := [(dims.take p).prod, (dims.drop p).prod]

namespace Kernels
variable {R : Type} [Zero R] [Add R] [Mul R]

/-- `conv2d<host_memory, nhwc, rscd, R>` (kernels/cpu/conv2d.hpp:28-52). -/
def convNhwc (t : ConvTrait) (junkI : Nat → Int) (junk : Nat → R) (zdims : List Nat) (x y : Tensor R) (z : List R) :
    Outcome (List R) := do
  let (r, s) ← filterShape .rscd y.dims
  let hs ← t.h.getSample r
  let ws ← t.w.getSample s
  let upper ← Ops.batchedShape (Ops.im2colHwrscShape [hs, ws]) x.dims
  let xUpper ← im2colNhwrsc [hs, ws] junkI upper x (fresh junk upper.prod)
  Plain.mm ⟨asMatrix 3 upper, xUpper⟩ (y.withDims (asMatrix 3 y.dims)) (asMatrix 3 zdims) z

/-- `conv2d<host_memory, nchw, dcrs, R>` (kernels/cpu/conv2d.hpp:66-82). The scratch tensor `x_upper` is allocated once and
overwritten in every iteration. -/
def convNchw (t : ConvTrait) (junk : Nat → R) (zdims : List Nat) (x y : Tensor R) (z : List R) :
    Outcome (List R) := do
  let (r, s) ← filterShape .dcrs y.dims
  let hs ← t.h.getSample r
  let ws ← t.w.getSample s
  let upper ← Ops.batchedShape (Ops.im2colRshwShape [hs, ws]) x.dims.tail
  let n ← batchSize .nchw zdims
  let st ← forRange n (fun l (st : List R × List R) => do
    let xUpper ← Ops.batched (im2colRshw [hs, ws]) upper (x.sub l) st.1
    let z ← onSlice (l * zdims.tail.prod) zdims.tail.prod
      (Plain.mm (y.withDims (asMatrix 1 y.dims)) ⟨asMatrix 3 upper, xUpper⟩ (asMatrix 1 zdims.tail)) st.2
    return (xUpper, z)) (fresh junk upper.prod, z)
  return st.2

/-- `grad::conv<nhwc, rscd, 0>` (ops/gradients/conv2d.hpp:22-44). -/
def convGradX (t : ConvTrait) (junk : Nat → R) (gxdims : List Nat) (gz y : Tensor R) (gx : List R) :
    Outcome (List R) := do
  let (r, s) ← filterShape .rscd y.dims
  let hs ← t.h.getSample r
  let ws ← t.w.getSample s
  let upper ← Ops.batchedShape (Ops.im2colHwrscShape [hs, ws]) gxdims
  let gxUpper ← Plain.mmt (gz.withDims (asMatrix 3 gz.dims)) (y.withDims (asMatrix 3 y.dims)) (asMatrix 3 upper)
    (fresh junk upper.prod)
  Ops.batched (col2imHwrsc [hs, ws]) gxdims ⟨upper, gxUpper⟩ gx

/-- `grad::conv<nhwc, rscd, 1>` (ops/gradients/conv2d.hpp:56-75). -/
def convGradY (t : ConvTrait) (junk : Nat → R) (gydims : List Nat) (gz x : Tensor R) (gy : List R) :
    Outcome (List R) := do
  let (r, s) ← filterShape .rscd gydims
  let hs ← t.h.getSample r
  let ws ← t.w.getSample s
  let upper ← Ops.batchedShape (Ops.im2colHwrscShape [hs, ws]) x.dims
  let xUpper ← Ops.batched (im2colHwrsc [hs, ws]) upper x (fresh junk upper.prod)
  Plain.mtm ⟨asMatrix 3 upper, xUpper⟩ (gz.withDims (asMatrix 3 gz.dims)) (asMatrix 3 gydims) gy

end Kernels

/-- `conv1d_trait` (ops/conv1d.hpp:9-27): `N = int32_t`. -/
structure Conv1d where
  stride : Int
  rate : Int
  padding : Padding
  deriving DecidableEq, Repr

namespace Conv1d
variable {R : Type} [Zero R] [Add R] [Mul R]

/-- Shape function (ops/conv1d.hpp:37-43); the input length has the type `uint32_t` of the shape, the filter size is
converted to `int32_t` by the constructor. -/
def shape (t : Conv1d) (x y : List Nat) : Outcome (List Nat) :=
  match x, y with
  | [n], [k] => do
    let f ← Filter.make i32 (i32.conv k) t.stride t.rate
    let m ← f.outSize i32 u32 t.padding n
    return [m.toNat]
  | _, _ => .ub

/-- `conv1d::operator()(z, x, y)` (ops/impl/conv1d.hpp:7-24). -/
def run (t : Conv1d) (zdims : List Nat) (x y : Tensor R) (z : List R) : Outcome (List R) :=
  match zdims, x.dims, y.dims with
  | [m], [n], [k] => do
    let f ← Filter.make i32 (i32.conv k) t.stride t.rate
    forRange m (fun j z => do
      let xi ← forRange k (fun u (xi : R) => do
        let i ← f.tap i32 u32 j u
        let b ← t.padding.inside i32 i n
        if b then do
          let yv ← rd y.data u
          let a ← t.padding.unpad i32 u32 i
          let xv ← rd x.data a.toNat
          return xi + yv * xv
        else return xi) 0
      wr z j xi) z
  | _, _, _ => .ub

end Conv1d
end StdNN
