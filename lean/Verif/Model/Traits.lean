import Verif.Basic.IntTy
/-!
# Model of include/ttl/nn/bits/traits: padding, filter, linear sample

`N` is the template parameter of the C++ class, `D` the template parameter `dim_t` of the member functions
(equal to `N` except in `conv1d`, where `N = int32_t` and `D = uint32_t`).
Integer literals `0`, `1`, `2` of type `int` are taken to have the type of the other operand, which is what the
usual arithmetic conversions do for every type not narrower than `int`.
-/
namespace StdNN
open IntTy

/-- `linear_padding_trait<N>` (traits/padding.hpp:11-14): the two members `left_`, `right_`. -/
structure Padding where
  left : Int
  right : Int
  deriving DecidableEq, Repr

namespace Padding

/-- `linear_padding_trait(lr)` (traits/padding.hpp:19). -/
def same (lr : Int) : Padding := ⟨lr, lr⟩

/-- `default_pad_lr` (traits/padding.hpp:17). -/
def defaultPad : Padding := Padding.same 0

/-- `dim_t operator()(dim_t n) const` (traits/padding.hpp:23-26): `left_ + n + right_`. -/
def apply (N D : IntTy) (p : Padding) (n : Int) : Outcome Int := do
  let a ← (common N D).add p.left n
  let b ← (common N D).add a p.right
  return D.conv b

/-- `bool inside(dim_t i, dim_t n) const` (traits/padding.hpp:28-33), with short-circuit `&&`. -/
def inside (N : IntTy) (p : Padding) (i n : Int) : Outcome Bool :=
  if N.le p.left (N.conv i) then do
    let e ← N.add p.left (N.conv n)
    return N.lt (N.conv i) e
  else return false

/-- `dim_t unpad(dim_t i) const` (traits/padding.hpp:35): `i - left_`. -/
def unpad (N D : IntTy) (p : Padding) (i : Int) : Outcome Int := do
  let a ← (common N D).sub i p.left
  return D.conv a

end Padding

/-- `linear_filter_trait<N>` (traits/filter.hpp:12-16): members `ksize_`, `stride_`, `rate_`. -/
structure Filter where
  ksize : Int
  stride : Int
  rate : Int
  deriving DecidableEq, Repr

namespace Filter

/-- Constructor (traits/filter.hpp:23-41): each argument below 1 is rejected with `std::invalid_argument`. -/
def make (N : IntTy) (ksize stride rate : Int) : Outcome Filter :=
  if N.lt ksize 1 then .throw .invalidArgument
  else if N.lt stride 1 then .throw .invalidArgument
  else if N.lt rate 1 then .throw .invalidArgument
  else .ok ⟨ksize, stride, rate⟩

/-- `default_stride` (traits/filter.hpp:20). -/
def defaultStride : Int := 1
/-- `default_rate` (traits/filter.hpp:21). -/
def defaultRate : Int := 1

/-- `patch_size()` (traits/filter.hpp:49): `(ksize_ - 1) * rate_ + 1`. -/
def patchSize (N : IntTy) (f : Filter) : Outcome Int := do
  let a ← N.sub f.ksize 1
  let b ← N.mul a f.rate
  N.add b 1

/-- `dim_t operator()(dim_t n, const Padding &padding) const` (traits/filter.hpp:51-64). -/
def outSize (N D : IntTy) (f : Filter) (p : Padding) (n : Int) : Outcome Int := do
  let nPadded ← p.apply N D n
  let ps0 ← f.patchSize N
  let ps := D.conv ps0
  if D.lt nPadded ps then .throw .invalidArgument
  else do
    let d ← D.sub nPadded ps
    let m ← (common N D).mod d f.stride
    if m ≠ 0 then .throw .invalidArgument
    else do
      let q ← (common N D).div d f.stride
      let r ← (common N D).add q 1
      return D.conv r

/-- `dim_t operator()(dim_t j, dim_t k) const` (traits/filter.hpp:66-71): `j * stride_ + k * rate_`. -/
def tap (N D : IntTy) (f : Filter) (j k : Int) : Outcome Int := do
  let a ← (common N D).mul j f.stride
  let b ← (common N D).mul k f.rate
  let c ← (common N D).add a b
  return D.conv c

end Filter

/-- `linear_sample_trait<dim_t>` (traits/linear_sample.hpp:12-21): members `filter_`, `padding_`. -/
structure Sample where
  filter : Filter
  padding : Padding
  deriving DecidableEq, Repr

namespace Sample

/-- Constructors (traits/linear_sample.hpp:80-97); the one with `pad_lr` is `make N k s r (Padding.same pad_lr)`. -/
def make (N : IntTy) (ksize stride rate : Int) (p : Padding) : Outcome Sample := do
  let f ← Filter.make N ksize stride rate
  return ⟨f, p⟩

/-- `static dim_t patch_size(dim_t k, dim_t r)` (traits/linear_sample.hpp:35): `r * (k - 1) + 1`. -/
def patchSize (N : IntTy) (k r : Int) : Outcome Int := do
  let a ← N.sub k 1
  let b ← N.mul r a
  N.add b 1

/-- `even_padding` (traits/linear_sample.hpp:37-40). -/
def evenPadding (N : IntTy) (p : Int) : Outcome Padding := do
  let h ← N.div p 2
  let r ← N.sub p h
  return ⟨h, r⟩

/-- `valid_padding` (traits/linear_sample.hpp:42-48): `even_padding((ps + s - (n % s)) % s)`. -/
def validPadding (N : IntTy) (k s r n : Int) : Outcome Padding := do
  let ps ← patchSize N k r
  let a ← N.add ps s
  let b ← N.mod n s
  let c ← N.sub a b
  let d ← N.mod c s
  evenPadding N d

/-- `same_padding` (traits/linear_sample.hpp:50-58). -/
def samePadding (N : IntTy) (k s r n : Int) : Outcome Padding := do
  let ps ← patchSize N k r
  let n0 ← N.mod n s
  let e ← N.add s n0
  Outcome.contractAssert (N.le e ps = true)
  let a ← N.sub ps s
  let b ← N.sub a n0
  evenPadding N b

/-- `padding_policy` (traits/linear_sample.hpp:60): a function of ksize, stride, rate and input size. -/
def Policy := Int → Int → Int → Int → Outcome Padding

/-- `padding_valid()` (traits/linear_sample.hpp:63-66). -/
def paddingValid (N : IntTy) : Policy := validPadding N
/-- `padding_same()` (traits/linear_sample.hpp:69-72). -/
def paddingSame (N : IntTy) : Policy := samePadding N
/-- `padding_fixed(p)` (traits/linear_sample.hpp:74-77). -/
def paddingFixed (p : Padding) : Policy := fun _ _ _ _ => .ok p

/-- `operator()(n)` (traits/linear_sample.hpp:111). -/
def outSize (N : IntTy) (t : Sample) (n : Int) : Outcome Int := t.filter.outSize N N t.padding n

/-- `operator()(j, k)` (traits/linear_sample.hpp:113). -/
def tap (N : IntTy) (t : Sample) (j k : Int) : Outcome Int := t.filter.tap N N j k

/-- `inside(i, n)` (traits/linear_sample.hpp:115). -/
def inside (N : IntTy) (t : Sample) (i n : Int) : Outcome Bool := t.padding.inside N i n

/-- `unpad(i)` (traits/linear_sample.hpp:117). -/
def unpad (N : IntTy) (t : Sample) (i : Int) : Outcome Int := t.padding.unpad N N i

end Sample

/-- `multi_linear_sample_trait<r, dim_t>` (traits/multi_linear_sample.hpp:34-50): one sample per axis, also when it is
built from given samples or read by `samples()` (lines 151-155, 168). -/
abbrev MultiSample := List Sample

namespace MultiSample

/-- The constructor with all arguments and `construct` (traits/multi_linear_sample.hpp:144-149, 171-180); `ksize(...)`,
`stride(...)` and `rate(...)` (lines 101-120) only name the vectors. The four vectors have the static length `r` in C++;
here differing lengths (impossible in C++) are `ub`. -/
def make (N : IntTy) : List Int → List Padding → List Int → List Int → Outcome MultiSample
  | [], [], [], [] => .ok []
  | k :: ks, p :: ps, s :: ss, r :: rs => do
    let t ← Sample.make N k s r p
    let ts ← make N ks ps ss rs
    return t :: ts
  | _, _, _, _ => .ub

/-- Constructor `(ksize, padding, stride)` (traits/multi_linear_sample.hpp:138-142): rate defaults to 1 on every axis
(`default_rate`, `replicate_construct`, lines 14-24, 58-62). -/
def makeKPS (N : IntTy) (ks : List Int) (ps : List Padding) (ss : List Int) : Outcome MultiSample :=
  make N ks ps ss (ks.map fun _ => Filter.defaultRate)

/-- Constructor `(ksize, stride)` (traits/multi_linear_sample.hpp:133-136): padding 0 (`default_padding`, `replicate`,
lines 26-31, 64-68). -/
def makeKS (N : IntTy) (ks ss : List Int) : Outcome MultiSample :=
  makeKPS N ks (ks.map fun _ => Padding.defaultPad) ss

/-- Constructor `(ksize, padding)` (traits/multi_linear_sample.hpp:128-131): stride 1 (`default_stride`, lines 52-56). -/
def makeKP (N : IntTy) (ks : List Int) (ps : List Padding) : Outcome MultiSample :=
  makeKPS N ks ps (ks.map fun _ => Filter.defaultStride)

/-- Constructor `(ksize)` (traits/multi_linear_sample.hpp:123-126). -/
def makeK (N : IntTy) (ks : List Int) : Outcome MultiSample :=
  makeKPS N ks (ks.map fun _ => Padding.defaultPad) (ks.map fun _ => Filter.defaultStride)

/-- `get_ksize()` (traits/multi_linear_sample.hpp:158-161, 189-194). -/
def getKsize (t : MultiSample) : List Int := t.map fun s => s.filter.ksize

/-- `operator()(shape)` (traits/multi_linear_sample.hpp:163-166, 182-187). Different ranks cannot occur in C++. -/
def outShape (N : IntTy) : MultiSample → List Int → Outcome (List Int)
  | [], [] => .ok []
  | t :: ts, n :: ns => do
    let m ← t.outSize N n
    let ms ← outShape N ts ns
    return m :: ms
  | _, _ => .ub

end MultiSample
end StdNN
