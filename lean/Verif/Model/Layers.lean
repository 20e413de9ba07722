import Verif.Model.Activation
import Verif.Model.Pool
import Verif.Model.Conv
import Verif.Model.Shape
import Verif.Model.Elementwise
/-!
# Model of the layers

layers/*.hpp. A layer allocates its parameters and its output with `new`, fills them and hands them to a `layer` object that
owns them. The model counts the tensors that are still allocated when a call ends, because the raw pointers held before the
`layer` object exists are not released when something throws.
-/
namespace StdNN
open Outcome IntTy

/-- A computation that allocates: `live` tensors more than before are allocated when it ends, by returning, throwing or
undefined behaviour. Models the bare `new` of layers/call.hpp:9, 17. -/
structure Alloc (α : Type) where
  live : Int
  out : Outcome α
  deriving DecidableEq, Repr

namespace Alloc
variable {α β : Type}

/-- Sequencing (`;` in a function body): what is allocated adds up; there is no clean-up on an exception, since only raw
pointers are held (layers/dense.hpp:39-43, layers/conv.hpp:117-123, 142-150). -/
protected def bind (x : Alloc α) (f : α → Alloc β) : Alloc β :=
  match x.out with
  | .ok a => ⟨x.live + (f a).live, (f a).out⟩
  | .throw e => ⟨x.live, .throw e⟩
  | .ub => ⟨x.live, .ub⟩

instance : Monad Alloc where
  pure a := ⟨0, .ok a⟩
  bind := Alloc.bind

/-- A call that allocates nothing which outlives it (operators only use local tensors, which are released), e.g.
layers/dense.hpp:42-43. -/
def lift (o : Outcome α) : Alloc α := ⟨0, o⟩

/-- The destructor of a local object that owns `n` tensors, run when the scope ends in whatever way
(layers/layer.hpp:11-13). -/
def freeing (n : Nat) (x : Alloc α) : Alloc α := ⟨x.live - n, x.out⟩

end Alloc

/-- `layer<T, Ts...>` (layers/layer.hpp:8-30): owner of the output and the parameters, in order. -/
structure Layer (R : Type) where
  output : Tensor R
  weights : List (Tensor R)
  deriving DecidableEq, Repr

/-- Number of tensors owned by a layer (layers/layer.hpp:11-13, 16). -/
def Layer.size {R : Type} (l : Layer R) : Nat := 1 + l.weights.length

/-- An initialiser called on a tensor (layers/call.hpp:18): gets the shape and the old contents, returns the new contents. -/
abbrev Init (R : Type) := List Nat → List R → Outcome (List R)

/-- The call `Act()(ref(*y), view(*y))` (layers/dense.hpp:43, layers/conv.hpp:122, 149, layers/bn.hpp:33, 66): gets the
shape and the contents of `y`, which is input and output. -/
abbrev Act (R : Type) := List Nat → List R → Outcome (List R)

namespace Layers
variable {R : Type}

/-- `ops::noop` on one tensor (ops/elementary.hpp:25-29). -/
def noopInit : Init R := fun _ m => .ok m

/-- `ops::noop` as an activation (ops/elementary.hpp:31-35). -/
def noopAct : Act R := fun _ m => .ok m

/-- `ops::relu` as an activation (ops/activation.hpp:33-44): in place. -/
def reluAct [Zero R] [LT R] [DecidableLT R] : Act R := fun dims m => Ops.relu dims.prod (.mem 0) 0 m

/-- `ops::pointwise<f>` as an activation (ops/elementary.hpp:62-78): in place. -/
def pointwiseAct [Zero R] (f : R → R) : Act R := fun dims m => Ops.pointwise f dims.prod (.mem 0) 0 m

/-- `ops::softmax` as an activation (ops/activation.hpp:14-20): in place. -/
def softmaxAct [Zero R] [One R] [Add R] [Sub R] [Div R] [LT R] [DecidableLT R] (exp : R → R) (eps : R) : Act R :=
  fun dims m => Ops.softmax exp eps dims dims (.mem 0) 0 m

/-- `ops::new_result` (layers/call.hpp:6-12): infer the shape, allocate, run. The fresh tensor holds `junk`. The shape is
computed before `new`. -/
def newResult (junk : Nat → R) (shape : Outcome (List Nat)) (op : List Nat → List R → Outcome (List R)) :
    Alloc (Tensor R) :=
  match shape with
  | .ok s => ⟨1, do
      let d ← op s (fresh junk s.prod)
      return ⟨s, d⟩⟩
  | .throw e => ⟨0, .throw e⟩
  | .ub => ⟨0, .ub⟩

/-- `ops::new_parameter` (layers/call.hpp:14-20). -/
def newParameter (junk : Nat → R) (shape : List Nat) (init : Init R) : Alloc (Tensor R) :=
  ⟨1, do
    let d ← init shape (fresh junk shape.prod)
    return ⟨shape, d⟩⟩

/-- `layers::identity` (layers/elementary.hpp:8-19). -/
def identity [Zero R] (junk : Nat → R) (x : Tensor R) : Alloc (Layer R) := do
  let y ← newResult junk (Ops.endoShape x.dims) fun _ m => Ops.identity x.data.length (.ext x.data) 0 m
  return ⟨y, []⟩

/-- `layers::activation<Act>` (layers/activation.hpp:8-18) for an activation whose shape function is the identity; `act`
is the operator with separate input and output. -/
def activation (junk : Nat → R) (act : List Nat → Tensor R → List R → Outcome (List R)) (x : Tensor R) :
    Alloc (Layer R) := do
  let y ← newResult junk (Ops.endoShape x.dims) fun s m => act s x m
  return ⟨y, []⟩

/-- `dense_trait::weight_shape` (layers/dense.hpp:17-20): `logits_` is a `size_t`, a dimension an `uint32_t`. -/
def weightShape (logits : Nat) (x : List Nat) : Outcome (List Nat) :=
  match x with
  | [_, m] => .ok [m, logits % 2 ^ 32]
  | _ => .ub

/-- `dense_trait::bias_shape` (layers/dense.hpp:22). -/
def denseBiasShape (logits : Nat) : List Nat := [logits % 2 ^ 32]

/-- `dense<Act>::operator()` (layers/dense.hpp:31-44). The three fresh tensors hold `junkW`, `junkY` and `junkB`. -/
def dense [Zero R] [Add R] [Mul R] (junkW junkY junkB : Nat → R) (act : Act R) (logits : Nat) (x : Tensor R)
    (wInit bInit : Init R) : Alloc (Layer R) := do
  let ws ← Alloc.lift (weightShape logits x.dims)
  let w ← newParameter junkW ws wInit
  let y ← newResult junkY (Ops.matmulShape x.dims w.dims) fun s m => Ops.matmul s x w m
  let b ← newParameter junkB (denseBiasShape logits) bInit
  let m ← Alloc.lift (Ops.applyBias (· + ·) .hw y.dims y.dims (.mem 0) b.data 0 y.data)
  let m ← Alloc.lift (act y.dims m)
  return ⟨⟨y.dims, m⟩, [w, b]⟩

end Layers

/-- `layers::conv_trait` (layers/conv.hpp:12-31): number of filters, kernel size, padding policy, stride, rate; the numbers
are `uint32_t`. -/
structure ConvLayer where
  filters : Nat
  ksize : Nat × Nat
  padding : Sample.Policy
  stride : Nat × Nat
  rate : Nat × Nat

namespace ConvLayer

/-- A pair of `int`s converted to a `shape<2>` (layers/conv.hpp:34-36). -/
def pair (p : Int × Int) : Nat × Nat := ((u32.conv p.1).toNat, (u32.conv p.2).toNat)

/-- Constructor with all five arguments (layers/conv.hpp:66-75): `size_t` is narrowed to `uint32_t`. -/
def make (filters : Nat) (ksize : Int × Int) (padding : Sample.Policy) (stride rate : Int × Int) : ConvLayer :=
  ⟨filters % 2 ^ 32, pair ksize, padding, pair stride, pair rate⟩

/-- Constructor without rate (layers/conv.hpp:60-64). -/
def makeS (filters : Nat) (ksize : Int × Int) (padding : Sample.Policy) (stride : Int × Int) : ConvLayer :=
  make filters ksize padding stride (1, 1)

/-- Constructor without stride (layers/conv.hpp:54-58). -/
def makeP (filters : Nat) (ksize : Int × Int) (padding : Sample.Policy) : ConvLayer := makeS filters ksize padding (1, 1)

/-- Constructor without padding (layers/conv.hpp:48-52). -/
def makeK (filters : Nat) (ksize : Int × Int) : ConvLayer := makeP filters ksize (Sample.paddingValid u32)

/-- `filter_shape` (layers/conv.hpp:77-82). -/
def filterShape (t : ConvLayer) (io : Order) (fo : FOrder) (x : List Nat) : Outcome (List Nat) := do
  let c ← channelSize io x
  return convFilterShape fo c t.ksize t.filters

/-- `bias_shape` (layers/conv.hpp:84-87). -/
def biasShape (t : ConvLayer) : List Nat := [t.filters]

/-- `op_trait` (layers/conv.hpp:89-98). C++ leaves the order of the two policy calls open; a policy has no effect other
than its value or exception. -/
def opTrait (t : ConvLayer) (x : Nat × Nat) : Outcome ConvTrait := do
  let p ← t.padding t.ksize.1 t.stride.1 t.rate.1 x.1
  let q ← t.padding t.ksize.2 t.stride.2 t.rate.2 x.2
  return ConvTrait.make (p, q) (t.stride.1, t.stride.2) (t.rate.1, t.rate.2)

end ConvLayer

namespace Layers
variable {R : Type} [Zero R] [Add R] [Mul R]

/-- `ops::conv<io, fo>` on tensors (ops/conv2d.hpp:24-29): the two layout pairs with a kernel; others do not compile. -/
def convOp (io : Order) (fo : FOrder) (t : ConvTrait) (junkI : Nat → Int) (junk : Nat → R) (zdims : List Nat)
    (x y : Tensor R) (z : List R) : Outcome (List R) :=
  match io, fo with
  | .nhwc, .rscd => Kernels.convNhwc t junkI junk zdims x y z
  | .nchw, .dcrs => Kernels.convNchw t junk zdims x y z
  | _, _ => .ub

/-- `conv<io, fo, false, Act>::operator()` (layers/conv.hpp:112-124). -/
def convNoBias (io : Order) (fo : FOrder) (junkW junkY : Nat → R) (junkI : Nat → Int) (junk : Nat → R) (act : Act R)
    (t : ConvLayer) (x : Tensor R) (wInit : Init R) : Alloc (Layer R) := do
  let ws ← Alloc.lift (t.filterShape io fo x.dims)
  let w ← newParameter junkW ws wInit
  let hw ← Alloc.lift (imageShape io x.dims)
  let op ← Alloc.lift (t.opTrait hw)
  let y ← newResult junkY (op.infer io fo x.dims w.dims) fun s m => convOp io fo op junkI junk s x w m
  let m ← Alloc.lift (act y.dims y.data)
  return ⟨⟨y.dims, m⟩, [w]⟩

/-- `conv<io, fo, true, Act>::operator()` (layers/conv.hpp:134-151). -/
def conv (io : Order) (fo : FOrder) (junkW junkY junkB : Nat → R) (junkI : Nat → Int) (junk : Nat → R) (act : Act R)
    (t : ConvLayer) (x : Tensor R) (wInit bInit : Init R) : Alloc (Layer R) := do
  let ws ← Alloc.lift (t.filterShape io fo x.dims)
  let w ← newParameter junkW ws wInit
  let hw ← Alloc.lift (imageShape io x.dims)
  let op ← Alloc.lift (t.opTrait hw)
  let y ← newResult junkY (op.infer io fo x.dims w.dims) fun s m => convOp io fo op junkI junk s x w m
  let b ← newParameter junkB t.biasShape bInit
  let m ← Alloc.lift (Ops.applyBias (· + ·) io y.dims y.dims (.mem 0) b.data 0 y.data)
  let m ← Alloc.lift (act y.dims m)
  return ⟨⟨y.dims, m⟩, [w, b]⟩

end Layers

/-- `layers::pool_trait<hw>` (layers/pool.hpp:12-28). -/
structure PoolLayer where
  ksize : Nat × Nat
  padding : Sample.Policy
  stride : Nat × Nat

namespace PoolLayer

/-- Constructor with all three arguments (layers/pool.hpp:53-57); the pairs are made from `int`s (lines 31-32). -/
def make (ksize : Int × Int) (padding : Sample.Policy) (stride : Int × Int) : PoolLayer :=
  ⟨ConvLayer.pair ksize, padding, ConvLayer.pair stride⟩

/-- Constructor without stride (layers/pool.hpp:48-51): the dimensions of `ksize` pass through `int`. -/
def makeP (ksize : Int × Int) (padding : Sample.Policy) : PoolLayer :=
  make ksize padding (i32.conv (ConvLayer.pair ksize).1, i32.conv (ConvLayer.pair ksize).2)

/-- Constructor without padding (layers/pool.hpp:46). -/
def makeK (ksize : Int × Int) : PoolLayer := makeP ksize (Sample.paddingSame u32)

/-- Default constructor (layers/pool.hpp:44). -/
def default : PoolLayer := makeK (2, 2)

/-- `op_trait` (layers/pool.hpp:59-67). -/
def opTrait (t : PoolLayer) (x : Nat × Nat) : Outcome PoolTrait := do
  let p ← t.padding t.ksize.1 t.stride.1 1 x.1
  let q ← t.padding t.ksize.2 t.stride.2 1 x.2
  PoolTrait.make t.ksize (p, q) t.stride

end PoolLayer

namespace Layers
variable {R : Type}

/-- `ops::pool<algo, order>` on tensors (ops/pool.hpp:57-101), the two batched layouts. -/
def poolOp (o : Order) (acc : Acc R) (t : PoolTrait) (ydims : List Nat) (x : Tensor R) (y : List R) : Outcome (List R) :=
  match o with
  | .nhwc => Ops.poolNhwc acc t ydims x y
  | .nchw => Ops.poolNchw acc t ydims x y
  | _ => .ub

/-- `pool<algo, order>::operator()` (layers/pool.hpp:77-83). -/
def pool (o : Order) (junk : Nat → R) (acc : Acc R) (t : PoolLayer) (x : Tensor R) : Alloc (Layer R) := do
  let hw ← Alloc.lift (imageShape o x.dims)
  let op ← Alloc.lift (t.opTrait hw)
  let y ← newResult junk (Ops.pooledShape o op x.dims) fun s m => poolOp o acc op s x m
  return ⟨y, []⟩

/-- `batch_norm<order, Act, true>::operator()` (layers/bn.hpp:44-68). The variant without bias (lines 13-36) passes a tensor
where a shape is expected (line 28) and does not compile when used. -/
def batchNorm [Zero R] [Add R] [Sub R] [Mul R] [Div R] (sqrt : R → R) (eps : R) (o : Order)
    (junkM junkV junkB junkG junkY : Nat → R) (act : Act R) (x : Tensor R) (meanInit varInit betaInit gammaInit : Init R) :
    Alloc (Layer R) := do
  let c ← Alloc.lift (channelSize o x.dims)
  let mean ← newParameter junkM [c] meanInit
  let var ← newParameter junkV [c] varInit
  let beta ← newParameter junkB [c] betaInit
  let gamma ← newParameter junkG [c] gammaInit
  let y ← newResult junkY (Ops.batchNormWithBiasShape o x.dims mean.dims var.dims beta.dims gamma.dims) fun s m =>
    Ops.batchNormWithBias sqrt eps o s x.dims (.ext x.data) mean.data var.data beta.data gamma.data 0 m
  let m ← Alloc.lift (act y.dims y.data)
  return ⟨⟨y.dims, m⟩, [mean, var, beta, gamma]⟩

end Layers
end StdNN
