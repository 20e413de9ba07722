import Verif.Model.Vgg16
/-!
# Model of the small example programs

examples/example_1.cpp, examples/example_mlp.cpp, examples/example_layer_mlp.cpp. The programs never write their inputs and
weights, so the contents of these tensors are parameters; so are the sizes the programs fix. `J i` are the contents of the
`i`-th freshly allocated result. Printing is left out.
-/
namespace StdNN
namespace Examples
open Outcome
variable {R : Type} [Zero R] [Add R] [Mul R]

/-- Infer the shape, allocate the result, run the convolution (examples/example_mlp.cpp:25-26, 30-31,
examples/example_1.cpp:34-35, 40-41, 47-48). -/
def conv (t : ConvTrait) (junkZ : Nat → R) (junkI : Nat → Int) (junk : Nat → R) (x y : Tensor R) : Outcome (Tensor R) := do
  let s ← t.infer .nhwc .rscd x.dims y.dims
  let z ← Kernels.convNhwc t junkI junk s x y (fresh junkZ s.prod)
  return ⟨s, z⟩

/-- Infer the shape, allocate the result, run the pooling (examples/example_mlp.cpp:34-35, 38-39,
examples/example_1.cpp:58-59). -/
def pool (t : PoolTrait) (acc : Acc R) (junkZ : Nat → R) (x : Tensor R) : Outcome (Tensor R) := do
  let s ← Ops.pooledShape .nhwc t x.dims
  let z ← Ops.poolNhwc acc t s x (fresh junkZ s.prod)
  return ⟨s, z⟩

/-- `example_mlp` (examples/example_mlp.cpp:8-41) on `n` images of `h` × `w` pixels and `c` channels (10, 28, 28, 3 there):
`x`, `w1`, `w2` are the contents of the tensors of the same name, the result is `l1`, ..., `l4`. -/
def mlp (J : Nat → Nat → R) (junkI : Nat → Int) (lowest : R) [LT R] [DecidableLT R] (n h w c : Nat) (x w1 w2 : List R) :
    Outcome (Tensor R × Tensor R × Tensor R × Tensor R) := do
  let cv := ConvTrait.makeP (Padding.same 1, Padding.same 1)
  let pl ← PoolTrait.default
  let l1 ← conv cv (J 0) junkI (J 1) ⟨[n, h, w, c], x⟩ ⟨[3, 3, c, 32], w1⟩
  let l2 ← conv cv (J 2) junkI (J 3) l1 ⟨[3, 3, 32, 64], w2⟩
  let l3 ← pool pl (Acc.max lowest) (J 4) l2
  let l4 ← pool pl (Acc.max lowest) (J 5) l3
  return (l1, l2, l3, l4)

/-- `example_conv` (examples/example_1.cpp:23-50) with filters of `d` output channels (32 there): the results of the three
blocks. `y` and `y4` are the contents of the 3 × 3 and of the 4 × 4 filters. -/
def convs (J : Nat → Nat → R) (junkI : Nat → Int) (n h w c d : Nat) (x y y4 : List R) :
    Outcome (Tensor R × Tensor R × Tensor R) := do
  let z1 ← conv ConvTrait.default (J 0) junkI (J 1) ⟨[n, h, w, c], x⟩ ⟨[3, 3, c, d], y⟩
  let z2 ← conv (ConvTrait.makeP (Padding.same 1, Padding.same 1)) (J 2) junkI (J 3) ⟨[n, h, w, c], x⟩ ⟨[3, 3, c, d], y⟩
  let z3 ← conv (ConvTrait.makePS (Padding.same 2, Padding.same 2) (4, 4)) (J 4) junkI (J 5) ⟨[n, h, w, c], x⟩
    ⟨[4, 4, c, d], y4⟩
  return (z1, z2, z3)

/-- `example_mlp` of examples/example_layer_mlp.cpp:8-48 (10 images of 32 × 32 pixels and 3 channels there). The layers are
called without initialisers, the weights stay what they were in memory: `J i`. Every layer lives to the end. The result: the
five layers and the shape of the loss (lines 43-46). -/
def layerMlp [One R] [Sub R] [Div R] [LT R] [DecidableLT R] (J : Nat → Nat → R) (junkI : Nat → Int) (lowest : R)
    (exp : R → R) (eps : R) (x : Tensor R) : Alloc (List (Layer R) × List Nat) :=
  Alloc.scoped (Layers.conv .nhwc .rscd (J 0) (J 1) (J 2) junkI (J 3) Layers.noopAct (ConvLayer.makeK 32 (3, 3)) x
    Layers.noopInit Layers.noopInit) fun l1 =>
  Alloc.scoped (Layers.conv .nhwc .rscd (J 4) (J 5) (J 6) junkI (J 7) Layers.noopAct (ConvLayer.makeK 64 (3, 3)) l1.output
    Layers.noopInit Layers.noopInit) fun l2 =>
  Alloc.scoped (Layers.pool .nhwc (J 8) (Acc.max lowest) (PoolLayer.makeK (4, 4)) l2.output) fun l3 =>
  Alloc.scoped (Layers.dense (J 9) (J 10) (J 11) Layers.noopAct 1000 ⟨asMatrix 1 l3.output.dims, l3.output.data⟩
    Layers.noopInit Layers.noopInit) fun l4 =>
  Alloc.scoped (Layers.activation (J 12) (fun s x m => Ops.softmax exp eps s x.dims (.ext x.data) 0 m) l4.output) fun l5 =>
    Alloc.lift (do
      let l ← Ops.binaryReduceShape l5.output.dims l5.output.dims
      return ([l1, l2, l3, l4, l5], l))

end Examples
end StdNN
