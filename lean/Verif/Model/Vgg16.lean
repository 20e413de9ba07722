import Verif.Model.Models
import Verif.Model.Utility
/-!
# Model of the image classification example

examples/example_model_vgg16.cpp and examples/vgg16_common.hpp. `p name` is the initialiser `readtar(prefix_, name)`
(examples/example_model_vgg16.cpp:37-40); it may be any initialiser. `J i` are the contents of the `i`-th freshly allocated
tensor. Printing is left out.
-/
namespace StdNN
open Outcome IntTy
variable {R : Type}

/-- A layer object that lives to the end of a scope (examples/example_model_vgg16.cpp:80, 84): it is released when the scope
ends, also by an exception. -/
def Alloc.scoped {β : Type} (x : Alloc (Layer R)) (k : Layer R → Alloc β) : Alloc β :=
  match x.out with
  | .ok l => Alloc.freeing l.size ⟨x.live + (k l).live, (k l).out⟩
  | .throw e => ⟨x.live, .throw e⟩
  | .ub => ⟨x.live, .ub⟩

namespace Vgg16

section
variable [Zero R] [One R] [Add R] [Sub R] [Mul R] [Div R] [LT R] [DecidableLT R]

/-- `with_init(conv(d), p(name_W), p(name_b))` (examples/example_model_vgg16.cpp:27-33, 55-71). -/
def conv (J : Nat → Nat → R) (junkI : Nat → Int) (p : String → Init R) (i d : Nat) (name : String) : Models.LayerFn R :=
  Models.withInit (fun x is =>
    match is with
    | [w, b] => Layers.conv .nhwc .rscd (J (4 * i)) (J (4 * i + 1)) (J (4 * i + 2)) junkI (J (4 * i + 3)) Layers.reluAct
        (ConvLayer.makeP d (3, 3) (Sample.paddingSame u32)) x w b
    | _ => ⟨0, .ub⟩) [p (name ++ "_W"), p (name ++ "_b")]

/-- `pool(pool::ksize(2, 2))` (examples/example_model_vgg16.cpp:21, 57-72); `lowest` is the least number of the type. -/
def pool (J : Nat → Nat → R) (lowest : R) (i : Nat) : Models.LayerFn R :=
  Layers.pool .nhwc (J (4 * i)) (Acc.max lowest) (PoolLayer.makeK (2, 2))

/-- `conv_layers` (examples/example_model_vgg16.cpp:53-72). -/
def convLayers (J : Nat → Nat → R) (junkI : Nat → Int) (lowest : R) (p : String → Init R) : Models.LayerFn R :=
  Models.sequential (J 0) [
    conv J junkI p 1 64 "conv1_1", conv J junkI p 2 64 "conv1_2", pool J lowest 3,
    conv J junkI p 4 128 "conv2_1", conv J junkI p 5 128 "conv2_2", pool J lowest 6,
    conv J junkI p 7 256 "conv3_1", conv J junkI p 8 256 "conv3_2", conv J junkI p 9 256 "conv3_3", pool J lowest 10,
    conv J junkI p 11 512 "conv4_1", conv J junkI p 12 512 "conv4_2", conv J junkI p 13 512 "conv4_3", pool J lowest 14,
    conv J junkI p 15 512 "conv5_1", conv J junkI p 16 512 "conv5_2", conv J junkI p 17 512 "conv5_3", pool J lowest 18]

/-- `with_init(dense(k), p(name_W), p(name_b))` (examples/example_model_vgg16.cpp:22-23, 76-78). -/
def dense (J : Nat → Nat → R) (act : Act R) (p : String → Init R) (i k : Nat) (name : String) : Models.LayerFn R :=
  Models.withInit (Models.denseWith (J (4 * i)) (J (4 * i + 1)) (J (4 * i + 2)) act k) [p (name ++ "_W"), p (name ++ "_b")]

/-- `softmax()` (examples/example_model_vgg16.cpp:24, 78): the activation layer. -/
def softmax (J : Nat → Nat → R) (exp : R → R) (eps : R) (i : Nat) : Models.LayerFn R :=
  Layers.activation (J (4 * i)) fun s x m => Ops.softmax exp eps s x.dims (.ext x.data) 0 m

/-- `dense_layers` (examples/example_model_vgg16.cpp:74-78). -/
def denseLayers (J : Nat → Nat → R) (exp : R → R) (eps : R) (p : String → Init R) : Models.LayerFn R :=
  Models.sequential (J 1) [dense J Layers.reluAct p 19 4096 "fc6", dense J Layers.reluAct p 20 4096 "fc7",
    dense J Layers.noopAct p 21 1000 "fc8", softmax J exp eps 22]

/-- `operator()` (examples/example_model_vgg16.cpp:48-92): the `m` largest entries of the first row of the output and their
positions. `sort` is `std::sort`, `jz` the contents of the new `z`. -/
def run (J : Nat → Nat → R) (junkI : Nat → Int) (lowest : R) (exp : R → R) (eps : R) (p : String → Init R)
    (sort : List (R × Int) → List (R × Int)) (jz : Nat → Int) (x : Tensor R) (m : Nat) : Alloc (List R × List Int) :=
  Alloc.scoped (convLayers J junkI lowest p x) fun l5 =>
    Alloc.scoped (denseLayers J exp eps p ⟨asMatrix 1 l5.output.dims, l5.output.data⟩) fun out =>
      Alloc.lift (do
        let k ← getDim (some 1) out.output.dims
        let row ← rowOf k out.output.data 0
        Kernels.top u32 sort row ((List.range m).map (J 2)) ((List.range m).map jz))

/-- `example_vgg16` (examples/example_layer_vgg16.cpp:19-94): the same network written layer by layer; every layer lives to
the end of the function. `k` is 1000 and `m` is 5 there (lines 16-17); `m` is kept general. -/
def runLayers (J : Nat → Nat → R) (junkI : Nat → Int) (lowest : R) (exp : R → R) (eps : R) (p : String → Init R)
    (sort : List (R × Int) → List (R × Int)) (jz : Nat → Int) (x : Tensor R) (m : Nat) : Alloc (List R × List Int) :=
  Alloc.scoped (conv J junkI p 1 64 "conv1_1" x) fun l1_1 =>
  Alloc.scoped (conv J junkI p 2 64 "conv1_2" l1_1.output) fun l1_2 =>
  Alloc.scoped (pool J lowest 3 l1_2.output) fun l1_3 =>
  Alloc.scoped (conv J junkI p 4 128 "conv2_1" l1_3.output) fun l2_1 =>
  Alloc.scoped (conv J junkI p 5 128 "conv2_2" l2_1.output) fun l2_2 =>
  Alloc.scoped (pool J lowest 6 l2_2.output) fun l2_3 =>
  Alloc.scoped (conv J junkI p 7 256 "conv3_1" l2_3.output) fun l3_1 =>
  Alloc.scoped (conv J junkI p 8 256 "conv3_2" l3_1.output) fun l3_2 =>
  Alloc.scoped (conv J junkI p 9 256 "conv3_3" l3_2.output) fun l3_3 =>
  Alloc.scoped (pool J lowest 10 l3_3.output) fun l3_4 =>
  Alloc.scoped (conv J junkI p 11 512 "conv4_1" l3_4.output) fun l4_1 =>
  Alloc.scoped (conv J junkI p 12 512 "conv4_2" l4_1.output) fun l4_2 =>
  Alloc.scoped (conv J junkI p 13 512 "conv4_3" l4_2.output) fun l4_3 =>
  Alloc.scoped (pool J lowest 14 l4_3.output) fun l4_4 =>
  Alloc.scoped (conv J junkI p 15 512 "conv5_1" l4_4.output) fun l5_1 =>
  Alloc.scoped (conv J junkI p 16 512 "conv5_2" l5_1.output) fun l5_2 =>
  Alloc.scoped (conv J junkI p 17 512 "conv5_3" l5_2.output) fun l5_3 =>
  Alloc.scoped (pool J lowest 18 l5_3.output) fun l5_4 =>
  Alloc.scoped (dense J Layers.reluAct p 19 4096 "fc6" ⟨asMatrix 1 l5_4.output.dims, l5_4.output.data⟩) fun l6 =>
  Alloc.scoped (dense J Layers.reluAct p 20 4096 "fc7" l6.output) fun l7 =>
  Alloc.scoped (dense J Layers.noopAct p 21 1000 "fc8" l7.output) fun l8 =>
  Alloc.scoped (softmax J exp eps 22 l8.output) fun out =>
    Alloc.lift (do
      let k ← getDim (some 1) out.output.dims
      let row ← rowOf k out.output.data 0
      Kernels.top u32 sort row ((List.range m).map (J 2)) ((List.range m).map jz))

end

/-- `load_class_names` (examples/vgg16_common.hpp:11-21) on the bytes of the file: the parts between line feeds; `std::getline`
yields a last part without line feed only if it is not empty. -/
def lines (cs : List Char) : List (List Char) :=
  go [] cs
where
  /-- The loop of `std::getline` (examples/vgg16_common.hpp:19): `cur` are the characters of the line so far. -/
  go (cur : List Char) : List Char → List (List Char)
    | [] => if cur = [] then [] else [cur]
    | c :: cs => if c = '\n' then cur :: go [] cs else go (cur ++ [c]) cs

/-- `read_example_image` without OpenCV (examples/vgg16_common.hpp:42-46): the file is read into `x[0]`, then the mean
colour is subtracted in place; `file` is the effect of `readfile` on the elements of `x[0]`. -/
def readImage [Zero R] [Sub R] (file : Init R) (mean : List R) (xdims : List Nat) (x : List R) : Outcome (List R) :=
  match xdims with
  | [_, h, w, c] => do
    let x ← onSlice 0 [h, w, c].prod (file [h, w, c]) x
    Ops.applyBias (· - ·) .nhwc xdims xdims (.mem 0) mean 0 x
  | _ => .ub

end Vgg16
end StdNN
