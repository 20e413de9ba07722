import Verif.Spec.Softmax
import Mathlib.Algebra.BigOperators.Intervals
/-!
# The VGG16 network, independent of the model

An image is a function of row, column and channel.
-/
namespace StdNN.Spec.Vgg
open Finset

/-- Images. -/
abbrev Img := Nat → Nat → Nat → ℝ

/-- 3 × 3 cross-correlation of an `h × w` image with `c` channels, surrounded by one pixel of zeros, plus bias, negative
values replaced by zero. -/
noncomputable def conv (h w c : Nat) (W : Nat → Nat → Nat → Nat → ℝ) (B : Nat → ℝ) (X : Img) : Img := fun i j e =>
  max 0 (∑ u ∈ range 3, ∑ v ∈ range 3, ∑ k ∈ range c,
    (if (1 ≤ i + u ∧ i + u < 1 + h) ∧ 1 ≤ j + v ∧ j + v < 1 + w then X (i + u - 1) (j + v - 1) k else 0) * W u v k e + B e)

/-- The greatest of the four pixels of each 2 × 2 block. -/
noncomputable def pool (X : Img) : Img := fun i j k =>
  max (max (X (2 * i) (2 * j) k) (X (2 * i) (2 * j + 1) k)) (max (X (2 * i + 1) (2 * j) k) (X (2 * i + 1) (2 * j + 1) k))

/-- The thirteen convolutions and five poolings on an `h × w` image with three channels; `F name` are filters, `B name`
biases. -/
noncomputable def features (F : String → Nat → Nat → Nat → Nat → ℝ) (B : String → Nat → ℝ) (h w : Nat) (X : Img) : Img :=
  let c (h w a : Nat) (name : String) (X : Img) := conv h w a (F name) (B name) X
  pool <| c (h / 16) (w / 16) 512 "conv5_3" <| c (h / 16) (w / 16) 512 "conv5_2" <| c (h / 16) (w / 16) 512 "conv5_1" <|
  pool <| c (h / 8) (w / 8) 512 "conv4_3" <| c (h / 8) (w / 8) 512 "conv4_2" <| c (h / 8) (w / 8) 256 "conv4_1" <|
  pool <| c (h / 4) (w / 4) 256 "conv3_3" <| c (h / 4) (w / 4) 256 "conv3_2" <| c (h / 4) (w / 4) 128 "conv3_1" <|
  pool <| c (h / 2) (w / 2) 128 "conv2_2" <| c (h / 2) (w / 2) 64 "conv2_1" <|
  pool <| c h w 64 "conv1_2" <| c h w 3 "conv1_1" X

/-- Matrix times vector plus bias. -/
noncomputable def affine (p : Nat) (W : Nat → Nat → ℝ) (B : Nat → ℝ) (x : Nat → ℝ) : Nat → ℝ := fun j =>
  ∑ q ∈ range p, x q * W q j + B j

/-- The pixels of an image with `w` columns and `c` channels, row by row. -/
def flat (w c : Nat) (X : Img) : Nat → ℝ := fun q => X (q / (w * c)) (q / c % w) (q % c)

/-- The logits: three affine maps on the flattened features, with negative values replaced by zero after the first two. -/
noncomputable def logits (F : String → Nat → Nat → Nat → Nat → ℝ) (D : String → Nat → Nat → ℝ) (B : String → Nat → ℝ)
    (h w : Nat) (X : Img) : Nat → ℝ :=
  affine 4096 (D "fc8") (B "fc8") <| (fun x j => max 0 (affine 4096 (D "fc7") (B "fc7") x j)) <|
    (fun x j => max 0 (affine (h / 32 * (w / 32) * 512) (D "fc6") (B "fc6") x j)) <|
      flat (w / 32) 512 (features F B h w X)

end StdNN.Spec.Vgg
