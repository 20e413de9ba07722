import Mathlib.Algebra.BigOperators.Intervals
import Mathlib.Data.Real.Basic
/-!
# What the small example programs compute, independent of the model

An image is a function of row, column and channel.
-/
namespace StdNN.Spec
open Finset

/-- Cross-correlation of an `h × w` image with `c` channels, surrounded by `p` rows and columns of zeros, with `k × k` filters
moved in steps of `s`. -/
noncomputable def corr (k s p h w c : Nat) (F : Nat → Nat → Nat → Nat → ℝ) (X : Nat → Nat → Nat → ℝ) : Nat → Nat → Nat → ℝ :=
  fun i j e => ∑ u ∈ range k, ∑ v ∈ range k, ∑ a ∈ range c,
    (if (p ≤ s * i + u ∧ s * i + u < p + h) ∧ p ≤ s * j + v ∧ s * j + v < p + w
      then X (s * i + u - p) (s * j + v - p) a else 0) * F u v a e

/-- `z` is the greatest pixel of the tile `i`, `j` when an `h × w` image is cut into tiles of `s × s` pixels. -/
def IsTileMax (s h w : Nat) (X : Nat → Nat → ℝ) (i j : Nat) (z : ℝ) : Prop :=
  (∀ a < h, ∀ b < w, a / s = i → b / s = j → X a b ≤ z) ∧ ∃ a < h, ∃ b < w, a / s = i ∧ b / s = j ∧ z = X a b

end StdNN.Spec
