import Verif.Spec.Window
import Mathlib.Algebra.BigOperators.Group.Finset.Basic
import Mathlib.Data.Finset.Prod
/-!
# Specification of pooling windows
-/
namespace StdNN.Spec
variable {R : Type}

/-- Pixel `(a, b)` lies under window `(i, j)`. -/
def Under (H W : Axis) (i j a b : Nat) : Prop := (∃ u < H.k, H.Hits i u a) ∧ ∃ v < W.k, W.Hits j v b

instance (H W : Axis) (i j a b : Nat) : Decidable (Under H W i j a b) := by unfold Under; infer_instance

/-- The pixels under window `(i, j)`. -/
def win (H W : Axis) (i j : Nat) : Finset (Nat × Nat) :=
  (Finset.range H.n ×ˢ Finset.range W.n).filter fun p => Under H W i j p.1 p.2

/-- The values of the pixels under window `(i, j)`, row by row, taps in the padding left out. -/
def pixels (H W : Axis) (X : Nat → Nat → R) (i j : Nat) : List R :=
  (List.range H.k).flatMap fun u => (List.range W.k).filterMap fun v =>
    if (H.l ≤ H.pos i u ∧ H.pos i u < H.l + H.n) ∧ W.l ≤ W.pos j v ∧ W.pos j v < W.l + W.n then
      some (X (H.pos i u - H.l) (W.pos j v - W.l))
    else none

end StdNN.Spec
