import Mathlib.Data.Nat.Basic
/-!
# Specification of linear samples, over natural numbers

Independent of the model: see also /repo/doc/linear-sample.tex.
-/
namespace StdNN.Spec

/-- Number of input cells spanned by one application of a filter with `k` taps at distance `r`. -/
def patch (k r : Nat) : Nat := (k - 1) * r + 1

/-- `m ≥ 1` windows of extent `patch k r`, each moved by `s`, cover a line of `n` cells padded by `l` and `q` cells
exactly: the last window ends at the last padded cell. -/
def OutLen (k s r l q n m : Nat) : Prop := 1 ≤ m ∧ (m - 1) * s + patch k r = l + n + q

instance (k s r l q n m : Nat) : Decidable (OutLen k s r l q n m) := by unfold OutLen; infer_instance

/-- A total padding `p` makes the windows of stride `s` end exactly at the end of the line. -/
def Exact (k s r n p : Nat) : Prop := ∃ c : Int, (n : Int) + p = patch k r + c * s

end StdNN.Spec
