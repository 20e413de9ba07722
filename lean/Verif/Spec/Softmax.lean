import Mathlib.Analysis.SpecialFunctions.Exp
/-!
# Softmax of a vector, independent of the model
-/
namespace StdNN.Spec

/-- `exp (x i) / ∑ j < n, exp (x j)`. -/
noncomputable def softmax (n : Nat) (x : Nat → ℝ) (i : Nat) : ℝ :=
  Real.exp (x i) / ∑ j ∈ Finset.range n, Real.exp (x j)

end StdNN.Spec
