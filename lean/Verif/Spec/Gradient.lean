import Mathlib.Analysis.Calculus.FDeriv.Pi
import Mathlib.Analysis.Calculus.FDeriv.Add
/-!
# Gradients

Independent of the model: `g` is the gradient at `x` of a real function of `n` variables.
-/
namespace StdNN.Spec

/-- `f` is (Fréchet) differentiable at `x` and its derivative in direction `d` is `∑ i, g i * d i`. -/
def IsGradient {n : Nat} (f : (Fin n → ℝ) → ℝ) (g x : Fin n → ℝ) : Prop :=
  HasFDerivAt f (∑ i : Fin n, g i • (ContinuousLinearMap.proj i : (Fin n → ℝ) →L[ℝ] ℝ)) x

end StdNN.Spec
