import Verif.Spec.Gradient
/-!
# Reverse mode differentiation

Independent of the model: what a backward pass is meant to compute.
-/
namespace StdNN.Spec

/-- `back` is the transposed derivative of `f` at `x`: it takes the gradient with respect to the output of any loss that is
linear in the output to the gradient with respect to the input. -/
def Reverses {n m : Nat} (f : (Fin n → ℝ) → Fin m → ℝ) (back : (Fin m → ℝ) → Fin n → ℝ) (x : Fin n → ℝ) : Prop :=
  ∀ gy : Fin m → ℝ, IsGradient (fun x => ∑ i, gy i * f x i) (back gy) x

end StdNN.Spec
