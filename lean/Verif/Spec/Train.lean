import Verif.Spec.Softmax
import Mathlib.Algebra.BigOperators.Intervals
import Mathlib.Analysis.SpecialFunctions.Log.Basic
/-!
# Softmax regression, independent of the model
-/
namespace StdNN.Spec
open Finset

/-- `(X * W + B) i j`, with `p` inner terms. -/
def logit (p : Nat) (X W : Nat → Nat → ℝ) (B : Nat → ℝ) (i j : Nat) : ℝ := ∑ q ∈ range p, X i q * W q j + B j

/-- The predicted probability of class `j < k` for row `i`, at least `eps`. -/
noncomputable def prob (eps : ℝ) (p k : Nat) (X W : Nat → Nat → ℝ) (B : Nat → ℝ) (i j : Nat) : ℝ :=
  max eps (softmax k (logit p X W B i) j)

/-- The mean over `n` rows of the cross-entropy of the targets `T` and the predictions. -/
noncomputable def meanLoss (eps : ℝ) (n p k : Nat) (X T W : Nat → Nat → ℝ) (B : Nat → ℝ) : ℝ :=
  (∑ i ∈ range n, -∑ j ∈ range k, T i j * Real.log (prob eps p k X W B i j)) / n

/-- Stochastic gradient descent for softmax regression with targets `label`, batches of `m` consecutive rows of `X` and weight
`c` for each row of a batch: the parameters after `t` batches. -/
noncomputable def sgd (eps c : ℝ) (m p k : Nat) (X : Nat → Nat → ℝ) (label : Nat → Nat)
    (W₀ : Nat → Nat → ℝ) (B₀ : Nat → ℝ) : Nat → (Nat → Nat → ℝ) × (Nat → ℝ)
  | 0 => (W₀, B₀)
  | t + 1 =>
    let (W, B) := sgd eps c m p k X label W₀ B₀ t
    let err i j := prob eps p k X W B i j - if label i = j then 1 else 0
    (fun q j => W q j - c * ∑ i ∈ Ico (t * m) (t * m + m), X i q * err i j,
      fun j => B j - c * ∑ i ∈ Ico (t * m) (t * m + m), err i j)

/-- The parameters after `t` steps of gradient descent on one batch of `n` rows `X` with targets `T`, with weight `c` for
each row. -/
noncomputable def gd (eps c : ℝ) (n p k : Nat) (X T W₀ : Nat → Nat → ℝ) (B₀ : Nat → ℝ) :
    Nat → (Nat → Nat → ℝ) × (Nat → ℝ)
  | 0 => (W₀, B₀)
  | t + 1 =>
    let (W, B) := gd eps c n p k X T W₀ B₀ t
    (fun q j => W q j - c * ∑ i ∈ range n, X i q * (prob eps p k X W B i j - T i j),
      fun j => B j - c * ∑ i ∈ range n, (prob eps p k X W B i j - T i j))

/-- The squared Euclidean distance of two sets of parameters for `p` inputs and `k` classes. -/
def paramDist (p k : Nat) (W : Nat → Nat → ℝ) (B : Nat → ℝ) (W' : Nat → Nat → ℝ) (B' : Nat → ℝ) : ℝ :=
  ∑ q ∈ range p, ∑ j ∈ range k, (W q j - W' q j) ^ 2 + ∑ j ∈ range k, (B j - B' j) ^ 2

end StdNN.Spec
