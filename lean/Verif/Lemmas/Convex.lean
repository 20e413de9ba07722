import Mathlib.Probability.Moments.SubGaussian
import Verif.Props.Train
/-!
# The cross-entropy of a softmax as a function of the logits

It is convex and lies below its tangents plus half the squared distance (Hoeffding's lemma for a finite distribution).
-/
namespace StdNN
open Outcome Finset Spec MeasureTheory ProbabilityTheory

/-- Hoeffding's lemma for a distribution on `k` points. -/
theorem finite_hoeffding {k : Nat} {s d : Nat → ℝ} (h0 : ∀ j < k, 0 ≤ s j) (h1 : ∑ j ∈ range k, s j = 1) {D : ℝ}
    (hd : ∀ j < k, |d j| ≤ D) :
    ∑ j ∈ range k, s j * Real.exp (d j) ≤ Real.exp (∑ j ∈ range k, s j * d j + D ^ 2 / 2) := by
  let μ : Measure Nat := ∑ j ∈ range k, ENNReal.ofReal (s j) • Measure.dirac j
  have hint : ∀ f : Nat → ℝ, ∫ x, f x ∂μ = ∑ j ∈ range k, s j * f j := by
    intro f
    rw [integral_finsetSum_measure]
    · refine Finset.sum_congr rfl fun j hj => ?_
      rw [integral_smul_measure, integral_dirac, ENNReal.toReal_ofReal (h0 j (mem_range.1 hj)), smul_eq_mul]
    · intro j hj
      exact (integrable_dirac (by simp)).smul_measure ENNReal.ofReal_ne_top
  have hp : IsProbabilityMeasure μ := by
    constructor
    simp only [μ, Measure.coe_finsetSum, Finset.sum_apply, Measure.smul_apply, measure_univ, smul_eq_mul, mul_one]
    rw [← ENNReal.ofReal_sum_of_nonneg fun j hj => h0 j (mem_range.1 hj), h1, ENNReal.ofReal_one]
  have hb : ∀ᵐ j ∂μ, d j ∈ Set.Icc (-D) D := by
    rw [ae_iff]
    simp only [μ, Measure.coe_finsetSum, Finset.sum_apply, Measure.smul_apply, smul_eq_mul]
    refine Finset.sum_eq_zero fun j hj => ?_
    rw [Measure.dirac_apply, Set.indicator_of_notMem, mul_zero]
    simpa using abs_le.1 (hd j (mem_range.1 hj))
  have h := (hasSubgaussianMGF_of_mem_Icc (X := d) (μ := μ) (measurable_from_nat.aemeasurable) hb).mgf_le 1
  rw [mgf, hint, hint] at h
  have hD : (((‖D - -D‖₊ / 2) ^ 2 : NNReal) : ℝ) = D ^ 2 := by
    push_cast
    rw [Real.norm_eq_abs, div_pow, sq_abs]
    ring
  rw [hD] at h
  have e : ∑ j ∈ range k, s j * Real.exp (d j) =
      (∑ j ∈ range k, s j * Real.exp (1 * (d j - ∑ j ∈ range k, s j * d j))) * Real.exp (∑ j ∈ range k, s j * d j) := by
    rw [Finset.sum_mul]
    refine Finset.sum_congr rfl fun j _ => ?_
    rw [mul_assoc, ← Real.exp_add]
    congr 2
    ring
  rw [e, add_comm (∑ j ∈ range k, s j * d j), Real.exp_add]
  refine mul_le_mul_of_nonneg_right (h.trans (le_of_eq ?_)) (Real.exp_pos _).le
  ring_nf

/-- log-sum-exp lies above its tangents. -/
theorem lse_lower {k : Nat} (hk : 0 < k) (z z' : Nat → ℝ) :
    Real.log (∑ j ∈ range k, Real.exp (z j)) + ∑ j ∈ range k, Spec.softmax k z j * (z' j - z j) ≤
      Real.log (∑ j ∈ range k, Real.exp (z' j)) := by
  have hS : ∀ y : Nat → ℝ, 0 < ∑ j ∈ range k, Real.exp (y j) := fun y =>
    Finset.sum_pos (fun j _ => Real.exp_pos _) ⟨0, mem_range.2 hk⟩
  set m := ∑ j ∈ range k, Spec.softmax k z j * (z' j - z j) with hm
  have h1 : ∑ j ∈ range k, Spec.softmax k z j = 1 := softmax_sum hk z
  have h2 : ∑ j ∈ range k, Real.exp (z' j) =
      (∑ j ∈ range k, Real.exp (z j)) * ∑ j ∈ range k, Spec.softmax k z j * Real.exp (z' j - z j) := by
    rw [Finset.mul_sum]
    refine Finset.sum_congr rfl fun j _ => ?_
    unfold Spec.softmax
    rw [Real.exp_sub]
    field_simp [(hS z).ne', (Real.exp_pos (z j)).ne']
  have h3 : Real.exp m ≤ ∑ j ∈ range k, Spec.softmax k z j * Real.exp (z' j - z j) := by
    have h4 : ∑ j ∈ range k, Spec.softmax k z j * (Real.exp m * (1 + (z' j - z j - m))) ≤
        ∑ j ∈ range k, Spec.softmax k z j * Real.exp (z' j - z j) := by
      refine Finset.sum_le_sum fun j hj => mul_le_mul_of_nonneg_left ?_ (softmax_pos (mem_range.1 hj) z).le
      have := Real.add_one_le_exp (z' j - z j - m)
      calc Real.exp m * (1 + (z' j - z j - m)) ≤ Real.exp m * Real.exp (z' j - z j - m) :=
            mul_le_mul_of_nonneg_left (by linarith) (Real.exp_pos _).le
        _ = Real.exp (z' j - z j) := by rw [← Real.exp_add]; congr 1; ring
    refine le_trans (le_of_eq ?_) h4
    have h5 : ∀ j ∈ range k, Spec.softmax k z j * (Real.exp m * (1 + (z' j - z j - m))) =
        Real.exp m * (Spec.softmax k z j * (z' j - z j)) + Real.exp m * (1 - m) * Spec.softmax k z j :=
      fun j _ => by ring
    rw [Finset.sum_congr rfl h5, Finset.sum_add_distrib, ← Finset.mul_sum, ← Finset.mul_sum, h1, ← hm]
    ring
  rw [h2, Real.log_mul (hS z).ne' (lt_of_lt_of_le (Real.exp_pos _) h3).ne']
  have h6 := Real.log_le_log (Real.exp_pos _) h3
  rw [Real.log_exp] at h6
  linarith

/-- log-sum-exp lies below its tangents plus half the squared distance. -/
theorem lse_upper {k : Nat} (hk : 0 < k) (z z' : Nat → ℝ) :
    Real.log (∑ j ∈ range k, Real.exp (z' j)) ≤ Real.log (∑ j ∈ range k, Real.exp (z j)) +
      ∑ j ∈ range k, Spec.softmax k z j * (z' j - z j) + (∑ j ∈ range k, (z' j - z j) ^ 2) / 2 := by
  have hS : ∀ y : Nat → ℝ, 0 < ∑ j ∈ range k, Real.exp (y j) := fun y =>
    Finset.sum_pos (fun j _ => Real.exp_pos _) ⟨0, mem_range.2 hk⟩
  have h1 : ∑ j ∈ range k, Spec.softmax k z j = 1 := softmax_sum hk z
  have h2 : ∑ j ∈ range k, Real.exp (z' j) =
      (∑ j ∈ range k, Real.exp (z j)) * ∑ j ∈ range k, Spec.softmax k z j * Real.exp (z' j - z j) := by
    rw [Finset.mul_sum]
    refine Finset.sum_congr rfl fun j _ => ?_
    unfold Spec.softmax
    rw [Real.exp_sub]
    field_simp [(hS z).ne', (Real.exp_pos (z j)).ne']
  have h3 := finite_hoeffding (s := Spec.softmax k z) (d := fun j => z' j - z j)
    (fun j hj => (softmax_pos hj z).le) h1 (D := Real.sqrt (∑ j ∈ range k, (z' j - z j) ^ 2)) (fun j hj =>
      Real.abs_le_sqrt (Finset.single_le_sum (f := fun j => (z' j - z j) ^ 2) (fun _ _ => sq_nonneg _)
        (mem_range.2 hj)))
  rw [Real.sq_sqrt (Finset.sum_nonneg fun _ _ => sq_nonneg _)] at h3
  have hpos : 0 < ∑ j ∈ range k, Spec.softmax k z j * Real.exp (z' j - z j) :=
    Finset.sum_pos (fun j hj => mul_pos (softmax_pos (mem_range.1 hj) z) (Real.exp_pos _)) ⟨0, mem_range.2 hk⟩
  rw [h2, Real.log_mul (hS z).ne' hpos.ne']
  have h6 := Real.log_le_log hpos h3
  rw [Real.log_exp] at h6
  linarith

/-- The cross-entropy of `T` and the softmax of `z`. -/
noncomputable def rowLoss (k : Nat) (T z : Nat → ℝ) : ℝ := -∑ j ∈ range k, T j * Real.log (Spec.softmax k z j)

theorem rowLoss_eq {k : Nat} {T : Nat → ℝ} (hT : ∑ j ∈ range k, T j = 1) (z : Nat → ℝ) :
    rowLoss k T z = Real.log (∑ j ∈ range k, Real.exp (z j)) - ∑ j ∈ range k, T j * z j := by
  have hk : 0 < k := by
    rcases Nat.eq_zero_or_pos k with h | h
    · subst h; simp at hT
    · exact h
  have hS : 0 < ∑ j ∈ range k, Real.exp (z j) := Finset.sum_pos (fun j _ => Real.exp_pos _) ⟨0, mem_range.2 hk⟩
  have h1 : ∀ j ∈ range k, T j * Real.log (Spec.softmax k z j) =
      T j * z j - T j * Real.log (∑ j ∈ range k, Real.exp (z j)) := by
    intro j _
    rw [Spec.softmax, Real.log_div (Real.exp_pos _).ne' hS.ne', Real.log_exp]
    ring
  rw [rowLoss, Finset.sum_congr rfl h1, Finset.sum_sub_distrib, ← Finset.sum_mul, hT]
  ring

theorem rowLoss_lower {k : Nat} {T : Nat → ℝ} (hT : ∑ j ∈ range k, T j = 1) (z z' : Nat → ℝ) :
    rowLoss k T z + ∑ j ∈ range k, (Spec.softmax k z j - T j) * (z' j - z j) ≤ rowLoss k T z' := by
  have hk : 0 < k := by
    rcases Nat.eq_zero_or_pos k with h | h
    · subst h; simp at hT
    · exact h
  rw [rowLoss_eq hT, rowLoss_eq hT]
  have h := lse_lower hk z z'
  have e : ∑ j ∈ range k, (Spec.softmax k z j - T j) * (z' j - z j) =
      ∑ j ∈ range k, Spec.softmax k z j * (z' j - z j) - ∑ j ∈ range k, T j * z' j + ∑ j ∈ range k, T j * z j := by
    rw [← Finset.sum_sub_distrib, ← Finset.sum_add_distrib]
    exact Finset.sum_congr rfl fun j _ => by ring
  linarith

theorem rowLoss_upper {k : Nat} {T : Nat → ℝ} (hT : ∑ j ∈ range k, T j = 1) (z z' : Nat → ℝ) :
    rowLoss k T z' ≤ rowLoss k T z + ∑ j ∈ range k, (Spec.softmax k z j - T j) * (z' j - z j) +
      (∑ j ∈ range k, (z' j - z j) ^ 2) / 2 := by
  have hk : 0 < k := by
    rcases Nat.eq_zero_or_pos k with h | h
    · subst h; simp at hT
    · exact h
  rw [rowLoss_eq hT, rowLoss_eq hT]
  have h := lse_upper hk z z'
  have e : ∑ j ∈ range k, (Spec.softmax k z j - T j) * (z' j - z j) =
      ∑ j ∈ range k, Spec.softmax k z j * (z' j - z j) - ∑ j ∈ range k, T j * z' j + ∑ j ∈ range k, T j * z j := by
    rw [← Finset.sum_sub_distrib, ← Finset.sum_add_distrib]
    exact Finset.sum_congr rfl fun j _ => by ring
  linarith
end StdNN
