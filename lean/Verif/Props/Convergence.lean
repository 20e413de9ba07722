import Verif.Lemmas.Convex
import Mathlib.Algebra.Order.Chebyshev
/-!
# Training converges

C129: what the training of examples/example_train_mnist_slp.cpp achieves, for exact real numbers: a step does not raise the
loss of its batch when the rate is small against the length of the inputs, the parameters that a step leaves alone are
exactly those of least loss, repeated steps on one batch approach the least loss, and the losses printed by a pass over a
data set are on average not much above those of any fixed parameters.
-/
namespace StdNN
open Outcome Finset Spec

/-! ## The loss of a set of rows, its gradient -/

section
variable (p k : Nat) (X T : Nat → Nat → ℝ) (S : Finset Nat)

/-- The sum of the losses of the rows in `S`. -/
noncomputable def lossOn (W : Nat → Nat → ℝ) (B : Nat → ℝ) : ℝ := ∑ i ∈ S, rowLoss k (T i) (logit p X W B i)

/-- The difference of the predictions and the targets. -/
noncomputable def errAt (W : Nat → Nat → ℝ) (B : Nat → ℝ) (i j : Nat) : ℝ := Spec.softmax k (logit p X W B i) j - T i j

/-- The gradient of `lossOn`. -/
noncomputable def gradW (W : Nat → Nat → ℝ) (B : Nat → ℝ) (q j : Nat) : ℝ := ∑ i ∈ S, X i q * errAt p k X T W B i j
noncomputable def gradB (W : Nat → Nat → ℝ) (B : Nat → ℝ) (j : Nat) : ℝ := ∑ i ∈ S, errAt p k X T W B i j

/-- The inner product of the gradient and a direction. -/
noncomputable def along (W : Nat → Nat → ℝ) (B : Nat → ℝ) (DW : Nat → Nat → ℝ) (DB : Nat → ℝ) : ℝ :=
  ∑ q ∈ range p, ∑ j ∈ range k, gradW p k X T S W B q j * DW q j + ∑ j ∈ range k, gradB p k X T S W B j * DB j

/-- The squared length of the gradient. -/
noncomputable def gradSq (W : Nat → Nat → ℝ) (B : Nat → ℝ) : ℝ :=
  ∑ q ∈ range p, ∑ j ∈ range k, gradW p k X T S W B q j ^ 2 + ∑ j ∈ range k, gradB p k X T S W B j ^ 2

variable {p k X T S}

theorem logit_sub (W W' : Nat → Nat → ℝ) (B B' : Nat → ℝ) (i j : Nat) :
    logit p X W' B' i j - logit p X W B i j = logit p X (fun q j => W' q j - W q j) (fun j => B' j - B j) i j := by
  unfold logit
  rw [add_sub_add_comm, ← Finset.sum_sub_distrib]
  congr 1
  exact Finset.sum_congr rfl fun q _ => by ring

theorem along_eq (W : Nat → Nat → ℝ) (B : Nat → ℝ) (DW : Nat → Nat → ℝ) (DB : Nat → ℝ) :
    ∑ i ∈ S, ∑ j ∈ range k, errAt p k X T W B i j * logit p X DW DB i j = along p k X T S W B DW DB := by
  unfold along gradW gradB
  generalize errAt p k X T W B = E
  have e1 : ∀ q j, (∑ i ∈ S, X i q * E i j) * DW q j = ∑ i ∈ S, E i j * (X i q * DW q j) := fun q j => by
    rw [Finset.sum_mul]; exact Finset.sum_congr rfl fun i _ => by ring
  have e2 : ∀ j, (∑ i ∈ S, E i j) * DB j = ∑ i ∈ S, E i j * DB j := fun j => by rw [Finset.sum_mul]
  simp only [e1, e2]
  have e3 : ∑ q ∈ range p, ∑ j ∈ range k, ∑ i ∈ S, E i j * (X i q * DW q j) =
      ∑ i ∈ S, ∑ j ∈ range k, E i j * ∑ q ∈ range p, X i q * DW q j := by
    calc _ = ∑ q ∈ range p, ∑ i ∈ S, ∑ j ∈ range k, E i j * (X i q * DW q j) :=
          Finset.sum_congr rfl fun q _ => Finset.sum_comm
      _ = ∑ i ∈ S, ∑ q ∈ range p, ∑ j ∈ range k, E i j * (X i q * DW q j) := Finset.sum_comm
      _ = ∑ i ∈ S, ∑ j ∈ range k, ∑ q ∈ range p, E i j * (X i q * DW q j) :=
          Finset.sum_congr rfl fun i _ => Finset.sum_comm
      _ = _ := by simp only [Finset.mul_sum]
  rw [e3, Finset.sum_comm (s := range k), ← Finset.sum_add_distrib]
  refine Finset.sum_congr rfl fun i _ => ?_
  rw [← Finset.sum_add_distrib]
  refine Finset.sum_congr rfl fun j _ => ?_
  unfold logit
  ring

theorem lossOn_lower (hT : ∀ i ∈ S, ∑ j ∈ range k, T i j = 1) (W W' : Nat → Nat → ℝ) (B B' : Nat → ℝ) :
    lossOn p k X T S W B + along p k X T S W B (fun q j => W' q j - W q j) (fun j => B' j - B j) ≤
      lossOn p k X T S W' B' := by
  rw [← along_eq, lossOn, lossOn, ← Finset.sum_add_distrib]
  refine Finset.sum_le_sum fun i hi => ?_
  have h := rowLoss_lower (hT i hi) (logit p X W B i) (logit p X W' B' i)
  simp only [logit_sub] at h
  exact h

/-- A row of logits is at most as long as the parameters, times the length of the input extended by a one. -/
theorem logit_sq_le (DW : Nat → Nat → ℝ) (DB : Nat → ℝ) {ρ : ℝ} {i : Nat} (hρ : ∑ q ∈ range p, X i q ^ 2 ≤ ρ) :
    ∑ j ∈ range k, logit p X DW DB i j ^ 2 ≤
      (ρ + 1) * (∑ q ∈ range p, ∑ j ∈ range k, DW q j ^ 2 + ∑ j ∈ range k, DB j ^ 2) := by
  have h : ∀ j ∈ range k, logit p X DW DB i j ^ 2 ≤ (ρ + 1) * (∑ q ∈ range p, DW q j ^ 2 + DB j ^ 2) := by
    intro j _
    unfold logit
    have h1 := Finset.sum_mul_sq_le_sq_mul_sq (range p) (fun q => X i q) fun q => DW q j
    have hC : 0 ≤ ∑ q ∈ range p, DW q j ^ 2 := Finset.sum_nonneg fun _ _ => sq_nonneg _
    have hA : 0 ≤ ∑ q ∈ range p, X i q ^ 2 := Finset.sum_nonneg fun _ _ => sq_nonneg _
    have h2 : (∑ q ∈ range p, X i q * DW q j) ^ 2 ≤ ρ * ∑ q ∈ range p, DW q j ^ 2 :=
      h1.trans (mul_le_mul_of_nonneg_right hρ hC)
    generalize ∑ q ∈ range p, X i q * DW q j = u at *
    generalize ∑ q ∈ range p, DW q j ^ 2 = C at *
    have hr : 0 ≤ ρ := hA.trans hρ
    have h3 : 2 * u * DB j ≤ ρ * DB j ^ 2 + C := by
      refine le_of_abs_le (abs_le_of_sq_le_sq ?_ (by positivity))
      have h4 : (2 * u * DB j) ^ 2 = 4 * (u ^ 2 * DB j ^ 2) := by ring
      have h5 : u ^ 2 * DB j ^ 2 ≤ ρ * C * DB j ^ 2 := mul_le_mul_of_nonneg_right h2 (sq_nonneg _)
      nlinarith [sq_nonneg (ρ * DB j ^ 2 - C)]
    nlinarith
  refine (Finset.sum_le_sum h).trans (le_of_eq ?_)
  rw [← Finset.mul_sum, Finset.sum_add_distrib, Finset.sum_comm]

theorem lossOn_upper (hT : ∀ i ∈ S, ∑ j ∈ range k, T i j = 1) {ρ : ℝ} (hρ : ∀ i ∈ S, ∑ q ∈ range p, X i q ^ 2 ≤ ρ)
    (W W' : Nat → Nat → ℝ) (B B' : Nat → ℝ) :
    lossOn p k X T S W' B' ≤
      lossOn p k X T S W B + along p k X T S W B (fun q j => W' q j - W q j) (fun j => B' j - B j) +
        S.card * (ρ + 1) / 2 * paramDist p k W' B' W B := by
  have h1 : ∑ i ∈ S, (∑ j ∈ range k, logit p X (fun q j => W' q j - W q j) (fun j => B' j - B j) i j ^ 2) / 2 ≤
      S.card * (ρ + 1) / 2 * paramDist p k W' B' W B := by
    refine (Finset.sum_le_card_nsmul S _ ((ρ + 1) * paramDist p k W' B' W B / 2) fun i hi => ?_).trans (le_of_eq ?_)
    · exact div_le_div_of_nonneg_right (logit_sq_le _ _ (hρ i hi)) (by norm_num)
    · rw [nsmul_eq_mul]; ring
  refine le_trans ?_ (add_le_add_right h1 _)
  rw [← along_eq, lossOn, lossOn, ← Finset.sum_add_distrib, ← Finset.sum_add_distrib]
  refine Finset.sum_le_sum fun i hi => ?_
  have h := rowLoss_upper (hT i hi) (logit p X W B i) (logit p X W' B' i)
  simp only [logit_sub] at h
  exact h

/-- Where a step against the gradient leads. -/
theorem along_step (c : ℝ) (W : Nat → Nat → ℝ) (B : Nat → ℝ) :
    along p k X T S W B (fun q j => W q j - c * gradW p k X T S W B q j - W q j)
      (fun j => B j - c * gradB p k X T S W B j - B j) = -c * gradSq p k X T S W B := by
  unfold along gradSq
  rw [mul_add, Finset.mul_sum, Finset.mul_sum]
  simp only [Finset.mul_sum]
  congr 1
  · exact Finset.sum_congr rfl fun q _ => Finset.sum_congr rfl fun j _ => by ring
  · exact Finset.sum_congr rfl fun j _ => by ring

theorem dist_step (c : ℝ) (W : Nat → Nat → ℝ) (B : Nat → ℝ) :
    paramDist p k (fun q j => W q j - c * gradW p k X T S W B q j) (fun j => B j - c * gradB p k X T S W B j) W B =
      c ^ 2 * gradSq p k X T S W B := by
  unfold paramDist gradSq
  rw [mul_add, Finset.mul_sum, Finset.mul_sum]
  simp only [Finset.mul_sum]
  congr 1
  · exact Finset.sum_congr rfl fun q _ => Finset.sum_congr rfl fun j _ => by ring
  · exact Finset.sum_congr rfl fun j _ => by ring

theorem dist_three (c : ℝ) (W W' : Nat → Nat → ℝ) (B B' : Nat → ℝ) :
    paramDist p k (fun q j => W q j - c * gradW p k X T S W B q j) (fun j => B j - c * gradB p k X T S W B j) W' B' =
      paramDist p k W B W' B' +
        2 * c * along p k X T S W B (fun q j => W' q j - W q j) (fun j => B' j - B j) +
        c ^ 2 * gradSq p k X T S W B := by
  unfold paramDist along gradSq
  simp only [mul_add, Finset.mul_sum]
  have e1 : ∀ q j, (W q j - c * gradW p k X T S W B q j - W' q j) ^ 2 = (W q j - W' q j) ^ 2 +
      2 * c * (gradW p k X T S W B q j * (W' q j - W q j)) + c ^ 2 * gradW p k X T S W B q j ^ 2 := fun q j => by ring
  have e2 : ∀ j, (B j - c * gradB p k X T S W B j - B' j) ^ 2 = (B j - B' j) ^ 2 +
      2 * c * (gradB p k X T S W B j * (B' j - B j)) + c ^ 2 * gradB p k X T S W B j ^ 2 := fun j => by ring
  simp only [e1, e2, Finset.sum_add_distrib]
  ring

theorem gradSq_nonneg (W : Nat → Nat → ℝ) (B : Nat → ℝ) : 0 ≤ gradSq p k X T S W B :=
  add_nonneg (Finset.sum_nonneg fun _ _ => Finset.sum_nonneg fun _ _ => sq_nonneg _)
    (Finset.sum_nonneg fun _ _ => sq_nonneg _)

theorem paramDist_nonneg (W W' : Nat → Nat → ℝ) (B B' : Nat → ℝ) : 0 ≤ paramDist p k W B W' B' :=
  add_nonneg (Finset.sum_nonneg fun _ _ => Finset.sum_nonneg fun _ _ => sq_nonneg _)
    (Finset.sum_nonneg fun _ _ => sq_nonneg _)

/-- The gradient is bounded when the targets are distributions. -/
theorem gradSq_le (hk : 0 < k) (hT0 : ∀ i ∈ S, ∀ j < k, 0 ≤ T i j) (hT : ∀ i ∈ S, ∑ j ∈ range k, T i j = 1) {ρ : ℝ}
    (hρ : ∀ i ∈ S, ∑ q ∈ range p, X i q ^ 2 ≤ ρ) (W : Nat → Nat → ℝ) (B : Nat → ℝ) :
    gradSq p k X T S W B ≤ 2 * (ρ + 1) * (S.card : ℝ) ^ 2 := by
  have hsq : ∀ v : Nat → ℝ, (∀ j < k, 0 ≤ v j) → ∑ j ∈ range k, v j = 1 → ∑ j ∈ range k, v j ^ 2 ≤ 1 := by
    intro v h0 h1
    rw [← h1]
    refine Finset.sum_le_sum fun j hj => ?_
    have h2 : v j ≤ 1 := by
      rw [← h1]
      exact Finset.single_le_sum (f := v) (fun j hj => h0 j (mem_range.1 hj)) hj
    have h3 := h0 j (mem_range.1 hj)
    nlinarith
  have hE : ∀ i ∈ S, ∑ j ∈ range k, errAt p k X T W B i j ^ 2 ≤ 2 := by
    intro i hi
    have h1 := hsq _ (fun j hj => (softmax_pos hj (logit p X W B i)).le) (softmax_sum hk _)
    have h2 := hsq _ (hT0 i hi) (hT i hi)
    have h3 : ∑ j ∈ range k, errAt p k X T W B i j ^ 2 ≤
        ∑ j ∈ range k, (Spec.softmax k (logit p X W B i) j ^ 2 + T i j ^ 2) := by
      refine Finset.sum_le_sum fun j hj => ?_
      have h4 := mul_nonneg (softmax_pos (mem_range.1 hj) (logit p X W B i)).le (hT0 i hi j (mem_range.1 hj))
      unfold errAt
      nlinarith
    rw [Finset.sum_add_distrib] at h3
    linarith
  have hB : ∑ j ∈ range k, gradB p k X T S W B j ^ 2 ≤ 2 * (S.card : ℝ) ^ 2 := by
    calc ∑ j ∈ range k, gradB p k X T S W B j ^ 2
        ≤ ∑ j ∈ range k, S.card * ∑ i ∈ S, errAt p k X T W B i j ^ 2 :=
          Finset.sum_le_sum fun j _ => sq_sum_le_card_mul_sum_sq
      _ = S.card * ∑ i ∈ S, ∑ j ∈ range k, errAt p k X T W B i j ^ 2 := by
          rw [← Finset.mul_sum, Finset.sum_comm]
      _ ≤ S.card * (S.card * 2) := by
          refine mul_le_mul_of_nonneg_left ?_ (Nat.cast_nonneg _)
          simpa [nsmul_eq_mul] using Finset.sum_le_card_nsmul S _ 2 hE
      _ = _ := by ring
  have hW : ∑ q ∈ range p, ∑ j ∈ range k, gradW p k X T S W B q j ^ 2 ≤ 2 * ρ * (S.card : ℝ) ^ 2 := by
    calc ∑ q ∈ range p, ∑ j ∈ range k, gradW p k X T S W B q j ^ 2
        ≤ ∑ q ∈ range p, ∑ j ∈ range k, S.card * ∑ i ∈ S, (X i q * errAt p k X T W B i j) ^ 2 :=
          Finset.sum_le_sum fun q _ => Finset.sum_le_sum fun j _ => sq_sum_le_card_mul_sum_sq
      _ = S.card * ∑ i ∈ S, (∑ q ∈ range p, X i q ^ 2) * ∑ j ∈ range k, errAt p k X T W B i j ^ 2 := by
          simp only [← Finset.mul_sum]
          congr 1
          calc _ = ∑ q ∈ range p, ∑ i ∈ S, ∑ j ∈ range k, (X i q * errAt p k X T W B i j) ^ 2 :=
                Finset.sum_congr rfl fun q _ => Finset.sum_comm
            _ = ∑ i ∈ S, ∑ q ∈ range p, ∑ j ∈ range k, (X i q * errAt p k X T W B i j) ^ 2 := Finset.sum_comm
            _ = _ := by
                refine Finset.sum_congr rfl fun i _ => ?_
                rw [Finset.sum_mul_sum]
                exact Finset.sum_congr rfl fun q _ => Finset.sum_congr rfl fun j _ => by ring
      _ ≤ S.card * (S.card * (ρ * 2)) := by
          refine mul_le_mul_of_nonneg_left ?_ (Nat.cast_nonneg _)
          have h5 : ∀ i ∈ S, (∑ q ∈ range p, X i q ^ 2) * ∑ j ∈ range k, errAt p k X T W B i j ^ 2 ≤ ρ * 2 := by
            intro i hi
            refine mul_le_mul (hρ i hi) (hE i hi) (Finset.sum_nonneg fun _ _ => sq_nonneg _)
              ((Finset.sum_nonneg fun _ _ => sq_nonneg _).trans (hρ i hi))
          simpa [nsmul_eq_mul] using Finset.sum_le_card_nsmul S _ (ρ * 2) h5
      _ = _ := by ring
  unfold gradSq
  linarith

/-- One step with any rate, against any other parameters. -/
theorem step_regret (hT : ∀ i ∈ S, ∑ j ∈ range k, T i j = 1) {c : ℝ} (hc : 0 < c) (W W' : Nat → Nat → ℝ)
    (B B' : Nat → ℝ) :
    lossOn p k X T S W B ≤ lossOn p k X T S W' B' + (paramDist p k W B W' B' -
      paramDist p k (fun q j => W q j - c * gradW p k X T S W B q j) (fun j => B j - c * gradB p k X T S W B j) W' B') /
        (2 * c) + c / 2 * gradSq p k X T S W B := by
  have h1 := lossOn_lower (p := p) (X := X) hT W W' B B'
  rw [dist_three c W W' B B']
  have h2 : (paramDist p k W B W' B' - (paramDist p k W B W' B' +
        2 * c * along p k X T S W B (fun q j => W' q j - W q j) (fun j => B' j - B j) +
        c ^ 2 * gradSq p k X T S W B)) / (2 * c) + c / 2 * gradSq p k X T S W B =
      -along p k X T S W B (fun q j => W' q j - W q j) (fun j => B' j - B j) := by
    field_simp
    ring
  rw [add_assoc, h2]
  linarith

/-- One step with a small rate. -/
theorem step_descent (hT : ∀ i ∈ S, ∑ j ∈ range k, T i j = 1) {ρ : ℝ} (hρ : ∀ i ∈ S, ∑ q ∈ range p, X i q ^ 2 ≤ ρ)
    (c : ℝ) (W : Nat → Nat → ℝ) (B : Nat → ℝ) :
    lossOn p k X T S (fun q j => W q j - c * gradW p k X T S W B q j) (fun j => B j - c * gradB p k X T S W B j) ≤
      lossOn p k X T S W B - c * (1 - c * (S.card * (ρ + 1)) / 2) * gradSq p k X T S W B := by
  have h := lossOn_upper hT hρ W (fun q j => W q j - c * gradW p k X T S W B q j) B
    (fun j => B j - c * gradB p k X T S W B j)
  rw [along_step, dist_step] at h
  refine h.trans (le_of_eq ?_)
  ring

end

/-! ## The loss that is printed -/

section
variable {eps c : ℝ} {n p k : Nat} {X T : Nat → Nat → ℝ}

/-- No predicted probability of the first `n` rows is below `eps`: the predictions are the softmax itself. -/
def Unclipped (eps : ℝ) (n p k : Nat) (X W : Nat → Nat → ℝ) (B : Nat → ℝ) : Prop :=
  ∀ i < n, ∀ j < k, eps ≤ Spec.softmax k (logit p X W B i) j

theorem meanLoss_unclipped {W : Nat → Nat → ℝ} {B : Nat → ℝ} (h : Unclipped eps n p k X W B) :
    meanLoss eps n p k X T W B = lossOn p k X T (range n) W B / n := by
  unfold meanLoss lossOn rowLoss prob
  congr 1
  refine Finset.sum_congr rfl fun i hi => ?_
  congr 1
  refine Finset.sum_congr rfl fun j hj => ?_
  rw [max_eq_right (h i (mem_range.1 hi) j (mem_range.1 hj))]

theorem meanLoss_zero (W : Nat → Nat → ℝ) (B : Nat → ℝ) :
    meanLoss 0 n p k X T W B = lossOn p k X T (range n) W B / n :=
  meanLoss_unclipped fun _ _ _ hj => (softmax_pos hj _).le

theorem meanLoss_le (hT0 : ∀ i < n, ∀ j < k, 0 ≤ T i j) (W : Nat → Nat → ℝ) (B : Nat → ℝ) :
    meanLoss eps n p k X T W B ≤ lossOn p k X T (range n) W B / n := by
  refine div_le_div_of_nonneg_right (Finset.sum_le_sum fun i hi => neg_le_neg (Finset.sum_le_sum fun j hj => ?_))
    (Nat.cast_nonneg _)
  exact mul_le_mul_of_nonneg_left (Real.log_le_log (softmax_pos (mem_range.1 hj) _) (le_max_right _ _))
    (hT0 i (mem_range.1 hi) j (mem_range.1 hj))

theorem tab2_inj {a b : Nat} {F G : Nat → Nat → ℝ} (h : (tab [a, b] (fn2 F)).data = (tab [a, b] (fn2 G)).data) {i j : Nat}
    (hi : i < a) (hj : j < b) : F i j = G i j := by
  have h1 := tab_getElem? (fn2 F) (v2 hi hj)
  rw [h, tab_getElem? (fn2 G) (v2 hi hj)] at h1
  exact (Option.some.inj h1).symm

theorem tab1_inj {a : Nat} {F G : Nat → ℝ} (h : (tab [a] (fn1 F)).data = (tab [a] (fn1 G)).data) {i : Nat}
    (hi : i < a) : F i = G i := by
  have h1 := tab_getElem? (fn1 F) (v1 hi)
  rw [h, tab_getElem? (fn1 G) (v1 hi)] at h1
  exact (Option.some.inj h1).symm

theorem paramDist_eq_zero {W W' : Nat → Nat → ℝ} {B B' : Nat → ℝ} : paramDist p k W B W' B' = 0 ↔
    (tab [p, k] (fn2 W)).data = (tab [p, k] (fn2 W')).data ∧ (tab [k] (fn1 B)).data = (tab [k] (fn1 B')).data := by
  constructor
  · intro h
    have hW : 0 ≤ ∑ q ∈ range p, ∑ j ∈ range k, (W q j - W' q j) ^ 2 :=
      Finset.sum_nonneg fun _ _ => Finset.sum_nonneg fun _ _ => sq_nonneg _
    have hB : 0 ≤ ∑ j ∈ range k, (B j - B' j) ^ 2 := Finset.sum_nonneg fun _ _ => sq_nonneg _
    unfold paramDist at h
    have h1 : ∑ q ∈ range p, ∑ j ∈ range k, (W q j - W' q j) ^ 2 = 0 := by linarith
    have h2 : ∑ j ∈ range k, (B j - B' j) ^ 2 = 0 := by linarith
    rw [Finset.sum_eq_zero_iff_of_nonneg fun _ _ => Finset.sum_nonneg fun _ _ => sq_nonneg _] at h1
    rw [Finset.sum_eq_zero_iff_of_nonneg fun _ _ => sq_nonneg _] at h2
    refine ⟨congrArg Tensor.data (tab_congr fun idx hv => ?_), congrArg Tensor.data (tab_congr fun idx hv => ?_)⟩
    · match idx, hv with
      | [q, j], ⟨hq, hj, _⟩ =>
        have h3 := h1 q (mem_range.2 hq)
        rw [Finset.sum_eq_zero_iff_of_nonneg fun _ _ => sq_nonneg _] at h3
        exact sub_eq_zero.1 (pow_eq_zero_iff (two_ne_zero) |>.1 (h3 j (mem_range.2 hj)))
    · match idx, hv with
      | [j], ⟨hj, _⟩ => exact sub_eq_zero.1 (pow_eq_zero_iff (two_ne_zero) |>.1 (h2 j (mem_range.2 hj)))
  · rintro ⟨h1, h2⟩
    unfold paramDist
    rw [Finset.sum_eq_zero fun q hq => Finset.sum_eq_zero fun j hj => ?_, Finset.sum_eq_zero fun j hj => ?_, add_zero]
    · rw [tab1_inj h2 (mem_range.1 hj)]; simp
    · rw [tab2_inj h1 (mem_range.1 hq) (mem_range.1 hj)]; simp

/-- The step of the code is a step against the gradient. -/
theorem gd_succ {W₀ : Nat → Nat → ℝ} {B₀ : Nat → ℝ} {t : Nat}
    (h : Unclipped eps n p k X (gd eps c n p k X T W₀ B₀ t).1 (gd eps c n p k X T W₀ B₀ t).2) :
    (∀ q, ∀ j < k, (gd eps c n p k X T W₀ B₀ (t + 1)).1 q j = (gd eps c n p k X T W₀ B₀ t).1 q j -
      c * gradW p k X T (range n) (gd eps c n p k X T W₀ B₀ t).1 (gd eps c n p k X T W₀ B₀ t).2 q j) ∧
    ∀ j < k, (gd eps c n p k X T W₀ B₀ (t + 1)).2 j = (gd eps c n p k X T W₀ B₀ t).2 j -
      c * gradB p k X T (range n) (gd eps c n p k X T W₀ B₀ t).1 (gd eps c n p k X T W₀ B₀ t).2 j := by
  constructor
  · intro q j hj
    simp only [gd, gradW, errAt]
    congr 2
    refine Finset.sum_congr rfl fun i hi => ?_
    rw [prob, max_eq_right (h i (mem_range.1 hi) j hj)]
  · intro j hj
    simp only [gd, gradB, errAt]
    congr 2
    refine Finset.sum_congr rfl fun i hi => ?_
    rw [prob, max_eq_right (h i (mem_range.1 hi) j hj)]

theorem logit_congr {W W' : Nat → Nat → ℝ} {B B' : Nat → ℝ} {i j : Nat} (hW : ∀ q, W q j = W' q j) (hB : B j = B' j) :
    logit p X W B i j = logit p X W' B' i j := by
  unfold logit
  rw [hB, Finset.sum_congr rfl fun q _ => by rw [hW q]]

theorem softmax_congr' {z z' : Nat → ℝ} (h : ∀ j < k, z j = z' j) {j : Nat} (hj : j < k) :
    Spec.softmax k z j = Spec.softmax k z' j := by
  unfold Spec.softmax
  rw [h j hj, Finset.sum_congr rfl fun j hj => by rw [h j (mem_range.1 hj)]]

theorem lossOn_congr {S : Finset Nat} {W W' : Nat → Nat → ℝ} {B B' : Nat → ℝ} (hW : ∀ q, ∀ j < k, W q j = W' q j)
    (hB : ∀ j < k, B j = B' j) : lossOn p k X T S W B = lossOn p k X T S W' B' := by
  unfold lossOn rowLoss
  refine Finset.sum_congr rfl fun i _ => congrArg Neg.neg (Finset.sum_congr rfl fun j hj => ?_)
  rw [softmax_congr' (fun j hj => logit_congr (fun q => hW q j hj) (hB j hj)) (mem_range.1 hj)]

theorem paramDist_congr {W W' V : Nat → Nat → ℝ} {B B' A : Nat → ℝ} (hW : ∀ q, ∀ j < k, W q j = W' q j)
    (hB : ∀ j < k, B j = B' j) : paramDist p k W B V A = paramDist p k W' B' V A := by
  unfold paramDist
  refine congrArg₂ (· + ·) (Finset.sum_congr rfl fun q _ => Finset.sum_congr rfl fun j hj => ?_)
    (Finset.sum_congr rfl fun j hj => ?_)
  · rw [hW q j (mem_range.1 hj)]
  · rw [hB j (mem_range.1 hj)]

/-! ## Steps of the model -/

theorem step_keeps {exp log : ℝ → ℝ} {divn : ℝ → Nat → ℝ} {junk : Nat → ℝ} {s s' : Slp.State ℝ}
    (h : Slp.step exp log eps divn junk n p k s = .ok s') : s'.xs = s.xs ∧ s'.y_s = s.y_s := by
  unfold Slp.step at h
  obtain ⟨_, _, h⟩ := bind_eq_ok.1 h
  obtain ⟨_, _, h⟩ := bind_eq_ok.1 h
  obtain ⟨_, _, h⟩ := bind_eq_ok.1 h
  obtain ⟨_, _, h⟩ := bind_eq_ok.1 h
  obtain ⟨_, _, h⟩ := bind_eq_ok.1 h
  obtain ⟨_, _, h⟩ := bind_eq_ok.1 h
  obtain ⟨_, _, h⟩ := bind_eq_ok.1 h
  obtain ⟨_, _, h⟩ := bind_eq_ok.1 h
  obtain ⟨_, _, h⟩ := bind_eq_ok.1 h
  cases h
  exact ⟨rfl, rfl⟩

/-- What training on one batch starts from: tensors of the right sizes that hold the inputs `X`, the targets `T`, the rate `c`
and the parameters `W`, `B`. -/
structure Holds (n p k : Nat) (c : ℝ) (X T W : Nat → Nat → ℝ) (B : Nat → ℝ) (s : Slp.State ℝ) : Prop where
  sized : Slp.Sized n p k s
  xs : s.xs = (tab [n, p] (fn2 X)).data
  y_s : s.y_s = (tab [n, k] (fn2 T)).data
  g_ls : s.g_ls = (tab [n] (fn1 fun _ => c)).data
  w : s.w = (tab [p, k] (fn2 W)).data
  b : s.b = (tab [k] (fn1 B)).data

theorem one_step (eps : ℝ) (junk : Nat → ℝ) (hT : ∀ i < n, ∑ j ∈ range k, T i j = 1) {W : Nat → Nat → ℝ} {B : Nat → ℝ}
    {s : Slp.State ℝ} (hs : Holds n p k c X T W B s) :
    ∃ s', Slp.step Real.exp Real.log eps (fun x n => x / (n : ℝ)) junk n p k s = .ok s' ∧
      Holds n p k c X T (gd eps c n p k X T W B 1).1 (gd eps c n p k X T W B 1).2 s' ∧
      s'.l = [meanLoss eps n p k X T W B] := by
  obtain ⟨s', e, a1, a2, a3, a4, a5⟩ := C97_step eps junk c X T W B hT hs.sized hs.xs hs.y_s hs.g_ls hs.w hs.b
  obtain ⟨k1, k2⟩ := step_keeps e
  refine ⟨s', e, ⟨a1, k1.trans hs.xs, k2.trans hs.y_s, a2.trans hs.g_ls, a4.trans ?_, a5.trans ?_⟩, a3⟩
  · refine congrArg Tensor.data (tab_congr fun idx hv => ?_)
    match idx, hv with
    | [q, j], _ =>
      simp only [fn2, gd, Finset.mul_sum]
      congr 1
      exact Finset.sum_congr rfl fun i _ => by ring
  · refine congrArg Tensor.data (tab_congr fun idx hv => ?_)
    match idx, hv with
    | [j], _ => simp only [fn1, gd, Finset.mul_sum]

theorem gd_shift (W : Nat → Nat → ℝ) (B : Nat → ℝ) (t : Nat) :
    gd eps c n p k X T W B (t + 1) = gd eps c n p k X T (gd eps c n p k X T W B t).1 (gd eps c n p k X T W B t).2 1 := rfl

/-- C129: `N` steps on one batch are `N` steps of gradient descent; the loss that the last of them reports is that of the
parameters before it. -/
theorem C129_repeat (eps : ℝ) (junk : Nat → ℝ) (hT : ∀ i < n, ∑ j ∈ range k, T i j = 1) {W : Nat → Nat → ℝ} {B : Nat → ℝ}
    {s : Slp.State ℝ} (hs : Holds n p k c X T W B s) (N : Nat) :
    ∃ s', forRange N (fun _ => Slp.step Real.exp Real.log eps (fun x n => x / (n : ℝ)) junk n p k) s = .ok s' ∧
      Holds n p k c X T (gd eps c n p k X T W B N).1 (gd eps c n p k X T W B N).2 s' ∧
      ∀ t, N = t + 1 → s'.l = [meanLoss eps n p k X T (gd eps c n p k X T W B t).1 (gd eps c n p k X T W B t).2] := by
  refine forRange_inv (fun N s => Holds n p k c X T (gd eps c n p k X T W B N).1 (gd eps c n p k X T W B N).2 s ∧
    ∀ t, N = t + 1 → s.l = [meanLoss eps n p k X T (gd eps c n p k X T W B t).1 (gd eps c n p k X T W B t).2])
    (fun t _ s h => ?_) ⟨hs, fun t h => absurd h (by omega)⟩
  obtain ⟨s', e, h1, h2⟩ := one_step eps junk hT h.1
  refine ⟨s', e, ?_, fun u hu => ?_⟩
  · rw [gd_shift]; exact h1
  · obtain rfl : u = t := by omega
    exact h2

/-- C129: a step that starts from predictions that are not clipped, followed by another on the same batch. The second reports
a loss that is below the first by at least a multiple of the squared distance that the parameters moved; so with a rate `c`
of at most `2 / (n * (ρ + 1))`, where `ρ` bounds the squared length of the inputs, the loss does not grow, and if the rate is
below that, it falls unless the first step left the parameters alone. -/
theorem C129_descent (eps : ℝ) (junk : Nat → ℝ) (hn : 1 ≤ n) (hc : 0 < c) (hT0 : ∀ i < n, ∀ j < k, 0 ≤ T i j)
    (hT : ∀ i < n, ∑ j ∈ range k, T i j = 1) {ρ : ℝ} (hρ : ∀ i < n, ∑ q ∈ range p, X i q ^ 2 ≤ ρ)
    {W : Nat → Nat → ℝ} {B : Nat → ℝ} (hu : Unclipped eps n p k X W B) {s : Slp.State ℝ}
    (hs : Holds n p k c X T W B s) :
    ∃ s' s'' l l' W' B', Slp.step Real.exp Real.log eps (fun x n => x / (n : ℝ)) junk n p k s = .ok s' ∧
      Slp.step Real.exp Real.log eps (fun x n => x / (n : ℝ)) junk n p k s' = .ok s'' ∧
      Holds n p k c X T W' B' s' ∧ s'.l = [l] ∧ s''.l = [l'] ∧
      l' ≤ l - (1 / (c * n) - (ρ + 1) / 2) * paramDist p k W' B' W B ∧
      (c * (n * (ρ + 1)) ≤ 2 → l' ≤ l) ∧
      (c * (n * (ρ + 1)) < 2 → ¬ (s'.w = s.w ∧ s'.b = s.b) → l' < l) := by
  obtain ⟨s', e1, h1, l1⟩ := one_step eps junk hT hs
  obtain ⟨s'', e2, h2, l2⟩ := one_step eps junk hT h1
  have hn0 : (0 : ℝ) < n := by exact_mod_cast hn
  obtain ⟨g1, g2⟩ := gd_succ (c := c) (T := T) (W₀ := W) (B₀ := B) (t := 0) hu
  have key : meanLoss eps n p k X T (gd eps c n p k X T W B 1).1 (gd eps c n p k X T W B 1).2 ≤
      meanLoss eps n p k X T W B - (1 / (c * n) - (ρ + 1) / 2) *
        paramDist p k (gd eps c n p k X T W B 1).1 (gd eps c n p k X T W B 1).2 W B := by
    refine (meanLoss_le hT0 _ _).trans ?_
    rw [meanLoss_unclipped hu, lossOn_congr g1 g2, paramDist_congr g1 g2]
    have h := step_descent (p := p) (k := k) (X := X) (T := T) (S := range n) (fun i hi => hT i (mem_range.1 hi))
      (fun i hi => hρ i (mem_range.1 hi)) c W B
    have hd := dist_step (p := p) (k := k) (X := X) (T := T) (S := range n) c W B
    rw [card_range] at h
    simp only [gd]
    rw [hd]
    refine (div_le_div_of_nonneg_right h hn0.le).trans (le_of_eq ?_)
    field_simp
  have hd0 := paramDist_nonneg (p := p) (k := k) (gd eps c n p k X T W B 1).1 W (gd eps c n p k X T W B 1).2 B
  have hfac : 1 / (c * n) - (ρ + 1) / 2 = (2 - c * (n * (ρ + 1))) / (2 * (c * n)) := by field_simp
  refine ⟨s', s'', _, _, _, _, e1, e2, h1, l1, l2, key, fun h => ?_, fun h hne => ?_⟩
  · refine key.trans (sub_le_self _ (mul_nonneg ?_ hd0))
    rw [hfac]
    exact div_nonneg (by linarith) (by positivity)
  · refine key.trans_lt (sub_lt_self _ (mul_pos ?_ (lt_of_le_of_ne hd0 fun h0 => hne ?_)))
    · rw [hfac]
      exact div_pos (by linarith) (by positivity)
    · obtain ⟨z1, z2⟩ := paramDist_eq_zero.1 h0.symm
      exact ⟨h1.w.trans (z1.trans hs.w.symm), h1.b.trans (z2.trans hs.b.symm)⟩

/-- C129: a step from predictions that are not clipped leaves the parameters as they are exactly when no parameters have a
smaller loss on the batch. -/
theorem C129_minimum (eps : ℝ) (junk : Nat → ℝ) (hn : 1 ≤ n) (hc : c ≠ 0)
    (hT : ∀ i < n, ∑ j ∈ range k, T i j = 1) {W : Nat → Nat → ℝ} {B : Nat → ℝ} (hu : Unclipped eps n p k X W B)
    {s : Slp.State ℝ} (hs : Holds n p k c X T W B s) :
    ∃ s', Slp.step Real.exp Real.log eps (fun x n => x / (n : ℝ)) junk n p k s = .ok s' ∧
      ((s'.w = s.w ∧ s'.b = s.b) ↔ ∀ W' B', meanLoss 0 n p k X T W B ≤ meanLoss 0 n p k X T W' B') := by
  obtain ⟨s', e1, h1, -⟩ := one_step eps junk hT hs
  have hn0 : (0 : ℝ) < n := by exact_mod_cast hn
  obtain ⟨g1, g2⟩ := gd_succ (c := c) (T := T) (W₀ := W) (B₀ := B) (t := 0) hu
  have hTS : ∀ i ∈ range n, ∑ j ∈ range k, T i j = 1 := fun i hi => hT i (mem_range.1 hi)
  have hz : (s'.w = s.w ∧ s'.b = s.b) ↔ gradSq p k X T (range n) W B = 0 := by
    rw [h1.w, h1.b, hs.w, hs.b, ← paramDist_eq_zero, paramDist_congr g1 g2]
    simp only [gd]
    rw [dist_step, mul_eq_zero]
    exact ⟨fun h => h.resolve_left (pow_ne_zero _ hc), Or.inr⟩
  refine ⟨s', e1, hz.trans ⟨fun h0 W' B' => ?_, fun h => ?_⟩⟩
  · rw [meanLoss_zero, meanLoss_zero]
    refine div_le_div_of_nonneg_right ?_ hn0.le
    have hl := lossOn_lower (p := p) (X := X) hTS W W' B B'
    have ha : along p k X T (range n) W B (fun q j => W' q j - W q j) (fun j => B' j - B j) = 0 := by
      have hW : 0 ≤ ∑ q ∈ range p, ∑ j ∈ range k, gradW p k X T (range n) W B q j ^ 2 :=
        Finset.sum_nonneg fun _ _ => Finset.sum_nonneg fun _ _ => sq_nonneg _
      have hB : 0 ≤ ∑ j ∈ range k, gradB p k X T (range n) W B j ^ 2 := Finset.sum_nonneg fun _ _ => sq_nonneg _
      unfold gradSq at h0
      have k1 : ∑ q ∈ range p, ∑ j ∈ range k, gradW p k X T (range n) W B q j ^ 2 = 0 := by linarith
      have k2 : ∑ j ∈ range k, gradB p k X T (range n) W B j ^ 2 = 0 := by linarith
      rw [Finset.sum_eq_zero_iff_of_nonneg fun _ _ => Finset.sum_nonneg fun _ _ => sq_nonneg _] at k1
      rw [Finset.sum_eq_zero_iff_of_nonneg fun _ _ => sq_nonneg _] at k2
      unfold along
      rw [Finset.sum_eq_zero fun q hq => Finset.sum_eq_zero fun j hj => ?_, Finset.sum_eq_zero fun j hj => ?_, add_zero]
      · rw [pow_eq_zero_iff two_ne_zero |>.1 (k2 j hj), zero_mul]
      · have k3 := k1 q hq
        rw [Finset.sum_eq_zero_iff_of_nonneg fun _ _ => sq_nonneg _] at k3
        rw [pow_eq_zero_iff two_ne_zero |>.1 (k3 j hj), zero_mul]
    linarith
  · set ρ : ℝ := ∑ i ∈ range n, ∑ q ∈ range p, X i q ^ 2 with hρd
    have hρ : ∀ i ∈ range n, ∑ q ∈ range p, X i q ^ 2 ≤ ρ := fun i hi =>
      Finset.single_le_sum (f := fun i => ∑ q ∈ range p, X i q ^ 2)
        (fun _ _ => Finset.sum_nonneg fun _ _ => sq_nonneg _) hi
    have hρ0 : 0 ≤ ρ := Finset.sum_nonneg fun _ _ => Finset.sum_nonneg fun _ _ => sq_nonneg _
    have hL : 0 < (n : ℝ) * (ρ + 1) := by positivity
    have hd := step_descent (p := p) (k := k) hTS hρ (1 / (n * (ρ + 1))) W B
    have hm := h (fun q j => W q j - 1 / (n * (ρ + 1)) * gradW p k X T (range n) W B q j)
      (fun j => B j - 1 / (n * (ρ + 1)) * gradB p k X T (range n) W B j)
    rw [meanLoss_zero, meanLoss_zero, div_le_div_iff_of_pos_right hn0] at hm
    rw [card_range] at hd
    have h2 : (1 / ((n : ℝ) * (ρ + 1))) * (1 - 1 / (n * (ρ + 1)) * (n * (ρ + 1)) / 2) = 1 / (2 * (n * (ρ + 1))) := by
      field_simp
      norm_num
    rw [h2] at hd
    have h3 : 1 / (2 * ((n : ℝ) * (ρ + 1))) * gradSq p k X T (range n) W B ≤ 0 := by linarith
    have h4 : 0 < 1 / (2 * ((n : ℝ) * (ρ + 1))) := by positivity
    have h5 := gradSq_nonneg (p := p) (k := k) (X := X) (T := T) (S := range n) W B
    nlinarith

/-- C129: `N` steps on one batch with a rate of at most `1 / (n * (ρ + 1))`, none of them from clipped predictions, then one
more to see the loss: it is at most the loss of any parameters plus their squared distance from the start over `2 c n N`. -/
theorem C129_converges (eps : ℝ) (junk : Nat → ℝ) (hn : 1 ≤ n) (hc : 0 < c) (hT0 : ∀ i < n, ∀ j < k, 0 ≤ T i j)
    (hT : ∀ i < n, ∑ j ∈ range k, T i j = 1) {ρ : ℝ} (hρ : ∀ i < n, ∑ q ∈ range p, X i q ^ 2 ≤ ρ)
    (hr : c * (n * (ρ + 1)) ≤ 1) {W : Nat → Nat → ℝ} {B : Nat → ℝ} {N : Nat} (hN : 1 ≤ N)
    (hu : ∀ t < N, Unclipped eps n p k X (gd eps c n p k X T W B t).1 (gd eps c n p k X T W B t).2)
    {s : Slp.State ℝ} (hs : Holds n p k c X T W B s) :
    ∃ s' l, forRange (N + 1) (fun _ => Slp.step Real.exp Real.log eps (fun x n => x / (n : ℝ)) junk n p k) s = .ok s' ∧
      s'.l = [l] ∧ ∀ W' B', l ≤ meanLoss 0 n p k X T W' B' + paramDist p k W B W' B' / (2 * (c * n) * N) := by
  obtain ⟨s', e, -, hl⟩ := C129_repeat eps junk hT hs (N + 1)
  refine ⟨s', _, e, hl N rfl, fun W' B' => (meanLoss_le hT0 _ _).trans ?_⟩
  have hn0 : (0 : ℝ) < n := by exact_mod_cast hn
  have hN0 : (0 : ℝ) < N := by exact_mod_cast hN
  have hTS : ∀ i ∈ range n, ∑ j ∈ range k, T i j = 1 := fun i hi => hT i (mem_range.1 hi)
  have hρS : ∀ i ∈ range n, ∑ q ∈ range p, X i q ^ 2 ≤ ρ := fun i hi => hρ i (mem_range.1 hi)
  let θ := gd eps c n p k X T W B
  let F := fun t => lossOn p k X T (range n) (θ t).1 (θ t).2
  let D := fun t => paramDist p k (θ t).1 (θ t).2 W' B'
  have step : ∀ t < N, F (t + 1) ≤ F t ∧ F (t + 1) ≤ lossOn p k X T (range n) W' B' + (D t - D (t + 1)) / (2 * c) := by
    intro t ht
    obtain ⟨g1, g2⟩ := gd_succ (c := c) (T := T) (W₀ := W) (B₀ := B) (hu t ht)
    have h1 := step_descent (p := p) (k := k) hTS hρS c (θ t).1 (θ t).2
    have h2 := step_regret (p := p) (X := X) hTS hc (θ t).1 W' (θ t).2 B'
    rw [card_range] at h1
    have h3 : F (t + 1) = lossOn p k X T (range n)
        (fun q j => (θ t).1 q j - c * gradW p k X T (range n) (θ t).1 (θ t).2 q j)
        (fun j => (θ t).2 j - c * gradB p k X T (range n) (θ t).1 (θ t).2 j) := lossOn_congr g1 g2
    have h4 : D (t + 1) = paramDist p k
        (fun q j => (θ t).1 q j - c * gradW p k X T (range n) (θ t).1 (θ t).2 q j)
        (fun j => (θ t).2 j - c * gradB p k X T (range n) (θ t).1 (θ t).2 j) W' B' := paramDist_congr g1 g2
    rw [← h3] at h1
    rw [← h4] at h2
    have h5 := gradSq_nonneg (p := p) (k := k) (X := X) (T := T) (S := range n) (θ t).1 (θ t).2
    have h6 : c / 2 * gradSq p k X T (range n) (θ t).1 (θ t).2 ≤
        c * (1 - c * (n * (ρ + 1)) / 2) * gradSq p k X T (range n) (θ t).1 (θ t).2 := by
      refine mul_le_mul_of_nonneg_right ?_ h5
      nlinarith
    have h7 : 0 ≤ c / 2 * gradSq p k X T (range n) (θ t).1 (θ t).2 := mul_nonneg (by positivity) h5
    constructor
    · exact h1.trans (by linarith)
    · change F (t + 1) ≤ F t - _ at h1
      change F t ≤ _ + (D t - _) / _ + _ at h2
      linarith
  have mono : ∀ t u, t ≤ u → u ≤ N → F u ≤ F t := by
    intro t u htu
    induction u, htu using Nat.le_induction with
    | base => exact fun _ => le_refl _
    | succ u _ ih => exact fun h => ((step u (by omega)).1).trans (ih (by omega))
  have tel : ∀ M ≤ N, ∑ t ∈ range M, F (t + 1) ≤
      M * lossOn p k X T (range n) W' B' + (D 0 - D M) / (2 * c) := by
    intro M
    induction M with
    | zero => intro _; simp
    | succ M ih =>
      intro h
      have h1 := ih (by omega)
      have h2 := (step M (by omega)).2
      rw [Finset.sum_range_succ]
      push_cast
      have e : (D 0 - D (M + 1)) / (2 * c) = (D 0 - D M) / (2 * c) + (D M - D (M + 1)) / (2 * c) := by ring
      rw [e]
      linarith
  have h1 : N * F N ≤ ∑ t ∈ range N, F (t + 1) := by
    have := Finset.card_nsmul_le_sum (range N) (fun t => F (t + 1)) (F N)
      fun t ht => mono (t + 1) N (by have := mem_range.1 ht; omega) le_rfl
    simpa [nsmul_eq_mul] using this
  have h2 := h1.trans (tel N le_rfl)
  have h3 : 0 ≤ D N := paramDist_nonneg ..
  have h4 : (D 0 - D N) / (2 * c) ≤ D 0 / (2 * c) := div_le_div_of_nonneg_right (by linarith) (by positivity)
  have h5 : N * F N ≤ N * (lossOn p k X T (range n) W' B' + D 0 / (2 * c * N)) := by
    rw [mul_add]
    have : (N : ℝ) * (D 0 / (2 * c * N)) = D 0 / (2 * c) := by field_simp
    rw [this]
    linarith
  have h6 := le_of_mul_le_mul_left h5 hN0
  rw [meanLoss_zero]
  change F N / n ≤ _
  refine (div_le_div_of_nonneg_right h6 hn0.le).trans (le_of_eq ?_)
  change (_ + paramDist p k W B W' B' / _) / _ = _
  field_simp
end

/-! ## A pass over a data set -/

/-- C129: the losses that a pass over a data set prints, one for each batch of `m` images: as long as no prediction is
clipped, their sum is at most the sum of the losses that any fixed parameters have on these batches, plus the squared distance
of these parameters from the start over `2 c m`, plus `c m (ρ + 1)` for each batch. The loss of batch `t` is what training on
the first `t + 1` batches leaves in `l`. -/
theorem C129_regret (eps : ℝ) {c : ℝ} (hc : 0 < c) (junk : Nat → ℝ) (norm : Int → ℝ) {n p k m : Nat} (hm : 1 ≤ m)
    (hk : k < 256) (I : Nat → Nat → Int) (label : Nat → Nat) (hl : ∀ i < n, label i < k) (W : Nat → Nat → ℝ) (B : Nat → ℝ)
    {ρ : ℝ} (hρ : ∀ i < n, ∑ q ∈ range p, norm (I i q) ^ 2 ≤ ρ) {s : Slp.State ℝ} (hs : Slp.Sized m p k s)
    (hw : s.w = (tab [p, k] (fn2 W)).data) (hb : s.b = (tab [k] (fn1 B)).data)
    (hu : ∀ t < n / m, Unclipped eps m p k (fun i q => norm (I (t * m + i) q))
      (sgd eps c m p k (fun i q => norm (I i q)) label W B t).1 (sgd eps c m p k (fun i q => norm (I i q)) label W B t).2) :
    ∃ L : Nat → ℝ,
      (∀ t < n / m, ∃ s', Slp.train Real.exp Real.log eps (fun x n => x / (n : ℝ)) junk norm c
        ⟨(tab [(t + 1) * m, p] (fn2 I)).data, (List.range ((t + 1) * m)).map fun i => (label i : Int)⟩ ((t + 1) * m) p k m s =
          .ok s' ∧ s'.l = [L t]) ∧
      ∀ W' B', ∑ t ∈ range (n / m), L t ≤
        ∑ t ∈ range (n / m), meanLoss 0 m p k (fun i q => norm (I (t * m + i) q))
          (fun i j => if label (t * m + i) = j then 1 else 0) W' B' +
        paramDist p k W B W' B' / (2 * (c * m)) + (n / m : Nat) * (c * m * (ρ + 1)) := by
  set X : Nat → Nat → ℝ := fun i q => norm (I i q) with hX
  set T : Nat → Nat → ℝ := fun i j => if label i = j then 1 else 0 with hTd
  have hm0 : (0 : ℝ) < m := by exact_mod_cast hm
  have hin : ∀ t < n / m, t * m + m ≤ n := by
    intro t ht
    have h5 : (t + 1) * m ≤ n / m * m := Nat.mul_le_mul_right _ ht
    have h6 := Nat.div_mul_le_self n m
    rw [Nat.add_mul, Nat.one_mul] at h5
    omega
  have shift : ∀ (t : Nat) (f : Nat → ℝ), ∑ i ∈ Ico (t * m) (t * m + m), f i = ∑ i ∈ range m, f (t * m + i) := by
    intro t f
    rw [Finset.sum_Ico_eq_sum_range, Nat.add_sub_cancel_left]
  let θ := sgd eps c m p k X label W B
  refine ⟨fun t => meanLoss eps m p k (fun i q => X (t * m + i) q) (fun i j => T (t * m + i) j) (θ t).1 (θ t).2,
    fun t ht => ?_, fun W' B' => ?_⟩
  · have hin' : (t + 1) * m ≤ n := by rw [Nat.add_mul, Nat.one_mul]; exact hin t ht
    obtain ⟨s', e, -, -, h⟩ := C99_run eps c junk norm (n := (t + 1) * m) hm hk I label
      (fun i hi => hl i (by omega)) W B hs hw hb
    exact ⟨s', e, h t (Nat.mul_div_cancel _ hm)⟩
  · have hloss : ∀ t (V : Nat → Nat → ℝ) (A : Nat → ℝ),
        lossOn p k (fun i q => X (t * m + i) q) (fun i j => T (t * m + i) j) (range m) V A =
          lossOn p k X T (Ico (t * m) (t * m + m)) V A := by
      intro t V A
      unfold lossOn
      rw [shift]
      rfl
    let D := fun t => paramDist p k (θ t).1 (θ t).2 W' B'
    have hTS : ∀ t < n / m, ∀ i ∈ Ico (t * m) (t * m + m), ∑ j ∈ range k, T i j = 1 := by
      intro t ht i hi
      have h1 := hl i (by have := hin t ht; have := (mem_Ico.1 hi).2; omega)
      simp [hTd, h1]
    have step : ∀ t < n / m, lossOn p k X T (Ico (t * m) (t * m + m)) (θ t).1 (θ t).2 ≤
        lossOn p k X T (Ico (t * m) (t * m + m)) W' B' + (D t - D (t + 1)) / (2 * c) + c * (ρ + 1) * m ^ 2 := by
      intro t ht
      have h1 := step_regret (p := p) (X := X) (hTS t ht) hc (θ t).1 W' (θ t).2 B'
      have hk0 : 0 < k := by have := hl 0 (by have := hin t ht; omega); omega
      have h2 := gradSq_le (p := p) (X := X) hk0 (fun i _ j _ => by simp only [hTd]; split <;> norm_num) (hTS t ht)
        (fun i hi => hρ i (by have := hin t ht; have := (mem_Ico.1 hi).2; omega)) (θ t).1 (θ t).2
      rw [Nat.card_Ico, Nat.add_sub_cancel_left] at h2
      have hun : ∀ i ∈ Ico (t * m) (t * m + m), ∀ j < k,
          prob eps p k X (θ t).1 (θ t).2 i j = Spec.softmax k (logit p X (θ t).1 (θ t).2 i) j := by
        intro i hi j hj
        have h3 := hu t ht (i - t * m) (by have := mem_Ico.1 hi; omega) j hj
        have e : t * m + (i - t * m) = i := by have := mem_Ico.1 hi; omega
        have e2 : logit p (fun i q => norm (I (t * m + i) q)) (θ t).1 (θ t).2 (i - t * m) =
            logit p X (θ t).1 (θ t).2 i := by
          funext j
          simp only [logit, e, hX]
        change eps ≤ Spec.softmax k (logit p (fun i q => norm (I (t * m + i) q)) (θ t).1 (θ t).2 (i - t * m)) j at h3
        rw [e2] at h3
        exact max_eq_right h3
      have h4 : D (t + 1) = paramDist p k
          (fun q j => (θ t).1 q j - c * gradW p k X T (Ico (t * m) (t * m + m)) (θ t).1 (θ t).2 q j)
          (fun j => (θ t).2 j - c * gradB p k X T (Ico (t * m) (t * m + m)) (θ t).1 (θ t).2 j) W' B' := by
        refine paramDist_congr (fun q j hj => ?_) (fun j hj => ?_)
        · change _ - c * _ = _
          congr 2
          refine Finset.sum_congr rfl fun i hi => ?_
          rw [errAt, ← hun i hi j hj]
        · change _ - c * _ = _
          congr 2
          refine Finset.sum_congr rfl fun i hi => ?_
          rw [errAt, ← hun i hi j hj]
      rw [← h4] at h1
      refine h1.trans (add_le_add_right ?_ _)
      calc c / 2 * _ ≤ c / 2 * (2 * (ρ + 1) * (m : ℝ) ^ 2) := mul_le_mul_of_nonneg_left h2 (by positivity)
        _ = _ := by ring
    have tel : ∀ M ≤ n / m, ∑ t ∈ range M, lossOn p k X T (Ico (t * m) (t * m + m)) (θ t).1 (θ t).2 ≤
        ∑ t ∈ range M, lossOn p k X T (Ico (t * m) (t * m + m)) W' B' + (D 0 - D M) / (2 * c) +
          M * (c * (ρ + 1) * m ^ 2) := by
      intro M
      induction M with
      | zero => intro _; simp
      | succ M ih =>
        intro h
        have h1 := ih (by omega)
        have h2 := step M (by omega)
        rw [Finset.sum_range_succ, Finset.sum_range_succ]
        push_cast
        have e : (D 0 - D (M + 1)) / (2 * c) = (D 0 - D M) / (2 * c) + (D M - D (M + 1)) / (2 * c) := by ring
        rw [e]
        linarith
    have h3 : 0 ≤ D (n / m) := paramDist_nonneg ..
    have h4 : (D 0 - D (n / m)) / (2 * c) ≤ D 0 / (2 * c) := div_le_div_of_nonneg_right (by linarith) (by positivity)
    have h5 := tel (n / m) le_rfl
    have e1 : ∑ t ∈ range (n / m), meanLoss eps m p k (fun i q => X (t * m + i) q) (fun i j => T (t * m + i) j)
        (θ t).1 (θ t).2 = (∑ t ∈ range (n / m), lossOn p k X T (Ico (t * m) (t * m + m)) (θ t).1 (θ t).2) / m := by
      rw [Finset.sum_div]
      refine Finset.sum_congr rfl fun t ht => ?_
      rw [meanLoss_unclipped (hu t (mem_range.1 ht)), hloss]
    have e2 : ∑ t ∈ range (n / m), meanLoss 0 m p k (fun i q => X (t * m + i) q) (fun i j => T (t * m + i) j) W' B' =
        (∑ t ∈ range (n / m), lossOn p k X T (Ico (t * m) (t * m + m)) W' B') / m := by
      rw [Finset.sum_div]
      refine Finset.sum_congr rfl fun t _ => ?_
      rw [meanLoss_zero, hloss]
    rw [e1]
    refine le_trans ?_ (le_of_eq (congrArg (fun v => v + _ + _) e2.symm))
    have h6 : (∑ t ∈ range (n / m), lossOn p k X T (Ico (t * m) (t * m + m)) (θ t).1 (θ t).2) ≤
        ∑ t ∈ range (n / m), lossOn p k X T (Ico (t * m) (t * m + m)) W' B' + D 0 / (2 * c) +
          (n / m : Nat) * (c * (ρ + 1) * m ^ 2) := by linarith
    refine (div_le_div_of_nonneg_right h6 hm0.le).trans (le_of_eq ?_)
    change (_ + paramDist p k W B W' B' / _ + _) / _ = _
    field_simp

/-- Non-vacuity: one example with inputs 1/2 and 1/2, two classes, zero parameters and the rate 1 of the code: the
probabilities are `1/2`, above `eps = 1/4`, the squared length of the input is `1/2` and `1 * (1 * (1/2 + 1)) < 2`. The step
moves the parameters. -/
example : ∃ s : Slp.State ℝ, Holds 1 2 2 1 (fun _ _ => 1 / 2) (fun _ j => if j = 0 then 1 else 0) (fun _ _ => 0) (fun _ => 0) s ∧
    Unclipped (1 / 4) 1 2 2 (fun _ _ => 1 / 2) (fun _ _ => 0) (fun _ => 0) ∧
    (∀ i < 1, ∑ j ∈ range 2, (if j = 0 then (1 : ℝ) else 0) = 1) ∧
    (∀ i < 1, ∑ q ∈ range 2, ((fun _ _ => 1 / 2 : Nat → Nat → ℝ) i q) ^ 2 ≤ 1 / 2) ∧
    (1 : ℝ) * ((1 : Nat) * (1 / 2 + 1)) < 2 ∧
    (gd (1 / 4) 1 1 2 2 (fun _ _ => 1 / 2) (fun _ j => if j = 0 then 1 else 0) (fun _ _ => 0) (fun _ => 0) 1).2 0 ≠ 0 := by
  refine ⟨⟨(tab [1, 2] (fn2 fun _ _ => (1 / 2 : ℝ))).data, [9, 9], [9, 9],
    (tab [1, 2] (fn2 fun _ j => if j = 0 then 1 else 0)).data, [9], [9], (tab [1] (fn1 fun _ => (1 : ℝ))).data, [9, 9], [9, 9],
    [9, 9, 9, 9], [9, 9], (tab [2, 2] (fn2 fun _ _ => (0 : ℝ))).data, (tab [2] (fn1 fun _ => (0 : ℝ))).data⟩,
    ⟨⟨by simp, rfl, rfl, by simp, rfl, rfl, by simp, rfl, rfl, rfl, rfl⟩, rfl, rfl, rfl, rfl, rfl⟩, ?_, by simp, ?_, ?_, ?_⟩
  · intro i _ j _
    simp [Spec.softmax, logit]
    norm_num
  · intro i _
    norm_num [Finset.sum_range_succ]
  · norm_num
  · simp [gd, prob, Spec.softmax, logit]
    norm_num

/-- Non-vacuity: with `eps = 0` nothing is ever clipped, so any number of steps and batches meets the hypotheses; the rate
`1/2` is below `1 / (1 * (1/2 + 1))`. -/
example (t m : Nat) (X : Nat → Nat → ℝ) (label : Nat → Nat) :
    Unclipped 0 1 2 2 (fun _ _ => 1 / 2) (gd 0 (1 / 2) 1 2 2 (fun _ _ => 1 / 2) (fun _ j => if j = 0 then 1 else 0)
      (fun _ _ => 0) (fun _ => 0) t).1 (gd 0 (1 / 2) 1 2 2 (fun _ _ => 1 / 2) (fun _ j => if j = 0 then 1 else 0)
      (fun _ _ => 0) (fun _ => 0) t).2 ∧
    Unclipped 0 m 2 2 (fun i q => X (t * m + i) q) (sgd 0 (1 / 2) m 2 2 X label (fun _ _ => 0) (fun _ => 0) t).1
      (sgd 0 (1 / 2) m 2 2 X label (fun _ _ => 0) (fun _ => 0) t).2 ∧
    (1 / 2 : ℝ) * ((1 : Nat) * (1 / 2 + 1)) ≤ 1 :=
  ⟨fun _ _ _ hj => (softmax_pos hj _).le, fun _ _ _ hj => (softmax_pos hj _).le, by norm_num⟩

end StdNN
