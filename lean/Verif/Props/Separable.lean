import Verif.Props.Convergence
/-!
# What the printed loss says about the errors

C147: the training of examples/example_train_mnist_slp.cpp minimises a loss, but what its user wants is few wrong answers.
The loss that a step prints bounds the fraction of the batch that the parameters before the step get wrong; so a batch that
some parameters classify with a margin is classified without an error after finitely many steps, and the number of errors of
one pass over a data set, each image judged before it is used, is bounded.
-/
namespace StdNN
open Outcome Finset Spec

/-! ## One row -/

/-- A class that is not above all others has at most half of the probability. -/
theorem softmax_le_half {k L j : Nat} (hL : L < k) (hj : j < k) (hne : j ≠ L) {z : Nat → ℝ} (h : z L ≤ z j) :
    Spec.softmax k z L ≤ 1 / 2 := by
  unfold Spec.softmax
  have h1 : Real.exp (z L) + Real.exp (z j) ≤ ∑ i ∈ range k, Real.exp (z i) := by
    have h2 : ({L, j} : Finset Nat) ⊆ range k := by
      intro i hi
      rcases Finset.mem_insert.1 hi with rfl | hi
      · exact mem_range.2 hL
      · exact mem_range.2 (Finset.mem_singleton.1 hi ▸ hj)
    have h3 := Finset.sum_le_sum_of_subset_of_nonneg h2 fun i _ _ => (Real.exp_pos (z i)).le
    rwa [Finset.sum_pair (Ne.symm hne)] at h3
  have h4 := Real.exp_le_exp.2 h
  have h5 := Real.exp_pos (z L)
  rw [div_le_div_iff₀ (by linarith) (by norm_num)]
  linarith

theorem onehot_dot {k L : Nat} (hL : L < k) (f : Nat → ℝ) :
    ∑ j ∈ range k, (if L = j then (1 : ℝ) else 0) * f j = f L := by
  simp [hL]

/-- The loss of a row whose label is `L` that the parameters get wrong. -/
theorem wrong_loss {eps : ℝ} (he : eps ≤ 1 / 2) {p k L i : Nat} (hL : L < k) (X W : Nat → Nat → ℝ) (B : Nat → ℝ)
    (h : ¬((∀ j < k, logit p X W B i j ≤ logit p X W B i L) ∧ ∀ j < L, logit p X W B i j < logit p X W B i L)) :
    Real.log 2 ≤ -Real.log (prob eps p k X W B i L) := by
  have h1 : ∃ j < k, j ≠ L ∧ logit p X W B i L ≤ logit p X W B i j := by
    by_contra hc
    push Not at hc
    refine h ⟨fun j hj => ?_, fun j hj => hc j (by omega) (by omega)⟩
    by_cases e : j = L
    · rw [e]
    · exact (hc j hj e).le
  obtain ⟨j, hj, hne, hle⟩ := h1
  have h2 : prob eps p k X W B i L ≤ 1 / 2 := max_le he (softmax_le_half hL hj hne hle)
  have h3 : 0 < prob eps p k X W B i L := lt_of_lt_of_le (softmax_pos hL _) (le_max_right _ _)
  have h4 := Real.log_le_log h3 h2
  rw [one_div, Real.log_inv] at h4
  linarith

theorem row_loss_nonneg {eps : ℝ} (he : eps ≤ 1 / 2) {p k L i : Nat} (hL : L < k) (X W : Nat → Nat → ℝ) (B : Nat → ℝ) :
    0 ≤ -Real.log (prob eps p k X W B i L) := by
  have h2 : prob eps p k X W B i L ≤ 1 := by
    refine max_le (by linarith) ?_
    unfold Spec.softmax
    refine div_le_one_of_le₀ ?_ (Finset.sum_nonneg fun i _ => (Real.exp_pos _).le)
    exact Finset.single_le_sum (f := fun j => Real.exp (logit p X W B i j)) (fun i _ => (Real.exp_pos _).le) (mem_range.2 hL)
  have h3 : 0 < prob eps p k X W B i L := lt_of_lt_of_le (softmax_pos hL _) (le_max_right _ _)
  have := Real.log_nonpos h3.le h2
  linarith

/-- The rows that the parameters get right. -/
theorem errors_le_loss {eps : ℝ} (he : eps ≤ 1 / 2) {n p k : Nat} (hn : 1 ≤ n) (X W : Nat → Nat → ℝ) (B : Nat → ℝ)
    (label : Nat → Nat) (hl : ∀ i < n, label i < k) :
    (1 - (((range n).filter fun i => (∀ j < k, logit p X W B i j ≤ logit p X W B i (label i)) ∧
          ∀ j < label i, logit p X W B i j < logit p X W B i (label i)).card : ℝ) / n) * Real.log 2 ≤
      meanLoss eps n p k X (fun i j => if label i = j then 1 else 0) W B := by
  classical
  set good : Nat → Prop := fun i => (∀ j < k, logit p X W B i j ≤ logit p X W B i (label i)) ∧
          ∀ j < label i, logit p X W B i j < logit p X W B i (label i) with hg
  have hn0 : (0 : ℝ) < n := by exact_mod_cast hn
  have h1 := Finset.card_filter_add_card_filter_not (s := range n) good
  rw [card_range] at h1
  have h2 : ((((range n).filter good).card : ℝ)) + (((range n).filter fun i => ¬ good i).card : ℝ) = n := by exact_mod_cast h1
  have h3 : (((range n).filter fun i => ¬ good i).card : ℝ) * Real.log 2 ≤
      ∑ i ∈ range n, -∑ j ∈ range k, (if label i = j then (1 : ℝ) else 0) * Real.log (prob eps p k X W B i j) := by
    calc _ = ∑ i ∈ (range n).filter fun i => ¬ good i, Real.log 2 := by rw [Finset.sum_const, nsmul_eq_mul]
      _ ≤ ∑ i ∈ (range n).filter fun i => ¬ good i, -Real.log (prob eps p k X W B i (label i)) := by
        refine Finset.sum_le_sum fun i hi => ?_
        obtain ⟨hi, hb⟩ := Finset.mem_filter.1 hi
        exact wrong_loss he (hl i (mem_range.1 hi)) X W B hb
      _ ≤ ∑ i ∈ range n, -Real.log (prob eps p k X W B i (label i)) :=
        Finset.sum_le_sum_of_subset_of_nonneg (Finset.filter_subset _ _)
          fun i hi _ => row_loss_nonneg he (hl i (mem_range.1 hi)) X W B
      _ = _ := Finset.sum_congr rfl fun i hi => by rw [onehot_dot (hl i (mem_range.1 hi))]
  unfold meanLoss
  rw [le_div_iff₀ hn0]
  refine le_trans (le_of_eq ?_) h3
  rw [eq_sub_of_add_eq' h2]
  field_simp
  congr!

/-- Parameters that separate a batch with margin 1, scaled by `τ`: the loss is small. -/
theorem separated_loss {n p k : Nat} (hn : 1 ≤ n) (X U : Nat → Nat → ℝ) (D : Nat → ℝ)
    (label : Nat → Nat) (hl : ∀ i < n, label i < k) {τ : ℝ} (hτ : 0 ≤ τ)
    (hm : ∀ i < n, ∀ j < k, j ≠ label i → logit p X U D i j + 1 ≤ logit p X U D i (label i)) :
    meanLoss 0 n p k X (fun i j => if label i = j then 1 else 0) (fun q j => τ * U q j) (fun j => τ * D j) ≤
      (k - 1 : ℝ) * Real.exp (-τ) := by
  have hn0 : (0 : ℝ) < n := by exact_mod_cast hn
  unfold meanLoss
  rw [div_le_iff₀ hn0]
  refine (Finset.sum_le_card_nsmul _ _ ((k - 1 : ℝ) * Real.exp (-τ)) fun i hi => ?_).trans (le_of_eq ?_)
  · have hi := mem_range.1 hi
    rw [onehot_dot (hl i hi)]
    set z := logit p X (fun q j => τ * U q j) (fun j => τ * D j) i with hz
    have ez : ∀ j, z j = τ * logit p X U D i j := by
      intro j
      rw [hz]
      simp only [logit, mul_add, Finset.mul_sum]
      congr 1
      exact Finset.sum_congr rfl fun q _ => by ring
    have hp : prob 0 p k X (fun q j => τ * U q j) (fun j => τ * D j) i (label i) = Spec.softmax k z (label i) :=
      max_eq_right (softmax_pos (hl i hi) _).le
    rw [hp]
    have hsum : ∑ j ∈ range k, Real.exp (z j) ≤ Real.exp (z (label i)) * (1 + (k - 1 : ℝ) * Real.exp (-τ)) := by
      rw [← Finset.add_sum_erase _ _ (mem_range.2 (hl i hi))]
      have h1 : ∑ j ∈ (range k).erase (label i), Real.exp (z j) ≤
          ((range k).erase (label i)).card • (Real.exp (z (label i)) * Real.exp (-τ)) := by
        refine Finset.sum_le_card_nsmul _ _ _ fun j hj => ?_
        rw [← Real.exp_add]
        refine Real.exp_le_exp.2 ?_
        obtain ⟨hne, hj⟩ := Finset.mem_erase.1 hj
        have h2 := hm i hi j (mem_range.1 hj) hne
        rw [ez, ez]
        nlinarith
      rw [Finset.card_erase_of_mem (mem_range.2 (hl i hi)), card_range, nsmul_eq_mul,
        Nat.cast_pred (by have := hl i hi; omega)] at h1
      linarith
    have hpos : (0 : ℝ) < 1 + (k - 1 : ℝ) * Real.exp (-τ) := by
      have : (1 : ℝ) ≤ k := by exact_mod_cast (by have := hl i hi; omega : 1 ≤ k)
      have := mul_nonneg (by linarith : (0 : ℝ) ≤ k - 1) (Real.exp_pos (-τ)).le
      linarith
    have hS : 0 < ∑ j ∈ range k, Real.exp (z j) :=
      Finset.sum_pos (fun j _ => Real.exp_pos _) ⟨_, mem_range.2 (hl i hi)⟩
    have h5 : (1 + (k - 1 : ℝ) * Real.exp (-τ))⁻¹ ≤ Spec.softmax k z (label i) := by
      unfold Spec.softmax
      rw [inv_eq_one_div, div_le_div_iff₀ hpos hS, one_mul]
      exact hsum
    have h6 := Real.log_le_log (inv_pos.2 hpos) h5
    rw [Real.log_inv] at h6
    have h7 := Real.log_le_sub_one_of_pos hpos
    linarith
  · rw [card_range, nsmul_eq_mul]
    ring

/-! ## The claims -/

/-- C147: the loss that a step prints, divided by `log 2`, bounds the fraction of its batch that the parameters before the
step classify wrongly, as the accuracy test of the example counts them. -/
theorem C147_loss {eps : ℝ} (he : eps ≤ 1 / 2) (junk junk' : Nat → ℝ) (junkI : Nat → Int) (junkQ : ℝ) (norm : Int → ℝ)
    {n p k : Nat} {c : ℝ} (hn : 1 ≤ n) (hk : k < 256) (I : Nat → Nat → Int) (label : Nat → Nat) (hl : ∀ i < n, label i < k)
    (W : Nat → Nat → ℝ) (B : Nat → ℝ) {s : Slp.State ℝ}
    (hs : Holds n p k c (fun i q => norm (I i q)) (fun i j => if label i = j then 1 else 0) W B s) :
    ∃ s' l a, Slp.step Real.exp Real.log eps (fun x n => x / (n : ℝ)) junk n p k s = .ok s' ∧ s'.l = [l] ∧
      Slp.test junk' junkI junkQ norm ⟨(tab [n, p] (fn2 I)).data, (List.range n).map fun i => (label i : Int)⟩ n p k s.w s.b =
        .ok a ∧ (1 - a) * Real.log 2 ≤ l := by
  obtain ⟨s', e, -, h⟩ := one_step eps junk (fun i hi => by simp [hl i hi]) hs
  refine ⟨s', _, _, e, h, ?_, errors_le_loss he hn (fun i q => norm (I i q)) W B label hl⟩
  rw [hs.w, hs.b]
  exact C98_test junk' junkI junkQ norm hn hk I label hl W B

/-- The fraction of right answers of the parameters after `N` steps, when the loss they have is below `log 2 / n`. -/
theorem learned_at {eps : ℝ} (he : eps ≤ 1 / 2) (junk junk' : Nat → ℝ) (junkI : Nat → Int) (junkQ : ℝ) (norm : Int → ℝ)
    {n p k : Nat} {c : ℝ} (hn : 1 ≤ n) (hk : k < 256) (hc : 0 < c) (I : Nat → Nat → Int) (label : Nat → Nat)
    (hl : ∀ i < n, label i < k) {ρ : ℝ} (hρ : ∀ i < n, ∑ q ∈ range p, norm (I i q) ^ 2 ≤ ρ)
    (hr : c * (n * (ρ + 1)) ≤ 1) (U : Nat → Nat → ℝ) (D : Nat → ℝ)
    (hm : ∀ i < n, ∀ j < k, j ≠ label i →
      logit p (fun i q => norm (I i q)) U D i j + 1 ≤ logit p (fun i q => norm (I i q)) U D i (label i))
    (W : Nat → Nat → ℝ) (B : Nat → ℝ) {τ : ℝ} (hτ : 0 ≤ τ) {N : Nat} (hN : 1 ≤ N)
    (hb : n * ((k - 1 : ℝ) * Real.exp (-τ)) +
      paramDist p k W B (fun q j => τ * U q j) (fun j => τ * D j) / (2 * c * N) < Real.log 2)
    (hu : ∀ t < N, Unclipped eps n p k (fun i q => norm (I i q))
      (gd eps c n p k (fun i q => norm (I i q)) (fun i j => if label i = j then 1 else 0) W B t).1
      (gd eps c n p k (fun i q => norm (I i q)) (fun i j => if label i = j then 1 else 0) W B t).2)
    {s : Slp.State ℝ} (hs : Holds n p k c (fun i q => norm (I i q)) (fun i j => if label i = j then 1 else 0) W B s) :
    ∃ s', forRange N (fun _ => Slp.step Real.exp Real.log eps (fun x n => x / (n : ℝ)) junk n p k) s = .ok s' ∧
      Slp.test junk' junkI junkQ norm ⟨(tab [n, p] (fn2 I)).data, (List.range n).map fun i => (label i : Int)⟩ n p k
        s'.w s'.b = .ok 1 := by
  have hn0 : (0 : ℝ) < n := by exact_mod_cast hn
  have hN0 : (0 : ℝ) < N := by exact_mod_cast hN
  have hT : ∀ i < n, ∑ j ∈ range k, (fun i j => if label i = j then (1 : ℝ) else 0) i j = 1 := fun i hi => by simp [hl i hi]
  obtain ⟨s', e, h1, -⟩ := C129_repeat eps junk hT hs N
  obtain ⟨s1, e1, -, h2⟩ := C129_repeat eps junk hT hs (N + 1)
  obtain ⟨s2, l, e2, h3, h4⟩ := C129_converges eps junk hn hc (fun i _ j _ => by split <;> norm_num) hT hρ hr hN hu hs
  obtain rfl : s1 = s2 := Outcome.ok.inj (e1.symm.trans e2)
  have h5 := (h2 N rfl).symm.trans h3
  rw [List.singleton_inj] at h5
  have h6 := h4 (fun q j => τ * U q j) (fun j => τ * D j)
  rw [← h5] at h6
  have h7 := separated_loss hn (fun i q => norm (I i q)) U D label hl hτ hm
  set θ := gd eps c n p k (fun i q => norm (I i q)) (fun i j => if label i = j then 1 else 0) W B N with hθ
  have h8 := errors_le_loss (p := p) he hn (fun i q => norm (I i q)) θ.1 θ.2 label hl
  refine ⟨s', e, ?_⟩
  rw [h1.w, h1.b, C98_test junk' junkI junkQ norm hn hk I label hl]
  congr 1
  set g := ((range n).filter fun i =>
    (∀ j < k, logit p (fun i q => norm (I i q)) θ.1 θ.2 i j ≤ logit p (fun i q => norm (I i q)) θ.1 θ.2 i (label i)) ∧
      ∀ j < label i, logit p (fun i q => norm (I i q)) θ.1 θ.2 i j <
        logit p (fun i q => norm (I i q)) θ.1 θ.2 i (label i)).card with hg
  have hgn : g ≤ n := (Finset.card_filter_le _ _).trans (card_range n).le
  have hlog : 0 < Real.log 2 := Real.log_pos (by norm_num)
  have h9 : (1 - (g : ℝ) / n) * Real.log 2 ≤ (k - 1 : ℝ) * Real.exp (-τ) +
      paramDist p k W B (fun q j => τ * U q j) (fun j => τ * D j) / (2 * (c * n) * N) := h8.trans (h6.trans (by linarith))
  have h10 : ((n : ℝ) - g) * Real.log 2 ≤ n * ((k - 1 : ℝ) * Real.exp (-τ)) +
      paramDist p k W B (fun q j => τ * U q j) (fun j => τ * D j) / (2 * c * N) := by
    have h11 := mul_le_mul_of_nonneg_left h9 hn0.le
    refine le_trans (le_of_eq ?_) (h11.trans (le_of_eq ?_))
    · field_simp
    · field_simp
  have h12 : ((n : ℝ) - g) * Real.log 2 < 1 * Real.log 2 := by linarith
  have h13 : (n : ℝ) - g < 1 := lt_of_mul_lt_mul_right h12 hlog.le
  have h14 : n < g + 1 := by
    have : (n : ℝ) < ((g + 1 : Nat) : ℝ) := by push_cast; linarith
    exact_mod_cast this
  have h15 : g = n := by omega
  rw [h15]
  exact div_self hn0.ne'

/-- C147: a batch that some parameters `U`, `D` classify with margin 1 (any margin can be scaled to 1) is classified without
an error after `N` steps, whatever the parameters were at first, as soon as `N` is large against the distance to a multiple
of the separating parameters; the rate and the clipping are as in `C129_converges`. -/
theorem C147_learned {eps : ℝ} (he : eps ≤ 1 / 2) (junk junk' : Nat → ℝ) (junkI : Nat → Int) (junkQ : ℝ) (norm : Int → ℝ)
    {n p k : Nat} {c : ℝ} (hn : 1 ≤ n) (hk : k < 256) (hc : 0 < c) (I : Nat → Nat → Int) (label : Nat → Nat)
    (hl : ∀ i < n, label i < k) {ρ : ℝ} (hρ : ∀ i < n, ∑ q ∈ range p, norm (I i q) ^ 2 ≤ ρ)
    (hr : c * (n * (ρ + 1)) ≤ 1) (U : Nat → Nat → ℝ) (D : Nat → ℝ)
    (hm : ∀ i < n, ∀ j < k, j ≠ label i →
      logit p (fun i q => norm (I i q)) U D i j + 1 ≤ logit p (fun i q => norm (I i q)) U D i (label i))
    (W : Nat → Nat → ℝ) (B : Nat → ℝ) {N : Nat} (hN : 1 ≤ N)
    (hb : paramDist p k W B (fun q j => Real.log (2 * n * k) * U q j) (fun j => Real.log (2 * n * k) * D j) ≤ c * N / 4)
    (hu : ∀ t < N, Unclipped eps n p k (fun i q => norm (I i q))
      (gd eps c n p k (fun i q => norm (I i q)) (fun i j => if label i = j then 1 else 0) W B t).1
      (gd eps c n p k (fun i q => norm (I i q)) (fun i j => if label i = j then 1 else 0) W B t).2)
    {s : Slp.State ℝ} (hs : Holds n p k c (fun i q => norm (I i q)) (fun i j => if label i = j then 1 else 0) W B s) :
    ∃ s', forRange N (fun _ => Slp.step Real.exp Real.log eps (fun x n => x / (n : ℝ)) junk n p k) s = .ok s' ∧
      Slp.test junk' junkI junkQ norm ⟨(tab [n, p] (fn2 I)).data, (List.range n).map fun i => (label i : Int)⟩ n p k
        s'.w s'.b = .ok 1 := by
  have hn1 : (1 : ℝ) ≤ n := by exact_mod_cast hn
  have hN0 : (0 : ℝ) < N := by exact_mod_cast hN
  have hk1 : (1 : ℝ) ≤ k := by exact_mod_cast (by have := hl 0 hn; omega : 1 ≤ k)
  have hnk : (1 : ℝ) ≤ 2 * n * k := by nlinarith
  refine learned_at he junk junk' junkI junkQ norm hn hk hc I label hl hρ hr U D hm W B
    (τ := Real.log (2 * n * k)) (Real.log_nonneg hnk) hN ?_ hu hs
  have h1 : (n : ℝ) * ((k - 1 : ℝ) * Real.exp (-Real.log (2 * n * k))) ≤ 1 / 2 := by
    rw [Real.exp_neg, Real.exp_log (by linarith), ← mul_assoc, ← div_eq_mul_inv, div_le_iff₀ (by linarith)]
    nlinarith
  have h2 : paramDist p k W B (fun q j => Real.log (2 * n * k) * U q j) (fun j => Real.log (2 * n * k) * D j) / (2 * c * N) ≤
      1 / 8 := by
    rw [div_le_iff₀ (by positivity)]
    linarith
  have h3 := Real.le_log_one_add_of_nonneg (x := 1) zero_le_one
  norm_num at h3
  linarith

/-- C147: one pass over a data set in batches of `m` images, every batch judged with the parameters that the batches before
it have produced (which is what is trained on the first `t * m` images): the sum of the fractions of errors is at most the
sum of the losses of any fixed parameters, plus a term for their distance and one for the rate, divided by `log 2`. -/
theorem C147_online {eps : ℝ} (he : eps ≤ 1 / 2) {c : ℝ} (hc : 0 < c) (junk junk' : Nat → ℝ) (junkI : Nat → Int) (junkQ : ℝ)
    (norm : Int → ℝ) {n p k m : Nat} (hm : 1 ≤ m)
    (hk : k < 256) (I : Nat → Nat → Int) (label : Nat → Nat) (hl : ∀ i < n, label i < k) (W : Nat → Nat → ℝ) (B : Nat → ℝ)
    {ρ : ℝ} (hρ : ∀ i < n, ∑ q ∈ range p, norm (I i q) ^ 2 ≤ ρ) {s : Slp.State ℝ} (hs : Slp.Sized m p k s)
    (hw : s.w = (tab [p, k] (fn2 W)).data) (hb : s.b = (tab [k] (fn1 B)).data)
    (hu : ∀ t < n / m, Unclipped eps m p k (fun i q => norm (I (t * m + i) q))
      (sgd eps c m p k (fun i q => norm (I i q)) label W B t).1 (sgd eps c m p k (fun i q => norm (I i q)) label W B t).2) :
    ∃ a : Nat → ℝ,
      (∀ t < n / m, ∃ s', Slp.train Real.exp Real.log eps (fun x n => x / (n : ℝ)) junk norm c
        ⟨(tab [t * m, p] (fn2 I)).data, (List.range (t * m)).map fun i => (label i : Int)⟩ (t * m) p k m s = .ok s' ∧
        Slp.test junk' junkI junkQ norm ⟨(tab [m, p] (fn2 fun i q => I (t * m + i) q)).data,
          (List.range m).map fun i => (label (t * m + i) : Int)⟩ m p k s'.w s'.b = .ok (a t)) ∧
      ∀ W' B', (∑ t ∈ range (n / m), (1 - a t)) * Real.log 2 ≤
        ∑ t ∈ range (n / m), meanLoss 0 m p k (fun i q => norm (I (t * m + i) q))
          (fun i j => if label (t * m + i) = j then 1 else 0) W' B' +
        paramDist p k W B W' B' / (2 * (c * m)) + (n / m : Nat) * (c * m * (ρ + 1)) := by
  have hin : ∀ t < n / m, t * m + m ≤ n := by
    intro t ht
    have h5 : (t + 1) * m ≤ n / m * m := Nat.mul_le_mul_right _ ht
    have h6 := Nat.div_mul_le_self n m
    rw [Nat.add_mul, Nat.one_mul] at h5
    omega
  obtain ⟨L, h1, h2⟩ := C129_regret eps hc junk norm hm hk I label hl W B hρ hs hw hb hu
  let X : Nat → Nat → ℝ := fun i q => norm (I i q)
  let θ := sgd eps c m p k X label W B
  refine ⟨fun t => (((range m).filter fun i =>
    (∀ j < k, logit p (fun i q => norm (I (t * m + i) q)) (θ t).1 (θ t).2 i j ≤
      logit p (fun i q => norm (I (t * m + i) q)) (θ t).1 (θ t).2 i (label (t * m + i))) ∧
    ∀ j < label (t * m + i), logit p (fun i q => norm (I (t * m + i) q)) (θ t).1 (θ t).2 i j <
      logit p (fun i q => norm (I (t * m + i) q)) (θ t).1 (θ t).2 i (label (t * m + i))).card : ℝ) / m,
    fun t ht => ?_, fun W' B' => ?_⟩
  · have hin' := hin t ht
    obtain ⟨s', e, hw', hb', -⟩ := C99_run eps c junk norm (n := t * m) hm hk I label (fun i hi => hl i (by omega)) W B hs hw hb
    rw [Nat.mul_div_cancel _ hm] at hw' hb'
    refine ⟨s', e, ?_⟩
    rw [hw', hb']
    exact C98_test junk' junkI junkQ norm hm hk (fun i q => I (t * m + i) q) (fun i => label (t * m + i))
      (fun i hi => hl _ (by omega)) (θ t).1 (θ t).2
  · refine le_trans ?_ (h2 W' B')
    rw [Finset.sum_mul]
    refine Finset.sum_le_sum fun t ht => ?_
    have ht := mem_range.1 ht
    have hin' : (t + 1) * m ≤ n := by rw [Nat.add_mul, Nat.one_mul]; exact hin t ht
    obtain ⟨s1, e1, h3⟩ := h1 t ht
    obtain ⟨s2, e2, -, -, h4⟩ := C99_run eps c junk norm (n := (t + 1) * m) hm hk I label
      (fun i hi => hl i (by omega)) W B hs hw hb
    obtain rfl : s1 = s2 := Outcome.ok.inj (e1.symm.trans e2)
    have h5 := (h4 t (Nat.mul_div_cancel _ hm)).symm.trans h3
    rw [List.singleton_inj] at h5
    rw [← h5]
    exact errors_le_loss he hm (fun i q => norm (I (t * m + i) q)) (θ t).1 (θ t).2 (fun i => label (t * m + i))
      (fun i hi => hl _ (by have := hin t ht; omega))

/-! ## Cases that meet the hypotheses -/

/-- Non-vacuity for `C147_loss`, `C147_learned`: two images of one pixel, 0 and 1, with labels 0 and 1; the parameters with
weights 0, 2 and biases 1, 0 separate them with margin 1; with the rate 1/4 and zero parameters at first 720 steps are
enough. -/
example : (∀ i < 2, (fun i => i : Nat → Nat) i < 2) ∧ (0 : ℝ) ≤ 1 / 2 ∧
    (∃ s, Holds 2 1 2 (1 / 4) (fun i q => ((fun i _ => (i : Int) : Nat → Nat → Int) i q : ℝ)) (fun i j => if i = j then 1 else 0)
      (fun _ _ => 0) (fun _ => 0) s) ∧
    (∀ i < 2, ∑ q ∈ range 1, (((fun i _ => (i : Int) : Nat → Nat → Int) i q : Int) : ℝ) ^ 2 ≤ 1) ∧
    (1 / 4 : ℝ) * ((2 : Nat) * (1 + 1)) ≤ 1 ∧
    (∀ i < 2, ∀ j < 2, j ≠ i →
      logit 1 (fun i q => ((fun i _ => (i : Int) : Nat → Nat → Int) i q : ℝ)) (fun _ j => 2 * j) (fun j => 1 - j) i j + 1 ≤
        logit 1 (fun i q => ((fun i _ => (i : Int) : Nat → Nat → Int) i q : ℝ)) (fun _ j => 2 * j) (fun j => 1 - j) i i) ∧
    paramDist 1 2 (fun _ _ => 0) (fun _ => 0) (fun _ j => Real.log (2 * (2 : Nat) * (2 : Nat)) * (2 * j))
      (fun j => Real.log (2 * (2 : Nat) * (2 : Nat)) * (1 - j)) ≤ 1 / 4 * (720 : Nat) / 4 ∧
    (∀ t < 720, Unclipped 0 2 1 2 (fun i q => ((fun i _ => (i : Int) : Nat → Nat → Int) i q : ℝ))
      (gd 0 (1 / 4) 2 1 2 (fun i q => ((fun i _ => (i : Int) : Nat → Nat → Int) i q : ℝ)) (fun i j => if i = j then 1 else 0)
        (fun _ _ => 0) (fun _ => 0) t).1
      (gd 0 (1 / 4) 2 1 2 (fun i q => ((fun i _ => (i : Int) : Nat → Nat → Int) i q : ℝ)) (fun i j => if i = j then 1 else 0)
        (fun _ _ => 0) (fun _ => 0) t).2) := by
  refine ⟨fun i hi => hi, by norm_num, ⟨⟨(tab [2, 1] (fn2 _)).data, [9, 9, 9, 9], [9, 9, 9, 9],
    (tab [2, 2] (fn2 _)).data, [9, 9], [9], (tab [2] (fn1 _)).data, [9, 9, 9, 9], [9, 9, 9, 9],
    [9, 9], [9, 9], (tab [1, 2] (fn2 _)).data, (tab [2] (fn1 _)).data⟩,
    ⟨⟨by simp, rfl, rfl, by simp, rfl, rfl, by simp, rfl, rfl, rfl, rfl⟩, rfl, rfl, rfl, rfl, rfl⟩⟩, ?_, by norm_num, ?_, ?_,
    fun t _ i _ j hj => (softmax_pos hj _).le⟩
  · intro i hi
    interval_cases i <;> simp
  · intro i hi j hj hne
    interval_cases i <;> interval_cases j <;> simp_all [logit]; norm_num
  · have h1 : Real.log 8 ≤ 3 := by
      have h2 : Real.log 8 = 3 * Real.log 2 := by
        rw [show (8 : ℝ) = 2 ^ 3 by norm_num, Real.log_pow]
        norm_num
      have h3 := Real.log_le_sub_one_of_pos (x := 2) (by norm_num)
      linarith
    have h4 : 0 ≤ Real.log 8 := Real.log_nonneg (by norm_num)
    have e : (2 : ℝ) * (2 : Nat) * (2 : Nat) = 8 := by norm_num
    rw [e]
    simp only [paramDist, Finset.sum_range_succ, Finset.sum_range_zero]
    norm_num
    nlinarith

/-- Non-vacuity for `C147_online`: with `eps = 0` nothing is ever clipped; a state of the right sizes; seven images in batches
of two. -/
example (X : Nat → Nat → ℝ) (label : Nat → Nat) :
    (∀ t < 7 / 2, Unclipped 0 2 1 2 (fun i q => X (t * 2 + i) q) (sgd 0 (1 / 4) 2 1 2 X label (fun _ _ => 0) (fun _ => 0) t).1
      (sgd 0 (1 / 4) 2 1 2 X label (fun _ _ => 0) (fun _ => 0) t).2) ∧
    ∃ s : Slp.State ℝ, Slp.Sized 2 1 2 s ∧ s.w = (tab [1, 2] (fn2 fun _ _ => (0 : ℝ))).data ∧
      s.b = (tab [2] (fn1 fun _ => (0 : ℝ))).data :=
  ⟨fun _ _ _ _ _ hj => (softmax_pos hj _).le,
    ⟨⟨[9, 9], [9, 9, 9, 9], [9, 9, 9, 9], [9, 9, 9, 9], [9, 9], [9], [9, 9], [9, 9, 9, 9], [9, 9, 9, 9], [9, 9], [9, 9],
      (tab [1, 2] (fn2 fun _ _ => (0 : ℝ))).data, (tab [2] (fn1 fun _ => (0 : ℝ))).data⟩,
      ⟨rfl, rfl, rfl, rfl, rfl, rfl, rfl, rfl, rfl, rfl, rfl⟩, rfl, rfl⟩⟩

end StdNN
