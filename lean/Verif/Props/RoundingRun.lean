import Verif.Props.RoundingTrain

/-! # C170: many training steps in rounded arithmetic -/

namespace StdNN
open Outcome Finset Spec

/-- What the weights and the bias in memory are; `k` classes. -/
def wOf {R : Type} [Zero R] (k : Nat) (s : Slp.State R) (q j : Nat) : R := s.w[q * k + j]?.getD 0
def bOf {R : Type} [Zero R] (s : Slp.State R) (j : Nat) : R := s.b[j]?.getD 0

/-- A bound for the squared distance of a rounded step from the exact one, for inputs up to `ξ`, weights and biases up to `M`
and the rate `c`; `u` and `e` are the relative errors of the operations and of the exponential. -/
noncomputable def runErr (u e : ℝ) (n p k : Nat) (c ξ M : ℝ) : ℝ :=
  let z := p * (ξ * M) + M
  let β := (1 + u) ^ (n + k + 6) * softmaxFactor u e k (((1 + u) ^ (p + 2) - 1) * z) (2 * z) - 1
  p * (k * (u * (M + c * (n * ξ)) + (1 + u) * (c * (n * (ξ * β)))) ^ 2) + k * (u * (M + c * n) + (1 + u) * (c * (n * β))) ^ 2

section
variable {R : Type} [Zero R] {n p k : Nat}

theorem wOf_tab {s : Slp.State R} (h : s.w.length = p * k) : s.w = (tab [p, k] (fn2 (wOf k s))).data := by
  refine data_eq_tab (by simpa using h) fun idx hv => ?_
  match idx, hv with
  | [q, j], hv =>
    have := offset_lt hv
    simp only [List.prod_cons, List.prod_nil, Nat.mul_one] at this
    have e : offset [p, k] [q, j] = q * k + j := by simp [offset]
    rw [e] at this ⊢
    simp only [fn2, wOf]
    rw [List.getElem?_eq_getElem (by omega)]
    rfl

theorem bOf_tab {s : Slp.State R} (h : s.b.length = k) : s.b = (tab [k] (fn1 (bOf s))).data := by
  refine data_eq_tab (by simpa using h) fun idx hv => ?_
  match idx, hv with
  | [j], hv =>
    have := offset_lt hv
    simp only [List.prod_cons, List.prod_nil, Nat.mul_one] at this
    have e : offset [k] [j] = j := by simp [offset]
    rw [e] at this ⊢
    simp only [fn1, bOf]
    rw [List.getElem?_eq_getElem (by omega)]
    rfl

theorem wOf_of {s : Slp.State R} {W : Nat → Nat → R} (h : s.w = (tab [p, k] (fn2 W)).data) {q j : Nat} (hq : q < p)
    (hj : j < k) : wOf k s q j = W q j := by
  have := tab_getElem? (fn2 W) (v2 hq hj)
  rw [← h, show offset [p, k] [q, j] = q * k + j by simp [offset]] at this
  rw [wOf, this]
  rfl

theorem bOf_of {s : Slp.State R} {B : Nat → R} (h : s.b = (tab [k] (fn1 B)).data) {j : Nat} (hj : j < k) : bOf s j = B j := by
  have := tab_getElem? (fn1 B) (v1 hj)
  rw [← h, show offset [k] [j] = j by simp [offset]] at this
  rw [bOf, this]
  rfl
end

theorem meanLoss_congr {eps : ℝ} {n p k : Nat} {X T W W' : Nat → Nat → ℝ} {B B' : Nat → ℝ}
    (hW : ∀ q < p, ∀ j < k, W q j = W' q j) (hB : ∀ j < k, B j = B' j) :
    meanLoss eps n p k X T W B = meanLoss eps n p k X T W' B' := by
  have hl : ∀ i, ∀ j < k, logit p X W B i j = logit p X W' B' i j := fun i j hj => by
    unfold logit
    rw [hB j hj]
    congr 1
    exact sum_congr rfl fun q hq => by rw [hW q (mem_range.1 hq) j hj]
  unfold meanLoss prob
  congr 1
  refine sum_congr rfl fun i _ => congrArg _ (sum_congr rfl fun j hj => ?_)
  rw [softmax_congr' (hl i) (mem_range.1 hj)]

/-- The inner product with the gradient is at most the product of the lengths. -/
theorem along_sq_le (p k : Nat) (X T : Nat → Nat → ℝ) (S : Finset Nat) (W : Nat → Nat → ℝ) (B : Nat → ℝ) (DW : Nat → Nat → ℝ)
    (DB : Nat → ℝ) : along p k X T S W B DW DB ^ 2 ≤ gradSq p k X T S W B *
      (∑ q ∈ range p, ∑ j ∈ range k, DW q j ^ 2 + ∑ j ∈ range k, DB j ^ 2) := by
  have e := sum_mul_sq_le_sq_mul_sq ((range p ×ˢ range k).disjSum (range k))
    (Sum.elim (fun z => gradW p k X T S W B z.1 z.2) (gradB p k X T S W B)) (Sum.elim (fun z => DW z.1 z.2) DB)
  simpa only [sum_disjSum, Sum.elim_inl, Sum.elim_inr, sum_product, along, gradSq] using e

/-- The squared length of the exact step. -/
theorem gd_sq {eps c : ℝ} {n p k : Nat} {X T W : Nat → Nat → ℝ} {B : Nat → ℝ} (h : Unclipped eps n p k X W B) :
    paramDist p k (gd eps c n p k X T W B 1).1 (gd eps c n p k X T W B 1).2 W B = c ^ 2 * gradSq p k X T (range n) W B := by
  obtain ⟨g1, g2⟩ := gd_succ (c := c) (T := T) (W₀ := W) (B₀ := B) (t := 0) h
  rw [paramDist_congr g1 g2]
  exact dist_step (p := p) (k := k) (X := X) (T := T) (S := range n) c W B

theorem stepErr_le {u q P t : ℝ} (hu : 0 ≤ u) (m m' : Nat) (hm : m ≤ m') (hq : 1 ≤ q) (hP0 : 0 ≤ P) (hP1 : P ≤ 1)
    (ht : t = 0 ∨ t = 1) : stepErr u m q P t ≤ (1 + u) ^ m' * q - 1 := by
  have h1 : |P - t| ≤ 1 := by
    rw [abs_le]
    rcases ht with rfl | rfl <;> constructor <;> linarith
  have h2 := one_le_pow_u hu m
  have h3 : (1 + u) ^ m ≤ (1 + u) ^ m' := pow_le_pow_right₀ (by linarith) hm
  unfold stepErr
  have h4 : (q - 1) * P ≤ q - 1 := mul_le_of_le_one_right (by linarith) hP1
  have h5 : (1 + u) ^ m * ((q - 1) * P) ≤ (1 + u) ^ m * (q - 1) := mul_le_mul_of_nonneg_left h4 (by linarith)
  have h6 : ((1 + u) ^ m - 1) * |P - t| ≤ ((1 + u) ^ m - 1) * 1 := mul_le_mul_of_nonneg_left h1 (by linarith)
  have h7 : (1 + u) ^ m * q ≤ (1 + u) ^ m' * q := mul_le_mul_of_nonneg_right h3 (by linarith)
  nlinarith

section
variable {u : ℝ} {rnd : ℝ → ℝ} {e : ℝ} {fexp flog : Fl rnd → Fl rnd} {eps : Fl rnd} {n p k : Nat} {X : Nat → Nat → Fl rnd}

/-- The memory of a training run on one batch: inputs `X`, labels `L`, the weight `c` for every row, and parameters. -/
structure Loaded (n p k : Nat) (c : Fl rnd) (X : Nat → Nat → Fl rnd) (L : Nat → Nat) (s : Slp.State (Fl rnd)) : Prop where
  sized : Slp.Sized n p k s
  xs : s.xs = (tab [n, p] (fn2 X)).data
  y_s : s.y_s = (tab [n, k] (fn2 fun i j => if L i = j then 1 else 0)).data
  g_ls : s.g_ls = (tab [n] (fn1 fun _ => c)).data
  w : s.w.length = p * k
  b : s.b.length = k

theorem Loaded.step {c : Fl rnd} {L : Nat → Nat} (divn : Fl rnd → Nat → Fl rnd) (junk : Nat → Fl rnd) {s : Slp.State (Fl rnd)}
    (h : Loaded n p k c X L s) : ∃ s', Slp.step fexp flog eps divn junk n p k s = .ok s' ∧ Loaded n p k c X L s' := by
  obtain ⟨s', Z, Y, G, -, -, -, h1, h2, h3, h4, h5, -, h6, h7⟩ := C145_order fexp flog eps divn junk (fun _ => c) X
    (fun i j => if L i = j then 1 else 0) (wOf k s) (bOf s) h.sized h.xs h.y_s h.g_ls (wOf_tab h.w) (bOf_tab h.b)
  refine ⟨s', h1, h2, h3.trans h.xs, h4.trans h.y_s, h5.trans h.g_ls, ?_, ?_⟩
  · rw [h6]; simp
  · rw [h7]; simp

theorem score_le {ξ M : ℝ} {p : Nat} {x : Nat → ℝ} {w : Nat → ℝ} {b : ℝ} (hx : ∀ q < p, |x q| ≤ ξ) (hw : ∀ q < p, |w q| ≤ M)
    (hb : |b| ≤ M) : ∑ q ∈ range p, |x q| * |w q| + |b| ≤ p * (ξ * M) + M := by
  refine add_le_add ?_ hb
  have : ∀ q ∈ range p, |x q| * |w q| ≤ ξ * M := fun q hq =>
    mul_le_mul (hx q (mem_range.1 hq)) (hw q (mem_range.1 hq)) (abs_nonneg _) ((abs_nonneg _).trans (hx q (mem_range.1 hq)))
  simpa [nsmul_eq_mul] using sum_le_card_nsmul (range p) _ _ this

/-- One step from parameters up to `M`. -/
theorem Loaded.descent (hu : 0 ≤ u) (hu1 : u < 1) (hr : RelErr u rnd) (he : 0 ≤ e) (he1 : e < 1) (hexp : ExpErr e fexp)
    (heps : 0 ≤ eps.val) (divn : Fl rnd → Nat → Fl rnd) (junk : Nat → Fl rnd) {c : Fl rnd} {L : Nat → Nat} (hn : 1 ≤ n)
    (hL : ∀ i < n, L i < k) {ρ ξ M : ℝ} (hρ : ∀ i < n, ∑ q ∈ range p, (X i q).val ^ 2 ≤ ρ)
    (hξ : ∀ i < n, ∀ q < p, |(X i q).val| ≤ ξ) (hξ0 : 0 ≤ ξ) (hM0 : 0 ≤ M) (hc0 : 0 < c.val) (hcn : c.val * (n * (ρ + 1)) ≤ 1)
    {s : Slp.State (Fl rnd)} (h : Loaded n p k c X L s) (hW : ∀ q < p, ∀ j < k, |(wOf k s q j).val| ≤ M)
    (hB : ∀ j < k, |(bOf s j).val| ≤ M)
    (hun : Unclipped eps.val n p k (fun i q => (X i q).val) (fun q j => (wOf k s q j).val) (fun j => (bOf s j).val)) :
    ∃ s', Slp.step fexp flog eps divn junk n p k s = .ok s' ∧
      meanLoss eps.val n p k (fun i q => (X i q).val) (fun i j => if L i = j then 1 else 0) (fun q j => (wOf k s' q j).val)
          (fun j => (bOf s' j).val) ≤
        meanLoss eps.val n p k (fun i q => (X i q).val) (fun i j => if L i = j then 1 else 0) (fun q j => (wOf k s q j).val)
          (fun j => (bOf s j).val) -
        (c.val ^ 2 * gradSq p k (fun i q => (X i q).val) (fun i j => if L i = j then 1 else 0) (range n)
            (fun q j => (wOf k s q j).val) (fun j => (bOf s j).val) -
          runErr u e n p k c.val ξ M) / (2 * c.val * n) := by
  set z : ℝ := p * (ξ * M) + M with hz
  have hz0 : 0 ≤ z := by positivity
  have hpow : ∀ m : Nat, 0 ≤ (1 + u) ^ m - 1 := fun m => by linarith [one_le_pow_u hu m]
  have hsc : ∀ i < n, ∀ j < k, ∑ q ∈ range p, |(X i q).val| * |(wOf k s q j).val| + |(bOf s j).val| ≤ z := fun i hi j hj =>
    score_le (hξ i hi) (fun q hq => hW q hq j hj) (hB j hj)
  have hlog : ∀ i < n, ∀ j < k, |logit p (fun i q => (X i q).val) (fun q j => (wOf k s q j).val) (fun j => (bOf s j).val) i j| ≤ z :=
    fun i hi j hj => by
      refine le_trans ?_ (hsc i hi j hj)
      unfold logit
      refine (abs_add_le _ _).trans (add_le_add ?_ le_rfl)
      refine (abs_sum_le_sum_abs _ _).trans (le_of_eq (sum_congr rfl fun q _ => abs_mul _ _))
  set q' := softmaxFactor u e k (((1 + u) ^ (p + 2) - 1) * z) (2 * z) with hq'
  have hq1 : 1 ≤ q' := one_le_softmaxFactor hu hu1 he he1 (mul_nonneg (hpow _) hz0) (by linarith) k
  set β := (1 + u) ^ (n + k + 6) * q' - 1 with hβ
  have hβ0 : 0 ≤ β := by
    have := one_le_mul_of_one_le_of_one_le (one_le_pow_u hu (n + k + 6)) hq1
    linarith
  obtain ⟨s', W', B', h1, h2, h3, h4⟩ := C145_descent (flog := flog) hu hu1 hr he he1 hexp heps divn junk c hn hL
    (η := fun _ => ((1 + u) ^ (p + 2) - 1) * z) (D := fun _ => 2 * z)
    (fun i hi j hj => mul_le_mul_of_nonneg_left (hsc i hi j hj) (hpow _))
    (fun i hi j hj l hl => by
      refine (abs_sub _ _).trans ?_
      linarith [hlog i hi l hl, hlog i hi j hj])
    hρ hc0 hcn hun h.sized h.xs h.y_s h.g_ls (wOf_tab h.w) (bOf_tab h.b) (fun _ _ => rfl) (fun _ _ => rfl) (fun _ _ => rfl)
    (fun _ => rfl) (fun _ _ => rfl) (fun _ => rfl)
  refine ⟨s', h1, ?_⟩
  rw [meanLoss_congr (fun q hq j hj => by rw [wOf_of h2 hq hj]) (fun j hj => by rw [bOf_of h3 hj])]
  refine h4.trans (sub_le_sub_left (div_le_div_of_nonneg_right ?_ (by positivity)) _)
  have pr : ∀ i < n, ∀ j < k, prob eps.val p k (fun i q => (X i q).val) (fun q j => (wOf k s q j).val) (fun j => (bOf s j).val) i j =
      Spec.softmax k (logit p (fun i q => (X i q).val) (fun q j => (wOf k s q j).val) (fun j => (bOf s j).val) i) j :=
    fun i hi j hj => max_eq_right (hun i hi j hj)
  have p0 : ∀ i < n, ∀ j < k, 0 ≤ prob eps.val p k (fun i q => (X i q).val) (fun q j => (wOf k s q j).val)
      (fun j => (bOf s j).val) i j := fun i hi j hj => by rw [pr i hi j hj]; exact (softmax_pos hj _).le
  have p1 : ∀ i < n, ∀ j < k, prob eps.val p k (fun i q => (X i q).val) (fun q j => (wOf k s q j).val)
      (fun j => (bOf s j).val) i j ≤ 1 := fun i hi j hj => by rw [pr i hi j hj]; exact softmax_le_one hj _
  have t01 : ∀ i j, (if L i = j then (1 : ℝ) else 0) = 0 ∨ (if L i = j then (1 : ℝ) else 0) = 1 := fun i j => by
    split <;> simp
  have hd : ∀ i < n, ∀ j < k, |prob eps.val p k (fun i q => (X i q).val) (fun q j => (wOf k s q j).val)
      (fun j => (bOf s j).val) i j - (if L i = j then (1 : ℝ) else 0)| ≤ 1 := fun i hi j hj => by
    have h0 := p0 i hi j hj
    have h1 := p1 i hi j hj
    rw [abs_le]
    rcases t01 i j with h | h <;> rw [h] <;> constructor <;> linarith
  set P := prob eps.val p k (fun i q => (X i q).val) (fun q j => (wOf k s q j).val) (fun j => (bOf s j).val)
  set T : Nat → Nat → ℝ := fun i j => if L i = j then 1 else 0
  -- the lengths of the exact step
  have vW : ∀ q < p, ∀ j < k, |∑ i ∈ range n, (X i q).val * (c.val * (P i j - T i j))| ≤ c.val * (n * ξ) := fun q hq j hj => by
    refine (abs_sum_le_sum_abs _ _).trans ?_
    have : ∀ i ∈ range n, |(X i q).val * (c.val * (P i j - T i j))| ≤ c.val * ξ := fun i hi => by
      rw [abs_mul, abs_mul, abs_of_pos hc0]
      have a := hξ i (mem_range.1 hi) q hq
      have b := mul_le_mul_of_nonneg_left (hd i (mem_range.1 hi) j hj) hc0.le
      calc _ ≤ ξ * (c.val * 1) := mul_le_mul a b (by positivity) hξ0
        _ = _ := by ring
    refine (sum_le_card_nsmul (range n) _ _ this).trans (le_of_eq ?_)
    rw [card_range, nsmul_eq_mul]
    ring
  have vB : ∀ j < k, |∑ i ∈ range n, c.val * (P i j - T i j)| ≤ c.val * n := fun j hj => by
    refine (abs_sum_le_sum_abs _ _).trans ?_
    have : ∀ i ∈ range n, |c.val * (P i j - T i j)| ≤ c.val := fun i hi => by
      rw [abs_mul, abs_of_pos hc0]
      exact mul_le_of_le_one_right hc0.le (hd i (mem_range.1 hi) j hj)
    refine (sum_le_card_nsmul (range n) _ _ this).trans (le_of_eq ?_)
    rw [card_range, nsmul_eq_mul]
    ring
  have se : ∀ i < n, ∀ j < k, ∀ m ≤ n + k + 6, stepErr u m q' (P i j) (T i j) ≤ β := fun i hi j hj m hm =>
    stepErr_le hu m _ hm hq1 (p0 i hi j hj) (p1 i hi j hj) (t01 i j)
  have se0 : ∀ i < n, ∀ j < k, ∀ m, 0 ≤ stepErr u m q' (P i j) (T i j) := fun i hi j hj m => by
    unfold stepErr
    have a := one_le_pow_u hu m
    have b : 0 ≤ (q' - 1) * P i j := mul_nonneg (by linarith) (p0 i hi j hj)
    have d := abs_nonneg (P i j - T i j)
    nlinarith
  have bw : ∀ q < p, ∀ j < k, u * |(wOf k s q j).val - ∑ i ∈ range n, (X i q).val * (c.val * (P i j - T i j))| + (1 + u) *
      (|c.val| * ∑ i ∈ range n, |(X i q).val| * stepErr u (n + k + 6) q' (P i j) (T i j)) ≤
      u * (M + c.val * (n * ξ)) + (1 + u) * (c.val * (n * (ξ * β))) := fun q hq j hj => by
    refine add_le_add (mul_le_mul_of_nonneg_left ?_ hu) (mul_le_mul_of_nonneg_left ?_ (by linarith))
    · exact (abs_sub _ _).trans (add_le_add (hW q hq j hj) (vW q hq j hj))
    · rw [abs_of_pos hc0]
      refine mul_le_mul_of_nonneg_left ?_ hc0.le
      have : ∀ i ∈ range n, |(X i q).val| * stepErr u (n + k + 6) q' (P i j) (T i j) ≤ ξ * β := fun i hi =>
        mul_le_mul (hξ i (mem_range.1 hi) q hq) (se i (mem_range.1 hi) j hj _ le_rfl) (se0 i (mem_range.1 hi) j hj _) hξ0
      refine (sum_le_card_nsmul (range n) _ _ this).trans (le_of_eq ?_)
      rw [card_range, nsmul_eq_mul]
  have bb : ∀ j < k, u * |(bOf s j).val - ∑ i ∈ range n, c.val * (P i j - T i j)| + (1 + u) *
      (|c.val| * ∑ i ∈ range n, stepErr u (n + k + 5) q' (P i j) (T i j)) ≤
      u * (M + c.val * n) + (1 + u) * (c.val * (n * β)) := fun j hj => by
    refine add_le_add (mul_le_mul_of_nonneg_left ?_ hu) (mul_le_mul_of_nonneg_left ?_ (by linarith))
    · exact (abs_sub _ _).trans (add_le_add (hB j hj) (vB j hj))
    · rw [abs_of_pos hc0]
      refine mul_le_mul_of_nonneg_left ?_ hc0.le
      have : ∀ i ∈ range n, stepErr u (n + k + 5) q' (P i j) (T i j) ≤ β := fun i hi =>
        se i (mem_range.1 hi) j hj _ (by omega)
      refine (sum_le_card_nsmul (range n) _ _ this).trans (le_of_eq ?_)
      rw [card_range, nsmul_eq_mul]
  have bw0 : ∀ q < p, ∀ j < k, 0 ≤ u * |(wOf k s q j).val - ∑ i ∈ range n, (X i q).val * (c.val * (P i j - T i j))| + (1 + u) *
      (|c.val| * ∑ i ∈ range n, |(X i q).val| * stepErr u (n + k + 6) q' (P i j) (T i j)) := fun q hq j hj =>
    add_nonneg (mul_nonneg hu (abs_nonneg _)) (mul_nonneg (by linarith) (mul_nonneg (abs_nonneg _)
      (sum_nonneg fun i hi => mul_nonneg (abs_nonneg _) (se0 i (mem_range.1 hi) j hj _))))
  have bb0 : ∀ j < k, 0 ≤ u * |(bOf s j).val - ∑ i ∈ range n, c.val * (P i j - T i j)| + (1 + u) *
      (|c.val| * ∑ i ∈ range n, stepErr u (n + k + 5) q' (P i j) (T i j)) := fun j hj =>
    add_nonneg (mul_nonneg hu (abs_nonneg _)) (mul_nonneg (by linarith) (mul_nonneg (abs_nonneg _)
      (sum_nonneg fun i hi => se0 i (mem_range.1 hi) j hj _)))
  refine sub_le_sub (le_of_eq ?_) ?_
  · unfold gradSq
    rw [mul_add, mul_sum, mul_sum]
    congr 1
    · refine sum_congr rfl fun q _ => ?_
      rw [mul_sum]
      refine sum_congr rfl fun j hj => ?_
      rw [← mul_pow]
      unfold gradW errAt
      rw [mul_sum]
      refine congrArg (· ^ 2) (sum_congr rfl fun i hi => ?_)
      rw [pr i (mem_range.1 hi) j (mem_range.1 hj)]
      ring
    · refine sum_congr rfl fun j hj => ?_
      rw [← mul_pow]
      unfold gradB errAt
      rw [mul_sum]
      refine congrArg (· ^ 2) (sum_congr rfl fun i hi => ?_)
      rw [pr i (mem_range.1 hi) j (mem_range.1 hj)]
  · unfold runErr
    refine add_le_add ?_ ?_
    · have : ∀ q ∈ range p, _ ≤ _ := fun q hq => sum_le_card_nsmul (range k) _ _ fun j hj =>
        pow_le_pow_left₀ (bw0 q (mem_range.1 hq) j (mem_range.1 hj)) (bw q (mem_range.1 hq) j (mem_range.1 hj)) 2
      refine (sum_le_card_nsmul (range p) _ _ this).trans (le_of_eq ?_)
      simp only [card_range, nsmul_eq_mul]
      rfl
    · refine (sum_le_card_nsmul (range k) _ _ fun j hj =>
        pow_le_pow_left₀ (bb0 j (mem_range.1 hj)) (bb j (mem_range.1 hj)) 2).trans (le_of_eq ?_)
      simp only [card_range, nsmul_eq_mul]
      rfl

/-- **C170.** Any number of steps can be run one after the other; the batch stays in memory. -/
theorem C170_runs {c : Fl rnd} {L : Nat → Nat} (divn : Fl rnd → Nat → Fl rnd) (junk : Nat → Fl rnd) {s₀ : Slp.State (Fl rnd)}
    (h : Loaded n p k c X L s₀) : ∃ s : Nat → Slp.State (Fl rnd), ∀ t,
      forRange t (fun _ => Slp.step fexp flog eps divn junk n p k) s₀ = .ok (s t) ∧ Loaded n p k c X L (s t) := by
  have : ∀ t, ∃ s, forRange t (fun _ => Slp.step fexp flog eps divn junk n p k) s₀ = .ok s ∧ Loaded n p k c X L s := fun t =>
    forRange_inv (fun _ s => Loaded n p k c X L s) (fun _ _ _ hs => hs.step divn junk) h
  exact ⟨fun t => (this t).choose, fun t => (this t).choose_spec⟩

/-- **C170.** `N` steps in rounded arithmetic on one batch, the parameters before each of them being at most `M` and the
predictions not clipped. Each step lowers the exact loss by at least the difference of the squared length of the exact step and
`runErr`, over `2 c n`; so the squared lengths of the exact steps add up to at most `2 c n` times the fall of the loss and
`N runErr`. -/
theorem C170_descent (hu : 0 ≤ u) (hu1 : u < 1) (hr : RelErr u rnd) (he : 0 ≤ e) (he1 : e < 1) (hexp : ExpErr e fexp)
    (heps : 0 ≤ eps.val) (divn : Fl rnd → Nat → Fl rnd) (junk : Nat → Fl rnd) {c : Fl rnd} {L : Nat → Nat} (hn : 1 ≤ n)
    (hL : ∀ i < n, L i < k) {ρ ξ M : ℝ} (hρ : ∀ i < n, ∑ q ∈ range p, (X i q).val ^ 2 ≤ ρ)
    (hξ : ∀ i < n, ∀ q < p, |(X i q).val| ≤ ξ) (hξ0 : 0 ≤ ξ) (hM0 : 0 ≤ M) (hc0 : 0 < c.val) (hcn : c.val * (n * (ρ + 1)) ≤ 1)
    {s : Nat → Slp.State (Fl rnd)} (h : Loaded n p k c X L (s 0)) {N : Nat}
    (hs : ∀ t ≤ N, forRange t (fun _ => Slp.step fexp flog eps divn junk n p k) (s 0) = .ok (s t)) {T : Nat → Nat → ℝ}
    (hT : ∀ i j, T i j = if L i = j then 1 else 0) {Wt : Nat → Nat → Nat → ℝ} {Bt : Nat → Nat → ℝ}
    (hWt : ∀ t q j, Wt t q j = (wOf k (s t) q j).val) (hBt : ∀ t j, Bt t j = (bOf (s t) j).val)
    (hW : ∀ t < N, ∀ q < p, ∀ j < k, |Wt t q j| ≤ M) (hB : ∀ t < N, ∀ j < k, |Bt t j| ≤ M)
    (hun : ∀ t < N, Unclipped eps.val n p k (fun i q => (X i q).val) (Wt t) (Bt t)) {loss sq : Nat → ℝ}
    (hloss : ∀ t, loss t = meanLoss eps.val n p k (fun i q => (X i q).val) T (Wt t) (Bt t))
    (hsq : ∀ t, sq t = paramDist p k (gd eps.val c.val n p k (fun i q => (X i q).val) T (Wt t) (Bt t) 1).1
      (gd eps.val c.val n p k (fun i q => (X i q).val) T (Wt t) (Bt t) 1).2 (Wt t) (Bt t)) :
    (∀ t < N, loss (t + 1) ≤ loss t - (sq t - runErr u e n p k c.val ξ M) / (2 * c.val * n)) ∧
      ∑ t ∈ range N, sq t ≤ 2 * c.val * n * (loss 0 - loss N) + N * runErr u e n p k c.val ξ M := by
  have hn' : (0 : ℝ) < n := by exact_mod_cast hn
  obtain rfl : T = fun i j => if L i = j then 1 else 0 := funext fun i => funext fun j => hT i j
  obtain rfl : Wt = fun t q j => (wOf k (s t) q j).val := funext fun t => funext fun q => funext fun j => hWt t q j
  obtain rfl : Bt = fun t j => (bOf (s t) j).val := funext fun t => funext fun j => hBt t j
  have hl : ∀ t ≤ N, Loaded n p k c X L (s t) := fun t ht => by
    obtain ⟨s', e1, h1⟩ := forRange_inv (n := t) (fun _ s => Loaded n p k c X L s)
      (fun _ _ _ hs => hs.step (fexp := fexp) (flog := flog) (eps := eps) divn junk) h
    rw [hs t ht] at e1
    cases e1
    exact h1
  have h1 : ∀ t < N, loss (t + 1) ≤ loss t - (sq t - runErr u e n p k c.val ξ M) / (2 * c.val * n) := by
    intro t ht
    obtain ⟨s', e1, h1⟩ := (hl t ht.le).descent (flog := flog) hu hu1 hr he he1 hexp heps divn junk hn hL hρ hξ hξ0 hM0 hc0 hcn
      (hW t ht) (hB t ht) (hun t ht)
    have e2 : s (t + 1) = s' := by
      have := hs (t + 1) ht
      rw [forRange_succ, hs t ht.le] at this
      exact Outcome.ok.inj (this.symm.trans e1)
    rw [← e2] at h1
    rw [hloss, hloss, hsq, gd_sq (hun t ht)]
    exact h1
  refine ⟨h1, ?_⟩
  have h2 : ∀ m ≤ N, ∑ t ∈ range m, sq t ≤ 2 * c.val * n * (loss 0 - loss m) + m * runErr u e n p k c.val ξ M := by
    intro m hm
    induction m with
    | zero => simp
    | succ m ih =>
      have i1 := ih (by omega)
      have i2 := h1 m hm
      rw [sum_range_succ]
      have hp : 0 < 2 * c.val * n := by positivity
      have i3 : sq m - runErr u e n p k c.val ξ M ≤ 2 * c.val * n * (loss m - loss (m + 1)) := by
        rw [mul_comm, ← div_le_iff₀ hp]
        linarith
      push_cast
      linarith
  exact h2 N le_rfl

/-- **C170.** So one of the first `N` steps starts from parameters whose exact step is short, and whose loss is then close to
that of any other parameters, relative to their distance. -/
theorem C170_best (hu : 0 ≤ u) (hu1 : u < 1) (hr : RelErr u rnd) (he : 0 ≤ e) (he1 : e < 1) (hexp : ExpErr e fexp)
    (heps : 0 ≤ eps.val) (divn : Fl rnd → Nat → Fl rnd) (junk : Nat → Fl rnd) {c : Fl rnd} {L : Nat → Nat} (hn : 1 ≤ n)
    (hL : ∀ i < n, L i < k) {ρ ξ M : ℝ} (hρ : ∀ i < n, ∑ q ∈ range p, (X i q).val ^ 2 ≤ ρ)
    (hξ : ∀ i < n, ∀ q < p, |(X i q).val| ≤ ξ) (hξ0 : 0 ≤ ξ) (hM0 : 0 ≤ M) (hc0 : 0 < c.val) (hcn : c.val * (n * (ρ + 1)) ≤ 1)
    {s : Nat → Slp.State (Fl rnd)} (h : Loaded n p k c X L (s 0)) {N : Nat} (hN : 1 ≤ N)
    (hs : ∀ t ≤ N, forRange t (fun _ => Slp.step fexp flog eps divn junk n p k) (s 0) = .ok (s t)) {T : Nat → Nat → ℝ}
    (hT : ∀ i j, T i j = if L i = j then 1 else 0) {Wt : Nat → Nat → Nat → ℝ} {Bt : Nat → Nat → ℝ}
    (hWt : ∀ t q j, Wt t q j = (wOf k (s t) q j).val) (hBt : ∀ t j, Bt t j = (bOf (s t) j).val)
    (hW : ∀ t < N, ∀ q < p, ∀ j < k, |Wt t q j| ≤ M) (hB : ∀ t < N, ∀ j < k, |Bt t j| ≤ M)
    (hun : ∀ t < N, Unclipped eps.val n p k (fun i q => (X i q).val) (Wt t) (Bt t)) {a : ℝ}
    (ha : a = 2 * c.val * n * meanLoss eps.val n p k (fun i q => (X i q).val) T (Wt 0) (Bt 0) / N + runErr u e n p k c.val ξ M) :
    ∃ t < N, paramDist p k (gd eps.val c.val n p k (fun i q => (X i q).val) T (Wt t) (Bt t) 1).1
        (gd eps.val c.val n p k (fun i q => (X i q).val) T (Wt t) (Bt t) 1).2 (Wt t) (Bt t) ≤ a ∧
      ∀ W' B', meanLoss eps.val n p k (fun i q => (X i q).val) T (Wt t) (Bt t) ≤
        meanLoss 0 n p k (fun i q => (X i q).val) T W' B' +
          Real.sqrt (a * paramDist p k W' B' (Wt t) (Bt t)) / (c.val * n) := by
  have hn' : (0 : ℝ) < n := by exact_mod_cast hn
  have hN' : (0 : ℝ) < N := by exact_mod_cast hN
  obtain ⟨-, hsum⟩ := C170_descent hu hu1 hr he he1 hexp heps divn junk hn hL hρ hξ hξ0 hM0 hc0 hcn h hs hT hWt hBt hW hB hun
    (fun _ => rfl) (fun _ => rfl)
  have heps1 : eps.val ≤ 1 := (hun 0 hN 0 hn (L 0) (hL 0 hn)).trans (softmax_le_one (hL 0 hn) _)
  have pos : 0 ≤ meanLoss eps.val n p k (fun i q => (X i q).val) T (Wt N) (Bt N) := by
    refine div_nonneg (sum_nonneg fun i _ => neg_nonneg.2 (sum_nonpos fun j hj => ?_)) (Nat.cast_nonneg _)
    refine mul_nonpos_of_nonneg_of_nonpos (by rw [hT]; split <;> norm_num) (Real.log_nonpos ?_ ?_)
    · exact (softmax_pos (mem_range.1 hj) _).le.trans (le_max_right _ _)
    · exact max_le heps1 (softmax_le_one (mem_range.1 hj) _)
  have hle : ∑ t ∈ range N, paramDist p k (gd eps.val c.val n p k (fun i q => (X i q).val) T (Wt t) (Bt t) 1).1
        (gd eps.val c.val n p k (fun i q => (X i q).val) T (Wt t) (Bt t) 1).2 (Wt t) (Bt t) ≤ ∑ t ∈ range N, a := by
    refine hsum.trans ?_
    rw [sum_const, card_range, nsmul_eq_mul, ha, mul_add, mul_div_cancel₀ _ hN'.ne']
    have : 0 ≤ 2 * c.val * n * meanLoss eps.val n p k (fun i q => (X i q).val) T (Wt N) (Bt N) := by positivity
    linarith
  obtain ⟨t, ht, h1⟩ := exists_le_of_sum_le (nonempty_range_iff.2 (by omega)) hle
  have ht := mem_range.1 ht
  refine ⟨t, ht, h1, fun W' B' => ?_⟩
  rw [gd_sq (hun t ht)] at h1
  rw [meanLoss_unclipped (hun t ht), meanLoss_zero]
  have hT1 : ∀ i ∈ range n, ∑ j ∈ range k, T i j = 1 := fun i hi => by
    simp only [hT]
    rw [sum_ite_eq, if_pos (mem_range.2 (hL i (mem_range.1 hi)))]
  have low := lossOn_lower (p := p) (k := k) (X := fun i q => (X i q).val) hT1 (Wt t) W' (Bt t) B'
  have cs := along_sq_le p k (fun i q => (X i q).val) T (range n) (Wt t) (Bt t) (fun q j => W' q j - Wt t q j)
    (fun j => B' j - Bt t j)
  have d0 := paramDist_nonneg (p := p) (k := k) W' (Wt t) B' (Bt t)
  have a0 : 0 ≤ a := le_trans (by have := gradSq_nonneg (p := p) (k := k) (X := fun i q => (X i q).val) (T := T) (S := range n)
                                    (Wt t) (Bt t); positivity) h1
  set A := along p k (fun i q => (X i q).val) T (range n) (Wt t) (Bt t) (fun q j => W' q j - Wt t q j) (fun j => B' j - Bt t j)
  have k1 : -(c.val * A) ≤ Real.sqrt (a * paramDist p k W' B' (Wt t) (Bt t)) := by
    refine Real.le_sqrt_of_sq_le ?_
    calc (-(c.val * A)) ^ 2 = c.val ^ 2 * A ^ 2 := by ring
      _ ≤ c.val ^ 2 * (gradSq p k (fun i q => (X i q).val) T (range n) (Wt t) (Bt t) * paramDist p k W' B' (Wt t) (Bt t)) :=
          mul_le_mul_of_nonneg_left cs (sq_nonneg _)
      _ = c.val ^ 2 * gradSq p k (fun i q => (X i q).val) T (range n) (Wt t) (Bt t) * paramDist p k W' B' (Wt t) (Bt t) := by
          ring
      _ ≤ _ := mul_le_mul_of_nonneg_right h1 d0
  rw [← div_div, ← add_div]
  refine div_le_div_of_nonneg_right ?_ hn'.le
  have k2 : -A ≤ Real.sqrt (a * paramDist p k W' B' (Wt t) (Bt t)) / c.val := by
    rw [le_div_iff₀ hc0]
    linarith
  linarith
end

/-- **C170.** Without rounding errors the bound is 0. -/
theorem C170_exact (n p k : Nat) (c ξ M : ℝ) : runErr 0 0 n p k c ξ M = 0 := by
  simp [runErr, softmaxFactor]

/-! ## A concrete case: the run of `RoundingTrain`, in 24 bit arithmetic -/

theorem exStep_loaded : Loaded 1 1 2 (exReal (1 / 4)) (fun _ _ => exReal 1) (fun _ => 0) exStep :=
  ⟨exStep_sized, rfl, rfl, rfl, rfl, rfl⟩

/-- The run exists, its first step meets the conditions of the theorems, and its rounding errors are small. -/
example : ∃ s : Nat → Slp.State (Fl chop24), s 0 = exStep ∧
    (∀ t, forRange t (fun _ => Slp.step chopExp chopLog (exReal (1 / 8)) (fun s n => exReal (chop24 (s.val / n)))
      (fun _ => exReal 9) 1 1 2) (s 0) = .ok (s t)) ∧
    (∀ t < 1, ∀ q < 1, ∀ j < 2, |(wOf 2 (s t) q j).val| ≤ 0) ∧ (∀ t < 1, ∀ j < 2, |(bOf (s t) j).val| ≤ 0) ∧
    (∀ t < 1, Unclipped (1 / 8) 1 1 2 (fun _ _ => 1) (fun q j => (wOf 2 (s t) q j).val) (fun j => (bOf (s t) j).val)) ∧
    runErr (2 ^ (-23 : ℤ)) (2 ^ (-23 : ℤ)) 1 1 2 (1 / 4) 1 0 ≤ 1 / 10 ^ 10 := by
  obtain ⟨s, hs⟩ := C170_runs (fexp := chopExp) (flog := chopLog) (eps := exReal (1 / 8))
    (fun s n => exReal (chop24 (s.val / n))) (fun _ => exReal 9) exStep_loaded
  have h0 : s 0 = exStep := (Outcome.ok.inj (hs 0).1).symm
  have w0 : ∀ q < 1, ∀ j < 2, (wOf 2 exStep q j).val = 0 := fun q hq j hj => by
    rw [wOf_of (W := fun _ _ => exReal 0) (p := 1) rfl hq hj, exVal]
  have b0 : ∀ j < 2, (bOf exStep j).val = 0 := fun j hj => by
    rw [bOf_of (B := fun _ => exReal 0) rfl hj, exVal]
  refine ⟨s, h0, fun t => by rw [h0]; exact (hs t).1, fun t ht q hq j hj => ?_, fun t ht j hj => ?_, fun t ht i hi j hj => ?_, ?_⟩
  · obtain rfl : t = 0 := by omega
    rw [h0, w0 q hq j hj, abs_zero]
  · obtain rfl : t = 0 := by omega
    rw [h0, b0 j hj, abs_zero]
  · obtain rfl : t = 0 := by omega
    have : ∀ j < 2, logit 1 (fun _ _ => 1) (fun q j => (wOf 2 (s 0) q j).val) (fun j => (bOf (s 0) j).val) i j =
        logit 1 (fun _ _ => 1) (fun _ _ => 0) (fun _ => 0) i j := fun j hj => by
      simp only [logit, sum_range_one, h0, b0 j hj, w0 0 (by omega) j hj]
    rw [softmax_congr' this hj]
    simp [Spec.softmax, logit]
    norm_num
  · have f1 : softmaxFactor (2 ^ (-23 : ℤ)) (2 ^ (-23 : ℤ)) 2 0 0 = 1 / ((1 - 2 ^ (-23 : ℤ)) * (1 - 2 ^ (-23 : ℤ)) ^ 3) := by
      unfold softmaxFactor
      norm_num
    simp only [runErr, mul_zero, add_zero, f1]
    norm_num

end StdNN
