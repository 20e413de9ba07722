import Verif.Props.RoundingRun

/-! # C173: how far a training run in rounded arithmetic can carry the parameters -/

namespace StdNN
open Outcome Finset Spec

/-- A bound for computed predictions: `k` classes, predictions below `eps` raised to `eps`. -/
noncomputable def predBound (u e eps : ℝ) (k : Nat) : ℝ := max eps ((1 + u) / ((1 - e) * (1 - u) ^ k))

/-- A bound for what one step subtracts from a parameter: batches of `n`, inputs up to `ξ` (1 for the bias), the rate `c`. -/
noncomputable def growth (u e eps : ℝ) (n k : Nat) (c ξ : ℝ) : ℝ :=
  (1 + u) ^ (n + k + 6) * (|c| * (n * (ξ * predBound u e eps k)))

section
variable {u : ℝ} {rnd : ℝ → ℝ} {e : ℝ} {fexp flog : Fl rnd → Fl rnd} {eps : Fl rnd} {n p k : Nat} {X : Nat → Nat → Fl rnd}

/-- A rounded sum of numbers that are not negative is not much smaller than any of them. -/
theorem seqSum_ge (hu : 0 ≤ u) (hu1 : u < 1) (hr : RelErr u rnd) (f : Nat → Fl rnd) (hf : ∀ i, 0 ≤ (f i).val) (m : Nat) :
    0 ≤ (seqSum m f).val ∧ ∀ j < m, (1 - u) ^ m * (f j).val ≤ (seqSum m f).val := by
  induction m with
  | zero => exact ⟨by simp [seqSum, Fl.val_zero], fun j hj => absurd hj (by omega)⟩
  | succ m ih =>
    obtain ⟨h0, hj⟩ := ih
    have hs : 0 ≤ (seqSum m f).val + (f m).val := add_nonneg h0 (hf m)
    have h1 : (1 - u) * ((seqSum m f).val + (f m).val) ≤ (seqSum (m + 1) f).val := by
      rw [seqSum, Fl.val_add]
      have := hr ((seqSum m f).val + (f m).val)
      rw [abs_of_nonneg hs, abs_le] at this
      linarith [this.1]
    have h1u : 0 ≤ 1 - u := by linarith
    refine ⟨(mul_nonneg h1u hs).trans h1, fun j hjm => le_trans ?_ h1⟩
    rw [pow_succ, mul_comm _ (1 - u), mul_assoc]
    refine mul_le_mul_of_nonneg_left ?_ h1u
    rcases Nat.lt_succ_iff_lt_or_eq.1 hjm with h | rfl
    · linarith [hj j h, hf m]
    · have : (1 - u) ^ j * (f j).val ≤ 1 * (f j).val :=
        mul_le_mul_of_nonneg_right (pow_le_one₀ h1u (by linarith)) (hf j)
      linarith

/-- Computed predictions are positive and hardly larger than 1, whatever the scores are. -/
theorem pred_bound (hu : 0 ≤ u) (hu1 : u < 1) (hr : RelErr u rnd) (he1 : e < 1) (hexp : ExpErr e fexp)
    {j : Nat} (hj : j < k) (Z : Nat → Fl rnd) :
    0 < (stdMax eps (1 / seqSum k fun l => fexp (Z l - Z j)) : Fl rnd).val ∧
      (stdMax eps (1 / seqSum k fun l => fexp (Z l - Z j)) : Fl rnd).val ≤ predBound u e eps.val k := by
  have hf : ∀ l, 0 ≤ (fexp (Z l - Z j)).val := fun l => by
    have := (abs_le.1 (hexp (Z l - Z j))).1
    have h2 : 0 < (1 - e) * Real.exp (Z l - Z j).val := mul_pos (by linarith) (Real.exp_pos _)
    linarith
  have h1 : 1 - e ≤ (fexp (Z j - Z j)).val := by
    have := (abs_le.1 (hexp (Z j - Z j))).1
    rw [Fl.val_sub, sub_self, rnd_zero hr, Real.exp_zero] at this
    linarith
  have hlow : (1 - e) * (1 - u) ^ k ≤ (seqSum k fun l => fexp (Z l - Z j)).val := by
    refine le_trans ?_ ((seqSum_ge hu hu1 hr (fun l => fexp (Z l - Z j)) hf k).2 j hj)
    rw [mul_comm]
    exact mul_le_mul_of_nonneg_left h1 (pow_nonneg (by linarith) _)
  have hτ : 0 < (1 - e) * (1 - u) ^ k := mul_pos (by linarith) (pow_pos (by linarith) _)
  set tot := seqSum k fun l => fexp (Z l - Z j)
  have htot : 0 < tot.val := hτ.trans_le hlow
  have hd : (1 / tot).val = rnd (1 / tot.val) := by rw [Fl.val_div, Fl.val_one]
  have hq := abs_le.1 (hr (1 / tot.val))
  have hp : 0 < 1 / tot.val := one_div_pos.2 htot
  rw [abs_of_pos hp] at hq
  have em : (stdMax eps (1 / tot) : Fl rnd).val = max eps.val (1 / tot).val := by
    unfold stdMax
    split
    · next c => exact (max_eq_right (le_of_lt c)).symm
    · next c => exact (max_eq_left (not_lt.1 c)).symm
  rw [em, hd]
  constructor
  · refine lt_max_of_lt_right ?_
    have : 0 < (1 - u) * (1 / tot.val) := mul_pos (by linarith) hp
    linarith [hq.1]
  · refine max_le_max le_rfl ?_
    have h2 : 1 / tot.val ≤ 1 / ((1 - e) * (1 - u) ^ k) := one_div_le_one_div_of_le hτ hlow
    have h3 : (1 + u) * (1 / tot.val) ≤ (1 + u) * (1 / ((1 - e) * (1 - u) ^ k)) :=
      mul_le_mul_of_nonneg_left h2 (by linarith)
    rw [mul_one_div (1 + u) ((1 - e) * (1 - u) ^ k)] at h3
    linarith [hq.2]

theorem one_le_predBound (hu : 0 ≤ u) (hu1 : u < 1) (he : 0 ≤ e) (he1 : e < 1) (a : ℝ) (k : Nat) : 1 ≤ predBound u e a k := by
  refine le_max_of_le_right ?_
  have hτ : 0 < (1 - e) * (1 - u) ^ k := mul_pos (by linarith) (pow_pos (by linarith) _)
  rw [le_div_iff₀ hτ, one_mul]
  have : (1 - e) * (1 - u) ^ k ≤ 1 * 1 :=
    mul_le_mul (by linarith) (pow_le_one₀ (by linarith) (by linarith)) (pow_nonneg (by linarith) _) (by norm_num)
  linarith

theorem growth_nonneg (hu : 0 ≤ u) (hu1 : u < 1) (he : 0 ≤ e) (he1 : e < 1) (a : ℝ) (n k : Nat) (c : ℝ) {ξ : ℝ} (hξ : 0 ≤ ξ) :
    0 ≤ growth u e a n k c ξ := by
  have := one_le_predBound hu hu1 he he1 a k
  unfold growth
  positivity

/-- A rounded difference. -/
theorem sub_growth (hu : 0 ≤ u) (hr : RelErr u rnd) {w g : Fl rnd} {M S : ℝ} (hw : |w.val| ≤ M) (hg : |g.val| ≤ S) :
    |(w - g).val| ≤ (1 + u) * (M + S) := by
  rw [Fl.val_sub]
  have h1 := hr (w.val - g.val)
  have h2 : |w.val - g.val| ≤ M + S := (abs_sub _ _).trans (add_le_add hw hg)
  have h3 : rnd (w.val - g.val) = (rnd (w.val - g.val) - (w.val - g.val)) + (w.val - g.val) := by ring
  rw [h3]
  refine (abs_add_le _ _).trans ?_
  nlinarith [mul_le_mul_of_nonneg_left h2 hu]

/-- **C173.** One step on any batch: whatever the parameters are, each of them is moved by at most `growth`, and rounded. -/
theorem C173_step (hu : 0 ≤ u) (hu1 : u < 1) (hr : RelErr u rnd) (he : 0 ≤ e) (he1 : e < 1) (hexp : ExpErr e fexp)
    (divn : Fl rnd → Nat → Fl rnd) (junk : Nat → Fl rnd) {c : Fl rnd} {L : Nat → Nat} (hL : ∀ i < n, L i < k) {ξ M M' : ℝ}
    (hξ : ∀ i < n, ∀ q < p, |(X i q).val| ≤ ξ) {s : Slp.State (Fl rnd)} (h : Loaded n p k c X L s)
    (hW : ∀ q < p, ∀ j < k, |(wOf k s q j).val| ≤ M) (hB : ∀ j < k, |(bOf s j).val| ≤ M') :
    ∃ s', Slp.step fexp flog eps divn junk n p k s = .ok s' ∧ Loaded n p k c X L s' ∧
      (∀ q < p, ∀ j < k, |(wOf k s' q j).val| ≤ (1 + u) * (M + growth u e eps.val n k c.val ξ)) ∧
      ∀ j < k, |(bOf s' j).val| ≤ (1 + u) * (M' + growth u e eps.val n k c.val 1) := by
  obtain ⟨s', Z, Y, G, -, hY, hG, h1, h2, h3, h4, h5, -, h6, h7⟩ := C145_order fexp flog eps divn junk (fun _ => c) X
    (fun i j => if L i = j then 1 else 0) (wOf k s) (bOf s) h.sized h.xs h.y_s h.g_ls (wOf_tab h.w) (bOf_tab h.b)
  have hP := one_le_predBound hu hu1 he he1 eps.val k
  set P := predBound u e eps.val k with hPdef
  have hy : ∀ i, ∀ j < k, 0 < (Y i j).val ∧ (Y i j).val ≤ P := fun i j hj => by
    rw [hY]
    exact pred_bound hu hu1 hr he1 hexp hj (Z i)
  have hg : ∀ i < n, ∀ j < k, |(G i j).val| ≤ (1 + u) ^ (k + 5) * (|c.val| * P) := fun i hi j hj => by
    rw [hG]
    have hs := score_grad hu hr (j := j) (hL i hi) c (Y i) (hy i (L i) (hL i hi)).1.ne'
    set S := (seqSum k fun l => c * (-(if L i = l then (1 : Fl rnd) else 0) / Y i l) *
      if l = j then Y i l * (1 - Y i l) else -Y i l * Y i j)
    have hv : |c.val * ((Y i j).val - if L i = j then 1 else 0)| ≤ |c.val| * P := by
      rw [abs_mul]
      refine mul_le_mul_of_nonneg_left ?_ (abs_nonneg _)
      have := hy i j hj
      rw [abs_le]
      split <;> constructor <;> linarith [this.1, this.2]
    have e1 : S.val = (S.val - c.val * ((Y i j).val - if L i = j then 1 else 0)) + c.val * ((Y i j).val - if L i = j then 1 else 0) := by
      ring
    rw [e1]
    refine (abs_add_le _ _).trans ?_
    have h1 := one_le_pow_u hu (k + 5)
    calc _ ≤ (1 + u) ^ (k + 5) * |c.val * ((Y i j).val - if L i = j then 1 else 0)| := by linarith
      _ ≤ _ := mul_le_mul_of_nonneg_left hv (by linarith)
  set D := (1 + u) ^ (k + 5) * (|c.val| * P) with hD
  have hD0 : 0 ≤ D := by positivity
  have hw : ∀ q < p, ∀ j < k, |(seqSum n fun i => X i q * G i j).val| ≤ growth u e eps.val n k c.val ξ := fun q hq j hj => by
    have hs := seqSum_error hu hr n (fun i => X i q) fun i => G i j
    have ha : ∑ i ∈ range n, |(X i q).val| * |(G i j).val| ≤ n * (ξ * D) := by
      have : ∀ i ∈ range n, |(X i q).val| * |(G i j).val| ≤ ξ * D := fun i hi =>
        mul_le_mul (hξ i (mem_range.1 hi) q hq) (hg i (mem_range.1 hi) j hj) (abs_nonneg _)
          ((abs_nonneg _).trans (hξ i (mem_range.1 hi) q hq))
      simpa [nsmul_eq_mul] using sum_le_card_nsmul (range n) _ _ this
    have hb : |∑ i ∈ range n, (X i q).val * (G i j).val| ≤ ∑ i ∈ range n, |(X i q).val| * |(G i j).val| := by
      refine (abs_sum_le_sum_abs _ _).trans (le_of_eq (sum_congr rfl fun i _ => abs_mul _ _))
    have h1 := one_le_pow_u hu (n + 1)
    have e1 : (seqSum n fun i => X i q * G i j).val = ((seqSum n fun i => X i q * G i j).val - ∑ i ∈ range n, (X i q).val * (G i j).val) +
        ∑ i ∈ range n, (X i q).val * (G i j).val := by ring
    rw [e1]
    refine (abs_add_le _ _).trans ?_
    calc _ ≤ (1 + u) ^ (n + 1) * ∑ i ∈ range n, |(X i q).val| * |(G i j).val| := by linarith
      _ ≤ (1 + u) ^ (n + 1) * (n * (ξ * D)) := mul_le_mul_of_nonneg_left ha (by linarith)
      _ = _ := by
        rw [growth, ← hPdef, hD, show n + k + 6 = (n + 1) + (k + 5) by omega, pow_add]
        ring
  have hb : ∀ j < k, |(seqSum n fun i => G i j).val| ≤ growth u e eps.val n k c.val 1 := fun j hj => by
    have hs := sum_error hu hr n fun i => G i j
    have ha : ∑ i ∈ range n, |(G i j).val| ≤ n * D := by
      simpa [nsmul_eq_mul] using sum_le_card_nsmul (range n) _ _ fun i hi => hg i (mem_range.1 hi) j hj
    have hb : |∑ i ∈ range n, (G i j).val| ≤ ∑ i ∈ range n, |(G i j).val| := abs_sum_le_sum_abs _ _
    have h1 := one_le_pow_u hu n
    have e1 : (seqSum n fun i => G i j).val = ((seqSum n fun i => G i j).val - ∑ i ∈ range n, (G i j).val) +
        ∑ i ∈ range n, (G i j).val := by ring
    rw [e1]
    refine (abs_add_le _ _).trans ?_
    calc _ ≤ (1 + u) ^ n * ∑ i ∈ range n, |(G i j).val| := by linarith
      _ ≤ (1 + u) ^ n * (n * D) := mul_le_mul_of_nonneg_left ha (by linarith)
      _ ≤ (1 + u) ^ (n + 1) * (n * D) :=
        mul_le_mul_of_nonneg_right (pow_le_pow_right₀ (by linarith) (by omega)) (by positivity)
      _ = _ := by
        rw [growth, ← hPdef, hD, show n + k + 6 = (n + 1) + (k + 5) by omega, pow_add]
        ring
  refine ⟨s', h1, ⟨h2, h3.trans h.xs, h4.trans h.y_s, h5.trans h.g_ls, ?_, ?_⟩, fun q hq j hj => ?_, fun j hj => ?_⟩
  · rw [h6]; simp
  · rw [h7]; simp
  · rw [wOf_of h6 hq hj]
    exact sub_growth hu hr (hW q hq j hj) (hw q hq j hj)
  · rw [bOf_of h7 hj]
    exact sub_growth hu hr (hB j hj) (hb j hj)

theorem grow_succ (hu : 0 ≤ u) {M S : ℝ} (hS : 0 ≤ S) (t : Nat) :
    (1 + u) * ((1 + u) ^ t * (M + t * S) + S) ≤ (1 + u) ^ (t + 1) * (M + (t + 1 : Nat) * S) := by
  have h1 := one_le_pow_u hu t
  have h2 : S ≤ (1 + u) ^ t * S := le_mul_of_one_le_left hS h1
  rw [pow_succ, Nat.cast_add, Nat.cast_one]
  nlinarith

/-- **C173.** `t` steps on one batch. -/
theorem C173_steps (hu : 0 ≤ u) (hu1 : u < 1) (hr : RelErr u rnd) (he : 0 ≤ e) (he1 : e < 1) (hexp : ExpErr e fexp)
    (divn : Fl rnd → Nat → Fl rnd) (junk : Nat → Fl rnd) {c : Fl rnd} {L : Nat → Nat} (hL : ∀ i < n, L i < k) {ξ M M' : ℝ}
    (hξ : ∀ i < n, ∀ q < p, |(X i q).val| ≤ ξ) (hξ0 : 0 ≤ ξ) {s₀ : Slp.State (Fl rnd)} (h : Loaded n p k c X L s₀)
    (hW : ∀ q < p, ∀ j < k, |(wOf k s₀ q j).val| ≤ M) (hB : ∀ j < k, |(bOf s₀ j).val| ≤ M') (t : Nat) :
    ∃ s, forRange t (fun _ => Slp.step fexp flog eps divn junk n p k) s₀ = .ok s ∧
      (∀ q < p, ∀ j < k, |(wOf k s q j).val| ≤ (1 + u) ^ t * (M + t * growth u e eps.val n k c.val ξ)) ∧
      ∀ j < k, |(bOf s j).val| ≤ (1 + u) ^ t * (M' + t * growth u e eps.val n k c.val 1) := by
  refine Exists.imp (fun s hs => ⟨hs.1, hs.2.2⟩) (forRange_inv (n := t) (fun t s => Loaded n p k c X L s ∧
    (∀ q < p, ∀ j < k, |(wOf k s q j).val| ≤ (1 + u) ^ t * (M + t * growth u e eps.val n k c.val ξ)) ∧
      ∀ j < k, |(bOf s j).val| ≤ (1 + u) ^ t * (M' + t * growth u e eps.val n k c.val 1)) (fun t _ s hs => ?_) ?_)
  · obtain ⟨s', h1, h2, h3, h4⟩ := C173_step (flog := flog) (eps := eps) hu hu1 hr he he1 hexp divn junk hL hξ hs.1 hs.2.1 hs.2.2
    exact ⟨s', h1, h2, fun q hq j hj => (h3 q hq j hj).trans (grow_succ hu (growth_nonneg hu hu1 he he1 _ _ _ _ hξ0) t),
      fun j hj => (h4 j hj).trans (grow_succ hu (growth_nonneg hu hu1 he he1 _ _ _ _ zero_le_one) t)⟩
  · simpa using ⟨h, hW, hB⟩

/-- **C173.** A whole training run in rounded arithmetic over any data set, one step per batch of `m` images: it does not fail, and
every parameter at the end is bounded. -/
theorem C173_train (hu : 0 ≤ u) (hu1 : u < 1) (hr : RelErr u rnd) (he : 0 ≤ e) (he1 : e < 1) (hexp : ExpErr e fexp)
    (divn : Fl rnd → Nat → Fl rnd) (junk : Nat → Fl rnd) (norm : Int → Fl rnd) (c : Fl rnd) {m : Nat} (hm : 1 ≤ m) (hk : k < 256)
    (I : Nat → Nat → Int) (label : Nat → Nat) (hl : ∀ i < n, label i < k) {ξ M M' : ℝ}
    (hξ : ∀ i < n, ∀ q < p, |(norm (I i q)).val| ≤ ξ) (hξ0 : 0 ≤ ξ) {s : Slp.State (Fl rnd)} (hs : Slp.Sized m p k s)
    (hw : s.w.length = p * k) (hb : s.b.length = k)
    (hW : ∀ q < p, ∀ j < k, |(wOf k s q j).val| ≤ M) (hB : ∀ j < k, |(bOf s j).val| ≤ M') :
    ∃ s', Slp.train fexp flog eps divn junk norm c
        ⟨(tab [n, p] (fn2 I)).data, (List.range n).map fun i => (label i : Int)⟩ n p k m s = .ok s' ∧
      (∀ q < p, ∀ j < k, |(wOf k s' q j).val| ≤ (1 + u) ^ (n / m) * (M + (n / m : Nat) * growth u e eps.val m k c.val ξ)) ∧
      ∀ j < k, |(bOf s' j).val| ≤ (1 + u) ^ (n / m) * (M' + (n / m : Nat) * growth u e eps.val m k c.val 1) := by
  unfold Slp.train
  rw [if_neg (by omega)]
  simp only [fillAll, Outcome.ok_bind]
  have hg : (s.g_ls.map fun _ => c) = (tab [m] (fn1 fun _ => c)).data := by
    refine List.ext_getElem (by simp [hs.g_ls]) fun q h1 h2 => ?_
    have hv := valid_unravel (dims := [m]) (p := q) (by simpa using h2)
    rw [List.getElem_map, tab_getElem]
    generalize unravel [m] q = idx at hv
    match idx, hv with
    | [i], _ => rfl
  refine Exists.imp (fun s' h => ⟨h.1, h.2.2.2.2.2⟩) (forRange_inv (n := n / m)
    (body := fun t s => do
      let (xs, y_s) ← Slp.loadData norm ⟨(tab [n, p] (fn2 I)).data, (List.range n).map fun i => (label i : Int)⟩ p k
        (t * m) m s.xs s.y_s
      Slp.step fexp flog eps divn junk m p k { s with xs, y_s })
    (s := { s with g_ls := s.g_ls.map fun _ => c })
    (fun t s => Slp.Sized m p k s ∧ s.g_ls = (tab [m] (fn1 fun _ => c)).data ∧ s.w.length = p * k ∧ s.b.length = k ∧
      (∀ q < p, ∀ j < k, |(wOf k s q j).val| ≤ (1 + u) ^ t * (M + t * growth u e eps.val m k c.val ξ)) ∧
      ∀ j < k, |(bOf s j).val| ≤ (1 + u) ^ t * (M' + t * growth u e eps.val m k c.val 1))
    (fun t ht s h => ?_)
    ⟨⟨hs.xs, hs.zs, hs.ys, hs.y_s, hs.ls, hs.l, by simp [hs.g_ls], hs.g_ys, hs.g_zs, hs.g_w, hs.g_b⟩, hg, hw, hb,
      by simpa [wOf] using hW, by simpa [bOf] using hB⟩)
  obtain ⟨hz, h0, h1, h2, h3, h4⟩ := h
  have hin : t * m + m ≤ n := by
    have h5 : (t + 1) * m ≤ n / m * m := Nat.mul_le_mul_right _ ht
    have h6 := Nat.div_mul_le_self n m
    rw [Nat.add_mul, Nat.one_mul] at h5
    omega
  have e1 := C99_load norm hk hin I label hz.xs hz.y_s
  obtain ⟨s', e2, a1, a2, a3⟩ := C173_step (flog := flog) (eps := eps) hu hu1 hr he he1 hexp divn junk (n := m) (p := p) (k := k) (c := c)
    (X := fun i q => norm (I (t * m + i) q)) (L := fun i => label (t * m + i)) (fun i hi => hl _ (by omega))
    (fun i hi q hq => hξ (t * m + i) (by omega) q hq)
    (s := { s with
      xs := (tab [m, p] (fn2 fun i q => norm (I (t * m + i) q))).data
      y_s := (tab [m, k] (fn2 fun i j => if label (t * m + i) = j then 1 else 0)).data })
    ⟨⟨by simp, hz.zs, hz.ys, by simp, hz.ls, hz.l, hz.g_ls, hz.g_ys, hz.g_zs, hz.g_w, hz.g_b⟩, rfl, rfl, h0, h1, h2⟩ h3 h4
  refine ⟨s', ?_, a1.sized, a1.g_ls, a1.w, a1.b,
    fun q hq j hj => (a2 q hq j hj).trans (grow_succ hu (growth_nonneg hu hu1 he he1 _ _ _ _ hξ0) t),
    fun j hj => (a3 j hj).trans (grow_succ hu (growth_nonneg hu hu1 he he1 _ _ _ _ zero_le_one) t)⟩
  rw [e1, Outcome.ok_bind]
  exact e2

/-- **C173.** So the bounds of C170 hold along a run of `N` steps without an assumption on the parameters after the first. -/
theorem C173_descent (hu : 0 ≤ u) (hu1 : u < 1) (hr : RelErr u rnd) (he : 0 ≤ e) (he1 : e < 1) (hexp : ExpErr e fexp)
    (heps : 0 ≤ eps.val) (divn : Fl rnd → Nat → Fl rnd) (junk : Nat → Fl rnd) {c : Fl rnd} {L : Nat → Nat} (hn : 1 ≤ n)
    (hL : ∀ i < n, L i < k) {ρ ξ M : ℝ} (hρ : ∀ i < n, ∑ q ∈ range p, (X i q).val ^ 2 ≤ ρ)
    (hξ : ∀ i < n, ∀ q < p, |(X i q).val| ≤ ξ) (hξ0 : 0 ≤ ξ) (hc0 : 0 < c.val) (hcn : c.val * (n * (ρ + 1)) ≤ 1)
    {s : Nat → Slp.State (Fl rnd)} (h : Loaded n p k c X L (s 0)) {N : Nat}
    (hs : ∀ t ≤ N, forRange t (fun _ => Slp.step fexp flog eps divn junk n p k) (s 0) = .ok (s t)) {T : Nat → Nat → ℝ}
    (hT : ∀ i j, T i j = if L i = j then 1 else 0) {Wt : Nat → Nat → Nat → ℝ} {Bt : Nat → Nat → ℝ}
    (hWt : ∀ t q j, Wt t q j = (wOf k (s t) q j).val) (hBt : ∀ t j, Bt t j = (bOf (s t) j).val) (hM0 : 0 ≤ M)
    (hW : ∀ q < p, ∀ j < k, |Wt 0 q j| ≤ M) (hB : ∀ j < k, |Bt 0 j| ≤ M)
    (hun : ∀ t < N, Unclipped eps.val n p k (fun i q => (X i q).val) (Wt t) (Bt t)) {loss sq : Nat → ℝ}
    (hloss : ∀ t, loss t = meanLoss eps.val n p k (fun i q => (X i q).val) T (Wt t) (Bt t))
    (hsq : ∀ t, sq t = paramDist p k (gd eps.val c.val n p k (fun i q => (X i q).val) T (Wt t) (Bt t) 1).1
      (gd eps.val c.val n p k (fun i q => (X i q).val) T (Wt t) (Bt t) 1).2 (Wt t) (Bt t)) {E : ℝ}
    (hE : E = runErr u e n p k c.val ξ ((1 + u) ^ N * (M + N * growth u e eps.val n k c.val (max ξ 1)))) :
    (∀ t < N, loss (t + 1) ≤ loss t - (sq t - E) / (2 * c.val * n)) ∧
      ∑ t ∈ range N, sq t ≤ 2 * c.val * n * (loss 0 - loss N) + N * E := by
  have hG := growth_nonneg hu hu1 he he1 eps.val n k c.val (ξ := max ξ 1) (le_max_of_le_right zero_le_one)
  have hmono : ∀ a, a ≤ max ξ 1 → growth u e eps.val n k c.val a ≤ growth u e eps.val n k c.val (max ξ 1) := fun a ha => by
    have hP := one_le_predBound hu hu1 he he1 eps.val k
    unfold growth
    gcongr
  have hbd : ∀ t < N, ∀ a, a ≤ max ξ 1 → (1 + u) ^ t * (M + t * growth u e eps.val n k c.val a) ≤
      (1 + u) ^ N * (M + N * growth u e eps.val n k c.val (max ξ 1)) := fun t ht a ha => by
    have h1 : (t : ℝ) * growth u e eps.val n k c.val a ≤ N * growth u e eps.val n k c.val (max ξ 1) :=
      (mul_le_mul_of_nonneg_left (hmono a ha) (Nat.cast_nonneg _)).trans
        (mul_le_mul_of_nonneg_right (by exact_mod_cast ht.le) hG)
    have h2 : (1 + u) ^ t ≤ (1 + u) ^ N := pow_le_pow_right₀ (by linarith) ht.le
    have h3 := one_le_pow_u hu t
    calc _ ≤ (1 + u) ^ t * (M + N * growth u e eps.val n k c.val (max ξ 1)) :=
          mul_le_mul_of_nonneg_left (by linarith) (by linarith)
      _ ≤ _ := mul_le_mul_of_nonneg_right h2 (by positivity)
  have hst : ∀ t < N, (∀ q < p, ∀ j < k, |(wOf k (s t) q j).val| ≤ (1 + u) ^ t * (M + t * growth u e eps.val n k c.val ξ)) ∧
      ∀ j < k, |(bOf (s t) j).val| ≤ (1 + u) ^ t * (M + t * growth u e eps.val n k c.val 1) := fun t ht => by
    obtain ⟨s', h1, h2⟩ := C173_steps (flog := flog) (eps := eps) hu hu1 hr he he1 hexp divn junk hL hξ hξ0 h
      (fun q hq j hj => by rw [← hWt]; exact hW q hq j hj) (fun j hj => by rw [← hBt]; exact hB j hj) t
    rw [hs t ht.le] at h1
    cases h1
    exact h2
  rw [hE]
  exact C170_descent hu hu1 hr he he1 hexp heps divn junk hn hL hρ hξ hξ0 (by positivity) hc0 hcn h hs hT hWt hBt
    (fun t ht q hq j hj => by rw [hWt]; exact ((hst t ht).1 q hq j hj).trans (hbd t ht ξ (le_max_left _ _)))
    (fun t ht j hj => by rw [hBt]; exact ((hst t ht).2 j hj).trans (hbd t ht 1 (le_max_right _ _))) hun hloss hsq

end

/-- **C173.** In exact arithmetic a step moves a weight by at most the rate times the sum of the largest inputs. -/
theorem C173_exact {eps : ℝ} (heps : eps ≤ 1) (n k : Nat) (c ξ : ℝ) : growth 0 0 eps n k c ξ = |c| * (n * ξ) := by
  simp [growth, predBound, max_eq_right heps]

/-! ## A concrete case, in 24 bit arithmetic -/

/-- Batches of one image with one pixel, the rate 1/4: a hundred steps from 0 carry no weight beyond 26. -/
example : ∃ s, forRange 100 (fun _ => Slp.step chopExp chopLog (exReal (1 / 8)) (fun s n => exReal (chop24 (s.val / n)))
      (fun _ => exReal 9) 1 1 2) exStep = .ok s ∧ ∀ j < 2, |(wOf 2 s 0 j).val| ≤ 26 := by
  obtain ⟨s, h1, h2, -⟩ := C173_steps (flog := chopLog) (eps := exReal (1 / 8)) exU exU1 chop24_err exU exU1 chopExp_err
    (fun s n => exReal (chop24 (s.val / n))) (fun _ => exReal 9) (fun _ _ => by norm_num) (ξ := 1) (M := 0) (M' := 0)
    (fun _ _ _ _ => by simp [exVal]) zero_le_one exStep_loaded
    (fun q hq j hj => by rw [wOf_of (W := fun _ _ => exReal 0) (p := 1) rfl hq hj, exVal]; simp)
    (fun j hj => by rw [bOf_of (B := fun _ => exReal 0) rfl hj, exVal]; simp) 100
  refine ⟨s, h1, fun j hj => (h2 0 (by omega) j hj).trans ?_⟩
  simp only [growth, predBound, exVal]
  rw [max_eq_right (by norm_num), abs_of_pos (by norm_num)]
  norm_num

/-- Five images with one pixel, in batches of one. -/
example := C173_train (flog := chopLog) (eps := exReal (1 / 8)) (n := 5) (k := 2) exU exU1 chop24_err exU exU1 chopExp_err
  (fun s n => exReal (chop24 (s.val / n))) (fun _ => exReal 9) (fun v => exReal (v / 255)) (exReal (1 / 4)) le_rfl (by norm_num)
  (fun i _ => 50 * i) (fun i => i % 2) (fun i _ => Nat.mod_lt _ (by norm_num)) (ξ := 1) (M := 0) (M' := 0)
  (fun i hi q _ => by
    have h : (i : ℝ) ≤ 5 := by exact_mod_cast hi.le
    have h0 : (0 : ℝ) ≤ i := Nat.cast_nonneg i
    rw [exVal, abs_le]
    push_cast
    constructor <;> linarith)
  zero_le_one exStep_sized rfl rfl
  (fun q hq j hj => by rw [wOf_of (W := fun _ _ => exReal 0) (p := 1) rfl hq hj, exVal]; simp)
  (fun j hj => by rw [bOf_of (B := fun _ => exReal 0) rfl hj, exVal]; simp)

/-- The first step of the run of the examples of C170 meets the conditions of `C173_descent`. -/
example : ∃ s : Nat → Slp.State (Fl chop24), s 0 = exStep ∧
    (∀ t, forRange t (fun _ => Slp.step chopExp chopLog (exReal (1 / 8)) (fun s n => exReal (chop24 (s.val / n)))
      (fun _ => exReal 9) 1 1 2) (s 0) = .ok (s t)) ∧ Loaded 1 1 2 (exReal (1 / 4)) (fun _ _ => exReal 1) (fun _ => 0) (s 0) := by
  obtain ⟨s, hs⟩ := C170_runs (fexp := chopExp) (flog := chopLog) (eps := exReal (1 / 8))
    (fun s n => exReal (chop24 (s.val / n))) (fun _ => exReal 9) exStep_loaded
  have h0 : s 0 = exStep := (Outcome.ok.inj (hs 0).1).symm
  exact ⟨s, h0, fun t => by rw [h0]; exact (hs t).1, by rw [h0]; exact exStep_loaded⟩

end StdNN
