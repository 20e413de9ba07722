import Verif.Spec.Bits
import Verif.Lemmas.Binary
import Mathlib.Data.Int.Interval
/-! # Lemmas about bit patterns of the binary formats -/
namespace StdNN.Spec.Format
variable (F : Format)

/-- Two to the number of bits of the trailing significand. -/
def sig : Nat := 2 ^ (F.p - 1)

theorem sig_pos : 0 < F.sig := Nat.pow_pos (by decide)

theorem sig_two : 2 ≤ F.sig := by
  have := Nat.pow_le_pow_right (n := 2) (by decide) (show 1 ≤ F.p - 1 by have := F.p1; omega)
  unfold sig; omega

theorem sig_cast : (F.sig : ℝ) = 2 ^ ((F.p : ℤ) - 1) := by
  have := F.p1
  unfold sig
  rw [show ((F.p : ℤ) - 1) = ((F.p - 1 : ℕ) : ℤ) by omega, zpow_natCast]
  push_cast; rfl

/-- The exponent of the last place of the number with the magnitude `m`. -/
def lastPlace (m : Nat) : ℤ := F.emin - (F.p - 1) + ((m / F.sig : Nat) - 1 : Nat)

/-- The whole significand of the number with the magnitude `m`. -/
def significand (m : Nat) : Nat := if m / F.sig = 0 then m else F.sig + m % F.sig

theorem ofMagnitude_eq (m : Nat) : F.ofMagnitude m = F.significand m * 2 ^ F.lastPlace m := by
  unfold ofMagnitude significand lastPlace
  change (if m / F.sig = 0 then ((m % F.sig : Nat) : ℝ) * _ else ((F.sig + m % F.sig : Nat) : ℝ) * 2 ^ (_ + (((m / F.sig : Nat) : ℤ) - 1))) = _
  split_ifs with h
  · rw [Nat.mod_eq_of_lt ((Nat.div_eq_zero_iff_lt F.sig_pos).1 h), h]
    simp
  · have : 1 ≤ m / F.sig := Nat.one_le_iff_ne_zero.2 h
    congr 3
    rw [Nat.cast_sub this]; rfl

/-- One step up is one unit in the last place. -/
theorem ofMagnitude_succ (m : Nat) : F.ofMagnitude (m + 1) = F.ofMagnitude m + 2 ^ F.lastPlace m := by
  have s := F.sig_pos
  have dm := Nat.div_add_mod m F.sig
  have ml := Nat.mod_lt m s
  rw [ofMagnitude_eq, ofMagnitude_eq]
  rcases Nat.lt_or_ge (m % F.sig + 1) F.sig with c | c
  · have q : (m + 1) / F.sig = m / F.sig := by
      rw [← dm, Nat.add_assoc, Nat.mul_add_div s, Nat.mul_add_div s, Nat.div_eq_of_lt c, Nat.div_eq_of_lt ml]
    have r : (m + 1) % F.sig = m % F.sig + 1 := by
      conv_lhs => rw [← dm]
      rw [Nat.add_assoc, Nat.mul_add_mod, Nat.mod_eq_of_lt c]
    have l : F.lastPlace (m + 1) = F.lastPlace m := by unfold lastPlace; rw [q]
    have g : F.significand (m + 1) = F.significand m + 1 := by
      unfold significand; rw [q, r]; split_ifs <;> omega
    rw [l, g]; push_cast; ring
  · have q : (m + 1) / F.sig = m / F.sig + 1 := by
      have : m + 1 = F.sig * (m / F.sig + 1) := by rw [Nat.mul_add]; omega
      rw [this, Nat.mul_div_cancel_left _ s]
    have r : (m + 1) % F.sig = 0 := by
      have : m + 1 = F.sig * (m / F.sig + 1) := by rw [Nat.mul_add]; omega
      rw [this, Nat.mul_mod_right]
    have g : F.significand (m + 1) = F.sig := by
      unfold significand; rw [q, r]; simp
    by_cases h : m / F.sig = 0
    · have l : F.lastPlace (m + 1) = F.lastPlace m := by unfold lastPlace; rw [q, h]
      have g' : F.significand m + 1 = F.sig := by
        unfold significand; rw [if_pos h]
        rw [h] at dm; omega
      rw [l, g, ← g']; push_cast; ring
    · have l : F.lastPlace (m + 1) = F.lastPlace m + 1 := by
        have : 1 ≤ m / F.sig := Nat.one_le_iff_ne_zero.2 h
        unfold lastPlace; rw [q, Nat.add_sub_cancel, Nat.cast_sub this]; push_cast; ring
      have g' : F.significand m + 1 = 2 * F.sig := by
        unfold significand; rw [if_neg h]; omega
      have g'' : (F.significand m : ℝ) = 2 * F.sig - 1 := by
        have : ((F.significand m + 1 : Nat) : ℝ) = (2 * F.sig : Nat) := by rw [g']
        push_cast at this; linarith
      rw [l, g, g'', zpow_add_one₀ (by norm_num)]; ring

theorem ofMagnitude_strictMono : StrictMono F.ofMagnitude :=
  strictMono_nat_of_lt_succ fun m => by rw [ofMagnitude_succ]; linarith [two_pos (F.lastPlace m)]

theorem ofMagnitude_zero : F.ofMagnitude 0 = 0 := by
  rw [ofMagnitude_eq]; unfold significand; simp

theorem ofMagnitude_nonneg (m : Nat) : 0 ≤ F.ofMagnitude m := by
  rw [← ofMagnitude_zero F]; exact F.ofMagnitude_strictMono.monotone (Nat.zero_le m)

theorem significand_lt (m : Nat) : F.significand m < 2 * F.sig := by
  have s := F.sig_pos
  have ml := Nat.mod_lt m s
  unfold significand
  split_ifs with h
  · have := (Nat.div_eq_zero_iff_lt s).1 h; omega
  · omega

theorem two_sig : (2 * F.sig : Nat) = 2 ^ F.p := by
  have := F.p1
  unfold sig
  rw [← pow_succ']
  congr 1; omega

theorem ofMagnitude_mem (m : Nat) : F.Mem (F.ofMagnitude m) := by
  refine ⟨F.significand m, F.lastPlace m, ?_, ?_, ?_⟩
  · rw [abs_of_nonneg (by positivity)]
    have := F.significand_lt m
    rw [two_sig] at this
    exact_mod_cast this
  · unfold lastPlace; omega
  · rw [ofMagnitude_eq]; push_cast; rfl

theorem ofMagnitude_infinity : F.ofMagnitude F.infinity = F.limit := by
  have s := F.sig_pos
  have h0 := F.min0
  have h1 := F.max0
  have e : F.infinity = (F.emax - F.emin + 2).toNat * F.sig := rfl
  have q : F.infinity / F.sig = (F.emax - F.emin + 2).toNat := by rw [e, Nat.mul_div_cancel _ s]
  have r : F.infinity % F.sig = 0 := by rw [e, Nat.mul_mod_left]
  rw [ofMagnitude_eq]
  have g : F.significand F.infinity = F.sig := by
    unfold significand; rw [q, r, if_neg (by omega)]; rfl
  have l : F.lastPlace F.infinity = F.emax + 1 - (F.p - 1) := by
    unfold lastPlace; rw [q]; omega
  rw [g, l, sig_cast, ← zpow_add₀ (by norm_num)]
  unfold limit; congr 1; ring

theorem ofMagnitude_lt_limit {m : Nat} : F.ofMagnitude m < F.limit ↔ m < F.infinity := by
  rw [← ofMagnitude_infinity, F.ofMagnitude_strictMono.lt_iff_lt]

/-- Every number of the format that is not negative has a magnitude. -/
theorem exists_magnitude {f : ℝ} (hf : F.Mem f) (h0 : 0 ≤ f) : ∃ m, F.ofMagnitude m = f := by
  have p1 := F.p1
  have s := F.sig_pos
  rcases h0.eq_or_lt with rfl | h0
  · exact ⟨0, F.ofMagnitude_zero⟩
  have la : (2 : ℝ) ^ Int.log 2 f ≤ f := by exact_mod_cast Int.zpow_log_le_self (by norm_num) h0
  have lb : f < (2 : ℝ) ^ (Int.log 2 f + 1) := by exact_mod_cast Int.lt_zpow_succ_log_self (b := 2) (by norm_num) f
  have ab : |f| = f := abs_of_pos h0
  obtain ⟨z, hz⟩ : ∃ z : ℤ, f = z * 2 ^ F.place f := by
    rcases F.mem_place hf f with c | ⟨-, c⟩
    · exact c
    · rw [ab] at c; linarith
  have q := two_pos (F.place f)
  have zp : 0 < z := by
    have : (0 : ℝ) < z := by
      rcases lt_or_ge 0 (z : ℝ) with c | c
      · exact c
      · nlinarith
    exact_mod_cast this
  obtain ⟨k, rfl⟩ := Int.eq_ofNat_of_zero_le zp.le
  rw [Int.cast_natCast] at hz
  rcases lt_or_ge (Int.log 2 f) F.emin with c | c
  · have pl : F.place f = F.emin - (F.p - 1) := by unfold place; rw [ab]; omega
    have kl : k < F.sig := by
      have : (k : ℝ) < F.sig := by
        rw [sig_cast]
        have : f < 2 ^ F.emin := lb.trans_le (two_le (by omega))
        rw [hz, pl] at this
        rw [pl] at q
        rw [show ((2 : ℝ) ^ F.emin) = 2 ^ ((F.p : ℤ) - 1) * 2 ^ (F.emin - ((F.p : ℤ) - 1)) by
          rw [← zpow_add₀ (by norm_num)]; congr 1; ring] at this
        exact lt_of_mul_lt_mul_right this q.le
      exact_mod_cast this
    refine ⟨k, ?_⟩
    have d : k / F.sig = 0 := Nat.div_eq_of_lt kl
    rw [ofMagnitude_eq, hz, pl]
    unfold significand lastPlace
    rw [if_pos d, d]; simp
  · have pl : F.place f = Int.log 2 f - (F.p - 1) := by unfold place; rw [ab]; omega
    have k1 : F.sig ≤ k := by
      have : (F.sig : ℝ) ≤ k := by
        rw [sig_cast]
        rw [hz, show ((2 : ℝ) ^ Int.log 2 (k * 2 ^ F.place f : ℝ)) = 2 ^ ((F.p : ℤ) - 1) * 2 ^ F.place f by
          rw [← hz, ← zpow_add₀ (by norm_num), pl]; congr 1; ring] at la
        exact le_of_mul_le_mul_right la q
      exact_mod_cast this
    have k2 : k < 2 * F.sig := by
      have : (k : ℝ) < 2 * F.sig := by
        rw [sig_cast]
        rw [hz, show ((2 : ℝ) ^ (Int.log 2 (k * 2 ^ F.place f : ℝ) + 1)) = 2 * 2 ^ ((F.p : ℤ) - 1) * 2 ^ F.place f by
          rw [← hz, mul_assoc, ← zpow_add₀ (by norm_num), pl, ← zpow_one_add₀ (by norm_num)]; congr 1; ring] at lb
        exact lt_of_mul_lt_mul_right lb q.le
      exact_mod_cast this
    obtain ⟨d, hd⟩ := Int.eq_ofNat_of_zero_le (show 0 ≤ Int.log 2 f - F.emin by omega)
    have hd : Int.log 2 f = F.emin + (d : ℤ) := by have : Int.ofNat d = (d : ℤ) := rfl; omega
    refine ⟨F.sig * (d + 1) + (k - F.sig), ?_⟩
    have kk : k - F.sig < F.sig := by omega
    have qq : (F.sig * (d + 1) + (k - F.sig)) / F.sig = d + 1 := by
      rw [Nat.mul_add_div s, Nat.div_eq_of_lt kk]
    have rr : (F.sig * (d + 1) + (k - F.sig)) % F.sig = k - F.sig := by
      rw [Nat.mul_add_mod, Nat.mod_eq_of_lt kk]
    rw [ofMagnitude_eq, hz, pl]
    unfold significand lastPlace
    rw [qq, rr, if_neg (by omega), hd, show F.sig + (k - F.sig) = k by omega]
    congr 2
    push_cast [Nat.add_sub_cancel]
    ring

/-! ## Positions -/

open Classical in
/-- The value at the position `k`: positions are the integers from minus to plus `infinity`, in the order of the values. -/
noncomputable def pos (k : ℤ) : EReal :=
  if k = F.infinity then ⊤ else if k = -F.infinity then ⊥
  else ((if 0 ≤ k then F.ofMagnitude k.toNat else -F.ofMagnitude (-k).toNat : ℝ) : EReal)

theorem infinity_pos : 0 < F.infinity := by
  have h0 := F.min0
  have h1 := F.max0
  unfold infinity
  exact Nat.mul_pos (by omega) F.sig_pos

theorem signed_strictMono : StrictMono fun k : ℤ => (if 0 ≤ k then F.ofMagnitude k.toNat else -F.ofMagnitude (-k).toNat : ℝ) := by
  intro a b h
  have m := F.ofMagnitude_strictMono
  dsimp only
  split_ifs with c d d
  · exact m (by omega)
  · omega
  · have : F.ofMagnitude 0 < F.ofMagnitude (-a).toNat := m (by omega)
    rw [ofMagnitude_zero] at this
    linarith [F.ofMagnitude_nonneg b.toNat]
  · exact neg_lt_neg (m (by omega))

theorem pos_strictMonoOn : StrictMonoOn F.pos (Set.Icc (-(F.infinity : ℤ)) F.infinity) := by
  intro a ha b hb h
  have i := F.infinity_pos
  unfold pos
  have a1 : a ≠ F.infinity := by have := hb.2; omega
  have b1 : b ≠ -F.infinity := by have := ha.1; omega
  rw [if_neg a1, if_neg b1]
  split_ifs with c d d
  all_goals first
    | exact bot_lt_top
    | exact EReal.coe_lt_top _
    | exact EReal.bot_lt_coe _
    | skip
  all_goals
    have := F.signed_strictMono h
    simp only [*, if_true, if_false] at this
    exact EReal.coe_lt_coe_iff.2 this

theorem pos_value {k : ℤ} (h : k ∈ Set.Icc (-(F.infinity : ℤ)) F.infinity) : F.Value (F.pos k) := by
  unfold pos
  by_cases a : k = F.infinity
  · exact .inl (if_pos a)
  rw [if_neg a]
  by_cases b : k = -F.infinity
  · exact .inr (.inl (if_pos b))
  rw [if_neg b]
  refine .inr (.inr ⟨_, rfl, ?_⟩)
  have h1 := h.1
  have h2 := h.2
  split_ifs with c
  · refine ⟨F.ofMagnitude_mem _, ?_⟩
    rw [abs_of_nonneg (F.ofMagnitude_nonneg _), ofMagnitude_lt_limit]; omega
  · constructor
    · obtain ⟨z, e, x, y, w⟩ := F.ofMagnitude_mem (-k).toNat
      exact ⟨-z, e, by rwa [abs_neg], y, by rw [w]; push_cast; ring⟩
    · rw [abs_neg, abs_of_nonneg (F.ofMagnitude_nonneg _), ofMagnitude_lt_limit]; omega

theorem exists_pos {x : EReal} (h : F.Value x) : ∃ k ∈ Set.Icc (-(F.infinity : ℤ)) F.infinity, F.pos k = x := by
  have i := F.infinity_pos
  rcases h with rfl | rfl | ⟨r, rfl, hm, hl⟩
  · exact ⟨F.infinity, ⟨by omega, le_rfl⟩, if_pos rfl⟩
  · exact ⟨-F.infinity, ⟨le_rfl, by omega⟩, by unfold pos; rw [if_neg (by omega), if_pos rfl]⟩
  · rcases le_or_gt 0 r with c | c
    · obtain ⟨m, rfl⟩ := F.exists_magnitude hm c
      rw [abs_of_nonneg c, ofMagnitude_lt_limit] at hl
      refine ⟨m, ⟨by omega, by omega⟩, ?_⟩
      unfold pos
      rw [if_neg (by omega), if_neg (by omega), if_pos (by omega)]; simp
    · have hm' : F.Mem (-r) := by
        obtain ⟨z, e, x, y, w⟩ := hm
        exact ⟨-z, e, by rwa [abs_neg], y, by rw [w]; push_cast; ring⟩
      obtain ⟨m, hm2⟩ := F.exists_magnitude hm' (by linarith)
      rw [abs_of_neg c, ← hm2, ofMagnitude_lt_limit] at hl
      have mp : m ≠ 0 := by
        rintro rfl
        rw [ofMagnitude_zero] at hm2; linarith
      refine ⟨-m, ⟨by omega, by omega⟩, ?_⟩
      unfold pos
      rw [if_neg (by omega), if_neg (by omega), if_neg (by omega)]
      simp [hm2]

/-- The values passed on the way are the positions between. -/
theorem steps_pos {a b : ℤ} (ha : a ∈ Set.Icc (-(F.infinity : ℤ)) F.infinity)
    (hb : b ∈ Set.Icc (-(F.infinity : ℤ)) F.infinity) : F.steps (F.pos a) (F.pos b) = (a - b).natAbs := by
  have mono := F.pos_strictMonoOn
  have key : ∀ {a b : ℤ}, a ∈ Set.Icc (-(F.infinity : ℤ)) F.infinity → b ∈ Set.Icc (-(F.infinity : ℤ)) F.infinity → a ≤ b →
      Set.ncard {z | F.Value z ∧ F.pos a < z ∧ z ≤ F.pos b} = (a - b).natAbs := by
    intro a b ha hb h
    have e : {z | F.Value z ∧ F.pos a < z ∧ z ≤ F.pos b} = F.pos '' Set.Ioc a b := by
      ext z
      constructor
      · rintro ⟨v, l, u⟩
        obtain ⟨k, hk, rfl⟩ := F.exists_pos v
        exact ⟨k, ⟨(mono.lt_iff_lt ha hk).1 l, (mono.le_iff_le hk hb).1 u⟩, rfl⟩
      · rintro ⟨k, ⟨l, u⟩, rfl⟩
        have hk : k ∈ Set.Icc (-(F.infinity : ℤ)) F.infinity := ⟨ha.1.trans l.le, u.trans hb.2⟩
        exact ⟨F.pos_value hk, mono ha hk l, (mono.le_iff_le hk hb).2 u⟩
    rw [e, Set.InjOn.ncard_image (mono.injOn.mono (show Set.Ioc a b ⊆ Set.Icc (-(F.infinity : ℤ)) F.infinity from fun k hk => ⟨ha.1.trans hk.1.le, hk.2.trans hb.2⟩)),
      ← Finset.coe_Ioc, Set.ncard_coe_finset, Int.card_Ioc]
    omega
  unfold steps
  rcases le_total a b with c | c
  · have := (mono.le_iff_le ha hb).2 c
    rw [min_eq_left this, max_eq_right this]
    exact key ha hb c
  · have := (mono.le_iff_le hb ha).2 c
    rw [min_eq_right this, max_eq_left this, key hb ha c]
    omega

/-! ## Distances -/

/-- One unit in the last place is small next to the number, or the least positive number. -/
theorem ulp_le (m : Nat) : (2 : ℝ) ^ F.lastPlace m ≤ max (F.ofMagnitude m / F.sig) (2 ^ (F.emin - (F.p - 1))) := by
  by_cases h : m / F.sig = 0
  · refine le_max_of_le_right (le_of_eq ?_)
    unfold lastPlace; rw [h]; simp
  · refine le_max_of_le_left ?_
    have s : (0 : ℝ) < F.sig := by exact_mod_cast F.sig_pos
    rw [le_div_iff₀ s, ofMagnitude_eq, mul_comm]
    refine mul_le_mul_of_nonneg_right ?_ (two_pos _).le
    have : F.sig ≤ F.significand m := by unfold significand; rw [if_neg h]; omega
    exact_mod_cast this

/-- Positions that are near have values that are near. -/
theorem magnitude_close {i j : Nat} (h : i ≤ j) {B : ℝ} (hB : F.ofMagnitude j ≤ B) :
    F.ofMagnitude j - F.ofMagnitude i ≤ (j - i : Nat) * max (B / F.sig) (2 ^ (F.emin - (F.p - 1))) := by
  induction j, h using Nat.le_induction with
  | base => simp
  | succ j h ih =>
    have up := F.ofMagnitude_succ j
    have q := two_pos (F.lastPlace j)
    have := ih (by linarith)
    have u := F.ulp_le j
    have s : (0 : ℝ) < F.sig := by exact_mod_cast F.sig_pos
    have u' : (2 : ℝ) ^ F.lastPlace j ≤ max (B / F.sig) (2 ^ (F.emin - (F.p - 1))) :=
      u.trans (max_le_max (div_le_div_of_nonneg_right (by linarith) s.le) le_rfl)
    rw [show j + 1 - i = (j - i) + 1 by omega]
    push_cast
    linarith

theorem lastPlace_mono {i j : Nat} (h : i ≤ j) : F.lastPlace i ≤ F.lastPlace j := by
  have := Nat.div_le_div_right (c := F.sig) h
  unfold lastPlace; omega

/-- Going `n` positions up moves at least `n` of the units at the start. -/
theorem magnitude_far (i n : Nat) : F.ofMagnitude i + n * 2 ^ F.lastPlace i ≤ F.ofMagnitude (i + n) := by
  induction n with
  | zero => simp
  | succ n ih =>
    have up := F.ofMagnitude_succ (i + n)
    have := two_le (F.lastPlace_mono (show i ≤ i + n by omega))
    rw [← Nat.add_assoc, up]
    push_cast
    linarith

/-- A number is less than `2 * sig` units in its last place. -/
theorem lt_ulp (m : Nat) : F.ofMagnitude m < 2 * F.sig * 2 ^ F.lastPlace m := by
  rw [ofMagnitude_eq]
  refine mul_lt_mul_of_pos_right ?_ (two_pos _)
  exact_mod_cast F.significand_lt m

/-- The unit in the last place at most doubles over less than `sig` positions. -/
theorem lastPlace_add {i n : Nat} (h : n ≤ F.sig) : F.lastPlace (i + n) ≤ F.lastPlace i + 1 := by
  have : (i + n) / F.sig ≤ i / F.sig + 1 := by
    rw [← Nat.add_div_right _ F.sig_pos]
    exact Nat.div_le_div_right (by omega)
  unfold lastPlace; omega

/-- Positions that are far have values that are far. -/
theorem magnitude_apart {i n j : Nat} (h : i + n ≤ j) (hn : n ≤ F.sig) (n0 : 0 < n) :
    n * F.ofMagnitude j < 4 * F.sig * (F.ofMagnitude j - F.ofMagnitude i) := by
  obtain ⟨i', rfl, hi⟩ : ∃ i', j = i' + n ∧ i ≤ i' := ⟨j - n, by omega, by omega⟩
  have far := F.magnitude_far i' n
  have le := F.ofMagnitude_strictMono.monotone hi
  have lt := F.lt_ulp (i' + n)
  have pl := two_le (F.lastPlace_add (i := i') hn)
  rw [zpow_add_one₀ (by norm_num)] at pl
  have s : (0 : ℝ) < F.sig := by exact_mod_cast F.sig_pos
  have n0' : (0 : ℝ) < n := by exact_mod_cast n0
  have a : F.ofMagnitude (i' + n) < 4 * F.sig * 2 ^ F.lastPlace i' := by nlinarith
  have b : n * F.ofMagnitude (i' + n) < n * (4 * F.sig * 2 ^ F.lastPlace i') := mul_lt_mul_of_pos_left a n0'
  have c : 4 * F.sig * (n * 2 ^ F.lastPlace i') ≤ 4 * F.sig * (F.ofMagnitude (i' + n) - F.ofMagnitude i) :=
    mul_le_mul_of_nonneg_left (by linarith) (by positivity)
  linarith

theorem pos_real {k : ℤ} {x : ℝ} (h : F.pos k = x) :
    x = if 0 ≤ k then F.ofMagnitude k.toNat else -F.ofMagnitude (-k).toNat := by
  unfold pos at h
  by_cases a : k = F.infinity
  · rw [if_pos a] at h; exact absurd h.symm (EReal.coe_ne_top _)
  by_cases b : k = -F.infinity
  · rw [if_neg a, if_pos b] at h; exact absurd h.symm (EReal.coe_ne_bot _)
  rw [if_neg a, if_neg b] at h
  exact (EReal.coe_injective h).symm

/-- Few steps, near values. -/
theorem signed_close {k l : ℤ} {x y : ℝ} (hk : F.pos k = x) (hl : F.pos l = y) :
    |x - y| ≤ (k - l).natAbs * max (max |x| |y| / F.sig) (2 ^ (F.emin - (F.p - 1))) := by
  have hx := F.pos_real hk
  have hy := F.pos_real hl
  have bx : |x| ≤ max |x| |y| := le_max_left _ _
  have by' : |y| ≤ max |x| |y| := le_max_right _ _
  generalize max |x| |y| = B at bx by' ⊢
  have nn := F.ofMagnitude_nonneg
  have key : ∀ {i j : Nat}, F.ofMagnitude i ≤ B → F.ofMagnitude j ≤ B →
      |F.ofMagnitude i - F.ofMagnitude j| ≤ ((i : ℤ) - j).natAbs * max (B / F.sig) (2 ^ (F.emin - (F.p - 1))) := by
    intro i j hi hj
    rcases le_total i j with c | c
    · have := F.magnitude_close c hj
      rw [abs_sub_comm, abs_of_nonneg (sub_nonneg.2 (F.ofMagnitude_strictMono.monotone c)),
        show ((i : ℤ) - j).natAbs = j - i by omega]
      exact this
    · have := F.magnitude_close c hi
      rw [abs_of_nonneg (sub_nonneg.2 (F.ofMagnitude_strictMono.monotone c)),
        show ((i : ℤ) - j).natAbs = i - j by omega]
      exact this
  have zero := F.ofMagnitude_zero
  have mix : ∀ {i j : Nat}, F.ofMagnitude i ≤ B → F.ofMagnitude j ≤ B →
      F.ofMagnitude i + F.ofMagnitude j ≤ (i + j : Nat) * max (B / F.sig) (2 ^ (F.emin - (F.p - 1))) := by
    intro i j hi hj
    have a := F.magnitude_close (Nat.zero_le i) hi
    have b := F.magnitude_close (Nat.zero_le j) hj
    rw [zero, Nat.sub_zero, sub_zero] at a b
    push_cast
    linarith
  split_ifs at hx hy with c d d
  · rw [hx, abs_of_nonneg (nn _)] at bx
    rw [hy, abs_of_nonneg (nn _)] at by'
    rw [hx, hy]
    refine (key bx by').trans (le_of_eq ?_)
    congr 3; omega
  · rw [hx, abs_of_nonneg (nn _)] at bx
    rw [hy, abs_neg, abs_of_nonneg (nn _)] at by'
    rw [hx, hy, sub_neg_eq_add, abs_of_nonneg (add_nonneg (nn _) (nn _))]
    refine (mix bx by').trans (le_of_eq ?_)
    congr 2; omega
  · rw [hx, abs_neg, abs_of_nonneg (nn _)] at bx
    rw [hy, abs_of_nonneg (nn _)] at by'
    rw [hx, hy, ← neg_add', abs_neg, abs_of_nonneg (add_nonneg (nn _) (nn _))]
    refine (mix bx by').trans (le_of_eq ?_)
    congr 2; omega
  · rw [hx, abs_neg, abs_of_nonneg (nn _)] at bx
    rw [hy, abs_neg, abs_of_nonneg (nn _)] at by'
    rw [hx, hy, neg_sub_neg, abs_sub_comm]
    refine (key bx by').trans (le_of_eq ?_)
    congr 2; omega

/-- Near values, few steps: `n` or more steps move by more than `n / (4 sig)` of the greater number. -/
theorem signed_apart {k l : ℤ} {x y : ℝ} (hk : F.pos k = x) (hl : F.pos l = y) {n : Nat} (n0 : 0 < n) (hn : n ≤ F.sig)
    (h : n ≤ (k - l).natAbs) : n * max |x| |y| < 4 * F.sig * |x - y| := by
  have hx := F.pos_real hk
  have hy := F.pos_real hl
  have nn := F.ofMagnitude_nonneg
  have s : (0 : ℝ) < F.sig := by exact_mod_cast F.sig_pos
  have hn' : (n : ℝ) ≤ F.sig := by exact_mod_cast hn
  have key : ∀ {i j : Nat}, n ≤ ((i : ℤ) - j).natAbs →
      n * max (F.ofMagnitude i) (F.ofMagnitude j) < 4 * F.sig * |F.ofMagnitude i - F.ofMagnitude j| := by
    intro i j hij
    rcases le_total i j with c | c
    · have m := F.ofMagnitude_strictMono.monotone c
      have := F.magnitude_apart (show i + n ≤ j by omega) hn n0
      rw [max_eq_right m, abs_sub_comm, abs_of_nonneg (sub_nonneg.2 m)]
      exact this
    · have m := F.ofMagnitude_strictMono.monotone c
      have := F.magnitude_apart (show j + n ≤ i by omega) hn n0
      rw [max_eq_left m, abs_of_nonneg (sub_nonneg.2 m)]
      exact this
  have mix : ∀ {i j : Nat}, 0 < i + j →
      n * max (F.ofMagnitude i) (F.ofMagnitude j) < 4 * F.sig * (F.ofMagnitude i + F.ofMagnitude j) := by
    intro i j hij
    have p : 0 < F.ofMagnitude i + F.ofMagnitude j := by
      have z : ∀ {i : Nat}, 0 < i → 0 < F.ofMagnitude i := fun h => by
        have := F.ofMagnitude_strictMono h
        rwa [ofMagnitude_zero] at this
      rcases Nat.eq_zero_or_pos i with rfl | c
      · have := z (show 0 < j by omega); linarith [nn 0]
      · have := z c; linarith [nn j]
    have m : max (F.ofMagnitude i) (F.ofMagnitude j) ≤ F.ofMagnitude i + F.ofMagnitude j :=
      max_le (by linarith [nn j]) (by linarith [nn i])
    have m0 : 0 ≤ max (F.ofMagnitude i) (F.ofMagnitude j) := le_max_of_le_left (nn i)
    nlinarith
  split_ifs at hx hy with c d d
  · rw [hx, hy, abs_of_nonneg (nn _), abs_of_nonneg (nn _)]
    exact key (by omega)
  · rw [hx, hy, abs_neg, abs_of_nonneg (nn _), abs_of_nonneg (nn _), sub_neg_eq_add, abs_of_nonneg (add_nonneg (nn _) (nn _))]
    exact mix (by omega)
  · rw [hx, hy, abs_neg, abs_of_nonneg (nn _), abs_of_nonneg (nn _), ← neg_add', abs_neg, abs_of_nonneg (add_nonneg (nn _) (nn _))]
    exact mix (by omega)
  · rw [hx, hy, abs_neg, abs_neg, abs_of_nonneg (nn _), abs_of_nonneg (nn _), neg_sub_neg, abs_sub_comm]
    exact key (by omega)

theorem mem_neg {f : ℝ} (h : F.Mem f) : F.Mem (-f) := by
  obtain ⟨z, e, x, y, w⟩ := h
  exact ⟨-z, e, by rwa [abs_neg], y, by rw [w]; push_cast; ring⟩

/-- Different numbers of the format are apart. -/
theorem mem_apart {f g : ℝ} (hf : F.Mem f) (hg : F.Mem g) (h : f ≠ g) : |f| ≤ 2 * F.sig * |f - g| := by
  have s : (2 : ℝ) ≤ F.sig := by exact_mod_cast F.sig_two
  have key : ∀ {f g : ℝ}, F.Mem f → F.Mem g → f ≠ g → 0 ≤ f → f ≤ 2 * F.sig * |f - g| := by
    intro f g hf hg h f0
    rcases lt_or_ge g 0 with c | c
    · rw [abs_of_nonneg (by linarith)]; nlinarith
    obtain ⟨j, rfl⟩ := F.exists_magnitude hf f0
    obtain ⟨i, rfl⟩ := F.exists_magnitude hg c
    have mono := F.ofMagnitude_strictMono
    rcases lt_trichotomy i j with d | rfl | d
    · obtain ⟨n, rfl⟩ : ∃ n, j = n + 1 := ⟨j - 1, by omega⟩
      have le := mono.monotone (show i ≤ n by omega)
      have up := F.ofMagnitude_succ n
      have q := two_pos (F.lastPlace n)
      have b : F.ofMagnitude (n + 1) ≤ 2 * F.sig * 2 ^ F.lastPlace n := by
        rw [up, ofMagnitude_eq, ← add_one_mul]
        refine mul_le_mul_of_nonneg_right ?_ q.le
        exact_mod_cast F.significand_lt n
      rw [abs_of_nonneg (by linarith)]
      refine b.trans (mul_le_mul_of_nonneg_left (by linarith) (by positivity))
    · exact absurd rfl h
    · have le := mono.monotone (show j + 1 ≤ i by omega)
      have up := F.ofMagnitude_succ j
      have q := two_pos (F.lastPlace j)
      rw [abs_sub_comm, abs_of_nonneg (by linarith)]
      exact (F.lt_ulp j).le.trans (mul_le_mul_of_nonneg_left (by linarith) (by positivity))
  rcases le_total 0 f with c | c
  · rw [abs_of_nonneg c]; exact key hf hg h c
  · rw [abs_of_nonpos c, show f - g = -(-f - -g) by ring, abs_neg]
    exact key (F.mem_neg hf) (F.mem_neg hg) (fun e => h (neg_injective e)) (by linarith)

/-- Rounding gives a value of the format. -/
theorem round_value (x : EReal) : F.Value (F.round x) := by
  unfold round
  split_ifs with a b c d
  · exact .inl rfl
  · exact .inr (.inl rfl)
  · exact .inl rfl
  · exact .inr (.inl rfl)
  · exact .inr (.inr ⟨_, rfl, F.mem_nearest _, abs_lt.2 ⟨by linarith, by linarith⟩⟩)

/-- Rounding keeps the values of the format. -/
theorem value_round {x : EReal} (h : F.Value x) : F.round x = x := by
  rcases h with rfl | rfl | ⟨r, rfl, m, l⟩
  · unfold round; simp
  · unfold round; simp
  · rw [F.round_real (by rwa [F.nearest_mem m]), F.nearest_mem m]

/-! ## Patterns -/

/-- The position of a pattern. -/
def position {w : Nat} (b : BitVec w) : ℤ :=
  if 2 ^ (w - 1) ≤ b.toNat then -((b.toNat % 2 ^ (w - 1) : Nat) : ℤ) else ((b.toNat % 2 ^ (w - 1) : Nat) : ℤ)

theorem pos_neg (k : ℤ) : F.pos (-k) = -F.pos k := by
  have i := F.infinity_pos
  unfold pos
  by_cases a : k = F.infinity
  · rw [if_neg (by omega), if_pos (by omega), if_pos a]; rfl
  by_cases b : k = -F.infinity
  · rw [if_pos (by omega), if_neg a, if_pos b]; rfl
  rw [if_neg (by omega), if_neg (by omega), if_neg a, if_neg b, ← EReal.coe_neg]
  congr 1
  rcases lt_trichotomy k 0 with c | rfl | c
  · rw [if_pos (by omega), if_neg (by omega), neg_neg]
  · simp [ofMagnitude_zero]
  · rw [if_neg (by omega), if_pos (by omega), neg_neg]

theorem pos_nat {m : Nat} : F.pos m = if m = F.infinity then ⊤ else ((F.ofMagnitude m : ℝ) : EReal) := by
  have i := F.infinity_pos
  unfold pos
  by_cases a : m = F.infinity
  · rw [if_pos (by omega), if_pos a]
  · rw [if_neg (by omega), if_neg (by omega), if_pos (by omega), if_neg a]; rfl

/-- Patterns that are not NaN stand for the value at their position. -/
theorem decode_eq {w : Nat} (b : BitVec w) :
    F.decode b = if F.infinity < b.toNat % 2 ^ (w - 1) then none else some (F.pos (position b)) := by
  unfold decode position
  dsimp only
  split_ifs with a c d d
  · rfl
  all_goals
    refine congrArg some ?_
    first
    | rw [pos_neg, pos_nat]
    | rw [pos_nat]
    simp [*]

theorem position_range {w : Nat} {b : BitVec w} (h : ¬ F.infinity < b.toNat % 2 ^ (w - 1)) :
    position b ∈ Set.Icc (-(F.infinity : ℤ)) F.infinity := by
  unfold position
  constructor <;> split_ifs <;> omega

/-- Every value has a pattern. -/
theorem exists_pattern {w : Nat} (hw : F.infinity < 2 ^ (w - 1)) {x : EReal} (h : F.Value x) :
    ∃ b : BitVec w, F.decode b = some x := by
  obtain ⟨k, ⟨k1, k2⟩, rfl⟩ := F.exists_pos h
  have w1 : 2 ^ w = 2 * 2 ^ (w - 1) := by
    have i := F.infinity_pos
    have : w ≠ 0 := by rintro rfl; simp at hw; omega
    rw [← pow_succ']; congr 1; omega
  rcases le_or_gt 0 k with c | c
  · refine ⟨BitVec.ofNat w k.toNat, ?_⟩
    have t : (BitVec.ofNat w k.toNat).toNat = k.toNat := by
      rw [BitVec.toNat_ofNat, Nat.mod_eq_of_lt]; omega
    have m : k.toNat % 2 ^ (w - 1) = k.toNat := Nat.mod_eq_of_lt (by omega)
    rw [decode_eq, t, m, if_neg (by omega)]
    refine congrArg some (congrArg _ ?_)
    unfold position
    rw [t, m, if_neg (by omega)]; omega
  · refine ⟨BitVec.ofNat w (2 ^ (w - 1) + (-k).toNat), ?_⟩
    have t : (BitVec.ofNat w (2 ^ (w - 1) + (-k).toNat)).toNat = 2 ^ (w - 1) + (-k).toNat := by
      rw [BitVec.toNat_ofNat, Nat.mod_eq_of_lt]; omega
    have m : (2 ^ (w - 1) + (-k).toNat) % 2 ^ (w - 1) = (-k).toNat := by
      rw [Nat.add_mod_left]; exact Nat.mod_eq_of_lt (by omega)
    rw [decode_eq, t, m, if_neg (by omega)]
    refine congrArg some (congrArg _ ?_)
    unfold position
    rw [t, m, if_pos (by omega)]; omega

end StdNN.Spec.Format
