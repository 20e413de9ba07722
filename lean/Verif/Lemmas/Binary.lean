import Mathlib.Tactic.Linarith
import Mathlib.Tactic.Ring
import Mathlib.Tactic.Positivity
import Mathlib.Tactic.NormNum
import Mathlib.Tactic.FieldSimp
import Verif.Spec.Binary
/-!
# Rounding in the binary formats is correct and monotone
-/
namespace StdNN.Spec

theorem roundEven_cases (x : ℝ) : roundEven x = ⌊x⌋ ∧ Int.fract x ≤ 1 / 2 ∨ roundEven x = ⌊x⌋ + 1 ∧ 1 / 2 ≤ Int.fract x := by
  unfold roundEven
  split
  · rename_i h; exact .inl ⟨rfl, h.le⟩
  · rename_i h
    split
    · rename_i h'; exact .inr ⟨rfl, h'.le⟩
    · rename_i h'
      split
      · exact .inl ⟨rfl, not_lt.1 h'⟩
      · exact .inr ⟨rfl, not_lt.1 h⟩

theorem roundEven_err (x : ℝ) : |(roundEven x : ℝ) - x| ≤ 1 / 2 := by
  have h := Int.floor_add_fract x
  have f0 := Int.fract_nonneg x
  have f1 := Int.fract_lt_one x
  rcases roundEven_cases x with ⟨e, c⟩ | ⟨e, c⟩
  · rw [e, abs_le]; constructor <;> linarith
  · rw [e, abs_le]; push_cast; constructor <;> linarith

theorem roundEven_mono : Monotone roundEven := by
  intro x y h
  rcases (Int.floor_le_floor h).lt_or_eq with c | c
  · have a : roundEven x ≤ ⌊x⌋ + 1 := by rcases roundEven_cases x with ⟨e, -⟩ | ⟨e, -⟩ <;> omega
    have b : ⌊y⌋ ≤ roundEven y := by rcases roundEven_cases y with ⟨e, -⟩ | ⟨e, -⟩ <;> omega
    omega
  · have hx := Int.floor_add_fract x
    have hy := Int.floor_add_fract y
    have hf : Int.fract x ≤ Int.fract y := by rw [c] at hx; linarith
    unfold roundEven
    rw [c]
    by_cases c1 : Int.fract x < 1 / 2
    · rw [if_pos c1]; split_ifs <;> omega
    · rw [if_neg c1, if_neg (show ¬ Int.fract y < 1 / 2 by linarith)]
      by_cases c2 : 1 / 2 < Int.fract x
      · rw [if_pos c2, if_pos (show 1 / 2 < Int.fract y by linarith)]
      · rw [if_neg c2]; split_ifs <;> omega

theorem roundEven_int (z : ℤ) : roundEven z = z := by
  unfold roundEven
  rw [Int.fract_intCast, Int.floor_intCast, if_pos (by norm_num)]

/-- No integer is nearer. -/
theorem roundEven_best (x : ℝ) (z : ℤ) : |(roundEven x : ℝ) - x| ≤ |(z : ℝ) - x| := by
  have h := Int.floor_add_fract x
  have f0 := Int.fract_nonneg x
  have f1 := Int.fract_lt_one x
  rcases roundEven_cases x with ⟨e, c⟩ | ⟨e, c⟩ <;> rw [e]
  · have h1 : |(⌊x⌋ : ℝ) - x| = Int.fract x := by rw [abs_sub_comm, abs_of_nonneg (by linarith)]; linarith
    rw [h1]
    rcases le_or_gt z ⌊x⌋ with d | d
    · have : (z : ℝ) ≤ ⌊x⌋ := by exact_mod_cast d
      rw [abs_sub_comm, abs_of_nonneg (by linarith)]; linarith
    · have : (⌊x⌋ : ℝ) + 1 ≤ z := by exact_mod_cast d
      rw [abs_of_nonneg (by linarith)]; linarith
  · have h1 : |((⌊x⌋ + 1 : ℤ) : ℝ) - x| = 1 - Int.fract x := by
      push_cast; rw [abs_of_nonneg (by linarith)]; linarith
    rw [h1]
    rcases le_or_gt z ⌊x⌋ with d | d
    · have : (z : ℝ) ≤ ⌊x⌋ := by exact_mod_cast d
      rw [abs_sub_comm, abs_of_nonneg (by linarith)]; linarith
    · have : (⌊x⌋ : ℝ) + 1 ≤ z := by exact_mod_cast d
      rw [abs_of_nonneg (by linarith)]; linarith

/-- Of two integers equally near, the even one. -/
theorem roundEven_tie {x : ℝ} {z : ℤ} (h : |(z : ℝ) - x| = |(roundEven x : ℝ) - x|) (hz : z ≠ roundEven x) :
    Even (roundEven x) := by
  have hf := Int.floor_add_fract x
  have f0 := Int.fract_nonneg x
  have f1 := Int.fract_lt_one x
  have half : Int.fract x = 1 / 2 := by
    have b0 := roundEven_best x ⌊x⌋
    have b1 := roundEven_best x (⌊x⌋ + 1)
    have e1 : |(⌊x⌋ : ℝ) - x| = Int.fract x := by rw [abs_sub_comm, abs_of_nonneg (by linarith)]; linarith
    have e2 : |((⌊x⌋ + 1 : ℤ) : ℝ) - x| = 1 - Int.fract x := by push_cast; rw [abs_of_nonneg (by linarith)]; linarith
    rcases roundEven_cases x with ⟨e, c⟩ | ⟨e, c⟩
    · rw [e] at h hz
      rw [e1] at h
      rcases lt_or_gt_of_ne hz with d | d
      · have : (z : ℝ) + 1 ≤ ⌊x⌋ := by exact_mod_cast d
        rw [abs_sub_comm, abs_of_nonneg (by linarith)] at h; linarith
      · have : (⌊x⌋ : ℝ) + 1 ≤ z := by exact_mod_cast d
        rw [abs_of_nonneg (by linarith)] at h; linarith
    · rw [e] at h hz
      rw [e2] at h
      rcases lt_or_gt_of_ne hz with d | d
      · have : (z : ℝ) ≤ ⌊x⌋ := by exact_mod_cast Int.lt_add_one_iff.1 d
        rw [abs_sub_comm, abs_of_nonneg (by linarith)] at h; linarith
      · have : (⌊x⌋ : ℝ) + 1 + 1 ≤ z := by exact_mod_cast d
        rw [abs_of_nonneg (by linarith)] at h; linarith
  unfold roundEven
  rw [half, if_neg (by norm_num), if_neg (by norm_num)]
  split
  · assumption
  · rename_i h; exact (Int.not_even_iff_odd.1 h).add_one

theorem roundEven_neg (x : ℝ) : roundEven (-x) = -roundEven x := by
  by_contra c
  have a := roundEven_best (-x) (-roundEven x)
  have b := roundEven_best x (-roundEven (-x))
  push_cast at a b
  have e1 : |-(roundEven x : ℝ) - -x| = |(roundEven x : ℝ) - x| := by rw [← abs_neg]; congr 1; ring
  have e2 : |-(roundEven (-x) : ℝ) - x| = |(roundEven (-x) : ℝ) - -x| := by rw [← abs_neg]; congr 1; ring
  rw [e1] at a
  rw [e2] at b
  have eq := le_antisymm b a
  have t1 := roundEven_tie (x := x) (z := -roundEven (-x)) (by push_cast; rw [e2, eq]) fun h => c (by omega)
  have t2 := roundEven_tie (x := -x) (z := -roundEven x) (by push_cast; rw [e1, eq]) fun h => c (by omega)
  have d1 := roundEven_err x
  have d2 := roundEven_err (-x)
  rw [abs_le] at d1 d2
  have l1 : (roundEven x : ℝ) + roundEven (-x) ≤ 1 := by linarith [d1.2, d2.2]
  have l2 : -1 ≤ (roundEven x : ℝ) + roundEven (-x) := by linarith [d1.1, d2.1]
  have l1' : roundEven x + roundEven (-x) ≤ 1 := by exact_mod_cast l1
  have l2' : -1 ≤ roundEven x + roundEven (-x) := by exact_mod_cast l2
  obtain ⟨r, hr⟩ := t1
  obtain ⟨s, hs⟩ := t2
  omega

namespace Format
variable (F : Format)

theorem two_pos (e : ℤ) : (0 : ℝ) < 2 ^ e := zpow_pos (by norm_num) e

theorem two_le {a b : ℤ} (h : a ≤ b) : (2 : ℝ) ^ a ≤ 2 ^ b := zpow_le_zpow_right₀ (by norm_num) h

theorem place_neg (x : ℝ) : F.place (-x) = F.place x := by unfold place; rw [abs_neg]

theorem nearest_neg (x : ℝ) : F.nearest (-x) = -F.nearest x := by
  unfold nearest
  rw [place_neg, neg_div, roundEven_neg]
  push_cast
  ring

theorem nearest_zero : F.nearest 0 = 0 := by
  unfold nearest
  rw [zero_div]
  have := roundEven_int 0
  push_cast at this
  rw [this]
  simp

theorem nearest_err_place (x : ℝ) : |F.nearest x - x| ≤ 2 ^ F.place x / 2 := by
  unfold nearest
  have q := two_pos (F.place x)
  have h := roundEven_err (x / 2 ^ F.place x)
  have e : (roundEven (x / 2 ^ F.place x) : ℝ) * 2 ^ F.place x - x =
      ((roundEven (x / 2 ^ F.place x) : ℝ) - x / 2 ^ F.place x) * 2 ^ F.place x := by
    rw [sub_mul, div_mul_cancel₀ _ q.ne']
  rw [e, abs_mul, abs_of_pos q]
  nlinarith

/-- The error of rounding: relative for normal numbers, absolute below them. -/
theorem nearest_err (x : ℝ) : |F.nearest x - x| ≤ F.u * |x| + F.eta := by
  have h := F.nearest_err_place x
  have hu : 0 ≤ F.u * |x| := mul_nonneg (two_pos _).le (abs_nonneg _)
  have he : 0 < F.eta := two_pos _
  by_cases hx : x = 0
  · subst hx
    rw [nearest_zero]
    simpa using add_nonneg hu he.le
  rcases le_total (Int.log 2 |x|) F.emin with c | c
  · have : (2 : ℝ) ^ F.place x / 2 = F.eta := by
      unfold place eta
      rw [max_eq_right c, div_eq_mul_inv, ← zpow_sub_one₀ (by norm_num)]
      congr 1; ring
    linarith
  · have hx' : 0 < |x| := abs_pos.2 hx
    have h1 : (2 : ℝ) ^ (Int.log 2 |x|) ≤ |x| := by exact_mod_cast Int.zpow_log_le_self (by norm_num) hx'
    have : (2 : ℝ) ^ F.place x / 2 = F.u * 2 ^ (Int.log 2 |x|) := by
      unfold place u
      rw [max_eq_left c, div_eq_mul_inv, ← zpow_sub_one₀ (by norm_num), ← zpow_add₀ (by norm_num)]
      congr 1; ring
    have : F.u * 2 ^ (Int.log 2 |x|) ≤ F.u * |x| := mul_le_mul_of_nonneg_left h1 (two_pos _).le
    linarith

theorem nearest_of_int {x : ℝ} {z : ℤ} (h : x = z * 2 ^ F.place x) : F.nearest x = x := by
  have q := two_pos (F.place x)
  have e : x / 2 ^ F.place x = z := by rw [div_eq_iff q.ne']; exact h
  unfold nearest
  rw [e, roundEven_int]
  exact h.symm

theorem nearest_mono_nonneg {x y : ℝ} (h0 : 0 ≤ x) (h : x ≤ y) : F.nearest x ≤ F.nearest y := by
  have hy0 : 0 ≤ y := h0.trans h
  have nn : ∀ y : ℝ, 0 ≤ y → 0 ≤ F.nearest y := by
    intro y hy
    have : roundEven 0 ≤ roundEven (y / 2 ^ F.place y) := roundEven_mono (div_nonneg hy (two_pos _).le)
    have z := roundEven_int 0
    push_cast at z
    rw [z] at this
    exact mul_nonneg (by exact_mod_cast this) (two_pos _).le
  rcases h0.lt_or_eq with hx | rfl
  swap
  · rw [nearest_zero]; exact nn y hy0
  have hy : 0 < y := lt_of_lt_of_le hx h
  have hl : Int.log 2 x ≤ Int.log 2 y := Int.log_mono_right hx h
  have hpx : F.place x = max (Int.log 2 x) F.emin - (F.p - 1) := by unfold place; rw [abs_of_pos hx]
  have hpy : F.place y = max (Int.log 2 y) F.emin - (F.p - 1) := by unfold place; rw [abs_of_pos hy]
  by_cases c : F.place x = F.place y
  · unfold nearest
    rw [c]
    have := roundEven_mono (div_le_div_of_nonneg_right h (two_pos (F.place y)).le)
    exact mul_le_mul_of_nonneg_right (by exact_mod_cast this) (two_pos _).le
  · have c' : max (Int.log 2 x) F.emin ≠ max (Int.log 2 y) F.emin := fun e => c (by rw [hpx, hpy, e])
    have hm : max (Int.log 2 x) F.emin + 1 ≤ Int.log 2 y ∧ max (Int.log 2 y) F.emin = Int.log 2 y := by omega
    have p1 := F.p1
    have up : F.nearest x ≤ 2 ^ (max (Int.log 2 x) F.emin + 1) := by
      have hx1 : x ≤ 2 ^ (max (Int.log 2 x) F.emin + 1) := by
        have := Int.lt_zpow_succ_log_self (b := 2) (by norm_num) x
        have t : x < (2 : ℝ) ^ (Int.log 2 x + 1) := by exact_mod_cast this
        exact t.le.trans (two_le (by omega))
      have e : (2 : ℝ) ^ (max (Int.log 2 x) F.emin + 1) = ((2 ^ F.p : ℤ) : ℝ) * 2 ^ F.place x := by
        push_cast
        rw [← zpow_natCast, ← zpow_add₀ (by norm_num), hpx]
        congr 1; ring
      rw [e] at hx1 ⊢
      rw [← div_le_iff₀ (two_pos _)] at hx1
      have := roundEven_mono hx1
      rw [roundEven_int] at this
      exact mul_le_mul_of_nonneg_right (by exact_mod_cast this) (two_pos _).le
    have down : (2 : ℝ) ^ (Int.log 2 y) ≤ F.nearest y := by
      have hy1 : (2 : ℝ) ^ (Int.log 2 y) ≤ y := by exact_mod_cast Int.zpow_log_le_self (by norm_num) hy
      have e : (2 : ℝ) ^ (Int.log 2 y) = ((2 ^ (F.p - 1) : ℤ) : ℝ) * 2 ^ F.place y := by
        push_cast
        rw [← zpow_natCast, ← zpow_add₀ (by norm_num), hpy, hm.2]
        congr 1
        push_cast [show 1 ≤ F.p by omega]
        ring
      rw [e] at hy1 ⊢
      rw [← le_div_iff₀ (two_pos _)] at hy1
      have := roundEven_mono hy1
      rw [roundEven_int] at this
      exact mul_le_mul_of_nonneg_right (by exact_mod_cast this) (two_pos _).le
    exact up.trans ((two_le hm.1).trans down)

theorem nearest_mono : Monotone F.nearest := by
  intro x y h
  rcases le_total 0 x with c | c
  · exact F.nearest_mono_nonneg c h
  rcases le_total 0 y with d | d
  · have a := F.nearest_mono_nonneg le_rfl (show 0 ≤ -x by linarith)
    have b := F.nearest_mono_nonneg le_rfl d
    rw [nearest_zero] at a b
    rw [nearest_neg] at a
    linarith
  · have := F.nearest_mono_nonneg (show 0 ≤ -y by linarith) (show -y ≤ -x by linarith)
    rw [nearest_neg, nearest_neg] at this
    linarith

/-- A number of the format is a multiple of the last place of `x`, or smaller than the leading power of two of `x`. -/
theorem mem_place {f : ℝ} (hf : F.Mem f) (x : ℝ) :
    (∃ z : ℤ, f = z * 2 ^ F.place x) ∨ (F.emin ≤ Int.log 2 |x| ∧ |f| < 2 ^ (Int.log 2 |x|)) := by
  obtain ⟨k, e, hk, he, rfl⟩ := hf
  rcases le_or_gt (F.place x) e with c | c
  · left
    obtain ⟨d, rfl⟩ : ∃ d : ℕ, e = F.place x + d := ⟨(e - F.place x).toNat, by omega⟩
    refine ⟨k * 2 ^ d, ?_⟩
    rw [zpow_add₀ (by norm_num)]
    push_cast
    rw [zpow_natCast]
    ring
  · right
    have hp : F.place x = Int.log 2 |x| - (F.p - 1) ∧ F.emin ≤ Int.log 2 |x| := by
      unfold place at c ⊢; omega
    refine ⟨hp.2, ?_⟩
    rw [abs_mul, abs_of_pos (two_pos e)]
    have k' : |(k : ℝ)| < 2 ^ F.p := by exact_mod_cast hk
    calc |(k : ℝ)| * 2 ^ e < 2 ^ F.p * 2 ^ e := mul_lt_mul_of_pos_right k' (two_pos e)
      _ = 2 ^ ((F.p : ℤ) + e) := by rw [zpow_add₀ (by norm_num), zpow_natCast]
      _ ≤ _ := two_le (by omega)

/-- Numbers of the format are not changed. -/
theorem nearest_mem {f : ℝ} (hf : F.Mem f) : F.nearest f = f := by
  by_cases h0 : f = 0
  · subst h0; exact F.nearest_zero
  rcases F.mem_place hf f with ⟨z, h⟩ | ⟨-, h⟩
  · exact F.nearest_of_int h
  · have h1 : (2 : ℝ) ^ (Int.log 2 |f|) ≤ |f| := by exact_mod_cast Int.zpow_log_le_self (by norm_num) (abs_pos.2 h0)
    linarith

theorem mem_int {z : ℤ} (h : |z| < 2 ^ F.p) : F.Mem z :=
  ⟨z, 0, h, by have := F.p1; have := F.min0; omega, by simp⟩

theorem mem_two_pow {e : ℤ} (h : F.emin - (F.p - 1) ≤ e) : F.Mem (2 ^ e) :=
  ⟨1, e, by have := F.p1; exact_mod_cast Nat.one_lt_two_pow (by omega), h, by simp⟩

/-- The result is a number of the format. -/
theorem mem_nearest (x : ℝ) : F.Mem (F.nearest x) := by
  have p1 := F.p1
  by_cases h0 : x = 0
  · subst h0
    rw [nearest_zero]
    exact_mod_cast F.mem_int (z := 0) (by simp)
  have hx := abs_pos.2 h0
  have hb : |roundEven (x / 2 ^ F.place x)| ≤ 2 ^ F.p := by
    have t : |x / 2 ^ F.place x| ≤ ((2 ^ F.p : ℤ) : ℝ) := by
      rw [abs_div, abs_of_pos (two_pos _), div_le_iff₀ (two_pos _)]
      have : |x| < (2 : ℝ) ^ (Int.log 2 |x| + 1) := by exact_mod_cast Int.lt_zpow_succ_log_self (b := 2) (by norm_num) |x|
      refine this.le.trans ?_
      push_cast
      rw [← zpow_natCast, ← zpow_add₀ (by norm_num)]
      refine two_le ?_
      unfold place; omega
    rw [abs_le] at t ⊢
    constructor
    · have := roundEven_mono t.1
      rw [show -(((2 ^ F.p : ℤ)) : ℝ) = ((-(2 ^ F.p) : ℤ) : ℝ) by push_cast; ring, roundEven_int] at this
      exact this
    · have := roundEven_mono t.2
      rwa [roundEven_int] at this
  have hpl : F.emin - (F.p - 1) ≤ F.place x := by unfold place; omega
  rcases hb.lt_or_eq with c | c
  · exact ⟨_, _, c, hpl, rfl⟩
  · have s2 : ((2 : ℤ) ^ F.p) = 2 ^ (F.p - 1) * 2 := by rw [← pow_succ]; congr 1; omega
    have lt : (2 : ℤ) ^ (F.p - 1) < 2 ^ F.p := pow_lt_pow_right₀ (by decide) (by omega)
    have pw : ((2 : ℝ) ^ (F.place x + 1)) = 2 ^ F.place x * 2 := zpow_add_one₀ (by norm_num) _
    rcases (abs_eq (by positivity)).1 c with d | d
    · refine ⟨2 ^ (F.p - 1), F.place x + 1, by rwa [abs_of_pos (by positivity)], by omega, ?_⟩
      unfold nearest
      rw [d, s2, pw]; push_cast; ring
    · refine ⟨-2 ^ (F.p - 1), F.place x + 1, by rwa [abs_neg, abs_of_pos (by positivity)], by omega, ?_⟩
      unfold nearest
      rw [d, s2, pw]; push_cast; ring

/-- No number of the format is nearer. -/
theorem nearest_best {f : ℝ} (hf : F.Mem f) (x : ℝ) : |F.nearest x - x| ≤ |f - x| := by
  have q := two_pos (F.place x)
  have key : ∀ z : ℤ, |F.nearest x - x| ≤ |z * 2 ^ F.place x - x| := by
    intro z
    have h := roundEven_best (x / 2 ^ F.place x) z
    have e : ∀ w : ℤ, (w : ℝ) * 2 ^ F.place x - x = ((w : ℝ) - x / 2 ^ F.place x) * 2 ^ F.place x := by
      intro w; rw [sub_mul, div_mul_cancel₀ _ q.ne']
    unfold nearest
    rw [e, e, abs_mul, abs_mul]
    exact mul_le_mul_of_nonneg_right h (abs_nonneg _)
  rcases F.mem_place hf x with ⟨z, rfl⟩ | ⟨hm, h⟩
  · exact key z
  · by_cases h0 : x = 0
    · subst h0; rw [nearest_zero]; simp
    have h1 : (2 : ℝ) ^ (Int.log 2 |x|) ≤ |x| := by exact_mod_cast Int.zpow_log_le_self (by norm_num) (abs_pos.2 h0)
    have e : (2 : ℝ) ^ (Int.log 2 |x|) = ((2 ^ (F.p - 1) : ℤ) : ℝ) * 2 ^ F.place x := by
      have p1 := F.p1
      push_cast
      rw [← zpow_natCast, ← zpow_add₀ (by norm_num)]
      congr 1
      unfold place
      rw [max_eq_left hm]
      push_cast [show 1 ≤ F.p by omega]
      ring
    rcases le_total 0 x with c | c
    · refine (key (2 ^ (F.p - 1))).trans ?_
      rw [← e]
      rw [abs_of_nonneg c] at h1 ⊢
      rw [abs_of_nonneg c] at h
      have := (abs_lt.1 h).2
      rw [abs_sub_comm, abs_of_nonneg (by linarith), abs_sub_comm, abs_of_nonneg (by linarith)]
      linarith
    · refine (key (-2 ^ (F.p - 1))).trans ?_
      have e' : (((-2 ^ (F.p - 1) : ℤ)) : ℝ) * 2 ^ F.place x = -2 ^ (Int.log 2 |x|) := by rw [e]; push_cast; ring
      rw [e']
      rw [abs_of_nonpos c] at h1 ⊢
      rw [abs_of_nonpos c] at h
      have := (abs_lt.1 h).1
      rw [abs_of_nonneg (by linarith), abs_of_nonneg (by linarith)]
      linarith

theorem limit_pos : 0 < F.limit := two_pos _

theorem one_lt_limit : 1 < F.limit := by
  unfold limit
  exact one_lt_zpow₀ (by norm_num) (by have := F.max0; omega)

theorem round_real {x : ℝ} (h : |F.nearest x| < F.limit) : F.round (x : EReal) = (F.nearest x : ℝ) := by
  obtain ⟨a, b⟩ := abs_lt.1 h
  unfold round
  rw [if_neg (EReal.coe_ne_top x), if_neg (EReal.coe_ne_bot x), EReal.toReal_coe, if_neg (by linarith),
    if_neg (by linarith)]

theorem round_mono : Monotone F.round := by
  intro x y h
  unfold round
  by_cases yt : y = ⊤
  · rw [if_pos yt]; exact le_top
  by_cases xb : x = ⊥
  · have : x ≠ ⊤ := by rw [xb]; exact bot_ne_top
    rw [if_neg this, if_pos xb]; exact bot_le
  have xt : x ≠ ⊤ := fun e => yt (top_le_iff.1 (e ▸ h))
  have yb : y ≠ ⊥ := fun e => xb (le_bot_iff.1 (e ▸ h))
  rw [if_neg xt, if_neg yt, if_neg xb, if_neg yb]
  have hr := F.nearest_mono (EReal.toReal_le_toReal h xb yt)
  have lp := F.limit_pos
  by_cases c : F.limit ≤ F.nearest x.toReal
  · rw [if_pos c, if_pos (by linarith)]
  rw [if_neg c]
  by_cases d : F.nearest x.toReal ≤ -F.limit
  · rw [if_pos d]; exact bot_le
  rw [if_neg d]
  by_cases c' : F.limit ≤ F.nearest y.toReal
  · rw [if_pos c']; exact le_top
  rw [if_neg c', if_neg (by linarith)]
  exact_mod_cast hr

theorem round_zero : F.round 0 = 0 := by
  have := F.round_real (x := 0) (by rw [nearest_zero, abs_zero]; exact F.limit_pos)
  rw [nearest_zero] at this
  exact_mod_cast this

theorem nearest_one : F.nearest 1 = 1 := by
  have := F.nearest_mem (F.mem_int (z := 1) (by have := F.p1; rw [abs_one]; exact_mod_cast Nat.one_lt_two_pow (by omega)))
  exact_mod_cast this

theorem round_one : F.round 1 = 1 := by
  have := F.round_real (x := 1) (by rw [nearest_one, abs_one]; exact F.one_lt_limit)
  rw [nearest_one] at this
  exact_mod_cast this

/-- The arithmetic of a binary format; what a number divided by a zero gives depends on the sign of the zero, which is not
modelled, and is a parameter. -/
noncomputable def arith (byZero : EReal → Option EReal) : Arith where
  rnd := F.round
  mono := F.round_mono
  zero := F.round_zero
  one := F.round_one
  top := by unfold round; rw [if_pos rfl]
  bot := by unfold round; rw [if_neg bot_ne_top, if_pos rfl]
  byZero := byZero

end Format
end StdNN.Spec
