import Verif.Model.Convert
import Verif.Props.Binary
import Verif.Props.Utility
import Verif.Props.Extras
/-!
# C159: what casts between built-in numbers do, and `relu_scalar`
-/
namespace StdNN
open IntTy Spec Spec.Format Outcome NumConv

variable {F G : Format} {bz bz' : EReal → Option EReal}

/-! ## Where rounding reaches a power of two -/

theorem nearest_nonneg {x : ℝ} (h : 0 ≤ x) : 0 ≤ F.nearest x := by
  have := F.nearest_mono h
  rwa [F.nearest_zero] at this

/-- The numbers that are rounded up to `2 ^ N` or more are those from the middle of `2 ^ N` and the number before it. -/
theorem nearest_top {N : ℤ} (hN : F.emin ≤ N - 1) (x : ℝ) :
    2 ^ N ≤ F.nearest x ↔ 2 ^ N - 2 ^ (N - F.p - 1) ≤ x := by
  have p1 := F.p1
  have q1 : (2 : ℝ) ^ N = 2 ^ (F.p : ℤ) * 2 ^ (N - F.p) := by rw [← zpow_add₀ (by norm_num)]; congr 1; omega
  have q2 : (2 : ℝ) ^ (N - F.p) = 2 ^ (N - F.p - 1) * 2 := by rw [← zpow_add_one₀ (by norm_num)]; congr 1; omega
  have q0 := Format.two_pos (N - F.p - 1)
  have pp : (4 : ℝ) ≤ 2 ^ (F.p : ℤ) := by
    calc (4 : ℝ) = 2 ^ (2 : ℤ) := by norm_num
      _ ≤ _ := Format.two_le (by exact_mod_cast p1)
  -- the number before `2 ^ N`
  have hm : F.Mem (2 ^ N - 2 ^ (N - F.p)) := by
    refine ⟨2 ^ F.p - 1, N - F.p, ?_, by omega, ?_⟩
    · have : (1 : ℤ) < 2 ^ F.p := by exact_mod_cast Nat.one_lt_two_pow (by omega)
      rw [abs_of_pos (by omega)]; omega
    · rw [q1, zpow_natCast]; push_cast; ring
  constructor
  · intro h
    by_contra c
    rw [not_le] at c
    rcases le_or_gt (2 ^ N - 2 ^ (N - F.p)) x with d | d
    · have b := F.nearest_best hm x
      rw [abs_of_nonneg (by linarith : 0 ≤ F.nearest x - x), abs_of_nonpos (by linarith)] at b
      linarith
    · have b := F.nearest_mono d.le
      rw [F.nearest_mem hm] at b
      linarith
  · intro h
    refine le_trans (le_of_eq ?_) (F.nearest_mono h)
    set y : ℝ := 2 ^ N - 2 ^ (N - F.p - 1) with hy
    have y1 : (2 : ℝ) ^ (N - 1) ≤ y := by
      have e : (2 : ℝ) ^ N = 2 ^ (N - 1) * 2 := by rw [← zpow_add_one₀ (by norm_num)]; congr 1; omega
      have : (2 : ℝ) ^ (N - F.p - 1) ≤ 2 ^ (N - 1) := Format.two_le (by omega)
      rw [hy, e]; linarith
    have y0 : 0 < y := (Format.two_pos _).trans_le y1
    have lg : Int.log 2 |y| = N - 1 := by
      rw [abs_of_pos y0]
      refine le_antisymm ?_ ((Int.zpow_le_iff_le_log (by norm_num) y0).1 (by exact_mod_cast y1))
      have : Int.log 2 y < N := (Int.lt_zpow_iff_log_lt (by norm_num) y0).1 (by push_cast; linarith)
      omega
    have pl : F.place y = N - F.p := by unfold Format.place; rw [lg]; omega
    have dv : y / 2 ^ (N - F.p) = ((2 ^ F.p - 1 : ℤ) : ℝ) + 1 / 2 := by
      rw [div_eq_iff (Format.two_pos _).ne', hy, q1, q2, zpow_natCast]; push_cast; ring
    unfold Format.nearest
    rw [pl, dv]
    have fl : ⌊((2 ^ F.p - 1 : ℤ) : ℝ) + 1 / 2⌋ = 2 ^ F.p - 1 := by rw [Int.floor_eq_iff]; constructor <;> push_cast <;> linarith
    have fr : Int.fract (((2 ^ F.p - 1 : ℤ) : ℝ) + 1 / 2) = 1 / 2 := by
      rw [Int.fract, fl]; ring
    have od : ¬ Even ((2 : ℤ) ^ F.p - 1) := by
      rw [Int.not_even_iff_odd]
      exact ((Int.even_pow' (by omega)).2 even_two).sub_odd odd_one
    have re : roundEven (((2 ^ F.p - 1 : ℤ) : ℝ) + 1 / 2) = 2 ^ F.p := by
      unfold roundEven
      rw [fr, fl, if_neg (lt_irrefl _), if_neg (lt_irrefl _), if_neg od]; ring
    rw [re, q1, zpow_natCast]; push_cast; ring

theorem nearest_bot {N : ℤ} (hN : F.emin ≤ N - 1) (x : ℝ) :
    F.nearest x ≤ -2 ^ N ↔ x ≤ -(2 ^ N - 2 ^ (N - F.p - 1)) := by
  have := nearest_top (F := F) hN (-x)
  rw [F.nearest_neg] at this
  constructor
  · intro h; have := this.1 (by linarith); linarith
  · intro h; have := this.2 (by linarith); linarith

/-- Integers are rounded to integers. -/
theorem nearest_isInt (z : ℤ) : ∃ w : ℤ, F.nearest z = w := by
  rcases lt_or_ge |z| (2 ^ F.p) with h | h
  · exact ⟨z, F.nearest_mem (F.mem_int h)⟩
  · have z0 : (0 : ℝ) < |(z : ℝ)| := by
      have : (0 : ℤ) < 2 ^ F.p := by positivity
      exact_mod_cast this.trans_le h
    have lg : (F.p : ℤ) ≤ Int.log 2 |(z : ℝ)| := (Int.zpow_le_iff_le_log (by norm_num) z0).1 (by
      rw [zpow_natCast]; exact_mod_cast h)
    obtain ⟨d, hd⟩ : ∃ d : ℕ, F.place z = d := ⟨(F.place z).toNat, by unfold Format.place; omega⟩
    refine ⟨roundEven ((z : ℝ) / 2 ^ F.place z) * 2 ^ d, ?_⟩
    unfold Format.nearest
    rw [hd, zpow_natCast]; push_cast; ring

/-! ## Casts of tensors -/

/-- C159 (a cast fills the output): if every element can be converted, the output holds the conversions, in order. -/
theorem C159_cast {R S : Type} {f : S → Outcome R} {g : S → R} {x : List S} {y : List R} (hy : y.length = x.length)
    (h : ∀ a ∈ x, f a = .ok (g a)) : Kernels.castWith f x y = .ok (x.map g) := by
  rw [← C112_cast g hy]
  refine forRange_congr (fun i hi s => ?_) y
  have e : rd x i = .ok x[i] := by unfold rd; rw [List.getElem?_eq_getElem hi]
  rw [e, Outcome.ok_bind, Outcome.ok_bind, h _ (List.getElem_mem hi), Outcome.ok_bind]

/-- C159 (undefined): one element that cannot be converted makes the cast undefined. -/
theorem C159_cast_undefined {R S : Type} {f : S → Outcome R} {x : List S} {y : List R} (hy : y.length = x.length)
    (h : ∀ a ∈ x, f a = .ub ∨ ∃ b, f a = .ok b) (hu : ∃ a ∈ x, f a = .ub) : Kernels.castWith f x y = .ub := by
  obtain ⟨a, ha, hu⟩ := hu
  obtain ⟨k, hk, rfl⟩ := List.getElem_of_mem ha
  have key : ∀ n, n ≤ x.length → ∀ body : Nat → List R → Outcome (List R),
      body = (fun i y => do
        let a ← rd x i
        let b ← f a
        wr y i b) →
      (∃ s, forRange n body y = .ok s ∧ s.length = x.length ∧ n ≤ k) ∨ forRange n body y = .ub := by
    intro n
    induction n with
    | zero => exact fun _ _ _ => .inl ⟨y, rfl, hy, Nat.zero_le _⟩
    | succ n ih =>
      intro hn body hb
      rw [forRange_succ]
      rcases ih (by omega) body hb with ⟨s, e, l, c⟩ | e
      · have r : rd x n = .ok (x[n]'(by omega)) := by unfold rd; rw [List.getElem?_eq_getElem]
        rcases h _ (List.getElem_mem (l := x) (n := n) (by omega)) with u | ⟨b, u⟩
        · right
          rw [e, hb, Outcome.ok_bind]
          show (rd x n >>= fun a => f a >>= fun b => wr s n b) = _
          rw [r, Outcome.ok_bind, u]; rfl
        · left
          have nk : n ≠ k := by
            rintro rfl
            rw [hu] at u
            cases u
          refine ⟨s.set n b, ?_, by simpa using l, by omega⟩
          rw [e, hb, Outcome.ok_bind]
          show (rd x n >>= fun a => f a >>= fun b => wr s n b) = _
          rw [r, Outcome.ok_bind, u, Outcome.ok_bind]
          unfold wr
          rw [if_pos (by omega)]
      · exact .inr (by rw [e]; rfl)
  rcases key x.length le_rfl _ rfl with ⟨_, _, _, c⟩ | e
  · omega
  · exact e

/-! ## Conversions of one number -/

/-- The number of value bits of an integer type: its values are less than `2 ^ vbits`. -/
def vbits (t : IntTy) : Nat := if t.signed then t.bits - 1 else t.bits

theorem hi_vbits (t : IntTy) : t.hi = 2 ^ vbits t := by unfold IntTy.hi vbits; split <;> rfl

theorem lo_vbits (t : IntTy) : t.lo = 0 ∨ t.lo = -2 ^ vbits t := by
  unfold IntTy.lo vbits
  split
  · exact .inr rfl
  · exact .inl rfl

theorem in_abs {t : IntTy} {z : Int} (h : t.In z) : |z| ≤ 2 ^ vbits t := by
  have h1 := h.1
  have h2 := h.2
  rw [hi_vbits] at h2
  have : (0 : Int) < 2 ^ vbits t := by positivity
  rw [abs_le]
  rcases lo_vbits t with e | e <;> rw [e] at h1 <;> constructor <;> omega

theorem trunc_int (z : Int) : trunc (z : ℝ) = z := by unfold trunc; split <;> simp

/-- C159 (integers to integers): the value that is equal modulo `2 ^ bits`; exactly the values of the type are kept. -/
theorem C159_int_int {t : IntTy} (ht : 1 ≤ t.bits) (z : Int) :
    t.In (t.conv z) ∧ (2 ^ t.bits : Int) ∣ z - t.conv z ∧ (t.conv z = z ↔ t.In z) := by
  have h2 := two_pow_split ht
  have hp : (0 : Int) < 2 ^ (t.bits - 1) := Int.pow_pos (by decide)
  unfold IntTy.In IntTy.lo IntTy.hi IntTy.conv
  by_cases hs : t.signed
  · simp only [hs, if_true]
    have a := Int.bmod_lt (x := z) (m := 2 ^ t.bits) (by positivity)
    have b := Int.le_bmod (x := z) (m := 2 ^ t.bits) (by positivity)
    have d := Int.dvd_self_sub_bmod (x := z) (m := 2 ^ t.bits)
    push_cast at a b d
    refine ⟨by omega, d, fun e => by omega, fun e => Int.bmod_eq_of_le ?_ ?_⟩ <;> push_cast <;> omega
  · simp only [hs, Bool.false_eq_true, if_false]
    have a := Int.emod_nonneg z (b := 2 ^ t.bits) (by omega)
    have b := Int.emod_lt_of_pos z (b := 2 ^ t.bits) (by omega)
    exact ⟨⟨a, b⟩, Int.dvd_self_sub_emod, fun e => by omega, fun e => Int.emod_eq_of_lt e.1 e.2⟩

theorem toInt_fin (t : IntTy) (x : ℝ) : toInt t (fin F bz x) = if t.In (trunc x) then .ok (trunc x) else .ub := by
  unfold toInt fin
  simp only
  rw [if_neg (by rintro (h | h) <;> exact absurd h (by simp)), EReal.toReal_coe]

theorem trunc_iff (x : ℝ) (q : Int) :
    trunc x = q ↔ (0 ≤ x → (q : ℝ) ≤ x ∧ x < q + 1) ∧ (x < 0 → (q : ℝ) - 1 < x ∧ x ≤ q) := by
  unfold trunc
  rcases le_or_gt 0 x with h | h
  · rw [if_pos h, Int.floor_eq_iff]
    exact ⟨fun e => ⟨fun _ => e, fun c => absurd h (not_le.2 c)⟩, fun e => e.1 h⟩
  · rw [if_neg (not_le.2 h), Int.ceil_eq_iff]
    exact ⟨fun e => ⟨fun c => absurd c (not_le.2 h), fun _ => e⟩, fun e => e.2 h⟩

/-- C159 (floating types to integers): the integral part; defined exactly for the numbers between `lo - 1` and `hi`. -/
theorem C159_float_int (t : IntTy) (x : ℝ) :
    (∀ q, toInt t (fin F bz x) = .ok q ↔
      t.In q ∧ (0 ≤ x → (q : ℝ) ≤ x ∧ x < q + 1) ∧ (x < 0 → (q : ℝ) - 1 < x ∧ x ≤ q)) ∧
    ((t.lo : ℝ) - 1 < x → x < t.hi → ∃ q, toInt t (fin F bz x) = .ok q) ∧
    (x ≤ (t.lo : ℝ) - 1 ∨ t.hi ≤ x → toInt t (fin F bz x) = .ub) := by
  have lo0 : t.lo ≤ 0 := by
    rcases lo_vbits t with e | e <;> rw [e]
    have : (0 : Int) < 2 ^ vbits t := by positivity
    omega
  have hi0 : 0 < t.hi := by rw [hi_vbits]; positivity
  have key : t.In (trunc x) ↔ (t.lo : ℝ) - 1 < x ∧ x < t.hi := by
    obtain ⟨h1, h2⟩ := (trunc_iff x _).1 rfl
    unfold IntTy.In
    have l0 : (t.lo : ℝ) ≤ 0 := by exact_mod_cast lo0
    have l1 : (0 : ℝ) < t.hi := by exact_mod_cast hi0
    rcases le_or_gt 0 x with h | h
    · obtain ⟨a, b⟩ := h1 h
      have tr : 0 ≤ trunc x := by unfold trunc; rw [if_pos h]; exact Int.floor_nonneg.2 h
      refine ⟨fun c => ⟨by linarith, ?_⟩, fun c => ⟨by omega, ?_⟩⟩
      · have : trunc x + 1 ≤ t.hi := by omega
        have : ((trunc x + 1 : Int) : ℝ) ≤ t.hi := by exact_mod_cast this
        push_cast at this
        linarith
      · have : (trunc x : ℝ) < t.hi := a.trans_lt c.2
        exact_mod_cast this
    · obtain ⟨a, b⟩ := h2 h
      have tr : trunc x ≤ 0 := by
        unfold trunc; rw [if_neg (not_le.2 h)]
        exact Int.ceil_le.2 (by exact_mod_cast h.le)
      refine ⟨fun c => ⟨?_, by linarith⟩, fun c => ⟨?_, by omega⟩⟩
      · have : (t.lo : ℝ) ≤ trunc x := by exact_mod_cast c.1
        linarith
      · have : ((t.lo - 1 : Int) : ℝ) < trunc x := by push_cast; linarith [c.1]
        have : t.lo - 1 < trunc x := by exact_mod_cast this
        omega
  rw [toInt_fin]
  refine ⟨fun q => ?_, fun h1 h2 => ⟨trunc x, if_pos (key.2 ⟨h1, h2⟩)⟩, fun h => if_neg fun c => ?_⟩
  · rw [← trunc_iff]
    constructor
    · intro h
      by_cases c : t.In (trunc x)
      · rw [if_pos c] at h
        obtain rfl := Outcome.ok.inj h
        exact ⟨c, rfl⟩
      · rw [if_neg c] at h
        cases h
    · rintro ⟨c, rfl⟩
      exact if_pos c
  · have := key.1 c
    rcases h with h | h <;> linarith [this.1, this.2]

/-- C159 (floating types to integers): NaN and the infinities are undefined. -/
theorem C159_float_int_nan (A : Arith) (t : IntTy) :
    toInt t (.nan : Ieee A) = .ub ∧ toInt t (.num ⊤ : Ieee A) = .ub ∧ toInt t (.num ⊥ : Ieee A) = .ub :=
  ⟨rfl, by simp [toInt], by simp [toInt]⟩

theorem vbits_le (t : IntTy) : vbits t ≤ t.bits := by unfold vbits; split <;> omega

theorem nearest_abs {N : ℕ} {z : Int} (h : |z| ≤ 2 ^ N) : |F.nearest z| ≤ 2 ^ N := by
  have p1 := F.p1
  have m0 := F.min0
  have hm : F.nearest (2 ^ (N : ℤ)) = 2 ^ (N : ℤ) := F.nearest_mem (F.mem_two_pow (by omega))
  have z1 : |(z : ℝ)| ≤ 2 ^ (N : ℤ) := by rw [zpow_natCast]; exact_mod_cast h
  rw [← zpow_natCast, abs_le]
  rw [abs_le] at z1
  have a := F.nearest_mono z1.1
  have b := F.nearest_mono z1.2
  rw [F.nearest_neg, hm] at a
  rw [hm] at b
  exact ⟨a, b⟩

theorem ofInt_fin {t : IntTy} (hF : (t.bits : ℤ) ≤ F.emax) {z : Int} (h : t.In z) :
    (ofInt z : Ieee (F.arith bz)) = fin F bz (F.nearest z) := by
  have l : |F.nearest z| < F.limit := by
    refine (nearest_abs (in_abs h)).trans_lt ?_
    unfold Format.limit
    rw [← zpow_natCast]
    have := vbits_le t
    exact zpow_lt_zpow_right₀ (by norm_num) (by omega)
  exact congrArg Ieee.num (F.round_real l)

/-- C159 (integers to floating types): the nearest number of the type; exact if and only if the integer is one of the
numbers of the type, in particular if it has at most as many bits as the type is precise. -/
theorem C159_int_float {t : IntTy} (hF : (t.bits : ℤ) ≤ F.emax) {z : Int} (h : t.In z) :
    ∃ x, (ofInt z : Ieee (F.arith bz)) = fin F bz x ∧ F.Mem x ∧ (∀ f, F.Mem f → |x - z| ≤ |f - z|) ∧ (x = z ↔ F.Mem z) ∧
      (|z| ≤ 2 ^ F.p → x = z) := by
  refine ⟨_, ofInt_fin hF h, F.mem_nearest _, fun f hf => F.nearest_best hf _, ⟨fun e => e ▸ F.mem_nearest _, F.nearest_mem⟩,
    fun c => F.nearest_mem ?_⟩
  rcases c.lt_or_eq with c | c
  · exact F.mem_int c
  · have p1 := F.p1
    have m0 := F.min0
    rcases (abs_eq (by positivity)).1 c with rfl | rfl
    · exact_mod_cast F.mem_two_pow (e := F.p) (by omega)
    · refine ⟨-1, F.p, ?_, by omega, by push_cast; rw [zpow_natCast]; ring⟩
      rw [abs_neg, abs_one]
      exact_mod_cast Nat.one_lt_two_pow (by omega)

theorem nearest_int_err (z : Int) : |F.nearest z - z| ≤ F.u * |(z : ℝ)| := by
  rcases lt_or_ge |z| (2 ^ F.p) with h | h
  · rw [F.nearest_mem (F.mem_int h), sub_self, abs_zero]
    exact mul_nonneg (u_pos F).le (abs_nonneg _)
  · have p1 := F.p1
    have m0 := F.min0
    have z0 : (0 : ℝ) < |(z : ℝ)| := by
      have : (0 : ℤ) < 2 ^ F.p := by positivity
      exact_mod_cast this.trans_le h
    have lg : (F.p : ℤ) ≤ Int.log 2 |(z : ℝ)| := (Int.zpow_le_iff_le_log (by norm_num) z0).1 (by
      rw [zpow_natCast]; exact_mod_cast h)
    have pl : F.place z = Int.log 2 |(z : ℝ)| - (F.p - 1) := by unfold Format.place; omega
    refine (F.nearest_err_place _).trans ?_
    have b : (2 : ℝ) ^ Int.log 2 |(z : ℝ)| ≤ |(z : ℝ)| := by exact_mod_cast Int.zpow_log_le_self (by norm_num) z0
    calc (2 : ℝ) ^ F.place z / 2 = F.u * 2 ^ Int.log 2 |(z : ℝ)| := by
          unfold Format.u
          rw [pl, ← zpow_add₀ (by norm_num), div_eq_iff (by norm_num), ← zpow_add_one₀ (by norm_num)]
          congr 1; ring
      _ ≤ _ := mul_le_mul_of_nonneg_left b (u_pos F).le

/-- C159 (integers to a floating type and back): the integer itself if and only if it is a number of the floating type; for
types of at most `p` value bits always. -/
theorem C159_round_trip {t : IntTy} (hF : (t.bits : ℤ) ≤ F.emax) {z : Int} (h : t.In z) :
    (toInt t (ofInt z : Ieee (F.arith bz)) = .ok z ↔ F.Mem z) ∧
    (vbits t ≤ F.p → toInt t (ofInt z : Ieee (F.arith bz)) = .ok z) := by
  have key : toInt t (ofInt z : Ieee (F.arith bz)) = .ok z ↔ F.Mem z := by
    rw [ofInt_fin hF h, toInt_fin]
    obtain ⟨w, hw⟩ := nearest_isInt (F := F) z
    rw [hw, trunc_int]
    constructor
    · intro e
      by_cases c : t.In w
      · rw [if_pos c] at e
        obtain rfl := Outcome.ok.inj e
        exact hw ▸ F.mem_nearest _
      · rw [if_neg c] at e
        cases e
    · intro m
      rw [F.nearest_mem m] at hw
      obtain rfl : z = w := by exact_mod_cast hw
      exact if_pos h
  refine ⟨key, fun c => key.2 ?_⟩
  obtain ⟨x, -, hm, -, -, e⟩ := C159_int_float (bz := bz) hF h
  rw [← e ((in_abs h).trans (pow_le_pow_right₀ (by norm_num) c))]
  exact hm

/-- C159 (integers with more bits than the floating type is precise, and back): the integers from the middle of the greatest
number below `2 ^ vbits` and `2 ^ vbits` are undefined, all others come back with a relative error of at most `2 ^ -p`. -/
theorem C159_round_trip_wide {t : IntTy} (hF : (t.bits : ℤ) ≤ F.emax) (hp : F.p < vbits t) {z : Int} (h : t.In z) :
    (2 ^ vbits t - 2 ^ (vbits t - F.p - 1) ≤ z → toInt t (ofInt z : Ieee (F.arith bz)) = .ub) ∧
    (z < 2 ^ vbits t - 2 ^ (vbits t - F.p - 1) → ∃ q, toInt t (ofInt z : Ieee (F.arith bz)) = .ok q ∧ F.Mem q ∧
      (∀ f, F.Mem f → |(q : ℝ) - z| ≤ |f - z|) ∧ |(q : ℝ) - z| ≤ 2 ^ (-(F.p : ℤ)) * |(z : ℝ)|) := by
  have m0 := F.min0
  have top := nearest_top (F := F) (N := vbits t) (by omega) z
  rw [ofInt_fin hF h, toInt_fin]
  obtain ⟨w, hw⟩ := nearest_isInt (F := F) z
  have e1 : ((vbits t : ℤ) - F.p - 1) = ((vbits t - F.p - 1 : ℕ) : ℤ) := by omega
  have top' : 2 ^ vbits t ≤ w ↔ 2 ^ vbits t - 2 ^ (vbits t - F.p - 1) ≤ z := by
    rw [hw, e1, zpow_natCast, zpow_natCast] at top
    exact_mod_cast top
  have err := nearest_int_err (F := F) z
  have best := fun f hf => F.nearest_best (f := f) hf z
  have mem := F.mem_nearest z
  have ab := nearest_abs (F := F) (in_abs h)
  have nn : 0 ≤ (z : ℝ) → 0 ≤ F.nearest z := nearest_nonneg
  rw [hw] at err best mem ab nn ⊢
  rw [trunc_int]
  have ab' : |w| ≤ 2 ^ vbits t := by exact_mod_cast ab
  rw [abs_le] at ab'
  constructor
  · intro c
    refine if_neg fun i => ?_
    have := i.2
    rw [hi_vbits] at this
    have := top'.2 c
    omega
  · intro c
    refine ⟨w, if_pos ⟨?_, ?_⟩, mem, best, err⟩
    · rcases lo_vbits t with e | e
      · have := h.1
        rw [e] at this ⊢
        exact_mod_cast nn (by exact_mod_cast this)
      · rw [e]; exact ab'.1
    · rw [hi_vbits]
      by_contra d
      have := top'.1 (by omega)
      omega

/-! ## Between floating types -/

/-- The numbers of `F` are numbers of `G`. -/
structure Wider (F G : Format) : Prop where
  p : F.p ≤ G.p
  least : G.emin - (G.p - 1) ≤ F.emin - (F.p - 1)
  greatest : F.emax ≤ G.emax

/-- The values of the floating type `F`: NaN, the infinities and the numbers of the format that are not too large. -/
inductive Value (F : Format) (bz : EReal → Option EReal) : Ieee (F.arith bz) → Prop
  | nan : Value F bz .nan
  | top : Value F bz (.num ⊤)
  | bot : Value F bz (.num ⊥)
  | num {x : ℝ} (hx : F.Mem x) (hl : |x| < F.limit) : Value F bz (fin F bz x)

theorem round_fix {x : ℝ} (hx : F.Mem x) (hl : |x| < F.limit) : F.round (x : EReal) = x := by
  have e := F.nearest_mem hx
  rw [F.round_real (by rwa [e]), e]

theorem Wider.mem (w : Wider F G) {x : ℝ} (hx : F.Mem x) (hl : |x| < F.limit) : G.Mem x ∧ |x| < G.limit := by
  obtain ⟨k, e, hk, he, rfl⟩ := hx
  refine ⟨⟨k, e, hk.trans_le (pow_le_pow_right₀ (by norm_num) w.p), w.least.trans he, rfl⟩, hl.trans_le ?_⟩
  exact two_le (by have := w.greatest; omega)

/-- C159 (to a wider floating type): the value is kept, so that casting there and back is the identity. -/
theorem C159_widen (w : Wider F G) {x : Ieee (F.arith bz)} (hx : Value F bz x) :
    flt (flt x : Ieee (G.arith bz')) = x ∧
    (∀ r : ℝ, x = fin F bz r → (flt x : Ieee (G.arith bz')) = fin G bz' r) ∧ Value G bz' (flt x) := by
  cases hx with
  | nan => exact ⟨rfl, (by intro r h; cases h), .nan⟩
  | top =>
    have e : (flt (.num ⊤ : Ieee (F.arith bz)) : Ieee (G.arith bz')) = .num ⊤ := congrArg Ieee.num (G.arith bz').top
    refine ⟨by rw [e]; exact congrArg Ieee.num (F.arith bz).top, fun r h => ?_, by rw [e]; exact .top⟩
    exact absurd (Ieee.num.inj h).symm (EReal.coe_ne_top r)
  | bot =>
    have e : (flt (.num ⊥ : Ieee (F.arith bz)) : Ieee (G.arith bz')) = .num ⊥ := congrArg Ieee.num (G.arith bz').bot
    refine ⟨by rw [e]; exact congrArg Ieee.num (F.arith bz).bot, fun r h => ?_, by rw [e]; exact .bot⟩
    exact absurd (Ieee.num.inj h).symm (EReal.coe_ne_bot r)
  | num hm hl =>
    rename_i x
    obtain ⟨m, l⟩ := w.mem hm hl
    have e : (flt (fin F bz x) : Ieee (G.arith bz')) = fin G bz' x := congrArg Ieee.num (round_fix m l)
    refine ⟨by rw [e]; exact congrArg Ieee.num (round_fix hm hl), fun r h => ?_, by rw [e]; exact .num m l⟩
    have : x = r := by exact_mod_cast Ieee.num.inj h
    rw [e, this]

/-- C159 (to a narrower floating type): a number that is not too large becomes the nearest number of the type; the numbers
from the middle of the greatest number and the next power of two become infinite. -/
theorem C159_narrow (x : ℝ) :
    (|x| < 2 ^ (F.emax + 1) - 2 ^ (F.emax - F.p) →
      ∃ y, (flt (fin G bz' x) : Ieee (F.arith bz)) = fin F bz y ∧ F.Mem y ∧ (∀ f, F.Mem f → |y - x| ≤ |f - x|) ∧
        |y - x| ≤ F.u * |x| + F.eta) ∧
    (2 ^ (F.emax + 1) - 2 ^ (F.emax - F.p) ≤ x → (flt (fin G bz' x) : Ieee (F.arith bz)) = .num ⊤) ∧
    (x ≤ -(2 ^ (F.emax + 1) - 2 ^ (F.emax - F.p)) → (flt (fin G bz' x) : Ieee (F.arith bz)) = .num ⊥) := by
  have m0 := F.min0
  have x0 := F.max0
  have t := nearest_top (F := F) (N := F.emax + 1) (by omega) x
  have b := nearest_bot (F := F) (N := F.emax + 1) (by omega) x
  rw [show F.emax + 1 - F.p - 1 = F.emax - F.p by ring] at t b
  have lp := F.limit_pos
  refine ⟨fun h => ?_, fun h => ?_, fun h => ?_⟩
  · rw [abs_lt] at h
    refine ⟨F.nearest x, congrArg Ieee.num (F.round_real ?_), F.mem_nearest x, fun f hf => F.nearest_best hf x, F.nearest_err x⟩
    rw [abs_lt]
    constructor
    · by_contra c
      have := b.1 (not_lt.1 c)
      linarith [h.1]
    · by_contra c
      have := t.1 (not_lt.1 c)
      linarith [h.2]
  · refine congrArg Ieee.num ?_
    show F.round (x : EReal) = ⊤
    unfold Format.round
    rw [if_neg (EReal.coe_ne_top x), if_neg (EReal.coe_ne_bot x), EReal.toReal_coe, if_pos (show F.limit ≤ _ from t.2 h)]
  · refine congrArg Ieee.num ?_
    show F.round (x : EReal) = ⊥
    have c := b.2 h
    unfold Format.round
    rw [if_neg (EReal.coe_ne_top x), if_neg (EReal.coe_ne_bot x), EReal.toReal_coe, if_neg ?_, if_pos (show _ ≤ -F.limit from c)]
    rw [not_le]
    unfold Format.limit at lp ⊢
    linarith

/-! ## `relu_scalar` -/

/-- C159 (`relu_scalar` of a floating type): the same as `relu` on every value, NaN and the infinities included. -/
theorem C159_relu_scalar_float (w : Wider F G) {x : Ieee (F.arith bz)} (hx : Value F bz x) :
    Ops.reluScalarFlt (G.arith bz') x = Kernels.scalarRelu x := by
  unfold Ops.reluScalarFlt Kernels.scalarRelu
  by_cases h : x > 0
  · rw [if_pos h, if_pos h]
    exact (C159_widen w hx).1
  · rw [if_neg h, if_neg h]
    exact congrArg Ieee.num F.round_zero

/-- C159 (`relu_scalar` of an integer type): zero for the numbers that are not positive; for types of at most 53 value bits
it is `relu`. -/
theorem C159_relu_scalar_int {t : IntTy} (ht : t.bits ≤ 64) {z : Int} (h : t.In z) :
    (z ≤ 0 → Ops.reluScalarInt (binary64.arith bz) t z = .ok 0) ∧
    (vbits t ≤ 53 → Ops.reluScalarInt (binary64.arith bz) t z = .ok (Kernels.scalarRelu z)) := by
  have z0 : z ≤ 0 → Ops.reluScalarInt (binary64.arith bz) t z = .ok 0 := by
    intro c
    unfold Ops.reluScalarInt
    rw [if_neg (by omega)]
    have i0 : t.In 0 := by
      refine ⟨?_, by rw [hi_vbits]; positivity⟩
      rcases lo_vbits t with e | e <;> rw [e]
      have : (0 : Int) < 2 ^ vbits t := by positivity
      omega
    have e : (0 : Ieee (binary64.arith bz)) = fin binary64 bz ((0 : Int) : ℝ) := by
      rw [Int.cast_zero]; rfl
    rw [e, toInt_fin, trunc_int, if_pos i0]
  refine ⟨z0, fun c => ?_⟩
  unfold Kernels.scalarRelu
  by_cases d : z > 0
  · rw [if_pos d]
    unfold Ops.reluScalarInt
    rw [if_pos d]
    exact (C159_round_trip (F := binary64) (by show (t.bits : ℤ) ≤ 1023; omega) h).2 c
  · rw [if_neg d]
    exact z0 (by omega)

/-- C159 (`relu_scalar` of `int64_t` and `uint64_t`): a positive number becomes the nearest `double`, which is the number
itself if and only if it is a `double`; the numbers from `2^63 - 512` (`2^64 - 1024`) are undefined. -/
theorem C159_relu_scalar_wide {t : IntTy} (ht : t.bits = 64) {z : Int} (h : t.In z) (hz : 0 < z) :
    (Ops.reluScalarInt (binary64.arith bz) t z = .ok z ↔ binary64.Mem z) ∧
    (t.hi - (if t.signed then 512 else 1024) ≤ z → Ops.reluScalarInt (binary64.arith bz) t z = .ub) ∧
    (z < t.hi - (if t.signed then 512 else 1024) → ∃ q, Ops.reluScalarInt (binary64.arith bz) t z = .ok q ∧ binary64.Mem q ∧
      (∀ f, binary64.Mem f → |(q : ℝ) - z| ≤ |f - z|) ∧ |(q : ℝ) - z| ≤ 2 ^ (-53 : ℤ) * z) := by
  have hF : (t.bits : ℤ) ≤ binary64.emax := by show (t.bits : ℤ) ≤ 1023; omega
  have e : Ops.reluScalarInt (binary64.arith bz) t z = toInt t (ofInt z : Ieee (binary64.arith bz)) := by
    unfold Ops.reluScalarInt
    rw [if_pos hz]
  have v : vbits t = 63 ∧ t.signed = true ∨ vbits t = 64 ∧ t.signed = false := by
    unfold vbits
    rw [ht]
    cases t.signed <;> simp
  have n : (2 : Int) ^ vbits t - 2 ^ (vbits t - binary64.p - 1) = t.hi - (if t.signed then 512 else 1024) := by
    rw [hi_vbits]
    rcases v with ⟨a, b⟩ | ⟨a, b⟩ <;> rw [a, b] <;> rfl
  obtain ⟨a, b⟩ := C159_round_trip_wide (F := binary64) (bz := bz) hF (by show 53 < _; omega) h
  rw [e, ← n]
  refine ⟨(C159_round_trip hF h).1, a, fun c => ?_⟩
  have za : |(z : ℝ)| = z := abs_of_pos (by exact_mod_cast hz)
  rw [za] at b
  exact b c

/-- C159: `relu_scalar` is not `relu` for `int64_t`: it maps `2^53 + 1` to `2^53`. -/
theorem C159_relu_scalar_changes :
    Ops.reluScalarInt (binary64.arith bz) ⟨true, 64⟩ (2 ^ 53 + 1) = .ok (2 ^ 53) ∧
    Kernels.scalarRelu (2 ^ 53 + 1 : Int) = 2 ^ 53 + 1 := by
  refine ⟨?_, by decide⟩
  unfold Ops.reluScalarInt
  rw [if_pos (by decide), ofInt_fin (t := ⟨true, 64⟩) (by decide) (by decide), toInt_fin]
  have hx : ((2 ^ 53 + 1 : Int) : ℝ) = 2 ^ 53 + 1 := by push_cast; ring
  have lg : Int.log 2 |((2 ^ 53 + 1 : Int) : ℝ)| = 53 := by
    rw [hx, abs_of_pos (by norm_num)]
    refine le_antisymm ?_ ((Int.zpow_le_iff_le_log (by norm_num) (by norm_num)).1 (by norm_num))
    have : Int.log 2 ((2 : ℝ) ^ 53 + 1) < 54 := (Int.lt_zpow_iff_log_lt (by norm_num) (by norm_num)).1 (by norm_num)
    omega
  have pl : binary64.place ((2 ^ 53 + 1 : Int) : ℝ) = 1 := by
    unfold Format.place
    rw [lg]
    rfl
  have ne : binary64.nearest ((2 ^ 53 + 1 : Int) : ℝ) = ((2 ^ 53 : Int) : ℝ) := by
    unfold Format.nearest
    rw [pl, hx]
    have d : ((2 : ℝ) ^ 53 + 1) / 2 ^ (1 : ℤ) = ((2 ^ 52 : ℤ) : ℝ) + 1 / 2 := by norm_num
    have fl : ⌊((2 ^ 52 : ℤ) : ℝ) + 1 / 2⌋ = 2 ^ 52 := by rw [Int.floor_eq_iff]; constructor <;> norm_num
    have fr : Int.fract (((2 ^ 52 : ℤ) : ℝ) + 1 / 2) = 1 / 2 := by rw [Int.fract, fl]; ring
    rw [d]
    unfold roundEven
    rw [fr, fl, if_neg (lt_irrefl _), if_neg (lt_irrefl _), if_pos (by decide)]
    norm_num
  rw [ne, trunc_int]
  rfl

/-! ## Casts and classes -/

/-- C159 (classes): a cast that keeps the order, as to a narrower floating type, can only make `argmax` choose an earlier
position, and only one whose element is converted to the same number; if no other element is, the class is the same. -/
theorem C159_argmax {R S : Type} [LinearOrder R] [Zero R] [LinearOrder S] [Zero S] {f : R → S} (hf : Monotone f) (t : IntTy)
    {rows n : Nat} (hn : 1 ≤ n) (X : Nat → Nat → R) {y y' : List Int} {b : List S} (hy : y.length = rows) (hy' : y'.length = rows)
    (hb : b.length = rows * n) :
    ∃ a a' : Nat → Nat, Kernels.argmax t n (tab [rows, n] (fn2 X)).data y = .ok ((List.range rows).map fun i => t.conv (a i)) ∧
      (Kernels.cast f (tab [rows, n] (fn2 X)).data b >>= fun x => Kernels.argmax t n x y') =
        .ok ((List.range rows).map fun i => t.conv (a' i)) ∧
      ∀ i < rows, a' i ≤ a i ∧ a i < n ∧ (∀ j < n, X i j ≤ X i (a i)) ∧ f (X i (a' i)) = f (X i (a i)) ∧
        ((∀ j < n, j ≠ a i → f (X i j) ≠ f (X i (a i))) → a' i = a i) := by
  obtain ⟨a, e, h⟩ := C57_argmax t hn X hy
  obtain ⟨a', e', h'⟩ := C57_argmax t hn (fun i j => f (X i j)) hy'
  refine ⟨a, a', e, ?_, fun i hi => ?_⟩
  · rw [C112_cast f (by simpa using hb), Outcome.ok_bind, ← e']
    congr 1
    rw [tab_map]
    refine congrArg Tensor.data (tab_congr fun idx hv => ?_)
    match idx, hv with
    | [i, j], _ => rfl
  · obtain ⟨h1, h2, h3⟩ := h i hi
    obtain ⟨g1, g2, g3⟩ := h' i hi
    have q : f (X i (a' i)) = f (X i (a i)) := le_antisymm (hf (h2 _ g1)) (g2 _ h1)
    refine ⟨?_, h1, h2, q, fun c => ?_⟩
    · by_contra d
      have := g3 (a i) (by omega)
      rw [q] at this
      exact lt_irrefl _ this
    · by_contra d
      exact c _ g1 d q

/-! ## The hypotheses are met -/

/-- `float` to `double` and back. -/
theorem exWider : Wider binary32 binary64 := ⟨by decide, by decide, by decide⟩

example (x : Ieee (binary32.arith bz)) (hx : Value binary32 bz x) :
    flt (flt x : Ieee (binary64.arith bz')) = x ∧ Ops.reluScalarFlt (binary64.arith bz') x = Kernels.scalarRelu x :=
  ⟨(C159_widen exWider hx).1, C159_relu_scalar_float exWider hx⟩

example : Value binary32 bz (fin binary32 bz (3 * 2 ^ (-1 : ℤ))) :=
  .num ⟨3, -1, by decide, by decide, by norm_num⟩ (by unfold Format.limit; rw [abs_of_pos (by norm_num)]; norm_num [binary32])

/-- `int32_t` to `double` and back is the identity; to `float` and back it is undefined for the greatest `int32_t`. -/
example {z : Int} (h : i32.In z) : toInt i32 (ofInt z : Ieee (binary64.arith bz)) = .ok z :=
  (C159_round_trip (F := binary64) (by decide) h).2 (by decide)

example : toInt i32 (ofInt (2 ^ 31 - 1) : Ieee (binary32.arith bz)) = .ub :=
  (C159_round_trip_wide (F := binary32) (t := i32) (by decide) (by decide) (by decide)).1 (by decide)

example : ∃ q, toInt i32 (ofInt (2 ^ 31 - 65) : Ieee (binary32.arith bz)) = .ok q :=
  let ⟨q, h, _⟩ := (C159_round_trip_wide (F := binary32) (bz := bz) (t := i32) (z := 2 ^ 31 - 65) (by decide) (by decide)
    (by decide)).2 (by decide)
  ⟨q, h⟩

/-- Pixels: `uint8_t` to `float`. -/
example {z : Int} (h : (⟨false, 8⟩ : IntTy).In z) : ∃ x, (ofInt z : Ieee (binary32.arith bz)) = fin binary32 bz x ∧ x = z :=
  let ⟨x, h1, _, _, _, h2⟩ := C159_int_float (F := binary32) (bz := bz) (by decide) h
  ⟨x, h1, h2 ((in_abs h).trans (by decide))⟩

/-- A `float` below 256 and above -1 is cast to a `uint8_t`; -1 and 256 are undefined. -/
example (x : ℝ) (h1 : -1 < x) (h2 : x < 256) : ∃ q, toInt ⟨false, 8⟩ (fin binary32 bz x) = .ok q :=
  (C159_float_int _ x).2.1 (by norm_num [IntTy.lo]; exact h1) (by norm_num [IntTy.hi]; exact h2)

example : toInt ⟨false, 8⟩ (fin binary32 bz 256) = .ub ∧ toInt ⟨false, 8⟩ (fin binary32 bz (-1)) = .ub :=
  ⟨(C159_float_int _ _).2.2 (.inr (by norm_num [IntTy.hi])), (C159_float_int _ _).2.2 (.inl (by norm_num [IntTy.lo]))⟩

/-- The whole tensor is undefined then. -/
example : Kernels.castWith (toInt ⟨false, 8⟩) [fin binary32 bz 1, .nan] [5, 5] = .ub := by
  refine C159_cast_undefined rfl ?_ ⟨.nan, by simp, rfl⟩
  intro a ha
  rcases List.mem_cons.1 ha with rfl | ha
  · exact .inr ((C159_float_int _ _).2.1 (by norm_num [IntTy.lo]) (by norm_num [IntTy.hi]))
  · obtain rfl := List.mem_singleton.1 ha
    exact .inl rfl

example : Kernels.castWith (fun z => toInt i32 (ofInt z : Ieee (binary64.arith bz))) [7, -3] [0, 0] = .ok [7, -3] :=
  C159_cast (g := id) rfl fun a ha => by
    have : i32.In a := by
      rcases List.mem_cons.1 ha with rfl | ha
      · decide
      · obtain rfl := List.mem_singleton.1 ha
        decide
    exact (C159_round_trip (F := binary64) (by decide) this).2 (by decide)

/-- `double` to `float`: numbers up to `2^127` stay finite, `2^128` becomes infinite. -/
example : (flt (fin binary64 bz' (2 ^ 128)) : Ieee (binary32.arith bz)) = .num ⊤ :=
  (C159_narrow _).2.1 (by norm_num [binary32])

example (x : ℝ) (h : |x| ≤ 2 ^ 127) : ∃ y, (flt (fin binary64 bz' x) : Ieee (binary32.arith bz)) = fin binary32 bz y :=
  let ⟨y, e, _⟩ := (C159_narrow (F := binary32) (bz := bz) (bz' := bz') (G := binary64) x).1
    (h.trans_lt (by norm_num [binary32]))
  ⟨y, e⟩

/-- The last 512 numbers of `int64_t` are undefined, the number before is not. -/
example : Ops.reluScalarInt (binary64.arith bz) ⟨true, 64⟩ (2 ^ 63 - 512) = .ub ∧
    ∃ q, Ops.reluScalarInt (binary64.arith bz) ⟨true, 64⟩ (2 ^ 63 - 513) = .ok q :=
  ⟨(C159_relu_scalar_wide rfl (by decide) (by decide)).2.1 (by decide),
    let ⟨q, h, _⟩ := (C159_relu_scalar_wide (bz := bz) (t := ⟨true, 64⟩) (z := 2 ^ 63 - 513) rfl (by decide) (by decide)).2.2
      (by decide)
    ⟨q, h⟩⟩

example {z : Int} (h : i32.In z) : Ops.reluScalarInt (binary64.arith bz) i32 z = .ok (Kernels.scalarRelu z) :=
  (C159_relu_scalar_int (by decide) h).2 (by decide)

/-- 300 becomes 44 in a `uint8_t`. -/
example : (⟨false, 8⟩ : IntTy).conv 300 = 44 ∧ ¬ (⟨false, 8⟩ : IntTy).In 300 := by decide

example : (⟨false, 8⟩ : IntTy).conv 300 ≠ 300 := fun h => absurd ((C159_int_int (by decide) 300).2.2.1 h) (by decide)

/-- Rounding 2.6 and 3.4 to integers makes the two classes equal, and `argmax` chooses the first. -/
theorem exHalfUp : Monotone (fun x : ℚ => ⌊x + 1 / 2⌋) := fun _ _ h => Int.floor_mono (by linarith)

example : ∃ a a' : Nat → Nat, a' 0 ≤ a 0 ∧
    Kernels.argmax i32 2 (tab [1, 2] (fn2 fun _ j => if j = 0 then (26 / 10 : ℚ) else 34 / 10)).data [0] =
      .ok [i32.conv (a 0)] :=
  let ⟨a, a', h, _, h'⟩ := C159_argmax exHalfUp i32 (rows := 1) (n := 2) (by decide)
    (fun _ j => if j = 0 then (26 / 10 : ℚ) else 34 / 10) (y := [0]) (y' := [0]) (b := [0, 0]) rfl rfl rfl
  ⟨a, a', (h' 0 (by decide)).1, h⟩

end StdNN
