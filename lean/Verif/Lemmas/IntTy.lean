import Verif.Basic.IntTy
import Mathlib.Algebra.Order.Ring.Int
/-!
# Exactness of C++ arithmetic inside the representable range
-/
namespace StdNN
namespace IntTy

theorem two_pow_split {n : Nat} (h : 1 ≤ n) : (2 : Int) ^ n = 2 * 2 ^ (n - 1) := by
  obtain ⟨m, rfl⟩ : ∃ m, n = m + 1 := ⟨n - 1, by omega⟩
  simp [Int.pow_succ, Int.mul_comm]

theorem conv_eq {t : IntTy} (ht : t.Std) {v : Int} (h : t.In v) : t.conv v = v := by
  unfold Std at ht
  have h2 := two_pow_split (n := t.bits) (by omega)
  unfold In lo hi at h
  unfold conv
  by_cases hs : t.signed
  · simp only [hs, if_true] at h ⊢
    have hp : (0 : Int) < 2 ^ (t.bits - 1) := Int.pow_pos (by decide)
    rw [Int.bmod_eq_of_le]
    · push_cast; omega
    · push_cast; omega
  · simp only [hs] at h ⊢
    exact Int.emod_eq_of_lt h.1 h.2

theorem arith_eq {t : IntTy} {v : Int} (h : t.In v) : t.arith v = .ok v := by
  unfold arith
  by_cases hs : t.signed
  · simp [hs, h]
  · simp only [hs]
    unfold In lo hi at h
    simp only [hs] at h
    have := Int.emod_eq_of_lt h.1 h.2
    simpa using this

theorem add_eq {t : IntTy} (ht : t.Std) {a b : Int} (ha : t.In a) (hb : t.In b) (h : t.In (a + b)) :
    t.add a b = .ok (a + b) := by
  simp [add, conv_eq ht ha, conv_eq ht hb, arith_eq h]

theorem sub_eq {t : IntTy} (ht : t.Std) {a b : Int} (ha : t.In a) (hb : t.In b) (h : t.In (a - b)) :
    t.sub a b = .ok (a - b) := by
  simp [sub, conv_eq ht ha, conv_eq ht hb, arith_eq h]

theorem mul_eq {t : IntTy} (ht : t.Std) {a b : Int} (ha : t.In a) (hb : t.In b) (h : t.In (a * b)) :
    t.mul a b = .ok (a * b) := by
  simp [mul, conv_eq ht ha, conv_eq ht hb, arith_eq h]

/-- A non-negative value below some representable value is representable. -/
theorem In.mono {t : IntTy} {a b : Int} (hb : t.In b) (h0 : 0 ≤ a) (h : a ≤ b) : t.In a := by
  unfold In lo hi at *
  by_cases hs : t.signed <;> simp only [hs, if_true] at hb ⊢
  · have hp : (0 : Int) < 2 ^ (t.bits - 1) := Int.pow_pos (by decide)
    omega
  · exact ⟨h0, by simp at hb ⊢; omega⟩

theorem In.zero (t : IntTy) : t.In 0 := by
  unfold In lo hi
  have hp : (0 : Int) < 2 ^ (t.bits - 1) := Int.pow_pos (by decide)
  have hp' : (0 : Int) < 2 ^ t.bits := Int.pow_pos (by decide)
  by_cases hs : t.signed <;> simp [hs]

theorem In.small {t : IntTy} (ht : t.Std) {v : Int} (h0 : 0 ≤ v) (h : v < 2 ^ 31) : t.In v := by
  unfold In lo hi
  unfold Std at ht
  have hp : (2 : Int) ^ 31 ≤ 2 ^ (t.bits - 1) := pow_le_pow_right₀ (by decide) (by omega)
  have h2 := two_pow_split (n := t.bits) (by omega)
  by_cases hs : t.signed <;> simp only [hs, if_true] <;> constructor <;> omega

theorem div_eq {t : IntTy} (ht : t.Std) {a b : Int} (ha : t.In a) (hb : t.In b) (h0 : 0 ≤ a) (h1 : 0 < b) :
    t.div a b = .ok (a / b) := by
  have hq : t.In (a / b) :=
    ha.mono (Int.ediv_nonneg h0 (by omega)) (Int.ediv_le_self _ h0)
  simp [div, conv_eq ht ha, conv_eq ht hb, Int.tdiv_eq_ediv_of_nonneg h0, arith_eq hq]
  omega

theorem mod_eq {t : IntTy} (ht : t.Std) {a b : Int} (ha : t.In a) (hb : t.In b) (h0 : 0 ≤ a) (h1 : 0 < b) :
    t.mod a b = .ok (a % b) := by
  have hq : t.In (a / b) :=
    ha.mono (Int.ediv_nonneg h0 (by omega)) (Int.ediv_le_self _ h0)
  simp [mod, conv_eq ht ha, conv_eq ht hb, Int.tdiv_eq_ediv_of_nonneg h0, Int.tmod_eq_emod_of_nonneg h0, hq]
  omega

theorem lt_eq {t : IntTy} (ht : t.Std) {a b : Int} (ha : t.In a) (hb : t.In b) :
    t.lt a b = decide (a < b) := by
  simp [lt, conv_eq ht ha, conv_eq ht hb]

theorem le_eq {t : IntTy} (ht : t.Std) {a b : Int} (ha : t.In a) (hb : t.In b) :
    t.le a b = decide (a ≤ b) := by
  simp [le, conv_eq ht ha, conv_eq ht hb]

theorem common_self (t : IntTy) : common t t = t := by
  simp [common]

theorem common_std {a b : IntTy} (ha : a.Std) (hb : b.Std) : (common a b).Std := by
  unfold common Std at *
  split
  · exact ha
  · split
    · exact hb
    · exact ha

/-- A non-negative value representable in one operand type is representable in the common type. -/
theorem In.common_left {a b : IntTy} {v : Int} (h : a.In v) (h0 : 0 ≤ v) : (common a b).In v := by
  unfold common
  split
  · exact h
  · have e : ∀ m n : Nat, m ≤ n → (2 : Int) ^ m ≤ 2 ^ n := fun m n h =>
      pow_le_pow_right₀ (by decide) h
    have n0 : ∀ m : Nat, (0 : Int) < 2 ^ m := fun m => Int.pow_pos (by decide)
    split
    · rename_i h1 h2
      unfold In lo hi at *
      have e1 := e (a.bits) (b.bits - 1) (by omega)
      have e2 := e (a.bits - 1) (a.bits) (by omega)
      have e3 := e (b.bits - 1) (b.bits) (by omega)
      have := n0 (b.bits - 1)
      by_cases hs : a.signed <;> by_cases hs' : b.signed <;> simp [hs, hs'] at * <;> omega
    · rename_i h1 h2
      unfold In lo hi at *
      have e2 := e (a.bits - 1) (a.bits) (by omega)
      by_cases hs : a.signed <;> by_cases hs' : b.signed <;> simp [hs, hs'] at * <;> omega

theorem In.common_right {a b : IntTy} {v : Int} (h : b.In v) (h0 : 0 ≤ v) : (common a b).In v := by
  unfold common
  split
  · have e : ∀ m n : Nat, m ≤ n → (2 : Int) ^ m ≤ 2 ^ n := fun m n h =>
      pow_le_pow_right₀ (by decide) h
    have n0 : ∀ m : Nat, (0 : Int) < 2 ^ m := fun m => Int.pow_pos (by decide)
    unfold In lo hi at *
    have e1 := e (b.bits) (a.bits - 1) (by omega)
    have e2 := e (b.bits - 1) (b.bits) (by omega)
    have e3 := e (a.bits - 1) (a.bits) (by omega)
    have := n0 (a.bits - 1)
    by_cases hs : a.signed <;> by_cases hs' : b.signed <;> simp [hs, hs'] at * <;> omega
  · split
    · exact h
    · rename_i h1 h2
      have hb : b.bits = a.bits := by omega
      have e2 : (2 : Int) ^ (a.bits - 1) ≤ 2 ^ a.bits :=
        pow_le_pow_right₀ (by decide) (by omega)
      unfold In lo hi at *
      rw [hb] at h
      by_cases hs : a.signed <;> by_cases hs' : b.signed <;> simp [hs, hs'] at * <;> omega

end IntTy
end StdNN
