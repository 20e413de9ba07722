import Mathlib.Data.EReal.Operations
import Mathlib.Data.EReal.Inv
import Mathlib.Data.Real.Basic
/-!
# Specification: floating point

Two abstractions of `float` and `double`, used to instantiate the element type of the model.

`Fl rnd` are real numbers whose sum, difference, product and quotient are rounded by `rnd` (the standard model of rounding error analysis: no
overflow, no underflow, no NaN). `Ieee A` has NaN and the two infinities; `A` is any monotone rounding that keeps 0, 1 and
the infinities, so it may overflow to an infinity and underflow to 0. The two zeros are not told apart; what dividing by
a zero gives is left open (`byZero`).
-/
namespace StdNN.Spec

/-- Real numbers with rounded sum, difference, product and quotient. -/
def Fl (_ : ℝ → ℝ) : Type := ℝ

namespace Fl
variable {rnd : ℝ → ℝ}

/-- The real number that a rounded number is. -/
def val (x : Fl rnd) : ℝ := x

noncomputable instance : Zero (Fl rnd) := ⟨(0 : ℝ)⟩
noncomputable instance : Add (Fl rnd) := ⟨fun a b => rnd (a.val + b.val)⟩
noncomputable instance : Mul (Fl rnd) := ⟨fun a b => rnd (a.val * b.val)⟩
noncomputable instance : One (Fl rnd) := ⟨(1 : ℝ)⟩
noncomputable instance : Sub (Fl rnd) := ⟨fun a b => rnd (a.val - b.val)⟩
noncomputable instance : Div (Fl rnd) := ⟨fun a b => rnd (a.val / b.val)⟩
noncomputable instance : Neg (Fl rnd) := ⟨fun a => (-a.val : ℝ)⟩

noncomputable instance : LinearOrder (Fl rnd) := inferInstanceAs (LinearOrder ℝ)

theorem val_zero : (0 : Fl rnd).val = 0 := rfl
theorem val_add (a b : Fl rnd) : (a + b).val = rnd (a.val + b.val) := rfl
theorem val_mul (a b : Fl rnd) : (a * b).val = rnd (a.val * b.val) := rfl
theorem val_one : (1 : Fl rnd).val = 1 := rfl
theorem val_sub (a b : Fl rnd) : (a - b).val = rnd (a.val - b.val) := rfl
theorem val_div (a b : Fl rnd) : (a / b).val = rnd (a.val / b.val) := rfl
theorem val_neg (a : Fl rnd) : (-a).val = -a.val := rfl
theorem val_lt (a b : Fl rnd) : a < b ↔ a.val < b.val := Iff.rfl
theorem val_le (a b : Fl rnd) : a ≤ b ↔ a.val ≤ b.val := Iff.rfl

end Fl

/-- `rnd` has relative error at most `u`. -/
def RelErr (u : ℝ) (rnd : ℝ → ℝ) : Prop := ∀ x, |rnd x - x| ≤ u * |x|

/-- `a` is `b` times a factor between `1/q` and `q`. -/
def Factor (q a b : ℝ) : Prop := ∃ t, 1 / q ≤ t ∧ t ≤ q ∧ a = t * b

/-- A rounding mode, and what a number divided by a zero gives (`none` is NaN). -/
structure Arith where
  rnd : EReal → EReal
  mono : Monotone rnd
  zero : rnd 0 = 0
  one : rnd 1 = 1
  top : rnd ⊤ = ⊤
  bot : rnd ⊥ = ⊥
  byZero : EReal → Option EReal

/-- NaN, or a real number or an infinity. -/
inductive Ieee (A : Arith) where
  | nan
  | num (x : EReal)

namespace Ieee
variable {A : Arith}

open Classical in
/-- Sum; the sum of opposite infinities is NaN. -/
noncomputable def add : Ieee A → Ieee A → Ieee A
  | num a, num b => if (a = ⊤ ∧ b = ⊥) ∨ (a = ⊥ ∧ b = ⊤) then nan else num (A.rnd (a + b))
  | _, _ => nan

/-- Negation. -/
noncomputable def neg : Ieee A → Ieee A
  | num a => num (-a)
  | nan => nan

open Classical in
/-- Product; zero times an infinity is NaN. -/
noncomputable def mul : Ieee A → Ieee A → Ieee A
  | num a, num b => if (a = 0 ∧ (b = ⊤ ∨ b = ⊥)) ∨ (b = 0 ∧ (a = ⊤ ∨ a = ⊥)) then nan else num (A.rnd (a * b))
  | _, _ => nan

open Classical in
/-- Quotient; the quotient of two infinities is NaN. -/
noncomputable def div : Ieee A → Ieee A → Ieee A
  | num a, num b =>
    if b = 0 then (match A.byZero a with | some x => num x | none => nan)
    else if (a = ⊤ ∨ a = ⊥) ∧ (b = ⊤ ∨ b = ⊥) then nan
    else num (A.rnd (a / b))
  | _, _ => nan

/-- A function of the extended reals, NaN giving NaN. -/
def lift (f : EReal → EReal) : Ieee A → Ieee A
  | num a => num (f a)
  | nan => nan

/-- `<`: false if an operand is NaN. -/
def lt : Ieee A → Ieee A → Prop
  | num a, num b => a < b
  | _, _ => False

noncomputable instance : Zero (Ieee A) := ⟨num 0⟩
noncomputable instance : One (Ieee A) := ⟨num 1⟩
noncomputable instance : Add (Ieee A) := ⟨add⟩
noncomputable instance : Neg (Ieee A) := ⟨neg⟩
noncomputable instance : Sub (Ieee A) := ⟨fun a b => add a (neg b)⟩
noncomputable instance : Mul (Ieee A) := ⟨mul⟩
noncomputable instance : Div (Ieee A) := ⟨div⟩
instance : LT (Ieee A) := ⟨lt⟩
open Classical in
noncomputable instance : DecidableLT (Ieee A) := fun a b => inferInstanceAs (Decidable (lt a b))

theorem zero_def : (0 : Ieee A) = num 0 := rfl
theorem one_def : (1 : Ieee A) = num 1 := rfl
theorem neg_num (a : EReal) : (-(num a) : Ieee A) = num (-a) := rfl
theorem num_lt {a b : EReal} : (num a : Ieee A) < num b ↔ a < b := Iff.rfl
theorem not_nan_lt (a : Ieee A) : ¬ (nan : Ieee A) < a := by cases a <;> exact id
theorem not_lt_nan (a : Ieee A) : ¬ a < (nan : Ieee A) := by cases a <;> exact id
theorem nan_add (a : Ieee A) : nan + a = nan := by cases a <;> rfl
theorem add_nan (a : Ieee A) : a + nan = nan := by cases a <;> rfl
theorem sub_nan (a : Ieee A) : a - nan = nan := by cases a <;> rfl
theorem nan_sub (a : Ieee A) : nan - a = nan := by cases a <;> rfl
theorem div_nan (a : Ieee A) : a / nan = nan := by cases a <;> rfl

theorem num_add {a b : EReal} (h : ¬((a = ⊤ ∧ b = ⊥) ∨ (a = ⊥ ∧ b = ⊤))) :
    (num a + num b : Ieee A) = num (A.rnd (a + b)) := if_neg h

theorem num_mul {a b : EReal} (h : ¬((a = 0 ∧ (b = ⊤ ∨ b = ⊥)) ∨ (b = 0 ∧ (a = ⊤ ∨ a = ⊥)))) :
    (num a * num b : Ieee A) = num (A.rnd (a * b)) := if_neg h

theorem num_div {a b : EReal} (h0 : b ≠ 0) (h : ¬((a = ⊤ ∨ a = ⊥) ∧ (b = ⊤ ∨ b = ⊥))) :
    (num a / num b : Ieee A) = num (A.rnd (a / b)) := by
  show div _ _ = _
  unfold div
  dsimp only
  rw [if_neg h0, if_neg h]

theorem num_sub {a b : EReal} (h : ¬((a = ⊤ ∧ b = ⊤) ∨ (a = ⊥ ∧ b = ⊥))) :
    (num a - num b : Ieee A) = num (A.rnd (a - b)) := by
  show add _ (neg _) = _
  unfold add neg
  dsimp only
  rw [if_neg, sub_eq_add_neg]
  simpa [EReal.neg_eq_bot_iff, EReal.neg_eq_top_iff] using h

/-- A number minus itself is 0, or NaN for an infinity. -/
theorem num_sub_self (a : EReal) : (num a - num a : Ieee A) = nan ∧ (a = ⊤ ∨ a = ⊥) ∨
    (num a - num a : Ieee A) = num 0 ∧ a ≠ ⊤ ∧ a ≠ ⊥ := by
  by_cases h : a = ⊤ ∨ a = ⊥
  · left
    refine ⟨?_, h⟩
    show add _ (neg _) = _
    unfold add neg
    dsimp only
    rw [if_pos]
    rcases h with rfl | rfl <;> simp
  · right
    push Not at h
    refine ⟨?_, h⟩
    rw [num_sub (by simp [h.1, h.2]), EReal.sub_self h.1 h.2, A.zero]

end Ieee
end StdNN.Spec
