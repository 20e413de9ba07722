import Mathlib.Data.Int.Log
import Mathlib.Algebra.Order.Archimedean.Real.Basic
import Mathlib.Algebra.Ring.Int.Parity
import Mathlib.Algebra.Order.Floor.Ring
import Verif.Spec.Float
/-!
# Specification: the binary formats of IEEE 754

Rounding to nearest, ties to even, with gradual underflow and overflow to the infinities. `binary32` is `float`,
`binary64` is `double`.
-/
namespace StdNN.Spec

open Classical in
/-- The nearest integer, the even one of two that are equally near. -/
noncomputable def roundEven (x : ℝ) : ℤ :=
  if Int.fract x < 1 / 2 then ⌊x⌋
  else if 1 / 2 < Int.fract x then ⌊x⌋ + 1
  else if Even ⌊x⌋ then ⌊x⌋ else ⌊x⌋ + 1

/-- Precision (significant bits), least and greatest exponent of a normal number. -/
structure Format where
  p : Nat
  emin : ℤ
  emax : ℤ
  p1 : 2 ≤ p
  min0 : emin ≤ 0
  max0 : 0 ≤ emax

namespace Format

/-- `float`. -/
def binary32 : Format := ⟨24, -126, 127, by decide, by decide, by decide⟩
/-- `double`. -/
def binary64 : Format := ⟨53, -1022, 1023, by decide, by decide, by decide⟩

variable (F : Format)

/-- The numbers of the format, were there no greatest exponent: multiples of a power of two with `p` significant bits. -/
def Mem (f : ℝ) : Prop := ∃ (k e : ℤ), |k| < 2 ^ F.p ∧ F.emin - (F.p - 1) ≤ e ∧ f = k * 2 ^ e

/-- The exponent of the last place of numbers of the size of `x`. -/
noncomputable def place (x : ℝ) : ℤ := max (Int.log 2 |x|) F.emin - (F.p - 1)

/-- `x` rounded to nearest, ties to even, were there no greatest exponent. -/
noncomputable def nearest (x : ℝ) : ℝ := roundEven (x / 2 ^ F.place x) * 2 ^ F.place x

/-- The least power of two that is too large for the format. -/
noncomputable def limit : ℝ := 2 ^ (F.emax + 1)

open Classical in
/-- Rounding of the standard: overflow if the rounded number is too large. -/
noncomputable def round (x : EReal) : EReal :=
  if x = ⊤ then ⊤ else if x = ⊥ then ⊥
  else if F.limit ≤ F.nearest x.toReal then ⊤
  else if F.nearest x.toReal ≤ -F.limit then ⊥
  else (F.nearest x.toReal : ℝ)

/-- Unit roundoff: half the distance of 1 and the next number. -/
noncomputable def u : ℝ := 2 ^ (-(F.p : ℤ))

/-- Half the least positive number. -/
noncomputable def eta : ℝ := 2 ^ (F.emin - F.p)

end Format
end StdNN.Spec
