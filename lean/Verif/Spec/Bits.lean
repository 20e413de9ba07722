import Verif.Spec.Binary
import Mathlib.Data.Set.Card
/-!
# Specification: bit patterns of the binary formats

The interchange encoding of IEEE 754: a sign bit, then the biased exponent, then the trailing significand. The bits behind
the sign, read as one number, are the *magnitude*.
-/
namespace StdNN.Spec.Format
variable (F : Format)

/-- The magnitude of the infinities: all bits of the exponent are set, no others. -/
def infinity : Nat := (F.emax - F.emin + 2).toNat * 2 ^ (F.p - 1)

/-- The number with the magnitude `m`: exponent `m / 2 ^ (p - 1)`, trailing significand `m % 2 ^ (p - 1)`; a zero exponent
marks the subnormal numbers. -/
noncomputable def ofMagnitude (m : Nat) : ℝ :=
  if m / 2 ^ (F.p - 1) = 0 then (m % 2 ^ (F.p - 1) : Nat) * 2 ^ (F.emin - (F.p - 1))
  else (2 ^ (F.p - 1) + m % 2 ^ (F.p - 1) : Nat) * 2 ^ (F.emin - (F.p - 1) + ((m / 2 ^ (F.p - 1) : Nat) - 1))

open Classical in
/-- What a pattern of `w` bits stands for: `none` is NaN. The two zeros stand for the same. -/
noncomputable def decode {w : Nat} (b : BitVec w) : Option EReal :=
  let m := b.toNat % 2 ^ (w - 1)
  if F.infinity < m then none
  else
    let x : EReal := if m = F.infinity then ⊤ else (F.ofMagnitude m : ℝ)
    some (if 2 ^ (w - 1) ≤ b.toNat then -x else x)

/-- The values of the format: its numbers and the infinities. -/
def Value (x : EReal) : Prop := x = ⊤ ∨ x = ⊥ ∨ ∃ r : ℝ, x = r ∧ F.Mem r ∧ |r| < F.limit

/-- How many values of the format one passes on the way from `x` to `y`, the end counted. -/
noncomputable def steps (x y : EReal) : Nat := Set.ncard {z | F.Value z ∧ min x y < z ∧ z ≤ max x y}

end StdNN.Spec.Format
