import Mathlib.Data.List.Perm.Basic
import Verif.Model.EngineOrder
import Verif.Spec.Float
/-!
# Specification: orders of summation, the fused multiply-add of IEEE 754
-/
namespace StdNN

namespace SumOrder

/-- The products that are added up. -/
def leaves : SumOrder → List Nat
  | zero => []
  | mul p => [p]
  | add s t => s.leaves ++ t.leaves
  | fma s p => s.leaves ++ [p]

/-- The number of accumulators that start with zero. -/
def zeros : SumOrder → Nat
  | zero => 1
  | mul _ => 0
  | add s t => s.zeros + t.zeros
  | fma s _ => s.zeros

/-- The greatest number of roundings that a product goes through. -/
def depth : SumOrder → Nat
  | zero => 0
  | mul _ => 1
  | add s t => max s.depth t.depth + 1
  | fma s _ => s.depth + 1

/-- The number of operations. -/
def ops : SumOrder → Nat
  | zero => 0
  | mul _ => 1
  | add s t => s.ops + t.ops + 1
  | fma s _ => s.ops + 1

/-- Every one of the products `0, ..., n-1` is added up once, with at most `z` accumulators that start with zero. -/
def Of (n z : Nat) (t : SumOrder) : Prop := t.leaves.Perm (List.range n) ∧ t.zeros ≤ z

/-- The increasing order without fused operations, starting with zero. -/
def increasing : Nat → SumOrder
  | 0 => zero
  | n + 1 => add (increasing n) (mul n)

end SumOrder

namespace Spec.Ieee
variable {A : Arith}

open Classical in
/-- Fused multiply-add: `a * b + c` rounded once; NaN where the product or the sum of the exact numbers is undefined. -/
noncomputable def fma : Ieee A → Ieee A → Ieee A → Ieee A
  | num a, num b, num c =>
    if (a = 0 ∧ (b = ⊤ ∨ b = ⊥)) ∨ (b = 0 ∧ (a = ⊤ ∨ a = ⊥)) ∨ (a * b = ⊤ ∧ c = ⊥) ∨ (a * b = ⊥ ∧ c = ⊤) then nan
    else num (A.rnd (a * b + c))
  | _, _, _ => nan

end Spec.Ieee
end StdNN
