import Mathlib.Algebra.BigOperators.Group.Finset.Basic
import Mathlib.Algebra.BigOperators.Intervals
/-!
# Sums in a fixed order

`seqSum n f` is `((0 + f 0) + f 1) + ...`: with no laws assumed this fixes a floating-point result completely. In a
commutative monoid it is the usual finite sum.
-/
namespace StdNN.Spec
variable {R : Type}

/-- `((0 + f 0) + f 1) + ... + f (n-1)`, associating to the left. -/
def seqSum [Add R] [Zero R] : Nat → (Nat → R) → R
  | 0, _ => 0
  | n + 1, f => seqSum n f + f n

theorem seqSum_eq_sum [AddCommMonoid R] (n : Nat) (f : Nat → R) :
    seqSum n f = ∑ i ∈ Finset.range n, f i := by
  induction n with
  | zero => rfl
  | succ n ih => rw [Finset.sum_range_succ, seqSum, ih]

theorem seqSum_congr [Add R] [Zero R] {n : Nat} {f g : Nat → R} (h : ∀ i < n, f i = g i) :
    seqSum n f = seqSum n g := by
  induction n with
  | zero => rfl
  | succ n ih => rw [seqSum, seqSum, ih (fun i hi => h i (by omega)), h n (by omega)]

theorem seqSum_eq_foldl [Add R] [Zero R] (n : Nat) (f : Nat → R) :
    (List.range n).foldl (fun s i => s + f i) 0 = seqSum n f := by
  induction n with
  | zero => rfl
  | succ n ih => simp [List.range_succ, List.foldl_append, seqSum, ih]

end StdNN.Spec
