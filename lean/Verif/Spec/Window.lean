import Verif.Spec.Sample
import Mathlib.Algebra.Group.Defs
/-!
# Specification of sliding windows over padded images
-/
namespace StdNN.Spec
variable {R : Type}

/-- The geometry of one image axis: kernel size, stride, rate, padding left and right, input length, output length. -/
structure Axis where
  k : Nat
  s : Nat
  r : Nat
  l : Nat
  q : Nat
  n : Nat
  m : Nat

namespace Axis

/-- The windows cover the padded axis exactly. -/
def Covers (a : Axis) : Prop := OutLen a.k a.s a.r a.l a.q a.n a.m

instance (a : Axis) : Decidable a.Covers := by unfold Covers; infer_instance

/-- Position in the padded axis of tap `u` of window `j`. -/
def pos (a : Axis) (j u : Nat) : Nat := j * a.s + u * a.r

/-- Tap `u` of window `j` is the element `i` of the input (not padding). -/
def Hits (a : Axis) (j u i : Nat) : Prop := i < a.n ∧ a.pos j u = a.l + i

instance (a : Axis) (j u i : Nat) : Decidable (a.Hits j u i) := by unfold Hits; infer_instance

end Axis

/-- A line of `n` cells extended by zeros on both sides, `l` of them on the left: its value at position `p`. -/
def padded [Zero R] (l n : Nat) (f : Nat → R) (p : Nat) : R :=
  if l ≤ p ∧ p < l + n then f (p - l) else 0

/-- The pixel of the zero-padded image `X` under tap `(u, v)` of window `(i, j)`. -/
def window [Zero R] (H W : Axis) (X : Nat → Nat → R) (i j u v : Nat) : R :=
  padded H.l H.n (fun a => padded W.l W.n (fun b => X a b) (W.pos j v)) (H.pos i u)

end StdNN.Spec
