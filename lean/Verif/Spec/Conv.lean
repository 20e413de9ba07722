import Verif.Spec.Window
import Mathlib.Algebra.BigOperators.Group.Finset.Basic
import Mathlib.Algebra.Ring.Defs
/-!
# Specification of convolutions
-/
namespace StdNN.Spec
variable {R : Type} [Semiring R]
open Finset

/-- Cross-correlation of the image `X` (height, width, channel) with the filter `Y` (tap row, tap column, channel in,
channel out) at output pixel `(i, j)`, output channel `d`. -/
def conv2 (H W : Axis) (c : Nat) (X : Nat → Nat → Nat → R) (Y : Nat → Nat → Nat → Nat → R) (i j d : Nat) : R :=
  ∑ u ∈ range H.k, ∑ v ∈ range W.k, ∑ k ∈ range c, window H W (fun a b => X a b k) i j u v * Y u v k d

/-- One-dimensional cross-correlation. -/
def conv1 (A : Axis) (X Y : Nat → R) (j : Nat) : R :=
  ∑ u ∈ range A.k, Y u * padded A.l A.n X (A.pos j u)

end StdNN.Spec
