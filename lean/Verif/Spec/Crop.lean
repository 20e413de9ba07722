import Mathlib.Algebra.BigOperators.Ring.Finset
import Mathlib.Algebra.Order.Group.Unbundled.Int
/-!
# Specification of windows over padded or cropped images

A padding of `l` cells adds `l` zeros before the first element if `l` is positive, and removes the first `-l` elements if it
is negative; likewise `q` behind the last element.
-/
namespace StdNN.Spec
variable {R : Type}
open Finset

/-- One axis: kernel size, stride, rate, length of the input and of the output, and the two paddings, which may be negative. -/
structure ZAxis where
  k : Nat
  s : Nat
  r : Nat
  n : Nat
  m : Nat
  l : Int
  q : Int

namespace ZAxis

/-- The windows cover the padded or cropped axis exactly, and there is at least one. -/
def Covers (a : ZAxis) : Prop :=
  1 ≤ a.m ∧ (((a.k - 1) * a.r + 1 + (a.m - 1) * a.s : Nat) : Int) = a.l + a.n + a.q

instance (a : ZAxis) : Decidable a.Covers := by unfold Covers; infer_instance

/-- The element of the input under tap `u` of window `j`, a number that may lie outside of the input. -/
def elem (a : ZAxis) (j u : Nat) : Int := ((j * a.s + u * a.r : Nat) : Int) - a.l

end ZAxis

/-- The element `p` of a line of `n` elements, zero outside. -/
def cell [Zero R] (n : Nat) (f : Nat → R) (p : Int) : R := if 0 ≤ p ∧ p < n then f p.toNat else 0

/-- The pixel under tap `(u, v)` of window `(i, j)` of an image padded or cropped on both axes. -/
def cropped [Zero R] (H W : ZAxis) (X : Nat → Nat → R) (i j u v : Nat) : R :=
  cell H.n (fun a => cell W.n (fun b => X a b) (W.elem j v)) (H.elem i u)

/-- The pixels under window `(i, j)`, row by row; taps outside of the image left out. -/
def croppedPixels (H W : ZAxis) (X : Nat → Nat → R) (i j : Nat) : List R :=
  (List.range H.k).flatMap fun u => (List.range W.k).filterMap fun v =>
    if (0 ≤ H.elem i u ∧ H.elem i u < H.n) ∧ 0 ≤ W.elem j v ∧ W.elem j v < W.n then
      some (X (H.elem i u).toNat (W.elem j v).toNat)
    else none

/-- Cross-correlation of a padded or cropped image with a filter. -/
def croppedConv [Semiring R] (H W : ZAxis) (c : Nat) (X : Nat → Nat → Nat → R) (Y : Nat → Nat → Nat → Nat → R)
    (i j d : Nat) : R :=
  ∑ u ∈ range H.k, ∑ v ∈ range W.k, ∑ k ∈ range c, cropped H W (fun a b => X a b k) i j u v * Y u v k d

/-- The transpose of `cropped`: what the entries whose tap falls on pixel `(a, b)` add up to. -/
def spread [AddCommMonoid R] (H W : ZAxis) (X : Nat → Nat → Nat → Nat → R) (a b : Nat) : R :=
  ∑ i ∈ range H.m, ∑ j ∈ range W.m, ∑ u ∈ range H.k, ∑ v ∈ range W.k,
    if H.elem i u = a ∧ W.elem j v = b then X i j u v else 0

end StdNN.Spec
