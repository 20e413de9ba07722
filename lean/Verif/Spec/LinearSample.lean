import Mathlib.Algebra.BigOperators.Group.Finset.Basic
import Mathlib.Algebra.BigOperators.Ring.Finset

/-!
The definitions of the project's own document, doc/linear-sample.tex, word for word and over plain lists: pad the input,
extend the kernel by inserting zeros between adjacent elements, take a strided valid convolution.
-/

namespace StdNN
namespace Spec
open Finset

/-- "`(p_l, p_r, k, s, r, n, m)` is called a valid configuration of linear sample" (doc/linear-sample.tex:57-61), the
equation read over the integers. -/
structure ValidConfig (pl pr k s r n m : Nat) : Prop where
  k1 : 1 ≤ k
  s1 : 1 ≤ s
  r1 : 1 ≤ r
  n1 : 1 ≤ n
  m1 : 1 ≤ m
  eqn : (s : Int) * ((m : Int) - 1) = ((n : Int) + pl + pr) - (r * ((k : Int) - 1) + 1)

variable {R : Type}

/-- "The input sequence is padded by prepending `p_l` zero elements and appending `p_r` zero elements"
(doc/linear-sample.tex:34-39). -/
def padList [Zero R] (pl pr : Nat) (x : List R) : List R := List.replicate pl 0 ++ x ++ List.replicate pr 0

/-- "The kernel is extended by inserting `r - 1` zero elements to adjacent elements" (doc/linear-sample.tex:42-46). -/
def extend [Zero R] (r : Nat) : List R → List R
  | [] => []
  | [y] => [y]
  | y :: y' :: ys => y :: (List.replicate (r - 1) 0 ++ extend r (y' :: ys))

/-- `z` is the strided valid convolution of `x` and `y` (doc/linear-sample.tex:15-25): `n = s (m - 1) + k` and
`z[i] = ∑ x[i s + j] y[j]`. All the elements named exist when the lengths agree; `getD` never falls back. -/
def IsStridedConv [Semiring R] (s : Nat) (x y z : List R) : Prop :=
  x.length = s * (z.length - 1) + y.length ∧
    ∀ i < z.length, z.getD i 0 = ∑ j ∈ range y.length, x.getD (i * s + j) 0 * y.getD j 0

end Spec
end StdNN
