import Verif.Basic.Tensor
import Verif.Basic.IntTy
import Mathlib.Data.List.Sort
/-!
# Model of the helpers of the test programs

tests/include/ttl/nn/bits/testing.hpp: `gen_test_tensor`, `test_all_permutations`, `fast_is_permutation`. The assertions are in
Verif/Model/Compare.lean, the printing in Verif/Model/Show.lean.
-/
namespace StdNN
open Outcome IntTy

namespace Testing

/-- `gen_test_tensor` (tests/include/ttl/nn/bits/testing.hpp:10-17): `cast` is `static_cast<R>` from `int`; the tensor and the
seed afterwards. -/
def genTestTensor {R : Type} (cast : Int → R) (x : List R) (s : Int) : Outcome (List R × Int) :=
  forRange x.length (fun i (st : List R × Int) => do
    let a ← i32.add st.2 7
    let s ← i32.mod a 10
    let x ← wr st.1 i (cast s)
    return (x, s)) (x, s)

/-- The part of `std::next_permutation` that runs when the elements behind `x` do not increase
(tests/include/ttl/nn/bits/testing.hpp:43): `x` is exchanged with the last greater one of them (`none` if there is no greater
one) and the elements behind it are reversed. -/
def pivot (x : Int) (l : List Int) : Option (List Int) :=
  match l.reverse.dropWhile fun y => y ≤ x with
  | [] => none
  | y :: p => some (y :: ((l.reverse.takeWhile fun y => y ≤ x) ++ x :: p))

/-- `std::next_permutation` (called at tests/include/ttl/nn/bits/testing.hpp:43): `none` if there is no next one. The standard
library searches from the back for the first element that is less than the one behind it; here the search is a recursion over
the ends of the sequence, the longest one last. -/
def nextPermutation : List Int → Option (List Int)
  | [] => none
  | x :: l => match nextPermutation l with
    | some l' => some (x :: l')
    | none => pivot x l

/-- The loop of `test_all_permutations` (tests/include/ttl/nn/bits/testing.hpp:40-43) from the array `a`: it ends, and `t` has
been called with the arrays of the list, in this order. -/
inductive Loop : List Int → List (List Int) → Prop
  | stop {a} : nextPermutation a = none → Loop a [a]
  | step {a b vs} : nextPermutation a = some b → Loop b vs → Loop a (a :: vs)

/-- `test_all_permutations` (tests/include/ttl/nn/bits/testing.hpp:34-45) with the arguments `l`: it returns `p`, after having
called `t` with the arrays `calls`; `std::sort` is the insertion of one element after the other. -/
def TestAllPermutations (l : List Int) (calls : List (List Int)) (p : Nat) : Prop :=
  Loop (l.insertionSort (· ≤ ·)) calls ∧ p = calls.length

/-- `fast_is_permutation` (tests/include/ttl/nn/bits/testing.hpp:111-123); `t` is the type `N`. The state is the vector `b`, or
`none` when `false` has been returned. A negative `n` makes the constructor of `std::vector` throw `std::length_error`, a
`std::logic_error`. -/
def fastIsPermutation (t : IntTy) (x : List Int) : Outcome Bool := do
  let n := t.conv x.length
  if n < 0 then .throw .logicError else
  let b ← forRange n.toNat (fun i (b : Option (List Bool)) =>
    match b with
    | none => .ok none
    | some b => do
      let j ← rd x i
      if j < 0 ∨ n ≤ j then return none
      let seen ← rd b j.toNat
      if seen then return none
      let b ← wr b j.toNat true
      return some b) (some (List.replicate n.toNat false))
  return b.isSome

end Testing
end StdNN
