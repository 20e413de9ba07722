import Verif.Basic.Tensor
import Verif.Basic.IntTy
import Verif.Model.IO
/-!
# Model of the comparisons of the test programs

tests/include/ttl/nn/bits/testing.hpp: `assert_eq`, `assert_tensor_eq`, `view_bytes`, `bytes_eq`. A `float` is its bit
pattern. `ASSERT_FLOAT_EQ` is from Google Test (not part of /repo); it is modelled as its documentation describes it: two
numbers are almost equal if they are at most 4 units in the last place apart, NaN is equal to nothing, and the arguments
are converted to `float`.
-/
namespace StdNN
open Outcome

namespace Testing

/-- Sign and magnitude to biased: the patterns in the order of the values (Google Test, for `ASSERT_FLOAT_EQ` at
tests/include/ttl/nn/bits/testing.hpp:26). -/
def biased (b : BitVec 32) : BitVec 32 := if b.msb then ~~~b + 1#32 else 0x80000000#32 + b

/-- The distance of two patterns (Google Test, for `ASSERT_FLOAT_EQ` at tests/include/ttl/nn/bits/testing.hpp:26). -/
def distance (a b : BitVec 32) : BitVec 32 :=
  if biased b ≤ biased a then biased a - biased b else biased b - biased a

/-- All bits of the exponent are set and one of the fraction is (Google Test, for `ASSERT_FLOAT_EQ` at
tests/include/ttl/nn/bits/testing.hpp:26). -/
def isNan (b : BitVec 32) : Bool := b.extractLsb' 23 8 = 0xff#8 && b.extractLsb' 0 23 ≠ 0#23

/-- `assert_eq<float>` (tests/include/ttl/nn/bits/testing.hpp:24-27): whether the assertion holds. -/
def floatEq (a b : BitVec 32) : Bool := !isNan a && !isNan b && decide (distance a b ≤ 4#32)

/-- `assert_eq<double>` (tests/include/ttl/nn/bits/testing.hpp:29-32): `ASSERT_FLOAT_EQ`, not `ASSERT_DOUBLE_EQ`, so that both
numbers are converted to `float` by `conv`. -/
def doubleEq (conv : BitVec 64 → BitVec 32) (a b : BitVec 64) : Bool := floatEq (conv a) (conv b)

/-- `assert_tensor_eq` (tests/include/ttl/nn/bits/testing.hpp:47-55): how many assertions fail; the test fails if one does. A
failed assertion about an element leaves `assert_eq::operator()` only, the loop goes on. `eq` is `assert_eq<R>` (lines 19-32;
`==` if `R` is neither `float` nor `double`). -/
def assertTensorEq {R : Type} (eq : R → R → Bool) (x y : Tensor R) : Outcome Nat :=
  if x.dims ≠ y.dims then .ok 1 else
  forRange x.dims.prod (fun i fails => do
    let a ← rd x.data i
    let b ← rd y.data i
    return if eq a b then fails else fails + 1) 0

/-- `view_bytes` (tests/include/ttl/nn/bits/testing.hpp:57-62): `enc` are the bytes of an element in memory, `w` is `sizeof(R)`. A
dimension of a shape of stdtensor has 32 bits. -/
def viewBytes {R : Type} (w : Nat) (enc : R → List Byte) (x : Tensor R) : Tensor Byte :=
  ⟨[(w * x.dims.prod) % 2 ^ 32], x.data.flatMap enc⟩

/-- `bytes_eq` (tests/include/ttl/nn/bits/testing.hpp:64-71). -/
def bytesEq {R : Type} (w : Nat) (enc : R → List Byte) (x y : Tensor R) : Outcome Bool :=
  if x.dims ≠ y.dims then .ok false else
  let a := viewBytes w enc x
  let b := viewBytes w enc y
  forRange a.dims.prod (fun i same => do
    if same then
      let u ← rd a.data i
      let v ← rd b.data i
      return decide (u = v)
    else return false) true

end Testing
end StdNN
