import Verif.Basic.Tensor
import Verif.Basic.IntTy
import Mathlib.Data.Nat.Digits.Defs
/-!
# Model of the printing of the test and benchmark programs

tests/include/ttl/experimental/bits/show.hpp, `show_tensor` of tests/include/ttl/nn/bits/testing.hpp, and the names and sizes
that benchmarks/common.hpp prints. A text is a list of characters. How elements are printed is a parameter; integers are
printed in decimal. How stdtensor prints a shape is a parameter as well.
-/
namespace StdNN
open Outcome IntTy

namespace Show

/-- A number in decimal (`std::to_string` at tests/include/ttl/nn/bits/testing.hpp:88 and benchmarks/common.hpp:53, and `<<` at
tests/include/ttl/experimental/bits/show.hpp:40,57). -/
def decimal (x : Int) : List Char :=
  (if x < 0 then ['-'] else []) ++
    (if x = 0 then ['0'] else ((Nat.digits 10 x.natAbs).reverse.map fun d => Char.ofNat (48 + d)))

/-- `std::setw(6)` (tests/include/ttl/experimental/bits/show.hpp:40,57): filled with spaces in front. -/
def setw6 (w : List Char) : List Char := List.replicate (6 - w.length) ' ' ++ w

/-- `operator<<` for `show_t<R, 1>` (tests/include/ttl/experimental/bits/show.hpp:32-46): what is appended to the stream. -/
def show1 {R : Type} (sh : R → List Char) (x : List R) : Outcome (List Char) :=
  if x.length < 10 then do
    let os ← forRange x.length (fun i os => do
      let os := if i = 0 then os else os ++ [',', ' ']
      let a ← rd x i
      return os ++ setw6 (sh a)) ['[']
    return os ++ [']', '\n']
  else return []

/-- `operator<<` for `show_t<R, 2>` (tests/include/ttl/experimental/bits/show.hpp:48-64) and a tensor of `h` rows and `w`
columns. -/
def show2 {R : Type} (shapeText : List Nat → List Char) (sh : R → List Char) (h w : Nat) (x : List R) :
    Outcome (List Char) :=
  let os := shapeText [h, w] ++ ['\n']
  if h * w < 100 then
    forRange h (fun i os => do
      let os ← forRange w (fun j os => do
        let os := if j = 0 then os else os ++ [',', ' ']
        let a ← rd x (offset [h, w] [i, j])
        return os ++ setw6 (sh a)) os
      return os ++ ['\n']) os
  else return os

/-- `operator<<` for `show_t<R, r>` and other ranks (tests/include/ttl/experimental/bits/show.hpp:24-30): the shape only. -/
def showN {R : Type} (shapeText : List Nat → List Char) (x : Tensor R) : List Char := shapeText x.dims ++ ['\n']

/-- `show_tensor` (tests/include/ttl/nn/bits/testing.hpp:90-102): the line of the shape, then all elements; `toInt` is the
conversion of an element to the parameter of type `int` of `show_scalar` (line 88). -/
def showTensor {R : Type} (shapeText : List Nat → List Char) (toInt : R → Outcome Int) (name : List Char) (x : Tensor R) :
    Outcome (List Char) := do
  let os := name ++ [' ', ':', ':', ' '] ++ shapeText x.dims ++ ['\n']
  let os ← forRange x.dims.prod (fun i os => do
    let os := if 0 < i then os ++ [',', ' '] else os
    let a ← rd x.data i
    let n ← toInt a
    return os ++ decimal n) (os ++ [' ', ' ', 'd', 'a', 't', 'a', ':', ' ', '{'])
  return os ++ ['}', '\n']

/-- A scalar type as the benchmarks see it (benchmarks/common.hpp:33-55): `std::is_floating_point`, `std::is_signed`,
`sizeof`. -/
structure Scalar where
  floating : Bool
  signed : Bool
  size : Nat

/-- `scalar_type_name` (benchmarks/common.hpp:33-55), `CHAR_BIT` being 8. -/
def typeName (s : Scalar) : List Char :=
  (if s.floating then ['f'] else if s.signed then ['i'] else ['u']) ++ decimal (s.size * 8)

/-- `kernel_bench::data_size` (benchmarks/common.hpp:19-23,112-116): the bytes of the output and of all inputs, in `size_t` of
64 bits; `w` is `sizeof(R)`. -/
def dataSize (w : Nat) (y : List Nat) (xs : List (List Nat)) : Nat :=
  (w * y.prod + (xs.map fun d => w * d.prod).foldl (fun a b => (a + b) % 2 ^ 64) 0) % 2 ^ 64

/-- The number that `run_bench` prints as the data size (benchmarks/common.hpp:180-183): converted to `int`. -/
def printedSize (ds : Nat) : Int := i32.conv ds

end Show
end StdNN
