import Verif.Basic.Outcome
import Mathlib.Algebra.Order.Group.Unbundled.Int
import Mathlib.Tactic.Linarith
import Mathlib.Tactic.Push
/-!
# C++ integer arithmetic

Semantics of the built-in integer types used for dimensions (trusted base, C++17 [basic.fundamental],
[expr.arith.conv], [conv.integral]). Only types that integral promotion leaves alone (at least 32 bits) are
represented: `int32_t`, `uint32_t`, `size_t`, ...

A value is an `Int`; operations are indexed by the type in which C++ evaluates them.
-/
namespace StdNN

/-- A C++ integer type of rank at least `int`. -/
structure IntTy where
  /-- signed type? -/
  signed : Bool
  /-- width in bits -/
  bits : Nat
  deriving DecidableEq, Repr

namespace IntTy

/-- `uint32_t`, the dimension type of `ttl::shape` (e.g. traits/conv_traits.hpp:11, ops/pool2d_trait.hpp:71). -/
def u32 : IntTy := ⟨false, 32⟩
/-- `int32_t` (e.g. ops/im2col1d.hpp:10). -/
def i32 : IntTy := ⟨true, 32⟩

/-- Least value (C++ semantics; needed for traits/filter.hpp:49-71, whose `dim_t` is any integer type). -/
def lo (t : IntTy) : Int := if t.signed then -(2 ^ (t.bits - 1)) else 0
/-- Greatest value plus one (C++ semantics, as `lo`). -/
def hi (t : IntTy) : Int := if t.signed then 2 ^ (t.bits - 1) else 2 ^ t.bits

/-- `v` is representable in `t` (C++ semantics; not a function of /repo). -/
def In (t : IntTy) (v : Int) : Prop := t.lo ≤ v ∧ v < t.hi

instance (t : IntTy) (v : Int) : Decidable (t.In v) := by unfold In; infer_instance

/-- Conversion of a value to `t`: modulo `2 ^ bits` (implementation-defined before C++20 for signed targets,
modular on all supported compilers). -/
def conv (t : IntTy) (v : Int) : Int :=
  if t.signed then Int.bmod v (2 ^ t.bits) else v % 2 ^ t.bits

/-- The result of an arithmetic operation evaluated in `t`: unsigned types wrap, signed overflow is undefined (C++
semantics of the expressions at traits/filter.hpp:49-71, traits/linear_sample.hpp:35-58, traits/padding.hpp:22-35). -/
def arith (t : IntTy) (v : Int) : Outcome Int :=
  if t.signed then (if t.In v then .ok v else .ub) else .ok (v % 2 ^ t.bits)

/-- `a + b` (e.g. traits/filter.hpp:70). -/
def add (t : IntTy) (a b : Int) : Outcome Int := t.arith (t.conv a + t.conv b)
/-- `a - b` (e.g. traits/padding.hpp:35, traits/filter.hpp:60). -/
def sub (t : IntTy) (a b : Int) : Outcome Int := t.arith (t.conv a - t.conv b)
/-- `a * b` (e.g. traits/filter.hpp:70). -/
def mul (t : IntTy) (a b : Int) : Outcome Int := t.arith (t.conv a * t.conv b)
/-- `a / b`, truncating; division by zero is undefined (e.g. traits/filter.hpp:63, traits/linear_sample.hpp:39). -/
def div (t : IntTy) (a b : Int) : Outcome Int :=
  if t.conv b = 0 then .ub else t.arith (Int.tdiv (t.conv a) (t.conv b))
/-- `a % b`; zero divisor and the `INT_MIN % -1` case are undefined (e.g. traits/filter.hpp:60,
traits/linear_sample.hpp:53). -/
def mod (t : IntTy) (a b : Int) : Outcome Int :=
  if t.conv b = 0 then .ub
  else if t.In (Int.tdiv (t.conv a) (t.conv b)) then .ok (Int.tmod (t.conv a) (t.conv b)) else .ub
/-- `a < b` (e.g. traits/padding.hpp:31-32). -/
def lt (t : IntTy) (a b : Int) : Bool := decide (t.conv a < t.conv b)
/-- `a <= b` (e.g. traits/padding.hpp:31-32). -/
def le (t : IntTy) (a b : Int) : Bool := decide (t.conv a ≤ t.conv b)

/-- Usual arithmetic conversions: the type in which a binary operator on operands of types `a` and `b` is
evaluated (C++ [expr.arith.conv]; e.g. traits/filter.hpp:60, whose operands may have two types). -/
def common (a b : IntTy) : IntTy :=
  if b.bits < a.bits then a
  else if a.bits < b.bits then b
  else ⟨a.signed && b.signed, a.bits⟩

/-- Types the model speaks about: not narrower than `int` (restriction of the `dim_t` of traits/linear_sample.hpp:12). -/
def Std (t : IntTy) : Prop := 32 ≤ t.bits

instance (t : IntTy) : Decidable t.Std := by unfold Std; infer_instance

theorem u32_std : u32.Std := by decide
theorem i32_std : i32.Std := by decide

end IntTy
end StdNN
