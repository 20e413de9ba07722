import Verif.Model.Elementwise
import Verif.Lemmas.Binary
/-!
# Model of conversions between built-in numbers

`ops::cast` (kernels/cpu/utility.hpp:16-27) with the conversions of C++ that `static_cast` performs, and `relu_scalar`
(ops/activation.hpp:23-29), which goes through `double`. Floating types are binary formats of IEEE 754.
-/
namespace StdNN
open Outcome Spec

namespace NumConv

/-- The integral part (C++ [conv.fpint]; `ttl::cast` at kernels/cpu/utility.hpp:24). -/
noncomputable def trunc (x : ℝ) : Int := if 0 ≤ x then ⌊x⌋ else ⌈x⌉

/-- Integer to floating type (C++ [conv.fpint]; `ttl::cast` at kernels/cpu/utility.hpp:24, and ops/activation.hpp:27). -/
noncomputable def ofInt {A : Arith} (x : Int) : Ieee A := .num (A.rnd ((x : ℝ) : EReal))

open Classical in
/-- Floating type to the integer type `t`: undefined if the integral part is not a value of `t` (C++ [conv.fpint];
`ttl::cast` at kernels/cpu/utility.hpp:24, and the return statement at ops/activation.hpp:27). -/
noncomputable def toInt {A : Arith} (t : IntTy) : Ieee A → Outcome Int
  | .nan => .ub
  | .num x => if x = ⊤ ∨ x = ⊥ then .ub else if t.In (trunc x.toReal) then .ok (trunc x.toReal) else .ub

/-- Floating type to floating type (C++ [conv.double], `ttl::cast` at kernels/cpu/utility.hpp:24); the infinities are
values of the type, so that nothing is undefined. -/
noncomputable def flt {A B : Arith} : Ieee A → Ieee B
  | .nan => .nan
  | .num x => .num (B.rnd x)

end NumConv

namespace Kernels

/-- `cast` (kernels/cpu/utility.hpp:16-27) with a conversion that may be undefined. -/
def castWith {R S : Type} (f : S → Outcome R) (x : List S) (y : List R) : Outcome (List R) :=
  forRange x.length (fun i y => do
    let a ← rd x i
    let b ← f a
    wr y i b) y

end Kernels

namespace Ops
open NumConv

/-- `relu_scalar` (ops/activation.hpp:23-29) for an integer type `t`: the operands `x` and `0.0` of the conditional have
the common type `double`, whose arithmetic is `D`; the result is converted back. -/
noncomputable def reluScalarInt (D : Arith) (t : IntTy) (x : Int) : Outcome Int :=
  toInt t (if x > 0 then (ofInt x : Ieee D) else 0)

/-- `relu_scalar` (ops/activation.hpp:23-29) for a floating type with the arithmetic `A`; the common type of `A` and
`double` has the arithmetic `D`. -/
noncomputable def reluScalarFlt {A : Arith} (D : Arith) (x : Ieee A) : Ieee A :=
  flt (if x > 0 then (flt x : Ieee D) else 0)

end Ops
end StdNN
