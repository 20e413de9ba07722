import Verif.Model.Pool
import Verif.Model.Utility
/-!
# Averages of elements of an arbitrary built-in integer type

`kernels/cpu/pool.hpp:30-46` and `ops/summary.hpp:38-53`, instantiated for any built-in integer type `t`: 8 and 16 bit
types, which C++ promotes to `int` before adding, included.
-/
namespace StdNN
namespace IntTy

/-- Integral promotion (C++ [conv.prom]): the type in which `sum += x` of kernels/cpu/pool.hpp:41 and the addition of
`std::accumulate` at ops/summary.hpp:42 are evaluated. -/
def promote (t : IntTy) : IntTy := if t.bits < 32 then i32 else t

/-- `s += x` for a variable `s` of type `t` (kernels/cpu/pool.hpp:41; `acc = acc + *it` inside `std::accumulate`, called at
ops/summary.hpp:42-43): the sum is evaluated in the promoted type and converted back. -/
def addTo (t : IntTy) (s x : Int) : Outcome Int := do
  let v ← t.promote.add s x
  return t.conv v

/-- `s / n` for `s` of type `t` and `n` a `uint32_t`, converted to `t` by the return statement (kernels/cpu/pool.hpp:45,
ops/summary.hpp:51): evaluated in the common type of the promoted `t` and `uint32_t`. -/
def divCount (t : IntTy) (s : Int) (n : Nat) : Outcome Int := do
  let q ← (common t.promote u32).div s n
  return t.conv q

end IntTy

open IntTy

/-- `mean_accumulator<R>` (kernels/cpu/pool.hpp:30-46) for a built-in integer type `R`. -/
def Acc.meanInt (t : IntTy) : Acc Int where
  S := Int × Nat
  init := (0, 0)
  step st x := do
    let s ← t.addTo st.1 x
    let n ← u32.add st.2 1
    return (s, n.toNat)
  result st := t.divCount st.1 st.2

namespace Ops.Summaries

/-- `summaries::sum` (ops/summary.hpp:38-45) for a built-in integer type. -/
def sumInt (t : IntTy) (x : List Int) : Outcome Int := x.foldlM (fun s a => t.addTo s a) 0

/-- `summaries::mean` (ops/summary.hpp:47-53) for a built-in integer type; `x.shape().size()` is a `uint32_t`. -/
def meanInt (t : IntTy) (x : List Int) : Outcome Int := do
  let s ← sumInt t x
  t.divCount s x.length

end Ops.Summaries
end StdNN
