import Mathlib.Algebra.Polynomial.Div
import Mathlib.Data.ZMod.Basic
/-!
# Cyclic redundancy checks

Independent of the model: the bit-by-bit register of a reflected CRC, and polynomials over GF(2).
-/
namespace StdNN.Spec

/-- The bits of a message in the order of a reflected CRC: byte by byte, least significant bit first. -/
def bitsOf (x : List (BitVec 8)) : List Bool := x.flatMap fun b => (List.range 8).map fun i => b.getLsbD i

/-- The register takes in one bit of the message: it is shifted right, and the polynomial is added if the bit shifted out
differs from the bit of the message. -/
def crcBit {w : Nat} (poly s : BitVec w) (m : Bool) : BitVec w :=
  if s.getLsbD 0 ^^ m then (s >>> 1) ^^^ poly else s >>> 1

/-- The register after all bits of the message. -/
def crcReg {w : Nat} (poly init : BitVec w) (bits : List Bool) : BitVec w := bits.foldl (crcBit poly) init

open Polynomial

/-- The coefficient of a bit. -/
def bit (b : Bool) : ZMod 2 := if b then 1 else 0

/-- The polynomial of degree below `w` of a reflected register: bit `i` is the coefficient of `X ^ (w - 1 - i)`. -/
noncomputable def regPoly {w : Nat} (s : BitVec w) : (ZMod 2)[X] :=
  ∑ i ∈ Finset.range w, C (bit (s.getLsbD i)) * X ^ (w - 1 - i)

/-- The generator polynomial of a reflected CRC: `X ^ w` plus the polynomial of the constant. -/
noncomputable def generator {w : Nat} (poly : BitVec w) : (ZMod 2)[X] := X ^ w + regPoly poly

/-- The polynomial of a message: the first bit has the highest power. -/
noncomputable def msgPoly : List Bool → (ZMod 2)[X]
  | [] => 0
  | m :: ms => C (bit m) * X ^ ms.length + msgPoly ms

end StdNN.Spec
