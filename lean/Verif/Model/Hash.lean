import Verif.Basic.Tensor
/-!
# Model of the CRC operator

kernels/cpu/hash.hpp and ops/hash.hpp. `N` is an unsigned type of `w` bits; its values are bit vectors. The tensor is given
by the bytes of its object representation (`reinterpret_cast` at kernels/cpu/hash.hpp:50-51).
-/
namespace StdNN
open Outcome
namespace Kernels.Crc

variable {w : Nat}

/-- `crc::t` (kernels/cpu/hash.hpp:25-28). -/
def t (s poly : BitVec w) : BitVec w := if s &&& 1 = 1 then (s >>> 1) ^^^ poly else s >>> 1

/-- One entry of the table (kernels/cpu/hash.hpp:34-43). -/
def entry (poly : BitVec w) (i : Nat) : BitVec w :=
  let crc := BitVec.ofNat w i
  let crc := t crc poly
  let crc := t crc poly
  let crc := t crc poly
  let crc := t crc poly
  let crc := t crc poly
  let crc := t crc poly
  let crc := t crc poly
  let crc := t crc poly
  crc

/-- The table built by the constructor (kernels/cpu/hash.hpp:31-45). -/
def table (poly : BitVec w) : List (BitVec w) := (List.range 256).map (entry poly)

/-- `crc::sum` (kernels/cpu/hash.hpp:17-23); `static_cast<uint8_t>` keeps the low 8 bits. -/
def sum (table : List (BitVec w)) (s : List (BitVec 8)) (init : BitVec w) : Outcome (BitVec w) :=
  s.foldlM (fun a b => do
    let e ← rd table ((a ^^^ b.setWidth w).setWidth 8).toNat
    return (a >>> 8) ^^^ e) init

end Kernels.Crc

namespace Ops

/-- `ops::basic_crc` with the host kernel (ops/hash.hpp:21-27, kernels/cpu/hash.hpp:47-53): the kernel is constructed for
the polynomial and run on the bytes of the tensor; the value written to `y`. `static_cast<N>(-1)` is all ones. -/
def crc {w : Nat} (poly : BitVec w) (x : List (BitVec 8)) : Outcome (BitVec w) := do
  let s ← Kernels.Crc.sum (Kernels.Crc.table poly) x (BitVec.allOnes w)
  return s ^^^ BitVec.allOnes w

/-- `crc_polynomials::usb` (ops/hash.hpp:52). -/
def crcUsb : BitVec 16 := 0xa001
/-- `crc_polynomials::ieee` (ops/hash.hpp:53). -/
def crcIeee : BitVec 32 := 0xedb88320
/-- `crc_polynomials::ecma` (ops/hash.hpp:54). -/
def crcEcma : BitVec 64 := 0xC96C5795D7870F42

end Ops
end StdNN
