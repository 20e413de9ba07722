import Mathlib.Data.List.Basic
import Mathlib.Data.Nat.Digits.Lemmas
/-!
# File formats

Independent of the model: the idx format of <http://yann.lecun.com/exdb/mnist/>, the last write in a history, and archives of
the tar format.
-/
namespace StdNN.Spec

/-- A number below `2 ^ 32` as four bytes, most significant first. -/
def bigEndian (n : Nat) : List (BitVec 8) :=
  [BitVec.ofNat 8 (n / 2 ^ 24), BitVec.ofNat 8 (n / 2 ^ 16), BitVec.ofNat 8 (n / 2 ^ 8), BitVec.ofNat 8 n]

/-- The header of an idx file: two zeros, the code of the element type, the rank, the dimensions. -/
def idxHeader (code : BitVec 8) (dims : List (BitVec 32)) : List (BitVec 8) :=
  [0, 0, code, BitVec.ofNat 8 dims.length] ++ dims.flatMap fun d => bigEndian d.toNat

/-- An idx file. -/
def idxFile (code : BitVec 8) (dims : List (BitVec 32)) (data : List (BitVec 8)) : List (BitVec 8) :=
  idxHeader code dims ++ data

/-- The last entry for a key in a history. -/
def lastWrite {K V : Type} [DecidableEq K] (k : K) (hist : List (K × V)) : Option V :=
  (hist.reverse.find? fun p => p.1 = k).map Prod.snd

/-! ## tar -/

/-- The `k` octal digits of `n`, most significant first, in ASCII. -/
def octal : Nat → Nat → List (BitVec 8)
  | 0, _ => []
  | k + 1, n => octal k (n / 8) ++ [BitVec.ofNat 8 (48 + n % 8)]

/-- Zero bytes up to the next multiple of 512. -/
def pad (n : Nat) : List (BitVec 8) := List.replicate ((512 - n % 512) % 512) 0

/-- An octal digit in ASCII. -/
def IsOctal (c : BitVec 8) : Prop := 48 ≤ c.toNat ∧ c.toNat ≤ 55

/-- White space in ASCII: space, tab, line feed, vertical tab, form feed, carriage return. -/
def IsBlank (c : BitVec 8) : Prop := c.toNat = 32 ∨ (9 ≤ c.toNat ∧ c.toNat ≤ 13)

/-- The number written with the octal digits `ds`, most significant first. -/
def octalValue (ds : List (BitVec 8)) : Nat := Nat.ofDigits 8 (ds.reverse.map fun c => c.toNat - 48)

/-- The size field `s` denotes the number `v`: white space, perhaps a sign, at least one octal digit, and then nothing or
something that is not an octal digit. -/
def SizeField (s : List (BitVec 8)) (v : Int) : Prop :=
  ∃ ws sign ds rest, s = ws ++ sign ++ ds ++ rest ∧ (∀ c ∈ ws, IsBlank c) ∧ ds ≠ [] ∧ (∀ c ∈ ds, IsOctal c) ∧
    (∀ c cs, rest = c :: cs → ¬ IsOctal c) ∧
    (((sign = [] ∨ sign = [43]) ∧ v = octalValue ds) ∨ (sign = [45] ∧ v = -(octalValue ds : Int)))

/-- A member of an archive: its name, the fields of the header between name and size (mode, owner, group), the size field,
the rest of the header, and the content. -/
structure Member where
  name : List (BitVec 8)
  owner : List (BitVec 8)
  size : List (BitVec 8)
  rest : List (BitVec 8)
  content : List (BitVec 8)

/-- A well formed member: the name has 1 to 100 characters, none of them zero, the fields have their lengths, and the size
field denotes the length of the content. -/
def Member.WF (m : Member) : Prop :=
  m.name ≠ [] ∧ m.name.length ≤ 100 ∧ (∀ c ∈ m.name, c ≠ 0) ∧ m.owner.length = 24 ∧ m.size.length = 12 ∧
    m.rest.length = 376 ∧ SizeField m.size m.content.length

/-- The header block of a member. -/
def Member.header (m : Member) : List (BitVec 8) :=
  m.name ++ List.replicate (100 - m.name.length) 0 ++ m.owner ++ m.size ++ m.rest

/-- A member in the archive: header, content, padding. -/
def Member.bytes (m : Member) : List (BitVec 8) := m.header ++ m.content ++ pad m.content.length

/-- An archive: its members one after another, then a trailer (blocks of zeros, or nothing). -/
def archive (ms : List Member) (trailer : List (BitVec 8)) : List (BitVec 8) := ms.flatMap Member.bytes ++ trailer

end StdNN.Spec
