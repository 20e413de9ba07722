import Verif.Basic.Outcome
import Mathlib.Logic.Function.Basic
/-!
# Model of files: the idx format and tar archives

kernels/cpu/io.hpp, ops/io.hpp and ops/io_tar.hpp. A tensor of element type `R` is given by its dimensions and the bytes of
its elements in memory (`R` is trivially copyable; typed statements go through a codec). The host may be little or big
endian. Streams have a content, a position and a failure flag; a `read` that cannot be completed stores what it got and
sets the flag. Bytes that were never stored are indeterminate, using one is undefined behaviour.
-/
namespace StdNN
open Outcome

/-- A `char` of a file (kernels/cpu/io.hpp:79, ops/io_tar.hpp:70). -/
abbrev Byte := BitVec 8

/-! ## std::istream, std::ostream, files (outside /repo) -/

/-- `std::ifstream` used at kernels/cpu/io.hpp:116 and ops/io_tar.hpp:68: content of the file, position, `fail()`. -/
structure IStream where
  bytes : List Byte
  pos : Nat
  fail : Bool
  deriving DecidableEq, Repr

namespace IStream

/-- `std::istream::read` (as used at kernels/cpu/io.hpp:63,73,79 and ops/io_tar.hpp:89): the bytes stored and the stream
afterwards. -/
def read (is : IStream) (n : Nat) : List Byte × IStream :=
  if is.fail then ([], is)
  else
    let got := (is.bytes.drop is.pos).take n
    (got, { is with pos := is.pos + got.length, fail := decide (got.length < n) })

/-- `std::istream::tellg` (as used at ops/io_tar.hpp:88,94). -/
def tellg (is : IStream) : Int := if is.fail then -1 else is.pos

/-- `std::istream::seekg(off, std::ios::cur)` and `seekg(off, std::ios::beg)` (ops/io_tar.hpp:99, ops/io.hpp:62): a seek
to a negative position fails, a seek past the end does not; a failed stream stays where it is. -/
def seekTo (is : IStream) (p : Int) : IStream :=
  if is.fail then is
  else if p < 0 then { is with fail := true }
  else { is with pos := p.toNat }

end IStream

/-- `std::ofstream` used at kernels/cpu/io.hpp:136: what has been written, how much the device still takes (`none`: no
bound), `bad()`. -/
structure OStream where
  bytes : List Byte
  room : Option Nat
  bad : Bool
  deriving DecidableEq, Repr

/-- `std::ostream::write` (as used at kernels/cpu/io.hpp:88,95,98); the buffer is flushed at the latest by the destructor
of the stream, which like `write` does not throw. -/
def OStream.write (os : OStream) (b : List Byte) : OStream :=
  if os.bad then os
  else match os.room with
    | none => { os with bytes := os.bytes ++ b }
    | some k => { bytes := os.bytes ++ b.take k, room := some (k - b.length), bad := decide (k < b.length) }

/-- The files that the streams of kernels/cpu/io.hpp:116,136 open: content by name, whether a name can be opened for
writing, and how many bytes the device takes for it. -/
structure Disk where
  files : String → Option (List Byte)
  creatable : String → Bool
  room : String → Option Nat

/-! ## kernels/cpu/io.hpp -/

/-- Byte order of the host that runs kernels/cpu/io.hpp:19 (`reinterpret_cast` to bytes). -/
inductive Endian
  | little
  | big
  deriving DecidableEq, Repr

/-- The bytes of a `uint32_t` in memory, at increasing addresses (kernels/cpu/io.hpp:19,95). -/
def bytes32 (e : Endian) (x : BitVec 32) : List Byte :=
  let l := [x.extractLsb' 0 8, x.extractLsb' 8 8, x.extractLsb' 16 8, x.extractLsb' 24 8]
  match e with
  | .little => l
  | .big => l.reverse

/-- The `uint32_t` with the given four bytes in memory (kernels/cpu/io.hpp:22,73). -/
def word32 (e : Endian) (a b c d : Byte) : BitVec 32 :=
  match e with
  | .little => d ++ c ++ b ++ a
  | .big => a ++ b ++ c ++ d

namespace Kernels

/-- `byte_endian_swapped` (kernels/cpu/io.hpp:17-23). -/
def byteEndianSwapped (e : Endian) (x : BitVec 32) : BitVec 32 :=
  match bytes32 e x with
  | [p0, p1, p2, p3] =>
    -- std::swap(p[0], p[3]); std::swap(p[1], p[2]);
    word32 e p3 p2 p1 p0
  | _ => x

/-- A buffer of `n` bytes after a read that stored `got` into it: the rest is indeterminate
(kernels/cpu/io.hpp:62-63,72-73, ops/io_tar.hpp:86,89). -/
def buffer (n : Nat) (got : List Byte) : List (Option Byte) :=
  got.map some ++ List.replicate (n - got.length) none

/-- Using the byte at `i` of a buffer (kernels/cpu/io.hpp:64-67, ops/io_tar.hpp:90). -/
def useByte (b : List (Option Byte)) (i : Nat) : Outcome Byte :=
  match b[i]? with
  | some (some c) => .ok c
  | _ => .ub

/-- Word `i` of a buffer after `byte_endian_swapped` (kernels/cpu/io.hpp:74). -/
def useWord (e : Endian) (b : List (Option Byte)) (i : Nat) : Outcome (BitVec 32) := do
  let p0 ← useByte b (4 * i)
  let p1 ← useByte b (4 * i + 1)
  let p2 ← useByte b (4 * i + 2)
  let p3 ← useByte b (4 * i + 3)
  return byteEndianSwapped e (word32 e p0 p1 p2 p3)

/-- The checks of `serializer::read` (kernels/cpu/io.hpp:61-78) for element code `code` and dimensions `dims`: the stream
behind the header. `uint32_t buffer[r]` of length 0 (rank 0) is taken as the extension of gcc and clang. -/
def checkHeader (e : Endian) (code : Byte) (dims : List (BitVec 32)) (is : IStream) : Outcome IStream := do
  let (got, is) := is.read 4
  let magic := buffer 4 got
  let m0 ← useByte magic 0
  contractAssert (m0 = 0)
  let m1 ← useByte magic 1
  contractAssert (m1 = 0)
  let type ← useByte magic 2
  let rank ← useByte magic 3
  contractAssert (type = code)
  contractAssert (rank.toNat = dims.length)
  let r := dims.length
  let (got, is) := is.read (r * 4)
  let swapped ← (List.range r).mapM (useWord e (buffer (r * 4) got))
  (List.zip swapped dims).forM fun p => contractAssert (p.1 = p.2)
  return is

/-- `serializer::read` (kernels/cpu/io.hpp:59-81) into a tensor with element code `code`, dimensions `dims` and element
bytes `y` (`y.length = sizeof(R) * y.shape().size()`): the bytes of the tensor afterwards and the outcome. -/
def serializerRead (e : Endian) (code : Byte) (dims : List (BitVec 32)) (y : List Byte) (is : IStream) :
    List Byte × Outcome Unit :=
  match checkHeader e code dims is with
  | .ok is =>
    let got := (is.read y.length).1
    (got ++ y.drop got.length, .ok ⟨⟩)
  | .throw err => (y, .throw err)
  | .ub => (y, .ub)

/-- `serializer::write` (kernels/cpu/io.hpp:84-100) of a tensor with element bytes `x`. -/
def serializerWrite (e : Endian) (code : Byte) (dims : List (BitVec 32)) (x : List Byte) (os : OStream) : OStream :=
  let os := os.write [0, 0, code, BitVec.ofNat 8 dims.length]
  let os := os.write ((dims.map (byteEndianSwapped e)).flatMap (bytes32 e))
  os.write x

/-- `kernels::readfile` (kernels/cpu/io.hpp:104-122). -/
def readfile (e : Endian) (code : Byte) (dims : List (BitVec 32)) (y : List Byte) (d : Disk) (name : String) :
    List Byte × Outcome Unit :=
  match d.files name with
  | none => (y, .throw .runtimeError)
  | some f => serializerRead e code dims y ⟨f, 0, false⟩

/-- `kernels::writefile` (kernels/cpu/io.hpp:124-142): opening a file for writing empties it. -/
def writefile (e : Endian) (code : Byte) (dims : List (BitVec 32)) (x : List Byte) (d : Disk) (name : String) :
    Disk × Outcome Unit :=
  if d.creatable name then
    let os := serializerWrite e code dims x ⟨[], d.room name, false⟩
    ({ d with files := Function.update d.files name (some os.bytes) }, .ok ⟨⟩)
  else (d, .throw .runtimeError)

end Kernels

namespace Ops

/-- `ops::readfile` (ops/io.hpp:8-21). -/
def readfile (e : Endian) (filename : String) (code : Byte) (dims : List (BitVec 32)) (y : List Byte) (d : Disk) :
    List Byte × Outcome Unit :=
  Kernels.readfile e code dims y d filename

/-- `ops::writefile` (ops/io.hpp:23-36). -/
def writefile (e : Endian) (filename : String) (code : Byte) (dims : List (BitVec 32)) (x : List Byte) (d : Disk) :
    Disk × Outcome Unit :=
  Kernels.writefile e code dims x d filename

end Ops

/-! ## ops/io_tar.hpp -/

namespace Tar

/-- `tar_header` (ops/io_tar.hpp:11-26). The fields `mode`, `uid` and `gid` are read at lines 32-34 through pointers to
`int64_t` into a `char` buffer (which the standard does not allow) but never used; they are left out. -/
structure Header where
  filename : List Byte
  sizeOct : List Byte
  size : Int
  dataOffset : Int
  deriving DecidableEq, Repr

/-- `std::isspace` in the "C" locale, skipped by `std::stoll` (ops/io_tar.hpp:38). -/
def isSpace (c : Byte) : Bool := c == 32 || (9 ≤ c.toNat && c.toNat ≤ 13)

/-- The octal digits at the front of a string and their value so far, as read by `std::stoll` (ops/io_tar.hpp:38). -/
def octDigits : List Byte → Option Int → Option Int
  | [], acc => acc
  | c :: cs, acc =>
    if 48 ≤ c.toNat && c.toNat ≤ 55 then octDigits cs (some (acc.getD 0 * 8 + (c.toNat - 48 : Nat))) else acc

/-- `std::stoll(s, &pos, 8)` (ops/io_tar.hpp:38) of a string of 12 characters: white space, an optional sign, octal digits,
anything. Without digits it throws `std::invalid_argument`. At most 12 digits fit, so the value is below `2 ^ 36` and
`std::out_of_range` does not occur. -/
def stoll8 (s : List Byte) : Outcome Int :=
  let s := s.dropWhile isSpace
  let (neg, s) := match s with
    | c :: cs => if c = 45 then (true, cs) else if c = 43 then (false, cs) else (false, c :: cs)
    | [] => (false, [])
  match octDigits s none with
  | some v => .ok (if neg then -v else v)
  | none => .throw .invalidArgument

/-- `parse_tar_header` (ops/io_tar.hpp:29-39); `std::string(buffer, 100).c_str()` ends at the first zero byte. -/
def parseHeader (buffer : List Byte) : Outcome Header := do
  let filename := (buffer.take 100).takeWhile (· != 0)
  let sizeOct := (buffer.drop 124).take 12
  let size ← stoll8 sizeOct
  return ⟨filename, sizeOct, size, 0⟩

/-- `tar_index::index_t` (ops/io_tar.hpp:44): a `std::map` from names. -/
abbrev Index := List Byte → Option Header

/-- `tar_index::operator()` (ops/io_tar.hpp:51-57). -/
def Index.lookup (idx : Index) (name : List Byte) : Outcome Header :=
  match idx name with
  | none => .throw .invalidArgument
  | some h => .ok h

/-- The number of blocks of a member (ops/io_tar.hpp:97-98). `/` and `%` of C++ round towards zero. Sizes are below
`2 ^ 36` in absolute value, so the conversion to `int` keeps the value. -/
def nBlocks (size : Int) : Int := size.tdiv 512 + (if size.tmod 512 ≠ 0 then 1 else 0)

/-- State of the loop: the stream, the block buffer (which outlives an iteration) and the index (ops/io_tar.hpp:86-88). -/
structure St where
  is : IStream
  buffer : List (Option Byte)
  index : Index

/-- The block buffer after a read that stored `got` (ops/io_tar.hpp:89). -/
def refill (buffer : List (Option Byte)) (got : List Byte) : List (Option Byte) :=
  got.map some ++ buffer.drop got.length

/-- The whole block buffer, if all of it has a value (ops/io_tar.hpp:93). -/
def defined (buffer : List (Option Byte)) : Outcome (List Byte) :=
  match buffer.mapM id with
  | some b => .ok b
  | none => .ub

/-- One iteration of the loop (ops/io_tar.hpp:88-100), `fsize` being the size of the file: `.inl` if the loop goes on,
`.inr` if it is left with an index. `n_blocks * block_size` is a product of `int`s. -/
def step (fsize : Int) (s : St) : Outcome (St ⊕ Index) :=
  if s.is.tellg < fsize then do
    let (got, is) := s.is.read 512
    let buffer := refill s.buffer got
    let b0 ← Kernels.useByte buffer 0
    if b0 = 0 then return .inr s.index
    else do
      let b ← defined buffer
      let th ← parseHeader b
      let th := { th with dataOffset := is.tellg }
      let index := Function.update s.index th.filename (some th)
      let bytes := nBlocks th.size * 512
      if -2 ^ 31 ≤ bytes ∧ bytes < 2 ^ 31 then
        return .inl ⟨is.seekTo (is.tellg + bytes), buffer, index⟩
      else .ub
  else .ok (.inr s.index)

/-- The loop (ops/io_tar.hpp:88-100) for at most `fuel` iterations: `none` if it is still running. -/
def loop (fsize : Int) : Nat → St → Option (Outcome Index)
  | 0, _ => none
  | fuel + 1, s =>
    match step fsize s with
    | .ok (.inl s) => loop fsize fuel s
    | .ok (.inr idx) => some (.ok idx)
    | .throw e => some (.throw e)
    | .ub => some .ub

/-- The state in which the loop starts (ops/io_tar.hpp:73-87). -/
def start (f : List Byte) : St := ⟨⟨f, 0, false⟩, List.replicate 512 none, fun _ => none⟩

/-- `make_tar_index` (ops/io_tar.hpp:64-103) with at most `fuel` iterations of the loop; `file` is the content of the
file, if there is one. -/
def makeIndex (fuel : Nat) (file : Option (List Byte)) : Option (Outcome Index) :=
  match file with
  | none => some (.throw .runtimeError)
  | some f =>
    if f.length % 512 ≠ 0 then some (.throw .runtimeError)
    else loop f.length fuel (start f)

end Tar

namespace Ops

/-- `ops::readtar` (ops/io.hpp:39-65) with at most `fuel` iterations of the indexing loop. -/
def readtar (fuel : Nat) (e : Endian) (filename : String) (name : List Byte) (code : Byte) (dims : List (BitVec 32))
    (y : List Byte) (d : Disk) : Option (List Byte × Outcome Unit) :=
  match Tar.makeIndex fuel (d.files filename) with
  | none => none
  | some idx => some <|
    match idx >>= fun i => i.lookup name with
    | .throw err => (y, .throw err)
    | .ub => (y, .ub)
    | .ok info =>
      match d.files filename with
      | none => (y, .throw .runtimeError)
      | some f => Kernels.serializerRead e code dims y (IStream.seekTo ⟨f, 0, false⟩ info.dataOffset)

end Ops
end StdNN
