import Verif.Model.IO
import Verif.Model.Layers
/-!
# Tensors of elements read from files

The operators `readfile` and `readtar` of Verif/Model/IO.lean work on the bytes of a tensor. Here they are used on tensors of
elements, as initialisers of parameters. `enc` and `dec` are the representation of an element by its bytes in memory, `w`
the number of bytes.
-/
namespace StdNN
open Outcome
variable {R : Type}

/-- The bytes of a `std::string`, here of a constant with the name of a parameter
(examples/example_model_vgg16.cpp:37-40, 55-78). -/
def bytesOf (s : String) : List Byte := s.toUTF8.toList.map UInt8.toBitVec

/-- The elements of a tensor as the bytes in memory are read again (`y.data()` is read as `char *` and used as `R *`,
kernels/cpu/io.hpp:93-101). -/
def decodeAll (w : Nat) (dec : List Byte → R) (bs : List Byte) : List R :=
  (List.range (bs.length / w)).map fun i => dec ((bs.drop (i * w)).take w)

namespace Ops

/-- `readfile(filename)` as an initialiser (ops/io.hpp:8-21, layers/call.hpp:18): after an exception the contents of the
tensor are not used any more and left out. -/
def fileInit (e : Endian) (w : Nat) (enc : R → List Byte) (dec : List Byte → R) (code : Byte) (d : Disk) (filename : String) :
    Init R := fun dims m =>
  match readfile e filename code (dims.map (BitVec.ofNat 32)) (m.flatMap enc) d with
  | (bs, .ok _) => .ok (decodeAll w dec bs)
  | (_, .throw err) => .throw err
  | (_, .ub) => .ub

/-- `readtar(filename, name)` as an initialiser (ops/io.hpp:39-65, layers/call.hpp:18), with at most `fuel` iterations of the
indexing loop; running out of it is counted as undefined behaviour, so that no statement about a normal end holds because
of it. -/
def tarInit (fuel : Nat) (e : Endian) (w : Nat) (enc : R → List Byte) (dec : List Byte → R) (code : Byte) (d : Disk)
    (filename name : String) : Init R := fun dims m =>
  match readtar fuel e filename (bytesOf name) code (dims.map (BitVec.ofNat 32)) (m.flatMap enc) d with
  | none => .ub
  | some (bs, .ok _) => .ok (decodeAll w dec bs)
  | some (_, .throw err) => .throw err
  | some (_, .ub) => .ub

end Ops
end StdNN
