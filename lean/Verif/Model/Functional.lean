import Verif.Model.Layers
/-!
# Model of the concatenation layer, of `invoke` and of the bias kernel with several vectors

layers/concat.hpp, experimental/functional and the variadic member of kernels/cpu/bias.hpp.
-/
namespace StdNN
open Outcome

namespace Ops
variable {R : Type}

/-- `ops::concat_channel4d<order>` on tensors (ops/concat.hpp:19-25): two operands in `nchw` and three in `nhwc` are the
only kernels (kernels/cpu/concat.hpp:11, 45); others do not compile. -/
def concatChannel (o : Order) (tdims : List Nat) (xs : List (Tensor R)) (t : List R) : Outcome (List R) :=
  match o, xs with
  | .nchw, [x, y] => Kernels.concatNchw tdims x y t
  | .nhwc, [x, y, z] => Kernels.concatNhwc tdims x y z t
  | _, _ => .ub

end Ops

namespace Layers
variable {R : Type}

/-- `layers::concat_channel4d<order>` (layers/concat.hpp:12-17). -/
def concatChannel (o : Order) (junk : Nat → R) (xs : List (Tensor R)) : Alloc (Layer R) := do
  let y ← newResult junk (Ops.concatChannelShape o (xs.map Tensor.dims)) fun s m => Ops.concatChannel o s xs m
  return ⟨y, []⟩

end Layers

/-- `ttl::nn::invoke` (experimental/functional:7-22): infers the shape, makes a local tensor of that shape (holding `junk`),
runs the operator on it and returns it. The local tensor releases its memory when the operator throws; the returned one
belongs to the caller. `shape` and `op` are the operator applied to the shapes and to the tensors. -/
def invoke {R : Type} (junk : Nat → R) (shape : Outcome (List Nat)) (op : List Nat → List R → Outcome (List R)) :
    Alloc (Tensor R) :=
  match shape with
  | .ok s => match op s (fresh junk s.prod) with
    | .ok d => ⟨1, .ok ⟨s, d⟩⟩
    | .throw e => ⟨0, .throw e⟩
    | .ub => ⟨0, .ub⟩
  | .throw e => ⟨0, .throw e⟩
  | .ub => ⟨0, .ub⟩

namespace Kernels
variable {R : Type}

/-- Element `j` of each of several vectors (the pack expansion of kernels/cpu/bias.hpp:41). -/
def rdAll : List (List R) → Nat → Outcome (List R)
  | [], _ => .ok []
  | y :: ys, j => do
    let b ← rd y j
    let bs ← rdAll ys j
    return b :: bs

/-- `apply_bias` with several vectors (kernels/cpu/bias.hpp:32-43), generic layout: `dims` is the shape of `x`, `p` the
bias position; `f` gets the element and the entries of all vectors at its coordinate. The order in which C++ evaluates the
arguments is open; reading has no effect. -/
def applyBiases (f : R → List R → R) (p : Nat) (dims : List Nat) (x : Src R) (ys : List (List R)) (z : Nat) (m : List R) :
    Outcome (List R) :=
  forRange dims.prod (fun i m => do
    let j := (unravel dims i).getD p 0
    let a ← x.rd m i
    let bs ← rdAll ys j
    wr m (z + i) (f a bs)) m

end Kernels
end StdNN
