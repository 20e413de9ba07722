import Verif.Model.Utility
import Verif.Model.Activation
/-!
# Model of the utility operators on tensors of any rank

ops/utility.hpp, ops/reduce.hpp: the operators call their kernels on `flatten`ed tensors (the row-major data) and on
`as_matrix<r, 1>` (`rowsOf`).
-/
namespace StdNN.Ops
open Outcome
variable {R S : Type}

/-- `ops::cast` (ops/utility.hpp:14-19); `f` is the conversion of an element. -/
def cast (f : S → R) (x : Tensor S) (y : List R) : Outcome (List R) := Kernels.cast f x.data y

/-- `ops::argmax` (ops/utility.hpp:27-32); `t` is the element type of `y`. -/
def argmax [LT R] [DecidableLT R] (t : IntTy) (x : Tensor R) (y : List Int) : Outcome (List Int) :=
  Kernels.argmax t (rowsOf x.dims).2 x.data y

/-- `ops::onehot` (ops/utility.hpp:42-47); `t` is the type of the labels. -/
def onehot [Zero R] [One R] (t : IntTy) (ydims : List Nat) (x : Tensor Int) (y : List R) : Outcome (List R) :=
  Kernels.onehot t (rowsOf ydims).2 x.data y

/-- `ops::similarity` (ops/utility.hpp:60-66). -/
def similarity [DecidableEq S] [One R] [Sub R] [Div R] [NatCast R] (x y : Tensor S) (z : List R) : Outcome (List R) :=
  Kernels.similarity x.data y.data z

/-- `ops::mean` (ops/reduce.hpp:14-23) on a tensor: `mean` is `summaries::mean` for the element type. -/
def meanOp (mean : List R → Outcome R) (x : Tensor R) (y : List R) : Outcome (List R) :=
  Ops.mean mean (rowsOf x.dims).1 (rowsOf x.dims).2 x.data y

end StdNN.Ops
