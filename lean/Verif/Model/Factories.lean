import Verif.Model.Conv
import Verif.Model.Pool
/-!
# Model of the functions that build paddings from numbers

traits/padding.hpp, traits/linear_sample.hpp, traits/multi_linear_sample.hpp, ops/conv2d_trait.hpp, ops/pool2d_trait.hpp. The
arguments are numbers of the caller, mostly of type `int`; they are converted to the dimension type of the class.
-/
namespace StdNN
open IntTy

namespace Padding

/-- `padding_1d(left, right)` and `padding(left, right)` for the dimension type `N` (traits/padding.hpp:21,
traits/linear_sample.hpp:30-33, traits/multi_linear_sample.hpp:73-76, ops/conv2d_trait.hpp:27-30, 96-99,
ops/pool2d_trait.hpp:56-59). -/
def ofInts (N : IntTy) (left right : Int) : Padding := ⟨N.conv left, N.conv right⟩

/-- `padding_1d(p)` and `padding(p)` (traits/linear_sample.hpp:28, traits/multi_linear_sample.hpp:71,
ops/conv2d_trait.hpp:25, 94, ops/pool2d_trait.hpp:54). -/
def ofInt (N : IntTy) (p : Int) : Padding := ofInts N p p

/-- `padding(r, s)` of the two-dimensional classes (traits/multi_linear_sample.hpp:85-90, ops/conv2d_trait.hpp:101-104,
ops/pool2d_trait.hpp:66-69); `padding_simple(r, s)` (traits/multi_linear_sample.hpp:78-83) is the same, and
`padding(p1, p2)` of two paddings (lines 92-99) puts them side by side. -/
def pair (r s : Int) : Padding × Padding := (ofInt u32 r, ofInt u32 s)

/-- `dims()` (traits/padding.hpp:37-40). -/
def dims (p : Padding) : List Int := [p.left, p.right]

end Padding
end StdNN
