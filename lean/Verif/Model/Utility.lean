import Verif.Basic.Tensor
import Verif.Basic.IntTy
/-!
# Model of the utility operators, summaries and initialisers

kernels/cpu/utility.hpp, kernels/cpu/init.hpp, ops/utility.hpp, ops/summary.hpp, ops/reduce.hpp, ops/init.hpp. Tensors of any
rank enter these through `flatten` or `as_matrix` and are given by their row-major data. `ttl::argmax`,
`ttl::hamming_distance`, `ttl::cast` and `ttl::fill` belong to the stdtensor dependency, which is not part of /repo: they are
modelled by their documented meaning (first maximal element, number of differing positions, element-wise conversion, store
to every element).
-/
namespace StdNN
open Outcome
variable {R : Type}

/-- The view `x[i]` of a matrix with `cols` columns (used at kernels/cpu/utility.hpp:35 and ops/reduce.hpp:21). -/
def rowOf (cols : Nat) (x : List R) (i : Nat) : Outcome (List R) :=
  if i * cols + cols ≤ x.length then .ok ((x.drop (i * cols)).take cols) else .ub

section
variable [LT R] [DecidableLT R]

/-- The loop of `std::max_element` (called by `ttl::argmax`, kernels/cpu/utility.hpp:35): `i` is the position of the next
element, `best` the position of the largest so far, `v` its value. -/
def maxElementFrom (i best : Nat) (v : R) : List R → Nat
  | [] => best
  | b :: t => if v < b then maxElementFrom (i + 1) i b t else maxElementFrom (i + 1) best v t

/-- `ttl::argmax(x)` (kernels/cpu/utility.hpp:35): `std::max_element(begin, end) - begin`. -/
def maxElement : List R → Nat
  | [] => 0
  | a :: t => maxElementFrom 1 0 a t

namespace Kernels

/-- `argmax` (kernels/cpu/utility.hpp:29-37); `t` is the element type of `y`, `cols` the number of columns of `x`. -/
def argmax (t : IntTy) (cols : Nat) (x : List R) (y : List Int) : Outcome (List Int) :=
  forRange y.length (fun i y => do
    let r ← rowOf cols x i
    wr y i (t.conv (maxElement r))) y

end Kernels
end

namespace Kernels

/-- `onehot` (kernels/cpu/utility.hpp:39-55); `t` is the type of the labels, `cols` the number of columns of `y`. The
comparisons compare two values of the label type, which promotion and conversion preserve. -/
def onehot [Zero R] [One R] (t : IntTy) (cols : Nat) (x : List Int) (y : List R) : Outcome (List R) := do
  let k := t.conv cols
  let y ← fillAll 0 y
  forRange x.length (fun i y => do
    let j ← rd x i
    if 0 ≤ j ∧ j < k then wr y (i * cols + j.toNat) 1 else return y) y

/-- `std::greater<std::pair<R, N>>` (kernels/cpu/utility.hpp:72): `greater a b` is `b < a` with the lexicographic order of
`std::pair`. -/
def greater [LT R] [DecidableLT R] (a b : R × Int) : Bool := b.1 < a.1 || (!(a.1 < b.1) && decide (b.2 < a.2))

/-- `top` (kernels/cpu/utility.hpp:57-78); `t` is the type `N` of the indices and `sort` is `std::sort` with
`std::greater<P>`. A negative `n` makes the `std::vector` constructor throw `std::length_error`, a `std::logic_error`; a
negative `k` makes the range run backwards, which is modelled as undefined. -/
def top (t : IntTy) (sort : List (R × Int) → List (R × Int)) (x y : List R) (z : List Int) :
    Outcome (List R × List Int) := do
  let n := t.conv x.length
  let k := t.conv y.length
  if n < 0 then .throw .logicError else
  let v ← (List.range n.toNat).mapM (fun i => do
    let a ← rd x i
    return (a, (i : Int)))
  let v := sort v
  if min n k < 0 then .ub else
  forRange (min n k).toNat (fun i (s : List R × List Int) => do
    let p ← rd v i
    let y ← wr s.1 i p.1
    let z ← wr s.2 i p.2
    return (y, z)) (y, z)

/-- `ttl::hamming_distance` (called at kernels/cpu/utility.hpp:88): reads `y` at every position of `x`. -/
def hamming {S : Type} [DecidableEq S] (x y : List S) : Outcome Nat :=
  forRange x.length (fun i acc => do
    let a ← rd x i
    let b ← rd y i
    return acc + (if a = b then 0 else 1)) 0

/-- `similarity` (kernels/cpu/utility.hpp:80-91): `z` has one element. -/
def similarity {S : Type} [DecidableEq S] [One R] [Sub R] [Div R] [NatCast R] (x y : List S) (z : List R) :
    Outcome (List R) := do
  let d ← hamming x y
  wr z 0 (1 - (d : R) / (x.length : R))

/-- `cast` (kernels/cpu/utility.hpp:18-27): `f` is the conversion. -/
def cast {S : Type} (f : S → R) (x : List S) (y : List R) : Outcome (List R) :=
  forRange x.length (fun i y => do
    let a ← rd x i
    wr y i (f a)) y

/-- `zeros` (kernels/cpu/init.hpp:9-17). -/
def zeros [Zero R] (x : List R) : Outcome (List R) := fillAll 0 x

/-- `ones` (kernels/cpu/init.hpp:19-27). -/
def ones [One R] (x : List R) : Outcome (List R) := fillAll 1 x

/-- `uniform_constant` (kernels/cpu/init.hpp:29-39). -/
def uniformConstant [One R] [Div R] [NatCast R] (x : List R) : Outcome (List R) := fillAll (1 / (x.length : R)) x

/-- `constant` (kernels/cpu/init.hpp:41-50). -/
def constant (value : R) (x : List R) : Outcome (List R) := fillAll value x

end Kernels

namespace Ops

/-- Shape function of `ops::similarity` (ops/utility.hpp:53-58). -/
def similarityShape (x y : List Nat) : Outcome (List Nat) := do
  contractAssert (x = y)
  return []

/-- Shape function of `ops::top` (ops/utility.hpp:71-81): `k` is an `int` stored as a `uint32_t`. -/
def topShape (k : Int) (_x : List Nat) : List Nat × List Nat := ([(IntTy.u32.conv k).toNat], [(IntTy.u32.conv k).toNat])

namespace Summaries

section
variable [LT R] [DecidableLT R]

/-- `summaries::min` (ops/summary.hpp:12-18): the value at `std::min_element`; dereferencing `end` is undefined. -/
def min : List R → Outcome R
  | [] => .ub
  | a :: t => .ok (t.foldl (fun m b => if b < m then b else m) a)

/-- `summaries::max` (ops/summary.hpp:20-26): the value at `std::max_element`. -/
def max : List R → Outcome R
  | [] => .ub
  | a :: t => .ok (t.foldl (fun m b => if m < b then b else m) a)

/-- `summaries::span` (ops/summary.hpp:28-36): `std::minmax_element` yields the first smallest and the last largest
element. -/
def span [Sub R] : List R → Outcome R
  | [] => .ub
  | a :: t => .ok ((t.foldl (fun m b => if b < m then m else b) a) - (t.foldl (fun m b => if b < m then b else m) a))

end

/-- `summaries::sum` (ops/summary.hpp:38-45). -/
def sum [Zero R] [Add R] (x : List R) : Outcome R := .ok (x.foldl (· + ·) 0)

/-- `summaries::mean` (ops/summary.hpp:47-53) for a floating point type; `divn s n` is `s / n`. -/
def mean [Zero R] [Add R] (divn : R → Nat → R) (x : List R) : Outcome R := do
  let s ← sum x
  return divn s x.length

/-- `summaries::mean` (ops/summary.hpp:47-53) for `int32_t`: the sum is an `int` sum; the size is a `uint32_t`, so the
quotient is a `uint32_t` quotient converted to `int32_t`. -/
def meanI32 (x : List Int) : Outcome Int := do
  let s ← x.foldlM (fun s a => IntTy.i32.add s a) 0
  let q ← IntTy.u32.div s x.length
  return IntTy.i32.conv q

/-- `summaries::variance` (ops/summary.hpp:55-68). -/
def variance [Zero R] [Add R] [Sub R] [Mul R] (divn : R → Nat → R) (x : List R) : Outcome R := do
  let s ← sum x
  let m := divn s x.length
  let v := x.foldl (fun acc xi => let d := xi - m; acc + d * d) 0
  return divn v x.length

/-- `summaries::standard_deviation` (ops/summary.hpp:70-77). -/
def standardDeviation [Zero R] [Add R] [Sub R] [Mul R] (sqrt : R → R) (divn : R → Nat → R) (x : List R) : Outcome R := do
  let v ← variance divn x
  return sqrt v

/-- `summaries::adj_diff_sum` (ops/summary.hpp:79-87): `std::inner_product` from the second element on; on an empty tensor
it starts behind its end. -/
def adjDiffSum [Zero R] [Add R] [Sub R] (abs : R → R) : List R → Outcome R
  | [] => .ub
  | a :: t => .ok ((List.zip t (a :: t)).foldl (fun acc p => acc + abs (p.1 - p.2)) 0)

end Summaries

/-- `ops::scalar_summaries` (ops/summary.hpp:94-111): `ss` are the summaries in the order listed, evaluated from left to
right before anything is written. -/
def scalarSummaries (ss : List (List R → Outcome R)) (x y : List R) : Outcome (List R) := do
  let values ← ss.mapM fun s => s x
  forRange values.length (fun i y => do
    let v ← rd values i
    wr y i v) y

/-- `ops::mean` (ops/reduce.hpp:14-23): `x` is `rows` by `cols`; `mean` is `summaries::mean` for the element type. -/
def mean (mean : List R → Outcome R) (rows cols : Nat) (x y : List R) : Outcome (List R) :=
  forRange rows (fun i y => do
    let r ← rowOf cols x i
    let v ← mean r
    wr y i v) y

/-- The rejection loop of `truncated_normal` (ops/init.hpp:67-69) on the draws still to come: the value accepted and the
draws left, or `none` if the loop is still running when the given draws are used up. -/
def drawUntil [LT R] [DecidableLT R] (fabs : R → R) (bound : R) : List R → Option (R × List R)
  | [] => none
  | v :: ds => if bound < fabs v then drawUntil fabs bound ds else some (v, ds)

/-- `truncated_normal::operator()(y, engine)` (ops/init.hpp:62-71) on a `y` of `n` elements. The draws of
`std::normal_distribution` from the engine are given as a list. -/
def truncatedNormal [LT R] [DecidableLT R] (fabs : R → R) (bound : R) : Nat → List R → Option (List R × List R)
  | 0, ds => some ([], ds)
  | n + 1, ds => do
    let (v, ds) ← drawUntil fabs bound ds
    let (vs, ds) ← truncatedNormal fabs bound n ds
    return (v :: vs, ds)

/-- The bound of `truncated_normal` (ops/init.hpp:74-77). -/
def truncatedBound [One R] [Add R] [Mul R] (fabs : R → R) (stddev : R) : R := (1 + 1) * fabs stddev

/-- The first `m` draws from a generator state; `next` is `d(engine)` (ops/init.hpp:67-68). -/
def drawsFrom {S : Type} (next : S → R × S) : Nat → S → List R
  | 0, _ => []
  | m + 1, s => (next s).1 :: drawsFrom next m (next s).2

/-- `truncated_normal::operator()(y, x)` with a seed tensor (ops/init.hpp:88-97): `rd` is the value of
`std::random_device`, `mk` the constructor of `std::mt19937`, `seed` its member function. Only the first `m` draws are
considered. -/
def truncatedNormalSeeded {S : Type} [LT R] [DecidableLT R] (mk : Nat → S) (seed : S → Nat → S) (next : S → R × S)
    (fabs : R → R) (bound : R) (rd x n m : Nat) : Option (List R) := do
  let gen := mk rd
  let gen := seed gen x
  let (vs, _) ← truncatedNormal fabs bound n (drawsFrom next m gen)
  return vs

end Ops
end StdNN
