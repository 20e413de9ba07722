import Verif.Model.Engine
/-!
# Model of the cblas engine for every order of summation

The wrapper `cblas_impl` (engines/cblas_impl.hpp) only fixes the arguments of `cblas_?gemm` and `cblas_?gemv`; in which order
an implementation of these adds up the products, and whether it fuses a multiplication and an addition, is not specified.
`Verif/Model/Engine.lean` takes the increasing order without fusing. Here the order is a parameter, which may be different for
every entry of the result.
-/
namespace StdNN
open Outcome
variable {T : Type} [Add T] [Mul T] [Zero T]

/-- How a sum of products `x p * y p` is evaluated by the external library (called at engines/cblas_impl.hpp:55-61, 85-86,
91-92): an accumulator that starts with zero, a product, the sum of two partial sums, or a product added to a partial sum by a
fused multiply-add. -/
inductive SumOrder where
  | zero
  | mul (p : Nat)
  | add (s t : SumOrder)
  | fma (s : SumOrder) (p : Nat)

namespace SumOrder

/-- The value (external library, called at engines/cblas_impl.hpp:55-61, 85-86, 91-92) of the sum whose factors are read by `x`
and `y`; `fma x y s` is the fused `x * y + s`. -/
def eval (fma : T → T → T → T) (x y : Nat → Outcome T) : SumOrder → Outcome T
  | zero => .ok 0
  | mul p => do
    let a ← x p
    let b ← y p
    return a * b
  | add s t => do
    let a ← s.eval fma x y
    let b ← t.eval fma x y
    return a + b
  | .fma s p => do
    let c ← s.eval fma x y
    let a ← x p
    let b ← y p
    return fma a b c

end SumOrder

namespace Cblas
variable [One T] [DecidableEq T]

/-- `cblas_?gemm` (external, called at engines/cblas_impl.hpp:55-61) as in `Cblas.gemm`, with the sum of entry `(i, j)`
evaluated as `how i j` says. -/
def gemmBy (fma : T → T → T → T) (how : Nat → Nat → SumOrder) (transA transB : Bool) (M N K : Int) (alpha : T) (a : List T)
    (lda : Int) (b : List T) (ldb : Int) (beta : T) (c : List T) (ldc : Int) : Outcome (List T) :=
  if M < 0 ∨ N < 0 ∨ K < 0 ∨ lda < max 1 (if transA then M else K) ∨ ldb < max 1 (if transB then K else N)
      ∨ ldc < max 1 N then .ub
  else
    forRange M.toNat (fun i c =>
      forRange N.toNat (fun j c => do
        let s ← (how i j).eval fma
          (fun p => rd a (if transA then p * lda.toNat + i else i * lda.toNat + p))
          (fun p => rd b (if transB then j * ldb.toNat + p else p * ldb.toNat + j))
        if beta = 0 then wr c (i * ldc.toNat + j) (alpha * s)
        else upd c (i * ldc.toNat + j) (fun x => alpha * s + beta * x)) c) c

/-- `cblas_?gemv` (external, called at engines/cblas_impl.hpp:85-86, 91-92) as in `Cblas.gemv`, with the sum of entry `i`
evaluated as `how i` says. -/
def gemvBy (fma : T → T → T → T) (how : Nat → SumOrder) (trans : Bool) (M N : Int) (alpha : T) (a : List T) (lda : Int)
    (x : List T) (beta : T) (y : List T) : Outcome (List T) :=
  if M < 0 ∨ N < 0 ∨ lda < max 1 N then .ub
  else
    forRange (if trans then N else M).toNat (fun i y => do
      let s ← (how i).eval fma
        (fun p => rd a (if trans then p * lda.toNat + i else i * lda.toNat + p))
        (fun p => rd x p)
      if beta = 0 then wr y i (alpha * s) else upd y i (fun x => alpha * s + beta * x)) y

/-- `_gemm` (engines/cblas_impl.hpp:52-62), with `alpha = 1`, `beta = 0` (lines 29-30). -/
def gemmBy_ (fma : T → T → T → T) (how : Nat → Nat → SumOrder) (a : Tensor T) (transA : Bool) (b : Tensor T) (transB : Bool)
    (cdims : List Nat) (c : List T) : Outcome (List T) :=
  gemmBy fma how transA transB (len cdims) (wid cdims) (if transB then wid b.dims else len b.dims)
    1 a.data (wid a.dims) b.data (wid b.dims) 0 c (wid cdims)

/-- `cblas_impl<R>::mm` (engines/cblas_impl.hpp:66-69). -/
def mmBy (fma : T → T → T → T) (how : Nat → Nat → SumOrder) (a b : Tensor T) (cdims : List Nat) (c : List T) :
    Outcome (List T) := gemmBy_ fma how a false b false cdims c
/-- `cblas_impl<R>::mmt` (engines/cblas_impl.hpp:72-75). -/
def mmtBy (fma : T → T → T → T) (how : Nat → Nat → SumOrder) (a b : Tensor T) (cdims : List Nat) (c : List T) :
    Outcome (List T) := gemmBy_ fma how a false b true cdims c
/-- `cblas_impl<R>::mtm` (engines/cblas_impl.hpp:78-81). -/
def mtmBy (fma : T → T → T → T) (how : Nat → Nat → SumOrder) (a b : Tensor T) (cdims : List Nat) (c : List T) :
    Outcome (List T) := gemmBy_ fma how a true b false cdims c
/-- `cblas_impl<R>::mv` (engines/cblas_impl.hpp:83-87). -/
def mvBy (fma : T → T → T → T) (how : Nat → SumOrder) (a b : Tensor T) (_cdims : List Nat) (c : List T) : Outcome (List T) :=
  gemvBy fma how false (len a.dims) (wid a.dims) 1 a.data (wid a.dims) b.data 0 c
/-- `cblas_impl<R>::vm` (engines/cblas_impl.hpp:89-93). -/
def vmBy (fma : T → T → T → T) (how : Nat → SumOrder) (a b : Tensor T) (_cdims : List Nat) (c : List T) : Outcome (List T) :=
  gemvBy fma how true (len b.dims) (wid b.dims) 1 b.data (wid b.dims) a.data 0 c

end Cblas
end StdNN
