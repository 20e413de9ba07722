import Verif.Model.Shared
/-!
# Operators called by several threads at once

The operators of /repo take no locks and have no state of their own (they are `const`, and there are no variables with static
storage under include/), so several threads may call them on tensors in one memory. A call is here a `Prog`: the reads and
writes of single elements it makes, one after another. Threads take turns after every element, in any order. Simplification:
a read or write of one element is atomic and later reads of all threads see it, which C++ promises only in the absence of data
races; that there are none is part of the claim.

The programs repeat the loops of `Model/Elementwise.lean`, `Model/Activation.lean`, `Model/Pool.lean` and `Model/Shared.lean`.
-/
namespace StdNN

/-- What a thread still does to the memory it shares with others before it returns, throws or is undefined (such as the loop of
kernels/cpu/bias.hpp:26-29). -/
inductive Prog (R α : Type) where
  | halt (o : Outcome α)
  | read (p : Nat) (k : R → Prog R α)
  | write (p : Nat) (v : R) (k : Prog R α)

namespace Prog
variable {R α β σ : Type}

/-- Sequencing (C++ semantics, e.g. the statements of kernels/cpu/bias.hpp:26-29). -/
protected def bind : Prog R α → (α → Prog R β) → Prog R β
  | halt (.ok a), f => f a
  | halt (.throw e), _ => halt (.throw e)
  | halt .ub, _ => halt .ub
  | read p k, f => read p fun v => (k v).bind f
  | write p v k, f => write p v (k.bind f)

instance : Monad (Prog R) where
  pure a := halt (.ok a)
  bind := Prog.bind

/-- A step that does not touch the shared memory (e.g. the assertions of engines/plain_impl.hpp:25-31). -/
def lift (o : Outcome α) : Prog R α := halt o

/-- `x.data()[p]` (e.g. kernels/cpu/bias.hpp:28). -/
def rd (p : Nat) : Prog R R := read p fun v => halt (.ok v)

/-- `y.data()[p] = v` (e.g. kernels/cpu/bias.hpp:28). -/
def wr (p : Nat) (v : R) : Prog R Unit := write p v (halt (.ok ()))

/-- `y.data()[p] += ...` (e.g. engines/plain_impl.hpp:35). -/
def upd (p : Nat) (f : R → R) : Prog R Unit := do
  let v ← rd p
  wr p (f v)

/-- `for (auto i : range(n)) body(i)` with local variables `s` (e.g. kernels/cpu/loss.hpp:18-20). -/
def fold : Nat → (Nat → σ → Prog R σ) → σ → Prog R σ
  | 0, _, s => pure s
  | n + 1, body, s => fold n body s >>= body n

/-- `for (auto i : range(n)) body(i)` (e.g. kernels/cpu/loss.hpp:27). -/
def loop (n : Nat) (body : Nat → Prog R Unit) : Prog R Unit := fold n (fun i _ => body i) ()

/-- An input of the thread's own or in the shared memory (e.g. `x` at kernels/cpu/bias.hpp:28). -/
def src (x : Src R) (i : Nat) : Prog R R :=
  match x with
  | .ext b => lift (StdNN.rd b i)
  | .mem p => rd (p + i)

/-- `x.at(i, j, ...)` (e.g. engines/plain_impl.hpp:34). -/
def srcAt (x : Src R) (dims idx : List Nat) : Prog R R := src x (offset dims idx)

/-- The memory and the result after the thread has run alone (C++ semantics, e.g. of kernels/cpu/bias.hpp:26-29). -/
def run : Prog R α → List R → Outcome (List R × α)
  | halt o, m => o >>= fun a => .ok (m, a)
  | read p k, m => StdNN.rd m p >>= fun v => (k v).run m
  | write p v k, m => StdNN.wr m p v >>= fun m' => k.run m'

/-- The memory after the thread has run alone (e.g. kernels/cpu/bias.hpp:26-29). -/
def exec (p : Prog R α) (m : List R) : Outcome (List R) := p.run m >>= fun r => .ok r.1

/-- The next access of a thread (e.g. one read or one write of kernels/cpu/bias.hpp:28); `none` if it has ended. -/
def next : Prog R α → List R → Option (Prog R α × List R)
  | halt _, _ => none
  | read p k, m => some (match m[p]? with
    | some v => (k v, m)
    | none => (halt .ub, m))
  | write p v k, m => some (if p < m.length then (k, m.set p v) else (halt .ub, m))

/-- One turn of thread `i` (e.g. one read or one write of kernels/cpu/bias.hpp:28); nothing happens if it has ended. -/
def turn {ι : Type} [DecidableEq ι] (c : (ι → Prog R α) × List R) (i : ι) : (ι → Prog R α) × List R :=
  match (c.1 i).next c.2 with
  | none => c
  | some (p, m) => (Function.update c.1 i p, m)

/-- The threads take turns as listed (e.g. calls of kernels/cpu/bias.hpp:20-30). -/
def play {ι : Type} [DecidableEq ι] (turns : List ι) (c : (ι → Prog R α) × List R) : (ι → Prog R α) × List R :=
  turns.foldl turn c

/-- The address that a thread accesses next, and whether it writes (e.g. kernels/cpu/bias.hpp:28). -/
def access : Prog R α → Option (Nat × Bool)
  | halt _ => none
  | read p _ => some (p, false)
  | write p _ _ => some (p, true)

/-- How many elements the thread reads and writes when it runs alone (e.g. kernels/cpu/bias.hpp:26-29). -/
def cost : Prog R α → List R → Nat
  | halt _, _ => 0
  | read p k, m => (match m[p]? with
    | some v => (k v).cost m
    | none => 0) + 1
  | write p v k, m => (if p < m.length then k.cost (m.set p v) else 0) + 1

/-- The accesses of a thread that runs alone, in order (e.g. kernels/cpu/bias.hpp:26-29): addresses, and whether it writes. -/
def trace : Prog R α → List R → List (Nat × Bool)
  | halt _, _ => []
  | read p k, m => (p, false) :: (match m[p]? with
    | some v => (k v).trace m
    | none => [])
  | write p v k, m => (p, true) :: if p < m.length then k.trace (m.set p v) else []

/-! ## Operators -/

/-- `std::transform(x, x + n, z, f)` (kernels/cpu/elementary.hpp:21, kernels/cpu/activation.hpp:45). -/
def transform1 (f : R → R) (n : Nat) (x : Src R) (z : Nat) : Prog R Unit :=
  loop n fun i => do
    let a ← src x i
    wr (z + i) (f a)

/-- `std::transform(x, x + n, y, z, f)` (kernels/cpu/elementary.hpp:53, ops/elementary.hpp:90, kernels/cpu/blas.hpp:22-24). -/
def transform2 (f : R → R → R) (n : Nat) (x y : Src R) (z : Nat) : Prog R Unit :=
  loop n fun i => do
    let a ← src x i
    let b ← src y i
    wr (z + i) (f a b)

/-- `apply_bias<nhwc>` on a matrix (kernels/cpu/bias.hpp:50-56). -/
def applyBiasRows (f : R → R → R) (rows cols : Nat) (x y : Src R) (z : Nat) : Prog R Unit :=
  loop rows fun i => transform2 f cols (x.shift (i * cols)) y (z + i * cols)

/-- Generic `apply_bias` (kernels/cpu/bias.hpp:20-30). -/
def applyBias (f : R → R → R) (p : Nat) (dims : List Nat) (x y : Src R) (z : Nat) : Prog R Unit :=
  loop dims.prod fun i => do
    let a ← src x i
    let b ← src y ((unravel dims i).getD p 0)
    wr (z + i) (f a b)

/-- `std::copy(x, x + n, z)` (kernels/cpu/elementary.hpp:38, ops/reshape.hpp:37, ops/gradients/reshape.hpp:28); undefined if `z`
lies in `[x, x + n)`. -/
def copy (n : Nat) (x : Src R) (z : Nat) : Prog R Unit :=
  match x with
  | .mem p => if p ≤ z ∧ z < p + n then lift .ub else transform1 id n x z
  | .ext _ => transform1 id n x z

/-- `outter_contraction` (kernels/cpu/reduce.hpp:28-34). -/
def sumRows [Zero R] [Add R] (rows cols : Nat) (x : Src R) (z : Nat) : Prog R Unit := do
  loop cols fun i => wr (z + i) 0
  loop rows fun i => transform2 (· + ·) cols (.mem z) (x.shift (i * cols)) z

/-- `grad::xentropy<1>` (ops/gradients/xentropy.hpp:23-45); `gz` is memory of the thread. -/
def xentropyGrad [Mul R] [Neg R] [Div R] (rows n : Nat) (gz : List R) (x y : Src R) (gx : Nat) : Prog R Unit :=
  loop rows fun i => loop n fun j => do
    let c ← lift (StdNN.rd gz i)
    let a ← src (x.shift (i * n)) j
    let b ← src (y.shift (i * n)) j
    wr (gx + i * n + j) (c * (-a / b))

/-- `softmax::operator()` on vectors (kernels/cpu/activation.hpp:22-32). -/
def softmaxRow [Zero R] [One R] [Add R] [Sub R] [Div R] [LT R] [DecidableLT R] (exp : R → R) (eps : R) (n : Nat) (x : Src R)
    (y : Nat) : Prog R Unit :=
  loop n fun i => do
    let xi ← src x i
    let tot ← fold n (fun j acc => do
      let xj ← src x j
      return acc + exp (xj - xi)) 0
    wr (y + i) (stdMax eps (1 / tot))

/-- `softmax::operator()` on matrices (kernels/cpu/activation.hpp:34-37). -/
def softmax [Zero R] [One R] [Add R] [Sub R] [Div R] [LT R] [DecidableLT R] (exp : R → R) (eps : R) (rows n : Nat) (x : Src R)
    (y : Nat) : Prog R Unit :=
  loop rows fun i => softmaxRow exp eps n (x.shift (i * n)) (y + i * n)

section
variable [Zero R] [Add R] [Mul R]

/-- `plain_impl<T>::mm` (engines/plain_impl.hpp:23-38). -/
def mm (ad bd cd : List Nat) (a b : Src R) (z : Nat) : Prog R Unit :=
  match ad, bd, cd with
  | [m, l], [l', n], [cm, cn] => do
    lift (Outcome.contractAssert (l' = l))
    lift (Outcome.contractAssert (m = cm))
    lift (Outcome.contractAssert (n = cn))
    loop cd.prod fun i => wr (z + i) 0
    loop m fun i => loop l fun k => do
      let aa ← srcAt a ad [i, k]
      loop n fun j => do
        let bb ← srcAt b bd [k, j]
        upd (z + offset cd [i, j]) (fun x => x + aa * bb)
  | _, _, _ => halt .ub

/-- `plain_impl<T>::mmt` (engines/plain_impl.hpp:41-56). -/
def mmt (ad bd cd : List Nat) (a b : Src R) (z : Nat) : Prog R Unit :=
  match ad, bd, cd with
  | [m, l], [n, l'], [cm, cn] => do
    lift (Outcome.contractAssert (l' = l))
    lift (Outcome.contractAssert (m = cm))
    lift (Outcome.contractAssert (n = cn))
    loop m fun i => loop n fun j => do
      let tmp ← fold l (fun k tmp => do
        let aa ← srcAt a ad [i, k]
        let bb ← srcAt b bd [j, k]
        return tmp + aa * bb) 0
      wr (z + offset cd [i, j]) tmp
  | _, _, _ => halt .ub

/-- `plain_impl<T>::mtm` (engines/plain_impl.hpp:59-74). -/
def mtm (ad bd cd : List Nat) (a b : Src R) (z : Nat) : Prog R Unit :=
  match ad, bd, cd with
  | [l, m], [l', n], [cm, cn] => do
    lift (Outcome.contractAssert (l' = l))
    lift (Outcome.contractAssert (m = cm))
    lift (Outcome.contractAssert (n = cn))
    loop m fun i => loop n fun j => do
      let tmp ← fold l (fun k tmp => do
        let aa ← srcAt a ad [k, i]
        let bb ← srcAt b bd [k, j]
        return tmp + aa * bb) 0
      wr (z + offset cd [i, j]) tmp
  | _, _, _ => halt .ub

/-- `plain_impl<T>::mv` (engines/plain_impl.hpp:77-88). -/
def mv (ad bd cd : List Nat) (a b : Src R) (z : Nat) : Prog R Unit :=
  match ad, bd, cd with
  | [m, n], [n'], [cm] => do
    lift (Outcome.contractAssert (n = n'))
    lift (Outcome.contractAssert (m = cm))
    loop m fun i => do
      let tmp ← fold n (fun j tmp => do
        let aa ← srcAt a ad [i, j]
        let bb ← srcAt b bd [j]
        return tmp + aa * bb) 0
      wr (z + offset cd [i]) tmp
  | _, _, _ => halt .ub

/-- `plain_impl<T>::vm` (engines/plain_impl.hpp:91-102). -/
def vm (ad bd cd : List Nat) (a b : Src R) (z : Nat) : Prog R Unit :=
  match ad, bd, cd with
  | [m'], [m, n], [cn] => do
    lift (Outcome.contractAssert (m = m'))
    lift (Outcome.contractAssert (n = cn))
    loop n fun i => do
      let tmp ← fold m (fun j tmp => do
        let aa ← srcAt a ad [j]
        let bb ← srcAt b bd [j, i]
        return tmp + aa * bb) 0
      wr (z + offset cd [i]) tmp
  | _, _, _ => halt .ub

/-- `im2col_idx_map::operator()(z, y, x)` (kernels/cpu/im2col.hpp:45-56) for the `n` patch elements that begin at `o` in the
thread's own buffer `z`. Simplification: an index outside the image, which has `len` elements, is undefined behaviour even if
the cell exists. -/
def idxGather (map : List Int) (len n o : Nat) (x : Src R) (z : List R) : Prog R (List R) :=
  fold n (fun i z => do
    let j ← lift (StdNN.rd map i)
    if 0 ≤ j then
      if j.toNat < len then do
        let v ← src x j.toNat
        lift (StdNN.wr z (o + i) v)
      else halt .ub
    else lift (StdNN.wr z (o + i) 0)) z

/-- `im2col_2d<nhwc, nhwrsc>` (kernels/cpu/im2col.hpp:169-176) into the thread's own buffer `y`. -/
def im2colNhwrsc (t : MultiSample) (junk : Nat → Int) (ydims xd : List Nat) (x : Src R) (y : List R) : Prog R (List R) := do
  let q ← lift (Kernels.idxMap t ydims.tail xd.tail (fresh junk ydims.tail.prod))
  match xd with
  | n :: sub => fold n (fun i y =>
      idxGather q sub.prod ydims.tail.prod (i * ydims.tail.prod) (x.shift (i * sub.prod)) y) y
  | [] => halt .ub

/-- `conv2d<host_memory, nhwc, rscd, R>` (kernels/cpu/conv2d.hpp:28-52). -/
def convNhwc (t : ConvTrait) (junkI : Nat → Int) (junk : Nat → R) (zd xd yd : List Nat) (x y : Src R) (z : Nat) :
    Prog R Unit := do
  let (r, s) ← lift (filterShape .rscd yd)
  let hs ← lift (t.h.getSample r)
  let ws ← lift (t.w.getSample s)
  let upper ← lift (Ops.batchedShape (Ops.im2colHwrscShape [hs, ws]) xd)
  let xUpper ← im2colNhwrsc [hs, ws] junkI upper xd x (fresh junk upper.prod)
  mm (asMatrix 3 upper) (asMatrix 3 yd) (asMatrix 3 zd) (.ext xUpper) y z

end

/-- `grad::softmax<0>` on vectors (ops/gradients/softmax.hpp:24-45): the matrix `g` is memory of the thread (contents `junk`
at first). -/
def softmaxGradRow [Zero R] [One R] [Add R] [Sub R] [Mul R] [Neg R] (junk : Nat → R) (n : Nat) (gy y : Src R) (gx : Nat) :
    Prog R Unit := do
  let g ← fold n (fun i g => fold n (fun j g => do
    if i = j then
      let v ← srcAt y [n] [i]
      lift (StdNN.wr g (offset [n, n] [i, j]) (v * (1 - v)))
    else
      let a ← srcAt y [n] [i]
      let b ← srcAt y [n] [j]
      lift (StdNN.wr g (offset [n, n] [i, j]) (-a * b))) g) ((List.range (n * n)).map junk)
  vm [n] [n, n] [n] gy (.ext g) gx

/-- `grad::softmax<0>` on matrices (ops/gradients/softmax.hpp:47-54). -/
def softmaxGrad [Zero R] [One R] [Add R] [Sub R] [Mul R] [Neg R] (junk : Nat → R) (rows n : Nat) (gy y : Src R) (gx : Nat) :
    Prog R Unit :=
  loop rows fun i => softmaxGradRow junk n (gy.shift (i * n)) (y.shift (i * n)) (gx + i * n)

/-- `transpose<nchw, nhwc>` (ops/transpose.hpp:25-40). -/
def toFirst (f : R → R) (xd yd : List Nat) (x : Src R) (z : Nat) : Prog R Unit :=
  match xd with
  | [n, h, w, c] =>
    loop n fun l => loop c fun k => loop h fun i => loop w fun j => do
      let v ← srcAt x xd [l, i, j, k]
      wr (z + offset yd [l, k, i, j]) (f v)
  | _ => halt .ub

/-- `transpose<nhwc, nchw>` (ops/transpose.hpp:52-67). -/
def toLast (f : R → R) (xd yd : List Nat) (x : Src R) (z : Nat) : Prog R Unit :=
  match xd with
  | [n, c, h, w] =>
    loop n fun l => loop h fun i => loop w fun j => loop c fun k => do
      let v ← srcAt x xd [l, k, i, j]
      wr (z + offset yd [l, i, j, k]) (f v)
  | _ => halt .ub

/-- `pool<host_memory, hw, algo, R>` (kernels/cpu/pool.hpp:71-93). -/
def poolHw (acc : Acc R) (t : PoolTrait) (yd xd : List Nat) (x : Src R) (y : Nat) : Prog R Unit :=
  match xd, yd with
  | [h, w], [h_, w_] =>
    loop h_ fun i_ => loop w_ fun j_ => do
      let st ← fold t.ksize.1 (fun u st => fold t.ksize.2 (fun v st => do
        let o ← lift (Kernels.locate t.h t.w h w i_ j_ u v)
        match o with
        | some (a, b) => do
          let xv ← srcAt x xd [a, b]
          lift (acc.step st xv)
        | none => pure st) st) acc.init
      let v ← lift (acc.result st)
      wr (y + offset yd [i_, j_]) v
  | _, _ => halt .ub

/-- `pool<host_memory, hwc, algo, R>` (kernels/cpu/pool.hpp:105-133). -/
def poolHwc (acc : Acc R) (t : PoolTrait) (yd xd : List Nat) (x : Src R) (y : Nat) : Prog R Unit :=
  match xd, yd with
  | [h, w, c], [h_, w_, c'] => do
    lift (Outcome.contractAssert (c = c'))
    loop c' fun k => loop h_ fun i_ => loop w_ fun j_ => do
      let st ← fold t.ksize.1 (fun u st => fold t.ksize.2 (fun v st => do
        let o ← lift (Kernels.locate t.h t.w h w i_ j_ u v)
        match o with
        | some (a, b) => do
          let xv ← srcAt x xd [a, b, k]
          lift (acc.step st xv)
        | none => pure st) st) acc.init
      let v ← lift (acc.result st)
      wr (y + offset yd [i_, j_, k]) v
  | _, _ => halt .ub

/-- `pool<algo, nhwc>` on tensors (ops/pool.hpp:70-76). -/
def poolNhwc (acc : Acc R) (t : PoolTrait) (yd xd : List Nat) (x : Src R) (y : Nat) : Prog R Unit := do
  let op ← lift (PoolTrait.makeKS t.ksize t.stride)
  match xd with
  | n :: _ => loop n fun i => poolHwc acc op yd.tail xd.tail (x.shift (i * xd.tail.prod)) (y + i * yd.tail.prod)
  | _ => halt .ub

/-- `pool<algo, nchw>` on tensors (ops/pool.hpp:92-100). -/
def poolNchw (acc : Acc R) (t : PoolTrait) (yd xd : List Nat) (x : Src R) (y : Nat) : Prog R Unit := do
  let op ← lift (PoolTrait.makeKS t.ksize t.stride)
  match xd with
  | n :: c :: _ => loop n (fun i => loop c (fun j =>
      poolHw acc op yd.tail.tail xd.tail.tail (x.shift (i * xd.tail.prod + j * xd.tail.tail.prod))
        (y + i * yd.tail.prod + j * yd.tail.tail.prod)))
  | _ => halt .ub

end Prog
end StdNN
