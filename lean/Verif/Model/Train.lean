import Verif.Model.Activation
import Verif.Model.Utility
import Verif.Model.IO
/-!
# Model of the training example and the data set loader

examples/example_train_mnist_slp.cpp and experimental/bits/datasets/mnist.hpp. The `int` and `uint32_t` arithmetic on batch
offsets is taken as exact: it is on non-negative numbers up to the number of images, which has to be below 2^31.
Progress output is left out. `ops::matmul` runs on the built-in engine.
-/
namespace StdNN
open Outcome
variable {R : Type}

namespace Slp

/-- Shape function of `slp` (examples/example_train_mnist_slp.cpp:17-25). -/
def shape (x y z : List Nat) : Outcome (List Nat) :=
  match x, y, z with
  | [n, m], [m', k], [k'] => do
    contractAssert (m = m')
    contractAssert (k = k')
    return [n, k]
  | _, _, _ => .ub

/-- `slp::operator()` (examples/example_train_mnist_slp.cpp:27-35): the bias is added in place. -/
def forward [Zero R] [Add R] [Mul R] (ysdims : List Nat) (xs w : Tensor R) (b ys : List R) : Outcome (List R) := do
  let ys ← Plain.mm xs w ysdims ys
  Ops.applyBias (· + ·) .hw ysdims ysdims (.mem 0) b 0 ys

/-- `slp::grad` (examples/example_train_mnist_slp.cpp:37-51): the new `g_w` and `g_b`. -/
def grad [Zero R] [Add R] [Mul R] (gwdims : List Nat) (gys xs : Tensor R) (gw gb : List R) :
    Outcome (List R × List R) :=
  match gys.dims with
  | [rows, cols] => do
    let gb ← forRange cols (fun l gb => do
      let tot ← forRange rows (fun i tot => do
        let v ← gys.at_ [i, l]
        return tot + v) 0
      wr gb l tot) gb
    let gw ← Plain.mtm xs gys gwdims gw
    return (gw, gb)
  | _ => .ub

/-- `loss` (examples/example_train_mnist_slp.cpp:54-61); `junk` are the contents of the fresh `ls`. -/
def loss [Zero R] [Add R] [Mul R] [Neg R] (log : R → R) (divn : R → Nat → R) (junk : Nat → R) (n : Nat)
    (ys y_s : Tensor R) (l : List R) : Outcome (List R) := do
  let ls ← Ops.xentropy log [n] y_s ys ((List.range n).map junk)
  Ops.mean (Ops.Summaries.mean divn) 1 n ls l

/-- `accuracy` (examples/example_train_mnist_slp.cpp:63-76) of two `n` by `k` matrices; `junkI` and `junk` are the contents
of the fresh tensors. -/
def accuracy [LT R] [DecidableLT R] {Q : Type} [One Q] [Sub Q] [Div Q] [NatCast Q] (junkI : Nat → Int) (junk : Q)
    (n k : Nat) (ys y_s : List R) : Outcome Q := do
  let predictions ← Kernels.argmax IntTy.u32 k ys ((List.range n).map junkI)
  let labels ← Kernels.argmax IntTy.u32 k y_s ((List.range n).map junkI)
  let sim ← Kernels.similarity predictions labels [junk]
  rd sim 0

/-- `mnist_data_set` (experimental/bits/datasets/mnist.hpp:8-11): pixels and labels as numbers, in row-major order. -/
structure DataSet where
  images : List Int
  labels : List Int

/-- The data of `x.slice(i, j)` (used at examples/example_train_mnist_slp.cpp:87,89): entries `i` to `j - 1` of a tensor
whose entries have `sz` elements. -/
def slice {S : Type} (sz : Nat) (x : List S) (i j : Nat) : Outcome (List S) :=
  if j * sz ≤ x.length then .ok ((x.drop (i * sz)).take ((j - i) * sz)) else .ub

/-- `ops::pointwise` on tensors of different element types (ops/elementary.hpp:72-77). -/
def pointwiseTo {S : Type} (f : S → R) (x : List S) (y : List R) : Outcome (List R) :=
  forRange x.length (fun i y => do
    let a ← rd x i
    wr y i (f a)) y

/-- `load_data` (examples/example_train_mnist_slp.cpp:78-90): `norm` is the function `f` with the conversion to `R`, `pix`
the number of pixels of an image (28 * 28), `k` the number of columns of `y_s` (10). The new `xs` and `y_s`. -/
def loadData [Zero R] [One R] (norm : Int → R) (ds : DataSet) (pix k off batch : Nat) (xs y_s : List R) :
    Outcome (List R × List R) := do
  let images ← slice pix ds.images off (off + batch)
  let xs ← pointwiseTo norm images xs
  let labels ← slice 1 ds.labels off (off + batch)
  let y_s ← Kernels.onehot ⟨false, 8⟩ k labels y_s
  return (xs, y_s)

/-- The tensors of `train_slp_model` (examples/example_train_mnist_slp.cpp:94-113); `g_l` is never read. -/
structure State (R : Type) where
  xs : List R
  zs : List R
  ys : List R
  y_s : List R
  ls : List R
  l : List R
  g_ls : List R
  g_ys : List R
  g_zs : List R
  g_w : List R
  g_b : List R
  w : List R
  b : List R

section
variable [Zero R] [One R] [Add R] [Sub R] [Mul R] [Div R] [Neg R] [LT R] [DecidableLT R]

/-- The loop body of `train_slp_model` after `load_data` (examples/example_train_mnist_slp.cpp:127-148): batch size `n`, `p`
pixels, `k` classes; `junk` is what fresh tensors inside `grad::softmax` contain. -/
def step (exp log : R → R) (eps : R) (divn : R → Nat → R) (junk : Nat → R) (n p k : Nat) (s : State R) :
    Outcome (State R) := do
  let zs ← forward [n, k] ⟨[n, p], s.xs⟩ ⟨[p, k], s.w⟩ s.b s.zs
  let ys ← Ops.softmax exp eps [n, k] [n, k] (.ext zs) 0 s.ys
  let ls ← Ops.xentropy log [n] ⟨[n, k], s.y_s⟩ ⟨[n, k], ys⟩ s.ls
  let l ← Ops.mean (Ops.Summaries.mean divn) 1 n ls s.l
  let g_ys ← Grad.xentropy [n, k] ⟨[n], s.g_ls⟩ ⟨[n, k], s.y_s⟩ ⟨[n, k], ys⟩ s.g_ys
  let g_zs ← Grad.softmax junk [n, k] n k ⟨[n, k], g_ys⟩ ⟨[n, k], ys⟩ s.g_zs
  let (g_w, g_b) ← grad [p, k] ⟨[n, k], g_zs⟩ ⟨[n, p], s.xs⟩ s.g_w s.g_b
  let w ← Ops.sub (p * k) (.mem 0) (.ext g_w) 0 s.w
  let b ← Ops.sub k (.mem 0) (.ext g_b) 0 s.b
  return { s with zs, ys, ls, l, g_ys, g_zs, g_w, g_b, w, b }

/-- `train_slp_model` (examples/example_train_mnist_slp.cpp:92-151) on a data set of `n` images; `c` is
`static_cast<float>(1.0 / batch_size)`; one epoch. `s` are the freshly allocated tensors with the given `w` and `b`. -/
def train (exp log : R → R) (eps : R) (divn : R → Nat → R) (junk : Nat → R) (norm : Int → R) (c : R) (ds : DataSet)
    (n p k batch : Nat) (s : State R) : Outcome (State R) :=
  if batch = 0 then .ub else do
    let g_ls ← fillAll c s.g_ls
    forRange (n / batch) (fun t s => do
      let (xs, y_s) ← loadData norm ds p k (t * batch) batch s.xs s.y_s
      step exp log eps divn junk batch p k { s with xs, y_s }) { s with g_ls }

/-- `test_slp_model` (examples/example_train_mnist_slp.cpp:153-168): the accuracy printed. -/
def test {Q : Type} [One Q] [Sub Q] [Div Q] [NatCast Q] (junk : Nat → R) (junkI : Nat → Int) (junkQ : Q) (norm : Int → R)
    (ds : DataSet) (n p k : Nat) (w b : List R) : Outcome Q := do
  let (xs, y_s) ← loadData norm ds p k 0 n ((List.range (n * p)).map junk) ((List.range (n * k)).map junk)
  let ys ← forward [n, k] ⟨[n, p], xs⟩ ⟨[p, k], w⟩ b ((List.range (n * k)).map junk)
  accuracy junkI junkQ n k ys y_s

end

end Slp

namespace Mnist

/-- The number of images of a data set (experimental/bits/datasets/mnist.hpp:16-24). -/
def size (name : String) : Outcome Nat :=
  if name = "train" then .ok (60 * 1000)
  else if name = "t10k" then .ok (10 * 1000)
  else .throw .runtimeError

/-- `load_mnist_data` (experimental/bits/datasets/mnist.hpp:14-34) on a host with byte order `e`: the bytes of the images and
the labels. `junk` are the contents of the fresh tensors; `0x08` is the idx code of `uint8_t`. -/
def load (e : Endian) (junk : Nat → Byte) (d : Disk) (dir name : String) : Outcome (List Byte × List Byte) := do
  let n ← size name
  let pre := dir ++ "/" ++ name
  let r := Ops.readfile e (pre ++ "-images-idx3-ubyte") 0x08 [BitVec.ofNat 32 n, 28, 28]
    ((List.range (n * 28 * 28)).map junk) d
  r.2
  let q := Ops.readfile e (pre ++ "-labels-idx1-ubyte") 0x08 [BitVec.ofNat 32 n] ((List.range n).map junk) d
  q.2
  return (r.1, q.1)

end Mnist
end StdNN
