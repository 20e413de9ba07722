import Verif.Props.PoolPolicy
import Verif.Props.Utility
import Verif.Props.Models
import Verif.Lemmas.Elementwise
import Verif.Lemmas.Engine
/-!
# C112, C113: casts and contractions; defaults of C58, C75 and C79
-/
namespace StdNN
open IntTy Spec Outcome Layers NameScope
variable {R S T : Type}

/-! ## C112: cast -/

/-- C112: `cast` fills the output with the conversions of the elements, in order, whatever it held before. -/
theorem C112_cast (f : S → R) {x : List S} {y : List R} (hy : y.length = x.length) :
    Kernels.cast f x y = .ok (x.map f) := by
  cases x with
  | nil => obtain rfl : y = [] := List.length_eq_zero_iff.1 hy; rfl
  | cons d x =>
    have e : (List.range (d :: x).length).map (fun i => f ((d :: x).getD i d)) = (d :: x).map f := by
      refine List.ext_getElem (by simp) fun i h1 h2 => ?_
      have hi : i < (d :: x).length := by simpa using h1
      simp only [List.getElem_map, List.getElem_range, List.getD_eq_getElem?_getD, List.getElem?_eq_getElem hi,
        Option.getD_some]
    rw [← e, ← run_storeFlat hy]
    refine forRange_congr (fun i hi s => ?_) y
    simp only [rd, List.getD_eq_getElem?_getD, List.getElem?_eq_getElem hi, Option.getD_some]
    rfl

/-- C112: a round trip through a type that holds every element loses nothing. -/
theorem C112_round_trip {f : S → R} {g : R → S} {x : List S} {y : List R} {z : List S} (hy : y.length = x.length)
    (hz : z.length = x.length) (h : ∀ v ∈ x, g (f v) = v) :
    (do let y ← Kernels.cast f x y
        Kernels.cast g y z) = .ok x := by
  rw [C112_cast f hy, Outcome.ok_bind, C112_cast g (by simpa using hz), List.map_map]
  congr 1
  conv_rhs => rw [← List.map_id x]
  exact List.map_congr_left fun v hv => h v hv

/-- C112: casting twice is casting once by the composed conversion. -/
theorem C112_twice (f : S → R) (g : R → T) {x : List S} {y : List R} {z : List T} (hy : y.length = x.length)
    (hz : z.length = x.length) :
    (do let y ← Kernels.cast f x y
        Kernels.cast g y z) = Kernels.cast (fun v => g (f v)) x z := by
  rw [C112_cast f hy, Outcome.ok_bind, C112_cast g (by simpa using hz), C112_cast _ hz, List.map_map]
  rfl

/-- Non-vacuity: bytes to signed 32 bit integers and back; the other way round loses the value 300. -/
example : Kernels.cast (IntTy.conv i32) [0, 7, 255] [9, 9, 9] = .ok [0, 7, 255] ∧
    (∀ v ∈ [(0 : Int), 7, 255], IntTy.conv ⟨false, 8⟩ (IntTy.conv i32 v) = v) ∧
    Kernels.cast (IntTy.conv ⟨false, 8⟩) [300, -1] [9, 9] = .ok [44, 255] := by decide

/-! ## C113: contractions -/

theorem tab1_list [Zero R] (n : Nat) (f : Nat → R) : (tab [n] (fn1 f)).data = (List.range n).map f := by
  refine (data_eq_tab (by simp) fun idx hv => ?_).symm
  match idx, hv with
  | [j], hv =>
    have hj : j < n := hv.1
    simp [hj]

/-- C113: the inner contraction of a matrix holds the sum of every row, added from the left to zero; the outer contraction
the sum of every column, added from the top to zero. No law of arithmetic is assumed, so this fixes the rounding. -/
theorem C113_contractions [Add R] [Zero R] {m n : Nat} (X : Nat → Nat → R) {y z : List R} (hy : y.length = m)
    (hz : z.length = n) :
    Kernels.innerContraction (tab [m, n] (fn2 X)) y =
      .ok ((List.range m).map fun i => (List.range n).foldl (fun s j => s + X i j) 0) ∧
    Kernels.outerContraction (tab [m, n] (fn2 X)) z =
      .ok ((List.range n).map fun j => (List.range m).foldl (fun s i => s + X i j) 0) := by
  rw [Kernels.innerContraction_order X hy, Kernels.outerContraction_order X hz, tab1_list, tab1_list]
  simp only [seqSum_eq_foldl]
  exact ⟨trivial, trivial⟩

/-- C113: where `x * 1 = x` and `1 * x = x`, the contractions are the products of the engine with a vector of ones, bit for
bit. -/
theorem C113_ones [Add R] [Zero R] [MulOneClass R] {m n : Nat} (X : Nat → Nat → R) {y z : List R} (hy : y.length = m)
    (hz : z.length = n) :
    Kernels.innerContraction (tab [m, n] (fn2 X)) y = Plain.mv (tab [m, n] (fn2 X)) (tab [n] fun _ => 1) [m] y ∧
    Kernels.outerContraction (tab [m, n] (fn2 X)) z = Plain.vm (tab [m] fun _ => 1) (tab [m, n] (fn2 X)) [n] z := by
  rw [Kernels.innerContraction_order X hy, Kernels.outerContraction_order X hz, Plain.mv_run _ _ hy, Plain.vm_run _ _ hz]
  simp

theorem list_sum_range [AddCommMonoid R] (n : Nat) (f : Nat → R) :
    ((List.range n).map f).sum = ∑ i ∈ Finset.range n, f i := by
  induction n with
  | zero => rfl
  | succ n ih => simp [List.range_succ, Finset.sum_range_succ, ih]

/-- C113: in exact arithmetic both contractions have the same total. -/
theorem C113_total [AddCommMonoid R] {m n : Nat} (X : Nat → Nat → R) {y z : List R} (hy : y.length = m)
    (hz : z.length = n) :
    ∃ r c, Kernels.innerContraction (tab [m, n] (fn2 X)) y = .ok r ∧
      Kernels.outerContraction (tab [m, n] (fn2 X)) z = .ok c ∧
      r.sum = ∑ i ∈ Finset.range m, ∑ j ∈ Finset.range n, X i j ∧
      c.sum = ∑ i ∈ Finset.range m, ∑ j ∈ Finset.range n, X i j := by
  refine ⟨_, _, (C113_contractions X hy hz).1, (C113_contractions X hy hz).2, ?_, ?_⟩
  · simp only [seqSum_eq_foldl, seqSum_eq_sum]
    exact list_sum_range _ _
  · rw [Finset.sum_comm]
    simp only [seqSum_eq_foldl, seqSum_eq_sum]
    exact list_sum_range _ _

/-- Non-vacuity: a 2 × 3 matrix. -/
example : Kernels.innerContraction (⟨[2, 3], [1, 2, 3, 4, 5, 6]⟩ : Tensor Int) [9, 9] = .ok [6, 15] ∧
    Kernels.outerContraction (⟨[2, 3], [1, 2, 3, 4, 5, 6]⟩ : Tensor Int) [9, 9, 9] = .ok [5, 7, 9] := by decide

/-! ## C58, C75, C79: what the constructors choose -/

/-- C58: the two results of `top(k)` are vectors of `k` elements, whatever the size of the input; a negative `k` becomes
`2^32 + k`. -/
theorem C58_shape (k : Int) (x : List Nat) :
    (0 ≤ k → k < 2 ^ 31 → Ops.topShape k x = ([k.toNat], [k.toNat])) ∧
    (k < 0 → -2 ^ 31 ≤ k → Ops.topShape k x = ([(2 ^ 32 + k).toNat], [(2 ^ 32 + k).toNat])) := by
  constructor
  · intro h1 h2
    have : u32.conv k = k := by simp [IntTy.conv, u32]; omega
    simp only [Ops.topShape, this]
  · intro h1 h2
    have : u32.conv k = 2 ^ 32 + k := by simp [IntTy.conv, u32]; omega
    simp only [Ops.topShape, this]

/-- Non-vacuity: 5 and -1. -/
example : Ops.topShape 5 [1000] = ([5], [5]) ∧ Ops.topShape (-1) [3] = ([4294967295], [4294967295]) := by decide

/-- C75: a program that starts from a new name scope is read with no prefixes and the separator `/`; the scope is new again
afterwards. -/
theorem C75_fresh (s : Stmt) :
    exec s NameScope.make = ⟨(meaning ['/'] [] s).1, (meaning ['/'] [] s).2, NameScope.make⟩ :=
  C75_with s _

/-- Non-vacuity: a name inside two scopes. -/
example : (exec (.with_ ['a'] (.with_ ['b'] (.logName ['c']))) NameScope.make).log = [['a', '/', 'b', '/', 'c']] := by decide

/-- C79: the pooling layer constructed without arguments pools tiles of 2 × 2, whatever the accumulator, on
images with even sides: every result is computed from the four pixels of its tile, row by row. -/
theorem C79_default [Zero R] (junk : Nat → R) (acc : Acc R) {n h w c : Nat} (h1 : 1 ≤ h) (w1 : 1 ≤ w) (d1 : 2 ∣ h)
    (d2 : 2 ∣ w) (hh : u32.In ((h + 2 : Nat) : Int)) (hw : u32.In ((w + 2 : Nat) : Int)) (X Z : Nat → Nat → Nat → Nat → R)
    (hZ : ∀ b < n, ∀ i < h / 2, ∀ j < w / 2, ∀ k < c, acc.run [X b (2 * i) (2 * j) k, X b (2 * i) (2 * j + 1) k,
      X b (2 * i + 1) (2 * j) k, X b (2 * i + 1) (2 * j + 1) k] = .ok (Z b i j k)) :
    pool .nhwc junk acc PoolLayer.default (tab [n, h, w, c] (fn4 X)) =
        ⟨1, .ok ⟨tab [n, h / 2, w / 2, c] (fn4 Z), []⟩⟩ ∧
    pool .nchw junk acc PoolLayer.default (tab [n, c, h, w] (fn4 fun b k i j => X b i j k)) =
        ⟨1, .ok ⟨tab [n, c, h / 2, w / 2] (fn4 fun b k i j => Z b i j k), []⟩⟩ := by
  refine poolLayer_run (k1 := 2) (k2 := 2) junk acc (by decide) (by decide) h1 w1 d1 d2 hh hw (by decide) (by decide) X Z
    fun b hb i hi j hj k hk => ?_
  rw [← hZ b hb i hi j hj k hk]
  congr 1
  have a3 : i * 2 < h := by omega
  have a4 : i * 2 + 1 < h := by omega
  have a5 : j * 2 < w := by omega
  have a6 : j * 2 + 1 < w := by omega
  have e1 : i * 2 = 2 * i := Nat.mul_comm _ _
  have e2 : j * 2 = 2 * j := Nat.mul_comm _ _
  simp only [e1, e2] at a3 a4 a5 a6
  simp [pixels, tileAxis, Axis.pos, List.range_succ, e1, e2, a3, a4, a5, a6]

/-- Non-vacuity: the default layer on a 2 × 4 image. -/
example : pool .nhwc (fun _ => (0 : Int)) (Acc.max (-99)) PoolLayer.default ⟨[1, 2, 4, 1], [1, 2, 3, 4, 5, 6, 7, 8]⟩ =
    ⟨1, .ok ⟨⟨[1, 1, 2, 1], [6, 8]⟩, []⟩⟩ := by decide

end StdNN
