import Verif.Props.Sample
import Verif.Props.Matmul
import Verif.Props.Shapes
import Verif.Props.Extras
import Verif.Props.Utility
import Verif.Props.Summary
import Verif.Props.Activation
import Verif.Props.PoolLaws
import Verif.Props.Conv
import Verif.Props.IO
import Verif.Props.Crc
import Verif.Props.Models
import Verif.Props.Functional
import Verif.Props.Layers
import Mathlib.Analysis.Complex.ExponentialBounds
/-!
# C132: the project's unit tests

Part 1 runs the model on the numbers of the unit tests in /repo/tests and compares with the numbers asserted there. These are
tests of the model, not proofs about it. Part 2 states the parametric tests for all values of their parameters.
-/
namespace StdNN
open Outcome IntTy Spec

/-! ## Part 1: literal tests -/

/-- tests/test_linear_sample_trait.cpp:57-75, test_2. -/
example : (do let t ← MultiSample.makeK u32 [1, 1]; t.outShape u32 [10, 11]) = .ok [10, 11] ∧
    (do let t ← MultiSample.makeK u32 [1, 2, 3]; t.outShape u32 [9, 8, 7]) = .ok [9, 7, 5] := by decide +kernel

/-- tests/test_linear_sample_trait.cpp:97-104, test_auto_padding. -/
example : Sample.validPadding u32 3 1 1 56 = .ok ⟨0, 0⟩ ∧ Sample.validPadding u32 3 2 1 56 = .ok ⟨0, 1⟩ ∧
    Sample.samePadding u32 3 1 1 56 = .ok ⟨1, 1⟩ ∧ Sample.samePadding u32 3 2 1 112 = .ok ⟨0, 1⟩ := by decide +kernel

/-- tests/test_traits.cpp. -/
example : channelSize .chw [4, 5, 6] = .ok 4 ∧ channelSize .hwc [4, 5, 6] = .ok 6 ∧
    imageShape .chw [4, 5, 6] = .ok (5, 6) ∧ imageShape .hwc [4, 5, 6] = .ok (4, 5) ∧
    channelSize .nchw [3, 4, 5, 6] = .ok 4 ∧ channelSize .nhwc [3, 4, 5, 6] = .ok 6 ∧
    imageShape .nchw [3, 4, 5, 6] = .ok (5, 6) ∧ imageShape .nhwc [3, 4, 5, 6] = .ok (4, 5) ∧
    filterShape .rscd [3, 4, 5, 6] = .ok (3, 4) ∧ filterIn .rscd [3, 4, 5, 6] = .ok 5 ∧ filterOut .rscd [3, 4, 5, 6] = .ok 6 ∧
    filterShape .dcrs [3, 4, 5, 6] = .ok (5, 6) ∧ filterIn .dcrs [3, 4, 5, 6] = .ok 4 ∧ filterOut .dcrs [3, 4, 5, 6] = .ok 3 := by
  decide +kernel

/-- The bytes of "Hello world". -/
private def hello : List (BitVec 8) := [0x48, 0x65, 0x6c, 0x6c, 0x6f, 0x20, 0x77, 0x6f, 0x72, 0x6c, 0x64]

/-- tests/test_hash.cpp. -/
example : Ops.crc Ops.crcUsb hello = .ok 0xe293 ∧ Ops.crc (0xD5828281 : BitVec 32) hello = .ok 0x2964d064 ∧
    Ops.crc Ops.crcIeee hello = .ok 0x8bd69e52 ∧ Ops.crc Ops.crcEcma hello = .ok 0xf4a5f2b9d47756bf := by decide +kernel

/-- tests/test_namescope.cpp. -/
example : NameScope.exec (.seq (.with_ "model".toList (.with_ "l1".toList (.seq (.logName "b1".toList) .logPath)))
      (.seq .logPath (.logName "xxx".toList))) (NameScope.make "::".toList) =
    ⟨["model::l1::b1".toList, "model::l1".toList, [], "xxx".toList], .ok (), NameScope.make "::".toList⟩ := by decide +kernel

/-- tests/test_pool.cpp:4-20, test_hw. -/
example : (do let t ← PoolTrait.default
              Kernels.poolHw (Acc.max (-2147483648 : Int)) t [2, 2] (tab [4, 4] (fn2 fun i j => 4 * (i : Int) + j)) [0, 0, 0, 0]) =
    .ok [5, 7, 13, 15] := by decide +kernel

/-- tests/test_pool.cpp:22-48, test_hwc. -/
example : (do let t ← PoolTrait.default
              Kernels.poolHwc (Acc.max (-2147483648 : Int)) t [2, 2, 6]
                (tab [4, 4, 6] (fn3 fun i j k => 16 * (k : Int) + 4 * i + j)) (List.replicate 24 0)) =
    .ok (tab [2, 2, 6] (fn3 fun i j k => (if i = 0 then if j = 0 then 5 else 7 else if j = 0 then 13 else 15) + 16 * (k : Int))).data := by
  decide +kernel

/-- tests/test_pool.cpp:50-124, test_4d, the shapes. -/
example : (do let t ← PoolTrait.default; Ops.pooledShape .nhwc t [7, 128, 256, 3]) = .ok [7, 64, 128, 3] ∧
    (do let t ← PoolTrait.makeK (4, 4); Ops.pooledShape .nhwc t [7, 128, 256, 3]) = .ok [7, 32, 64, 3] ∧
    (do let t ← PoolTrait.makeKS (4, 4) (2, 2); Ops.pooledShape .nhwc t [7, 128, 256, 3]) = .ok [7, 63, 127, 3] ∧
    (do let t ← PoolTrait.default; Ops.pooledShape .nchw t [7, 3, 128, 256]) = .ok [7, 3, 64, 128] ∧
    (do let t ← PoolTrait.makeK (4, 4); Ops.pooledShape .nchw t [7, 3, 128, 256]) = .ok [7, 3, 32, 64] ∧
    (do let t ← PoolTrait.makeKS (4, 4) (2, 2); Ops.pooledShape .nchw t [7, 3, 128, 256]) = .ok [7, 3, 63, 127] := by
  decide +kernel

/-- tests/test_pool.cpp:126-152, test_padding. -/
example : (do let t ← PoolTrait.makeKP (3, 3) (Padding.same 2, Padding.same 1)
              Ops.pooledShape .nhwc t [7, 128, 256, 3]) = .ok [7, 44, 86, 3] ∧
    (do let t ← PoolTrait.make (3, 3) (Padding.same 1, Padding.same 1) (1, 1)
        Ops.pooledShape .nhwc t [7, 128, 256, 3]) = .ok [7, 128, 256, 3] := by decide +kernel

/-- tests/test_pool.cpp:154-169, test_mean. -/
example : (do let x ← Ops.add 16 (.mem 0) (.mem 0) 0 (tab [16] (fn1 fun i => (i : Int))).data
              let t ← PoolTrait.default
              Kernels.poolHw Acc.meanI32 t [2, 2] ⟨[4, 4], x⟩ [0, 0, 0, 0]) = .ok [5, 9, 21, 25] := by decide +kernel

/-- tests/test_conv.cpp. -/
example : ConvTrait.default.infer .nhwc .rscd [2, 128, 128, 3] [3, 3, 3, 8] = .ok [2, 126, 126, 8] ∧
    (ConvTrait.makeP (Padding.same 1, Padding.same 1)).infer .nhwc .rscd [2, 128, 128, 3] [3, 3, 3, 8] = .ok [2, 128, 128, 8] ∧
    (ConvTrait.makePS (Padding.same 2, Padding.same 2) (4, 4)).infer .nhwc .rscd [2, 128, 128, 3] [4, 4, 3, 8] =
      .ok [2, 33, 33, 8] := by decide +kernel

/-- tests/test_im2col.cpp. -/
example : (do let t ← MultiSample.makeK u32 [3, 5]; Ops.im2colHwrsShape t [32, 64]) = .ok [30, 60, 3, 5] ∧
    (do let t ← MultiSample.makeK u32 [3, 5]; Ops.im2colRshwShape t [32, 64]) = .ok [3, 5, 30, 60] := by decide +kernel

/-- tests/test_col2im.cpp. -/
example : (do let t ← MultiSample.makeK u32 [2, 2]
              let s ← Ops.im2colHwrscShape t [3, 3, 1]
              Ops.col2imHwrscShape t s) = .ok [3, 3, 1] ∧
    (do let t ← MultiSample.makeK u32 [2, 2]
        Kernels.im2colHwrsc t [2, 2, 2, 2, 1] (tab [3, 3, 1] (fn3 fun i j _ => 3 * (i : Int) + j)) (List.replicate 16 7)) =
      .ok [0, 1, 3, 4, 1, 2, 4, 5, 3, 4, 6, 7, 4, 5, 7, 8] ∧
    (do let t ← MultiSample.makeK u32 [2, 2]
        Kernels.col2imHwrsc t [3, 3, 1] ⟨[2, 2, 2, 2, 1], List.replicate 16 (1 : Int)⟩ (List.replicate 9 7)) =
      .ok [1, 2, 1, 2, 4, 2, 1, 2, 1] := by decide +kernel

/-- tests/test_concat.cpp:4-41, test_1. -/
example : Ops.concatShape 0 [[3, 4], [5, 4]] = .ok [8, 4] ∧ Ops.concatShape 0 [[3, 4], [5, 4], [3, 4]] = .ok [11, 4] ∧
    Ops.concatShape 0 [[3, 4], [5, 4], [3, 4], [5, 4]] = .ok [16, 4] ∧ Ops.concatShape 1 [[3, 4], [3, 5]] = .ok [3, 9] ∧
    Ops.concatShape 1 [[3, 4], [3, 5], [3, 4]] = .ok [3, 13] ∧
    Ops.concatShape 1 [[3, 4], [3, 5], [3, 4], [3, 5]] = .ok [3, 18] := by decide +kernel

/-- tests/test_reduce.cpp. -/
example : Kernels.innerContraction (tab [4, 3] (fn2 fun i j => 3 * (i : Int) + j)) [9, 9, 9, 9] = .ok [3, 12, 21, 30] ∧
    Kernels.outerContraction (tab [4, 3] (fn2 fun i j => 3 * (i : Int) + j)) [9, 9, 9] = .ok [18, 22, 26] := by decide +kernel

/-- tests/test_summary.cpp, with rational numbers; the last but one is the root of 8.25. -/
example : Ops.scalarSummaries [Ops.Summaries.min, Ops.Summaries.max, Ops.Summaries.span,
      Ops.Summaries.mean fun s n => s / (n : ℚ), Ops.Summaries.variance fun s n => s / (n : ℚ),
      Ops.Summaries.standardDeviation (fun v => if v = 33 / 4 then 1000 else 0) fun s n => s / (n : ℚ),
      Ops.Summaries.adjDiffSum fun v => if v < 0 then -v else v]
      ((List.range 10).map fun i => (i : ℚ)) (List.replicate 7 0) = .ok [0, 9, 9, 9 / 2, 33 / 4, 1000, 9] := by decide +kernel

/-- tests/test_grad_shape.cpp, in the order softmax, add, mul, matmul; both gradients. -/
example : Ops.gradientShape (fun xs => match xs with | [x] => Ops.endoShape x | _ => .ub) 0 [10] [10] [[10]] = .ok [10] ∧
    (∀ i < 2, Ops.gradientShape (fun xs => match xs with | [x, y] => Ops.binaryEndoShape x y | _ => .ub) i [10] [10] [[10], [10]] =
      .ok [10]) ∧
    Ops.gradientShape (fun xs => match xs with | [x, y] => Ops.matmulShape x y | _ => .ub) 0 [10, 12] [10, 12] [[10, 11], [11, 12]] =
      .ok [10, 11] ∧
    Ops.gradientShape (fun xs => match xs with | [x, y] => Ops.matmulShape x y | _ => .ub) 1 [10, 12] [10, 12] [[10, 11], [11, 12]] =
      .ok [11, 12] := by decide +kernel

/-- tests/test_pointwise.cpp:6-22, test_relu. -/
example : Ops.relu 10 (.ext ((List.range 10).map fun i => (i : ℚ) - 9 / 2)) 0 (List.replicate 10 7) =
    .ok ((List.range 10).map fun i => if i < 5 then 0 else (i : ℚ) - 9 / 2) := by decide +kernel


/-! ## Part 2: parametric tests, for all parameters -/

/-- How many taps of `m` windows of `k` taps are at position `i`. -/
def tapsAt (t : Sample) (m k i : Nat) : Nat :=
  ((Finset.range m ×ˢ Finset.range k).filter fun p => t.tap i32 p.1 p.2 = .ok (i : Int)).card

/-- C132, tests/test_linear_sample_trait.cpp:4-28: for every kernel size, stride, rate and number of windows the length that
the test computes is accepted with that number of windows, the first tap is the first element, the last tap the last, the
taps are all inside, and exactly one tap is at each end. -/
theorem C132_linear_sample {k s r m n : Nat} (k1 : 1 ≤ k) (s1 : 1 ≤ s) (r1 : 1 ≤ r) (m1 : 1 ≤ m)
    (hn : n = (m - 1) * s + (k - 1) * r + 1) (hk : i32.In k) (hs : i32.In s) (hr : i32.In r) (hi : i32.In n) :
    ∃ t, Sample.make i32 k s r (Padding.same 0) = .ok t ∧ t.outSize i32 n = .ok (m : Int) ∧ t.tap i32 0 0 = .ok 0 ∧
      t.tap i32 ((m - 1 : Nat) : Int) ((k - 1 : Nat) : Int) = .ok ((n - 1 : Nat) : Int) ∧
      ∑ i ∈ Finset.range n, tapsAt t m k i = m * k ∧ tapsAt t m k 0 = 1 ∧ tapsAt t m k (n - 1) = 1 := by
  have hp : patch k r ≤ n := by simp only [patch]; omega
  have i0 : i32.In ((0 : Nat) : Int) := by decide
  have ip : i32.In ((patch k r : Nat) : Int) :=
    ⟨le_trans i0.1 (by exact_mod_cast Nat.zero_le _), lt_of_le_of_lt (by exact_mod_cast hp) hi.2⟩
  have f : Fits i32 i32 k s r 0 0 n := ⟨i32_std, i32_std, k1, s1, r1, hk, hs, hr, i0, i0, hi, by simpa using hi, ip, ip⟩
  have om : OutLen k s r 0 0 n m := ⟨m1, by simp only [patch]; omega⟩
  have T : ∀ j < m, ∀ u < k, ∃ t, Sample.make i32 k s r ⟨0, 0⟩ = .ok t ∧ t.outSize i32 n = .ok (m : Int) ∧
      t.tap i32 j u = .ok ((j * s + u * r : Nat) : Int) ∧ j * s + u * r < n := by
    intro j hj u hu
    obtain ⟨t, h1, h2, h3, h4, -⟩ := C02_sample f om hj hu
    exact ⟨t, h1, h2, h3, by omega⟩
  obtain ⟨t, mk, out, t0, -⟩ := T 0 (by omega) 0 (by omega)
  have tap : ∀ j < m, ∀ u < k, t.tap i32 j u = .ok ((j * s + u * r : Nat) : Int) ∧ j * s + u * r < n := by
    intro j hj u hu
    obtain ⟨t', h1, -, h3, h4⟩ := T j hj u hu
    cases mk.symm.trans h1
    exact ⟨h3, h4⟩
  have at_ : ∀ i, tapsAt t m k i = ((Finset.range m ×ˢ Finset.range k).filter fun p => p.1 * s + p.2 * r = i).card := by
    intro i
    refine congrArg Finset.card (Finset.filter_congr fun p hp => ?_)
    rw [Finset.mem_product, Finset.mem_range, Finset.mem_range] at hp
    rw [(tap _ hp.1 _ hp.2).1]
    constructor
    · exact fun h => Int.ofNat.inj (Outcome.ok.inj h)
    · exact fun h => congrArg (fun v : Nat => Outcome.ok (v : Int)) h
  refine ⟨t, mk, out, by simpa using t0, ?_, ?_, ?_, ?_⟩
  · rw [(tap (m - 1) (by omega) (k - 1) (by omega)).1]
    refine congrArg (fun v : Nat => Outcome.ok (v : Int)) ?_
    omega
  · simp only [at_]
    rw [← Finset.card_eq_sum_card_fiberwise (f := fun p : Nat × Nat => p.1 * s + p.2 * r)]
    · simp
    · intro p hp
      rw [Finset.mem_coe, Finset.mem_product, Finset.mem_range, Finset.mem_range] at hp
      exact Finset.mem_coe.2 (Finset.mem_range.2 (tap _ hp.1 _ hp.2).2)
  · rw [at_, Finset.card_eq_one]
    refine ⟨(0, 0), Finset.ext fun p => ?_⟩
    simp only [Finset.mem_filter, Finset.mem_product, Finset.mem_range, Finset.mem_singleton, Prod.ext_iff]
    constructor
    · rintro ⟨-, h⟩
      have h1 := (Nat.add_eq_zero_iff.1 h).1
      have h2 := (Nat.add_eq_zero_iff.1 h).2
      rcases Nat.mul_eq_zero.1 h1 with h1 | h1 <;> rcases Nat.mul_eq_zero.1 h2 with h2 | h2 <;> omega
    · rintro ⟨h1, h2⟩
      rw [h1, h2]
      exact ⟨⟨by omega, by omega⟩, by simp⟩
  · rw [at_, Finset.card_eq_one]
    refine ⟨(m - 1, k - 1), Finset.ext fun p => ?_⟩
    simp only [Finset.mem_filter, Finset.mem_product, Finset.mem_range, Finset.mem_singleton, Prod.ext_iff]
    constructor
    · rintro ⟨⟨hj, hu⟩, h⟩
      have e1 : p.1 * s ≤ (m - 1) * s := Nat.mul_le_mul_right _ (by omega)
      have e2 : p.2 * r ≤ (k - 1) * r := Nat.mul_le_mul_right _ (by omega)
      have e3 : p.1 * s = (m - 1) * s := by omega
      have e4 : p.2 * r = (k - 1) * r := by omega
      exact ⟨Nat.eq_of_mul_eq_mul_right (by omega) e3, Nat.eq_of_mul_eq_mul_right (by omega) e4⟩
    · rintro ⟨h1, h2⟩
      rw [h1, h2]
      exact ⟨⟨by omega, by omega⟩, by omega⟩

/-- Non-vacuity: the picture in the test. -/
example : (1 ≤ 3 ∧ 1 ≤ 7 ∧ 1 ≤ 4) ∧ 30 = (4 - 1) * 7 + (3 - 1) * 4 + 1 ∧ i32.In (30 : Nat) := by decide

section matmul
variable [Semiring R]

/-- C132, tests/test_plain_la_engine.cpp and tests/test_linag.cpp: the products of constant matrices, all five routines, any
sizes and any constants. The tests have constants 2 and 3. -/
theorem C132_constant_products (a b : R) {m l n : Nat} {c : List R} (hc : c.length = m * n) {d : List R} (hd : d.length = m)
    {e : List R} (he : e.length = n) :
    Plain.mm (tab [m, l] fun _ => a) (tab [l, n] fun _ => b) [m, n] c = .ok (List.replicate (m * n) (l • (a * b))) ∧
    Plain.mmt (tab [m, l] fun _ => a) (tab [n, l] fun _ => b) [m, n] c = .ok (List.replicate (m * n) (l • (a * b))) ∧
    Plain.mtm (tab [l, m] fun _ => a) (tab [l, n] fun _ => b) [m, n] c = .ok (List.replicate (m * n) (l • (a * b))) ∧
    Plain.mv (tab [m, n] fun _ => a) (tab [n] fun _ => b) [m] d = .ok (List.replicate m (n • (a * b))) ∧
    Plain.vm (tab [m] fun _ => a) (tab [m, n] fun _ => b) [n] e = .ok (List.replicate n (m • (a * b))) := by
  have s : ∀ (l : Nat) (v : R), (seqSum l fun _ => v) = l • v := fun l v => by rw [seqSum_eq_sum]; simp
  have t2 : ∀ (f : List Nat → R) (v : R), (∀ i j, f [i, j] = v) → Outcome.ok (tab [m, n] f).data =
      .ok (List.replicate (m * n) v) := by
    intro f v hv
    have : tab [m, n] f = tab [m, n] fun _ => v := tab_congr fun idx h => by
      match idx, h with
      | [i, j], _ => exact hv i j
    rw [this]; simp [tab]
  have t1 : ∀ (n : Nat) (f : List Nat → R) (v : R), (∀ i, f [i] = v) → Outcome.ok (tab [n] f).data =
      .ok (List.replicate n v) := by
    intro n f v hv
    have : tab [n] f = tab [n] fun _ => v := tab_congr fun idx h => by
      match idx, h with
      | [i], _ => exact hv i
    rw [this]; simp [tab]
  refine ⟨(Plain.mm_run _ _ hc).trans (t2 _ _ fun i j => ?_), (Plain.mmt_run _ _ hc).trans (t2 _ _ fun i j => ?_),
    (Plain.mtm_run _ _ hc).trans (t2 _ _ fun i j => ?_), (Plain.mv_run _ _ hd).trans (t1 _ _ _ fun i => ?_),
    (Plain.vm_run _ _ he).trans (t1 _ _ _ fun i => ?_)⟩
  all_goals exact s _ _

end matmul

/-- The test's numbers: 10, 20, 30 and constants 2 and 3 give 120. -/
example : Plain.mm (tab [2, 20] fun _ => (2 : Int)) (tab [20, 3] fun _ => 3) [2, 3] (List.replicate 6 7) =
    .ok (List.replicate 6 120) := by decide +kernel

/-- 1 for the value `v`, 0 for any other. -/
def indicator [DecidableEq R] (v x : R) : Nat := if x = v then 1 else 0

/-- How often a value occurs in a table. -/
theorem count_tab [DecidableEq R] (dims : List Nat) (f : List Nat → R) (v : R) :
    (tab dims f).data.count v = ∑ p ∈ Finset.range dims.prod, indicator v (f (unravel dims p)) := by
  simp only [tab]
  generalize dims.prod = n
  induction n with
  | zero => simp
  | succ n ih =>
    rw [List.range_succ, List.map_append, List.count_append, ih, Finset.sum_range_succ]
    simp [List.count_singleton, indicator]

/-- C132, tests/test_conv1d.cpp:8-42: for a line of distinct nonzero elements and any window geometry with any padding,
gathering the columns and adding them back multiplies every element by the number of times it occurs in the columns. -/
theorem C132_col2im_counts [Semiring R] [DecidableEq R] {a : Axis} (h : AxisOK i32 a) (X : Nat → R)
    (inj : ∀ i < a.n, ∀ j < a.n, X i = X j → i = j) (nz : ∀ i < a.n, X i ≠ 0) {y z : List R} (hy : y.length = a.m * a.k)
    (hz : z.length = a.n) :
    ∃ cols x1, Ops.im2col1d a.sample [a.m, a.k] (tab [a.n] (fn1 X)) y = .ok cols ∧
      Ops.col2im1d a.sample [a.n] ⟨[a.m, a.k], cols⟩ z = .ok x1 ∧ x1.length = a.n ∧
      ∀ i < a.n, x1[i]? = some (X i * (cols.count (X i) : R)) := by
  refine ⟨_, _, C26_im2col1d h X hy, C28_col2im1d h _ hz, by simp, fun i hi => ?_⟩
  have e := tab_getElem? (dims := [a.n]) (fn1 fun i => ∑ j ∈ Finset.range a.m, ∑ u ∈ Finset.range a.k,
    if a.Hits j u i then padded a.l a.n X (a.pos j u) else 0) (idx := [i]) (v1 hi)
  have o : offset [a.n] [i] = i := by simp [offset]
  rw [o] at e
  rw [e, count_tab, sum_unravel_cons a.m [a.k] fun idx => indicator (X i) (fn2 (fun j u => padded a.l a.n X (a.pos j u)) idx)]
  simp only [fn1_apply]
  refine congrArg some ?_
  have hit : ∀ j u, a.Hits j u i ↔ padded a.l a.n X (a.pos j u) = X i := by
    intro j u
    unfold padded
    constructor
    · rintro ⟨_, hh⟩
      rw [if_pos ⟨by omega, by omega⟩]
      congr 1; omega
    · intro hh
      split at hh
      · have := inj _ (by omega) _ hi hh
        exact ⟨hi, by omega⟩
      · exact absurd hh.symm (nz i hi)
  push_cast
  rw [Finset.mul_sum]
  refine Finset.sum_congr rfl fun j _ => ?_
  have : ∀ p ∈ Finset.range [a.k].prod, X i * ((indicator (X i)
      (fn2 (fun j u => padded a.l a.n X (a.pos j u)) (j :: unravel [a.k] p)) : Nat) : R) = if a.Hits j p i then padded a.l a.n X (a.pos j p) else 0 := by
    intro p hp
    have hp' : p < a.k := by simpa using hp
    have u : unravel [a.k] p = [p] := by simp [unravel]
    rw [u, fn2_apply, indicator]
    by_cases c : a.Hits j p i
    · rw [if_pos c, if_pos ((hit j p).1 c), Nat.cast_one, mul_one, (hit j p).1 c]
    · rw [if_neg c, if_neg fun q => c ((hit j p).2 q), Nat.cast_zero, mul_zero]
  rw [Finset.mul_sum, Finset.sum_congr rfl this]
  simp

/-- The test's case: nine elements, three taps, one zero on either side. -/
example : (do let t ← Sample.make i32 3 1 1 (Padding.same 1)
              let y ← Ops.im2col1d t [9, 3] (tab [9] (fn1 fun i => (i : Int) + 1)) (List.replicate 27 0)
              Ops.col2im1d t [9] ⟨[9, 3], y⟩ (List.replicate 9 0)) = .ok [2, 6, 9, 12, 15, 18, 21, 24, 18] := by decide +kernel

/-- C132, tests/test_concat.cpp:43-97: the channels of the inputs are put side by side without losing, repeating or changing
an element, for all sizes: the output is a rearrangement of the three inputs (`nhwc`). -/
theorem C132_concat_nhwc_perm [Zero R] {n h w c1 c2 c3 : Nat} (hc : c1 + c2 < 2 ^ 32) (X Y Z : Nat → Nat → Nat → Nat → R)
    {t : List R} (ht : t.length = [n, h, w, c1 + c2 + c3].prod) :
    ∃ t', Kernels.concatNhwc [n, h, w, c1 + c2 + c3] (tab [n, h, w, c1] (fn4 X)) (tab [n, h, w, c2] (fn4 Y))
        (tab [n, h, w, c3] (fn4 Z)) t = .ok t' ∧
      t'.Perm ((tab [n, h, w, c1] (fn4 X)).data ++ (tab [n, h, w, c2] (fn4 Y)).data ++ (tab [n, h, w, c3] (fn4 Z)).data) := by
  classical
  refine ⟨_, Kernels.concatNhwc_run (by omega) X Y Z ht, List.perm_iff_count.2 fun v => ?_⟩
  rw [List.count_append, List.count_append]
  simp only [count_tab]
  have s4 : ∀ (a b c d : Nat) (f : List Nat → R), ∑ p ∈ Finset.range [a, b, c, d].prod, indicator v (f (unravel [a, b, c, d] p)) =
      ∑ i ∈ Finset.range a, ∑ j ∈ Finset.range b, ∑ k ∈ Finset.range c, ∑ l ∈ Finset.range d, indicator v (f [i, j, k, l]) :=
    fun a b c d f => sum_unravel4 a b c d fun idx => indicator v (f idx)
  simp only [s4, fn4_apply, ← Finset.sum_add_distrib]
  refine Finset.sum_congr rfl fun i _ => Finset.sum_congr rfl fun j _ => Finset.sum_congr rfl fun k _ => ?_
  rw [Finset.sum_range_add, Finset.sum_range_add]
  refine congrArg₂ (· + ·) (congrArg₂ (· + ·) ?_ ?_) ?_
  · exact Finset.sum_congr rfl fun p hp => by rw [if_pos (Finset.mem_range.1 hp)]
  · refine Finset.sum_congr rfl fun p hp => ?_
    have := Finset.mem_range.1 hp
    rw [if_neg (by omega), if_pos (by omega), Nat.add_sub_cancel_left]
  · refine Finset.sum_congr rfl fun p hp => ?_
    rw [if_neg (by omega), if_neg (by omega)]
    exact congrArg (fun q => indicator v (Z i j k q)) (by omega)

/-- C132, the same with channels first. -/
theorem C132_concat_nchw_perm [Zero R] {n h w c1 c2 : Nat} (X Y : Nat → Nat → Nat → Nat → R) {t : List R}
    (ht : t.length = [n, c1 + c2, h, w].prod) :
    ∃ t', Kernels.concatNchw [n, c1 + c2, h, w] (tab [n, c1, h, w] (fn4 X)) (tab [n, c2, h, w] (fn4 Y)) t = .ok t' ∧
      t'.Perm ((tab [n, c1, h, w] (fn4 X)).data ++ (tab [n, c2, h, w] (fn4 Y)).data) := by
  classical
  refine ⟨_, Kernels.concatNchw_run X Y ht, List.perm_iff_count.2 fun v => ?_⟩
  rw [List.count_append]
  simp only [count_tab]
  have s4 : ∀ (a b c d : Nat) (f : List Nat → R), ∑ p ∈ Finset.range [a, b, c, d].prod, indicator v (f (unravel [a, b, c, d] p)) =
      ∑ i ∈ Finset.range a, ∑ j ∈ Finset.range b, ∑ k ∈ Finset.range c, ∑ l ∈ Finset.range d, indicator v (f [i, j, k, l]) :=
    fun a b c d f => sum_unravel4 a b c d fun idx => indicator v (f idx)
  simp only [s4, fn4_apply, ← Finset.sum_add_distrib]
  refine Finset.sum_congr rfl fun i _ => ?_
  rw [Finset.sum_range_add]
  refine congrArg₂ (· + ·) ?_ ?_
  · exact Finset.sum_congr rfl fun p hp => by simp only [if_pos (Finset.mem_range.1 hp)]
  · refine Finset.sum_congr rfl fun p hp => ?_
    simp only [show ¬ c1 + p < c1 by omega, if_false, Nat.add_sub_cancel_left]

/-- Non-vacuity: one pixel with two and one channels, channels first. -/
example : Kernels.concatNchw [1, 3, 1, 2] (tab [1, 2, 1, 2] (fn4 fun _ k _ j => 10 * (k : Int) + j))
    (tab [1, 1, 1, 2] (fn4 fun _ _ _ j => 100 + (j : Int))) (List.replicate 6 7) = .ok [0, 1, 10, 11, 100, 101] := by
  decide +kernel

/-- C132, tests/test_affine_grad.cpp: moving either argument of `add` by the gradient that the operator's own gradient
returns moves the result by the gradient it was given. -/
theorem C132_affine_grad [AddCommMonoid R] {x y dz g : List R} (hy : y.length = x.length) (hd : dz.length = x.length)
    (hg : g.length = x.length) {m : List R} (hm : m.length = x.length) (zdims : List Nat) :
    ∃ z d z', Ops.add x.length (.ext x) (.ext y) 0 m = .ok z ∧ Grad.add ⟨zdims, dz⟩ g = .ok d ∧
      Ops.add x.length (.ext z) (.ext dz) 0 m = .ok z' ∧
      (do let x' ← Ops.add x.length (.ext x) (.ext d) 0 m
          Ops.add x.length (.ext x') (.ext y) 0 m) = .ok z' ∧
      (do let y' ← Ops.add x.length (.ext y) (.ext d) 0 m
          Ops.add x.length (.ext x) (.ext y') 0 m) = .ok z' := by
  have A : ∀ {v w : List R}, v.length = x.length → w.length = x.length →
      Ops.add x.length (.ext v) (.ext w) 0 m = .ok (List.zipWith (fun a b => a + b) v w) := by
    intro v w hv hw
    have := C21_add (x := .ext v) (y := .ext w) (z := 0) (m := m) (ext_holds _ _ _) (ext_holds _ _ _) (hv.trans hw.symm) (by omega)
    rw [hv] at this
    rw [this, store_all (by simp; omega)]
  have G : Grad.add ⟨zdims, dz⟩ g = .ok dz := by
    have := Kernels.copy_run (x := .ext dz) (z := 0) (m := g) (v := dz) (ext_holds _ _ _) (fun _ h => nomatch h) (by rw [hd, hg]; omega)
    unfold Grad.add
    rw [this, store_all (by omega)]
  have l2 : ∀ {v w : List R}, v.length = x.length → w.length = x.length →
      (List.zipWith (fun a b => a + b) v w).length = x.length := fun hv hw => by simp [hv, hw]
  refine ⟨_, _, _, A rfl hy, G, A (l2 rfl hy) hd, ?_, ?_⟩
  · rw [A rfl hd, Outcome.ok_bind, A (l2 rfl hd) hy]
    refine congrArg Outcome.ok (List.ext_getElem (by simp [hy, hd]) fun i h1 h2 => ?_)
    simp only [List.getElem_zipWith]
    exact add_right_comm _ _ _
  · rw [A hy hd, Outcome.ok_bind, A rfl (l2 hy hd)]
    refine congrArg Outcome.ok (List.ext_getElem (by simp [hy, hd]) fun i h1 h2 => ?_)
    simp only [List.getElem_zipWith]
    exact (add_assoc _ _ _).symm

/-- Non-vacuity. -/
example : Grad.add ⟨[3], [(5 : Int), 6, 7]⟩ [0, 0, 0] = .ok [5, 6, 7] ∧
    (do let x' ← Ops.add 3 (.ext [1, 2, 3]) (.ext [(5 : Int), 6, 7]) 0 [0, 0, 0]
        Ops.add 3 (.ext x') (.ext [10, 20, 30]) 0 [0, 0, 0]) = .ok [16, 28, 40] := by decide +kernel

/-- C132, tests/test_pool.cpp:4-48: max pooling without padding of an image whose values do not decrease to the right and
downwards returns the last element of each window: every second element of the iota image of the test. -/
theorem C132_pool_increasing [LinearOrder R] [Zero R] {lowest : R} {H W : Axis} (hH : AxisOK u32 H) (hW : AxisOK u32 W)
    (lH : H.l = 0) (lW : W.l = 0) (qH : H.q = 0) (qW : W.q = 0) (X : Nat → Nat → R)
    (hlow : ∀ a < H.n, ∀ b < W.n, lowest ≤ X a b) (mono : ∀ a a' b b', a ≤ a' → b ≤ b' → X a b ≤ X a' b') {y : List R}
    (hy : y.length = [H.m, W.m].prod) :
    Kernels.poolHw (Acc.max lowest) (poolTrait H W) [H.m, W.m] (tab [H.n, W.n] (fn2 X)) y =
      .ok (tab [H.m, W.m] (fn2 fun i j => X (i * H.s + (H.k - 1) * H.r) (j * W.s + (W.k - 1) * W.r))).data := by
  obtain ⟨Z, hZ, hmax⟩ := C36_max_pool hH hW X hlow hy
  rw [hZ]
  refine congrArg (fun t => Outcome.ok (Tensor.data t)) (tab_congr fun idx hv => ?_)
  match idx, hv with
  | [i, j], hv =>
    obtain ⟨hi, hj, -⟩ := hv
    simp only [fn2_apply]
    have last : ∀ {A : Axis}, AxisOK u32 A → A.l = 0 → A.q = 0 → ∀ {i}, i < A.m → ∃ u < A.k, A.Hits i u (i * A.s + (A.k - 1) * A.r) := by
      intro A hA l0 q0 i hi
      have k1 := hA.fits.k1
      have := tap_lt k1 hA.covers hi (show A.k - 1 < A.k by omega)
      exact ⟨A.k - 1, by omega, by omega, by simp only [Axis.pos]; omega⟩
    have under : Under H W i j (i * H.s + (H.k - 1) * H.r) (j * W.s + (W.k - 1) * W.r) := ⟨last hH lH qH hi, last hW lW qW hj⟩
    obtain ⟨h1, h2⟩ := hmax i hi j hj
    rcases h2 with ⟨a, b, ⟨⟨u, hu, ha⟩, ⟨v, hv', hb⟩⟩, e⟩ | ⟨no, -⟩
    · refine le_antisymm ?_ (h1 _ _ under)
      rw [e]
      have pa := ha.2
      have pb := hb.2
      simp only [Axis.pos] at pa pb
      have : u * H.r ≤ (H.k - 1) * H.r := Nat.mul_le_mul_right _ (by omega)
      have : v * W.r ≤ (W.k - 1) * W.r := Nat.mul_le_mul_right _ (by omega)
      exact mono _ _ _ _ (by omega) (by omega)
    · exact absurd under (no _ _)

/-- Non-vacuity: the axes of the test, 4 elements in windows of 2, and its image. -/
example : AxisOK u32 ⟨2, 2, 1, 0, 0, 4, 2⟩ ∧
    ∀ a a' b b' : Nat, a ≤ a' → b ≤ b' → 4 * (a : Int) + b ≤ 4 * (a' : Int) + b' := by
  refine ⟨⟨⟨?_, ?_, ?_, ?_, ?_, ?_, ?_, ?_, ?_, ?_, ?_, ?_, ?_, ?_⟩, ?_⟩, fun a a' b b' h h' => by omega⟩ <;>
    first | exact u32_std | decide

/-- C132, tests/test_softmax.cpp:20-57: the softmax of a constant row of length `k` is `1 / k`, if the lower clip of the
operator is not above that; for any constant, the test has 1. -/
theorem C132_softmax_constant (eps v : ℝ) {k : Nat} (he : eps ≤ 1 / (k : ℝ)) {m : List ℝ} (hm : m.length = k) :
    Ops.softmax Real.exp eps [k] [k] (.ext (List.replicate k v)) 0 m = .ok (List.replicate k (1 / (k : ℝ))) := by
  have h := softmax_vector eps (n := k) (fun _ => v) hm
  rw [List.ofFn_const] at h
  rw [h]
  have : ∀ i : Fin k, max eps (smax (fun _ => v) i) = 1 / (k : ℝ) := by
    intro i
    have : smax (fun _ : Fin k => v) i = 1 / (k : ℝ) := by
      simp only [smax, Finset.sum_const, Finset.card_univ, Fintype.card_fin, nsmul_eq_mul]
      have := Real.exp_pos v
      have k0 : (k : ℝ) ≠ 0 := by have := i.pos; exact_mod_cast this.ne'
      field_simp
    rw [this, max_eq_right he]
  simp only [this, List.ofFn_const]

/-- C132, tests/test_softmax.cpp:6-18. -/
theorem C132_softmax_pair (eps : ℝ) (he : eps ≤ 1 / (1 + Real.exp 1)) {m : List ℝ} (hm : m.length = 2) :
    Ops.softmax Real.exp eps [2] [2] (.ext [0, 1]) 0 m = .ok [1 / (1 + Real.exp 1), Real.exp 1 / (1 + Real.exp 1)] := by
  have h := softmax_vector eps (n := 2) ![0, 1] hm
  have e : List.ofFn (![0, 1] : Fin 2 → ℝ) = [0, 1] := by simp
  rw [e] at h
  rw [h]
  have p := Real.exp_pos 1
  have o : (1 : ℝ) ≤ Real.exp 1 := Real.one_le_exp (by norm_num)
  have q : 1 / (1 + Real.exp 1) ≤ Real.exp 1 / (1 + Real.exp 1) := by gcongr
  simp [smax, Fin.sum_univ_two, List.ofFn_succ] at *
  exact ⟨he, he.trans (by simpa using q)⟩

/-- Non-vacuity: the clip of the operator is below both bounds. -/
example : (1e-6 : ℝ) ≤ 1 / (100 : Nat) ∧ (1e-6 : ℝ) ≤ 1 / (1 + Real.exp 1) := by
  refine ⟨by norm_num, ?_⟩
  have := Real.exp_one_lt_d9
  rw [le_div_iff₀ (by positivity)]
  linarith

/-- C132, tests/test_xentropy.cpp: the cross entropy of `k` ones against `k` times e is `-k`. -/
theorem C132_xentropy_ones (k : Nat) (z : ℝ) :
    Ops.xentropy Real.log [] ⟨[k], List.replicate k 1⟩ ⟨[k], List.replicate k (Real.exp 1)⟩ [z] = .ok [-(k : ℝ)] := by
  have h := xentropy_vector (n := k) (fun _ => 1) (fun _ => Real.exp 1) z
  simp only [List.ofFn_const] at h
  rw [h]
  simp

end StdNN
