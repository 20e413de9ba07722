import Verif.Props.Exact
/-!
# Signed integer elements

C133: with elements of type `int32_t` or `int64_t` an overflow is undefined behaviour. An element type whose arithmetic marks
overflow shows exactly when a product, a sum or a convolution overflows, and that it is exact otherwise.
-/
namespace StdNN
open IntTy Spec Outcome Layers Models Finset

/-- A signed integer of `w` bits, `none` once an operation that led to it has overflowed. The arithmetic of C++ on `int32_t`
(`w = 32`) and `int64_t` (`w = 64`), which are not promoted; the specification of the language, not code of /repo. -/
@[ext] structure Signed (w : Nat) where
  val : Option ℤ
deriving DecidableEq

namespace Signed
variable {w : Nat}

/-- The values of the type. -/
def Range (w : Nat) (z : ℤ) : Prop := -2 ^ (w - 1) ≤ z ∧ z < 2 ^ (w - 1)

instance (w : Nat) (z : ℤ) : Decidable (Range w z) := by unfold Range; infer_instance

/-- The mathematical result of an operation, if it is a value of the type. -/
def of (w : Nat) (z : ℤ) : Signed w := ⟨if Range w z then some z else none⟩

/-- The literal 0. -/
instance : Zero (Signed w) := ⟨⟨some 0⟩⟩
/-- `a + b` of C++: undefined if the sum is not a value of the type. -/
instance : Add (Signed w) := ⟨fun a b => ⟨do (of w ((← a.val) + (← b.val))).val⟩⟩
/-- `a * b` of C++: undefined if the product is not a value of the type. -/
instance : Mul (Signed w) := ⟨fun a b => ⟨do (of w ((← a.val) * (← b.val))).val⟩⟩

theorem of_pos {z : ℤ} (h : Range w z) : (of w z).val = some z := if_pos h

theorem of_neg {z : ℤ} (h : ¬ Range w z) : (of w z).val = none := if_neg h

theorem range_zero (w : Nat) : Range w 0 := ⟨by simp, by positivity⟩

theorem zero_val : (0 : Signed w).val = some 0 := rfl

theorem of_zero : of w 0 = 0 := Signed.ext (of_pos (range_zero w))

theorem add_val (a b : Signed w) : (a + b).val = (do (of w ((← a.val) + (← b.val))).val) := rfl

theorem mul_of {a b : ℤ} (ha : Range w a) (hb : Range w b) : of w a * of w b = of w (a * b) := by
  apply Signed.ext
  show (do (of w ((← (of w a).val) * (← (of w b).val))).val) = _
  rw [of_pos ha, of_pos hb]
  rfl

theorem add_of {a b : ℤ} (ha : Range w a) (hb : Range w b) : of w a + of w b = of w (a + b) := by
  apply Signed.ext
  rw [add_val, of_pos ha, of_pos hb]
  rfl

/-- Every term, and every sum of the terms up to one of them, is a value of the type. -/
def Fit (w n : Nat) (t : Nat → ℤ) : Prop := ∀ k < n, Range w (t k) ∧ Range w (∑ i ∈ range (k + 1), t i)

instance (w n : Nat) (t : Nat → ℤ) : Decidable (Fit w n t) := by unfold Fit; infer_instance

/-- A sum in the order of the terms, overflow or not. -/
theorem sum_val (n : Nat) (t : Nat → ℤ) :
    (seqSum n fun k => of w (t k)).val = if Fit w n t then some (∑ k ∈ range n, t k) else none := by
  induction n with
  | zero => exact (if_pos (fun k hk => absurd hk (by omega) : Fit w 0 t)).symm
  | succ n ih =>
    rw [seqSum, add_val, ih]
    by_cases h : Fit w n t
    · rw [if_pos h]
      by_cases h1 : Range w (t n)
      · rw [of_pos h1]
        show (of w (_ + _)).val = _
        rw [← sum_range_succ]
        by_cases h2 : Range w (∑ k ∈ range (n + 1), t k)
        · rw [of_pos h2, if_pos (show Fit w (n + 1) t from fun k hk => ?_)]
          rcases Nat.lt_succ_iff_lt_or_eq.1 hk with hk | rfl
          · exact h k hk
          · exact ⟨h1, h2⟩
        · rw [of_neg h2, if_neg fun f => h2 (f n (by omega)).2]
      · rw [of_neg h1, if_neg fun f => h1 (f n (by omega)).1]
        rfl
    · rw [if_neg h, if_neg fun f => h fun k hk => f k (by omega)]
      rfl

/-- A sum of products. -/
theorem dot_val {n : Nat} {a b : Nat → ℤ} (ha : ∀ k < n, Range w (a k)) (hb : ∀ k < n, Range w (b k)) :
    (seqSum n fun k => of w (a k) * of w (b k)).val =
      if Fit w n (fun k => a k * b k) then some (∑ k ∈ range n, a k * b k) else none := by
  rw [← sum_val]
  exact congrArg val (seqSum_congr fun k hk => mul_of (ha k hk) (hb k hk))

theorem range_of_abs {z : ℤ} (h : |z| < 2 ^ (w - 1)) : Range w z := by
  obtain ⟨h1, h2⟩ := abs_lt.1 h
  exact ⟨h1.le, h2⟩

/-- Enough for a sum not to overflow in any order: the absolute values do not. -/
theorem fit_of_abs {n : Nat} {t : Nat → ℤ} (h : ∑ k ∈ range n, |t k| < 2 ^ (w - 1)) : Fit w n t := by
  intro k hk
  constructor
  · exact range_of_abs (lt_of_le_of_lt (single_le_sum (f := fun k => |t k|) (fun _ _ => abs_nonneg _) (mem_range.2 hk)) h)
  · refine range_of_abs (lt_of_le_of_lt (abs_sum_le_sum_abs _ _) (lt_of_le_of_lt ?_ h))
    exact sum_le_sum_of_subset_of_nonneg (range_mono hk) fun _ _ _ => abs_nonneg _

end Signed

open Signed
variable {w : Nat}

/-- C133: an element of the product of two matrices of signed integers overflows if a product or a sum of the first products is
not a value of the type, and is the exact one otherwise. -/
theorem C133_mm {m l n : Nat} (A B : Nat → Nat → ℤ) (hA : ∀ i < m, ∀ k < l, Range w (A i k))
    (hB : ∀ k < l, ∀ j < n, Range w (B k j)) {c : List (Signed w)} (hc : c.length = m * n) :
    ∃ C : Nat → Nat → Signed w,
      Plain.mm (tab [m, l] (fn2 fun i k => of w (A i k))) (tab [l, n] (fn2 fun k j => of w (B k j))) [m, n] c =
        .ok (tab [m, n] (fn2 C)).data ∧
      ∀ i < m, ∀ j < n, (C i j).val =
        if Fit w l (fun k => A i k * B k j) then some (∑ k ∈ range l, A i k * B k j) else none :=
  ⟨_, Plain.mm_run _ _ hc, fun i hi j hj => dot_val (fun k hk => hA i hi k hk) fun k hk => hB k hk j hj⟩

/-- C133 with the second factor transposed. -/
theorem C133_mmt {m l n : Nat} (A B : Nat → Nat → ℤ) (hA : ∀ i < m, ∀ k < l, Range w (A i k))
    (hB : ∀ j < n, ∀ k < l, Range w (B j k)) {c : List (Signed w)} (hc : c.length = m * n) :
    ∃ C : Nat → Nat → Signed w,
      Plain.mmt (tab [m, l] (fn2 fun i k => of w (A i k))) (tab [n, l] (fn2 fun j k => of w (B j k))) [m, n] c =
        .ok (tab [m, n] (fn2 C)).data ∧
      ∀ i < m, ∀ j < n, (C i j).val =
        if Fit w l (fun k => A i k * B j k) then some (∑ k ∈ range l, A i k * B j k) else none :=
  ⟨_, Plain.mmt_run _ _ hc, fun i hi j hj => dot_val (fun k hk => hA i hi k hk) fun k hk => hB j hj k hk⟩

/-- C133 with the first factor transposed. -/
theorem C133_mtm {m l n : Nat} (A B : Nat → Nat → ℤ) (hA : ∀ k < l, ∀ i < m, Range w (A k i))
    (hB : ∀ k < l, ∀ j < n, Range w (B k j)) {c : List (Signed w)} (hc : c.length = m * n) :
    ∃ C : Nat → Nat → Signed w,
      Plain.mtm (tab [l, m] (fn2 fun k i => of w (A k i))) (tab [l, n] (fn2 fun k j => of w (B k j))) [m, n] c =
        .ok (tab [m, n] (fn2 C)).data ∧
      ∀ i < m, ∀ j < n, (C i j).val =
        if Fit w l (fun k => A k i * B k j) then some (∑ k ∈ range l, A k i * B k j) else none :=
  ⟨_, Plain.mtm_run _ _ hc, fun i hi j hj => dot_val (fun k hk => hA k hk i hi) fun k hk => hB k hk j hj⟩

/-- C133: the sums of the rows and of the columns of a matrix. -/
theorem C133_sums {m n : Nat} (X : Nat → Nat → ℤ) {y z : List (Signed w)} (hy : y.length = m) (hz : z.length = n) :
    ∃ R C : Nat → Signed w,
      Kernels.innerContraction (tab [m, n] (fn2 fun i j => of w (X i j))) y = .ok ((List.range m).map R) ∧
      Kernels.outerContraction (tab [m, n] (fn2 fun i j => of w (X i j))) z = .ok ((List.range n).map C) ∧
      (∀ i < m, (R i).val = if Fit w n (fun j => X i j) then some (∑ j ∈ range n, X i j) else none) ∧
      ∀ j < n, (C j).val = if Fit w m (fun i => X i j) then some (∑ i ∈ range m, X i j) else none := by
  obtain ⟨e1, e2⟩ := C113_contractions (fun i j => of w (X i j)) hy hz
  refine ⟨_, _, e1, e2, fun i _ => ?_, fun j _ => ?_⟩
  · rw [seqSum_eq_foldl]; exact sum_val _ _
  · rw [seqSum_eq_foldl]; exact sum_val _ _

theorem window_range {H W : Axis} {X : Nat → Nat → ℤ} (hX : ∀ a < H.n, ∀ b < W.n, Range w (X a b)) (i j u v : Nat) :
    Range w (window H W X i j u v) := by
  rw [window_eq]
  split
  · exact hX _ (by omega) _ (by omega)
  · exact range_zero w

/-- C133: an element of a convolution in `nhwc` overflows if a product under the window or a sum of the first of them, row by
row, column by column and channel by channel, is not a value of the type, and is the exact one otherwise. -/
theorem C133_conv_nhwc {H W : Axis} (hH : AxisOK u32 H) (hW : AxisOK u32 W) {n c d : Nat}
    (hsz : [H.n, W.n, c].prod ≤ 2 ^ 31) (X Y : Nat → Nat → Nat → Nat → ℤ) (hX : ∀ b < n, ∀ p < H.n, ∀ q < W.n, ∀ k < c, Range w (X b p q k))
    (hY : ∀ r < H.k, ∀ s < W.k, ∀ k < c, ∀ e < d, Range w (Y r s k e)) (junkI : Nat → Int) (junk : Nat → Signed w)
    {z : List (Signed w)} (hz : z.length = [n, H.m, W.m, d].prod) :
    ∃ Z : Nat → Nat → Nat → Nat → Signed w,
      Kernels.convNhwc (convTrait H W) junkI junk [n, H.m, W.m, d]
          (tab [n, H.n, W.n, c] (fn4 fun b p q k => of w (X b p q k)))
          (tab [H.k, W.k, c, d] (fn4 fun r s k e => of w (Y r s k e))) z = .ok (tab [n, H.m, W.m, d] (fn4 Z)).data ∧
      ∀ b < n, ∀ i < H.m, ∀ j < W.m, ∀ e < d, (Z b i j e).val =
        if Fit w (H.k * (W.k * c)) (fun p =>
            window H W (fun a a' => X b a a' (p % (W.k * c) % c)) i j (p / (W.k * c)) (p % (W.k * c) / c) *
              Y (p / (W.k * c)) (p % (W.k * c) / c) (p % (W.k * c) % c) e)
        then some (conv2 H W c (X b) Y i j e) else none := by
  refine ⟨_, C91_conv_order hH hW hsz _ _ junkI junk hz, fun b hb i _ j _ e he => ?_⟩
  rw [← conv2_flat]
  simp only [← window_hom (f := of w) of_zero]
  refine dot_val (fun p hp => ?_) fun p hp => ?_
  · have c0 : 0 < W.k * c := Nat.pos_of_mul_pos_left (lt_of_le_of_lt (Nat.zero_le _) hp)
    have c1 : 0 < c := Nat.pos_of_mul_pos_left c0
    exact window_range (fun a ha a' ha' => hX b hb a ha a' ha' _ (Nat.mod_lt _ c1)) _ _ _ _
  · have c0 : 0 < W.k * c := Nat.pos_of_mul_pos_left (lt_of_le_of_lt (Nat.zero_le _) hp)
    have c1 : 0 < c := Nat.pos_of_mul_pos_left c0
    exact hY _ (Nat.div_lt_of_lt_mul (by rwa [Nat.mul_comm]))
      _ ((Nat.div_lt_iff_lt_mul c1).2 (Nat.mod_lt _ c0)) _ (Nat.mod_lt _ c1) e he

/-- C133: the same for `nchw` images, channel by channel first. -/
theorem C133_conv_nchw {H W : Axis} (hH : AxisOK u32 H) (hW : AxisOK u32 W) {n c d : Nat}
    (X Y : Nat → Nat → Nat → Nat → ℤ) (hX : ∀ b < n, ∀ k < c, ∀ p < H.n, ∀ q < W.n, Range w (X b k p q))
    (hY : ∀ e < d, ∀ k < c, ∀ r < H.k, ∀ s < W.k, Range w (Y e k r s)) (junk : Nat → Signed w)
    {z : List (Signed w)} (hz : z.length = [n, d, H.m, W.m].prod) :
    ∃ Z : Nat → Nat → Nat → Nat → Signed w,
      Kernels.convNchw (convTrait H W) junk [n, d, H.m, W.m] (tab [n, c, H.n, W.n] (fn4 fun b k p q => of w (X b k p q)))
          (tab [d, c, H.k, W.k] (fn4 fun e k r s => of w (Y e k r s))) z = .ok (tab [n, d, H.m, W.m] (fn4 Z)).data ∧
      ∀ b < n, ∀ e < d, ∀ i < H.m, ∀ j < W.m, (Z b e i j).val =
        if Fit w (c * (H.k * W.k)) (fun p =>
            Y e (p / (H.k * W.k)) (p % (H.k * W.k) / W.k) (p % (H.k * W.k) % W.k) *
              window H W (X b (p / (H.k * W.k))) i j (p % (H.k * W.k) / W.k) (p % (H.k * W.k) % W.k))
        then some (conv2 H W c (fun p q k => X b k p q) (fun r s k e => Y e k r s) i j e) else none := by
  refine ⟨_, C91_conv_order_nchw hH hW _ _ junk hz, fun b hb e he i _ j _ => ?_⟩
  rw [← conv2_flat_nchw]
  simp only [← window_hom (f := of w) of_zero]
  refine (dot_val (fun p hp => ?_) fun p hp => ?_).trans ?_
  · have c0 : 0 < H.k * W.k := Nat.pos_of_mul_pos_left (lt_of_le_of_lt (Nat.zero_le _) hp)
    have c1 : 0 < W.k := Nat.pos_of_mul_pos_left c0
    exact hY e he _ (Nat.div_lt_of_lt_mul (by rwa [Nat.mul_comm]))
      _ ((Nat.div_lt_iff_lt_mul c1).2 (Nat.mod_lt _ c0)) _ (Nat.mod_lt _ c1)
  · exact window_range (fun a ha a' ha' => hX b hb _ (Nat.div_lt_of_lt_mul (by rwa [Nat.mul_comm])) a ha a' ha') _ _ _ _
  · simp only [mul_comm]

/-- C133: a dense layer without activation; the bias is added last. -/
theorem C133_dense (junkW junkY junkB : Nat → Signed w) {n m k : Nat} (hk : k < 2 ^ 32) (X W : Nat → Nat → ℤ) (B : Nat → ℤ)
    (hX : ∀ i < n, ∀ l < m, Range w (X i l)) (hW : ∀ l < m, ∀ j < k, Range w (W l j)) (hB : ∀ j < k, Range w (B j))
    {wInit bInit : Init (Signed w)}
    (hw : wInit [m, k] (fresh junkW [m, k].prod) = .ok (tab [m, k] (fn2 fun l j => of w (W l j))).data)
    (hb : bInit [k] (fresh junkB [k].prod) = .ok (tab [k] (fn1 fun j => of w (B j))).data) :
    ∃ Z : Nat → Nat → Signed w,
      Gives (fun x => Layers.dense junkW junkY junkB noopAct k x wInit bInit) (tab [n, m] (fn2 fun i l => of w (X i l)))
        (tab [n, k] (fn2 Z)) ∧
      ∀ i < n, ∀ j < k, (Z i j).val =
        if Fit w m (fun l => X i l * W l j) ∧ Range w (∑ l ∈ range m, X i l * W l j + B j)
        then some (∑ l ∈ range m, X i l * W l j + B j) else none := by
  refine ⟨_, Gives.of (C77_dense junkW junkY junkB noop_acts hk (fun i l => of w (X i l)) (fun l j => of w (W l j))
    (fun j => of w (B j)) hw hb) rfl rfl, fun i hi j hj => ?_⟩
  rw [id, add_val, dot_val (fun l hl => hX i hi l hl) fun l hl => hW l hl j hj, of_pos (hB j hj)]
  by_cases h : Fit w m fun l => X i l * W l j
  · rw [if_pos h]
    show (of w (_ + _)).val = _
    by_cases h2 : Range w (∑ l ∈ range m, X i l * W l j + B j)
    · rw [of_pos h2, if_pos ⟨h, h2⟩]
    · rw [of_neg h2, if_neg fun c => h2 c.2]
  · rw [if_neg h, if_neg fun c => h c.1]
    rfl

/-- C133: a condition that does not mention the order. If the products' absolute values sum up to less than the largest value of the
type, nothing overflows: here for convolutions, where the sum is the convolution of the absolute values. -/
theorem C133_conv_enough {H W : Axis} {c : Nat} (X : Nat → Nat → Nat → ℤ) (Y : Nat → Nat → Nat → Nat → ℤ) {i j e : Nat}
    (h : conv2 H W c (fun p q k => |X p q k|) (fun r s k e => |Y r s k e|) i j e < 2 ^ (w - 1)) :
    Fit w (H.k * (W.k * c)) (fun p =>
        window H W (fun a a' => X a a' (p % (W.k * c) % c)) i j (p / (W.k * c)) (p % (W.k * c) / c) *
          Y (p / (W.k * c)) (p % (W.k * c) / c) (p % (W.k * c) % c) e) ∧
      Fit w (c * (H.k * W.k)) (fun p =>
        Y (p % (H.k * W.k) / W.k) (p % (H.k * W.k) % W.k) (p / (H.k * W.k)) e *
          window H W (fun a a' => X a a' (p / (H.k * W.k))) i j (p % (H.k * W.k) / W.k) (p % (H.k * W.k) % W.k)) := by
  constructor
  · refine fit_of_abs ?_
    rw [← conv2_flat] at h
    simp only [abs_mul, window_absInt]
    exact h
  · refine fit_of_abs ?_
    rw [← conv2_flat_nchw] at h
    simp only [abs_mul, window_absInt]
    simpa only [mul_comm] using h

/-- C133: the same for sums and products of matrices. -/
theorem C133_enough {n : Nat} {t : Nat → ℤ} (h : ∑ k ∈ range n, |t k| < 2 ^ (w - 1)) : Fit w n t := fit_of_abs h

/-- C133: that the result is a value of the type is not enough, and neither is it to fit in another order. -/
theorem C133_order : ∃ (X : Nat → Nat → ℤ) (y : List (Signed 32)),
    Kernels.innerContraction (tab [1, 3] (fn2 fun i j => of 32 (X i j))) y = .ok [⟨none⟩] ∧
      Range 32 (∑ j ∈ range 3, X 0 j) ∧
      Kernels.innerContraction (tab [1, 3] (fn2 fun i j => of 32 (X i (2 - j)))) y =
        .ok [⟨some (∑ j ∈ range 3, X 0 j)⟩] :=
  ⟨fun _ j => if j = 2 then -2147483647 else 2147483647 - 1 + j, [0], by decide +kernel, by decide +kernel, by decide +kernel⟩

/-- Non-vacuity: 32-bit numbers with a product that overflows, and one that does not. -/
example : Plain.mm (tab [1, 2] (fn2 fun _ k => of 32 (if k = 0 then 65536 else 2)))
      (tab [2, 2] (fn2 fun _ j => of 32 (if j = 0 then 32768 else -32768))) [1, 2] [0, 0] =
        .ok [⟨none⟩, ⟨none⟩] ∧
    Plain.mm (tab [1, 2] (fn2 fun _ k => of 32 (if k = 0 then 65536 else 2)))
      (tab [2, 2] (fn2 fun _ j => of 32 (if j = 0 then 32767 else -32767))) [1, 2] [0, 0] =
        .ok [⟨some 2147483646⟩, ⟨some (-2147483646)⟩] := by decide +kernel

/-! ## Concrete cases -/

example := C133_mm (w := 32) (m := 2) (l := 3) (n := 2) (fun i k => 1000 * i - k) (fun k j => k + 5 * j) (by decide)
  (by decide) (c := List.replicate 4 0) rfl
example := C133_mmt (w := 32) (m := 2) (l := 3) (n := 2) (fun i k => 1000 * i - k) (fun j k => k + 5 * j) (by decide)
  (by decide) (c := List.replicate 4 0) rfl
example := C133_mtm (w := 32) (m := 2) (l := 3) (n := 2) (fun k i => 1000 * i - k) (fun k j => k + 5 * j) (by decide)
  (by decide) (c := List.replicate 4 0) rfl
example := C133_conv_nhwc (w := 32) exH_ok exW_ok (n := 1) (c := 2) (d := 2) (by decide) (fun _ p q k => p - 7 * q + k)
  (fun r s k e => r + s - k * e) (by decide) (by decide) (fun _ => 9) (fun _ => Signed.of 32 9) (z := List.replicate 18 0) rfl
example := C133_conv_nchw (w := 32) exH_ok exW_ok (n := 1) (c := 2) (d := 2) (fun _ k p q => p - 7 * q + k)
  (fun e k r s => r + s - k * e) (by decide) (by decide) (fun _ => Signed.of 32 9) (z := List.replicate 18 0) rfl
example := C133_dense (w := 32) (fun _ => Signed.of 32 9) (fun _ => Signed.of 32 9) (fun _ => Signed.of 32 9) (n := 2) (m := 3) (k := 2) (by decide)
  (fun i l => i - 4 * l) (fun l j => l + j) (fun j => 7 - j) (by decide) (by decide) (by decide)
  (wInit := fun _ _ => .ok (tab [3, 2] (fn2 fun l j => Signed.of 32 (l + j))).data)
  (bInit := fun _ _ => .ok (tab [2] (fn1 fun j => Signed.of 32 (7 - j))).data) rfl rfl
example := C133_conv_enough (w := 32) (H := exH) (W := exW) (c := 2) (fun p q k => p - 7 * q + k)
  (fun r s k e => r + s - k * e) (i := 1) (j := 2) (e := 1) (by decide +kernel)
example := C133_enough (w := 8) (n := 5) (t := fun k => 10 - 7 * (k : ℤ)) (by decide)

end StdNN
