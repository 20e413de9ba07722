import Verif.Props.RoundingLayers
import Mathlib.Data.BitVec
/-!
# Where floating point is exact, and integers that wrap

C130: products, convolutions and networks on integer data that stay small are computed without any rounding error. C131:
with unsigned elements, products and convolutions are the exact results modulo a power of two.
-/
namespace StdNN
open IntTy Spec Outcome Layers Models Finset
variable {R S : Type}

/-- `f` respects zero, and the sums and products that satisfy `P`. -/
structure Respects [Zero R] [Add R] [Mul R] [Zero S] [Add S] [Mul S] (f : R → S) (P : R → Prop) : Prop where
  zero : f 0 = 0
  add : ∀ a b, P (a + b) → f (a + b) = f a + f b
  mul : ∀ a b, P (a * b) → f (a * b) = f a * f b

/-- The `n` terms and their partial sums satisfy `P`. -/
def SumsIn [Zero R] [Add R] (P : R → Prop) (n : Nat) (t : Nat → R) : Prop :=
  (∀ k < n, P (t k)) ∧ ∀ k < n, P (seqSum (k + 1) t)

theorem window_hom [Zero R] [Zero S] {f : R → S} (h0 : f 0 = 0) (H W : Axis) (X : Nat → Nat → R) (i j u v : Nat) :
    f (window H W X i j u v) = window H W (fun a b => f (X a b)) i j u v := by
  rw [window_eq, window_eq]
  split
  · rfl
  · exact h0

section hom
variable [Zero R] [Add R] [Mul R] [Zero S] [Add S] [Mul S] {f : R → S} {P : R → Prop}

theorem sum_hom (hf : Respects f P) {n : Nat} {t : Nat → R} (h : SumsIn P n t) :
    f (seqSum n t) = seqSum n fun k => f (t k) := by
  induction n with
  | zero => exact hf.zero
  | succ n ih =>
    have h1 := h.2 n (by omega)
    rw [seqSum] at h1
    rw [seqSum, seqSum, hf.add _ _ h1, ih ⟨fun k hk => h.1 k (by omega), fun k hk => h.2 k (by omega)⟩]

theorem dot_hom (hf : Respects f P) {n : Nat} {a b : Nat → R} (h : SumsIn P n fun k => a k * b k) :
    f (seqSum n fun k => a k * b k) = seqSum n fun k => f (a k) * f (b k) := by
  rw [sum_hom hf h]
  exact seqSum_congr fun k hk => hf.mul _ _ (h.1 k hk)

end hom

/-! ## Integers in floating point -/

section float
variable {rnd : ℝ → ℝ} {M : ℤ}

/-- Rounding leaves the integers up to `M` as they are: `M = 2^24` for `float`, `2^53` for `double`. -/
def KeepsInts (rnd : ℝ → ℝ) (M : ℤ) : Prop := ∀ z : ℤ, |z| ≤ M → rnd z = z

/-- An integer as a floating point number. -/
noncomputable def flInt (z : ℤ) : Fl rnd := show ℝ from (z : ℝ)

theorem flInt_val (z : ℤ) : (flInt z : Fl rnd).val = z := rfl

theorem flInt_respects (h : KeepsInts rnd M) : Respects (flInt (rnd := rnd)) fun z => |z| ≤ M where
  zero := by show ((0 : ℤ) : ℝ) = 0; simp
  add a b hab := by
    show ((a + b : ℤ) : ℝ) = rnd ((a : ℝ) + (b : ℝ))
    rw [← h _ hab]; push_cast; rfl
  mul a b hab := by
    show ((a * b : ℤ) : ℝ) = rnd ((a : ℝ) * (b : ℝ))
    rw [← h _ hab]; push_cast; rfl

theorem sums_small {n : Nat} {a b : Nat → ℤ} {s : ℤ} (h : ∑ k ∈ range n, |a k| * |b k| + s ≤ M) (hs : 0 ≤ s) :
    SumsIn (fun z => |z| ≤ M) n fun k => a k * b k := by
  have part : ∀ m ≤ n, ∑ k ∈ range m, |a k| * |b k| ≤ M := fun m hm => by
    refine le_trans (Finset.sum_le_sum_of_subset_of_nonneg (range_mono hm) fun _ _ _ => by positivity) (by omega)
  constructor
  · intro k hk
    refine le_trans ?_ (part n le_rfl)
    rw [abs_mul]
    exact Finset.single_le_sum (f := fun k => |a k| * |b k|) (fun _ _ => by positivity) (mem_range.2 hk)
  · intro k hk
    rw [seqSum_eq_sum]
    refine (Finset.abs_sum_le_sum_abs _ _).trans ?_
    simp only [abs_mul]
    exact part (k + 1) hk

/-- A sum of products of small integers, without rounding. -/
theorem dot_exact (h : KeepsInts rnd M) {n : Nat} {a b : Nat → ℤ} {s : ℤ} (hM : ∑ k ∈ range n, |a k| * |b k| + s ≤ M)
    (hs : 0 ≤ s) :
    (seqSum n fun k => (flInt (a k) : Fl rnd) * flInt (b k)) = flInt (∑ k ∈ range n, a k * b k) := by
  rw [← dot_hom (flInt_respects h) (sums_small hM hs), seqSum_eq_sum]

theorem affine_exact (h : KeepsInts rnd M) {n : Nat} {a b : Nat → ℤ} {c : ℤ}
    (hM : ∑ k ∈ range n, |a k| * |b k| + |c| ≤ M) :
    (seqSum n fun k => (flInt (a k) : Fl rnd) * flInt (b k)) + flInt c = flInt (∑ k ∈ range n, a k * b k + c) := by
  rw [dot_exact h hM (abs_nonneg c), (flInt_respects h).add]
  refine (abs_add_le _ _).trans (le_trans (add_le_add_left ((Finset.abs_sum_le_sum_abs _ _).trans (le_of_eq ?_)) _) hM)
  exact Finset.sum_congr rfl fun k _ => abs_mul _ _

theorem sum_exact (h : KeepsInts rnd M) {n : Nat} {a : Nat → ℤ} (hM : ∑ k ∈ range n, |a k| ≤ M) :
    (seqSum n fun k => (flInt (a k) : Fl rnd)) = flInt (∑ k ∈ range n, a k) := by
  have h1 := sums_small (a := a) (b := fun _ => 1) (n := n) (M := M) (s := 0) (by simpa using hM) le_rfl
  simp only [mul_one] at h1
  rw [← sum_hom (flInt_respects h) h1, seqSum_eq_sum]

/-- C130: the sums of the rows and of the columns of a matrix of integers are exact if those of the absolute values are at most
`M`. -/
theorem C130_sums (h : KeepsInts rnd M) {m n : Nat} (X : Nat → Nat → ℤ) (hr : ∀ i < m, ∑ j ∈ range n, |X i j| ≤ M)
    (hc : ∀ j < n, ∑ i ∈ range m, |X i j| ≤ M) {y z : List (Fl rnd)} (hy : y.length = m) (hz : z.length = n) :
    Kernels.innerContraction (tab [m, n] (fn2 fun i j => flInt (X i j))) y =
      .ok ((List.range m).map fun i => flInt (∑ j ∈ range n, X i j)) ∧
    Kernels.outerContraction (tab [m, n] (fn2 fun i j => flInt (X i j))) z =
      .ok ((List.range n).map fun j => flInt (∑ i ∈ range m, X i j)) := by
  obtain ⟨e1, e2⟩ := C113_contractions (fun i j => (flInt (X i j) : Fl rnd)) hy hz
  refine ⟨e1.trans (congrArg Outcome.ok (List.map_congr_left fun i hi => ?_)),
    e2.trans (congrArg Outcome.ok (List.map_congr_left fun j hj => ?_))⟩
  · rw [seqSum_eq_foldl]; exact sum_exact h (hr i (by simpa using hi))
  · rw [seqSum_eq_foldl]; exact sum_exact h (hc j (by simpa using hj))

/-- C130: the product of two matrices of integers is exact if the product of their absolute values is at most `M`. -/
theorem C130_mm (h : KeepsInts rnd M) {m l n : Nat} (A B : Nat → Nat → ℤ)
    (hM : ∀ i < m, ∀ j < n, ∑ k ∈ range l, |A i k| * |B k j| ≤ M) {c : List (Fl rnd)} (hc : c.length = m * n) :
    Plain.mm (tab [m, l] (fn2 fun i k => flInt (A i k))) (tab [l, n] (fn2 fun k j => flInt (B k j))) [m, n] c =
      .ok (tab [m, n] (fn2 fun i j => flInt (∑ k ∈ range l, A i k * B k j))).data := by
  rw [Plain.mm_run _ _ hc]
  refine congrArg (fun t => Outcome.ok (Tensor.data t)) (tab_congr fun idx hv => ?_)
  match idx, hv with
  | [i, j], hv => exact dot_exact h (s := 0) (by simpa using hM i hv.1 j hv.2.1) le_rfl

/-- C130 with the second factor transposed. -/
theorem C130_mmt (h : KeepsInts rnd M) {m l n : Nat} (A B : Nat → Nat → ℤ)
    (hM : ∀ i < m, ∀ j < n, ∑ k ∈ range l, |A i k| * |B j k| ≤ M) {c : List (Fl rnd)} (hc : c.length = m * n) :
    Plain.mmt (tab [m, l] (fn2 fun i k => flInt (A i k))) (tab [n, l] (fn2 fun j k => flInt (B j k))) [m, n] c =
      .ok (tab [m, n] (fn2 fun i j => flInt (∑ k ∈ range l, A i k * B j k))).data := by
  rw [Plain.mmt_run _ _ hc]
  refine congrArg (fun t => Outcome.ok (Tensor.data t)) (tab_congr fun idx hv => ?_)
  match idx, hv with
  | [i, j], hv => exact dot_exact h (s := 0) (b := fun k => B j k) (by simpa using hM i hv.1 j hv.2.1) le_rfl

/-- C130 with the first factor transposed. -/
theorem C130_mtm (h : KeepsInts rnd M) {m l n : Nat} (A B : Nat → Nat → ℤ)
    (hM : ∀ i < m, ∀ j < n, ∑ k ∈ range l, |A k i| * |B k j| ≤ M) {c : List (Fl rnd)} (hc : c.length = m * n) :
    Plain.mtm (tab [l, m] (fn2 fun k i => flInt (A k i))) (tab [l, n] (fn2 fun k j => flInt (B k j))) [m, n] c =
      .ok (tab [m, n] (fn2 fun i j => flInt (∑ k ∈ range l, A k i * B k j))).data := by
  rw [Plain.mtm_run _ _ hc]
  refine congrArg (fun t => Outcome.ok (Tensor.data t)) (tab_congr fun idx hv => ?_)
  match idx, hv with
  | [i, j], hv => exact dot_exact h (s := 0) (a := fun k => A k i) (by simpa using hM i hv.1 j hv.2.1) le_rfl

theorem window_absInt (H W : Axis) (X : Nat → Nat → ℤ) (i j p q : Nat) :
    |window H W X i j p q| = window H W (fun a b => |X a b|) i j p q :=
  window_hom (f := fun z : ℤ => |z|) abs_zero H W X i j p q

/-- What a convolution with a bias computes from small integers, `nhwc`. -/
theorem conv_exact (h : KeepsInts rnd M) {H W : Axis} {c : Nat} (X : Nat → Nat → Nat → ℤ) (Y : Nat → Nat → Nat → Nat → ℤ)
    {i j e : Nat} {s : ℤ} (hs : 0 ≤ s)
    (hM : conv2 H W c (fun p q k => |X p q k|) (fun r s k e => |Y r s k e|) i j e + s ≤ M) :
    (seqSum (H.k * (W.k * c)) fun p =>
      window H W (fun a a' => (flInt (X a a' (p % (W.k * c) % c)) : Fl rnd)) i j (p / (W.k * c)) (p % (W.k * c) / c) *
        flInt (Y (p / (W.k * c)) (p % (W.k * c) / c) (p % (W.k * c) % c) e)) = flInt (conv2 H W c X Y i j e) := by
  rw [← conv2_flat]
  rw [← conv2_flat] at hM
  simp only [← window_absInt] at hM
  rw [← dot_exact h hM hs]
  simp only [window_hom (flInt_respects h).zero]

theorem conv_exact_nchw (h : KeepsInts rnd M) {H W : Axis} {c : Nat} (X : Nat → Nat → Nat → ℤ)
    (Y : Nat → Nat → Nat → Nat → ℤ) {i j e : Nat} {s : ℤ} (hs : 0 ≤ s)
    (hM : conv2 H W c (fun p q k => |X p q k|) (fun r s k e => |Y r s k e|) i j e + s ≤ M) :
    (seqSum (c * (H.k * W.k)) fun p =>
      (flInt (Y (p % (H.k * W.k) / W.k) (p % (H.k * W.k) % W.k) (p / (H.k * W.k)) e) : Fl rnd) *
        window H W (fun a a' => flInt (X a a' (p / (H.k * W.k)))) i j (p % (H.k * W.k) / W.k) (p % (H.k * W.k) % W.k)) =
      flInt (conv2 H W c X Y i j e) := by
  rw [← conv2_flat_nchw]
  rw [← conv2_flat_nchw] at hM
  simp only [← window_absInt] at hM
  rw [← dot_exact h hM hs]
  simp only [window_hom (flInt_respects h).zero]
  exact seqSum_congr fun p _ => congrArg rnd (mul_comm _ _)

/-- C130: convolution in `nhwc` of integer images with integer filters is exact if the convolution of the absolute values is at
most `M`. -/
theorem C130_conv_nhwc (h : KeepsInts rnd M) {H W : Axis} (hH : AxisOK u32 H) (hW : AxisOK u32 W) {n c d : Nat}
    (hsz : [H.n, W.n, c].prod ≤ 2 ^ 31) (X Y : Nat → Nat → Nat → Nat → ℤ) (junkI : Nat → Int) (junk : Nat → Fl rnd)
    (hM : ∀ b < n, ∀ i < H.m, ∀ j < W.m, ∀ e < d,
      conv2 H W c (fun p q k => |X b p q k|) (fun r s k e => |Y r s k e|) i j e ≤ M)
    {z : List (Fl rnd)} (hz : z.length = [n, H.m, W.m, d].prod) :
    Kernels.convNhwc (convTrait H W) junkI junk [n, H.m, W.m, d] (tab [n, H.n, W.n, c] (fn4 fun b p q k => flInt (X b p q k)))
        (tab [H.k, W.k, c, d] (fn4 fun r s k e => flInt (Y r s k e))) z =
      .ok (tab [n, H.m, W.m, d] (fn4 fun b i j e => flInt (conv2 H W c (X b) Y i j e))).data := by
  rw [C91_conv_order hH hW hsz _ _ junkI junk hz]
  refine congrArg (fun t => Outcome.ok (Tensor.data t)) (tab_congr fun idx hv => ?_)
  match idx, hv with
  | [b, i, j, e], hv =>
    exact conv_exact h (X b) Y (s := 0) le_rfl (by simpa using hM b hv.1 i hv.2.1 j hv.2.2.1 e hv.2.2.2.1)

/-- C130: the same for `nchw` images. -/
theorem C130_conv_nchw (h : KeepsInts rnd M) {H W : Axis} (hH : AxisOK u32 H) (hW : AxisOK u32 W) {n c d : Nat}
    (X Y : Nat → Nat → Nat → Nat → ℤ) (junk : Nat → Fl rnd)
    (hM : ∀ b < n, ∀ i < H.m, ∀ j < W.m, ∀ e < d,
      conv2 H W c (fun p q k => |X b k p q|) (fun r s k e => |Y e k r s|) i j e ≤ M)
    {z : List (Fl rnd)} (hz : z.length = [n, d, H.m, W.m].prod) :
    Kernels.convNchw (convTrait H W) junk [n, d, H.m, W.m] (tab [n, c, H.n, W.n] (fn4 fun b k p q => flInt (X b k p q)))
        (tab [d, c, H.k, W.k] (fn4 fun e k r s => flInt (Y e k r s))) z =
      .ok (tab [n, d, H.m, W.m] (fn4 fun b e i j =>
        flInt (conv2 H W c (fun p q k => X b k p q) (fun r s k e => Y e k r s) i j e))).data := by
  rw [C91_conv_order_nchw hH hW _ _ junk hz]
  refine congrArg (fun t => Outcome.ok (Tensor.data t)) (tab_congr fun idx hv => ?_)
  match idx, hv with
  | [b, e, i, j], hv =>
    exact conv_exact_nchw h (fun p q k => X b k p q) (fun r s k e => Y e k r s) (s := 0) le_rfl
      (by simpa using hM b hv.1 i hv.2.2.1 j hv.2.2.2.1 e hv.2.1)

/-! ### Networks -/

/-- On tensors of shape `ds` with integer elements `X` that satisfy `Ok`, the layer `f` computes exactly the integers `G X`. -/
def ExactOn (f : LayerFn (Fl rnd)) (ds es : List Nat) (G : (List Nat → ℤ) → List Nat → ℤ)
    (Ok : (List Nat → ℤ) → Prop) : Prop :=
  ∀ X, Ok X → Gives f (tab ds fun i => flInt (X i)) (tab es fun i => flInt (G X i))

/-- C130: layers in a row. -/
theorem C130_compose {f g : LayerFn (Fl rnd)} {ds es fs : List Nat} {G G' : (List Nat → ℤ) → List Nat → ℤ}
    {Ok Ok' : (List Nat → ℤ) → Prop} (hf : ExactOn f ds es G Ok) (hg : ExactOn g es fs G' Ok') :
    ExactOn (composed f g) ds fs (fun X => G' (G X)) fun X => Ok X ∧ Ok' (G X) := fun X h => (hf X h.1).comp (hg _ h.2)

/-- The activation `f` of floating point numbers acts on integers as `g`. -/
def OnInts (f : Fl rnd → Fl rnd) (g : ℤ → ℤ) : Prop := ∀ z, f (flInt z) = flInt (g z)

theorem id_onInts : OnInts (id : Fl rnd → Fl rnd) id := fun _ => rfl

theorem flInt_lt (a b : ℤ) : (flInt a : Fl rnd) < flInt b ↔ a < b := by
  show (a : ℝ) < (b : ℝ) ↔ a < b
  exact Int.cast_lt

theorem flInt_mono : Monotone (flInt : ℤ → Fl rnd) := fun a b h => by
  show (a : ℝ) ≤ (b : ℝ)
  exact_mod_cast h

theorem flInt_zero : (flInt 0 : Fl rnd) = 0 := by show ((0 : ℤ) : ℝ) = 0; simp

theorem relu_onInts : OnInts (fun a : Fl rnd => if 0 < a then a else 0) (max 0) := fun z => by
  show (if 0 < (flInt z : Fl rnd) then flInt z else 0) = flInt (max 0 z)
  have e : 0 < (flInt z : Fl rnd) ↔ 0 < z := by rw [← flInt_zero, flInt_lt]
  by_cases h : 0 < z
  · rw [if_pos (e.2 h), max_eq_right h.le]
  · rw [if_neg (fun c => h (e.1 c)), max_eq_left (not_lt.1 h), flInt_zero]

/-- C130: a dense layer. -/
theorem C130_dense (h : KeepsInts rnd M) (junkW junkY junkB : Nat → Fl rnd) {act : Act (Fl rnd)} {f : Fl rnd → Fl rnd}
    {g : ℤ → ℤ} (hact : ActsAs act f) (hf : OnInts f g) {m k : Nat} (hk : k < 2 ^ 32) (W : Nat → Nat → ℤ) (B : Nat → ℤ)
    {wInit bInit : Init (Fl rnd)}
    (hw : wInit [m, k] (fresh junkW [m, k].prod) = .ok (tab [m, k] (fn2 fun l j => flInt (W l j))).data)
    (hb : bInit [k] (fresh junkB [k].prod) = .ok (tab [k] (fn1 fun j => flInt (B j))).data) (n : Nat) :
    ExactOn (fun x => Layers.dense junkW junkY junkB act k x wInit bInit) [n, m] [n, k]
      (fun X => fn2 fun i j => g (∑ l ∈ range m, X [i, l] * W l j + B j))
      fun X => ∀ i < n, ∀ j < k, ∑ l ∈ range m, |X [i, l]| * |W l j| + |B j| ≤ M := fun X hX => by
  have eA : tab [n, m] (fun i => (flInt (X i) : Fl rnd)) = tab [n, m] (fn2 fun i l => flInt (X [i, l])) :=
    tab_congr fun idx hv => by
      match idx, hv with
      | [i, l], _ => rfl
  rw [eA]
  refine Gives.of (C77_dense junkW junkY junkB hact hk _ _ _ hw hb) rfl (tab_congr fun idx hv => ?_)
  match idx, hv with
  | [i, j], hv =>
    simp only [fn2_apply]
    rw [affine_exact h (hX i hv.1 j hv.2.1), hf]

/-- C130: a convolution layer, `nhwc`. -/
theorem C130_conv_layer_nhwc (h : KeepsInts rnd M) (junkW junkY junkB : Nat → Fl rnd) (junkI : Nat → Int)
    (junk : Nat → Fl rnd) {act : Act (Fl rnd)} {f : Fl rnd → Fl rnd} {g : ℤ → ℤ} (hact : ActsAs act f) (hf : OnInts f g)
    {H W : Axis} (hH : AxisOK u32 H) (hW : AxisOK u32 W) {t : ConvLayer} (ht : HasAxes t H W) {c : Nat}
    (hsz : [H.n, W.n, c].prod ≤ 2 ^ 31) (Y : Nat → Nat → Nat → Nat → ℤ) (B : Nat → ℤ) {wInit bInit : Init (Fl rnd)}
    (hw : wInit [H.k, W.k, c, t.filters] (fresh junkW [H.k, W.k, c, t.filters].prod) =
      .ok (tab [H.k, W.k, c, t.filters] (fn4 fun r s k e => flInt (Y r s k e))).data)
    (hb : bInit [t.filters] (fresh junkB [t.filters].prod) = .ok (tab [t.filters] (fn1 fun e => flInt (B e))).data) (n : Nat) :
    ExactOn (fun x => Layers.conv .nhwc .rscd junkW junkY junkB junkI junk act t x wInit bInit)
      [n, H.n, W.n, c] [n, H.m, W.m, t.filters]
      (fun X => fn4 fun b i j e => g (conv2 H W c (fun p q k => X [b, p, q, k]) Y i j e + B e))
      fun X => ∀ b < n, ∀ i < H.m, ∀ j < W.m, ∀ e < t.filters,
        conv2 H W c (fun p q k => |X [b, p, q, k]|) (fun r s k e => |Y r s k e|) i j e + |B e| ≤ M := fun X hX => by
  have eA : tab [n, H.n, W.n, c] (fun i => (flInt (X i) : Fl rnd)) =
      tab [n, H.n, W.n, c] (fn4 fun b i j k => flInt (X [b, i, j, k])) := tab_congr fun idx hv => by
    match idx, hv with
    | [b, i, j, k], _ => rfl
  rw [eA]
  refine Gives.of (conv_layer_nhwc junkW junkY junkB junkI junk hact hH hW ht _ _ _ _
    (fun z hz => C91_conv_order hH hW hsz _ _ junkI junk hz) hw hb) rfl (tab_congr fun idx hv => ?_)
  match idx, hv with
  | [b, i, j, e], hv =>
    have hM := hX b hv.1 i hv.2.1 j hv.2.2.1 e hv.2.2.2.1
    have e1 := conv_exact h (fun p q k => X [b, p, q, k]) Y (abs_nonneg _) hM
    simp only [fn4_apply]
    rw [e1, ← hf, (flInt_respects h).add]
    refine (abs_add_le _ _).trans (le_trans (add_le_add_left ?_ _) hM)
    unfold conv2
    refine (Finset.abs_sum_le_sum_abs _ _).trans (Finset.sum_le_sum fun u _ => (Finset.abs_sum_le_sum_abs _ _).trans
      (Finset.sum_le_sum fun v _ => (Finset.abs_sum_le_sum_abs _ _).trans (Finset.sum_le_sum fun k _ => ?_)))
    rw [abs_mul, window_absInt]

/-- C130: a convolution layer, `nchw`. -/
theorem C130_conv_layer_nchw (h : KeepsInts rnd M) (junkW junkY junkB : Nat → Fl rnd) (junkI : Nat → Int)
    (junk : Nat → Fl rnd) {act : Act (Fl rnd)} {f : Fl rnd → Fl rnd} {g : ℤ → ℤ} (hact : ActsAs act f) (hf : OnInts f g)
    {H W : Axis} (hH : AxisOK u32 H) (hW : AxisOK u32 W) {t : ConvLayer} (ht : HasAxes t H W) {c : Nat}
    (Y : Nat → Nat → Nat → Nat → ℤ) (B : Nat → ℤ) {wInit bInit : Init (Fl rnd)}
    (hw : wInit [t.filters, c, H.k, W.k] (fresh junkW [t.filters, c, H.k, W.k].prod) =
      .ok (tab [t.filters, c, H.k, W.k] (fn4 fun e k r s => flInt (Y e k r s))).data)
    (hb : bInit [t.filters] (fresh junkB [t.filters].prod) = .ok (tab [t.filters] (fn1 fun e => flInt (B e))).data) (n : Nat) :
    ExactOn (fun x => Layers.conv .nchw .dcrs junkW junkY junkB junkI junk act t x wInit bInit)
      [n, c, H.n, W.n] [n, t.filters, H.m, W.m]
      (fun X => fn4 fun b e i j => g (conv2 H W c (fun p q k => X [b, k, p, q]) (fun r s k e => Y e k r s) i j e + B e))
      fun X => ∀ b < n, ∀ i < H.m, ∀ j < W.m, ∀ e < t.filters,
        conv2 H W c (fun p q k => |X [b, k, p, q]|) (fun r s k e => |Y e k r s|) i j e + |B e| ≤ M := fun X hX => by
  have eA : tab [n, c, H.n, W.n] (fun i => (flInt (X i) : Fl rnd)) =
      tab [n, c, H.n, W.n] (fn4 fun b k i j => flInt (X [b, k, i, j])) := tab_congr fun idx hv => by
    match idx, hv with
    | [b, k, i, j], _ => rfl
  rw [eA]
  refine Gives.of (conv_layer_nchw junkW junkY junkB junkI junk hact hH hW ht _ _ _ _
    (fun z hz => C91_conv_order_nchw hH hW _ _ junk hz) hw hb) rfl (tab_congr fun idx hv => ?_)
  match idx, hv with
  | [b, e, i, j], hv =>
    have hM := hX b hv.1 i hv.2.2.1 j hv.2.2.2.1 e hv.2.1
    have e1 := conv_exact_nchw h (fun p q k => X [b, k, p, q]) (fun r s k e => Y e k r s) (abs_nonneg _) hM
    simp only [fn4_apply]
    rw [e1, ← hf, (flInt_respects h).add]
    refine (abs_add_le _ _).trans (le_trans (add_le_add_left ?_ _) hM)
    unfold conv2
    refine (Finset.abs_sum_le_sum_abs _ _).trans (Finset.sum_le_sum fun u _ => (Finset.abs_sum_le_sum_abs _ _).trans
      (Finset.sum_le_sum fun v _ => (Finset.abs_sum_le_sum_abs _ _).trans (Finset.sum_le_sum fun k _ => ?_)))
    rw [abs_mul, window_absInt]

theorem pixels_fold {lowest : ℤ} (H W : Axis) (X : Nat → Nat → ℤ) (i j : Nat) :
    (pixels H W X i j).foldl (fun v x => if x > v then x else v) lowest =
      (win H W i j).fold max lowest fun p => X p.1 p.2 := by
  obtain ⟨h1, h2, h3⟩ := fold_max (pixels H W X i j) lowest
  have hw : ∀ a b, Under H W i j a b → (a, b) ∈ win H W i j := fun a b hu => by
    simp only [win, mem_filter, mem_product, mem_range]
    exact ⟨Under_lt hu, hu⟩
  apply le_antisymm
  · refine le_fold_max _ |>.2 ?_
    rcases h3 with h3 | h3
    · exact Or.inl (le_of_eq h3)
    · obtain ⟨a, b, hu, e⟩ := mem_pixels.1 h3
      exact Or.inr ⟨(a, b), hw a b hu, le_of_eq e⟩
  · refine fold_max_le _ |>.2 ⟨h1, fun p hp => ?_⟩
    exact h2 _ (mem_pixels.2 ⟨p.1, p.2, (mem_filter.1 hp).2, rfl⟩)

/-- C130: a max pooling layer, `nhwc`, without padding; the lowest number of the type is an integer. -/
theorem C130_max_pool_nhwc (junk : Nat → Fl rnd) (lowest : ℤ) {H W : Axis} (hH : AxisOK u32 H) (hW : AxisOK u32 W)
    {t : PoolLayer} (ht : PoolHasAxes t H W) (lH : H.l = 0) (lW : W.l = 0) (n c : Nat) :
    ExactOn (Layers.pool .nhwc junk (Acc.max (flInt lowest : Fl rnd)) t) [n, H.n, W.n, c] [n, H.m, W.m, c]
      (fun X => fn4 fun b i j k => (win H W i j).fold max lowest fun p => X [b, p.1, p.2, k]) fun _ => True := fun X _ => by
  have eA : tab [n, H.n, W.n, c] (fun i => (flInt (X i) : Fl rnd)) =
      tab [n, H.n, W.n, c] (fn4 fun b i j k => flInt (X [b, i, j, k])) := tab_congr fun idx hv => by
    match idx, hv with
    | [b, i, j, k], _ => rfl
  rw [eA]
  refine Gives.of (poolLayer_gen junk (Acc.max (flInt lowest)) hH hW ht (fun b i j k => flInt (X [b, i, j, k])) _
    (fun b _ i _ j _ k _ => by rw [shifted_self lH, shifted_self lW]; exact max_run _ _)).1 rfl (tab_congr fun idx hv => ?_)
  match idx, hv with
  | [b, i, j, k], hv =>
    simp only [fn4_apply]
    rw [pixels_map H W (fun a a' => X [b, a, a', k]) flInt, ← fold_max_mono flInt_mono, pixels_fold]

/-- C130: a max pooling layer, `nchw`. -/
theorem C130_max_pool_nchw (junk : Nat → Fl rnd) (lowest : ℤ) {H W : Axis} (hH : AxisOK u32 H) (hW : AxisOK u32 W)
    {t : PoolLayer} (ht : PoolHasAxes t H W) (lH : H.l = 0) (lW : W.l = 0) (n c : Nat) :
    ExactOn (Layers.pool .nchw junk (Acc.max (flInt lowest : Fl rnd)) t) [n, c, H.n, W.n] [n, c, H.m, W.m]
      (fun X => fn4 fun b k i j => (win H W i j).fold max lowest fun p => X [b, k, p.1, p.2]) fun _ => True := fun X _ => by
  have eA : tab [n, c, H.n, W.n] (fun i => (flInt (X i) : Fl rnd)) =
      tab [n, c, H.n, W.n] (fn4 fun b k i j => flInt (X [b, k, i, j])) := tab_congr fun idx hv => by
    match idx, hv with
    | [b, k, i, j], _ => rfl
  rw [eA]
  refine Gives.of (poolLayer_gen junk (Acc.max (flInt lowest)) hH hW ht (fun b i j k => flInt (X [b, k, i, j])) _
    (fun b _ i _ j _ k _ => by rw [shifted_self lH, shifted_self lW]; exact max_run _ _)).2 rfl (tab_congr fun idx hv => ?_)
  match idx, hv with
  | [b, k, i, j], hv =>
    simp only [fn4_apply]
    rw [pixels_map H W (fun a a' => X [b, k, a, a']) flInt, ← fold_max_mono flInt_mono, pixels_fold]

/-- Chopping to 24 bits keeps the integers up to `2^24`. -/
theorem chop24_ints : KeepsInts chop24 (2 ^ 24) := by
  intro z hz
  by_cases h0 : z = 0
  · subst h0; simp [chop24]
  have hx' : (0 : ℝ) < |(z : ℝ)| := abs_pos.2 (by exact_mod_cast h0)
  have hle : |(z : ℝ)| ≤ 2 ^ 24 := by exact_mod_cast hz
  have hlog : Int.log 2 |(z : ℝ)| ≤ 24 := by
    have := Int.log_mono_right (b := 2) hx' hle
    have e : Int.log 2 ((2 : ℝ) ^ 24) = 24 := by
      have := Int.log_zpow (R := ℝ) (b := 2) (by norm_num) 24
      exact_mod_cast this
    rwa [e] at this
  unfold chop24
  rcases lt_or_eq_of_le hlog with h1 | h1
  · obtain ⟨d, hd⟩ : ∃ d : Nat, Int.log 2 |(z : ℝ)| - 23 = -(d : ℤ) := ⟨(23 - Int.log 2 |(z : ℝ)|).toNat, by omega⟩
    rw [hd, zpow_neg, zpow_natCast, div_inv_eq_mul]
    have e : (z : ℝ) * 2 ^ d = ((z * 2 ^ d : ℤ) : ℝ) := by push_cast; rfl
    rw [e, Int.floor_intCast, ← e, mul_assoc, mul_inv_cancel₀ (by positivity), mul_one]
  · have h2 : (2 : ℝ) ^ 24 ≤ |(z : ℝ)| := by
      have := Int.zpow_log_le_self (b := 2) (by norm_num) hx'
      rw [h1] at this
      exact_mod_cast this
    have h3 : |z| = 2 ^ 24 := le_antisymm hz (by exact_mod_cast h2)
    rw [h1]
    have h4 : (2 : ℝ) ^ (24 - 23 : ℤ) = 2 := by norm_num
    rw [h4]
    rcases abs_eq (by norm_num : (0 : ℤ) ≤ 2 ^ 24) |>.1 h3 with rfl | rfl
    · have e : (((2 ^ 24 : ℤ) : ℝ) / 2) = ((2 ^ 23 : ℤ) : ℝ) := by norm_num
      rw [e, Int.floor_intCast]; norm_num
    · have e : (((-2 ^ 24 : ℤ) : ℝ) / 2) = ((-2 ^ 23 : ℤ) : ℝ) := by norm_num
      rw [e, Int.floor_intCast]; norm_num

/-- Non-vacuity of C130: a perceptron with four inputs, three hidden units, all weights between -10 and 10, on images of bytes,
computed with 24 bits: exact. -/
example (W1 W2 : Nat → Nat → ℤ) (B1 B2 : Nat → ℤ) (junk : Nat → Fl chop24) (n : Nat) (h1 : ∀ l j, |W1 l j| ≤ 10)
    (h2 : ∀ l j, |W2 l j| ≤ 10) (hb1 : ∀ j, |B1 j| ≤ 10) (hb2 : ∀ j, |B2 j| ≤ 10) (X : List Nat → ℤ)
    (hX : ∀ i l, |X [i, l]| ≤ 255) :
    Gives (composed
        (fun x => Layers.dense junk junk junk Layers.reluAct 3 x (fun _ _ => .ok (tab [4, 3] (fn2 fun l j => flInt (W1 l j))).data)
          (fun _ _ => .ok (tab [3] (fn1 fun j => flInt (B1 j))).data))
        (fun x => Layers.dense junk junk junk Layers.noopAct 2 x (fun _ _ => .ok (tab [3, 2] (fn2 fun l j => flInt (W2 l j))).data)
          (fun _ _ => .ok (tab [2] (fn1 fun j => flInt (B2 j))).data)))
      (tab [n, 4] fun i => flInt (X i)) (tab [n, 2] fun i => flInt (fn2 (fun i j =>
        ∑ l ∈ range 3, max 0 (∑ l' ∈ range 4, X [i, l'] * W1 l' l + B1 l) * W2 l j + B2 j) i)) := by
  have key := C130_compose (C130_dense chop24_ints junk junk junk relu_acts relu_onInts (m := 4) (k := 3) (by decide) W1 B1
      (wInit := fun _ _ => .ok (tab [4, 3] (fn2 fun l j => flInt (W1 l j))).data)
      (bInit := fun _ _ => .ok (tab [3] (fn1 fun j => flInt (B1 j))).data) rfl rfl n)
    (C130_dense chop24_ints junk junk junk noop_acts id_onInts (m := 3) (k := 2) (by decide) W2 B2
      (wInit := fun _ _ => .ok (tab [3, 2] (fn2 fun l j => flInt (W2 l j))).data)
      (bInit := fun _ _ => .ok (tab [2] (fn1 fun j => flInt (B2 j))).data) rfl rfl n)
  have m1 : ∀ i j, ∑ l ∈ range 4, |X [i, l]| * |W1 l j| ≤ 10200 := fun i j => by
    refine (Finset.sum_le_card_nsmul (range 4) _ (255 * 10) fun l _ =>
      mul_le_mul (hX i l) (h1 l j) (abs_nonneg _) (by norm_num)).trans ?_
    norm_num
  have m2 : ∀ i l, |max 0 (∑ l' ∈ range 4, X [i, l'] * W1 l' l + B1 l)| ≤ 10210 := fun i l => by
    have a1 : |∑ l' ∈ range 4, X [i, l'] * W1 l' l + B1 l| ≤ 10210 := by
      refine (abs_add_le _ _).trans ?_
      have := (Finset.abs_sum_le_sum_abs (fun l' => X [i, l'] * W1 l' l) (range 4)).trans
        ((le_of_eq (Finset.sum_congr rfl fun l' _ => abs_mul _ _)).trans (m1 i l))
      have := hb1 l
      omega
    rw [abs_of_nonneg (le_max_left _ _)]
    exact max_le (by norm_num) ((le_abs_self _).trans a1)
  refine key X ⟨fun i _ j _ => ?_, fun i _ j _ => ?_⟩
  · have := m1 i j
    have := hb1 j
    norm_num
    omega
  · have a2 : ∑ l ∈ range 3, |max 0 (∑ l' ∈ range 4, X [i, l'] * W1 l' l + B1 l)| * |W2 l j| ≤ 306300 := by
      refine (Finset.sum_le_card_nsmul (range 3) _ (10210 * 10) fun l _ =>
        mul_le_mul (m2 i l) (h2 l j) (abs_nonneg _) (by norm_num)).trans ?_
      norm_num
    have := hb2 j
    show _ + _ ≤ (2 : ℤ) ^ 24
    norm_num
    exact (add_le_add a2 this).trans (by norm_num)

end float

/-! ## Unsigned integers -/

section unsigned
variable {w : Nat}

theorem ofNat_respects : Respects (BitVec.ofNat w) fun _ => True where
  zero := rfl
  add a b _ := BitVec.ofNat_add a b
  mul a b _ := BitVec.ofNat_mul a b

theorem dot_unsigned (n : Nat) (a b : Nat → BitVec w) :
    (seqSum n fun k => a k * b k) = BitVec.ofNat w (∑ k ∈ range n, (a k).toNat * (b k).toNat) := by
  rw [← seqSum_eq_sum, dot_hom ofNat_respects ⟨fun _ _ => trivial, fun _ _ => trivial⟩]
  simp only [BitVec.ofNat_toNat, BitVec.setWidth_eq]

/-- C131: the product of two matrices of unsigned integers of `w` bits is the product of the numbers modulo `2^w`. -/
theorem C131_mm {m l n : Nat} (A B : Nat → Nat → BitVec w) {c : List (BitVec w)} (hc : c.length = m * n) :
    ∃ C : Nat → Nat → BitVec w, Plain.mm (tab [m, l] (fn2 A)) (tab [l, n] (fn2 B)) [m, n] c = .ok (tab [m, n] (fn2 C)).data ∧
      ∀ i j, (C i j).toNat = (∑ k ∈ range l, (A i k).toNat * (B k j).toNat) % 2 ^ w :=
  ⟨_, Plain.mm_run _ _ hc, fun i j => by
    have := congrArg BitVec.toNat (dot_unsigned l (fun k => A i k) fun k => B k j)
    rwa [BitVec.toNat_ofNat] at this⟩

/-- C131 with the second factor transposed. -/
theorem C131_mmt {m l n : Nat} (A B : Nat → Nat → BitVec w) {c : List (BitVec w)} (hc : c.length = m * n) :
    ∃ C : Nat → Nat → BitVec w, Plain.mmt (tab [m, l] (fn2 A)) (tab [n, l] (fn2 B)) [m, n] c = .ok (tab [m, n] (fn2 C)).data ∧
      ∀ i j, (C i j).toNat = (∑ k ∈ range l, (A i k).toNat * (B j k).toNat) % 2 ^ w :=
  ⟨_, Plain.mmt_run _ _ hc, fun i j => by
    have := congrArg BitVec.toNat (dot_unsigned l (fun k => A i k) fun k => B j k)
    rwa [BitVec.toNat_ofNat] at this⟩

/-- C131 with the first factor transposed. -/
theorem C131_mtm {m l n : Nat} (A B : Nat → Nat → BitVec w) {c : List (BitVec w)} (hc : c.length = m * n) :
    ∃ C : Nat → Nat → BitVec w, Plain.mtm (tab [l, m] (fn2 A)) (tab [l, n] (fn2 B)) [m, n] c = .ok (tab [m, n] (fn2 C)).data ∧
      ∀ i j, (C i j).toNat = (∑ k ∈ range l, (A k i).toNat * (B k j).toNat) % 2 ^ w :=
  ⟨_, Plain.mtm_run _ _ hc, fun i j => by
    have := congrArg BitVec.toNat (dot_unsigned l (fun k => A k i) fun k => B k j)
    rwa [BitVec.toNat_ofNat] at this⟩

/-- C131: convolution in `nhwc` of unsigned integers is the convolution of the numbers modulo `2^w`. -/
theorem C131_conv_nhwc {H W : Axis} (hH : AxisOK u32 H) (hW : AxisOK u32 W) {n c d : Nat}
    (hsz : [H.n, W.n, c].prod ≤ 2 ^ 31) (X Y : Nat → Nat → Nat → Nat → BitVec w) (junkI : Nat → Int) (junk : Nat → BitVec w)
    {z : List (BitVec w)} (hz : z.length = [n, H.m, W.m, d].prod) :
    ∃ Z : Nat → Nat → Nat → Nat → BitVec w,
      Kernels.convNhwc (convTrait H W) junkI junk [n, H.m, W.m, d] (tab [n, H.n, W.n, c] (fn4 X))
          (tab [H.k, W.k, c, d] (fn4 Y)) z = .ok (tab [n, H.m, W.m, d] (fn4 Z)).data ∧
      ∀ b i j e, (Z b i j e).toNat =
        conv2 H W c (fun p q k => (X b p q k).toNat) (fun r s k e => (Y r s k e).toNat) i j e % 2 ^ w := by
  refine ⟨_, C91_conv_order hH hW hsz X Y junkI junk hz, fun b i j e => ?_⟩
  have := congrArg BitVec.toNat (dot_unsigned (H.k * (W.k * c))
    (fun p => window H W (fun a a' => X b a a' (p % (W.k * c) % c)) i j (p / (W.k * c)) (p % (W.k * c) / c))
    (fun p => Y (p / (W.k * c)) (p % (W.k * c) / c) (p % (W.k * c) % c) e))
  rw [BitVec.toNat_ofNat] at this
  refine this.trans ?_
  rw [← conv2_flat]
  simp only [window_hom (f := BitVec.toNat) (R := BitVec w) BitVec.toNat_zero]

/-- C131: the same for `nchw` images. -/
theorem C131_conv_nchw {H W : Axis} (hH : AxisOK u32 H) (hW : AxisOK u32 W) {n c d : Nat}
    (X Y : Nat → Nat → Nat → Nat → BitVec w) (junk : Nat → BitVec w)
    {z : List (BitVec w)} (hz : z.length = [n, d, H.m, W.m].prod) :
    ∃ Z : Nat → Nat → Nat → Nat → BitVec w,
      Kernels.convNchw (convTrait H W) junk [n, d, H.m, W.m] (tab [n, c, H.n, W.n] (fn4 X))
          (tab [d, c, H.k, W.k] (fn4 Y)) z = .ok (tab [n, d, H.m, W.m] (fn4 Z)).data ∧
      ∀ b e i j, (Z b e i j).toNat =
        conv2 H W c (fun p q k => (X b k p q).toNat) (fun r s k e => (Y e k r s).toNat) i j e % 2 ^ w := by
  refine ⟨_, C91_conv_order_nchw hH hW X Y junk hz, fun b e i j => ?_⟩
  have := congrArg BitVec.toNat (dot_unsigned (c * (H.k * W.k))
    (fun p => Y e (p / (H.k * W.k)) (p % (H.k * W.k) / W.k) (p % (H.k * W.k) % W.k))
    (fun p => window H W (X b (p / (H.k * W.k))) i j (p % (H.k * W.k) / W.k) (p % (H.k * W.k) % W.k)))
  rw [BitVec.toNat_ofNat] at this
  refine this.trans ?_
  rw [← conv2_flat_nchw]
  simp only [window_hom (f := BitVec.toNat) (R := BitVec w) BitVec.toNat_zero, Nat.mul_comm]

/-- C131: a dense layer without activation. -/
theorem C131_dense (junkW junkY junkB : Nat → BitVec w) {n m k : Nat} (hk : k < 2 ^ 32) (X W : Nat → Nat → BitVec w)
    (B : Nat → BitVec w) {wInit bInit : Init (BitVec w)}
    (hw : wInit [m, k] (fresh junkW [m, k].prod) = .ok (tab [m, k] (fn2 W)).data)
    (hb : bInit [k] (fresh junkB [k].prod) = .ok (tab [k] (fn1 B)).data) :
    ∃ Z : Nat → Nat → BitVec w,
      Gives (fun x => Layers.dense junkW junkY junkB noopAct k x wInit bInit) (tab [n, m] (fn2 X)) (tab [n, k] (fn2 Z)) ∧
      ∀ i j, (Z i j).toNat = (∑ l ∈ range m, (X i l).toNat * (W l j).toNat + (B j).toNat) % 2 ^ w := by
  refine ⟨_, Gives.of (C77_dense junkW junkY junkB noop_acts hk X W B hw hb) rfl rfl, fun i j => ?_⟩
  have := congrArg BitVec.toNat (dot_unsigned m (fun l => X i l) fun l => W l j)
  rw [BitVec.toNat_ofNat] at this
  rw [id, BitVec.toNat_add, this, Nat.mod_add_mod]

/-- C131: the sums of the rows and of the columns. -/
theorem C131_sums {m n : Nat} (X : Nat → Nat → BitVec w) {y z : List (BitVec w)} (hy : y.length = m) (hz : z.length = n) :
    ∃ R C : Nat → BitVec w, Kernels.innerContraction (tab [m, n] (fn2 X)) y = .ok ((List.range m).map R) ∧
      Kernels.outerContraction (tab [m, n] (fn2 X)) z = .ok ((List.range n).map C) ∧
      (∀ i, (R i).toNat = (∑ j ∈ range n, (X i j).toNat) % 2 ^ w) ∧
      ∀ j, (C j).toNat = (∑ i ∈ range m, (X i j).toNat) % 2 ^ w := by
  have key : ∀ n (t : Nat → BitVec w), (seqSum n t).toNat = (∑ k ∈ range n, (t k).toNat) % 2 ^ w := by
    intro n t
    have := sum_hom (ofNat_respects (w := w)) (n := n) (t := fun k => (t k).toNat) ⟨fun _ _ => trivial, fun _ _ => trivial⟩
    simp only [BitVec.ofNat_toNat, BitVec.setWidth_eq] at this
    have h2 := congrArg BitVec.toNat this
    rw [BitVec.toNat_ofNat, seqSum_eq_sum] at h2
    exact h2.symm
  obtain ⟨e1, e2⟩ := C113_contractions X hy hz
  refine ⟨_, _, e1, e2, fun i => ?_, fun j => ?_⟩
  · rw [seqSum_eq_foldl]; exact key _ _
  · rw [seqSum_eq_foldl]; exact key _ _

/-- Non-vacuity of C131: bytes that wrap, 200 * 2 + 100 * 1 = 500 = 244 modulo 256, and the padded geometry of the other
examples. -/
example : Plain.mm (tab [1, 2] (fn2 fun _ k => if k = 0 then 200#8 else 100#8))
      (tab [2, 1] (fn2 fun k _ => if k = 0 then 2#8 else 1#8)) [1, 1] [7#8] = .ok [244#8] ∧
    AxisOK u32 exH ∧ AxisOK u32 exW :=
  ⟨by decide +kernel, exH_ok, exW_ok⟩

end unsigned

/-! ## Concrete cases

Rounding towards zero to 24 bits, which keeps the integers up to `2 ^ 24`. -/

example := C130_sums chop24_ints (m := 2) (n := 3) (fun i j => 1000 * i - j) (by decide) (by decide)
  (y := [⟨0⟩, ⟨0⟩]) (z := [⟨0⟩, ⟨0⟩, ⟨0⟩]) rfl rfl
example := C130_mm chop24_ints (m := 2) (l := 3) (n := 2) (fun i k => 1000 * i - k) (fun k j => k - 5 * j) (by decide)
  (c := List.replicate 4 ⟨0⟩) rfl
example := C130_mmt chop24_ints (m := 2) (l := 3) (n := 2) (fun i k => 1000 * i - k) (fun j k => k - 5 * j) (by decide)
  (c := List.replicate 4 ⟨0⟩) rfl
example := C130_mtm chop24_ints (m := 2) (l := 3) (n := 2) (fun k i => 1000 * i - k) (fun k j => k - 5 * j) (by decide)
  (c := List.replicate 4 ⟨0⟩) rfl
example := C130_conv_nhwc chop24_ints exH_ok exW_ok (n := 1) (c := 2) (d := 2) (by decide) (fun _ p q k => p - 7 * q + k)
  (fun r s k e => r + s - k * e) (fun _ => 9) (fun _ => ⟨9⟩) (by decide +kernel) (z := List.replicate 18 ⟨0⟩) rfl
example := C130_conv_nchw chop24_ints exH_ok exW_ok (n := 1) (c := 2) (d := 2) (fun _ k p q => p - 7 * q + k)
  (fun e k r s => r + s - k * e) (fun _ => ⟨9⟩) (by decide +kernel) (z := List.replicate 18 ⟨0⟩) rfl
example := C130_conv_layer_nhwc chop24_ints (fun _ => ⟨1⟩) (fun _ => ⟨2⟩) (fun _ => ⟨3⟩) (fun _ => 4) (fun _ => ⟨5⟩)
  relu_acts relu_onInts exL_ok exW_ok exLayer_axes (c := 3) (by decide) (fun r s k e => r - s + k * e) (fun e => 9 * e)
  (wInit := exInit (fn4 fun r s k e => flInt (r - s + k * e))) (bInit := exInit (fn1 fun e => flInt (9 * e))) rfl rfl 2
example := C130_conv_layer_nchw chop24_ints (fun _ => ⟨1⟩) (fun _ => ⟨2⟩) (fun _ => ⟨3⟩) (fun _ => 4) (fun _ => ⟨5⟩)
  relu_acts relu_onInts exL_ok exW_ok exLayer_axes (c := 3) (fun e k r s => r - s + k * e) (fun e => 9 * e)
  (wInit := exInit (fn4 fun e k r s => flInt (r - s + k * e))) (bInit := exInit (fn1 fun e => flInt (9 * e))) rfl rfl 2
example := C130_max_pool_nhwc (rnd := chop24) (fun _ => ⟨1⟩) (-128) exPoolH_ok exPoolW_ok exPool_axes rfl rfl 2 3
example := C130_max_pool_nchw (rnd := chop24) (fun _ => ⟨1⟩) (-128) exPoolH_ok exPoolW_ok exPool_axes rfl rfl 2 3
example := C131_mmt (w := 8) (m := 2) (l := 3) (n := 2) (fun i k => .ofNat 8 (100 * i + k)) (fun j k => .ofNat 8 (77 * j + k))
  (c := [0, 0, 0, 0]) rfl
example := C131_mtm (w := 8) (m := 2) (l := 3) (n := 2) (fun k i => .ofNat 8 (100 * i + k)) (fun k j => .ofNat 8 (77 * j + k))
  (c := [0, 0, 0, 0]) rfl
example := C131_conv_nhwc (w := 8) exH_ok exW_ok (n := 1) (c := 2) (d := 2) (by decide) (fun _ p q k => .ofNat 8 (90 * p + q + k))
  (fun r s k e => .ofNat 8 (r + s + 7 * k * e)) (fun _ => 9) (fun _ => 9) (z := List.replicate 18 0) rfl
example := C131_conv_nchw (w := 8) exH_ok exW_ok (n := 1) (c := 2) (d := 2) (fun _ k p q => .ofNat 8 (90 * p + q + k))
  (fun e k r s => .ofNat 8 (r + s + 7 * k * e)) (fun _ => 9) (z := List.replicate 18 0) rfl
example := C131_dense (w := 8) (fun _ => 1) (fun _ => 2) (fun _ => 3) (n := 2) (m := 3) (k := 2) (by decide)
  (fun i l => .ofNat 8 (100 * i + l)) (fun l j => .ofNat 8 (l + 7 * j)) (fun j => .ofNat 8 (200 + j))
  (wInit := exInit (fn2 fun l j => .ofNat 8 (l + 7 * j))) (bInit := exInit (fn1 fun j => .ofNat 8 (200 + j))) rfl rfl

end StdNN
