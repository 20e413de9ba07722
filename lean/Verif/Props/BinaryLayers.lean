import Verif.Props.Binary
import Verif.Props.Nan
/-!
# C136: networks in `float` and `double`

Networks of dense, convolution and pooling layers on the numbers of IEEE 754, with rounding, underflow and overflow: a
condition on the exact network under which every value is finite, and how far the results are from the exact ones.
-/
namespace StdNN
open IntTy Spec Outcome Layers Models Finset Spec.Format

variable {F : Format} {bz : EReal → Option EReal}

/-- `f` takes finite numbers to finite numbers, as the real function `g`, which does not increase distances. -/
def KeepsFin (F : Format) (bz : EReal → Option EReal) (f : Ieee (F.arith bz) → Ieee (F.arith bz)) (g : ℝ → ℝ) : Prop :=
  (∀ a, f (fin F bz a) = fin F bz (g a)) ∧ ∀ a b, |g a - g b| ≤ |a - b|

theorem id_keepsFin : KeepsFin F bz id id := ⟨fun _ => rfl, fun _ _ => le_rfl⟩

theorem fin_lt {a b : ℝ} : fin F bz a < fin F bz b ↔ a < b := Ieee.num_lt.trans EReal.coe_lt_coe_iff

theorem relu_keepsFin : KeepsFin F bz (fun a => if 0 < a then a else 0) (max 0) := by
  refine ⟨fun a => ?_, fun a b => ?_⟩
  · rw [← fin_zero (F := F) (bz := bz)]
    dsimp only
    by_cases h : 0 < a
    · rw [if_pos (fin_lt.2 h), max_eq_right h.le]
    · rw [if_neg (fun c => h (fin_lt.1 c)), max_eq_left (not_lt.1 h)]
  · have := abs_max_sub_max_le_max 0 a 0 b
    simpa using this

/-- If the values of the input tensor are finite and within `D` of `X`, and `Fits X D` holds, the layer `f` gives finite
values within `E X D` of `G X`. -/
def Precise (f : LayerFn (Ieee (F.arith bz))) (ds es : List Nat) (G : (List Nat → ℝ) → List Nat → ℝ)
    (E : (List Nat → ℝ) → (List Nat → ℝ) → List Nat → ℝ) (Fits : (List Nat → ℝ) → (List Nat → ℝ) → Prop) : Prop :=
  ∀ A X D : List Nat → ℝ, (∀ i, Valid ds i → |A i - X i| ≤ D i) → Fits X D →
    ∃ Y : List Nat → ℝ, Gives f (tab ds fun i => fin F bz (A i)) (tab es fun i => fin F bz (Y i)) ∧
      ∀ i, Valid es i → |Y i - G X i| ≤ E X D i

/-- C136: layers compose; the conditions are those of the layers at the exact intermediate results. -/
theorem C136_compose {f g : LayerFn (Ieee (F.arith bz))} {ds es fs : List Nat} {G G' : (List Nat → ℝ) → List Nat → ℝ}
    {E E' : (List Nat → ℝ) → (List Nat → ℝ) → List Nat → ℝ} {P P' : (List Nat → ℝ) → (List Nat → ℝ) → Prop}
    (hf : Precise f ds es G E P) (hg : Precise g es fs G' E' P') :
    Precise (composed f g) ds fs (fun X => G' (G X)) (fun X D => E' (G X) (E X D)) (fun X D => P X D ∧ P' (G X) (E X D)) := by
  intro A X D hA hP
  obtain ⟨Y, y1, y2⟩ := hf A X D hA hP.1
  obtain ⟨Z, z1, z2⟩ := hg Y _ _ y2 hP.2
  exact ⟨Z, y1.comp z1, z2⟩

/-- An affine form of inputs that are off. -/
theorem affine_fin (n : Nat) (a b a' D : Nat → ℝ) (c : ℝ) (hD : ∀ k < n, |a k - a' k| ≤ D k)
    (h : ∑ k ∈ range n, (|a' k| + D k) * |b k| + |c| +
      F.err (n + 2) (2 * n + 1) (∑ k ∈ range n, (|a' k| + D k) * |b k| + |c|) < F.limit) :
    ∃ v : ℝ, (seqSum n fun k => fin F bz (a k) * fin F bz (b k)) + fin F bz c = fin F bz v ∧
      |v - (∑ k ∈ range n, a' k * b k + c)| ≤
        F.err (n + 2) (2 * n + 1) (∑ k ∈ range n, (|a' k| + D k) * |b k| + |c|) + ∑ k ∈ range n, D k * |b k| := by
  have hS : ∑ k ∈ range n, |a k| * |b k| ≤ ∑ k ∈ range n, (|a' k| + D k) * |b k| := by
    refine sum_le_sum fun k hk => mul_le_mul_of_nonneg_right ?_ (abs_nonneg _)
    exact abs_le_of_err (hD k (mem_range.1 hk)) le_rfl
  have M0 : 0 ≤ ∑ k ∈ range n, |a k| * |b k| := sum_nonneg fun _ _ => mul_nonneg (abs_nonneg _) (abs_nonneg _)
  have c0 := abs_nonneg c
  have mono := F.err_mono (le_refl (n + 2)) (le_refl (2 * n + 1)) (add_nonneg M0 c0) (add_le_add hS (le_refl |c|))
  have mono2 := F.err_mono (show n + 1 ≤ n + 2 by omega) (show 2 * n ≤ 2 * n + 1 by omega) M0
    (show _ ≤ ∑ k ∈ range n, |a k| * |b k| + |c| by linarith)
  obtain ⟨v, e, hv⟩ := dot_err (bz := bz) n a b (by linarith)
  have hT : |∑ k ∈ range n, a k * b k| ≤ ∑ k ∈ range n, |a k| * |b k| := by
    refine (sum_abs_le n _).trans (le_of_eq ?_)
    exact sum_congr rfl fun k _ => abs_mul _ _
  obtain ⟨e2, h2⟩ := bias_err (bz := bz) hv hT (b := c) (by linarith)
  refine ⟨_, (congrArg (· + fin F bz c) e).trans e2, ?_⟩
  have hd : |(∑ k ∈ range n, a k * b k + c) - (∑ k ∈ range n, a' k * b k + c)| ≤ ∑ k ∈ range n, D k * |b k| := by
    rw [add_sub_add_right_eq_sub, ← sum_sub_distrib]
    refine (abs_sum_le_sum_abs _ _).trans (sum_le_sum fun k hk => ?_)
    rw [← sub_mul, abs_mul]
    exact mul_le_mul_of_nonneg_right (hD k (mem_range.1 hk)) (abs_nonneg _)
  refine (abs_sub_le _ (∑ k ∈ range n, a k * b k + c) _).trans (add_le_add (h2.trans mono) hd)

/-- C136: a dense layer. -/
theorem C136_dense (junkW junkY junkB : Nat → Ieee (F.arith bz)) {act : Act (Ieee (F.arith bz))}
    {f : Ieee (F.arith bz) → Ieee (F.arith bz)} {g : ℝ → ℝ} (hact : ActsAs act f) (hf : KeepsFin F bz f g) {m k : Nat}
    (hk : k < 2 ^ 32) (W : Nat → Nat → ℝ) (B : Nat → ℝ) {wInit bInit : Init (Ieee (F.arith bz))}
    (hw : wInit [m, k] (fresh junkW [m, k].prod) = .ok (tab [m, k] (fn2 fun l j => fin F bz (W l j))).data)
    (hb : bInit [k] (fresh junkB [k].prod) = .ok (tab [k] (fn1 fun j => fin F bz (B j))).data) (n : Nat) :
    Precise (fun x => Layers.dense junkW junkY junkB act k x wInit bInit) [n, m] [n, k]
      (fun X => fn2 fun i j => g (∑ l ∈ range m, X [i, l] * W l j + B j))
      (fun X D => fn2 fun i j => F.err (m + 2) (2 * m + 1) (∑ l ∈ range m, (|X [i, l]| + D [i, l]) * |W l j| + |B j|) +
        ∑ l ∈ range m, D [i, l] * |W l j|)
      (fun X D => ∀ i < n, ∀ j < k, ∑ l ∈ range m, (|X [i, l]| + D [i, l]) * |W l j| + |B j| +
        F.err (m + 2) (2 * m + 1) (∑ l ∈ range m, (|X [i, l]| + D [i, l]) * |W l j| + |B j|) < F.limit) := by
  intro A X D hA hfit
  have eA : (tab [n, m] fun i => fin F bz (A i)) = tab [n, m] (fn2 fun i l => fin F bz (A [i, l])) :=
    tab_congr fun idx hv => by
      match idx, hv with
      | [i, l], _ => rfl
  obtain ⟨Z, hZ⟩ := choose2 (m := n) (n := k) fun i hi j hj =>
    affine_fin (bz := bz) m (fun l => A [i, l]) (fun l => W l j) (fun l => X [i, l]) (fun l => D [i, l]) (B j)
      (fun l hl => hA _ ⟨hi, hl, trivial⟩) (hfit i hi j hj)
  refine ⟨fn2 fun i j => g (Z i j), ?_, fun idx hv => ?_⟩
  · rw [eA]
    refine Gives.of (C77_dense junkW junkY junkB hact hk _ _ _ hw hb) rfl (tab_congr fun idx hv => ?_)
    match idx, hv with
    | [i, j], hv => exact (congrArg f (hZ i hv.1 j hv.2.1).1).trans (hf.1 _)
  · match idx, hv with
    | [i, j], hv => exact (hf.2 _ _).trans (hZ i hv.1 j hv.2.1).2

theorem window_close' {H W : Axis} {A X D : Nat → Nat → ℝ} (h : ∀ a < H.n, ∀ a' < W.n, |A a a' - X a a'| ≤ D a a')
    (i j p q : Nat) : |window H W A i j p q - window H W X i j p q| ≤ window H W D i j p q :=
  window_close (rnd := id) (A := A) h i j p q

/-- C136: a convolution layer, `nhwc`. -/
theorem C136_conv_nhwc (junkW junkY junkB : Nat → Ieee (F.arith bz)) (junkI : Nat → Int)
    (junk : Nat → Ieee (F.arith bz)) {act : Act (Ieee (F.arith bz))} {f : Ieee (F.arith bz) → Ieee (F.arith bz)} {g : ℝ → ℝ}
    (hact : ActsAs act f) (hf : KeepsFin F bz f g)
    {H W : Axis} (hH : AxisOK u32 H) (hW : AxisOK u32 W) {t : ConvLayer} (ht : HasAxes t H W) {c : Nat}
    (hsz : [H.n, W.n, c].prod ≤ 2 ^ 31) (Y : Nat → Nat → Nat → Nat → ℝ) (B : Nat → ℝ) {wInit bInit : Init (Ieee (F.arith bz))}
    (hw : wInit [H.k, W.k, c, t.filters] (fresh junkW [H.k, W.k, c, t.filters].prod) =
      .ok (tab [H.k, W.k, c, t.filters] (fn4 fun r s k e => fin F bz (Y r s k e))).data)
    (hb : bInit [t.filters] (fresh junkB [t.filters].prod) = .ok (tab [t.filters] (fn1 fun e => fin F bz (B e))).data) (n : Nat) :
    Precise (fun x => Layers.conv .nhwc .rscd junkW junkY junkB junkI junk act t x wInit bInit)
      [n, H.n, W.n, c] [n, H.m, W.m, t.filters]
      (fun X => fn4 fun b i j e => g (conv2 H W c (fun p q k => X [b, p, q, k]) Y i j e + B e))
      (fun X D => fn4 fun b i j e => F.err (H.k * (W.k * c) + 2) (2 * (H.k * (W.k * c)) + 1)
          (conv2 H W c (fun p q k => |X [b, p, q, k]| + D [b, p, q, k]) (fun r s k e => |Y r s k e|) i j e + |B e|) +
        conv2 H W c (fun p q k => D [b, p, q, k]) (fun r s k e => |Y r s k e|) i j e)
      (fun X D => ∀ b < n, ∀ i < H.m, ∀ j < W.m, ∀ e < t.filters,
        conv2 H W c (fun p q k => |X [b, p, q, k]| + D [b, p, q, k]) (fun r s k e => |Y r s k e|) i j e + |B e| +
          F.err (H.k * (W.k * c) + 2) (2 * (H.k * (W.k * c)) + 1)
            (conv2 H W c (fun p q k => |X [b, p, q, k]| + D [b, p, q, k]) (fun r s k e => |Y r s k e|) i j e + |B e|) <
          F.limit) := by
  intro A X D hA hfit
  have eA : (tab [n, H.n, W.n, c] fun i => fin F bz (A i)) =
      tab [n, H.n, W.n, c] (fn4 fun b i j k => fin F bz (A [b, i, j, k])) := tab_congr fun idx hv => by
    match idx, hv with
    | [b, i, j, k], _ => rfl
  obtain ⟨Z, hZ⟩ := choose4 (n₁ := n) (n₂ := H.m) (n₃ := W.m) (n₄ := t.filters) fun b hb i hi j hj e he => by
    have hfit := hfit b hb i hi j hj e he
    rw [← conv2_flat] at hfit
    simp only [← window_plus, ← window_abs] at hfit
    exact affine_fin (bz := bz) (H.k * (W.k * c))
      (fun p => window H W (fun a a' => A [b, a, a', p % (W.k * c) % c]) i j (p / (W.k * c)) (p % (W.k * c) / c))
      (fun p => Y (p / (W.k * c)) (p % (W.k * c) / c) (p % (W.k * c) % c) e)
      (fun p => window H W (fun a a' => X [b, a, a', p % (W.k * c) % c]) i j (p / (W.k * c)) (p % (W.k * c) / c))
      (fun p => window H W (fun a a' => D [b, a, a', p % (W.k * c) % c]) i j (p / (W.k * c)) (p % (W.k * c) / c)) (B e)
      (fun p hp => window_close' (fun a ha a' ha' => hA [b, a, a', p % (W.k * c) % c] ⟨hb, ha, ha', Nat.mod_lt _ (by
        rcases Nat.eq_zero_or_pos c with rfl | hc
        · simp at hp
        · exact hc), trivial⟩) i j _ _) hfit
  refine ⟨fn4 fun b i j e => g (Z b i j e), ?_, fun idx hv => ?_⟩
  · rw [eA]
    refine Gives.of (conv_layer_nhwc junkW junkY junkB junkI junk hact hH hW ht _ _ _ _
      (fun z hz => C91_conv_order hH hW hsz _ _ junkI junk hz) hw hb) rfl (tab_congr fun idx hv => ?_)
    match idx, hv with
    | [b, i, j, e], hv =>
      have := (hZ b hv.1 i hv.2.1 j hv.2.2.1 e hv.2.2.2.1).1
      simp only [window_hom (f := fin F bz) fin_zero] at this
      exact (congrArg f this).trans (hf.1 _)
  · match idx, hv with
    | [b, i, j, e], hv =>
      have key := (hZ b hv.1 i hv.2.1 j hv.2.2.1 e hv.2.2.2.1).2
      simp only [window_abs, window_plus] at key
      rw [conv2_flat H W c (fun p q k => X [b, p, q, k]) Y i j e,
        conv2_flat H W c (fun p q k => D [b, p, q, k]) (fun r s k e => |Y r s k e|) i j e,
        conv2_flat H W c (fun p q k => |X [b, p, q, k]| + D [b, p, q, k]) (fun r s k e => |Y r s k e|) i j e] at key
      exact (hf.2 _ _).trans key

theorem Ieee.mul_comm' {A : Arith} (a b : Ieee A) : a * b = b * a := by
  cases a <;> cases b <;> try rfl
  show Ieee.mul _ _ = Ieee.mul _ _
  unfold Ieee.mul
  dsimp only
  rw [mul_comm]
  exact if_congr or_comm rfl rfl

/-- C136: a convolution layer, `nchw`. -/
theorem C136_conv_nchw (junkW junkY junkB : Nat → Ieee (F.arith bz)) (junkI : Nat → Int)
    (junk : Nat → Ieee (F.arith bz)) {act : Act (Ieee (F.arith bz))} {f : Ieee (F.arith bz) → Ieee (F.arith bz)} {g : ℝ → ℝ}
    (hact : ActsAs act f) (hf : KeepsFin F bz f g)
    {H W : Axis} (hH : AxisOK u32 H) (hW : AxisOK u32 W) {t : ConvLayer} (ht : HasAxes t H W) {c : Nat}
    (Y : Nat → Nat → Nat → Nat → ℝ) (B : Nat → ℝ) {wInit bInit : Init (Ieee (F.arith bz))}
    (hw : wInit [t.filters, c, H.k, W.k] (fresh junkW [t.filters, c, H.k, W.k].prod) =
      .ok (tab [t.filters, c, H.k, W.k] (fn4 fun e k r s => fin F bz (Y e k r s))).data)
    (hb : bInit [t.filters] (fresh junkB [t.filters].prod) = .ok (tab [t.filters] (fn1 fun e => fin F bz (B e))).data) (n : Nat) :
    Precise (fun x => Layers.conv .nchw .dcrs junkW junkY junkB junkI junk act t x wInit bInit)
      [n, c, H.n, W.n] [n, t.filters, H.m, W.m]
      (fun X => fn4 fun b e i j => g (conv2 H W c (fun p q k => X [b, k, p, q]) (fun r s k e => Y e k r s) i j e + B e))
      (fun X D => fn4 fun b e i j => F.err (c * (H.k * W.k) + 2) (2 * (c * (H.k * W.k)) + 1)
          (conv2 H W c (fun p q k => |X [b, k, p, q]| + D [b, k, p, q]) (fun r s k e => |Y e k r s|) i j e + |B e|) +
        conv2 H W c (fun p q k => D [b, k, p, q]) (fun r s k e => |Y e k r s|) i j e)
      (fun X D => ∀ b < n, ∀ e < t.filters, ∀ i < H.m, ∀ j < W.m,
        conv2 H W c (fun p q k => |X [b, k, p, q]| + D [b, k, p, q]) (fun r s k e => |Y e k r s|) i j e + |B e| +
          F.err (c * (H.k * W.k) + 2) (2 * (c * (H.k * W.k)) + 1)
            (conv2 H W c (fun p q k => |X [b, k, p, q]| + D [b, k, p, q]) (fun r s k e => |Y e k r s|) i j e + |B e|) <
          F.limit) := by
  intro A X D hA hfit
  have eA : (tab [n, c, H.n, W.n] fun i => fin F bz (A i)) =
      tab [n, c, H.n, W.n] (fn4 fun b k i j => fin F bz (A [b, k, i, j])) := tab_congr fun idx hv => by
    match idx, hv with
    | [b, i, j, k], _ => rfl
  obtain ⟨Z, hZ⟩ := choose4 (n₁ := n) (n₂ := t.filters) (n₃ := H.m) (n₄ := W.m) fun b hb e he i hi j hj => by
    have hfit := hfit b hb e he i hi j hj
    rw [← conv2_flat_nchw] at hfit
    simp only [← window_plus, ← window_abs] at hfit
    exact affine_fin (bz := bz) (c * (H.k * W.k))
      (fun p => window H W (fun a a' => A [b, p / (H.k * W.k), a, a']) i j (p % (H.k * W.k) / W.k) (p % (H.k * W.k) % W.k))
      (fun p => Y e (p / (H.k * W.k)) (p % (H.k * W.k) / W.k) (p % (H.k * W.k) % W.k))
      (fun p => window H W (fun a a' => X [b, p / (H.k * W.k), a, a']) i j (p % (H.k * W.k) / W.k) (p % (H.k * W.k) % W.k))
      (fun p => window H W (fun a a' => D [b, p / (H.k * W.k), a, a']) i j (p % (H.k * W.k) / W.k) (p % (H.k * W.k) % W.k))
      (B e) (fun p hp => window_close' (fun a ha a' ha' => hA [b, p / (H.k * W.k), a, a']
        ⟨hb, Nat.div_lt_of_lt_mul (by rwa [Nat.mul_comm] at hp), ha, ha', trivial⟩) i j _ _) hfit
  refine ⟨fn4 fun b e i j => g (Z b e i j), ?_, fun idx hv => ?_⟩
  · rw [eA]
    refine Gives.of (conv_layer_nchw junkW junkY junkB junkI junk hact hH hW ht _ _ _ _
      (fun z hz => C91_conv_order_nchw hH hW _ _ junk hz) hw hb) rfl (tab_congr fun idx hv => ?_)
    match idx, hv with
    | [b, e, i, j], hv =>
      have := (hZ b hv.1 e hv.2.1 i hv.2.2.1 j hv.2.2.2.1).1
      simp only [window_hom (f := fin F bz) fin_zero] at this
      rw [funext fun p => Ieee.mul_comm' (window H W _ i j _ _) (fin F bz (Y e (p / _) _ _))] at this
      exact (congrArg f this).trans (hf.1 _)
  · match idx, hv with
    | [b, e, i, j], hv =>
      have key := (hZ b hv.1 e hv.2.1 i hv.2.2.1 j hv.2.2.2.1).2
      simp only [window_abs, window_plus] at key
      rw [conv2_flat_nchw H W c (fun p q k => X [b, k, p, q]) (fun r s k e => Y e k r s) i j e,
        conv2_flat_nchw H W c (fun p q k => D [b, k, p, q]) (fun r s k e => |Y e k r s|) i j e,
        conv2_flat_nchw H W c (fun p q k => |X [b, k, p, q]| + D [b, k, p, q]) (fun r s k e => |Y e k r s|) i j e] at key
      exact (hf.2 _ _).trans key

/-! ## Pooling -/

theorem fold_max_fin (l : List ℝ) (lo : ℝ) :
    (l.map (fin F bz)).foldl (fun v x => if x > v then x else v) (fin F bz lo) =
      fin F bz (l.foldl (fun v x => if x > v then x else v) lo) := by
  induction l generalizing lo with
  | nil => rfl
  | cons a l ih =>
    rw [List.map_cons, List.foldl_cons, List.foldl_cons, ← ih]
    congr 1
    by_cases h : a > lo
    · rw [if_pos h, if_pos (fin_lt.2 h)]
    · rw [if_neg h, if_neg fun c => h (fin_lt.1 c)]

theorem pixels_top' (lo : ℝ) (H W : Axis) (X : Nat → Nat → ℝ) (i j : Nat) :
    (pixels H W X i j).foldl (fun v x => if x > v then x else v) lo = topOf lo (win H W i j) fun p => X p.1 p.2 :=
  pixels_top (rnd := id) (lowest := lo) H W X i j

/-- C136: max pooling layers, `nhwc`. -/
theorem C136_max_pool_nhwc (junk : Nat → Ieee (F.arith bz)) (lo : ℝ) {H W : Axis} (hH : AxisOK u32 H) (hW : AxisOK u32 W)
    {t : PoolLayer} (ht : PoolHasAxes t H W) (lH : H.l = 0) (lW : W.l = 0) (n c : Nat) :
    Precise (Layers.pool .nhwc junk (Acc.max (fin F bz lo)) t) [n, H.n, W.n, c] [n, H.m, W.m, c]
      (fun X => fn4 fun b i j k => topOf lo (win H W i j) fun p => X [b, p.1, p.2, k])
      (fun _ D => fn4 fun b i j k => topOf 0 (win H W i j) fun p => D [b, p.1, p.2, k]) (fun _ _ => True) := by
  intro A X D hA _
  have eA : (tab [n, H.n, W.n, c] fun i => fin F bz (A i)) =
      tab [n, H.n, W.n, c] (fn4 fun b i j k => fin F bz (A [b, i, j, k])) := tab_congr fun idx hv => by
    match idx, hv with
    | [b, i, j, k], _ => rfl
  refine ⟨fn4 fun b i j k => topOf lo (win H W i j) fun p => A [b, p.1, p.2, k], ?_, fun idx hv => ?_⟩
  · rw [eA]
    refine Gives.of (poolLayer_gen junk (Acc.max (fin F bz lo)) hH hW ht (fun b i j k => fin F bz (A [b, i, j, k]))
      (fun b i j k => fin F bz (topOf lo (win H W i j) fun p => A [b, p.1, p.2, k])) (fun b _ i _ j _ k _ => by
        rw [shifted_self lH, shifted_self lW, max_run, pixels_map H W (fun a a' => A [b, a, a', k]) (fin F bz),
          fold_max_fin, pixels_top'])).1 rfl (tab_congr fun idx hv => ?_)
    match idx, hv with
    | [b, i, j, k], hv => rfl
  · match idx, hv with
    | [b, i, j, k], hv =>
      simp only [fn4_apply]
      refine topOf_close _ _ fun p hp => hA _ ?_
      have := Under_lt (mem_filter.1 hp).2
      exact ⟨hv.1, this.1, this.2, hv.2.2.2.1, trivial⟩

/-- C136: max pooling layers, `nchw`. -/
theorem C136_max_pool_nchw (junk : Nat → Ieee (F.arith bz)) (lo : ℝ) {H W : Axis} (hH : AxisOK u32 H) (hW : AxisOK u32 W)
    {t : PoolLayer} (ht : PoolHasAxes t H W) (lH : H.l = 0) (lW : W.l = 0) (n c : Nat) :
    Precise (Layers.pool .nchw junk (Acc.max (fin F bz lo)) t) [n, c, H.n, W.n] [n, c, H.m, W.m]
      (fun X => fn4 fun b k i j => topOf lo (win H W i j) fun p => X [b, k, p.1, p.2])
      (fun _ D => fn4 fun b k i j => topOf 0 (win H W i j) fun p => D [b, k, p.1, p.2]) (fun _ _ => True) := by
  intro A X D hA _
  have eA : (tab [n, c, H.n, W.n] fun i => fin F bz (A i)) =
      tab [n, c, H.n, W.n] (fn4 fun b k i j => fin F bz (A [b, k, i, j])) := tab_congr fun idx hv => by
    match idx, hv with
    | [b, i, j, k], _ => rfl
  refine ⟨fn4 fun b k i j => topOf lo (win H W i j) fun p => A [b, k, p.1, p.2], ?_, fun idx hv => ?_⟩
  · rw [eA]
    refine Gives.of (poolLayer_gen junk (Acc.max (fin F bz lo)) hH hW ht (fun b i j k => fin F bz (A [b, k, i, j]))
      (fun b i j k => fin F bz (topOf lo (win H W i j) fun p => A [b, k, p.1, p.2])) (fun b _ i _ j _ k _ => by
        rw [shifted_self lH, shifted_self lW, max_run, pixels_map H W (fun a a' => A [b, k, a, a']) (fin F bz),
          fold_max_fin, pixels_top'])).2 rfl (tab_congr fun idx hv => ?_)
    match idx, hv with
    | [b, k, i, j], hv => rfl
  · match idx, hv with
    | [b, k, i, j], hv =>
      simp only [fn4_apply]
      refine topOf_close _ _ fun p hp => hA _ ?_
      have := Under_lt (mem_filter.1 hp).2
      exact ⟨hv.1, hv.2.1, this.1, this.2, trivial⟩

/-- Division by a count: the count is converted to the type of the elements, then the quotient is rounded. -/
noncomputable def divCount (F : Format) (bz : EReal → Option EReal) (s : Ieee (F.arith bz)) (n : Nat) : Ieee (F.arith bz) :=
  s / fin F bz (F.nearest n)

/-- C96 (layers): a max pooling layer without padding in front never returns NaN, in either layout: every output is the
greatest of `lowest` and the numbers under the window. -/
theorem C96_max_pool_layer {A : Arith} (junk : Nat → Ieee A) (lowest : EReal) {H W : Axis} (hH : AxisOK u32 H)
    (hW : AxisOK u32 W) {t : PoolLayer} (ht : PoolHasAxes t H W) (lH : H.l = 0) (lW : W.l = 0) {n c : Nat}
    (X : Nat → Nat → Nat → Nat → Ieee A) :
    ∃ Z : Nat → Nat → Nat → Nat → EReal,
      pool .nhwc junk (Acc.max (.num lowest)) t (tab [n, H.n, W.n, c] (fn4 X)) =
        ⟨1, .ok ⟨tab [n, H.m, W.m, c] (fn4 fun b i j k => (.num (Z b i j k) : Ieee A)), []⟩⟩ ∧
      pool .nchw junk (Acc.max (.num lowest)) t (tab [n, c, H.n, W.n] (fn4 fun b k i j => X b i j k)) =
        ⟨1, .ok ⟨tab [n, c, H.m, W.m] (fn4 fun b k i j => (.num (Z b i j k) : Ieee A)), []⟩⟩ ∧
      ∀ b i j k, lowest ≤ Z b i j k ∧ (∀ a a' v, Under H W i j a a' → X b a a' k = .num v → v ≤ Z b i j k) ∧
        (Z b i j k = lowest ∨ ∃ a a', Under H W i j a a' ∧ X b a a' k = .num (Z b i j k)) := by
  choose Z hZ using fun b i j k => fold_max_nan (pixels H W (fun a a' => X b a a' k) i j) lowest
  obtain ⟨r1, r2⟩ := poolLayer_gen junk (Acc.max (.num lowest)) hH hW ht (n := n) (c := c) X
    (fun b i j k => (.num (Z b i j k) : Ieee A))
    (fun b _ i _ j _ k _ => by rw [shifted_self lH, shifted_self lW, max_run, (hZ b i j k).1])
  refine ⟨Z, r1, r2, fun b i j k => ?_⟩
  obtain ⟨_, h2, h3, h4⟩ := hZ b i j k
  refine ⟨h2, fun a a' v hu hv => h3 v (mem_pixels.2 ⟨a, a', hu, hv.symm⟩), h4.imp id fun h => ?_⟩
  obtain ⟨a, a', hu, e⟩ := mem_pixels.1 h
  exact ⟨a, a', hu, e.symm⟩

theorem list_err (l : List ℝ) (h : (l.map abs).sum + F.err l.length l.length (l.map abs).sum < F.limit) :
    ∃ v : ℝ, (l.map (fin F bz)).foldl (· + ·) 0 = fin F bz v ∧ |v - l.sum| ≤ F.err l.length l.length (l.map abs).sum := by
  have e1 : ∀ f : ℝ → ℝ, (l.map f).sum = ∑ k ∈ range l.length, f (l.getD k 0) := fun f => by
    clear h
    induction l with
    | nil => rfl
    | cons a l ih =>
      rw [List.map_cons, List.sum_cons, ih, List.length_cons, sum_range_succ', add_comm]
      rfl
  have e2 := e1 id
  rw [List.map_id] at e2
  rw [e1 abs] at h ⊢
  obtain ⟨v, e, hv⟩ := sum_err (bz := bz) l.length (fun k => l.getD k 0) h
  refine ⟨v, ?_, by rw [e2]; exact hv⟩
  have e3 : l.map (fin F bz) = (List.range l.length).map fun k => fin F bz (l.getD k 0) := by
    apply List.ext_getElem
    · simp
    · intro i h1 h2
      simp [List.getD_eq_getElem?_getD, (show i < l.length by simpa using h1)]
  rw [← e, e3, List.foldl_map, seqSum_eq_foldl]

/-- The mean of numbers that are off. -/
theorem mean_fin {n : Nat} (hn : 1 ≤ n) (hp : n < 2 ^ F.p) {v T T' M d : ℝ} (hv : |v - T| ≤ F.err n n M) (hT : |T| ≤ M)
    (hd : |T - T'| ≤ d) (h : M + F.err (n + 1) (n + 1) M < F.limit) :
    divCount F bz (fin F bz v) n = fin F bz (F.nearest (v / n)) ∧
      |F.nearest (v / n) - T' / n| ≤ F.err (n + 1) 2 (M / n) + d / n := by
  have M0 : 0 ≤ M := (abs_nonneg _).trans hT
  have n1 : (1 : ℝ) ≤ n := by exact_mod_cast hn
  have n0 : (0 : ℝ) < n := by linarith
  have u0 := F.u_pos
  have e0 := F.eta_pos
  have hnn : F.nearest (n : ℝ) = n := by
    have := F.nearest_mem (F.mem_int (z := (n : ℤ)) (by simpa using (show ((n : ℕ) : ℤ) < 2 ^ F.p by exact_mod_cast hp)))
    exact_mod_cast this
  have h1 : |v / n - T / n| ≤ F.err n n M / n := by
    rw [← sub_div, abs_div, abs_of_pos n0]
    exact div_le_div_of_nonneg_right hv n0.le
  have h2 : |T / n| ≤ M / n := by
    rw [abs_div, abs_of_pos n0]
    exact div_le_div_of_nonneg_right hT n0.le
  have h3 := abs_le_of_err h1 h2
  have h4 := F.nearest_err (v / n)
  have h5 : |F.nearest (v / n) - T / n| ≤ F.u * (M / n + F.err n n M / n) + F.eta + F.err n n M / n := by
    have := mul_le_mul_of_nonneg_left h3 u0.le
    refine (abs_sub_le _ (v / n) _).trans ?_
    linarith
  have key : F.u * (M / n + F.err n n M / n) + F.eta + F.err n n M / n ≤ F.err (n + 1) 2 (M / n) := by
    have e : F.err n n M / n = ((1 + F.u) ^ n - 1) * (M / n) + F.eta * (1 + F.u) ^ n := by
      unfold err
      field_simp
    rw [e]
    unfold err
    have b := F.one_le_pow (n + 1)
    rw [pow_succ] at b ⊢
    generalize (1 + F.u) ^ n = g at *
    generalize M / (n : ℝ) = m at *
    push_cast
    have := mul_le_mul_of_nonneg_left b e0.le
    nlinarith
  have hlt : |F.nearest (v / n)| < F.limit := by
    refine lt_of_le_of_lt (abs_le_of_err (h5.trans key) h2) (lt_of_le_of_lt ?_ h)
    have q : M / n ≤ M := div_le_self M0 n1
    have q0 : 0 ≤ M / n := div_nonneg M0 n0.le
    exact add_le_add q (F.err_mono le_rfl (by omega) q0 q)
  refine ⟨?_, ?_⟩
  · unfold divCount
    rw [hnn]
    unfold fin
    rw [Ieee.num_div (by exact_mod_cast n0.ne') (by
      rintro ⟨h | h, -⟩
      · exact EReal.coe_ne_top _ h
      · exact EReal.coe_ne_bot _ h), ← EReal.coe_div]
    exact congrArg _ (F.round_real hlt)
  · have h6 : |T / n - T' / n| ≤ d / n := by
      rw [← sub_div, abs_div, abs_of_pos n0]
      exact div_le_div_of_nonneg_right hd n0.le
    exact (abs_sub_le _ (T / n) _).trans (add_le_add (h5.trans key) h6)

/-- The mean over one window. -/
theorem window_mean {H W : Axis} (rH : 1 ≤ H.r) (rW : 1 ≤ W.r) {i j : Nat} (hp : H.k * W.k < 2 ^ F.p) (hk : H.k * W.k < 2 ^ 32)
    (A X D : Nat → Nat → ℝ) (hA : ∀ p ∈ win H W i j, |A p.1 p.2 - X p.1 p.2| ≤ D p.1 p.2) (hne : (win H W i j).Nonempty)
    (h : ∑ p ∈ win H W i j, (|X p.1 p.2| + D p.1 p.2) + F.err ((win H W i j).card + 1) ((win H W i j).card + 1)
      (∑ p ∈ win H W i j, (|X p.1 p.2| + D p.1 p.2)) < F.limit) :
    ∃ v : ℝ, (Acc.mean (divCount F bz)).run (pixels H W (fun a a' => fin F bz (A a a')) i j) = .ok (fin F bz v) ∧
      |v - (∑ p ∈ win H W i j, X p.1 p.2) / (win H W i j).card| ≤
        F.err ((win H W i j).card + 1) 2 ((∑ p ∈ win H W i j, (|X p.1 p.2| + D p.1 p.2)) / (win H W i j).card) +
          (∑ p ∈ win H W i j, D p.1 p.2) / (win H W i j).card := by
  have hl : (pixels H W A i j).length = (win H W i j).card := pixels_length rH rW _ i j
  have hc := win_card_le rH rW i j
  have hs : ∀ f : ℝ → ℝ, ((pixels H W A i j).map f).sum = ∑ p ∈ win H W i j, f (A p.1 p.2) := fun f => by
    rw [← pixels_map H W A f]
    exact pixels_sum rH rW _ i j
  have hs1 := hs id
  rw [List.map_id] at hs1
  have M0 : 0 ≤ ∑ p ∈ win H W i j, |A p.1 p.2| := sum_nonneg fun _ _ => abs_nonneg _
  have hM : ∑ p ∈ win H W i j, |A p.1 p.2| ≤ ∑ p ∈ win H W i j, (|X p.1 p.2| + D p.1 p.2) :=
    sum_le_sum fun p hp => abs_le_of_err (hA p hp) le_rfl
  have mono := F.err_mono (le_refl ((win H W i j).card + 1)) (le_refl ((win H W i j).card + 1)) M0 hM
  have mono2 := F.err_mono (Nat.le_succ (win H W i j).card) (Nat.le_succ (win H W i j).card) M0 (le_refl (∑ p ∈ win H W i j, |A p.1 p.2|))
  simp only [Nat.succ_eq_add_one] at mono2
  obtain ⟨v, e, hv⟩ := list_err (bz := bz) (pixels H W A i j) (by rw [hl, hs abs]; linarith)
  rw [hl, hs abs, hs1] at hv
  have hcp : (1 : ℝ) ≤ (win H W i j).card := by exact_mod_cast hne.card_pos
  have hd : |∑ p ∈ win H W i j, A p.1 p.2 - ∑ p ∈ win H W i j, X p.1 p.2| ≤ ∑ p ∈ win H W i j, D p.1 p.2 := by
    rw [← sum_sub_distrib]
    exact (abs_sum_le_sum_abs _ _).trans (sum_le_sum hA)
  obtain ⟨r1, r2⟩ := mean_fin (bz := bz) hne.card_pos (by omega) hv (abs_sum_le_sum_abs _ _) hd (by linarith)
  refine ⟨_, ?_, r2.trans (add_le_add (F.err_mono le_rfl le_rfl (div_nonneg M0 (by linarith))
    (div_le_div_of_nonneg_right hM (by linarith))) le_rfl)⟩
  rw [mean_run _ _ (by rw [pixels_length rH rW]; omega), pixels_length rH rW, pixels_map H W A (fin F bz), e, r1]

/-- C136: mean pooling layers with unpadded windows, `nhwc`. -/
theorem C136_mean_pool_nhwc (junk : Nat → Ieee (F.arith bz)) {H W : Axis} (hH : AxisOK u32 H) (hW : AxisOK u32 W)
    {t : PoolLayer} (ht : PoolHasAxes t H W) (lH : H.l = 0) (lW : W.l = 0) (hp : H.k * W.k < 2 ^ F.p)
    (hk : H.k * W.k < 2 ^ 32) (n c : Nat) :
    Precise (Layers.pool .nhwc junk (Acc.mean (divCount F bz)) t) [n, H.n, W.n, c] [n, H.m, W.m, c]
      (fun X => fn4 fun b i j k => (∑ p ∈ win H W i j, X [b, p.1, p.2, k]) / (win H W i j).card)
      (fun X D => fn4 fun b i j k => F.err ((win H W i j).card + 1) 2
          ((∑ p ∈ win H W i j, (|X [b, p.1, p.2, k]| + D [b, p.1, p.2, k])) / (win H W i j).card) +
        (∑ p ∈ win H W i j, D [b, p.1, p.2, k]) / (win H W i j).card)
      (fun X D => ∀ b < n, ∀ i < H.m, ∀ j < W.m, ∀ k < c, (win H W i j).Nonempty ∧
        ∑ p ∈ win H W i j, (|X [b, p.1, p.2, k]| + D [b, p.1, p.2, k]) +
          F.err ((win H W i j).card + 1) ((win H W i j).card + 1)
            (∑ p ∈ win H W i j, (|X [b, p.1, p.2, k]| + D [b, p.1, p.2, k])) < F.limit) := by
  intro A X D hA hfit
  have eA : (tab [n, H.n, W.n, c] fun i => fin F bz (A i)) =
      tab [n, H.n, W.n, c] (fn4 fun b i j k => fin F bz (A [b, i, j, k])) := tab_congr fun idx hv => by
    match idx, hv with
    | [b, i, j, k], _ => rfl
  obtain ⟨Z, hZ⟩ := choose4 (n₁ := n) (n₂ := H.m) (n₃ := W.m) (n₄ := c) fun b hb i hi j hj k hk' =>
    window_mean (bz := bz) hH.fits.r1 hW.fits.r1 hp hk (fun a a' => A [b, a, a', k]) (fun a a' => X [b, a, a', k])
      (fun a a' => D [b, a, a', k]) (fun p hp => by
        have := Under_lt (mem_filter.1 hp).2
        exact hA _ ⟨hb, this.1, this.2, hk', trivial⟩) (hfit b hb i hi j hj k hk').1 (hfit b hb i hi j hj k hk').2
  refine ⟨fn4 Z, ?_, fun idx hv => ?_⟩
  · rw [eA]
    refine Gives.of (poolLayer_gen junk (Acc.mean (divCount F bz)) hH hW ht (fun b i j k => fin F bz (A [b, i, j, k]))
      (fun b i j k => fin F bz (Z b i j k)) (fun b hb i hi j hj k hk' => by
        rw [shifted_self lH, shifted_self lW]
        exact (hZ b hb i hi j hj k hk').1)).1 rfl (tab_congr fun idx hv => ?_)
    match idx, hv with
    | [b, i, j, k], hv => rfl
  · match idx, hv with
    | [b, i, j, k], hv => exact (hZ b hv.1 i hv.2.1 j hv.2.2.1 k hv.2.2.2.1).2

/-- C136: mean pooling layers with unpadded windows, `nchw`. -/
theorem C136_mean_pool_nchw (junk : Nat → Ieee (F.arith bz)) {H W : Axis} (hH : AxisOK u32 H) (hW : AxisOK u32 W)
    {t : PoolLayer} (ht : PoolHasAxes t H W) (lH : H.l = 0) (lW : W.l = 0) (hp : H.k * W.k < 2 ^ F.p)
    (hk : H.k * W.k < 2 ^ 32) (n c : Nat) :
    Precise (Layers.pool .nchw junk (Acc.mean (divCount F bz)) t) [n, c, H.n, W.n] [n, c, H.m, W.m]
      (fun X => fn4 fun b k i j => (∑ p ∈ win H W i j, X [b, k, p.1, p.2]) / (win H W i j).card)
      (fun X D => fn4 fun b k i j => F.err ((win H W i j).card + 1) 2
          ((∑ p ∈ win H W i j, (|X [b, k, p.1, p.2]| + D [b, k, p.1, p.2])) / (win H W i j).card) +
        (∑ p ∈ win H W i j, D [b, k, p.1, p.2]) / (win H W i j).card)
      (fun X D => ∀ b < n, ∀ k < c, ∀ i < H.m, ∀ j < W.m, (win H W i j).Nonempty ∧
        ∑ p ∈ win H W i j, (|X [b, k, p.1, p.2]| + D [b, k, p.1, p.2]) +
          F.err ((win H W i j).card + 1) ((win H W i j).card + 1)
            (∑ p ∈ win H W i j, (|X [b, k, p.1, p.2]| + D [b, k, p.1, p.2])) < F.limit) := by
  intro A X D hA hfit
  have eA : (tab [n, c, H.n, W.n] fun i => fin F bz (A i)) =
      tab [n, c, H.n, W.n] (fn4 fun b k i j => fin F bz (A [b, k, i, j])) := tab_congr fun idx hv => by
    match idx, hv with
    | [b, i, j, k], _ => rfl
  obtain ⟨Z, hZ⟩ := choose4 (n₁ := n) (n₂ := c) (n₃ := H.m) (n₄ := W.m) fun b hb k hk' i hi j hj =>
    window_mean (bz := bz) hH.fits.r1 hW.fits.r1 hp hk (fun a a' => A [b, k, a, a']) (fun a a' => X [b, k, a, a'])
      (fun a a' => D [b, k, a, a']) (fun p hp => by
        have := Under_lt (mem_filter.1 hp).2
        exact hA _ ⟨hb, hk', this.1, this.2, trivial⟩) (hfit b hb k hk' i hi j hj).1 (hfit b hb k hk' i hi j hj).2
  refine ⟨fn4 Z, ?_, fun idx hv => ?_⟩
  · rw [eA]
    refine Gives.of (poolLayer_gen junk (Acc.mean (divCount F bz)) hH hW ht (fun b i j k => fin F bz (A [b, k, i, j]))
      (fun b i j k => fin F bz (Z b k i j)) (fun b hb i hi j hj k hk' => by
        rw [shifted_self lH, shifted_self lW]
        exact (hZ b hb k hk' i hi j hj).1)).2 rfl (tab_congr fun idx hv => ?_)
    match idx, hv with
    | [b, k, i, j], hv => rfl
  · match idx, hv with
    | [b, k, i, j], hv => exact (hZ b hv.1 k hv.2.1 i hv.2.2.1 j hv.2.2.2.1).2

/-! ## Reshaping and classification -/

/-- C136: a layer applied to the same data seen with other dimensions, as between convolutions and dense layers. -/
theorem C136_reshape {f : LayerFn (Ieee (F.arith bz))} {ds es fs : List Nat} (hp : es.prod = ds.prod)
    {G : (List Nat → ℝ) → List Nat → ℝ} {E : (List Nat → ℝ) → (List Nat → ℝ) → List Nat → ℝ}
    {P : (List Nat → ℝ) → (List Nat → ℝ) → Prop} (hf : Precise f es fs G E P) :
    Precise (fun x => f ⟨es, x.data⟩) ds fs (fun X => G fun i => X (unravel ds (offset es i)))
      (fun X D => E (fun i => X (unravel ds (offset es i))) fun i => D (unravel ds (offset es i)))
      (fun X D => P (fun i => X (unravel ds (offset es i))) fun i => D (unravel ds (offset es i))) := by
  intro A X D hA hP
  obtain ⟨Y, hY, h⟩ := hf (fun i => A (unravel ds (offset es i))) _ _
    (fun i hi => hA _ (valid_unravel (by rw [← hp]; exact offset_lt hi))) hP
  refine ⟨Y, ?_, h⟩
  obtain ⟨ws, hws⟩ := hY
  refine ⟨ws, ?_⟩
  rw [← hws]
  show f ⟨es, _⟩ = f _
  congr 1
  unfold tab
  simp only [Tensor.mk.injEq, true_and]
  rw [hp]
  refine List.map_congr_left fun i hi => ?_
  rw [offset_unravel (by rw [hp]; exact List.mem_range.1 hi)]

/-- C136 (decision): if in every row the exact value of class `cls i` exceeds every other one by more than twice the error,
`argmax` of the computed rows is `cls`. -/
theorem C136_argmax (t : IntTy) {rows k : Nat} (X X' : Nat → Nat → ℝ) (e : Nat → ℝ)
    (hX : ∀ i < rows, ∀ j < k, |X i j - X' i j| ≤ e i) {cls : Nat → Nat} (hc : ∀ i < rows, cls i < k)
    (hm : ∀ i < rows, ∀ j < k, j ≠ cls i → X' i j + 2 * e i < X' i (cls i)) {y : List Int} (hy : y.length = rows) :
    Kernels.argmax t k (tab [rows, k] (fn2 fun i j => fin F bz (X i j))).data y =
      .ok ((List.range rows).map fun i => t.conv (cls i)) := by
  rcases Nat.eq_zero_or_pos rows with rfl | hr
  · rw [List.length_eq_zero_iff.1 hy]
    rfl
  · have hk : 1 ≤ k := by have := hc 0 hr; omega
    obtain ⟨a, ea, ha⟩ := C96_argmax t hk (fun i j => fin F bz (X i j)) hy
    rw [ea]
    refine congrArg Outcome.ok (List.map_congr_left fun i hi => ?_)
    have hi' : i < rows := by simpa using hi
    obtain ⟨h1, -, h2⟩ := ha i hi'
    obtain ⟨v, ev, hv⟩ := h2 (by unfold fin; intro h; cases h)
    have ev' : v = (X i (a i) : EReal) := by
      unfold fin at ev
      injection ev with ev
      exact ev.symm
    have l := (hv (cls i) (hc i hi') _ rfl).1
    rw [ev', EReal.coe_le_coe_iff] at l
    have : a i = cls i := by
      by_contra hne
      have m := hm i hi' _ h1 hne
      have p := abs_le.1 (hX i hi' _ h1)
      have q := abs_le.1 (hX i hi' _ (hc i hi'))
      linarith [p.1, p.2, q.1, q.2]
    rw [this]

/-! ## The hypotheses are met -/

theorem sum_bound {n : Nat} {f : Nat → ℝ} {c : ℝ} (h : ∀ k < n, f k ≤ c) : ∑ k ∈ range n, f k ≤ n * c := by
  have := sum_le_sum fun k hk => h k (mem_range.1 hk)
  simpa using this

/-- Two dense layers in `float`, the first with relu, with weights, biases and inputs up to 1: the conditions hold for both
layers of the composition, at the exact intermediate results. -/
example (W : Nat → Nat → ℝ) (B : Nat → ℝ) (V : Nat → Nat → ℝ) (C : Nat → ℝ) (hW : ∀ l j, |W l j| ≤ 1) (hB : ∀ j, |B j| ≤ 1)
    (hV : ∀ l j, |V l j| ≤ 1) (hC : ∀ j, |C j| ≤ 1) (bz : EReal → Option EReal)
    (J : Nat → Nat → Ieee (Format.binary32.arith bz)) (x : List Nat → ℝ) (hx : ∀ i, |x i| ≤ 1) :
    ∃ Y : List Nat → ℝ, Gives (composed
        (fun t => Layers.dense (J 0) (J 1) (J 2) reluAct 4 t
          (fun _ _ => .ok (tab [3, 4] (fn2 fun l j => fin Format.binary32 bz (W l j))).data)
          (fun _ _ => .ok (tab [4] (fn1 fun j => fin Format.binary32 bz (B j))).data))
        (fun t => Layers.dense (J 3) (J 4) (J 5) noopAct 2 t
          (fun _ _ => .ok (tab [4, 2] (fn2 fun l j => fin Format.binary32 bz (V l j))).data)
          (fun _ _ => .ok (tab [2] (fn1 fun j => fin Format.binary32 bz (C j))).data)))
        (tab [5, 3] fun i => fin Format.binary32 bz (x i)) (tab [5, 2] fun i => fin Format.binary32 bz (Y i)) := by
  have main := C136_compose
    (C136_dense (F := Format.binary32) (bz := bz) (J 0) (J 1) (J 2) relu_acts relu_keepsFin (m := 3) (k := 4) (by norm_num) W B
      (wInit := fun _ _ => .ok (tab [3, 4] (fn2 fun l j => fin Format.binary32 bz (W l j))).data)
      (bInit := fun _ _ => .ok (tab [4] (fn1 fun j => fin Format.binary32 bz (B j))).data) rfl rfl 5)
    (C136_dense (F := Format.binary32) (bz := bz) (J 3) (J 4) (J 5) noop_acts id_keepsFin (m := 4) (k := 2) (by norm_num) V C
      (wInit := fun _ _ => .ok (tab [4, 2] (fn2 fun l j => fin Format.binary32 bz (V l j))).data)
      (bInit := fun _ _ => .ok (tab [2] (fn1 fun j => fin Format.binary32 bz (C j))).data) rfl rfl 5) x x (fun _ => 0)
    (fun i _ => by simp)
  have s0 : ∀ i j, 0 ≤ ∑ l ∈ range 3, (|x [i, l]| + 0) * |W l j| + |B j| := fun i j => by positivity
  have s1 : ∀ i j, ∑ l ∈ range 3, (|x [i, l]| + 0) * |W l j| + |B j| ≤ 4 := fun i j => by
    have : ∑ l ∈ range 3, (|x [i, l]| + 0) * |W l j| ≤ (3 : ℕ) * 1 := sum_bound fun l _ =>
      mul_le_one₀ (by simpa using hx _) (abs_nonneg _) (hW l j)
    have := hB j
    push_cast at *
    linarith
  have e1 : ∀ i j, Format.binary32.err 5 7 (∑ l ∈ range 3, (|x [i, l]| + 0) * |W l j| + |B j|) ≤ 1 := fun i j => by
    refine ((C135_float (by norm_num) (by norm_num) (s0 i j) ((s1 i j).trans (by norm_num))).1).trans ?_
    have := s1 i j
    have z1 : (2 : ℝ) ^ (-23 : ℤ) = 1 / 2 ^ 23 := by norm_num
    have z2 : (2 : ℝ) ^ (-149 : ℤ) = 1 / 2 ^ 149 := by norm_num
    rw [z1, z2]
    push_cast
    linarith
  have e0 : ∀ i j, 0 ≤ Format.binary32.err 5 7 (∑ l ∈ range 3, (|x [i, l]| + 0) * |W l j| + |B j|) := fun i j =>
    Format.err_nonneg _ _ _ (s0 i j)
  have g1 : ∀ i j, |max 0 (∑ l ∈ range 3, x [i, l] * W l j + B j)| ≤ 4 := fun i j => by
    have : |∑ l ∈ range 3, x [i, l] * W l j + B j| ≤ 4 := by
      refine ((abs_add_le _ _).trans (add_le_add ((abs_sum_le_sum_abs _ _).trans (le_of_eq ?_)) le_rfl)).trans (s1 i j)
      exact sum_congr rfl fun l _ => by rw [abs_mul, add_zero]
    rw [abs_of_nonneg (le_max_left _ _)]
    exact max_le (by norm_num) ((le_abs_self _).trans this)
  refine (main ⟨fun i _ j _ => (C135_float (by norm_num) (by norm_num) (s0 i j) ((s1 i j).trans (by norm_num))).2,
    fun i _ j _ => (C135_float (by norm_num) (by norm_num) ?_ ?_).2⟩).imp fun _ h => h.1
  · refine add_nonneg (sum_nonneg fun l _ => mul_nonneg (add_nonneg (abs_nonneg _) ?_) (abs_nonneg _)) (abs_nonneg _)
    have := e0 i l
    simp only [fn2_apply, zero_mul, sum_const_zero, add_zero] at this ⊢
    exact this
  · have : ∀ l < 4, (|max 0 (∑ l' ∈ range 3, x [i, l'] * W l' l + B l)| +
        Format.binary32.err 5 7 (∑ l' ∈ range 3, (|x [i, l']| + 0) * |W l' l| + |B l|)) * |V l j| ≤ 5 := fun l _ => by
      have a := g1 i l
      have b := e1 i l
      have c := e0 i l
      have d := hV l j
      have f := abs_nonneg (V l j)
      have f' := abs_nonneg (max 0 (∑ l' ∈ range 3, x [i, l'] * W l' l + B l))
      nlinarith
    have t := sum_bound this
    have := hC j
    simp only [fn2_apply, zero_mul, sum_const_zero, add_zero] at t ⊢
    push_cast at t
    have : (20 : ℝ) + 1 ≤ 2 ^ 126 := by norm_num
    linarith

/-- A mean pooling with 3 × 2 windows. -/
example : (3 * 2 < 2 ^ Format.binary32.p) ∧ (win ⟨3, 2, 1, 0, 0, 5, 2⟩ ⟨2, 1, 1, 0, 0, 3, 2⟩ 1 1).Nonempty :=
  ⟨by decide, ⟨(3, 2), by decide⟩⟩

/-- Two rows of three classes, each value off by at most 1. -/
example (bz : EReal → Option EReal) :
    Kernels.argmax i32 3 (tab [2, 3] (fn2 fun i j => fin Format.binary32 bz (if j = i + 1 then 7 else j))).data [0, 0] =
      .ok [1, 2] := by
  refine (C136_argmax i32 (rows := 2) (fun i j => if j = i + 1 then 7 else (j : ℝ)) (fun i j => if j = i + 1 then 6 else j)
    (fun _ => 1) (fun i _ j _ => ?_) (cls := fun i => i + 1) (fun i hi => by omega) (fun i _ j hj hne => ?_) rfl).trans (by decide)
  · show |(if j = i + 1 then (7 : ℝ) else j) - (if j = i + 1 then (6 : ℝ) else j)| ≤ 1
    split <;> norm_num
  · simp only [if_neg hne, if_true]
    have : (j : ℝ) ≤ 2 := by exact_mod_cast (show j ≤ 2 by omega)
    linarith

/-- A batch of two 2 × 2 × 3 images seen as a 2 × 12 matrix. -/
example : [2, 12].prod = [2, 2, 2, 3].prod := rfl

/-! ## Concrete cases -/

example (x : Ieee (Format.binary32.arith bz)) := C136_conv_nhwc (fun _ => x) (fun _ => x) (fun _ => x) (fun _ => 4) (fun _ => x)
  relu_acts relu_keepsFin exL_ok exW_ok exLayer_axes (c := 3) (by decide) exOf (exOf 1 2 3)
  (wInit := exInit (fn4 fun r s k e => fin _ bz (exOf r s k e))) (bInit := exInit (fn1 fun e => fin _ bz (exOf 1 2 3 e))) rfl rfl 2
example (x : Ieee (Format.binary32.arith bz)) := C136_conv_nchw (fun _ => x) (fun _ => x) (fun _ => x) (fun _ => 4) (fun _ => x)
  relu_acts relu_keepsFin exL_ok exW_ok exLayer_axes (c := 3) exOf (exOf 1 2 3)
  (wInit := exInit (fn4 fun r s k e => fin _ bz (exOf r s k e))) (bInit := exInit (fn1 fun e => fin _ bz (exOf 1 2 3 e))) rfl rfl 2
example (x : Ieee (Format.binary32.arith bz)) := C136_max_pool_nhwc (fun _ => x) (-1000) exPoolH_ok exPoolW_ok exPool_axes rfl rfl 2 3
example (x : Ieee (Format.binary32.arith bz)) := C136_max_pool_nchw (fun _ => x) (-1000) exPoolH_ok exPoolW_ok exPool_axes rfl rfl 2 3
example (x : Ieee (Format.binary32.arith bz)) := C96_max_pool_layer (fun _ => x) (-1000) exPoolH_ok exPoolW_ok exPool_axes rfl rfl
  (n := 2) (c := 3) (fun _ i j _ => if i = j then .nan else .num 2)
example (x : Ieee (Format.binary32.arith bz)) := C136_mean_pool_nhwc (fun _ => x) exPoolH_ok exPoolW_ok exPool_axes rfl rfl
  (by decide) (by decide) 2 3
example (x : Ieee (Format.binary32.arith bz)) := C136_mean_pool_nchw (fun _ => x) exPoolH_ok exPoolW_ok exPool_axes rfl rfl
  (by decide) (by decide) 2 3
example (x : Ieee (Format.binary32.arith bz)) := C136_reshape (ds := [2, 2, 2, 3]) (es := [2, 12]) rfl
  (C136_dense (fun _ => x) (fun _ => x) (fun _ => x) relu_acts relu_keepsFin (m := 12) (k := 2) (by decide) (exOf 0 1) (exOf 1 2 3)
    (wInit := exInit (fn2 fun l j => fin _ bz (exOf 0 1 l j))) (bInit := exInit (fn1 fun j => fin _ bz (exOf 1 2 3 j))) rfl rfl 2)

end StdNN
