import Verif.Props.RoundingLayers
import Mathlib.Analysis.SpecialFunctions.ExpDeriv
import Mathlib.Analysis.Calculus.MeanValue
/-!
# C144: how far a change of the input moves the output of a network
-/
namespace StdNN
open IntTy Spec Outcome Finset Models Layers

/-- On examples of shape `ds`, computed in exact arithmetic, the layer `f` treats the examples of a batch separately, and if
the elements of an example move by at most `ε`, the elements of its output move by at most `L * ε`. -/
def Stretch (f : LayerFn ℝ) (ds es : List Nat) (L : ℝ) : Prop :=
  0 ≤ L ∧ ∃ G : (List Nat → ℝ) → List Nat → ℝ, PerExample f ds es G ∧
    ∀ x x' ε, 0 ≤ ε → (∀ i, Valid ds i → |x i - x' i| ≤ ε) → ∀ i, Valid es i → |G x i - G x' i| ≤ L * ε

/-- The activation does not move two values apart. -/
def NoStretch (f : ℝ → ℝ) : Prop := ∀ a b, |f a - f b| ≤ |a - b|

theorem id_noStretch : NoStretch id := fun _ _ => le_rfl

theorem relu_noStretch : NoStretch fun a => if 0 < a then a else 0 := fun a b => by
  have e : ∀ a : ℝ, (if 0 < a then a else 0) = max a 0 := fun a => by
    split
    · next h => exact (max_eq_left h.le).symm
    · next h => exact (max_eq_right (not_lt.1 h)).symm
  simp only [e]
  exact abs_max_sub_max_le_abs _ _ _

/-! ## Networks -/

/-- C144 (networks): one layer after the other. -/
theorem C144_composed {f g : LayerFn ℝ} {ds es fs : List Nat} {L M : ℝ} (hf : Stretch f ds es L) (hg : Stretch g es fs M) :
    Stretch (composed f g) ds fs (L * M) := by
  obtain ⟨hL, F, f1, f2⟩ := hf
  obtain ⟨hM, G, g1, g2⟩ := hg
  refine ⟨mul_nonneg hL hM, fun x => G (F x), fun n X => (f1 n X).comp (g1 n fun b => F (X b)), fun x x' ε hε h i hi => ?_⟩
  have := g2 (F x) (F x') (L * ε) (mul_nonneg hL hε) (f2 x x' ε hε h) i hi
  calc _ ≤ _ := this
    _ = _ := by ring

/-- C144 (sequential models): `shapes i` is the shape of the examples before layer `i`, `L i` the factor of layer `i`. -/
theorem C144_sequential (junk : Nat → ℝ) (ls : List (LayerFn ℝ)) (shapes : Nat → List Nat) (L : Nat → ℝ)
    (h : ∀ i (hi : i < ls.length), Stretch ls[i] (shapes i) (shapes (i + 1)) (L i)) :
    Stretch (sequential junk ls) (shapes 0) (shapes ls.length) (∏ i ∈ range ls.length, L i) := by
  induction ls using List.reverseRecOn with
  | nil =>
    refine ⟨by simp, fun x => x, fun n X => ⟨[], identity_run junk (tab_wf _ _)⟩, fun x x' ε _ h i hi => ?_⟩
    simpa using h i hi
  | append_singleton ls l ih =>
    rw [sequential_snoc]
    have hl := h ls.length (by simp)
    simp only [List.getElem_append_right (le_refl _), Nat.sub_self, List.getElem_cons_zero] at hl
    have := ih fun i hi => by
      have := h i (by simp; omega)
      rwa [List.getElem_append_left hi] at this
    simpa [prod_range_succ] using C144_composed this hl

/-- C144 (certificate): if in every row of the output the score of class `cls b` exceeds every other one by more than
`2 * L * ε`, the network gives the same classes for all batches whose elements differ by at most `ε`. -/
theorem C144_certificate {f : LayerFn ℝ} {ds : List Nat} {k : Nat} {L ε : ℝ} (h : Stretch f ds [k] L) (hε : 0 ≤ ε) (t : IntTy)
    {n : Nat} {X X' : Nat → List Nat → ℝ} (hX : ∀ b < n, ∀ i, Valid ds i → |X b i - X' b i| ≤ ε) {Y : Nat → Nat → ℝ}
    (hY : Gives f (tab (n :: ds) fun idx => X (idx.headD 0) idx.tail) (tab [n, k] (fn2 Y))) {cls : Nat → Nat}
    (hc : ∀ b < n, cls b < k) (hm : ∀ b < n, ∀ j < k, j ≠ cls b → Y b j + 2 * (L * ε) < Y b (cls b)) :
    ∃ Y' : Nat → Nat → ℝ, Gives f (tab (n :: ds) fun idx => X' (idx.headD 0) idx.tail) (tab [n, k] (fn2 Y')) ∧
      ∀ y : List Int, y.length = n →
        Kernels.argmax t k (tab [n, k] (fn2 Y')).data y = .ok ((List.range n).map fun b => t.conv (cls b)) := by
  obtain ⟨hL, G, g1, g2⟩ := h
  have eY : ∀ b < n, ∀ j < k, Y b j = G (X b) [j] := fun b hb j hj =>
    tab_eq_iff.1 (hY.unique (g1 n X)) [b, j] ⟨hb, hj, trivial⟩
  have e' : (tab [n, k] fun idx => G (X' (idx.headD 0)) idx.tail) = tab [n, k] (fn2 fun b j => G (X' b) [j]) :=
    tab_congr fun idx hv => by
      match idx, hv with
      | [b, j], _ => rfl
  refine ⟨fun b j => G (X' b) [j], e' ▸ g1 n X', fun y hy => ?_⟩
  rcases Nat.eq_zero_or_pos n with rfl | hn
  · rw [List.length_eq_zero_iff.1 hy]
    rfl
  · have hk : 1 ≤ k := by have := hc 0 hn; omega
    obtain ⟨a, ea, ha⟩ := C57_argmax t hk (fun b j => G (X' b) [j]) hy
    rw [ea]
    refine congrArg Outcome.ok (List.map_congr_left fun b hb => ?_)
    have hb' : b < n := by simpa using hb
    obtain ⟨h1, h2, -⟩ := ha b hb'
    have : a b = cls b := by
      by_contra hne
      have m := hm b hb' _ h1 hne
      rw [eY b hb' _ h1, eY b hb' _ (hc b hb')] at m
      have l := h2 (cls b) (hc b hb')
      have p := abs_le.1 (g2 _ _ ε hε (hX b hb') [a b] ⟨h1, trivial⟩)
      have q := abs_le.1 (g2 _ _ ε hε (hX b hb') [cls b] ⟨hc b hb', trivial⟩)
      linarith [p.1, p.2, q.1, q.2]
    rw [this]

/-! ## Layers -/

theorem sum_stretch {n : Nat} {a a' b : Nat → ℝ} {ε : ℝ} (h : ∀ k < n, |a k - a' k| ≤ ε) :
    |∑ k ∈ range n, a k * b k - ∑ k ∈ range n, a' k * b k| ≤ (∑ k ∈ range n, |b k|) * ε := by
  rw [← sum_sub_distrib, sum_mul]
  refine (abs_sum_le_sum_abs _ _).trans (sum_le_sum fun k hk => ?_)
  rw [← sub_mul, abs_mul, mul_comm]
  exact mul_le_mul_of_nonneg_left (h k (mem_range.1 hk)) (abs_nonneg _)

theorem dense_perExample (junkW junkY junkB : Nat → ℝ) {act : Act ℝ} {f : ℝ → ℝ} (hact : ActsAs act f)
    {m k : Nat} (hk : k < 2 ^ 32) (W : Nat → Nat → ℝ) (B : Nat → ℝ) {wInit bInit : Init ℝ}
    (hw : wInit [m, k] (fresh junkW [m, k].prod) = .ok (tab [m, k] (fn2 W)).data)
    (hb : bInit [k] (fresh junkB [k].prod) = .ok (tab [k] (fn1 B)).data) :
    PerExample (fun x => dense junkW junkY junkB act k x wInit bInit) [m] [k]
      fun x => fn1 fun j => f (∑ l ∈ range m, x [l] * W l j + B j) := fun n X => by
  have e := C77_dense junkW junkY junkB hact (n := n) hk (fun i l => X i [l]) W B hw hb
  have e1 : (tab [n, m] fun idx => X (idx.headD 0) idx.tail) = tab [n, m] (fn2 fun i l => X i [l]) := by
    refine tab_congr fun idx hv => ?_
    match idx, hv with
    | [i, j], _ => rfl
  rw [e1]
  refine .of e rfl (tab_congr fun idx hv => ?_)
  match idx, hv with
  | [i, j], _ => simp [seqSum_eq_sum]

/-- C144: a dense layer stretches by at most the greatest sum of absolute weights of an output. -/
theorem C144_dense (junkW junkY junkB : Nat → ℝ) {act : Act ℝ} {f : ℝ → ℝ} (hact : ActsAs act f) (hf : NoStretch f)
    {m k : Nat} (hk : k < 2 ^ 32) (W : Nat → Nat → ℝ) (B : Nat → ℝ) {wInit bInit : Init ℝ}
    (hw : wInit [m, k] (fresh junkW [m, k].prod) = .ok (tab [m, k] (fn2 W)).data)
    (hb : bInit [k] (fresh junkB [k].prod) = .ok (tab [k] (fn1 B)).data) {L : ℝ} (h0 : 0 ≤ L)
    (hL : ∀ j < k, ∑ l ∈ range m, |W l j| ≤ L) :
    Stretch (fun x => dense junkW junkY junkB act k x wInit bInit) [m] [k] L := by
  refine ⟨h0, _, dense_perExample junkW junkY junkB hact hk W B hw hb, fun x x' ε hε h i hi => ?_⟩
  match i, hi with
  | [j], hi =>
    refine (hf _ _).trans ?_
    rw [add_sub_add_right_eq_sub]
    exact (sum_stretch fun l hl => h [l] ⟨hl, trivial⟩).trans (mul_le_mul_of_nonneg_right (hL j hi.1) hε)

/-- C144 (no smaller factor): without activation, every dense layer with an output whose absolute weights add up to `S` moves
that output by `S * ε` for suitable changes of at most `ε`, whatever the example. -/
theorem C144_dense_sharp (junkW junkY junkB : Nat → ℝ) {act : Act ℝ} (hact : ActsAs act id)
    {m k : Nat} (hk : k < 2 ^ 32) (W : Nat → Nat → ℝ) (B : Nat → ℝ) {wInit bInit : Init ℝ}
    (hw : wInit [m, k] (fresh junkW [m, k].prod) = .ok (tab [m, k] (fn2 W)).data)
    (hb : bInit [k] (fresh junkB [k].prod) = .ok (tab [k] (fn1 B)).data) {j : Nat} (_hj : j < k) (x : Nat → ℝ) {ε : ℝ}
    (hε : 0 ≤ ε) :
    ∃ (x' : Nat → ℝ) (y y' : Nat → ℝ), (∀ l, |x l - x' l| ≤ ε) ∧
      Gives (fun x => dense junkW junkY junkB act k x wInit bInit) (tab [1, m] (fn2 fun _ l => x l)) (tab [1, k] (fn2 fun _ => y)) ∧
      Gives (fun x => dense junkW junkY junkB act k x wInit bInit) (tab [1, m] (fn2 fun _ l => x' l)) (tab [1, k] (fn2 fun _ => y')) ∧
      |y j - y' j| = (∑ l ∈ range m, |W l j|) * ε := by
  have run : ∀ x : Nat → ℝ, Gives (fun x => dense junkW junkY junkB act k x wInit bInit) (tab [1, m] (fn2 fun _ l => x l))
      (tab [1, k] (fn2 fun _ j => ∑ l ∈ range m, x l * W l j + B j)) := fun x => by
    refine .of (C77_dense junkW junkY junkB hact (n := 1) hk (fun _ l => x l) W B hw hb) rfl (tab_congr fun idx hv => ?_)
    match idx, hv with
    | [i, j], _ => simp [seqSum_eq_sum]
  let s : Nat → ℝ := fun l => if 0 ≤ W l j then 1 else -1
  have hs : ∀ l, s l * W l j = |W l j| := fun l => by
    by_cases c : 0 ≤ W l j
    · simp [s, c, abs_of_nonneg c]
    · simp [s, c, abs_of_neg (not_le.1 c)]
  have hs1 : ∀ l, |s l| = 1 := fun l => by by_cases c : 0 ≤ W l j <;> simp [s, c]
  refine ⟨fun l => x l - s l * ε, _, _, fun l => ?_, run x, run _, ?_⟩
  · rw [sub_sub_cancel, abs_mul, hs1, one_mul, abs_of_nonneg hε]
  · have : ∀ l, x l * W l j - (x l - s l * ε) * W l j = |W l j| * ε := fun l => by rw [← hs]; ring
    rw [add_sub_add_right_eq_sub, ← sum_sub_distrib, sum_congr rfl fun l _ => this l, ← sum_mul]
    exact abs_of_nonneg (mul_nonneg (sum_nonneg fun _ _ => abs_nonneg _) hε)

theorem window_stretch {H W : Axis} {A X : Nat → Nat → ℝ} {ε : ℝ} (hε : 0 ≤ ε)
    (h : ∀ a < H.n, ∀ a' < W.n, |A a a' - X a a'| ≤ ε) (i j p q : Nat) :
    |window H W A i j p q - window H W X i j p q| ≤ ε := by
  rw [window_eq, window_eq]
  by_cases c : (H.l ≤ H.pos i p ∧ H.pos i p < H.l + H.n) ∧ (W.l ≤ W.pos j q ∧ W.pos j q < W.l + W.n)
  · rw [if_pos c, if_pos c]
    exact h _ (by omega) _ (by omega)
  · rw [if_neg c, if_neg c]
    simpa using hε

theorem conv2_stretch {H W : Axis} {c : Nat} {X X' : Nat → Nat → Nat → ℝ} (Y : Nat → Nat → Nat → Nat → ℝ) {ε : ℝ} (hε : 0 ≤ ε)
    (h : ∀ a < H.n, ∀ a' < W.n, ∀ k < c, |X a a' k - X' a a' k| ≤ ε) (i j e : Nat) :
    |conv2 H W c X Y i j e - conv2 H W c X' Y i j e| ≤
      (∑ r ∈ range H.k, ∑ s ∈ range W.k, ∑ k ∈ range c, |Y r s k e|) * ε := by
  unfold conv2
  rw [← sum_sub_distrib, sum_mul]
  refine (abs_sum_le_sum_abs _ _).trans (sum_le_sum fun r _ => ?_)
  rw [← sum_sub_distrib, sum_mul]
  refine (abs_sum_le_sum_abs _ _).trans (sum_le_sum fun s _ => ?_)
  exact sum_stretch fun k hk => window_stretch hε (fun a ha a' ha' => h a ha a' ha' k hk) i j r s

section
variable (junkW junkY junkB : Nat → ℝ) (junkI : Nat → Int) (junk : Nat → ℝ) {act : Act ℝ} {f : ℝ → ℝ} {H W : Axis}
  {t : ConvLayer} {c : Nat} (Y : Nat → Nat → Nat → Nat → ℝ) (B : Nat → ℝ) {wInit bInit : Init ℝ} {L : ℝ}

/-- C144: a convolution layer, `nhwc`, stretches by at most the greatest sum of absolute weights of a filter. -/
theorem C144_conv_nhwc (hact : ActsAs act f) (hf : NoStretch f) (hH : AxisOK u32 H) (hW : AxisOK u32 W)
    (ht : HasAxes t H W) (hsz : [H.n, W.n, c].prod ≤ 2 ^ 31)
    (hw : wInit [H.k, W.k, c, t.filters] (fresh junkW [H.k, W.k, c, t.filters].prod) =
      .ok (tab [H.k, W.k, c, t.filters] (fn4 Y)).data)
    (hb : bInit [t.filters] (fresh junkB [t.filters].prod) = .ok (tab [t.filters] (fn1 B)).data) (h0 : 0 ≤ L)
    (hL : ∀ e < t.filters, ∑ r ∈ range H.k, ∑ s ∈ range W.k, ∑ k ∈ range c, |Y r s k e| ≤ L) :
    Stretch (fun x => Layers.conv .nhwc .rscd junkW junkY junkB junkI junk act t x wInit bInit)
      [H.n, W.n, c] [H.m, W.m, t.filters] L := by
  refine ⟨h0, fun x => fn3 fun i j e => f (conv2 H W c (fun a a' k => x [a, a', k]) Y i j e + B e), fun n X => ?_,
    fun x x' ε hε h idx hi => ?_⟩
  · rw [tab4_rows]
    refine .of (conv_layer_nhwc junkW junkY junkB junkI junk hact hH hW ht (n := n) (fun l i j k => X l [i, j, k]) Y _ B
      (fun z hz => C91_conv_order hH hW hsz _ Y junkI junk hz) hw hb) rfl (tab_congr fun idx hv => ?_)
    match idx, hv with
    | [b, i, j, e], _ =>
      have := conv2_flat H W c (fun a a' k => X b [a, a', k]) Y i j e
      simp only [fn4_apply, List.headD_cons, List.tail_cons, fn3_apply, seqSum_eq_sum]
      rw [this]
  · match idx, hi with
    | [i, j, e], hi =>
      refine (hf _ _).trans ?_
      rw [add_sub_add_right_eq_sub]
      exact (conv2_stretch Y hε (fun a ha a' ha' k hk => h [a, a', k] ⟨ha, ha', hk, trivial⟩) i j e).trans
        (mul_le_mul_of_nonneg_right (hL e hi.2.2.1) hε)

/-- C144: a convolution layer, `nchw`. -/
theorem C144_conv_nchw (hact : ActsAs act f) (hf : NoStretch f) (hH : AxisOK u32 H) (hW : AxisOK u32 W)
    (ht : HasAxes t H W)
    (hw : wInit [t.filters, c, H.k, W.k] (fresh junkW [t.filters, c, H.k, W.k].prod) =
      .ok (tab [t.filters, c, H.k, W.k] (fn4 Y)).data)
    (hb : bInit [t.filters] (fresh junkB [t.filters].prod) = .ok (tab [t.filters] (fn1 B)).data) (h0 : 0 ≤ L)
    (hL : ∀ e < t.filters, ∑ r ∈ range H.k, ∑ s ∈ range W.k, ∑ k ∈ range c, |Y e k r s| ≤ L) :
    Stretch (fun x => Layers.conv .nchw .dcrs junkW junkY junkB junkI junk act t x wInit bInit)
      [c, H.n, W.n] [t.filters, H.m, W.m] L := by
  refine ⟨h0, fun x => fn3 fun e i j => f (conv2 H W c (fun a a' k => x [k, a, a']) (fun r s k e => Y e k r s) i j e + B e),
    fun n X => ?_, fun x x' ε hε h idx hi => ?_⟩
  · rw [tab4_rows]
    refine .of (conv_layer_nchw junkW junkY junkB junkI junk hact hH hW ht (n := n) (fun l i j k => X l [i, j, k]) Y _ B
      (fun z hz => C91_conv_order_nchw hH hW _ Y junk hz) hw hb) rfl (tab_congr fun idx hv => ?_)
    match idx, hv with
    | [b, e, i, j], _ =>
      have := conv2_flat_nchw H W c (fun a a' k => X b [k, a, a']) (fun r s k e => Y e k r s) i j e
      simp only [fn4_apply, List.headD_cons, List.tail_cons, fn3_apply, seqSum_eq_sum]
      rw [← this]
      exact congrArg (fun s => f (s + B e)) (sum_congr rfl fun p _ => mul_comm _ _)
  · match idx, hi with
    | [e, i, j], hi =>
      refine (hf _ _).trans ?_
      rw [add_sub_add_right_eq_sub]
      exact (conv2_stretch _ hε (fun a ha a' ha' k hk => h [k, a, a'] ⟨hk, ha, ha', trivial⟩) i j e).trans
        (mul_le_mul_of_nonneg_right (hL e hi.1) hε)

end

/-- What `v` makes of the pixels of a window moves no further than the pixels. -/
theorem pool_stretch (junk : Nat → ℝ) (acc : Acc ℝ) {H W : Axis} (hH : AxisOK u32 H) (hW : AxisOK u32 W)
    {t : PoolLayer} (ht : PoolHasAxes t H W) (c : Nat) (v : List ℝ → ℝ)
    (hv : ∀ l, l.length ≤ H.k * W.k → acc.run l = .ok (v l))
    (hs : ∀ (ps : List (Nat × Nat)) (x x' : Nat × Nat → ℝ) (ε : ℝ), 0 ≤ ε → (∀ p ∈ ps, |x p - x' p| ≤ ε) →
      |v (ps.map x) - v (ps.map x')| ≤ ε) :
    Stretch (pool .nhwc junk acc t) [H.n, W.n, c] [H.m, W.m, c] 1 ∧
    Stretch (pool .nchw junk acc t) [c, H.n, W.n] [c, H.m, W.m] 1 := by
  have oH := shifted_ok hH
  have oW := shifted_ok hW
  have hp : ∀ (Y : Nat → Nat → ℝ) i j, (pixels (shifted H) (shifted W) Y i j).length ≤ H.k * W.k := fun Y i j => by
    rw [pixels_length oH.fits.r1 oW.fits.r1]
    exact win_card_le oH.fits.r1 oW.fits.r1 i j
  have key : ∀ (x x' : Nat → Nat → ℝ) (ε : ℝ) i j, 0 ≤ ε → (∀ a < H.n, ∀ b < W.n, |x a b - x' a b| ≤ ε) →
      |v (pixels (shifted H) (shifted W) x i j) - v (pixels (shifted H) (shifted W) x' i j)| ≤ ε := fun x x' ε i j hε h => by
    rw [pixels_map (shifted H) (shifted W) (fun a b => (a, b)) (fun p => x p.1 p.2),
      pixels_map (shifted H) (shifted W) (fun a b => (a, b)) (fun p => x' p.1 p.2)]
    refine hs _ _ _ ε hε fun p hp => ?_
    obtain ⟨a, b, hu, rfl⟩ := mem_pixels.1 hp
    exact h a (Under_lt hu).1 b (Under_lt hu).2
  constructor
  · refine ⟨zero_le_one, fun x => fn3 fun i j k =>
      v (pixels (shifted H) (shifted W) (fun a a' => x [a, a', k]) i j), fun n X => ?_, fun x x' ε hε h idx hi => ?_⟩
    · rw [tab4_rows]
      refine .of (poolLayer_gen junk acc hH hW ht (n := n) (c := c) (fun l i j k => X l [i, j, k]) (fun b i j k =>
        v (pixels (shifted H) (shifted W) (fun a a' => X b [a, a', k]) i j)) fun b _ i _ j _ k _ => hv _ (hp _ i j)).1 rfl
        (tab_congr fun idx hv => ?_)
      match idx, hv with
      | [b, i, j, e], _ => rfl
    · match idx, hi with
      | [i, j, k], hi =>
        rw [one_mul]
        exact key _ _ ε i j hε fun a ha b hb => h [a, b, k] ⟨ha, hb, hi.2.2.1, trivial⟩
  · refine ⟨zero_le_one, fun x => fn3 fun k i j =>
      v (pixels (shifted H) (shifted W) (fun a a' => x [k, a, a']) i j), fun n X => ?_, fun x x' ε hε h idx hi => ?_⟩
    · rw [tab4_rows]
      refine .of (poolLayer_gen junk acc hH hW ht (n := n) (c := c) (fun l i j k => X l [k, i, j]) (fun b i j k =>
        v (pixels (shifted H) (shifted W) (fun a a' => X b [k, a, a']) i j)) fun b _ i _ j _ k _ => hv _ (hp _ i j)).2 rfl
        (tab_congr fun idx hv => ?_)
      match idx, hv with
      | [b, i, j, e], _ => rfl
    · match idx, hi with
      | [k, i, j], hi =>
        rw [one_mul]
        exact key _ _ ε i j hε fun a ha b hb => h [k, a, b] ⟨hi.1, ha, hb, trivial⟩

/-- C144: max pooling layers, both layouts. -/
theorem C144_max_pool (junk : Nat → ℝ) (lowest : ℝ) {H W : Axis} (hH : AxisOK u32 H) (hW : AxisOK u32 W)
    {t : PoolLayer} (ht : PoolHasAxes t H W) (c : Nat) :
    Stretch (pool .nhwc junk (Acc.max lowest) t) [H.n, W.n, c] [H.m, W.m, c] 1 ∧
    Stretch (pool .nchw junk (Acc.max lowest) t) [c, H.n, W.n] [c, H.m, W.m] 1 := by
  refine pool_stretch junk _ hH hW ht c _ (fun l _ => max_run lowest l) fun ps x x' ε hε h => ?_
  have e : ∀ a b : ℝ, (if a > b then a else b) = max a b := fun a b => by
    split
    · next h => exact (max_eq_left h.le).symm
    · next h => exact (max_eq_right (not_lt.1 h)).symm
  simp only [e, List.foldl_map]
  have : ∀ a a' : ℝ, |a - a'| ≤ ε →
      |ps.foldl (fun v p => max (x p) v) a - ps.foldl (fun v p => max (x' p) v) a'| ≤ ε := by
    induction ps with
    | nil => exact fun a a' h => h
    | cons p ps ih =>
      intro a a' ha
      exact ih (fun q hq => h q (List.mem_cons_of_mem _ hq)) _ _
        ((abs_max_sub_max_le_max _ _ _ _).trans (max_le (h p List.mem_cons_self) ha))
  exact this _ _ (by simpa using hε)

/-- C144: mean pooling layers, both layouts; every window must see a pixel (else the layer divides by zero). -/
theorem C144_mean_pool (junk : Nat → ℝ) {H W : Axis} (hH : AxisOK u32 H) (hW : AxisOK u32 W)
    {t : PoolLayer} (ht : PoolHasAxes t H W) (hk : H.k * W.k < 2 ^ 32) (c : Nat)
    (_hne : ∀ i < H.m, ∀ j < W.m, (win (shifted H) (shifted W) i j).Nonempty) :
    Stretch (pool .nhwc junk (Acc.mean fun (s : ℝ) n => s / n) t) [H.n, W.n, c] [H.m, W.m, c] 1 ∧
    Stretch (pool .nchw junk (Acc.mean fun (s : ℝ) n => s / n) t) [c, H.n, W.n] [c, H.m, W.m] 1 := by
  refine pool_stretch junk _ hH hW ht c _ (fun l hl => mean_run _ l (by omega)) fun ps x x' ε hε h => ?_
  simp only [List.length_map, ← List.sum_eq_foldl]
  rw [← sub_div, abs_div, Nat.abs_cast]
  refine div_le_of_le_mul₀ (Nat.cast_nonneg _) hε ?_
  induction ps with
  | nil => simp
  | cons p ps ih =>
    have := ih fun q hq => h q (List.mem_cons_of_mem _ hq)
    have hp := h p List.mem_cons_self
    simp only [List.map_cons, List.sum_cons, List.length_cons, Nat.cast_succ]
    rw [add_sub_add_comm]
    refine (abs_add_le _ _).trans ?_
    linarith

/-- C144: elementwise activation layers. -/
theorem C144_activation (junk : Nat → ℝ) {f : ℝ → ℝ} (hf : NoStretch f) (ds : List Nat) : Stretch (activationOf junk f) ds ds 1 := by
  refine ⟨zero_le_one, fun x i => f (x i), fun n X => ?_, fun x x' ε _ h i hi => ?_⟩
  · refine .of (activationOf_run junk f _ (by simp)) rfl ?_
    simp [tab]
  · rw [one_mul]
    exact (hf _ _).trans (h i hi)

section
variable (sqrt : ℝ → ℝ) (eps : ℝ) (junkM junkV junkB junkG junkY : Nat → ℝ) {act : Act ℝ} {f : ℝ → ℝ} {h w c : Nat}
  (M V β γ : Nat → ℝ) {meanInit varInit betaInit gammaInit : Init ℝ} {L : ℝ}

theorem normalize_stretch (hf : NoStretch f) {x x' ε m s g b : ℝ} (hs : |g / s| ≤ L) (hx : |x - x'| ≤ ε) :
    |f ((x - m) / s * g + b) - f ((x' - m) / s * g + b)| ≤ L * ε := by
  refine (hf _ _).trans ?_
  have : (x - m) / s * g + b - ((x' - m) / s * g + b) = g / s * (x - x') := by ring
  rw [this, abs_mul]
  exact mul_le_mul hs hx (abs_nonneg _) ((abs_nonneg _).trans hs)

/-- C144: batch normalisation layers, `nhwc`. -/
theorem C144_bn_nhwc (hact : ActsAs act f) (hf : NoStretch f)
    (h1 : meanInit [c] (fresh junkM [c].prod) = .ok (tab [c] (fn1 M)).data)
    (h2 : varInit [c] (fresh junkV [c].prod) = .ok (tab [c] (fn1 V)).data)
    (h3 : betaInit [c] (fresh junkB [c].prod) = .ok (tab [c] (fn1 β)).data)
    (h4 : gammaInit [c] (fresh junkG [c].prod) = .ok (tab [c] (fn1 γ)).data) (h0 : 0 ≤ L)
    (_hs : ∀ k < c, sqrt (V k) + eps ≠ 0) (hL : ∀ k < c, |γ k / (sqrt (V k) + eps)| ≤ L) :
    Stretch (fun x => Layers.batchNorm sqrt eps .nhwc junkM junkV junkB junkG junkY act x meanInit varInit betaInit
      gammaInit) [h, w, c] [h, w, c] L := by
  refine ⟨h0, fun x => fn3 fun i j k => f ((x [i, j, k] - M k) / (sqrt (V k) + eps) * γ k + β k), fun n X => ?_,
    fun x x' ε hε h idx hi => ?_⟩
  · rw [tab4_rows]
    refine .of (C86_bn_nhwc sqrt eps junkM junkV junkB junkG junkY hact (n := n) (fun l i j k => X l [i, j, k]) M V β γ h1 h2 h3
      h4) rfl (tab_congr fun idx hv => ?_)
    match idx, hv with
    | [b, i, j, e], _ => rfl
  · match idx, hi with
    | [i, j, k], hi => exact normalize_stretch hf (hL k hi.2.2.1) (h [i, j, k] hi)

/-- C144: batch normalisation layers, `nchw`. -/
theorem C144_bn_nchw (hact : ActsAs act f) (hf : NoStretch f)
    (h1 : meanInit [c] (fresh junkM [c].prod) = .ok (tab [c] (fn1 M)).data)
    (h2 : varInit [c] (fresh junkV [c].prod) = .ok (tab [c] (fn1 V)).data)
    (h3 : betaInit [c] (fresh junkB [c].prod) = .ok (tab [c] (fn1 β)).data)
    (h4 : gammaInit [c] (fresh junkG [c].prod) = .ok (tab [c] (fn1 γ)).data) (h0 : 0 ≤ L)
    (_hs : ∀ k < c, sqrt (V k) + eps ≠ 0) (hL : ∀ k < c, |γ k / (sqrt (V k) + eps)| ≤ L) :
    Stretch (fun x => Layers.batchNorm sqrt eps .nchw junkM junkV junkB junkG junkY act x meanInit varInit betaInit
      gammaInit) [c, h, w] [c, h, w] L := by
  refine ⟨h0, fun x => fn3 fun k i j => f ((x [k, i, j] - M k) / (sqrt (V k) + eps) * γ k + β k), fun n X => ?_,
    fun x x' ε hε h idx hi => ?_⟩
  · rw [tab4_rows]
    refine .of (C86_bn_nchw sqrt eps junkM junkV junkB junkG junkY hact (n := n) (fun l i j k => X l [i, j, k]) M V β γ h1 h2 h3
      h4) rfl (tab_congr fun idx hv => ?_)
    match idx, hv with
    | [b, i, j, e], _ => rfl
  · match idx, hi with
    | [k, i, j], hi => exact normalize_stretch hf (hL k hi.1) (h [k, i, j] hi)

end

/-! ## Softmax -/

/-- `1 / (1 + exp t)` has slopes of at most `1 / 4`. -/
theorem logistic_stretch (a b : ℝ) : |1 / (1 + Real.exp a) - 1 / (1 + Real.exp b)| ≤ 1 / 4 * |a - b| := by
  have hd : ∀ t : ℝ, HasDerivAt (fun t => 1 / (1 + Real.exp t)) (-Real.exp t / (1 + Real.exp t) ^ 2) t := fun t => by
    have h := ((Real.hasDerivAt_exp t).const_add 1).inv (by positivity)
    simp only [one_div]
    exact h
  have hb : ∀ t : ℝ, ‖-Real.exp t / (1 + Real.exp t) ^ 2‖ ≤ 1 / 4 := fun t => by
    rw [norm_div, norm_neg, Real.norm_eq_abs, Real.norm_eq_abs, abs_of_pos (Real.exp_pos t),
      abs_of_pos (by positivity : 0 < (1 + Real.exp t) ^ 2), div_le_iff₀ (by positivity)]
    nlinarith [sq_nonneg (1 - Real.exp t)]
  have := Convex.norm_image_sub_le_of_norm_hasDerivWithin_le (s := Set.univ) (C := 1 / 4)
    (fun t _ => (hd t).hasDerivWithinAt) (fun t _ => hb t) convex_univ (Set.mem_univ b) (Set.mem_univ a)
  simpa [Real.norm_eq_abs] using this

theorem softmax_stretch {k i : Nat} (hi : i < k) {x x' : Nat → ℝ} {ε : ℝ} (hε : 0 ≤ ε) (h : ∀ j < k, |x j - x' j| ≤ ε) :
    |1 / ∑ j ∈ range k, Real.exp (x j - x i) - 1 / ∑ j ∈ range k, Real.exp (x' j - x' i)| ≤ 1 / 2 * ε := by
  have split : ∀ x : Nat → ℝ, ∑ j ∈ range k, Real.exp (x j - x i) = 1 + ∑ j ∈ (range k).erase i, Real.exp (x j - x i) := fun x => by
    rw [← add_sum_erase _ _ (mem_range.2 hi)]
    simp
  rw [split, split]
  rcases ((range k).erase i).eq_empty_or_nonempty with he | hne
  · rw [he]
    simpa using by linarith
  have pos : ∀ x : Nat → ℝ, 0 < ∑ j ∈ (range k).erase i, Real.exp (x j - x i) := fun x =>
    sum_pos (fun j _ => Real.exp_pos _) hne
  have one : ∀ x x' : Nat → ℝ, (∀ j < k, |x j - x' j| ≤ ε) →
      Real.log (∑ j ∈ (range k).erase i, Real.exp (x j - x i)) ≤
        2 * ε + Real.log (∑ j ∈ (range k).erase i, Real.exp (x' j - x' i)) := fun x x' h => by
    rw [← Real.log_exp (2 * ε), ← Real.log_mul (Real.exp_ne_zero _) (pos x').ne']
    refine Real.log_le_log (pos x) ?_
    rw [mul_sum]
    refine sum_le_sum fun j hj => ?_
    rw [← Real.exp_add]
    have h1 := abs_le.1 (h j (mem_range.1 (mem_of_mem_erase hj)))
    have h2 := abs_le.1 (h i hi)
    exact Real.exp_le_exp.2 (by linarith [h1.1, h1.2, h2.1, h2.2])
  have h1 := one x x' h
  have h2 := one x' x fun j hj => by rw [abs_sub_comm]; exact h j hj
  have key := logistic_stretch (Real.log (∑ j ∈ (range k).erase i, Real.exp (x j - x i)))
    (Real.log (∑ j ∈ (range k).erase i, Real.exp (x' j - x' i)))
  rw [Real.exp_log (pos x), Real.exp_log (pos x')] at key
  have : |Real.log (∑ j ∈ (range k).erase i, Real.exp (x j - x i)) -
      Real.log (∑ j ∈ (range k).erase i, Real.exp (x' j - x' i))| ≤ 2 * ε := abs_le.2 ⟨by linarith, by linarith⟩
  linarith

/-- C144: softmax layers halve every change: no probability moves by more than half the greatest change of a score. -/
theorem C144_softmax (junk : Nat → ℝ) (eps : ℝ) (k : Nat) :
    Stretch (activation junk fun s x m => Ops.softmax Real.exp eps s x.dims (.ext x.data) 0 m) [k] [k] (1 / 2) := by
  refine ⟨by norm_num, fun x => fn1 fun i => max (1 / ∑ j ∈ range k, Real.exp (x [j] - x [i])) eps, fun n X => ?_,
    fun x x' ε hε h idx hi => ?_⟩
  · have e := C51_order Real.exp eps [n] k (fun idx => X (idx.headD 0) idx.tail) (z := 0)
      (m := fresh junk [n, k].prod) (by simp [fresh_length])
    rw [store_all (by simp [fresh_length])] at e
    have e2 : newResult junk (.ok [n, k]) (fun s m => Ops.softmax Real.exp eps s [n, k]
        (.ext (tab [n, k] fun idx => X (idx.headD 0) idx.tail).data) 0 m) = _ := newResult_run e
    refine .of (ws := []) (a := 1) (y' := ?_) ?_ rfl ?_
    rotate_left
    · show Alloc.bind _ _ = _
      simp only [Ops.endoShape, tab_dims]
      rw [e2]
      rfl
    · refine mk_tab_eq (dims := [n, k]) fun idx hv => ?_
      match idx, hv with
      | [b, i], hv =>
        simp only [List.dropLast, List.cons_append, List.nil_append, List.headD_cons, List.tail_cons, List.getLastD_cons,
          seqSum_eq_sum, fn1_apply]
        split
        · next h => exact (max_eq_left h.le).symm
        · next h => exact (max_eq_right (not_lt.1 h)).symm
  · match idx, hi with
    | [i], hi =>
      exact (abs_max_sub_max_le_abs _ _ _).trans (softmax_stretch hi.1 hε fun j hj => h [j] ⟨hj, trivial⟩)

/-! ## Concrete cases -/

/-- Weights of a dense layer with three inputs and two outputs: `2, -1, 1/2` and `-1, 1, 1`. -/
noncomputable def exStretchW : Nat → Nat → ℝ := fun l j => if j = 0 then [2, -1, 1 / 2].getD l 0 else [-1, 1, 1].getD l 0

/-- A dense layer with these weights, bias `j` and `relu`. -/
noncomputable def exStretchF : LayerFn ℝ := fun x => dense (fun _ => 5) (fun _ => 6) (fun _ => 7) reluAct 2 x
  (exInit (fn2 exStretchW)) (exInit (fn1 fun j => (j : ℝ)))

/-- The layer stretches by at most `7/2`. -/
theorem exStretchF_le : Stretch exStretchF [3] [2] (7 / 2) :=
  C144_dense _ _ _ relu_acts relu_noStretch (by decide) exStretchW (fun j => (j : ℝ)) rfl rfl (by norm_num) fun j hj => by
    match j, hj with
    | 0, _ => norm_num [sum_range_succ, exStretchW, abs_of_nonneg]
    | 1, _ => norm_num [sum_range_succ, exStretchW, abs_of_nonneg]

/-- The scores of the example `(1, 1, 2)` are `2, 3`. -/
theorem exStretchF_at : Gives exStretchF (tab [1, 3] fun idx => (fun _ i => fn1 (fun l => [1, 1, 2].getD l 0) i) (idx.headD 0) idx.tail)
    (tab [1, 2] (fn2 fun _ j => [2, 3].getD j 0)) := by
  refine .of (C77_dense (n := 1) (k := 2) (fun _ => (5 : ℝ)) (fun _ => 6) (fun _ => 7) relu_acts (by decide)
    (fun _ l => [1, 1, 2].getD l 0) exStretchW (fun j => (j : ℝ)) (wInit := exInit (fn2 exStretchW))
    (bInit := exInit (fn1 fun j => (j : ℝ))) rfl rfl) rfl (tab_congr fun idx hv => ?_)
  match idx, hv with
  | [i, 0], _ => norm_num [seqSum_eq_sum, sum_range_succ, exStretchW]
  | [i, 1], _ => norm_num [seqSum_eq_sum, sum_range_succ, exStretchW]

/-- Its class is safe against changes of at most `1/10` of every element. -/
example (X' : Nat → List Nat → ℝ) (hX : ∀ b < 1, ∀ i, Valid [3] i → |fn1 (fun l => [1, 1, 2].getD l 0) i - X' b i| ≤ 1 / 10) :=
  C144_certificate (n := 1) exStretchF_le (by norm_num : (0 : ℝ) ≤ 1 / 10) u32 (X := fun _ => fn1 fun l => [1, 1, 2].getD l 0) hX
    exStretchF_at (cls := fun _ => 1) (fun _ _ => by decide) fun b _ j hj hne => by
      match j, hj with
      | 0, _ => norm_num
      | 1, _ => exact absurd rfl hne

example := C144_composed exStretchF_le (C144_softmax (fun _ => 1) (1 / 1000) 2)
example := C144_sequential (fun _ => 1) [exStretchF, activation (fun _ => 1) fun s x m => Ops.softmax Real.exp 0 s x.dims (.ext x.data) 0 m]
  (fun i => [[3], [2], [2]].getD i []) (fun i => [7 / 2, 1 / 2].getD i 0) fun i hi => by
    match i, hi with
    | 0, _ => exact exStretchF_le
    | 1, _ => exact C144_softmax _ _ _
example := C144_dense_sharp (fun _ => 5) (fun _ => 6) (fun _ => 7) noop_acts (m := 3) (k := 2) (by decide) exStretchW (fun j => (j : ℝ))
  (wInit := exInit (fn2 exStretchW)) (bInit := exInit (fn1 fun j => (j : ℝ))) rfl rfl (j := 1) (by decide) (fun _ => 4)
  (by norm_num : (0 : ℝ) ≤ 1 / 10)
example := C144_conv_nhwc (fun _ => 1) (fun _ => 2) (fun _ => 3) (fun _ => 4) (fun _ => 5) (c := 3) (fun r s k e => (r : ℝ) - s + k * e)
  (fun e => 9 * e) relu_acts relu_noStretch exL_ok exW_ok exLayer_axes (by decide)
  (wInit := exInit (fn4 fun r s k e => (r : ℝ) - s + k * e)) (bInit := exInit (fn1 fun e => (9 : ℝ) * e)) rfl rfl
  (L := ∑ e ∈ range exLayer.filters, ∑ r ∈ range exL.k, ∑ s ∈ range exW.k, ∑ k ∈ range 3, |(r : ℝ) - s + k * e|) (by positivity)
  fun e he => single_le_sum (f := fun e : Nat => ∑ r ∈ range exL.k, ∑ s ∈ range exW.k, ∑ k ∈ range 3, |(r : ℝ) - s + k * e|)
    (fun _ _ => by positivity) (mem_range.2 he)
example := C144_conv_nchw (fun _ => 1) (fun _ => 2) (fun _ => 3) (fun _ => 4) (fun _ => 5) (c := 3) (fun e k r s => (r : ℝ) - s + k * e)
  (fun e => 9 * e) relu_acts relu_noStretch exL_ok exW_ok exLayer_axes
  (wInit := exInit (fn4 fun e k r s => (r : ℝ) - s + k * e)) (bInit := exInit (fn1 fun e => (9 : ℝ) * e)) rfl rfl
  (L := ∑ e ∈ range exLayer.filters, ∑ r ∈ range exL.k, ∑ s ∈ range exW.k, ∑ k ∈ range 3, |(r : ℝ) - s + k * e|) (by positivity)
  fun e he => single_le_sum (f := fun e : Nat => ∑ r ∈ range exL.k, ∑ s ∈ range exW.k, ∑ k ∈ range 3, |(r : ℝ) - s + k * e|)
    (fun _ _ => by positivity) (mem_range.2 he)
example := C144_max_pool (fun _ => 1) (-128) exPadH_ok exPadW_ok exPad_axes 3
example := C144_mean_pool (fun _ => 1) exPoolH_ok exPoolW_ok exPool_axes (by decide) 3 (by decide)
example := C144_activation (fun _ => 1) relu_noStretch [2, 3, 4]
example := C144_bn_nhwc id (1 / 8) (fun _ => 1) (fun _ => 2) (fun _ => 3) (fun _ => 4) (fun _ => 5) (h := 2) (w := 3) (c := 2)
  (fun k => (k : ℝ)) (fun k => 1 + k) (fun k => 2 - k) (fun k => 3 * k) relu_acts relu_noStretch (meanInit := exInit (fn1 fun k => k))
  (varInit := exInit (fn1 fun k => 1 + k)) (betaInit := exInit (fn1 fun k => 2 - k)) (gammaInit := exInit (fn1 fun k => 3 * k))
  rfl rfl rfl rfl (by norm_num : (0 : ℝ) ≤ 3) (fun k _ => by show (1 + (k : ℝ)) + 1 / 8 ≠ 0; positivity) fun k hk => by
    match k, hk with
    | 0, _ => norm_num
    | 1, _ => norm_num [abs_of_nonneg]
example := C144_bn_nchw id (1 / 8) (fun _ => 1) (fun _ => 2) (fun _ => 3) (fun _ => 4) (fun _ => 5) (h := 2) (w := 3) (c := 2)
  (fun k => (k : ℝ)) (fun k => 1 + k) (fun k => 2 - k) (fun k => 3 * k) relu_acts relu_noStretch (meanInit := exInit (fn1 fun k => k))
  (varInit := exInit (fn1 fun k => 1 + k)) (betaInit := exInit (fn1 fun k => 2 - k)) (gammaInit := exInit (fn1 fun k => 3 * k))
  rfl rfl rfl rfl (by norm_num : (0 : ℝ) ≤ 3) (fun k _ => by show (1 + (k : ℝ)) + 1 / 8 ≠ 0; positivity) fun k hk => by
    match k, hk with
    | 0, _ => norm_num
    | 1, _ => norm_num [abs_of_nonneg]

end StdNN
