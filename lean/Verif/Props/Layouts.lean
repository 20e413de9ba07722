import Verif.Props.Batch
import Verif.Props.ConvLaws
import Verif.Props.EngineOrder
/-!
# C156: networks do not depend on the layout of images
-/
namespace StdNN
open IntTy Spec Outcome Layers Models Finset
variable {R : Type}

/-- `f` takes and returns images with channels last, `g` the same images with channels first: from images of `h` by `w` pixels and
`c` channels to images of `h'` by `w'` pixels and `c'` channels. -/
def SameImages [Zero R] (f g : LayerFn R) (h w c h' w' c' : Nat) : Prop :=
  ∀ (n : Nat) (X : Nat → Nat → Nat → Nat → R), ∃ Z : Nat → Nat → Nat → Nat → R,
    Gives f (tab [n, h, w, c] (fn4 X)) (tab [n, h', w', c'] (fn4 Z)) ∧
    Gives g (tab [n, c, h, w] (fn4 fun b k i j => X b i j k)) (tab [n, c', h', w'] (fn4 fun b k i j => Z b i j k))

/-- `f` takes images with channels last, `g` the same images with channels first; they return the same tensor, examples of shape
`es`. -/
def SameResults [Zero R] (f g : LayerFn R) (h w c : Nat) (es : List Nat) : Prop :=
  ∀ (n : Nat) (X : Nat → Nat → Nat → Nat → R), ∃ z : List Nat → R,
    Gives f (tab [n, h, w, c] (fn4 X)) (tab (n :: es) z) ∧
    Gives g (tab [n, c, h, w] (fn4 fun b k i j => X b i j k)) (tab (n :: es) z)

/-! ## What it means -/

/-- C156: in terms of the library's own transposition: transposing the output of `f` is the same as running `g` on the transposed
input, for every batch. -/
theorem C156_transposed [Zero R] {f g : LayerFn R} {h w c h' w' c' : Nat} (hs : SameImages f g h w c h' w' c') (n : Nat) {x : List R}
    (hx : x.length = [n, h, w, c].prod) {b1 b2 : List R} (h1 : b1.length = [n, c, h, w].prod)
    (h2 : b2.length = [n, c', h', w'].prod) :
    ∃ y x' y' : List R, Gives f ⟨[n, h, w, c], x⟩ ⟨[n, h', w', c'], y⟩ ∧
      Kernels.toFirst id [n, c, h, w] ⟨[n, h, w, c], x⟩ b1 = .ok x' ∧
      Kernels.toFirst id [n, c', h', w'] ⟨[n, h', w', c'], y⟩ b2 = .ok y' ∧
      Gives g ⟨[n, c, h, w], x'⟩ ⟨[n, c', h', w'], y'⟩ := by
  obtain ⟨X, rfl⟩ : ∃ X : Nat → Nat → Nat → Nat → R, x = (tab [n, h, w, c] (fn4 X)).data := by
    obtain ⟨X, e⟩ := tab_rows (a := n) (ds := [h, w, c]) (x := x) (by rw [hx, List.prod_cons])
    exact ⟨fun l i j k => X l [i, j, k], by rw [e, tab4_rows]⟩
  obtain ⟨Z, z1, z2⟩ := hs n X
  exact ⟨_, _, _, z1, Kernels.toFirst_run id X h1, Kernels.toFirst_run id Z h2, z2⟩

/-! ## Networks -/

/-- C156 (networks): one layer after the other. -/
theorem C156_composed [Zero R] {f g f' g' : LayerFn R} {h w c h' w' c' h'' w'' c'' : Nat} (h1 : SameImages f g h w c h' w' c')
    (h2 : SameImages f' g' h' w' c' h'' w'' c'') : SameImages (composed f f') (composed g g') h w c h'' w'' c'' := by
  intro n X
  obtain ⟨Z, z1, z2⟩ := h1 n X
  obtain ⟨V, v1, v2⟩ := h2 n Z
  exact ⟨V, z1.comp v1, z2.comp v2⟩

/-- C156 (sequential models of any length). -/
theorem C156_sequential [Zero R] (junk junk' : Nat → R) (ls ls' : List (LayerFn R)) (hl : ls.length = ls'.length) (h w c : Nat → Nat)
    (hs : ∀ i (hi : i < ls.length), SameImages ls[i] (ls'[i]'(hl ▸ hi)) (h i) (w i) (c i) (h (i + 1)) (w (i + 1)) (c (i + 1))) :
    SameImages (sequential junk ls) (sequential junk' ls') (h 0) (w 0) (c 0) (h ls.length) (w ls.length) (c ls.length) := by
  induction ls using List.reverseRecOn generalizing ls' with
  | nil =>
    obtain rfl : ls' = [] := List.length_eq_zero_iff.1 (by simpa using hl.symm)
    exact fun n X => ⟨X, ⟨[], identity_run junk (tab_wf _ _)⟩, ⟨[], identity_run junk' (tab_wf _ _)⟩⟩
  | append_singleton ls l ih =>
    obtain ⟨ls', l', rfl⟩ : ∃ us u, ls' = us ++ [u] := by
      have : ls' ≠ [] := fun e => by simp [e] at hl
      exact ⟨_, _, (List.dropLast_append_getLast this).symm⟩
    have hl' : ls.length = ls'.length := by simpa using hl
    rw [sequential_snoc, sequential_snoc]
    have hg := hs ls.length (by simp)
    rw [List.getElem_append_right (le_refl _), List.getElem_append_right (by omega)] at hg
    simp only [Nat.sub_self, hl', List.getElem_cons_zero] at hg
    have := ih ls' hl' fun i hi => by
      have := hs i (by simp; omega)
      rwa [List.getElem_append_left hi, List.getElem_append_left (by omega)] at this
    rw [hl'] at this
    simpa [hl'] using C156_composed this hg

/-- C156 (classifiers): images first, then layers that return the same tensor. -/
theorem C156_classifier [Zero R] {f g f' g' : LayerFn R} {h w c h' w' c' : Nat} {es : List Nat} (h1 : SameImages f g h w c h' w' c')
    (h2 : SameResults f' g' h' w' c' es) : SameResults (composed f f') (composed g g') h w c es := by
  intro n X
  obtain ⟨Z, z1, z2⟩ := h1 n X
  obtain ⟨V, v1, v2⟩ := h2 n Z
  exact ⟨V, z1.comp v1, z2.comp v2⟩

/-- C156 (classifiers): the layers after that are the same for both layouts. -/
theorem C156_head [Zero R] {f g k : LayerFn R} {h w c : Nat} {es fs : List Nat} (h1 : SameResults f g h w c es)
    (h2 : ∀ n z, ∃ v, Gives k (tab (n :: es) z) (tab (n :: fs) v)) : SameResults (composed f k) (composed g k) h w c fs := by
  intro n X
  obtain ⟨z, z1, z2⟩ := h1 n X
  obtain ⟨v, hv⟩ := h2 n z
  exact ⟨v, z1.comp hv, z2.comp hv⟩

/-! ## Layers -/

section conv
variable (junkW junkY junkB junk junkW' junkY' junkB' junk' : Nat → R) (junkI junkI' : Nat → Int) {act act' : Act R} {φ : R → R}
  {H W : Axis} {t : ConvLayer} {c : Nat} (Y : Nat → Nat → Nat → Nat → R) (B : Nat → R) {wInit bInit wInit' bInit' : Init R}

/-- C156 (convolution layers): the filter is transposed from `rscd` to `dcrs`; exact arithmetic. -/
theorem C156_conv [CommSemiring R] (hact : ActsAs act φ) (hact' : ActsAs act' φ) (hH : AxisOK u32 H) (hW : AxisOK u32 W)
    (ht : HasAxes t H W) (hsz : [H.n, W.n, c].prod ≤ 2 ^ 31)
    (hw : wInit [H.k, W.k, c, t.filters] (fresh junkW [H.k, W.k, c, t.filters].prod) =
      .ok (tab [H.k, W.k, c, t.filters] (fn4 Y)).data)
    (hb : bInit [t.filters] (fresh junkB [t.filters].prod) = .ok (tab [t.filters] (fn1 B)).data)
    (hw' : wInit' [t.filters, c, H.k, W.k] (fresh junkW' [t.filters, c, H.k, W.k].prod) =
      .ok (tab [t.filters, c, H.k, W.k] (fn4 fun e k u v => Y u v k e)).data)
    (hb' : bInit' [t.filters] (fresh junkB' [t.filters].prod) = .ok (tab [t.filters] (fn1 B)).data) :
    SameImages (fun x => Layers.conv .nhwc .rscd junkW junkY junkB junkI junk act t x wInit bInit)
      (fun x => Layers.conv .nchw .dcrs junkW' junkY' junkB' junkI' junk' act' t x wInit' bInit')
      H.n W.n c H.m W.m t.filters := fun _ X =>
  ⟨fun b i j e => φ (conv2 H W c (X b) Y i j e + B e), .of (C78_conv_nhwc junkW junkY junkB junkI junk hact hH hW ht hsz X Y B hw hb) rfl rfl,
    .of (C78_conv_nchw junkW' junkY' junkB' junkI' junk' hact' hH hW ht (fun b k i j => X b i j k) _ B hw' hb') rfl rfl⟩

/-- C156 (convolution layers with one channel, or with a 1 by 1 kernel): bit for bit, for every element type with a commutative
multiplication; no other law of the arithmetic is used. -/
theorem C156_conv_bits [Zero R] [Add R] [Mul R] (hm : ∀ a b : R, a * b = b * a) (hc : c = 1 ∨ H.k = 1 ∧ W.k = 1)
    (hact : ActsAs act φ) (hact' : ActsAs act' φ) (hH : AxisOK u32 H) (hW : AxisOK u32 W)
    (ht : HasAxes t H W) (hsz : [H.n, W.n, c].prod ≤ 2 ^ 31)
    (hw : wInit [H.k, W.k, c, t.filters] (fresh junkW [H.k, W.k, c, t.filters].prod) =
      .ok (tab [H.k, W.k, c, t.filters] (fn4 Y)).data)
    (hb : bInit [t.filters] (fresh junkB [t.filters].prod) = .ok (tab [t.filters] (fn1 B)).data)
    (hw' : wInit' [t.filters, c, H.k, W.k] (fresh junkW' [t.filters, c, H.k, W.k].prod) =
      .ok (tab [t.filters, c, H.k, W.k] (fn4 fun e k u v => Y u v k e)).data)
    (hb' : bInit' [t.filters] (fresh junkB' [t.filters].prod) = .ok (tab [t.filters] (fn1 B)).data) :
    SameImages (fun x => Layers.conv .nhwc .rscd junkW junkY junkB junkI junk act t x wInit bInit)
      (fun x => Layers.conv .nchw .dcrs junkW' junkY' junkB' junkI' junk' act' t x wInit' bInit')
      H.n W.n c H.m W.m t.filters := fun n X => by
  refine ⟨fun b i j e => φ ((seqSum (H.k * (W.k * c)) fun p =>
        window H W (fun a a' => X b a a' (p % (W.k * c) % c)) i j (p / (W.k * c)) (p % (W.k * c) / c) *
          Y (p / (W.k * c)) (p % (W.k * c) / c) (p % (W.k * c) % c) e) + B e),
    .of (conv_layer_nhwc junkW junkY junkB junkI junk hact hH hW ht X Y _ B
      (fun z hz => C91_conv_order hH hW hsz X Y junkI junk hz) hw hb) rfl rfl,
    .of (conv_layer_nchw junkW' junkY' junkB' junkI' junk' hact' hH hW ht (fun b k i j => X b i j k) _ _ B
      (fun z hz => C91_conv_order_nchw hH hW _ _ junk' hz) hw' hb') rfl (tab_congr fun idx hv => ?_)⟩
  match idx, hv with
  | [b, e, i, j], hv =>
    simp only [fn4_apply]
    refine congrArg (fun s : R => φ (s + B e)) ?_
    rcases hc with rfl | ⟨hk, hk'⟩
    · rw [Nat.one_mul, Nat.mul_one]
      refine seqSum_congr fun p hp => ?_
      rw [Nat.mod_eq_of_lt hp, Nat.div_eq_of_lt hp, Nat.div_one, Nat.mod_one]
      exact hm _ _
    · simp only [hk, hk', Nat.one_mul, Nat.mul_one]
      refine seqSum_congr fun p hp => ?_
      simp only [Nat.mod_eq_of_lt hp, Nat.div_eq_of_lt hp, Nat.mod_one, Nat.div_one]
      exact hm _ _

end conv

/-- C156 (pooling layers, any accumulator), any arithmetic. -/
theorem C156_pool [Zero R] (junk junk' : Nat → R) (acc : Acc R) (hacc : ∀ l, ∃ r, acc.run l = .ok r) {H W : Axis}
    (hH : AxisOK u32 H) (hW : AxisOK u32 W) {t : PoolLayer} (ht : PoolHasAxes t H W) (c : Nat) :
    SameImages (pool .nhwc junk acc t) (pool .nchw junk' acc t) H.n W.n c H.m W.m c := fun n X => by
  choose val hval using hacc
  exact ⟨fun b i j k => val (pixels (shifted H) (shifted W) (fun a a' => X b a a' k) i j),
    .of (poolLayer_gen junk acc hH hW ht X _ fun b _ i _ j _ k _ => hval _).1 rfl rfl,
    .of (poolLayer_gen junk' acc hH hW ht X _ fun b _ i _ j _ k _ => hval _).2 rfl rfl⟩

/-- C156 (batch normalisation layers), any arithmetic. -/
theorem C156_bn [Zero R] [Add R] [Sub R] [Mul R] [Div R] (sqrt : R → R) (eps : R)
    (junkM junkV junkB junkG junkY junkM' junkV' junkB' junkG' junkY' : Nat → R) {act act' : Act R} {φ : R → R}
    (hact : ActsAs act φ) (hact' : ActsAs act' φ) (h w : Nat) {c : Nat} (M V β γ : Nat → R)
    {meanInit varInit betaInit gammaInit meanInit' varInit' betaInit' gammaInit' : Init R}
    (h1 : meanInit [c] (fresh junkM [c].prod) = .ok (tab [c] (fn1 M)).data)
    (h2 : varInit [c] (fresh junkV [c].prod) = .ok (tab [c] (fn1 V)).data)
    (h3 : betaInit [c] (fresh junkB [c].prod) = .ok (tab [c] (fn1 β)).data)
    (h4 : gammaInit [c] (fresh junkG [c].prod) = .ok (tab [c] (fn1 γ)).data)
    (h1' : meanInit' [c] (fresh junkM' [c].prod) = .ok (tab [c] (fn1 M)).data)
    (h2' : varInit' [c] (fresh junkV' [c].prod) = .ok (tab [c] (fn1 V)).data)
    (h3' : betaInit' [c] (fresh junkB' [c].prod) = .ok (tab [c] (fn1 β)).data)
    (h4' : gammaInit' [c] (fresh junkG' [c].prod) = .ok (tab [c] (fn1 γ)).data) :
    SameImages (fun x => Layers.batchNorm sqrt eps .nhwc junkM junkV junkB junkG junkY act x meanInit varInit betaInit gammaInit)
      (fun x => Layers.batchNorm sqrt eps .nchw junkM' junkV' junkB' junkG' junkY' act' x meanInit' varInit' betaInit' gammaInit')
      h w c h w c := fun _ X =>
  ⟨fun l i j k => φ ((X l i j k - M k) / (sqrt (V k) + eps) * γ k + β k), .of (C86_bn_nhwc sqrt eps junkM junkV junkB junkG junkY hact X M V β γ h1 h2 h3 h4) rfl rfl,
    .of (C86_bn_nchw sqrt eps junkM' junkV' junkB' junkG' junkY' hact' (fun b k i j => X b i j k) M V β γ h1' h2' h3' h4') rfl rfl⟩

/-- C156 (elementwise activation layers), any arithmetic. -/
theorem C156_activation [Zero R] (junk junk' : Nat → R) (φ : R → R) (h w c : Nat) :
    SameImages (activationOf junk φ) (activationOf junk' φ) h w c h w c := fun n X => by
  have key : ∀ (junk : Nat → R) (a b c d : Nat) (X : Nat → Nat → Nat → Nat → R),
      Gives (activationOf junk φ) (tab [a, b, c, d] (fn4 X)) (tab [a, b, c, d] (fn4 fun i j k l => φ (X i j k l))) := by
    intro junk a b c d X
    refine .of (activationOf_run junk φ _ (tab_wf _ _)) rfl ?_
    simp only [tab, List.map_map]
    refine congrArg (Tensor.mk _) (List.map_congr_left fun p hp => ?_)
    simp [unravel]
  exact ⟨fun b i j k => φ (X b i j k), key junk n h w c X, key junk' n c h w _⟩

/-- C156 (flattening and a dense layer): the rows of the weights follow the pixels; exact arithmetic. -/
theorem C156_dense [CommSemiring R] (junkW junkY junkB junkW' junkY' junkB' : Nat → R) {act act' : Act R} {φ : R → R}
    (hact : ActsAs act φ) (hact' : ActsAs act' φ) {h w c m : Nat} (hm : m < 2 ^ 32) (U U' : Nat → Nat → R) (B : Nat → R)
    (hU : ∀ i < h, ∀ j < w, ∀ k < c, ∀ e < m, U' (offset [c, h, w] [k, i, j]) e = U (offset [h, w, c] [i, j, k]) e)
    {wInit bInit wInit' bInit' : Init R}
    (hw : wInit [[h, w, c].prod, m] (fresh junkW [[h, w, c].prod, m].prod) = .ok (tab [[h, w, c].prod, m] (fn2 U)).data)
    (hb : bInit [m] (fresh junkB [m].prod) = .ok (tab [m] (fn1 B)).data)
    (hw' : wInit' [[c, h, w].prod, m] (fresh junkW' [[c, h, w].prod, m].prod) = .ok (tab [[c, h, w].prod, m] (fn2 U')).data)
    (hb' : bInit' [m] (fresh junkB' [m].prod) = .ok (tab [m] (fn1 B)).data) :
    SameResults (fun x => dense junkW junkY junkB act m ⟨[x.dims.headD 0, [h, w, c].prod], x.data⟩ wInit bInit)
      (fun x => dense junkW' junkY' junkB' act' m ⟨[x.dims.headD 0, [c, h, w].prod], x.data⟩ wInit' bInit') h w c [m] := by
  intro n X
  have view : ∀ (a b c : Nat) (X : Nat → Nat → Nat → Nat → R),
      (⟨[n, [a, b, c].prod], (tab [n, a, b, c] (fn4 X)).data⟩ : Tensor R) =
        tab [n, [a, b, c].prod] (fn2 fun l p => fn3 (X l) (unravel [a, b, c] p)) := by
    intro a b c X
    have := tab_asMatrix (d1 := [n]) (d2 := [a, b, c]) (fn4 X)
    rw [show [n].prod = n by simp] at this
    refine this.trans (tab_congr fun idx hv => ?_)
    match idx, hv with
    | [l, p], hv =>
      simp [unravel, fn4_apply, fn3_apply]
  refine ⟨fn2 fun l e => φ ((∑ i ∈ range h, ∑ j ∈ range w, ∑ k ∈ range c, X l i j k * U (offset [h, w, c] [i, j, k]) e) + B e), ?_, ?_⟩
  · show Gives (fun x => dense junkW junkY junkB act m x wInit bInit) ⟨[n, [h, w, c].prod], (tab [n, h, w, c] (fn4 X)).data⟩ _
    rw [view]
    refine .of (C77_dense (n := n) junkW junkY junkB hact hm _ U B hw hb) rfl (tab_congr fun idx hv => ?_)
    match idx, hv with
    | [l, e], hv =>
      simp only [fn2_apply]
      have e1 := sum_unravel3 h w c fun idx => fn3 (X l) idx * U (offset [h, w, c] idx) e
      simp only [fn3_apply] at e1
      rw [seqSum_eq_sum, ← e1]
      refine congrArg (fun s : R => φ (s + B e)) (sum_congr rfl fun p hp => ?_)
      rw [offset_unravel (mem_range.1 hp)]
  · show Gives (fun x => dense junkW' junkY' junkB' act' m x wInit' bInit')
      ⟨[n, [c, h, w].prod], (tab [n, c, h, w] (fn4 fun b k i j => X b i j k)).data⟩ _
    rw [view]
    refine .of (C77_dense (n := n) junkW' junkY' junkB' hact' hm _ U' B hw' hb') rfl (tab_congr fun idx hv => ?_)
    match idx, hv with
    | [l, e], hv =>
      simp only [fn2_apply]
      have e1 : ∑ i ∈ range h, ∑ j ∈ range w, ∑ k ∈ range c, X l i j k * U (offset [h, w, c] [i, j, k]) e =
          ∑ k ∈ range c, ∑ i ∈ range h, ∑ j ∈ range w, X l i j k * U' (offset [c, h, w] [k, i, j]) e := by
        calc _ = ∑ i ∈ range h, ∑ k ∈ range c, ∑ j ∈ range w, X l i j k * U (offset [h, w, c] [i, j, k]) e :=
              sum_congr rfl fun i _ => sum_comm
          _ = ∑ k ∈ range c, ∑ i ∈ range h, ∑ j ∈ range w, X l i j k * U (offset [h, w, c] [i, j, k]) e := sum_comm
          _ = _ := sum_congr rfl fun k hk => sum_congr rfl fun i hi => sum_congr rfl fun j hj => by
              rw [hU i (mem_range.1 hi) j (mem_range.1 hj) k (mem_range.1 hk) e hv.2.1]
      have e2 := sum_unravel3 c h w fun idx => fn3 (fun k i j => X l i j k) idx * U' (offset [c, h, w] idx) e
      simp only [fn3_apply] at e2
      rw [e1, seqSum_eq_sum, ← e2]
      refine congrArg (fun s : R => φ (s + B e)) (sum_congr rfl fun p hp => ?_)
      rw [offset_unravel (mem_range.1 hp)]

/-! ## Rounding -/

section rounding

/-- C156: the multiplication of IEEE numbers is commutative, so `C156_conv_bits` is about them. -/
theorem C156_mul_comm {A : Arith} (a b : Ieee A) : a * b = b * a := by
  cases a with
  | nan => cases b <;> rfl
  | num a =>
    cases b with
    | nan => rfl
    | num b =>
      show Ieee.mul _ _ = Ieee.mul _ _
      unfold Ieee.mul
      dsimp only
      rw [mul_comm a b]
      refine if_congr or_comm rfl rfl

open Format
variable {F : Format} {bz : EReal → Option EReal}

/-- The image of one row: pixel 0 has the channels 1 and `u`, pixel 1 the channels -1 and 0. -/
noncomputable def exRow (F : Format) (j k : Nat) : ℝ := if j = 0 then (if k = 0 then 1 else F.u) else if k = 0 then -1 else 0

def exOneRow : Axis := ⟨1, 1, 1, 0, 0, 1, 1⟩
def exTwoColumns : Axis := ⟨2, 1, 1, 0, 0, 2, 1⟩

theorem exOneRow_ok : AxisOK u32 exOneRow := by
  refine ⟨⟨?_, ?_, ?_, ?_, ?_, ?_, ?_, ?_, ?_, ?_, ?_, ?_, ?_, ?_⟩, ?_⟩ <;> decide
theorem exTwoColumns_ok : AxisOK u32 exTwoColumns := by
  refine ⟨⟨?_, ?_, ?_, ?_, ?_, ?_, ?_, ?_, ?_, ?_, ?_, ?_, ?_, ?_⟩, ?_⟩ <;> decide

/-- C156 (the layouts round differently): the sum of all four numbers of an image of two pixels with two channels, as a
convolution with a 1 by 2 kernel of ones, is 0 with channels last and `u`, half the distance from 1 to the next number, with
channels first. -/
theorem C156_rounding (hmin : F.emin ≤ -1) (junkI : Nat → Int) (junk : Nat → Ieee (F.arith bz)) {z z' : List (Ieee (F.arith bz))}
    (hz : z.length = 1) (hz' : z'.length = 1) :
    Kernels.convNhwc (convTrait exOneRow exTwoColumns) junkI junk [1, 1, 1, 1]
        (tab [1, 1, 2, 2] (fn4 fun _ _ j k => fin F bz (exRow F j k))) (tab [1, 2, 2, 1] (fn4 fun _ _ _ _ => fin F bz 1)) z =
      .ok [fin F bz 0] ∧
    Kernels.convNchw (convTrait exOneRow exTwoColumns) junk [1, 1, 1, 1]
        (tab [1, 2, 1, 2] (fn4 fun _ k _ j => fin F bz (exRow F j k))) (tab [1, 2, 1, 2] (fn4 fun _ _ _ _ => fin F bz 1)) z' =
      .ok [fin F bz F.u] ∧
    fin F bz 0 ≠ fin F bz F.u := by
  have p1 := F.p1
  have u0 := F.u_pos
  have u1 : F.u ≤ 1 / 4 := by
    unfold u
    have : (2 : ℝ) ^ (-(F.p : ℤ)) ≤ 2 ^ (-2 : ℤ) := two_le (by omega)
    norm_num at this ⊢
    linarith
  have l2 : 2 ≤ F.limit := by
    unfold limit
    have : (2 : ℝ) ^ (1 : ℤ) ≤ 2 ^ (F.emax + 1) := two_le (by have := F.max0; omega)
    simpa using this
  have nu : F.nearest F.u = F.u := F.nearest_mem (F.mem_two_pow (by omega))
  have n1 : F.nearest (-1) = -1 := by rw [nearest_neg, nearest_one]
  have L : ∀ a : ℝ, F.nearest a = a → |a| ≤ 1 → |F.nearest a| < F.limit := fun a h h' => by rw [h]; linarith
  have q0 : F.nearest 0 = 0 := F.nearest_zero
  have one : ∀ a : ℝ, F.nearest a = a → |a| ≤ 1 → fin F bz a * fin F bz 1 = fin F bz a ∧ fin F bz 1 * fin F bz a = fin F bz a :=
    fun a h h' => ⟨by rw [fin_mul (by rw [mul_one]; exact L a h h'), mul_one, h], by rw [fin_mul (by rw [one_mul]; exact L a h h'), one_mul, h]⟩
  have o1 := one 1 F.nearest_one (by norm_num)
  have ou := one F.u nu (by rw [abs_of_pos u0]; linarith)
  have om := one (-1) n1 (by norm_num)
  have o0 := one 0 q0 (by norm_num)
  have add : ∀ a b c : ℝ, F.nearest (a + b) = c → |c| ≤ 1 → fin F bz a + fin F bz b = fin F bz c := fun a b c h h' => by
    rw [fin_add (by rw [h]; linarith), h]
  refine ⟨(C91_conv_order exOneRow_ok exTwoColumns_ok (n := 1) (c := 2) (d := 1) (by decide) _ _ junkI junk hz).trans ?_,
    (C91_conv_order_nchw exOneRow_ok exTwoColumns_ok (n := 1) (c := 2) (d := 1) _ _ junk hz').trans ?_, ?_⟩
  · have e : (seqSum (1 * (2 * 2)) fun p => window exOneRow exTwoColumns (fun _ a' => fin F bz (exRow F a' (p % (2 * 2) % 2))) 0 0
        (p / (2 * 2)) (p % (2 * 2) / 2) * fin F bz 1) = fin F bz 0 := by
      show (((0 + fin F bz (exRow F 0 0) * fin F bz 1) + fin F bz (exRow F 0 1) * fin F bz 1) + fin F bz (exRow F 1 0) * fin F bz 1) +
        fin F bz (exRow F 1 1) * fin F bz 1 = _
      simp only [exRow, if_true, one_ne_zero, if_false]
      rw [o1.1, ou.1, om.1, o0.1, ← fin_zero (F := F) (bz := bz), add 0 1 1 (by rw [zero_add, F.nearest_one]) (by norm_num),
        add 1 F.u 1 nearest_tie (by norm_num), add 1 (-1) 0 (by rw [add_neg_cancel, q0]) (by norm_num),
        add 0 0 0 (by rw [add_zero, q0]) (by norm_num)]
    show Outcome.ok [_] = _
    exact congrArg (fun x => Outcome.ok [x]) e
  · have e : (seqSum (2 * (1 * 2)) fun p => fin F bz 1 * window exOneRow exTwoColumns (fun _ a' => fin F bz (exRow F a' (p / (1 * 2)))) 0 0
        (p % (1 * 2) / 2) (p % (1 * 2) % 2)) = fin F bz F.u := by
      show (((0 + fin F bz 1 * fin F bz (exRow F 0 0)) + fin F bz 1 * fin F bz (exRow F 1 0)) + fin F bz 1 * fin F bz (exRow F 0 1)) +
        fin F bz 1 * fin F bz (exRow F 1 1) = _
      simp only [exRow, if_true, one_ne_zero, if_false]
      rw [o1.2, ou.2, om.2, o0.2, ← fin_zero (F := F) (bz := bz), add 0 1 1 (by rw [zero_add, F.nearest_one]) (by norm_num),
        add 1 (-1) 0 (by rw [add_neg_cancel, q0]) (by norm_num), add 0 F.u F.u (by rw [zero_add, nu]) (by rw [abs_of_pos u0]; linarith),
        add F.u 0 F.u (by rw [add_zero, nu]) (by rw [abs_of_pos u0]; linarith)]
    show Outcome.ok [_] = _
    exact congrArg (fun x => Outcome.ok [x]) e
  · intro h
    have := EReal.coe_eq_coe_iff.1 (Ieee.num.inj h)
    linarith

end rounding

/-! ## The hypotheses are met -/

example (x : Ieee (Format.binary32.arith bz)) := C156_rounding (F := Format.binary32) (bz := bz) (by decide) (fun _ => 4) (fun _ => x)
  (z := [x]) (z' := [x]) rfl rfl

/-- A dilated convolution with padding, 3 channels to 2, and relu. -/
theorem exSameConv : SameImages (R := ℚ)
    (fun x => Layers.conv .nhwc .rscd (fun _ => 1) (fun _ => 2) (fun _ => 3) (fun _ => 4) (fun _ => 5) reluAct exLayer x
      (exInit (fn4 fun r s k e => (r : ℚ) - s + k * e)) (exInit (fn1 fun e => 9 * e)))
    (fun x => Layers.conv .nchw .dcrs (fun _ => 6) (fun _ => 7) (fun _ => 8) (fun _ => 9) (fun _ => 5) reluAct exLayer x
      (exInit (fn4 fun e k r s => (r : ℚ) - s + k * e)) (exInit (fn1 fun e => 9 * e))) exL.n exW.n 3 exL.m exW.m exLayer.filters :=
  C156_conv (fun _ => 1) (fun _ => 2) (fun _ => 3) (fun _ => 5) (fun _ => 6) (fun _ => 7) (fun _ => 8) (fun _ => 5) (fun _ => 4)
    (fun _ => 9) (fun r s k e => (r : ℚ) - s + k * e) (fun e => 9 * e) relu_acts relu_acts exL_ok exW_ok exLayer_axes (c := 3)
    (by decide) rfl rfl rfl rfl

example := C156_transposed exSameConv 2 (x := List.replicate 90 1) (by decide) (b1 := List.replicate 90 0) (b2 := List.replicate 48 0)
  (by decide) (by decide)
/-- After it an activation layer, a flattening and a dense layer whose rows are reordered. -/
example := C156_classifier (C156_composed exSameConv (C156_activation (fun _ => 3) (fun _ => 4) (fun a : ℚ => a * a) _ _ _))
  (C156_dense (h := 4) (w := 3) (c := 2) (fun _ => 1) (fun _ => 2) (fun _ => 3) (fun _ => 4) (fun _ => 5) (fun _ => 6) noop_acts noop_acts (m := 10) (by decide)
    (fun p e => (p : ℚ) - e) (fun p e => ((p % 12 / 3 * 6 + p % 3 * 2 + p / 12 : Nat) : ℚ) - e) (fun e => e)
    (fun i hi j hj k hk e _ => by
      simp only [offset_cons, offset_nil, List.prod_cons, List.prod_nil]
      congr 2
      omega)
    (wInit := exInit _) (bInit := exInit _) (wInit' := exInit _) (bInit' := exInit _) rfl rfl rfl rfl)
/-- Another layer after that. -/
example {f g : LayerFn ℚ} (h : SameResults f g 4 3 2 [10]) := C156_head (fs := [10]) h (k := activationOf (fun _ => 3) fun a => a * a)
  fun n z => ⟨fun idx => z idx * z idx, .of (activationOf_run (fun _ => 3) (fun a => a * a) (tab [n, 10] z) (tab_wf _ _)) rfl (by simp [tab])⟩
example := C156_sequential (fun _ => (1 : ℚ)) (fun _ => 2) [activationOf (fun _ => 3) fun a => a * a] [activationOf (fun _ => 4) fun a => a * a]
  rfl (fun _ => 3) (fun _ => 5) (fun _ => 2) (fun i hi => by
    match i, hi with
    | 0, _ => exact C156_activation (fun _ => 3) (fun _ => 4) (fun a : ℚ => a * a) 3 5 2)
example (x : Ieee (Format.binary32.arith bz)) := C156_conv_bits (fun _ => x) (fun _ => x) (fun _ => x) (fun _ => x) (fun _ => x) (fun _ => x)
  (fun _ => x) (fun _ => x) (fun _ => 1) (fun _ => 2) (fun _ _ _ _ => x) (fun _ => x) (H := exL) (W := exW) (c := 1) (t := exLayer)
  C156_mul_comm (.inl rfl)
  noop_acts noop_acts exL_ok exW_ok exLayer_axes (by decide) (wInit := exInit _) (bInit := exInit _) (wInit' := exInit _)
  (bInit' := exInit _) rfl rfl rfl rfl
example := C156_pool (R := Int) (fun _ => 1) (fun _ => 2) (Acc.max (-1000)) (fun l => ⟨_, max_run _ l⟩) exPoolH_ok exPoolW_ok exPool_axes 3
example := C156_bn (R := ℚ) (fun x => x) 1 (fun _ => 1) (fun _ => 2) (fun _ => 3) (fun _ => 4) (fun _ => 5) (fun _ => 1) (fun _ => 2)
  (fun _ => 3) (fun _ => 4) (fun _ => 5) relu_acts relu_acts 4 5 (c := 3) (fun k => k) (fun k => 2 * k) (fun _ => 1) (fun k => 3 * k)
  (meanInit := exInit _) (varInit := exInit _) (betaInit := exInit _) (gammaInit := exInit _)
  (meanInit' := exInit _) (varInit' := exInit _) (betaInit' := exInit _) (gammaInit' := exInit _) rfl rfl rfl rfl rfl rfl rfl rfl

end StdNN
