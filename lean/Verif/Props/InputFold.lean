import Verif.Props.ConvMerge
/-!
# C148: a normalisation of the inputs folds into the first layer

Images are usually scaled and shifted before they enter a network (as in examples/example_train_mnist_slp.cpp), or by a
batch normalisation layer in front of a convolution. The step can be saved by changing the parameters of the layer behind
it; a shift in front of a convolution only without padding.
-/
namespace StdNN
open IntTy Spec Outcome Layers Models Finset
variable {R : Type}

/-- C148 (dense layers): input `q` is multiplied by `a q` and moved by `d q`. The same layer, with weights multiplied by
`a q` and biases moved by the sum of the weights times `d q`, gives the same output for the inputs as they were. -/
theorem C148_dense [CommSemiring R] (J : Nat → Nat → R) {act : Act R} {f : R → R} (hact : ActsAs act f) {n m k : Nat}
    (hk : k < 2 ^ 32) (X W : Nat → Nat → R) (B a d : Nat → R) {wInit bInit wInit' bInit' : Init R}
    (hW : ∀ z, wInit [m, k] z = .ok (tab [m, k] (fn2 W)).data) (hB : ∀ z, bInit [k] z = .ok (tab [k] (fn1 B)).data)
    (hW' : ∀ z, wInit' [m, k] z = .ok (tab [m, k] (fn2 fun q j => a q * W q j)).data)
    (hB' : ∀ z, bInit' [k] z = .ok (tab [k] (fn1 fun j => ∑ q ∈ range m, d q * W q j + B j)).data) :
    ∃ (y : Tensor R) (ws ws' : List (Tensor R)),
      dense (J 0) (J 1) (J 2) act k (tab [n, m] (fn2 fun i q => X i q * a q + d q)) wInit bInit = ⟨3, .ok ⟨y, ws⟩⟩ ∧
      dense (J 3) (J 4) (J 5) act k (tab [n, m] (fn2 X)) wInit' bInit' = ⟨3, .ok ⟨y, ws'⟩⟩ := by
  refine ⟨_, _, _, C77_dense (J 0) (J 1) (J 2) hact hk _ W B (hW _) (hB _),
    (C77_dense (J 3) (J 4) (J 5) hact hk X _ _ (hW' _) (hB' _)).trans (same_output ?_)⟩
  refine tab_congr fun idx hv => ?_
  match idx, hv with
  | [i, j], _ =>
    simp only [fn2, seqSum_eq_sum, add_mul, sum_add_distrib, mul_assoc, add_assoc]

/-- The convolution of an image whose channels are scaled by `a` and moved by `d`. -/
theorem conv2_affine [CommSemiring R] {H W : Axis} (hH : AxisOK u32 H) (hW : AxisOK u32 W) {c : Nat}
    (X : Nat → Nat → Nat → R) (Y : Nat → Nat → Nat → Nat → R) (a d : Nat → R)
    (hp : (H.l = 0 ∧ H.q = 0 ∧ W.l = 0 ∧ W.q = 0) ∨ ∀ k < c, d k = 0) {i j e : Nat} (hi : i < H.m) (hj : j < W.m) :
    conv2 H W c (fun p q k => X p q k * a k + d k) Y i j e =
      conv2 H W c X (fun u v k e => a k * Y u v k e) i j e +
        ∑ u ∈ range H.k, ∑ v ∈ range W.k, ∑ k ∈ range c, d k * Y u v k e := by
  simp only [conv2, ← sum_add_distrib]
  refine sum_congr rfl fun u hu => sum_congr rfl fun v hv => sum_congr rfl fun k hk => ?_
  rw [window_eq, window_eq]
  split_ifs with hc
  · rw [add_mul, mul_assoc]
  · rcases hp with ⟨h1, h2, h3, h4⟩ | h
    · have p1 := pos_lt hH hi (mem_range.1 hu)
      have p2 := pos_lt hW hj (mem_range.1 hv)
      exact absurd ⟨⟨by omega, by omega⟩, by omega, by omega⟩ hc
    · rw [h k (mem_range.1 hk)]
      simp

/-- C148 (convolution layers, `nhwc`): channel `k` of the images is multiplied by `a k` and moved by `d k`; there must be no
padding, unless nothing is moved. -/
theorem C148_conv_nhwc [CommSemiring R] (J : Nat → Nat → R) (I : Nat → Nat → Int) {act : Act R} {f : R → R}
    (hact : ActsAs act f) {H W : Axis} (hH : AxisOK u32 H) (hW : AxisOK u32 W) {t : ConvLayer} (ht : HasAxes t H W)
    {n c : Nat} (hsz : [H.n, W.n, c].prod ≤ 2 ^ 31) (X Y : Nat → Nat → Nat → Nat → R) (B a d : Nat → R)
    (hp : (H.l = 0 ∧ H.q = 0 ∧ W.l = 0 ∧ W.q = 0) ∨ ∀ k < c, d k = 0) {w b w' b' : Init R}
    (hw : ∀ z, w [H.k, W.k, c, t.filters] z = .ok (tab [H.k, W.k, c, t.filters] (fn4 Y)).data)
    (hb : ∀ z, b [t.filters] z = .ok (tab [t.filters] (fn1 B)).data)
    (hw' : ∀ z, w' [H.k, W.k, c, t.filters] z =
      .ok (tab [H.k, W.k, c, t.filters] (fn4 fun u v k e => a k * Y u v k e)).data)
    (hb' : ∀ z, b' [t.filters] z = .ok (tab [t.filters]
      (fn1 fun e => ∑ u ∈ range H.k, ∑ v ∈ range W.k, ∑ k ∈ range c, d k * Y u v k e + B e)).data) :
    ∃ (y : Tensor R) (ws ws' : List (Tensor R)),
      Layers.conv .nhwc .rscd (J 0) (J 1) (J 2) (I 0) (J 3) act t
          (tab [n, H.n, W.n, c] (fn4 fun l p q k => X l p q k * a k + d k)) w b = ⟨3, .ok ⟨y, ws⟩⟩ ∧
      Layers.conv .nhwc .rscd (J 4) (J 5) (J 6) (I 1) (J 7) act t (tab [n, H.n, W.n, c] (fn4 X)) w' b' =
        ⟨3, .ok ⟨y, ws'⟩⟩ := by
  refine ⟨_, _, _, C78_conv_nhwc (J 0) (J 1) (J 2) (I 0) (J 3) hact hH hW ht hsz _ Y B (hw _) (hb _),
    (C78_conv_nhwc (J 4) (J 5) (J 6) (I 1) (J 7) hact hH hW ht hsz X _ _ (hw' _) (hb' _)).trans (same_output ?_)⟩
  refine tab_congr fun idx hv => ?_
  match idx, hv with
  | [l, i, j, e], hv =>
    simp only [fn4]
    rw [conv2_affine hH hW (X l) Y a d hp hv.2.1 hv.2.2.1, add_assoc]

/-- C148 (convolution layers, `nchw`). -/
theorem C148_conv_nchw [CommSemiring R] (J : Nat → Nat → R) (I : Nat → Nat → Int) {act : Act R} {f : R → R}
    (hact : ActsAs act f) {H W : Axis} (hH : AxisOK u32 H) (hW : AxisOK u32 W) {t : ConvLayer} (ht : HasAxes t H W)
    {n c : Nat} (X Y : Nat → Nat → Nat → Nat → R) (B a d : Nat → R)
    (hp : (H.l = 0 ∧ H.q = 0 ∧ W.l = 0 ∧ W.q = 0) ∨ ∀ k < c, d k = 0) {w b w' b' : Init R}
    (hw : ∀ z, w [t.filters, c, H.k, W.k] z = .ok (tab [t.filters, c, H.k, W.k] (fn4 Y)).data)
    (hb : ∀ z, b [t.filters] z = .ok (tab [t.filters] (fn1 B)).data)
    (hw' : ∀ z, w' [t.filters, c, H.k, W.k] z =
      .ok (tab [t.filters, c, H.k, W.k] (fn4 fun e k u v => a k * Y e k u v)).data)
    (hb' : ∀ z, b' [t.filters] z = .ok (tab [t.filters]
      (fn1 fun e => ∑ u ∈ range H.k, ∑ v ∈ range W.k, ∑ k ∈ range c, d k * Y e k u v + B e)).data) :
    ∃ (y : Tensor R) (ws ws' : List (Tensor R)),
      Layers.conv .nchw .dcrs (J 0) (J 1) (J 2) (I 0) (J 3) act t
          (tab [n, c, H.n, W.n] (fn4 fun l k p q => X l k p q * a k + d k)) w b = ⟨3, .ok ⟨y, ws⟩⟩ ∧
      Layers.conv .nchw .dcrs (J 4) (J 5) (J 6) (I 1) (J 7) act t (tab [n, c, H.n, W.n] (fn4 X)) w' b' =
        ⟨3, .ok ⟨y, ws'⟩⟩ := by
  refine ⟨_, _, _, C78_conv_nchw (J 0) (J 1) (J 2) (I 0) (J 3) hact hH hW ht _ Y B (hw _) (hb _),
    (C78_conv_nchw (J 4) (J 5) (J 6) (I 1) (J 7) hact hH hW ht X _ _ (hw' _) (hb' _)).trans (same_output ?_)⟩
  refine tab_congr fun idx hv => ?_
  match idx, hv with
  | [l, e, i, j], hv =>
    simp only [fn4]
    rw [conv2_affine hH hW (fun p q k => X l k p q) (fun u v k e => Y e k u v) a d hp hv.2.2.1 hv.2.2.2.1, add_assoc]

theorem bn_affine {F : Type} [Field F] (x m s g t : F) : (x - m) / s * g + t = x * (g / s) + (t - m * (g / s)) := by
  rw [div_eq_mul_inv, div_eq_mul_inv]
  ring

/-- C148 (batch normalisation in front, `nhwc`): a batch normalisation layer without activation followed by a convolution
layer without padding is one convolution layer. The divisors are not zero, so that division means what it says. -/
theorem C148_bn_conv_nhwc {F : Type} [Field F] (sqrt : F → F) (eps : F) (J : Nat → Nat → F) (I : Nat → Nat → Int) {act : Act F}
    {f : F → F} (hact : ActsAs act f) {H W : Axis} (hH : AxisOK u32 H) (hW : AxisOK u32 W) {t : ConvLayer} (ht : HasAxes t H W)
    {n c : Nat} (hsz : [H.n, W.n, c].prod ≤ 2 ^ 31) (X Y : Nat → Nat → Nat → Nat → F) (B M V β γ : Nat → F)
    (hp : H.l = 0 ∧ H.q = 0 ∧ W.l = 0 ∧ W.q = 0)
    (_hd : ∀ e < c, sqrt (V e) + eps ≠ 0) {w b w' b' mInit vInit betaInit gammaInit : Init F}
    (hM : ∀ m, mInit [c] m = .ok (tab [c] (fn1 M)).data) (hV : ∀ m, vInit [c] m = .ok (tab [c] (fn1 V)).data)
    (hβ : ∀ m, betaInit [c] m = .ok (tab [c] (fn1 β)).data) (hγ : ∀ m, gammaInit [c] m = .ok (tab [c] (fn1 γ)).data)
    (hw : ∀ z, w [H.k, W.k, c, t.filters] z = .ok (tab [H.k, W.k, c, t.filters] (fn4 Y)).data)
    (hb : ∀ z, b [t.filters] z = .ok (tab [t.filters] (fn1 B)).data)
    (hw' : ∀ z, w' [H.k, W.k, c, t.filters] z =
      .ok (tab [H.k, W.k, c, t.filters] (fn4 fun u v k e => γ k / (sqrt (V k) + eps) * Y u v k e)).data)
    (hb' : ∀ z, b' [t.filters] z = .ok (tab [t.filters] (fn1 fun e => ∑ u ∈ range H.k, ∑ v ∈ range W.k, ∑ k ∈ range c,
      (β k - M k * (γ k / (sqrt (V k) + eps))) * Y u v k e + B e)).data) :
    ∃ (y : Tensor F) (ws ws' : List (Tensor F)),
      composed (fun x => Layers.batchNorm sqrt eps .nhwc (J 0) (J 1) (J 2) (J 3) (J 4) noopAct x mInit vInit betaInit gammaInit)
          (fun x => Layers.conv .nhwc .rscd (J 5) (J 6) (J 7) (I 0) (J 8) act t x w b) (tab [n, H.n, W.n, c] (fn4 X)) =
        ⟨3, .ok ⟨y, ws⟩⟩ ∧
      Layers.conv .nhwc .rscd (J 9) (J 10) (J 11) (I 1) (J 12) act t (tab [n, H.n, W.n, c] (fn4 X)) w' b' =
        ⟨3, .ok ⟨y, ws'⟩⟩ := by
  refine ⟨_, _, _, composed_run
    (C86_bn_nhwc sqrt eps (J 0) (J 1) (J 2) (J 3) (J 4) noop_acts X M V β γ (hM _) (hV _) (hβ _) (hγ _))
    (C78_conv_nhwc (J 5) (J 6) (J 7) (I 0) (J 8) hact hH hW ht hsz _ Y B (hw _) (hb _)) rfl,
    (C78_conv_nhwc (J 9) (J 10) (J 11) (I 1) (J 12) hact hH hW ht hsz X _ _ (hw' _) (hb' _)).trans (same_output ?_)⟩
  refine tab_congr fun idx hv => ?_
  match idx, hv with
  | [l, i, j, e], hv =>
    simp only [fn4, id, bn_affine]
    rw [conv2_affine hH hW (X l) Y (fun k => γ k / (sqrt (V k) + eps)) (fun k => β k - M k * (γ k / (sqrt (V k) + eps)))
      (.inl hp) hv.2.1 hv.2.2.1, add_assoc]

/-- C148 (batch normalisation in front, `nchw`). -/
theorem C148_bn_conv_nchw {F : Type} [Field F] (sqrt : F → F) (eps : F) (J : Nat → Nat → F) (I : Nat → Nat → Int) {act : Act F}
    {f : F → F} (hact : ActsAs act f) {H W : Axis} (hH : AxisOK u32 H) (hW : AxisOK u32 W) {t : ConvLayer} (ht : HasAxes t H W)
    {n c : Nat} (X Y : Nat → Nat → Nat → Nat → F) (B M V β γ : Nat → F)
    (hp : H.l = 0 ∧ H.q = 0 ∧ W.l = 0 ∧ W.q = 0)
    (_hd : ∀ e < c, sqrt (V e) + eps ≠ 0) {w b w' b' mInit vInit betaInit gammaInit : Init F}
    (hM : ∀ m, mInit [c] m = .ok (tab [c] (fn1 M)).data) (hV : ∀ m, vInit [c] m = .ok (tab [c] (fn1 V)).data)
    (hβ : ∀ m, betaInit [c] m = .ok (tab [c] (fn1 β)).data) (hγ : ∀ m, gammaInit [c] m = .ok (tab [c] (fn1 γ)).data)
    (hw : ∀ z, w [t.filters, c, H.k, W.k] z = .ok (tab [t.filters, c, H.k, W.k] (fn4 Y)).data)
    (hb : ∀ z, b [t.filters] z = .ok (tab [t.filters] (fn1 B)).data)
    (hw' : ∀ z, w' [t.filters, c, H.k, W.k] z =
      .ok (tab [t.filters, c, H.k, W.k] (fn4 fun e k u v => γ k / (sqrt (V k) + eps) * Y e k u v)).data)
    (hb' : ∀ z, b' [t.filters] z = .ok (tab [t.filters] (fn1 fun e => ∑ u ∈ range H.k, ∑ v ∈ range W.k, ∑ k ∈ range c,
      (β k - M k * (γ k / (sqrt (V k) + eps))) * Y e k u v + B e)).data) :
    ∃ (y : Tensor F) (ws ws' : List (Tensor F)),
      composed (fun x => Layers.batchNorm sqrt eps .nchw (J 0) (J 1) (J 2) (J 3) (J 4) noopAct x mInit vInit betaInit gammaInit)
          (fun x => Layers.conv .nchw .dcrs (J 5) (J 6) (J 7) (I 0) (J 8) act t x w b) (tab [n, c, H.n, W.n] (fn4 X)) =
        ⟨3, .ok ⟨y, ws⟩⟩ ∧
      Layers.conv .nchw .dcrs (J 9) (J 10) (J 11) (I 1) (J 12) act t (tab [n, c, H.n, W.n] (fn4 X)) w' b' =
        ⟨3, .ok ⟨y, ws'⟩⟩ := by
  refine ⟨_, _, _, composed_run
    (C86_bn_nchw sqrt eps (J 0) (J 1) (J 2) (J 3) (J 4) noop_acts X M V β γ (hM _) (hV _) (hβ _) (hγ _))
    (C78_conv_nchw (J 5) (J 6) (J 7) (I 0) (J 8) hact hH hW ht _ Y B (hw _) (hb _)) rfl,
    (C78_conv_nchw (J 9) (J 10) (J 11) (I 1) (J 12) hact hH hW ht X _ _ (hw' _) (hb' _)).trans (same_output ?_)⟩
  refine tab_congr fun idx hv => ?_
  match idx, hv with
  | [l, e, i, j], hv =>
    simp only [fn4, id, bn_affine]
    rw [conv2_affine hH hW (fun p q k => X l k p q) (fun u v k e => Y e k u v) (fun k => γ k / (sqrt (V k) + eps))
      (fun k => β k - M k * (γ k / (sqrt (V k) + eps))) (.inl hp) hv.2.2.1 hv.2.2.2.1, add_assoc]

/-! ## Padding -/

/-- A 3 × 1 kernel with one zero in front and one behind, on a 3 × 1 image. -/
def exSameH : Axis := ⟨3, 1, 1, 1, 1, 3, 3⟩
def exSameW : Axis := ⟨1, 1, 1, 0, 0, 1, 1⟩
def exSameLayer : ConvLayer := ConvLayer.make 1 (3, 1) (Sample.paddingSame u32) (1, 1) (1, 1)

theorem exSameH_ok : AxisOK u32 exSameH := by
  refine ⟨⟨?_, ?_, ?_, ?_, ?_, ?_, ?_, ?_, ?_, ?_, ?_, ?_, ?_, ?_⟩, ?_⟩ <;> decide
theorem exSameW_ok : AxisOK u32 exSameW := by
  refine ⟨⟨?_, ?_, ?_, ?_, ?_, ?_, ?_, ?_, ?_, ?_, ?_, ?_, ?_, ?_⟩, ?_⟩ <;> decide
theorem exSameLayer_axes : HasAxes exSameLayer exSameH exSameW := by
  refine ⟨?_, ?_, ?_, ?_, ?_⟩ <;> decide

/-- C148 (why not with padding): a convolution layer with same padding, a filter of three ones and no bias, of the image
whose pixels are all moved from 0 to 1, gives an image that no filter and no bias of the same layer give for the image as it
was. -/
theorem C148_padding (J : Nat → Nat → Int) (I : Nat → Nat → Int) :
    ∃ y ws, Layers.conv .nhwc .rscd (J 0) (J 1) (J 2) (I 0) (J 3) noopAct exSameLayer
        (tab [1, 3, 1, 1] (fn4 fun _ _ _ _ => 0 * 1 + 1)) (fun _ _ => .ok [1, 1, 1]) (fun _ _ => .ok [0]) = ⟨3, .ok ⟨y, ws⟩⟩ ∧
      ∀ (F : Nat → Nat → Nat → Nat → Int) (B : Nat → Int) y' ws',
        Layers.conv .nhwc .rscd (J 4) (J 5) (J 6) (I 1) (J 7) noopAct exSameLayer (tab [1, 3, 1, 1] (fn4 fun _ _ _ _ => 0))
          (fun _ _ => .ok (tab [3, 1, 1, 1] (fn4 F)).data) (fun _ _ => .ok (tab [1] (fn1 B)).data) = ⟨3, .ok ⟨y', ws'⟩⟩ →
        y' ≠ y := by
  refine ⟨_, _, C78_conv_nhwc (J 0) (J 1) (J 2) (I 0) (J 3) noop_acts exSameH_ok exSameW_ok exSameLayer_axes (n := 1) (c := 1)
    (by decide) (fun _ _ _ _ => 0 * 1 + 1) (fun _ _ _ _ => 1) (fun _ => 0) rfl rfl, fun F B y' ws' h e => ?_⟩
  have h1 := C78_conv_nhwc (R := Int) (J 4) (J 5) (J 6) (I 1) (J 7) noop_acts exSameH_ok exSameW_ok exSameLayer_axes (n := 1) (c := 1)
    (by decide) (fun _ _ _ _ => 0) F B (wInit := fun _ _ => .ok (tab [3, 1, 1, 1] (fn4 F)).data)
    (bInit := fun _ _ => .ok (tab [1] (fn1 B)).data) rfl rfl
  have h2 := h1.symm.trans h
  simp only [Alloc.mk.injEq, Outcome.ok.injEq, Layer.mk.injEq, true_and] at h2
  have h3 := congrArg Tensor.data (h2.1.trans e)
  have z : ∀ i, conv2 exSameH exSameW 1 (fun _ _ _ => (0 : Int)) F i 0 0 = 0 := by
    intro i
    simp [conv2, window, padded]
  have e1 : (tab [1, exSameH.m, exSameW.m, exSameLayer.filters]
      (fn4 fun b i j e => id (conv2 exSameH exSameW 1 (fun _ _ _ => (0 : Int)) F i j e + B e))).data = [B 0, B 0, B 0] := by
    show [id (conv2 exSameH exSameW 1 (fun _ _ _ => (0 : Int)) F 0 0 0 + B 0),
      id (conv2 exSameH exSameW 1 (fun _ _ _ => (0 : Int)) F 1 0 0 + B 0),
      id (conv2 exSameH exSameW 1 (fun _ _ _ => (0 : Int)) F 2 0 0 + B 0)] = _
    simp only [z, id, zero_add]
  have e2 : (tab [1, exSameH.m, exSameW.m, exSameLayer.filters]
      (fn4 fun b i j e => id (conv2 exSameH exSameW 1 (fun _ _ _ => (0 * 1 + 1 : Int)) (fun _ _ _ _ => 1) i j e + 0))).data =
      [2, 3, 2] := by decide +kernel
  have h4 : [B 0, B 0, B 0] = [2, 3, 2] := e1.symm.trans (h3.trans e2)
  simp only [List.cons.injEq] at h4
  omega

/-! ## Concrete cases -/

/-- A 2 × 2 kernel without padding. -/
def exBareA : Axis := ⟨2, 1, 1, 0, 0, 3, 2⟩
def exBareLayer : ConvLayer := ConvLayer.make 2 (2, 2) (Sample.paddingFixed ⟨0, 0⟩) (1, 1) (1, 1)
theorem exBareA_ok : AxisOK u32 exBareA := by
  refine ⟨⟨?_, ?_, ?_, ?_, ?_, ?_, ?_, ?_, ?_, ?_, ?_, ?_, ?_, ?_⟩, ?_⟩ <;> decide
theorem exBareLayer_axes : HasAxes exBareLayer exBareA exBareA := by
  refine ⟨?_, ?_, ?_, ?_, ?_⟩ <;> decide

example := C148_dense (R := ℚ) (fun _ _ => 7) relu_acts (n := 2) (m := 3) (k := 2) (by decide) (fun i q => i - 4 * q)
  (fun q j => q + j) (fun j => 7 - j) (fun q => 1 / (q + 2)) (fun q => 3 - q) (wInit := exInit (fn2 fun q j => q + j))
  (bInit := exInit (fn1 fun j => 7 - j)) (wInit' := exInit (fn2 fun q j => 1 / ((q : ℚ) + 2) * (q + j)))
  (bInit' := exInit (fn1 fun j => ∑ q ∈ range 3, (3 - (q : ℚ)) * (q + j) + (7 - j)))
  (fun _ => rfl) (fun _ => rfl) (fun _ => rfl) (fun _ => rfl)
example := C148_conv_nhwc (R := ℚ) (fun _ _ => 7) (fun _ _ => 1) relu_acts exBareA_ok exBareA_ok exBareLayer_axes (n := 2)
  (c := 3) (by decide) (fun l i j k => l + i - j * k) (fun r s k e => r - s + k * e) (fun e => 9 * e) (fun k => k + 2)
  (fun k => 1 - k) (.inl ⟨rfl, rfl, rfl, rfl⟩) (w := exInit (fn4 fun r s k e => r - s + k * e)) (b := exInit (fn1 fun e => 9 * e))
  (w' := exInit (fn4 fun r s k e => ((k : ℚ) + 2) * (r - s + k * e)))
  (b' := exInit (fn1 fun e => ∑ u ∈ range 2, ∑ v ∈ range 2, ∑ k ∈ range 3, (1 - (k : ℚ)) * (u - v + k * e) + 9 * e))
  (fun _ => rfl) (fun _ => rfl) (fun _ => rfl) (fun _ => rfl)
/-- With padding, scaled only. -/
example := C148_conv_nhwc (R := ℚ) (fun _ _ => 7) (fun _ _ => 1) relu_acts exL_ok exW_ok exLayer_axes (n := 2)
  (c := 3) (by decide) (fun l i j k => l + i - j * k) (fun r s k e => r - s + k * e) (fun e => 9 * e) (fun k => k + 2)
  (fun _ => 0) (.inr fun _ _ => rfl) (w := exInit (fn4 fun r s k e => r - s + k * e)) (b := exInit (fn1 fun e => 9 * e))
  (w' := exInit (fn4 fun r s k e => ((k : ℚ) + 2) * (r - s + k * e)))
  (b' := exInit (fn1 fun e => ∑ u ∈ range 2, ∑ v ∈ range 2, ∑ k ∈ range 3, 0 * ((u : ℚ) - v + k * e) + 9 * e))
  (fun _ => rfl) (fun _ => rfl) (fun _ => rfl) (fun _ => rfl)
example := C148_conv_nchw (R := ℚ) (fun _ _ => 7) (fun _ _ => 1) relu_acts exBareA_ok exBareA_ok exBareLayer_axes (n := 2)
  (c := 3) (fun l k i j => l + i - j * k) (fun e k r s => r - s + k * e) (fun e => 9 * e) (fun k => k + 2)
  (fun k => 1 - k) (.inl ⟨rfl, rfl, rfl, rfl⟩) (w := exInit (fn4 fun e k r s => r - s + k * e)) (b := exInit (fn1 fun e => 9 * e))
  (w' := exInit (fn4 fun e k r s => ((k : ℚ) + 2) * (r - s + k * e)))
  (b' := exInit (fn1 fun e => ∑ u ∈ range 2, ∑ v ∈ range 2, ∑ k ∈ range 3, (1 - (k : ℚ)) * (u - v + k * e) + 9 * e))
  (fun _ => rfl) (fun _ => rfl) (fun _ => rfl) (fun _ => rfl)
example := C148_bn_conv_nhwc (F := ℚ) id (1 / 8) (fun _ _ => 7) (fun _ _ => 1) relu_acts exBareA_ok exBareA_ok exBareLayer_axes
  (n := 2) (c := 3) (by decide) (fun l i j k => l + i - j * k) (fun r s k e => r - s + k * e) (fun e => 9 * e) (fun k => k)
  (fun k => k + 1) (fun k => 2 * k) (fun k => 5 - k) ⟨rfl, rfl, rfl, rfl⟩ (fun e _ => by simp only [id]; positivity)
  (w := exInit (fn4 fun r s k e => r - s + k * e)) (b := exInit (fn1 fun e => 9 * e))
  (mInit := exInit (fn1 fun e => e)) (vInit := exInit (fn1 fun e => e + 1)) (betaInit := exInit (fn1 fun e => 2 * e))
  (gammaInit := exInit (fn1 fun e => 5 - e))
  (w' := exInit (fn4 fun r s k e => (5 - k) / (id ((k : ℚ) + 1) + 1 / 8) * (r - s + k * e)))
  (b' := exInit (fn1 fun e => ∑ u ∈ range 2, ∑ v ∈ range 2, ∑ k ∈ range 3,
    (2 * k - k * ((5 - k) / (id ((k : ℚ) + 1) + 1 / 8))) * (u - v + k * e) + 9 * e))
  (fun _ => rfl) (fun _ => rfl) (fun _ => rfl) (fun _ => rfl) (fun _ => rfl) (fun _ => rfl) (fun _ => rfl) (fun _ => rfl)
example := C148_bn_conv_nchw (F := ℚ) id (1 / 8) (fun _ _ => 7) (fun _ _ => 1) relu_acts exBareA_ok exBareA_ok exBareLayer_axes
  (n := 2) (c := 3) (fun l k i j => l + i - j * k) (fun e k r s => r - s + k * e) (fun e => 9 * e) (fun k => k)
  (fun k => k + 1) (fun k => 2 * k) (fun k => 5 - k) ⟨rfl, rfl, rfl, rfl⟩ (fun e _ => by simp only [id]; positivity)
  (w := exInit (fn4 fun e k r s => r - s + k * e)) (b := exInit (fn1 fun e => 9 * e))
  (mInit := exInit (fn1 fun e => e)) (vInit := exInit (fn1 fun e => e + 1)) (betaInit := exInit (fn1 fun e => 2 * e))
  (gammaInit := exInit (fn1 fun e => 5 - e))
  (w' := exInit (fn4 fun e k r s => (5 - k) / (id ((k : ℚ) + 1) + 1 / 8) * (r - s + k * e)))
  (b' := exInit (fn1 fun e => ∑ u ∈ range 2, ∑ v ∈ range 2, ∑ k ∈ range 3,
    (2 * k - k * ((5 - k) / (id ((k : ℚ) + 1) + 1 / 8))) * (u - v + k * e) + 9 * e))
  (fun _ => rfl) (fun _ => rfl) (fun _ => rfl) (fun _ => rfl) (fun _ => rfl) (fun _ => rfl) (fun _ => rfl) (fun _ => rfl)

end StdNN
