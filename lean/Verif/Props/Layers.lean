import Verif.Lemmas.Layers
import Verif.Props.Models
import Verif.Props.Activation
import Verif.Model.Utility
/-!
# C77-C79, C84-C86: layers
-/
namespace StdNN
open Spec Outcome IntTy Layers
variable {R : Type}

/-- The activation `act`, called in place, replaces every element `v` by `f v`. -/
def ActsAs (act : Act R) (f : R → R) : Prop := ∀ dims v, v.length = dims.prod → act dims v = .ok (v.map f)

theorem noop_acts : ActsAs (noopAct (R := R)) id := fun _ v _ => by simp [noopAct]

theorem pointwise_acts [Zero R] (f : R → R) : ActsAs (pointwiseAct f) f := fun dims v h => by
  rw [pointwiseAct, ← h, C21_pointwise f (mem_holds_all v) (by omega), store_all (by simp)]

theorem relu_acts [Zero R] [LT R] [DecidableLT R] : ActsAs (reluAct (R := R)) fun a => if 0 < a then a else 0 :=
  fun dims v h => by
    rw [reluAct, ← h, C21_relu (mem_holds_all v) (by omega), store_all (by simp)]

/-! ## C77 -/

section dense
variable [Zero R] [Add R] [Mul R]

/-- C77: a dense layer with `k` outputs on an `n × m` input, for any initialisers and any elementwise activation: the output
is act(x w + b), the parameters have the shapes `[m, k]` and `[k]`, and exactly the three tensors owned by the result stay
allocated. No laws of arithmetic are assumed; the products are summed in order. -/
theorem C77_dense (junkW junkY junkB : Nat → R) {act : Act R} {f : R → R} (hact : ActsAs act f) {n m k : Nat}
    (hk : k < 2 ^ 32) (X W : Nat → Nat → R) (B : Nat → R) {wInit bInit : Init R}
    (hw : wInit [m, k] (fresh junkW [m, k].prod) = .ok (tab [m, k] (fn2 W)).data)
    (hb : bInit [k] (fresh junkB [k].prod) = .ok (tab [k] (fn1 B)).data) :
    dense junkW junkY junkB act k (tab [n, m] (fn2 X)) wInit bInit =
      ⟨3, .ok ⟨tab [n, k] (fn2 fun i j => f ((seqSum m fun l => X i l * W l j) + B j)),
        [tab [m, k] (fn2 W), tab [k] (fn1 B)]⟩⟩ := by
  have e1 : weightShape k (tab [n, m] (fn2 X)).dims = .ok [m, k] := by
    rw [tab_dims, weightShape, Nat.mod_eq_of_lt hk]
  have e2 : newParameter junkW [m, k] wInit = ⟨1, .ok (tab [m, k] (fn2 W))⟩ := newParameter_run hw
  have e3 : Ops.matmulShape [n, m] [m, k] = .ok [n, k] := by simp [Ops.matmulShape]
  have e4 := Plain.mm_run (m := n) (l := m) (n := k) (fn2 X) (fn2 W) (c := fresh junkY [n, k].prod)
    (by simp [fresh_length])
  have e5 : newResult junkY (.ok [n, k]) (fun s z => Ops.matmul s (tab [n, m] (fn2 X)) (tab [m, k] (fn2 W)) z) =
      ⟨1, .ok (tab [n, k] (fn2 fun i j => seqSum m fun l => X i l * W l j))⟩ := newResult_run e4
  have e6 : newParameter junkB (denseBiasShape k) bInit = ⟨1, .ok (tab [k] (fn1 B))⟩ := by
    rw [denseBiasShape, Nat.mod_eq_of_lt hk]
    exact newParameter_run hb
  have e7 := C22_bias_hw (fun a b : R => a + b) (fun i j => seqSum m fun l => X i l * W l j) B
    (mem_holds_all (tab [n, k] (fn2 fun i j => seqSum m fun l => X i l * W l j)).data) (by simp)
  rw [store_all (by simp)] at e7
  unfold dense
  rw [e1, Alloc.lift_ok, Alloc.ok_bind, e2, Alloc.ok_bind, tab_dims, tab_dims, e3, e5, Alloc.ok_bind, e6, Alloc.ok_bind,
    tab_dims, e7, Alloc.lift_ok, Alloc.ok_bind, hact _ _ (by simp), Alloc.lift_ok, Alloc.ok_bind, Alloc.pure_eq, tab_map]
  simp only [Alloc.mk.injEq, Outcome.ok.injEq, Layer.mk.injEq, and_true]
  refine ⟨by omega, ?_⟩
  refine mk_tab_eq fun idx hv => ?_
  match idx, hv with
  | [i, j], _ => rfl

/-- C77 (limit): the number of outputs is narrowed to 32 bits, so `dense(2^32 + 1)` has one output. -/
theorem C77_narrowed (x : List Nat) : weightShape (2 ^ 32 + 1) x = weightShape 1 x ∧
    denseBiasShape (2 ^ 32 + 1) = [1] := by
  refine ⟨?_, rfl⟩
  unfold weightShape
  split <;> rfl

/-- C76 (`with_init`): the first initialiser goes to the weights, the second one to the bias. -/
theorem C76_with_init (junkW junkY junkB : Nat → R) {n m k : Nat}
    (hk : k < 2 ^ 32) (X W : Nat → Nat → R) (B : Nat → R) {wInit bInit : Init R}
    (hw : wInit [m, k] (fresh junkW [m, k].prod) = .ok (tab [m, k] (fn2 W)).data)
    (hb : bInit [k] (fresh junkB [k].prod) = .ok (tab [k] (fn1 B)).data) :
    (Models.withInit (Models.denseWith junkW junkY junkB noopAct k) [wInit, bInit] (tab [n, m] (fn2 X))).out =
      .ok ⟨tab [n, k] (fn2 fun i j => (seqSum m fun l => X i l * W l j) + B j),
        [tab [m, k] (fn2 W), tab [k] (fn1 B)]⟩ := by
  show (dense junkW junkY junkB noopAct k (tab [n, m] (fn2 X)) wInit bInit).out = _
  rw [C77_dense junkW junkY junkB noop_acts hk X W B hw hb]
  rfl

end dense

/-- Non-vacuity: 2 inputs of 3 numbers, 2 outputs, constant initialisers, `relu`. -/
example : ActsAs (reluAct (R := Int)) (fun a => if 0 < a then a else 0) ∧
    dense (fun i => 100 + (i : Int)) (fun _ => 7) (fun _ => -3) reluAct 2 ⟨[2, 3], [1, 2, 3, -4, 0, 1]⟩
      (fun _ m => Kernels.constant 2 m) (fun _ _ => .ok [10, -20]) =
    ⟨3, .ok ⟨⟨[2, 2], [22, 0, 4, 0]⟩, [⟨[3, 2], [2, 2, 2, 2, 2, 2]⟩, ⟨[2], [10, -20]⟩]⟩⟩ := ⟨relu_acts, by decide⟩

/-- Non-vacuity of C76: two dense layers in a sequential model; and a second layer that throws. -/
example :
    Models.sequential (fun _ => (0 : Int))
      [Models.withInit (Models.denseWith (fun _ => 5) (fun _ => 6) (fun _ => 7) noopAct 2)
        [fun _ m => Kernels.constant 1 m, fun _ _ => .ok [0, 1]],
       Models.withInit (Models.denseWith (fun _ => 5) (fun _ => 6) (fun _ => 7) reluAct 1)
        [fun _ _ => .ok [2, -1], fun _ m => Kernels.constant 4 m]] ⟨[1, 3], [1, 2, 3]⟩ =
      ⟨3, .ok ⟨⟨[1, 1], [9]⟩, [⟨[2, 1], [2, -1]⟩, ⟨[1], [4]⟩]⟩⟩ ∧
    Models.sequential (fun _ => (0 : Int))
      [Models.withInit (Models.denseWith (fun _ => 5) (fun _ => 6) (fun _ => 7) noopAct 2)
        [fun _ m => Kernels.constant 1 m, fun _ _ => .ok [0, 1]],
       Models.withInit (Models.denseWith (fun _ => 5) (fun _ => 6) (fun _ => 7) reluAct 1)
        [fun _ _ => .throw .runtimeError, fun _ m => Kernels.constant 4 m]] ⟨[1, 3], [1, 2, 3]⟩ =
      ⟨1, .throw .runtimeError⟩ := by decide

/-! ## C78 -/

section conv

/-- The layer `t` has the geometry of the two axes: kernel size, stride and rate are those of the axes, and the padding
policy yields their padding on images of that size. -/
structure HasAxes (t : ConvLayer) (H W : Axis) : Prop where
  ksize : t.ksize = (H.k, W.k)
  stride : t.stride = (H.s, W.s)
  rate : t.rate = (H.r, W.r)
  padH : t.padding H.k H.s H.r H.n = .ok ⟨H.l, H.q⟩
  padW : t.padding W.k W.s W.r W.n = .ok ⟨W.l, W.q⟩

theorem opTrait_run {t : ConvLayer} {H W : Axis} (h : HasAxes t H W) : t.opTrait (H.n, W.n) = .ok (convTrait H W) := by
  unfold ConvLayer.opTrait
  rw [h.ksize, h.stride, h.rate]
  simp only [h.padH, h.padW, Outcome.ok_bind]
  rfl

/-- The layer around any result `K` of the convolution operator (`nhwc`). -/
theorem conv_layer_nhwc [Zero R] [Add R] [Mul R] (junkW junkY junkB : Nat → R) (junkI : Nat → Int) (junk : Nat → R) {act : Act R}
    {f : R → R} (hact : ActsAs act f) {H W : Axis} (hH : AxisOK u32 H) (hW : AxisOK u32 W) {t : ConvLayer}
    (ht : HasAxes t H W) {n c : Nat} (X Y K : Nat → Nat → Nat → Nat → R) (B : Nat → R)
    (hK : ∀ z : List R, z.length = [n, H.m, W.m, t.filters].prod →
      Kernels.convNhwc (convTrait H W) junkI junk [n, H.m, W.m, t.filters] (tab [n, H.n, W.n, c] (fn4 X))
        (tab [H.k, W.k, c, t.filters] (fn4 Y)) z = .ok (tab [n, H.m, W.m, t.filters] (fn4 K)).data)
    {wInit bInit : Init R}
    (hw : wInit [H.k, W.k, c, t.filters] (fresh junkW [H.k, W.k, c, t.filters].prod) =
      .ok (tab [H.k, W.k, c, t.filters] (fn4 Y)).data)
    (hb : bInit [t.filters] (fresh junkB [t.filters].prod) = .ok (tab [t.filters] (fn1 B)).data) :
    Layers.conv .nhwc .rscd junkW junkY junkB junkI junk act t (tab [n, H.n, W.n, c] (fn4 X)) wInit bInit =
      ⟨3, .ok ⟨tab [n, H.m, W.m, t.filters] (fn4 fun b i j e => f (K b i j e + B e)),
        [tab [H.k, W.k, c, t.filters] (fn4 Y), tab [t.filters] (fn1 B)]⟩⟩ := by
  have e1 : t.filterShape .nhwc .rscd (tab [n, H.n, W.n, c] (fn4 X)).dims = .ok [H.k, W.k, c, t.filters] := by
    unfold ConvLayer.filterShape
    rw [tab_dims, ht.ksize]
    rfl
  have e2 : newParameter junkW [H.k, W.k, c, t.filters] wInit = ⟨1, .ok (tab [H.k, W.k, c, t.filters] (fn4 Y))⟩ :=
    newParameter_run hw
  have e3 : imageShape .nhwc (tab [n, H.n, W.n, c] (fn4 X)).dims = .ok (H.n, W.n) := rfl
  have e4 : (convTrait H W).infer .nhwc .rscd (tab [n, H.n, W.n, c] (fn4 X)).dims
      (tab [H.k, W.k, c, t.filters] (fn4 Y)).dims = .ok [n, H.m, W.m, t.filters] :=
    C09_conv_shape (io := .nhwc) (fo := .rscd) (.inl ⟨rfl, rfl⟩) hH hW (c := c) (xs := [n, H.n, W.n, c]) rfl
  have e5 : newResult junkY (.ok [n, H.m, W.m, t.filters]) (fun s z => convOp .nhwc .rscd (convTrait H W) junkI junk s
      (tab [n, H.n, W.n, c] (fn4 X)) (tab [H.k, W.k, c, t.filters] (fn4 Y)) z) =
      ⟨1, .ok (tab [n, H.m, W.m, t.filters] (fn4 K))⟩ :=
    newResult_run (hK _ (fresh_length _ _))
  have e6 : newParameter junkB t.biasShape bInit = ⟨1, .ok (tab [t.filters] (fn1 B))⟩ := newParameter_run hb
  have e7 := C22_bias_nhwc (fun a b : R => a + b) K B
    (mem_holds_all (tab [n, H.m, W.m, t.filters] (fn4 K)).data)
    (by rw [tab_length]; omega)
  rw [store_all (by simp)] at e7
  unfold Layers.conv
  rw [e1, Alloc.lift_ok, Alloc.ok_bind, e2, Alloc.ok_bind, e3, Alloc.lift_ok, Alloc.ok_bind, opTrait_run ht, Alloc.lift_ok,
    Alloc.ok_bind, e4, e5, Alloc.ok_bind, e6, Alloc.ok_bind, tab_dims, e7, Alloc.lift_ok, Alloc.ok_bind,
    hact _ _ (by rw [tab_length]), Alloc.lift_ok, Alloc.ok_bind, Alloc.pure_eq, tab_map]
  simp only [Alloc.mk.injEq, Outcome.ok.injEq, Layer.mk.injEq, and_true]
  refine ⟨by omega, ?_⟩
  refine mk_tab_eq fun idx hv => ?_
  match idx, hv with
  | [b, i, j, e], _ => rfl

/-- C78 (`nhwc`, with bias). -/
theorem C78_conv_nhwc [Semiring R] (junkW junkY junkB : Nat → R) (junkI : Nat → Int) (junk : Nat → R) {act : Act R}
    {f : R → R} (hact : ActsAs act f) {H W : Axis} (hH : AxisOK u32 H) (hW : AxisOK u32 W) {t : ConvLayer}
    (ht : HasAxes t H W) {n c : Nat} (hsz : [H.n, W.n, c].prod ≤ 2 ^ 31) (X Y : Nat → Nat → Nat → Nat → R) (B : Nat → R)
    {wInit bInit : Init R}
    (hw : wInit [H.k, W.k, c, t.filters] (fresh junkW [H.k, W.k, c, t.filters].prod) =
      .ok (tab [H.k, W.k, c, t.filters] (fn4 Y)).data)
    (hb : bInit [t.filters] (fresh junkB [t.filters].prod) = .ok (tab [t.filters] (fn1 B)).data) :
    Layers.conv .nhwc .rscd junkW junkY junkB junkI junk act t (tab [n, H.n, W.n, c] (fn4 X)) wInit bInit =
      ⟨3, .ok ⟨tab [n, H.m, W.m, t.filters] (fn4 fun b i j e => f (conv2 H W c (X b) Y i j e + B e)),
        [tab [H.k, W.k, c, t.filters] (fn4 Y), tab [t.filters] (fn1 B)]⟩⟩ :=
  conv_layer_nhwc junkW junkY junkB junkI junk hact hH hW ht X Y (fun b i j e => conv2 H W c (X b) Y i j e) B
    (fun _ hz => C31_conv_nhwc hH hW hsz X Y junkI junk hz) hw hb

/-- The layer around any result `K` of the convolution operator (`nchw`). -/
theorem conv_layer_nchw [Zero R] [Add R] [Mul R] (junkW junkY junkB : Nat → R) (junkI : Nat → Int) (junk : Nat → R) {act : Act R}
    {f : R → R} (hact : ActsAs act f) {H W : Axis} (hH : AxisOK u32 H) (hW : AxisOK u32 W) {t : ConvLayer}
    (ht : HasAxes t H W) {n c : Nat} (X Y K : Nat → Nat → Nat → Nat → R) (B : Nat → R) {wInit bInit : Init R}
    (hK : ∀ z : List R, z.length = [n, t.filters, H.m, W.m].prod →
      Kernels.convNchw (convTrait H W) junk [n, t.filters, H.m, W.m] (tab [n, c, H.n, W.n] (fn4 X))
        (tab [t.filters, c, H.k, W.k] (fn4 Y)) z = .ok (tab [n, t.filters, H.m, W.m] (fn4 K)).data)
    (hw : wInit [t.filters, c, H.k, W.k] (fresh junkW [t.filters, c, H.k, W.k].prod) =
      .ok (tab [t.filters, c, H.k, W.k] (fn4 Y)).data)
    (hb : bInit [t.filters] (fresh junkB [t.filters].prod) = .ok (tab [t.filters] (fn1 B)).data) :
    Layers.conv .nchw .dcrs junkW junkY junkB junkI junk act t (tab [n, c, H.n, W.n] (fn4 X)) wInit bInit =
      ⟨3, .ok ⟨tab [n, t.filters, H.m, W.m] (fn4 fun b e i j =>
          f (K b e i j + B e)),
        [tab [t.filters, c, H.k, W.k] (fn4 Y), tab [t.filters] (fn1 B)]⟩⟩ := by
  have e1 : t.filterShape .nchw .dcrs (tab [n, c, H.n, W.n] (fn4 X)).dims = .ok [t.filters, c, H.k, W.k] := by
    unfold ConvLayer.filterShape
    rw [tab_dims, ht.ksize]
    rfl
  have e2 : newParameter junkW [t.filters, c, H.k, W.k] wInit = ⟨1, .ok (tab [t.filters, c, H.k, W.k] (fn4 Y))⟩ :=
    newParameter_run hw
  have e3 : imageShape .nchw (tab [n, c, H.n, W.n] (fn4 X)).dims = .ok (H.n, W.n) := rfl
  have e4 : (convTrait H W).infer .nchw .dcrs (tab [n, c, H.n, W.n] (fn4 X)).dims
      (tab [t.filters, c, H.k, W.k] (fn4 Y)).dims = .ok [n, t.filters, H.m, W.m] :=
    C09_conv_shape (io := .nchw) (fo := .dcrs) (.inr ⟨rfl, rfl⟩) hH hW (c := c) (xs := [n, c, H.n, W.n]) rfl
  have e5 : newResult junkY (.ok [n, t.filters, H.m, W.m]) (fun s z => convOp .nchw .dcrs (convTrait H W) junkI junk s
      (tab [n, c, H.n, W.n] (fn4 X)) (tab [t.filters, c, H.k, W.k] (fn4 Y)) z) =
      ⟨1, .ok (tab [n, t.filters, H.m, W.m] (fn4 K))⟩ :=
    newResult_run (hK _ (fresh_length _ _))
  have e6 : newParameter junkB t.biasShape bInit = ⟨1, .ok (tab [t.filters] (fn1 B))⟩ := newParameter_run hb
  have e7 := C22_bias_nchw (fun a b : R => a + b) K B
    (mem_holds_all (tab [n, t.filters, H.m, W.m] (fn4 K)).data)
    (by rw [tab_length]; omega)
  rw [store_all (by simp)] at e7
  unfold Layers.conv
  rw [e1, Alloc.lift_ok, Alloc.ok_bind, e2, Alloc.ok_bind, e3, Alloc.lift_ok, Alloc.ok_bind, opTrait_run ht, Alloc.lift_ok,
    Alloc.ok_bind, e4, e5, Alloc.ok_bind, e6, Alloc.ok_bind, tab_dims, e7, Alloc.lift_ok, Alloc.ok_bind,
    hact _ _ (by rw [tab_length]), Alloc.lift_ok, Alloc.ok_bind, Alloc.pure_eq, tab_map]
  simp only [Alloc.mk.injEq, Outcome.ok.injEq, Layer.mk.injEq, and_true]
  refine ⟨by omega, ?_⟩
  refine mk_tab_eq fun idx hv => ?_
  match idx, hv with
  | [b, i, j, e], _ => rfl

/-- C78 (`nchw`, with bias). -/
theorem C78_conv_nchw [CommSemiring R] (junkW junkY junkB : Nat → R) (junkI : Nat → Int) (junk : Nat → R) {act : Act R}
    {f : R → R} (hact : ActsAs act f) {H W : Axis} (hH : AxisOK u32 H) (hW : AxisOK u32 W) {t : ConvLayer}
    (ht : HasAxes t H W) {n c : Nat} (X Y : Nat → Nat → Nat → Nat → R) (B : Nat → R) {wInit bInit : Init R}
    (hw : wInit [t.filters, c, H.k, W.k] (fresh junkW [t.filters, c, H.k, W.k].prod) =
      .ok (tab [t.filters, c, H.k, W.k] (fn4 Y)).data)
    (hb : bInit [t.filters] (fresh junkB [t.filters].prod) = .ok (tab [t.filters] (fn1 B)).data) :
    Layers.conv .nchw .dcrs junkW junkY junkB junkI junk act t (tab [n, c, H.n, W.n] (fn4 X)) wInit bInit =
      ⟨3, .ok ⟨tab [n, t.filters, H.m, W.m] (fn4 fun b e i j =>
          f (conv2 H W c (fun a a' k => X b k a a') (fun u v k e => Y e k u v) i j e + B e)),
        [tab [t.filters, c, H.k, W.k] (fn4 Y), tab [t.filters] (fn1 B)]⟩⟩ :=
  conv_layer_nchw junkW junkY junkB junkI junk hact hH hW ht X Y (fun b e i j =>
      conv2 H W c (fun a a' k => X b k a a') (fun u v k e => Y e k u v) i j e) B
    (fun _ hz => C32_conv_nchw hH hW X Y junk hz) hw hb

/-- C78 (without bias, both layouts). -/
theorem C78_conv_no_bias [CommSemiring R] (junkW junkY : Nat → R) (junkI : Nat → Int) (junk : Nat → R) {act : Act R}
    {f : R → R} (hact : ActsAs act f) {H W : Axis} (hH : AxisOK u32 H) (hW : AxisOK u32 W) {t : ConvLayer}
    (ht : HasAxes t H W) {n c : Nat} (hsz : [H.n, W.n, c].prod ≤ 2 ^ 31) (X Y : Nat → Nat → Nat → Nat → R)
    {wInit : Init R} :
    (wInit [H.k, W.k, c, t.filters] (fresh junkW [H.k, W.k, c, t.filters].prod) =
        .ok (tab [H.k, W.k, c, t.filters] (fn4 Y)).data →
      Layers.convNoBias .nhwc .rscd junkW junkY junkI junk act t (tab [n, H.n, W.n, c] (fn4 X)) wInit =
        ⟨2, .ok ⟨tab [n, H.m, W.m, t.filters] (fn4 fun b i j e => f (conv2 H W c (X b) Y i j e)),
          [tab [H.k, W.k, c, t.filters] (fn4 Y)]⟩⟩) ∧
    (wInit [t.filters, c, H.k, W.k] (fresh junkW [t.filters, c, H.k, W.k].prod) =
        .ok (tab [t.filters, c, H.k, W.k] (fn4 Y)).data →
      Layers.convNoBias .nchw .dcrs junkW junkY junkI junk act t (tab [n, c, H.n, W.n] (fn4 X)) wInit =
        ⟨2, .ok ⟨tab [n, t.filters, H.m, W.m] (fn4 fun b e i j =>
            f (conv2 H W c (fun a a' k => X b k a a') (fun u v k e => Y e k u v) i j e)),
          [tab [t.filters, c, H.k, W.k] (fn4 Y)]⟩⟩) := by
  constructor
  · intro hw
    have e1 : t.filterShape .nhwc .rscd (tab [n, H.n, W.n, c] (fn4 X)).dims = .ok [H.k, W.k, c, t.filters] := by
      unfold ConvLayer.filterShape
      rw [tab_dims, ht.ksize]
      rfl
    have e2 : newParameter junkW [H.k, W.k, c, t.filters] wInit = ⟨1, .ok (tab [H.k, W.k, c, t.filters] (fn4 Y))⟩ :=
      newParameter_run hw
    have e3 : imageShape .nhwc (tab [n, H.n, W.n, c] (fn4 X)).dims = .ok (H.n, W.n) := rfl
    have e4 : (convTrait H W).infer .nhwc .rscd (tab [n, H.n, W.n, c] (fn4 X)).dims
        (tab [H.k, W.k, c, t.filters] (fn4 Y)).dims = .ok [n, H.m, W.m, t.filters] :=
      C09_conv_shape (io := .nhwc) (fo := .rscd) (.inl ⟨rfl, rfl⟩) hH hW (c := c) (xs := [n, H.n, W.n, c]) rfl
    have e5 : newResult junkY (.ok [n, H.m, W.m, t.filters]) (fun s z => convOp .nhwc .rscd (convTrait H W) junkI junk s
        (tab [n, H.n, W.n, c] (fn4 X)) (tab [H.k, W.k, c, t.filters] (fn4 Y)) z) =
        ⟨1, .ok (tab [n, H.m, W.m, t.filters] (fn4 fun b i j e => conv2 H W c (X b) Y i j e))⟩ :=
      newResult_run (C31_conv_nhwc hH hW hsz X Y junkI junk (fresh_length _ _))
    unfold Layers.convNoBias
    rw [e1, Alloc.lift_ok, Alloc.ok_bind, e2, Alloc.ok_bind, e3, Alloc.lift_ok, Alloc.ok_bind, opTrait_run ht,
      Alloc.lift_ok, Alloc.ok_bind, e4, e5, Alloc.ok_bind, hact _ _ (by rw [tab_length, tab_dims]), Alloc.lift_ok,
      Alloc.ok_bind, Alloc.pure_eq, tab_map]
    simp only [Alloc.mk.injEq, Outcome.ok.injEq, Layer.mk.injEq, and_true]
    refine ⟨by omega, ?_⟩
    refine mk_tab_eq fun idx hv => ?_
    match idx, hv with
    | [b, i, j, e], _ => rfl
  · intro hw
    have e1 : t.filterShape .nchw .dcrs (tab [n, c, H.n, W.n] (fn4 X)).dims = .ok [t.filters, c, H.k, W.k] := by
      unfold ConvLayer.filterShape
      rw [tab_dims, ht.ksize]
      rfl
    have e2 : newParameter junkW [t.filters, c, H.k, W.k] wInit = ⟨1, .ok (tab [t.filters, c, H.k, W.k] (fn4 Y))⟩ :=
      newParameter_run hw
    have e3 : imageShape .nchw (tab [n, c, H.n, W.n] (fn4 X)).dims = .ok (H.n, W.n) := rfl
    have e4 : (convTrait H W).infer .nchw .dcrs (tab [n, c, H.n, W.n] (fn4 X)).dims
        (tab [t.filters, c, H.k, W.k] (fn4 Y)).dims = .ok [n, t.filters, H.m, W.m] :=
      C09_conv_shape (io := .nchw) (fo := .dcrs) (.inr ⟨rfl, rfl⟩) hH hW (c := c) (xs := [n, c, H.n, W.n]) rfl
    have e5 : newResult junkY (.ok [n, t.filters, H.m, W.m]) (fun s z => convOp .nchw .dcrs (convTrait H W) junkI junk s
        (tab [n, c, H.n, W.n] (fn4 X)) (tab [t.filters, c, H.k, W.k] (fn4 Y)) z) =
        ⟨1, .ok (tab [n, t.filters, H.m, W.m] (fn4 fun b e i j =>
          conv2 H W c (fun a a' k => X b k a a') (fun u v k e => Y e k u v) i j e))⟩ :=
      newResult_run (C32_conv_nchw hH hW X Y junk (fresh_length _ _))
    unfold Layers.convNoBias
    rw [e1, Alloc.lift_ok, Alloc.ok_bind, e2, Alloc.ok_bind, e3, Alloc.lift_ok, Alloc.ok_bind, opTrait_run ht,
      Alloc.lift_ok, Alloc.ok_bind, e4, e5, Alloc.ok_bind, hact _ _ (by rw [tab_length, tab_dims]), Alloc.lift_ok,
      Alloc.ok_bind, Alloc.pure_eq, tab_map]
    simp only [Alloc.mk.injEq, Outcome.ok.injEq, Layer.mk.injEq, and_true]
    refine ⟨by omega, ?_⟩
    refine mk_tab_eq fun idx hv => ?_
    match idx, hv with
    | [b, i, j, e], _ => rfl

theorem pair_eq {a b : Nat} (ha : u32.In a) (hb : u32.In b) : ConvLayer.pair (a, b) = (a, b) := by
  simp [ConvLayer.pair, conv_eq u32_std ha, conv_eq u32_std hb]

/-- C78 (same padding, stride 1): every kernel size and rate keeps height and width: the layer has axes whose output length
is the input length, so that the theorems above apply with that output shape. The total padding is the patch size less one,
with the odd one behind. -/
theorem C78_same_padding {r s rh rw h w : Nat} (d : Nat) (r1 : 1 ≤ r) (s1 : 1 ≤ s) (rh1 : 1 ≤ rh) (rw1 : 1 ≤ rw)
    (hr : u32.In r) (hs : u32.In s) (hrh : u32.In rh) (hrw : u32.In rw) (h1 : 1 ≤ h) (w1 : 1 ≤ w)
    (hh : u32.In ((h + patch r rh : Nat) : Int)) (hw : u32.In ((w + patch s rw : Nat) : Int)) :
    ∃ H W : Axis, AxisOK u32 H ∧ AxisOK u32 W ∧ H.n = h ∧ W.n = w ∧ H.m = h ∧ W.m = w ∧
      H.l = (patch r rh - 1) / 2 ∧ H.q = patch r rh / 2 ∧ W.l = (patch s rw - 1) / 2 ∧ W.q = patch s rw / 2 ∧
      HasAxes (ConvLayer.make d ((r : Int), (s : Int)) (Sample.paddingSame u32) (1, 1) ((rh : Int), (rw : Int))) H W := by
  have p1 : 1 ≤ patch r rh := by unfold patch; omega
  have p2 : 1 ≤ patch s rw := by unfold patch; omega
  obtain ⟨l, q, e, a1, a2, a3, ok⟩ := same_axis r1 (s := 1) (le_refl 1) rh1 hr (by decide) hrh hh (by decide)
    (by rw [Nat.mod_one]; omega) h1
  obtain ⟨l', q', e', b1, b2, b3, ok'⟩ := same_axis s1 (s := 1) (le_refl 1) rw1 hs (by decide) hrw hw (by decide)
    (by rw [Nat.mod_one]; omega) w1
  rw [Nat.div_one] at ok ok'
  rw [Nat.mod_one] at a3 b3
  refine ⟨_, _, ok, ok', rfl, rfl, rfl, rfl, ?_, ?_, ?_, ?_, ⟨pair_eq hr hs, rfl, pair_eq hrh hrw, e, e'⟩⟩ <;> dsimp only <;> omega

/-- C78 (fixed padding): a layer with a fixed padding puts `l` zeros in front of and `q` zeros behind both axes. -/
theorem C78_fixed_padding {r s sh sw rh rw l q : Nat} (d : Nat) (hr : u32.In r) (hs : u32.In s) (hsh : u32.In sh)
    (hsw : u32.In sw) (hrh : u32.In rh) (hrw : u32.In rw) (h w m m' : Nat) :
    HasAxes (ConvLayer.make d ((r : Int), (s : Int)) (Sample.paddingFixed ⟨l, q⟩) ((sh : Int), (sw : Int))
      ((rh : Int), (rw : Int))) ⟨r, sh, rh, l, q, h, m⟩ ⟨s, sw, rw, l, q, w, m'⟩ :=
  ⟨pair_eq hr hs, pair_eq hsh hsw, pair_eq hrh hrw, rfl, rfl⟩

/-- C78 (valid padding, the default): images not smaller than the patch are accepted. -/
theorem C78_valid_padding {r s sh sw h w : Nat} (d : Nat) (r1 : 1 ≤ r) (s1 : 1 ≤ s) (sh1 : 1 ≤ sh) (sw1 : 1 ≤ sw)
    (hr : u32.In r) (hs : u32.In s) (hsh : u32.In sh) (hsw : u32.In sw)
    (hh : u32.In ((h + sh : Nat) : Int)) (hw : u32.In ((w + sw : Nat) : Int)) (lh : r ≤ h) (lw : s ≤ w) :
    ∃ H W : Axis, AxisOK u32 H ∧ AxisOK u32 W ∧ H.n = h ∧ W.n = w ∧ H.m = (h - r + sh - 1) / sh + 1 ∧
      W.m = (w - s + sw - 1) / sw + 1 ∧
      HasAxes (ConvLayer.makeS d ((r : Int), (s : Int)) (Sample.paddingValid u32) ((sh : Int), (sw : Int))) H W := by
  have p1 : patch r 1 = r := by unfold patch; omega
  have p2 : patch s 1 = s := by unfold patch; omega
  obtain ⟨l, q, e, -, ok⟩ := valid_axis r1 sh1 (r := 1) (le_refl 1) hr hsh (by decide) hh (by omega)
  obtain ⟨l', q', e', -, ok'⟩ := valid_axis s1 sw1 (r := 1) (le_refl 1) hs hsw (by decide) hw (by omega)
  rw [p1] at ok
  rw [p2] at ok'
  exact ⟨_, _, ok, ok', rfl, rfl, rfl, rfl, ⟨pair_eq hr hs, pair_eq hsh hsw, rfl, e, e'⟩⟩

/-- C78 (defaults): valid padding, stride 1, rate 1. -/
theorem C78_defaults (d : Nat) (k s : Int × Int) (p : Sample.Policy) :
    ConvLayer.makeK d k = .make d k (Sample.paddingValid u32) (1, 1) (1, 1) ∧
      ConvLayer.makeP d k p = .make d k p (1, 1) (1, 1) ∧ ConvLayer.makeS d k p s = .make d k p s (1, 1) := ⟨rfl, rfl, rfl⟩

/-- Non-vacuity: a layer with fixed padding, one cell in front and two behind. -/
example : Layers.conv .nhwc .rscd (fun _ => (0 : Int)) (fun _ => 0) (fun _ => 0) (fun _ => 0) (fun _ => 0) noopAct
      (ConvLayer.makeP 1 (2, 2) (Sample.paddingFixed ⟨1, 2⟩)) ⟨[1, 1, 1, 1], [5]⟩ (fun _ _ => .ok [1, 10, 100, 1000])
      (fun _ _ => .ok [0]) =
    ⟨3, .ok ⟨⟨[1, 3, 3, 1], [5000, 500, 0, 50, 5, 0, 0, 0, 0]⟩, [⟨[2, 2, 1, 1], [1, 10, 100, 1000]⟩, ⟨[1], [0]⟩]⟩⟩ := by
  decide

/-- Non-vacuity: same padding with an even kernel and rate 2 on a 4 × 5 image; and a small convolution layer run. -/
example : HasAxes (ConvLayer.make 7 (2, 3) (Sample.paddingSame u32) (1, 1) (2, 1)) ⟨2, 1, 2, 1, 1, 4, 4⟩
      ⟨3, 1, 1, 1, 1, 5, 5⟩ ∧
    Layers.conv .nhwc .rscd (fun _ => (0 : Int)) (fun _ => 0) (fun _ => 0) (fun _ => 0) (fun _ => 0) reluAct
      (ConvLayer.makeK 1 (2, 2)) ⟨[1, 2, 3, 1], [1, 2, 3, 4, 5, 6]⟩ (fun _ m => Kernels.constant 1 m)
      (fun _ _ => .ok [-13]) = ⟨3, .ok ⟨⟨[1, 1, 2, 1], [0, 3]⟩, [⟨[2, 2, 1, 1], [1, 1, 1, 1]⟩, ⟨[1], [-13]⟩]⟩⟩ := by
  refine ⟨⟨?_, ?_, ?_, ?_, ?_⟩, ?_⟩ <;> decide

end conv

/-! ## Concrete cases

A layer of two 2x2 filters over a 3x5 image padded by one pixel on every side, with strides (1, 2) and rates (1, 2), and
initialisers that store given tensors. -/

def exL : Axis := ⟨2, 1, 1, 1, 1, 3, 4⟩
def exLayer : ConvLayer := ConvLayer.make 2 (2, 2) (Sample.paddingFixed ⟨1, 1⟩) (1, 2) (1, 2)
def exInit (f : List Nat → R) : Init R := fun s _ => .ok (tab s f).data

theorem exL_ok : AxisOK u32 exL := by
  refine ⟨⟨?_, ?_, ?_, ?_, ?_, ?_, ?_, ?_, ?_, ?_, ?_, ?_, ?_, ?_⟩, ?_⟩ <;> decide
theorem exLayer_axes : HasAxes exLayer exL exW := by
  refine ⟨?_, ?_, ?_, ?_, ?_⟩ <;> decide

example := C77_dense (R := Int) (fun _ => 1) (fun _ => 2) (fun _ => 3) relu_acts (n := 2) (m := 3) (k := 2) (by decide)
  (fun i l => i - 4 * l) (fun l j => l + j) (fun j => 7 - j) (wInit := exInit (fn2 fun l j => l + j))
  (bInit := exInit (fn1 fun j => 7 - j)) rfl rfl
example := C76_with_init (R := Int) (fun _ => 1) (fun _ => 2) (fun _ => 3) (n := 2) (m := 3) (k := 2) (by decide)
  (fun i l => i - 4 * l) (fun l j => l + j) (fun j => 7 - j) (wInit := exInit (fn2 fun l j => l + j))
  (bInit := exInit (fn1 fun j => 7 - j)) rfl rfl
example := C78_conv_nhwc (R := Int) (fun _ => 1) (fun _ => 2) (fun _ => 3) (fun _ => 4) (fun _ => 5) relu_acts exL_ok exW_ok
  exLayer_axes (n := 2) (c := 3) (by decide) (fun b p q k => b + p - q * k) (fun r s k e => r - s + k * e) (fun e => 9 * e)
  (wInit := exInit (fn4 fun r s k e => r - s + k * e)) (bInit := exInit (fn1 fun e => 9 * e)) rfl rfl
example := C78_conv_nchw (R := Int) (fun _ => 1) (fun _ => 2) (fun _ => 3) (fun _ => 4) (fun _ => 5) relu_acts exL_ok exW_ok
  exLayer_axes (n := 2) (c := 3) (fun b k p q => b + p - q * k) (fun e k r s => r - s + k * e) (fun e => 9 * e)
  (wInit := exInit (fn4 fun e k r s => r - s + k * e)) (bInit := exInit (fn1 fun e => 9 * e)) rfl rfl
example := (C78_conv_no_bias (R := Int) (fun _ => 1) (fun _ => 2) (fun _ => 4) (fun _ => 5) relu_acts exL_ok exW_ok
  exLayer_axes (n := 2) (c := 3) (by decide) (fun b p q k => b + p - q * k) (fun r s k e => r - s + k * e)
  (wInit := exInit (fn4 fun r s k e => r - s + k * e))).1 rfl
example := (C78_conv_no_bias (R := Int) (fun _ => 1) (fun _ => 2) (fun _ => 4) (fun _ => 5) relu_acts exL_ok exW_ok
  exLayer_axes (n := 2) (c := 3) (by decide) (fun b k p q => b + p - q * k) (fun e k r s => r - s + k * e)
  (wInit := exInit (fn4 fun e k r s => r - s + k * e))).2 rfl
example := C78_same_padding (r := 3) (s := 2) (rh := 1) (rw := 2) (h := 5) (w := 4) 7 (by decide) (by decide) (by decide)
  (by decide) (by decide) (by decide) (by decide) (by decide) (by decide) (by decide) (by decide) (by decide)
example := C78_fixed_padding (r := 3) (s := 2) (sh := 2) (sw := 1) (rh := 1) (rw := 2) (l := 1) (q := 3) 7 (by decide)
  (by decide) (by decide) (by decide) (by decide) (by decide) 5 4 4 7
example := C78_valid_padding (r := 3) (s := 2) (sh := 2) (sw := 1) (h := 6) (w := 4) 7 (by decide) (by decide) (by decide)
  (by decide) (by decide) (by decide) (by decide) (by decide) (by decide) (by decide) (by decide) (by decide)

end StdNN
