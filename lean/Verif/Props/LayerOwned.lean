import Verif.Props.Functional
import Verif.Props.Batch
/-!
# C84, C85: ownership for the remaining layers and for networks; relu as the activation of a layer
-/
namespace StdNN
open Spec Outcome IntTy Layers Models
variable {R : Type}

/-- When the layer returns, exactly the tensors owned by the returned object are allocated. -/
def Owns (f : LayerFn R) : Prop := ∀ x l, (f x).out = .ok l → (f x).live = l.size

/-- C84 (what holds, identity layers): the copy is owned, and its input is not. -/
theorem C84_identity_owned_partial [Zero R] (junk : Nat → R) : Owns (Layers.identity junk) := fun x l h => by
  unfold Layers.identity at h ⊢
  obtain ⟨a1, o1, h, e⟩ := Alloc.bind_out_ok h; rw [e]
  rw [Alloc.pure_eq] at h ⊢
  injection h with h
  subst h
  rw [newResult_live_ok o1]
  rfl

/-- C84 (what holds, activation layers), for any operator. -/
theorem C84_activation_owned_partial (junk : Nat → R) (act : List Nat → Tensor R → List R → Outcome (List R)) :
    Owns (activation junk act) := fun x l h => by
  unfold activation at h ⊢
  obtain ⟨a1, o1, h, e⟩ := Alloc.bind_out_ok h; rw [e]
  rw [Alloc.pure_eq] at h ⊢
  injection h with h
  subst h
  rw [newResult_live_ok o1]
  rfl

/-- C84 (what holds, concatenation of channels): the result is owned; operands that do not fit throw without a leak. -/
theorem C84_concat_owned_partial (o : Order) (junk : Nat → R) (xs : List (Tensor R)) :
    (∀ l, (Layers.concatChannel o junk xs).out = .ok l → (Layers.concatChannel o junk xs).live = l.size) ∧
    ∀ e, Ops.concatChannelShape o (xs.map Tensor.dims) = .throw e → Layers.concatChannel o junk xs = ⟨0, .throw e⟩ := by
  constructor
  · intro l h
    unfold Layers.concatChannel at h ⊢
    obtain ⟨a1, o1, h, e⟩ := Alloc.bind_out_ok h; rw [e]
    rw [Alloc.pure_eq] at h ⊢
    injection h with h
    subst h
    rw [newResult_live_ok o1]
    rfl
  · intro e h
    unfold Layers.concatChannel
    rw [h]
    rfl

section
variable [Zero R] [Add R] [Sub R] [Mul R] [Div R]

/-- C84 (what holds, batch normalisation layers). -/
theorem C84_bn_owned_partial (sqrt : R → R) (eps : R) (o : Order) (junkM junkV junkB junkG junkY : Nat → R) (act : Act R)
    (meanInit varInit betaInit gammaInit : Init R) :
    Owns fun x => batchNorm sqrt eps o junkM junkV junkB junkG junkY act x meanInit varInit betaInit gammaInit := fun x l h => by
  unfold batchNorm at h ⊢
  obtain ⟨a1, o1, h, e⟩ := Alloc.bind_out_ok h; rw [e]
  obtain ⟨a2, o2, h, e⟩ := Alloc.bind_out_ok h; rw [e]
  obtain ⟨a3, o3, h, e⟩ := Alloc.bind_out_ok h; rw [e]
  obtain ⟨a4, o4, h, e⟩ := Alloc.bind_out_ok h; rw [e]
  obtain ⟨a5, o5, h, e⟩ := Alloc.bind_out_ok h; rw [e]
  obtain ⟨a6, o6, h, e⟩ := Alloc.bind_out_ok h; rw [e]
  obtain ⟨a7, o7, h, e⟩ := Alloc.bind_out_ok h; rw [e]
  rw [Alloc.pure_eq] at h ⊢
  injection h with h
  subst h
  rw [newResult_live_ok o6]
  rfl

/-- C84 (false as stated, batch normalisation layers): an exception of the first, second, third or fourth initialiser leaks
one, two, three or four tensors. -/
theorem C84_bn_init_leaks (sqrt : R → R) (eps : R) (o : Order) (junkM junkV junkB junkG junkY : Nat → R) (act : Act R)
    (x : Tensor R) (meanInit varInit betaInit gammaInit : Init R) {c : Nat} (hc : channelSize o x.dims = .ok c) {e : Err}
    {m v b : List R} :
    let layer := batchNorm sqrt eps o junkM junkV junkB junkG junkY act x meanInit varInit betaInit gammaInit
    let M := meanInit [c] (fresh junkM [c].prod)
    let V := varInit [c] (fresh junkV [c].prod)
    let B := betaInit [c] (fresh junkB [c].prod)
    let G := gammaInit [c] (fresh junkG [c].prod)
    (M = .throw e → layer = ⟨1, .throw e⟩) ∧
    (M = .ok m → V = .throw e → layer = ⟨2, .throw e⟩) ∧
    (M = .ok m → V = .ok v → B = .throw e → layer = ⟨3, .throw e⟩) ∧
    (M = .ok m → V = .ok v → B = .ok b → G = .throw e → layer = ⟨4, .throw e⟩) := by
  have ok : ∀ {junk : Nat → R} {init : Init R} {d : List R}, init [c] (fresh junk [c].prod) = .ok d →
      newParameter junk [c] init = ⟨1, .ok ⟨[c], d⟩⟩ := fun h => by unfold newParameter; rw [h]; rfl
  have no : ∀ {junk : Nat → R} {init : Init R}, init [c] (fresh junk [c].prod) = .throw e →
      newParameter junk [c] init = ⟨1, .throw e⟩ := fun h => by unfold newParameter; rw [h]; rfl
  unfold batchNorm
  rw [hc, Alloc.lift_ok, Alloc.ok_bind]
  refine ⟨fun h1 => ?_, fun h1 h2 => ?_, fun h1 h2 h3 => ?_, fun h1 h2 h3 h4 => ?_⟩
  · rw [no h1]; rfl
  · rw [ok h1, Alloc.ok_bind, no h2]; rfl
  · rw [ok h1, Alloc.ok_bind, ok h2, Alloc.ok_bind, no h3]; rfl
  · rw [ok h1, Alloc.ok_bind, ok h2, Alloc.ok_bind, ok h3, Alloc.ok_bind, no h4]; rfl

end

/-- C84 (what holds, networks): of two layers one after the other, the intermediate result is released when the call returns. -/
theorem C84_composed_owned_partial {f g : LayerFn R} (hf : Owns f) (hg : Owns g) : Owns (composed f g) := fun x l h => by
  unfold composed at h ⊢
  cases ho : (f x).out with
  | ok y =>
    simp only [ho, Alloc.freeing] at h ⊢
    rw [hf x y ho, hg y.output l h]
    omega
  | throw e => simp [ho] at h
  | ub => simp [ho] at h

/-- C84 (networks that throw): the first layer is released also when the second one throws, so exactly what the throwing layer
leaked stays allocated. -/
theorem C84_composed_leaks {f g : LayerFn R} (hf : Owns f) {x : Tensor R} {e : Err} :
    (∀ y, (f x).out = .ok y → (g y.output).out = .throw e → composed f g x = ⟨(g y.output).live, .throw e⟩) ∧
    ((f x).out = .throw e → composed f g x = ⟨(f x).live, .throw e⟩) := by
  unfold composed
  refine ⟨fun y ho h => ?_, fun ho => ?_⟩
  · simp only [ho, Alloc.freeing, h]
    rw [hf x y ho]
    simp
  · simp only [ho]

/-- C84 (what holds, sequential models). -/
theorem C84_sequential_owned_partial [Zero R] (junk : Nat → R) (ls : List (LayerFn R)) (h : ∀ l ∈ ls, Owns l) :
    Owns (sequential junk ls) := by
  induction ls using List.reverseRecOn with
  | nil => exact C84_identity_owned_partial junk
  | append_singleton ls l ih =>
    rw [sequential_snoc]
    exact C84_composed_owned_partial (ih fun m hm => h m (by simp [hm])) (h l (by simp))

/-! ## C85: relu -/

section
variable [LT R] [DecidableLT R]

/-- C85 (partial: relu): dense layers. -/
theorem C85_relu_dense_partial [Zero R] [Add R] [Mul R] (junkW junkY junkB junk : Nat → R) {n m k : Nat}
    (hk : k < 2 ^ 32) (X W : Nat → Nat → R) (B : Nat → R) {wInit bInit : Init R}
    (hw : wInit [m, k] (fresh junkW [m, k].prod) = .ok (tab [m, k] (fn2 W)).data)
    (hb : bInit [k] (fresh junkB [k].prod) = .ok (tab [k] (fn1 B)).data) :
    ∃ (y z : Tensor R) (ws : List (Tensor R)),
      (dense junkW junkY junkB reluAct k (tab [n, m] (fn2 X)) wInit bInit).out = .ok ⟨y, ws⟩ ∧
      (dense junkW junkY junkB noopAct k (tab [n, m] (fn2 X)) wInit bInit).out = .ok ⟨z, ws⟩ ∧
      (activation junk (fun s x y => Ops.relu s.prod (.ext x.data) 0 y) z).out = .ok ⟨y, []⟩ :=
  C85_dense_partial junkW junkY junkB junk _ hk X W B hw hb

/-- C85 (partial: relu): convolution layers, `nhwc`. -/
theorem C85_relu_conv_nhwc_partial [Semiring R] (junkW junkY junkB : Nat → R) (junkI : Nat → Int) (junk junkA : Nat → R)
    {H W : Axis} (hH : AxisOK u32 H) (hW : AxisOK u32 W) {t : ConvLayer}
    (ht : HasAxes t H W) {n c : Nat} (hsz : [H.n, W.n, c].prod ≤ 2 ^ 31) (X Y : Nat → Nat → Nat → Nat → R) (B : Nat → R)
    {wInit bInit : Init R}
    (hw : wInit [H.k, W.k, c, t.filters] (fresh junkW [H.k, W.k, c, t.filters].prod) =
      .ok (tab [H.k, W.k, c, t.filters] (fn4 Y)).data)
    (hb : bInit [t.filters] (fresh junkB [t.filters].prod) = .ok (tab [t.filters] (fn1 B)).data) :
    ∃ (y z : Tensor R) (ws : List (Tensor R)),
      (Layers.conv .nhwc .rscd junkW junkY junkB junkI junk reluAct t (tab [n, H.n, W.n, c] (fn4 X)) wInit
        bInit).out = .ok ⟨y, ws⟩ ∧
      (Layers.conv .nhwc .rscd junkW junkY junkB junkI junk noopAct t (tab [n, H.n, W.n, c] (fn4 X)) wInit
        bInit).out = .ok ⟨z, ws⟩ ∧
      (activation junkA (fun s x y => Ops.relu s.prod (.ext x.data) 0 y) z).out = .ok ⟨y, []⟩ :=
  C85_conv_nhwc_partial junkW junkY junkB junkI junk junkA _ hH hW ht hsz X Y B hw hb

/-- C85 (partial: relu): convolution layers, `nchw`. -/
theorem C85_relu_conv_nchw_partial [CommSemiring R] (junkW junkY junkB : Nat → R) (junkI : Nat → Int) (junk junkA : Nat → R)
    {H W : Axis} (hH : AxisOK u32 H) (hW : AxisOK u32 W) {t : ConvLayer}
    (ht : HasAxes t H W) {n c : Nat} (X Y : Nat → Nat → Nat → Nat → R) (B : Nat → R) {wInit bInit : Init R}
    (hw : wInit [t.filters, c, H.k, W.k] (fresh junkW [t.filters, c, H.k, W.k].prod) =
      .ok (tab [t.filters, c, H.k, W.k] (fn4 Y)).data)
    (hb : bInit [t.filters] (fresh junkB [t.filters].prod) = .ok (tab [t.filters] (fn1 B)).data) :
    ∃ (y z : Tensor R) (ws : List (Tensor R)),
      (Layers.conv .nchw .dcrs junkW junkY junkB junkI junk reluAct t (tab [n, c, H.n, W.n] (fn4 X)) wInit
        bInit).out = .ok ⟨y, ws⟩ ∧
      (Layers.conv .nchw .dcrs junkW junkY junkB junkI junk noopAct t (tab [n, c, H.n, W.n] (fn4 X)) wInit
        bInit).out = .ok ⟨z, ws⟩ ∧
      (activation junkA (fun s x y => Ops.relu s.prod (.ext x.data) 0 y) z).out = .ok ⟨y, []⟩ :=
  C85_conv_nchw_partial junkW junkY junkB junkI junk junkA _ hH hW ht X Y B hw hb

end

/-! ## Concrete cases -/

example : (Layers.identity (fun _ => (0 : Int)) ⟨[2, 2], [1, 2, 3, 4]⟩).out = .ok ⟨⟨[2, 2], [1, 2, 3, 4]⟩, []⟩ ∧
    (activation (fun _ => (0 : Int)) (fun s x y => Ops.relu s.prod (.ext x.data) 0 y) ⟨[2], [-1, 2]⟩).out = .ok ⟨⟨[2], [0, 2]⟩, []⟩ ∧
    (Layers.concatChannel .nchw (fun _ => (0 : Int)) [⟨[1, 1, 1, 2], [4, 5]⟩, ⟨[1, 1, 1, 2], [6, 7]⟩]).out =
      .ok ⟨⟨[1, 2, 1, 2], [4, 5, 6, 7]⟩, []⟩ ∧
    batchNorm (fun v : Int => v) 1 .nhwc (fun _ => 1) (fun _ => 2) (fun _ => 3) (fun _ => 4) (fun _ => 5) noopAct ⟨[1, 1, 1, 2], [8, 9]⟩
      (fun _ _ => .ok [1, 2]) (fun _ _ => .ok [3, 4]) (fun _ _ => .throw .runtimeError) (fun _ _ => .ok [7, 8]) =
      ⟨3, .throw .runtimeError⟩ := by decide +kernel
example := C84_bn_init_leaks (fun v : Int => v) 1 .nhwc (fun _ => 1) (fun _ => 2) (fun _ => 3) (fun _ => 4) (fun _ => 5) noopAct
  ⟨[1, 1, 1, 2], [8, 9]⟩ (fun _ _ => .ok [1, 2]) (fun _ _ => .ok [3, 4]) (fun _ _ => .throw .runtimeError) (fun _ _ => .ok [7, 8])
  (c := 2) rfl (e := .runtimeError) (m := [1, 2]) (v := [3, 4]) (b := [])
example := C84_sequential_owned_partial (fun _ => (0 : Int)) [fun x => batchNorm (fun v : Int => v) 1 .nhwc (fun _ => 1) (fun _ => 2)
  (fun _ => 3) (fun _ => 4) (fun _ => 5) noopAct x noopInit noopInit noopInit noopInit, activation (fun _ => 0) fun s x y =>
    Ops.relu s.prod (.ext x.data) 0 y] fun l hl => by
  rcases List.mem_cons.1 hl with rfl | hl
  · exact C84_bn_owned_partial _ _ _ _ _ _ _ _ _ _ _ _ _
  · rw [List.mem_singleton.1 hl]
    exact C84_activation_owned_partial _ _

/-- A second layer that throws: its two leaked tensors stay, the first layer is released. -/
example : composed (Layers.identity fun _ => 0) (fun x => batchNorm (fun v : Int => v) 1 .nhwc (fun _ => 1) (fun _ => 2) (fun _ => 3)
    (fun _ => 4) (fun _ => 5) noopAct x noopInit (fun _ _ => .throw .runtimeError) noopInit noopInit) ⟨[1, 1, 1, 2], [8, 9]⟩ =
    ⟨2, .throw .runtimeError⟩ := by
  refine ((C84_composed_leaks (C84_identity_owned_partial _) (e := .runtimeError)).1 ⟨⟨[1, 1, 1, 2], [8, 9]⟩, []⟩ ?_ ?_).trans ?_ <;> decide +kernel
example := C85_relu_dense_partial (fun _ => (1 : Int)) (fun _ => 2) (fun _ => 3) (fun _ => 4) (n := 2) (m := 3) (k := 2) (by decide)
  (fun i l => i - l) (fun l j => l - 2 * j) (fun j => j) (wInit := exInit (fn2 fun l j => l - 2 * j)) (bInit := exInit (fn1 fun j => j))
  rfl rfl
example := C85_relu_conv_nhwc_partial (fun _ => (1 : Int)) (fun _ => 2) (fun _ => 3) (fun _ => 4) (fun _ => 5) (fun _ => 6) exL_ok exW_ok
  exLayer_axes (n := 2) (c := 3) (by decide) (fun b i j k => b - i + j * k) (fun r s k e => r - s + k * e) (fun e => 9 * e)
  (wInit := exInit (fn4 fun r s k e => r - s + k * e)) (bInit := exInit (fn1 fun e => 9 * e)) rfl rfl
example := C85_relu_conv_nchw_partial (fun _ => (1 : Int)) (fun _ => 2) (fun _ => 3) (fun _ => 4) (fun _ => 5) (fun _ => 6) exL_ok exW_ok
  exLayer_axes (n := 2) (c := 3) (fun b i j k => b - i + j * k) (fun e k r s => r - s + k * e) (fun e => 9 * e)
  (wInit := exInit (fn4 fun e k r s => r - s + k * e)) (bInit := exInit (fn1 fun e => 9 * e)) rfl rfl

/-- C76 (`with_init`, omitted initialisers): a parameter without an initialiser keeps whatever its memory held when it was
allocated. With one initialiser given this is the bias, with none it is the weights and the bias. -/
theorem C76_omitted_init [Zero R] [Add R] [Mul R] (junkW junkY junkB : Nat → R) {n m k : Nat} (hk : k < 2 ^ 32)
    (X W : Nat → Nat → R) {wInit : Init R} (hw : wInit [m, k] (fresh junkW [m, k].prod) = .ok (tab [m, k] (fn2 W)).data) :
    (withInit (denseWith junkW junkY junkB noopAct k) [wInit] (tab [n, m] (fn2 X))).out =
      .ok ⟨tab [n, k] (fn2 fun i j => (seqSum m fun l => X i l * W l j) + junkB j), [tab [m, k] (fn2 W), tab [k] (fn1 junkB)]⟩ ∧
    (withInit (denseWith junkW junkY junkB noopAct k) [] (tab [n, m] (fn2 X))).out =
      .ok ⟨tab [n, k] (fn2 fun i j => (seqSum m fun l => X i l * junkW (l * k + j)) + junkB j),
        [tab [m, k] (fn2 fun l j => junkW (l * k + j)), tab [k] (fn1 junkB)]⟩ := by
  have hb : noopInit [k] (fresh junkB [k].prod) = .ok (tab [k] (fn1 junkB)).data := by
    refine congrArg Outcome.ok (data_eq_tab (fresh_length _ _) fun idx hv => ?_)
    match idx, hv with
    | [j], hv =>
      have := offset_lt (dims := [k]) (idx := [j]) hv
      simp at this
      simp [fresh, this]
  have hn : noopInit [m, k] (fresh junkW [m, k].prod) = .ok (tab [m, k] (fn2 fun l j => junkW (l * k + j))).data := by
    refine congrArg Outcome.ok (data_eq_tab (fresh_length _ _) fun idx hv => ?_)
    match idx, hv with
    | [l, j], hv =>
      have := offset_lt (dims := [m, k]) (idx := [l, j]) hv
      simp at this
      simp [fresh, this]
  exact ⟨C76_with_init junkW junkY junkB hk X W junkB hw hb, C76_with_init junkW junkY junkB hk X _ junkB hn hb⟩

example := C76_omitted_init (fun i => 100 + (i : Int)) (fun _ => 7) (fun i => -3 * (i : Int)) (n := 2) (m := 3) (k := 2) (by decide)
  (fun i l => i - l) (fun l j => l - 2 * j) (wInit := exInit (fn2 fun l j => l - 2 * j)) rfl

end StdNN
