import Verif.Props.Backprop
import Verif.Props.DualNumbers
import Mathlib.Analysis.Calculus.Deriv.Prod
/-!
# C157: forward mode and backpropagation agree

The library gives two ways to differentiate a network of layers in exact arithmetic: run it on dual numbers (C150), or call
the operators of the layers one by one and then their gradient operators in the reverse order (C124).
-/
namespace StdNN
open IntTy Spec Outcome Finset Models Layers _root_.Filter Topology

/-- On every input of shape `ds` the layer `f` returns what the chain `t` of operator calls computes, of shape `es`. -/
def Realises {ds es : List Nat} (t : Net ds.prod es.prod) (f : LayerFn ℝ) : Prop :=
  ∀ X : List Nat → ℝ, ∃ Y : List Nat → ℝ, Gives f (tab ds X) (tab es Y) ∧
    ∀ junk i, t.forward junk i (tab ds X).data = .ok (tab es Y).data

/-- One chain of calls after the other. -/
def Net.append : {n m k : Nat} → Net n m → Net m k → Net n k
  | _, _, _, .nil _, u => u
  | _, _, _, .cons s t, u => .cons s (t.append u)

theorem Net.forward_append (junk : Nat → Nat → ℝ) : ∀ {n m k : Nat} (t : Net n m) (u : Net m k) (x y : List ℝ) (i : Nat),
    t.forward junk i x = .ok y → (∀ i, u.forward junk i y = .ok z) → (t.append u).forward junk i x = .ok z
  | _, _, _, .nil _, u, x, y, i, h, hu => by
    obtain rfl : x = y := Outcome.ok.inj h
    exact hu i
  | _, _, _, .cons (m := m) s t, u, x, y, i, h, hu => by
    show (do let y ← s.fwd x ((List.range m).map (junk i)); (t.append u).forward junk (i + 1) y) = _
    have h' : (do let y ← s.fwd x ((List.range m).map (junk i)); t.forward junk (i + 1) y) = .ok y := h
    cases hs : s.fwd x ((List.range m).map (junk i)) with
    | ok w =>
      rw [hs, Outcome.ok_bind] at h' 
      rw [Outcome.ok_bind]
      exact Net.forward_append junk t u w y (i + 1) h' hu
    | _ => rw [hs] at h'; cases h'

/-- The chains `ts 0`, …, `ts (k - 1)` one after the other. -/
def Net.chain {shapes : Nat → List Nat} (ts : ∀ i, Net (shapes i).prod (shapes (i + 1)).prod) :
    (k : Nat) → Net (shapes 0).prod (shapes k).prod
  | 0 => .nil _
  | k + 1 => (Net.chain ts k).append (ts k)

/-- C157 (networks). -/
theorem C157_composed {ds es fs : List Nat} {t : Net ds.prod es.prod} {u : Net es.prod fs.prod} {f g : LayerFn ℝ}
    (hf : Realises t f) (hg : Realises u g) : Realises (t.append u) (composed f g) := fun X => by
  obtain ⟨Y, h1, h2⟩ := hf X
  obtain ⟨Z, h3, h4⟩ := hg Y
  exact ⟨Z, h1.comp h3, fun junk i => Net.forward_append junk t u _ _ i (h2 junk i) (h4 junk)⟩

/-- C157 (sequential models). -/
theorem C157_sequential (junk : Nat → ℝ) (ls : List (LayerFn ℝ)) (shapes : Nat → List Nat)
    (ts : ∀ i, Net (shapes i).prod (shapes (i + 1)).prod) (h : ∀ i (hi : i < ls.length), Realises (ts i) ls[i]) :
    Realises (Net.chain ts ls.length) (sequential junk ls) := by
  induction ls using List.reverseRecOn with
  | nil => exact fun X => ⟨X, ⟨[], identity_run junk (tab_wf _ _)⟩, fun _ _ => rfl⟩
  | append_singleton ls l ih =>
    rw [sequential_snoc]
    have hlast := h ls.length (by simp)
    rw [List.getElem_append_right (Nat.le_refl _)] at hlast
    have := C157_composed (ih fun i hi => by
      have := h i (by simp; omega)
      rwa [List.getElem_append_left hi] at this) (by simpa using hlast)
    rw [List.length_append, List.length_singleton]
    exact this

/-! ## Layers -/

theorem bias_hw_fwd {n k : Nat} (S : Nat → Nat → ℝ) (B : Nat → ℝ) {b : List ℝ} (hb : b.length = [n, k].prod) :
    (Stage.biasHw n k B).fwd (tab [n, k] (fn2 S)).data b = .ok (tab [n, k] (fn2 fun i j => S i j + B j)).data := by
  simp only [Stage.biasHw]
  rw [C22_bias_hw _ (z := 0) S B (ext_holds _ _ _) (by simp [hb]), store_all (by simp [hb])]

theorem bias_nhwc_fwd {n h w c : Nat} (S : Nat → Nat → Nat → Nat → ℝ) (B : Nat → ℝ) {b : List ℝ}
    (hb : b.length = [n, h, w, c].prod) : (Stage.biasNhwc n h w c B).fwd (tab [n, h, w, c] (fn4 S)).data b =
      .ok (tab [n, h, w, c] (fn4 fun b i j k => S b i j k + B k)).data := by
  simp only [Stage.biasNhwc]
  rw [C22_bias_nhwc _ (z := 0) S B (ext_holds _ _ _) (by simp [hb]), store_all (by simp [hb])]

/-- The calls of an activation: none, or `relu`. -/
inductive ActCalls (n : Nat) : (ℝ → ℝ) → Net n n → Prop
  | none : ActCalls n (fun a => a) (.nil n)
  | relu : ActCalls n (fun a => if 0 < a then a else 0) (.cons (.relu n) (.nil n))

theorem ActCalls.run {ds : List Nat} {φ : ℝ → ℝ} {a : Net ds.prod ds.prod} (h : ActCalls ds.prod φ a) (F : List Nat → ℝ)
    (junk : Nat → Nat → ℝ) (i : Nat) : a.forward junk i (tab ds F).data = .ok (tab ds fun idx => φ (F idx)).data := by
  cases h with
  | none => rfl
  | relu =>
    unfold Net.forward
    simp only [Stage.relu]
    have h := C21_relu (R := ℝ) (ext_holds (tab ds F).data ((List.range ds.prod).map (junk i)) 0) (by simp)
    rw [show (tab ds F).data.length = ds.prod by simp] at h
    rw [h, store_all (by simp), Outcome.ok_bind]
    show Outcome.ok _ = _
    congr 1
    refine List.ext_getElem (by simp) fun p h1 h2 => ?_
    rw [List.getElem_map, tab_getElem, tab_getElem]

/-- The calls of a dense layer: `matmul`, `add_bias` and the activation. -/
def Net.dense (n m k : Nat) (W : Nat → Nat → ℝ) (B : Nat → ℝ) (a : Net [n, k].prod [n, k].prod) : Net [n, m].prod [n, k].prod :=
  .cons (.matmulLeft n m k W) (.cons (.biasHw n k B) a)

/-- The calls of a convolution layer: `conv`, `add_bias` and the activation. -/
def Net.conv (H W : Axis) (n c d : Nat) (Y : Nat → Nat → Nat → Nat → ℝ) (B : Nat → ℝ) (junkI : Nat → Int) (junk junk' : Nat → ℝ)
    (a : Net [n, H.m, W.m, d].prod [n, H.m, W.m, d].prod) : Net [n, H.n, W.n, c].prod [n, H.m, W.m, d].prod :=
  .cons (.convImage H W n c d Y junkI junk junk') (.cons (.biasNhwc n H.m W.m d B) a)

section
variable (junkW junkY junkB : Nat → ℝ) (junkI : Nat → Int) (junk junk' : Nat → ℝ) {act : Act ℝ} {φ : ℝ → ℝ}
  {wInit bInit : Init ℝ}

/-- C157 (dense layers). -/
theorem C157_dense (hact : ActsAs act φ) {n m k : Nat} (hk : k < 2 ^ 32) (W : Nat → Nat → ℝ) (B : Nat → ℝ)
    (hw : wInit [m, k] (fresh junkW [m, k].prod) = .ok (tab [m, k] (fn2 W)).data)
    (hb : bInit [k] (fresh junkB [k].prod) = .ok (tab [k] (fn1 B)).data)
    {a : Net [n, k].prod [n, k].prod} (ha : ActCalls _ φ a) :
    Realises (Net.dense n m k W B a) (fun x => dense junkW junkY junkB act k x wInit bInit) := fun X => by
  have e : tab [n, m] X = tab [n, m] (fn2 fun i l => X [i, l]) := tab_congr fun idx hv => by
    match idx, hv with
    | [i, l], _ => rfl
  refine ⟨fn2 fun i j => φ ((seqSum m fun l => X [i, l] * W l j) + B j),
    .at e (.of (C77_dense junkW junkY junkB hact hk (fun i l => X [i, l]) W B hw hb) rfl rfl), fun j i => ?_⟩
  unfold Net.dense Net.forward
  have h1 : (Stage.matmulLeft n m k W).fwd (tab [n, m] X).data ((List.range [n, k].prod).map (j i)) =
      .ok (tab [n, k] (fn2 fun i j => seqSum m fun l => X [i, l] * W l j)).data := by
    rw [e]
    exact Plain.mm_run (m := n) (l := m) (n := k) _ (fn2 W) (by simp)
  rw [h1, Outcome.ok_bind]
  unfold Net.forward
  rw [bias_hw_fwd _ B (by simp), Outcome.ok_bind, ha.run]
  refine congrArg (fun t => Outcome.ok (Tensor.data t)) (tab_congr fun idx hv => ?_)
  match idx, hv with
  | [i, j], _ => rfl

/-- C157 (convolution layers, `nhwc`). -/
theorem C157_conv (hact : ActsAs act φ) {H W : Axis} (hH : AxisOK u32 H) (hW : AxisOK u32 W) {l : ConvLayer}
    (hl : HasAxes l H W) {n c : Nat} (hsz : [H.n, W.n, c].prod ≤ 2 ^ 31) (Y : Nat → Nat → Nat → Nat → ℝ) (B : Nat → ℝ)
    (hw : wInit [H.k, W.k, c, l.filters] (fresh junkW [H.k, W.k, c, l.filters].prod) =
      .ok (tab [H.k, W.k, c, l.filters] (fn4 Y)).data)
    (hb : bInit [l.filters] (fresh junkB [l.filters].prod) = .ok (tab [l.filters] (fn1 B)).data)
    {a : Net [n, H.m, W.m, l.filters].prod [n, H.m, W.m, l.filters].prod} (ha : ActCalls _ φ a) :
    Realises (Net.conv H W n c l.filters Y B junkI junk junk' a)
      (fun x => Layers.conv .nhwc .rscd junkW junkY junkB junkI junk act l x wInit bInit) := fun X => by
  have e : tab [n, H.n, W.n, c] X = tab [n, H.n, W.n, c] (fn4 fun b i j k => X [b, i, j, k]) := tab_congr fun idx hv => by
    match idx, hv with
    | [b, i, j, k], _ => rfl
  have hK := fun z hz => C91_conv_order hH hW hsz (n := n) (d := l.filters) (fun b i j k => X [b, i, j, k]) Y junkI junk (z := z) hz
  refine ⟨_, .at e (.of (conv_layer_nhwc junkW junkY junkB junkI junk hact hH hW hl _ Y _ B hK hw hb) rfl rfl), fun j i => ?_⟩
  unfold Net.conv Net.forward
  have h1 := hK ((List.range [n, H.m, W.m, l.filters].prod).map (j i)) (by simp)
  rw [← e] at h1
  rw [show (Stage.convImage H W n c l.filters Y junkI junk junk').fwd (tab [n, H.n, W.n, c] X).data
    ((List.range [n, H.m, W.m, l.filters].prod).map (j i)) = _ from h1, Outcome.ok_bind]
  unfold Net.forward
  rw [bias_nhwc_fwd _ B (by simp), Outcome.ok_bind, ha.run]
  refine congrArg (fun t => Outcome.ok (Tensor.data t)) (tab_congr fun idx hv => ?_)
  match idx, hv with
  | [b, i, j, e], _ => rfl

end

/-- C157 (activation layers). -/
theorem C157_activation (junk : Nat → ℝ) {ds : List Nat} {φ : ℝ → ℝ} {a : Net ds.prod ds.prod} (ha : ActCalls _ φ a) :
    Realises a (activationOf junk φ) := fun X =>
  ⟨fun idx => φ (X idx), .of (activationOf_run junk φ _ (by simp)) rfl (by simp [tab]), fun j i => ha.run X j i⟩

/-! ## Agreement -/

/-- C157 (along any curve of inputs and parameters): if a network of layers, whose parameters may move, computes along the
curve what the chain of calls `t` computes along the line `x + s v`, then for every weighting of the outputs the weighted sum
of the derivatives that the run on dual numbers gives is the product of `v` and the gradient that backpropagation gives. -/
theorem C157_curve {n : Nat} {ds es : List Nat} (t : Net n es.prod) (x v : Fin n → ℝ) (h : t.Good x) {f : ℝ → LayerFn ℝ}
    {g : LayerFn Dual} (hd : Differentiates f g ds es) (X : ℝ → List Nat → ℝ) (D : List Nat → Dual)
    (hX : ∀ i, Valid ds i → Follows (fun s => X s i) (D i))
    (same : ∀ s y, Gives (f s) (tab ds (X s)) y → ∃ junk i, t.forward junk i (List.ofFn fun p => x p + s * v p) = .ok y.data) :
    ∃ E : List Nat → Dual, Gives g (tab ds D) (tab es E) ∧ ∀ gy : Fin es.prod → ℝ, ∃ grad : Fin n → ℝ,
      (∀ junk junk' i, t.gradient junk junk' i (List.ofFn x) (List.ofFn gy) = .ok (List.ofFn grad)) ∧
      ∑ p, gy p * (E (unravel es p)).der = ∑ q, grad q * v q := by
  obtain ⟨F, back, hF, hb, hr⟩ := C124_backprop t x h
  obtain ⟨Y, E, h1, h2, h3⟩ := hd X D hX
  refine ⟨E, h2, fun gy => ⟨back gy, fun junk junk' i => hb junk junk' i gy, ?_⟩⟩
  have eY : ∀ s (p : Fin es.prod), Y s (unravel es p) = F (fun q => x q + s * v q) p := fun s p => by
    obtain ⟨junk, i, hs⟩ := same s _ (h1 s)
    rw [hF, Outcome.ok.injEq, ← ofFn_vec] at hs
    exact (congrFun (List.ofFn_injective hs) p).symm
  have d1 : HasDerivWithinAt (fun s => ∑ p, gy p * F (fun q => x q + s * v q) p)
      (∑ p, gy p * (E (unravel es p)).der) (Set.Ici 0) 0 := by
    refine HasDerivWithinAt.fun_sum fun p _ => HasDerivWithinAt.const_mul _ ?_
    have := (h3 (unravel es p) (valid_unravel p.2)).2
    simpa only [eY] using this
  have d2 : HasDerivAt (fun s : ℝ => fun q => x q + s * v q) v 0 := hasDerivAt_pi.2 fun q => by
    simpa using ((hasDerivAt_id (0 : ℝ)).mul_const (v q)).const_add (x q)
  have d3 : HasFDerivAt (fun x => ∑ p, gy p * F x p)
      (∑ i, back gy i • (ContinuousLinearMap.proj i : (Fin n → ℝ) →L[ℝ] ℝ)) (fun q => x q + (0 : ℝ) * v q) := by
    simpa using isGradient_iff.1 (hr gy)
  have d4 := d3.comp_hasDerivAt (0 : ℝ) d2
  rw [grad_apply] at d4
  exact (uniqueDiffWithinAt_Ici (0 : ℝ)).eq_deriv _ d1 d4.hasDerivWithinAt

/-- C157 (inputs): one run of the network on `x + ε v` and one backward pass. -/
theorem C157_agree {ds es : List Nat} {t : Net ds.prod es.prod} {f : LayerFn ℝ} {g : LayerFn Dual} (ht : Realises t f)
    (hd : Differentiates (fun _ => f) g ds es) (x : Fin ds.prod → ℝ) (h : t.Good x) (v : Fin ds.prod → ℝ) :
    ∃ E : List Nat → Dual, Gives g (tab ds fun i => ⟨ent ds x i, ent ds v i⟩) (tab es E) ∧
      ∀ gy : Fin es.prod → ℝ, ∃ grad : Fin ds.prod → ℝ,
      (∀ junk junk' i, t.gradient junk junk' i (List.ofFn x) (List.ofFn gy) = .ok (List.ofFn grad)) ∧
      ∑ p, gy p * (E (unravel es p)).der = ∑ q, grad q * v q := by
  refine C157_curve t x v h hd (fun s i => ent ds x i + s * ent ds v i) _ (fun i _ => ⟨by simp, by
    simpa using ((hasDerivWithinAt_id (0 : ℝ) (Set.Ici 0)).mul_const (ent ds v i)).const_add (ent ds x i)⟩) fun s y hy => ?_
  obtain ⟨Y, h1, h2⟩ := ht (fun i => ent ds x i + s * ent ds v i)
  refine ⟨fun _ _ => 0, 0, ?_⟩
  rw [hy.unique h1, ← h2 (fun _ _ => 0) 0]
  congr 1
  rw [ofFn_ent ds]
  refine congrArg Tensor.data (tab_congr fun idx hv => ?_)
  unfold ent extend
  split <;> simp

/-- C157 (weights): the weights of a dense layer, which the layers `h` with the calls `u` follow, move along `w + s v`. One run
of the network on dual numbers, and one backward pass down to the weights. -/
theorem C157_weights (junkW junkY junkB : Nat → ℝ) {act : Act ℝ} {φ : ℝ → ℝ} (hact : ActsAs act φ) {n m k : Nat} (hk : k < 2 ^ 32)
    {es : List Nat} (X : List Nat → ℝ) (w v : Fin [m, k].prod → ℝ) (B : Nat → ℝ) {wInit : ℝ → Init ℝ} {bInit : Init ℝ}
    (hw : ∀ s, wInit s [m, k] (fresh junkW [m, k].prod) = .ok (tab [m, k] fun i => ent [m, k] w i + s * ent [m, k] v i).data)
    (hb : bInit [k] (fresh junkB [k].prod) = .ok (tab [k] (fn1 B)).data)
    {a : Net [n, k].prod [n, k].prod} (ha : ActCalls _ φ a) {u : Net [n, k].prod es.prod} {h : LayerFn ℝ} (hu : Realises u h)
    {g : LayerFn Dual}
    (hd : Differentiates (fun s => composed (fun x => dense junkW junkY junkB act k x (wInit s) bInit) h) g [n, m] es)
    (hg : (Net.cons (.matmulRight n m k fun i l => X [i, l]) (.cons (.biasHw n k B) (a.append u))).Good w) :
    ∃ E : List Nat → Dual, Gives g (tab [n, m] fun i => ⟨X i, 0⟩) (tab es E) ∧
      ∀ gy : Fin es.prod → ℝ, ∃ grad : Fin [m, k].prod → ℝ,
      (∀ junk junk' i, (Net.cons (.matmulRight n m k fun i l => X [i, l]) (.cons (.biasHw n k B) (a.append u))).gradient junk junk'
        i (List.ofFn w) (List.ofFn gy) = .ok (List.ofFn grad)) ∧
      ∑ p, gy p * (E (unravel es p)).der = ∑ q, grad q * v q := by
  refine C157_curve _ w v hg hd (fun _ => X) _ (fun i _ => follows_const _) fun s y hy => ⟨fun _ _ => 0, 0, ?_⟩
  have e : tab [n, m] X = tab [n, m] (fn2 fun i l => X [i, l]) := tab_congr fun idx hv => by
    match idx, hv with
    | [i, l], _ => rfl
  have e2 : tab [m, k] (fun i => ent [m, k] w i + s * ent [m, k] v i) =
      tab [m, k] (fn2 fun l j => ent [m, k] w [l, j] + s * ent [m, k] v [l, j]) := tab_congr fun idx hv => by
    match idx, hv with
    | [i, l], _ => rfl
  have e3 : (⟨[m, k], List.ofFn fun p => w p + s * v p⟩ : Tensor ℝ) =
      tab [m, k] (fun i => ent [m, k] w i + s * ent [m, k] v i) := by
    rw [tensor_ent]
    refine tab_congr fun idx hv => ?_
    unfold ent extend
    split <;> simp
  have h1 := Gives.of (f := fun x => dense junkW junkY junkB act k x (wInit s) bInit) (C77_dense junkW junkY junkB hact hk (n := n) (fun i l => X [i, l])
    (fun l j => ent [m, k] w [l, j] + s * ent [m, k] v [l, j]) B (e2 ▸ hw s) hb) rfl rfl
  rw [← e] at h1
  obtain ⟨Z, h2, h3⟩ := hu (fn2 fun i j => φ ((seqSum m fun l => X [i, l] * (ent [m, k] w [l, j] + s * ent [m, k] v [l, j])) + B j))
  rw [hy.unique (h1.comp h2)]
  unfold Net.forward
  have h4 : (Stage.matmulRight n m k fun i l => X [i, l]).fwd (List.ofFn fun p => w p + s * v p)
      ((List.range [n, k].prod).map fun _ => 0) = .ok (tab [n, k] (fn2 fun i j => seqSum m fun l =>
        X [i, l] * (ent [m, k] w [l, j] + s * ent [m, k] v [l, j]))).data := by
    simp only [Stage.matmulRight]
    rw [e3, e2]
    exact Plain.mm_run (m := n) (l := m) (n := k) _ _ (by simp)
  rw [h4, Outcome.ok_bind]
  unfold Net.forward
  rw [bias_hw_fwd _ _ (by simp), Outcome.ok_bind]
  refine Net.forward_append _ a u _ _ _ ((ha.run _ _ _).trans ?_) (h3 _)
  refine congrArg (fun t => Outcome.ok (Tensor.data t)) (tab_congr fun idx hv => ?_)
  match idx, hv with
  | [i, j], _ => rfl

/-- C157 (losses): the backward pass of a network of layers gives the gradient of every loss of its outputs with respect to
its inputs. -/
theorem C157_gradient {ds es : List Nat} {t : Net ds.prod es.prod} {f : LayerFn ℝ} (ht : Realises t f)
    (x : Fin ds.prod → ℝ) (h : t.Good x) :
    ∃ F : (Fin ds.prod → ℝ) → Fin es.prod → ℝ, (∀ x, Gives f ⟨ds, List.ofFn x⟩ ⟨es, List.ofFn (F x)⟩) ∧
      ∀ (L : (Fin es.prod → ℝ) → ℝ) (gy : Fin es.prod → ℝ), IsGradient L gy (F x) →
        ∃ g, (∀ junk junk' i, t.gradient junk junk' i (List.ofFn x) (List.ofFn gy) = .ok (List.ofFn g)) ∧
          IsGradient (fun x => L (F x)) g x := by
  obtain ⟨F, hF, hL⟩ := C124_loss t x h
  refine ⟨F, fun x => ?_, hL⟩
  obtain ⟨Y, h1, h2⟩ := ht (ent ds x)
  have := h2 (fun _ _ => 0) 0
  rw [← ofFn_ent, hF, Outcome.ok.injEq] at this
  rw [tensor_ent, this]
  exact h1

/-- C157 (kinks): at zero `relu` has no derivative and the two ways differ: on dual numbers the layer gives its slope to the
right, 1, and the gradient operator gives its slope to the left, 0. -/
theorem C157_kink (junk : Nat → Dual) (junk' junk'' : Nat → Nat → ℝ) (i : Nat) :
    Gives (activationOf junk fun d => if 0 < d then d else 0) (tab [1] fun _ => ⟨0, 1⟩) (tab [1] fun _ => ⟨0, 1⟩) ∧
    Realises (ds := [1]) (es := [1]) (.cons (.relu _) (.nil _)) (activationOf (fun _ => 0) fun a => if 0 < a then a else 0) ∧
    (Net.cons (.relu 1) (.nil 1)).gradient junk' junk'' i [0] [1] = .ok [0] := by
  refine ⟨.of (activationOf_run junk _ _ (by simp)) rfl ?_, C157_activation _ .relu, ?_⟩
  · have h : (0 : Dual) < ⟨0, 1⟩ := Or.inr ⟨rfl, one_pos⟩
    simp [tab, h]
  · unfold Net.gradient
    have h1 := C21_relu (R := ℝ) (ext_holds [0] ((List.range 1).map (junk' i)) 0) (by simp)
    have h2 := C47_relu_grad (R := ℝ) (ext_holds [1] ((List.range 1).map (junk'' i)) 0)
      (ext_holds [0] ((List.range 1).map (junk'' i)) 0) (by simp) (by simp)
    rw [store_all (by simp)] at h1 h2
    rw [show (Stage.relu 1).fwd [0] ((List.range 1).map (junk' i)) = _ from h1, Outcome.ok_bind]
    unfold Net.gradient
    rw [Outcome.ok_bind, show (Stage.relu 1).bwd [0] _ [1] ((List.range 1).map (junk'' i)) = _ from h2]
    simp

/-! ## Concrete cases -/

/-- A dense layer without activation. -/
noncomputable def exPlain : LayerFn ℝ := fun x => dense (fun _ => 5) (fun _ => 6) (fun _ => 7) noopAct 2 x
  (exInit (fn2 fun l j => (l : ℝ) - j)) (exInit (fn1 fun j => (j : ℝ)))

/-- The layer on dual numbers. -/
noncomputable def exPlainDual : LayerFn Dual := fun x => dense (fun _ => 0) (fun _ => 0) (fun _ => 0) noopAct 2 x
  (exInit (fn2 fun l j => ⟨(l : ℝ) - j, 0⟩)) (exInit (fn1 fun j => ⟨j, 0⟩))

/-- The calls of the layer. -/
def exPlainNet (m : Nat) : Net [4, m].prod [4, 2].prod := Net.dense 4 m 2 (fun l j => (l : ℝ) - j) (fun j => j) (.nil _)

theorem exPlain_realises (m : Nat) : Realises (exPlainNet m) exPlain :=
  C157_dense _ _ _ noop_acts (by decide) _ _ rfl rfl .none

theorem exPlain_good (m : Nat) (x) : (exPlainNet m).Good x :=
  ⟨C124_matmul_left .., fun _ _ => ⟨C124_bias_hw .., fun _ _ => trivial⟩⟩

theorem exPlain_dual (m : Nat) : Differentiates (fun _ => exPlain) exPlainDual [4, m] [4, 2] :=
  C150_dense _ _ _ _ _ _ noop_acts noop_acts (fun _ _ h => h) (by decide) (fun _ l j => (l : ℝ) - j)
    (fun l j => ⟨(l : ℝ) - j, 0⟩) (fun _ j => (j : ℝ)) (fun j => ⟨j, 0⟩) (fun _ _ _ _ => follows_const _)
    (fun _ _ => follows_const _) (fun _ => rfl) (fun _ => rfl) rfl rfl 4

example := C157_composed (exPlain_realises 3) (exPlain_realises 2)
example (x v) := C157_agree (exPlain_realises 3) (exPlain_dual 3) x (exPlain_good 3 x) v
example (x) := C157_gradient (exPlain_realises 3) x (exPlain_good 3 x)
example := C157_sequential (fun _ => 1) [exPlain, exPlain] (fun i => [4, if i = 0 then 3 else 2])
  (fun i => exPlainNet (if i = 0 then 3 else 2)) fun i hi => by
    match i, hi with
    | 0, _ => exact exPlain_realises 3
    | 1, _ => exact exPlain_realises 2
example := C157_activation (fun _ => 1) (ds := [2, 3]) .relu

/-- A convolution layer with `relu`, with its calls. -/
example := C157_conv (fun _ => 1) (fun _ => 2) (fun _ => 3) (fun _ => 4) (fun _ => 5) (fun _ => 6) relu_acts exL_ok exW_ok
  exLayer_axes (n := 2) (c := 3) (by decide) (fun r s k e => (r : ℝ) - s + k * e) (fun e => 9 * e)
  (wInit := exInit (fn4 fun r s k e => (r : ℝ) - s + k * e)) (bInit := exInit (fn1 fun e => (9 : ℝ) * e)) rfl rfl .relu

/-- The derivative and the gradient with respect to the weights of the first of two layers. -/
example (w v : Fin [3, 2].prod → ℝ) (X : List Nat → ℝ) :=
  C157_weights (fun _ => 5) (fun _ => 6) (fun _ => 7) noop_acts (n := 4) (m := 3) (k := 2) (by decide) X w v (fun j => j)
    (wInit := fun s => exInit fun i => ent [3, 2] w i + s * ent [3, 2] v i) (bInit := exInit (fn1 fun j => (j : ℝ)))
    (fun _ => rfl) rfl .none (exPlain_realises 2)
    (C150_composed (C150_dense (fun _ => 5) (fun _ => 6) (fun _ => 7) (fun _ => 0) (fun _ => 0) (fun _ => 0) noop_acts noop_acts
        (fun _ _ h => h) (m := 3) (k := 2) (by decide) (fun s l j => ent [3, 2] w [l, j] + s * ent [3, 2] v [l, j])
        (fun l j => ⟨ent [3, 2] w [l, j], ent [3, 2] v [l, j]⟩) (fun _ j => (j : ℝ)) (fun j => ⟨j, 0⟩)
        (fun l _ j _ => ⟨by simp, by
          simpa using ((hasDerivWithinAt_id (0 : ℝ) (Set.Ici 0)).mul_const (ent [3, 2] v [l, j])).const_add (ent [3, 2] w [l, j])⟩)
        (fun _ _ => follows_const _) (wInit := fun s => exInit fun i => ent [3, 2] w i + s * ent [3, 2] v i)
        (bInit := fun _ => exInit (fn1 fun j => (j : ℝ)))
        (wInit' := exInit (fn2 fun l j => ⟨ent [3, 2] w [l, j], ent [3, 2] v [l, j]⟩)) (bInit' := exInit (fn1 fun j => ⟨j, 0⟩))
        (fun _ => rfl) (fun _ => rfl) rfl rfl 4) (exPlain_dual 2))
    ⟨C124_matmul_right .., fun _ _ => ⟨C124_bias_hw .., fun _ _ => exPlain_good 2 _⟩⟩

end StdNN
