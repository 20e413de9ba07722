import Verif.Props.Robust
/-!
# C149: relations between numbers carry through networks
-/
namespace StdNN
open IntTy Spec Outcome Finset Models Layers

variable {R S : Type}

/-- On inputs of shape `ds` whose elements are related by `ρ`, the layers `f` and `g`, which may compute with different
types of numbers, give outputs of shape `es` whose elements are related by `ρ'`. -/
def Carries [Zero R] [Zero S] (ρ ρ' : R → S → Prop) (f : LayerFn R) (g : LayerFn S) (ds es : List Nat) : Prop :=
  ∀ X X', (∀ i, Valid ds i → ρ (X i) (X' i)) →
    ∃ Y Y', Gives f (tab ds X) (tab es Y) ∧ Gives g (tab ds X') (tab es Y') ∧ ∀ i, Valid es i → ρ' (Y i) (Y' i)

/-- Sums of products of elements related by `ρ` with weights related by `ω` are related by `ρ'`. -/
structure KeepsSums [Zero R] [Add R] [Mul R] [Zero S] [Add S] [Mul S] (ρ ω ρ' : R → S → Prop) : Prop where
  zero : ρ' 0 0
  add : ∀ {a a' b b'}, ρ' a a' → ρ' b b' → ρ' (a + b) (a' + b')
  mul_right : ∀ {a a' w w'}, ρ a a' → ω w w' → ρ' (a * w) (a' * w')
  mul_left : ∀ {a a' w w'}, ρ a a' → ω w w' → ρ' (w * a) (w' * a')

theorem KeepsSums.seqSum [Zero R] [Add R] [Mul R] [Zero S] [Add S] [Mul S] {ρ ω ρ' : R → S → Prop} (h : KeepsSums ρ ω ρ')
    {n : Nat} {a : Nat → R} {a' : Nat → S} (ha : ∀ i < n, ρ' (a i) (a' i)) : ρ' (seqSum n a) (seqSum n a') := by
  induction n with
  | zero => exact h.zero
  | succ n ih => exact h.add (ih fun i hi => ha i (by omega)) (ha n (by omega))

theorem Gives.at {f : LayerFn R} {x x' y : Tensor R} (e : x = x') (h : Gives f x' y) : Gives f x y := e ▸ h

theorem window_rel [Zero R] [Zero S] {ρ : R → S → Prop} (h0 : ρ 0 0) {H W : Axis} {X : Nat → Nat → R} {X' : Nat → Nat → S}
    (h : ∀ a < H.n, ∀ b < W.n, ρ (X a b) (X' a b)) (i j u v : Nat) : ρ (window H W X i j u v) (window H W X' i j u v) := by
  unfold window padded
  split
  · split
    · exact h _ (by omega) _ (by omega)
    · exact h0
  · exact h0

/-! ## Networks -/

/-- C149 (networks): one layer after the other. -/
theorem C149_composed [Zero R] [Zero S] {ρ ρ' ρ'' : R → S → Prop} {f g : LayerFn R} {f' g' : LayerFn S} {ds es fs : List Nat}
    (hf : Carries ρ ρ' f f' ds es) (hg : Carries ρ' ρ'' g g' es fs) :
    Carries ρ ρ'' (composed f g) (composed f' g') ds fs := fun X X' h => by
  obtain ⟨Y, Y', h1, h2, h3⟩ := hf X X' h
  obtain ⟨Z, Z', h4, h5, h6⟩ := hg Y Y' h3
  exact ⟨Z, Z', h1.comp h4, h2.comp h5, h6⟩

/-- C149 (sequential models): before layer `i` the shape is `shapes i` and the elements are related by `ρ i`. -/
theorem C149_sequential [Zero R] [Zero S] (junk : Nat → R) (junk' : Nat → S) (ρ : Nat → R → S → Prop) (ls : List (LayerFn R))
    (ls' : List (LayerFn S)) (hl : ls.length = ls'.length) (shapes : Nat → List Nat)
    (h : ∀ i (hi : i < ls.length), Carries (ρ i) (ρ (i + 1)) ls[i] (ls'[i]'(hl ▸ hi)) (shapes i) (shapes (i + 1))) :
    Carries (ρ 0) (ρ ls.length) (sequential junk ls) (sequential junk' ls') (shapes 0) (shapes ls.length) := by
  induction ls using List.reverseRecOn generalizing ls' with
  | nil =>
    obtain rfl := List.length_eq_zero_iff.1 hl.symm
    exact fun X X' h => ⟨X, X', ⟨[], identity_run junk (tab_wf _ _)⟩, ⟨[], identity_run junk' (tab_wf _ _)⟩, h⟩
  | append_singleton ls l ih =>
    obtain ⟨ls', l', rfl⟩ : ∃ a b, ls' = a ++ [b] :=
      ⟨_, _, (List.dropLast_append_getLast (l := ls') (by rintro rfl; simp at hl)).symm⟩
    have hl' : ls.length = ls'.length := by simpa using hl
    rw [sequential_snoc, sequential_snoc]
    have hlast := h ls.length (by simp)
    simp only [List.getElem_append_right (le_refl _), hl', Nat.sub_self, List.getElem_cons_zero] at hlast
    have := ih ls' hl' fun i hi => by
      have := h i (by simp; omega)
      simpa only [List.getElem_append_left hi, List.getElem_append_left (hl' ▸ hi)] using this
    rw [hl'] at this
    simpa [hl'] using C149_composed this hlast

/-! ## Layers -/

section
variable [Zero R] [Add R] [Mul R] [Zero S] [Add S] [Mul S] {ρ ω ρ' ρ'' : R → S → Prop}
  (junkW junkY junkB : Nat → R) (junkI : Nat → Int) (junk : Nat → R) {act : Act R} {f : R → R}
  (junkW' junkY' junkB' : Nat → S) (junkI' : Nat → Int) (junk' : Nat → S) {act' : Act S} {f' : S → S}
  {wInit bInit : Init R} {wInit' bInit' : Init S}

/-- C149 (dense layers). -/
theorem C149_dense (hr : KeepsSums ρ ω ρ') (hact : ActsAs act f) (hact' : ActsAs act' f')
    (hf : ∀ a a', ρ' a a' → ρ'' (f a) (f' a')) {m k : Nat} (hk : k < 2 ^ 32) (W : Nat → Nat → R) (W' : Nat → Nat → S)
    (B : Nat → R) (B' : Nat → S) (hW : ∀ l < m, ∀ j < k, ω (W l j) (W' l j)) (hB : ∀ j < k, ρ' (B j) (B' j))
    (hw : wInit [m, k] (fresh junkW [m, k].prod) = .ok (tab [m, k] (fn2 W)).data)
    (hb : bInit [k] (fresh junkB [k].prod) = .ok (tab [k] (fn1 B)).data)
    (hw' : wInit' [m, k] (fresh junkW' [m, k].prod) = .ok (tab [m, k] (fn2 W')).data)
    (hb' : bInit' [k] (fresh junkB' [k].prod) = .ok (tab [k] (fn1 B')).data) (n : Nat) :
    Carries ρ ρ'' (fun x => dense junkW junkY junkB act k x wInit bInit)
      (fun x => dense junkW' junkY' junkB' act' k x wInit' bInit') [n, m] [n, k] := fun X X' h => by
  have e : ∀ {T : Type} [Zero T] (X : List Nat → T), tab [n, m] X = tab [n, m] (fn2 fun i l => X [i, l]) := fun X =>
    tab_congr fun idx hv => by
      match idx, hv with
      | [i, l], _ => rfl
  refine ⟨_, _, .at (e X) (.of (C77_dense junkW junkY junkB hact hk (fun i l => X [i, l]) W B hw hb) rfl rfl),
    .at (e X') (.of (C77_dense junkW' junkY' junkB' hact' hk (fun i l => X' [i, l]) W' B' hw' hb') rfl rfl), fun idx hv => ?_⟩
  match idx, hv with
  | [i, j], hv =>
    exact hf _ _ (hr.add (hr.seqSum fun l hl => hr.mul_right (h [i, l] ⟨hv.1, hl, trivial⟩) (hW l hl j hv.2.1)) (hB j hv.2.1))

/-- C149 (convolution layers, `nhwc`). -/
theorem C149_conv_nhwc (h0 : ρ 0 0) (hr : KeepsSums ρ ω ρ') (hact : ActsAs act f) (hact' : ActsAs act' f')
    (hf : ∀ a a', ρ' a a' → ρ'' (f a) (f' a')) {H W : Axis} (hH : AxisOK u32 H) (hW : AxisOK u32 W) {t : ConvLayer}
    (ht : HasAxes t H W) {c : Nat} (hsz : [H.n, W.n, c].prod ≤ 2 ^ 31) (Y : Nat → Nat → Nat → Nat → R)
    (Y' : Nat → Nat → Nat → Nat → S) (B : Nat → R) (B' : Nat → S)
    (hY : ∀ r < H.k, ∀ s < W.k, ∀ k < c, ∀ e < t.filters, ω (Y r s k e) (Y' r s k e))
    (hB : ∀ e < t.filters, ρ' (B e) (B' e))
    (hw : wInit [H.k, W.k, c, t.filters] (fresh junkW [H.k, W.k, c, t.filters].prod) =
      .ok (tab [H.k, W.k, c, t.filters] (fn4 Y)).data)
    (hb : bInit [t.filters] (fresh junkB [t.filters].prod) = .ok (tab [t.filters] (fn1 B)).data)
    (hw' : wInit' [H.k, W.k, c, t.filters] (fresh junkW' [H.k, W.k, c, t.filters].prod) =
      .ok (tab [H.k, W.k, c, t.filters] (fn4 Y')).data)
    (hb' : bInit' [t.filters] (fresh junkB' [t.filters].prod) = .ok (tab [t.filters] (fn1 B')).data) (n : Nat) :
    Carries ρ ρ'' (fun x => Layers.conv .nhwc .rscd junkW junkY junkB junkI junk act t x wInit bInit)
      (fun x => Layers.conv .nhwc .rscd junkW' junkY' junkB' junkI' junk' act' t x wInit' bInit')
      [n, H.n, W.n, c] [n, H.m, W.m, t.filters] := fun X X' h => by
  have e : ∀ {T : Type} [Zero T] (X : List Nat → T), tab [n, H.n, W.n, c] X =
      tab [n, H.n, W.n, c] (fn4 fun b i j k => X [b, i, j, k]) := fun X => tab_congr fun idx hv => by
    match idx, hv with
    | [b, i, j, k], _ => rfl
  refine ⟨_, _, .at (e X) (.of (conv_layer_nhwc junkW junkY junkB junkI junk hact hH hW ht (n := n) (fun b i j k => X [b, i, j, k]) Y
      _ B (fun z hz => C91_conv_order hH hW hsz _ Y junkI junk hz) hw hb) rfl rfl),
    .at (e X') (.of (conv_layer_nhwc junkW' junkY' junkB' junkI' junk' hact' hH hW ht (n := n) (fun b i j k => X' [b, i, j, k]) Y'
      _ B' (fun z hz => C91_conv_order hH hW hsz _ Y' junkI' junk' hz) hw' hb') rfl rfl), fun idx hv => ?_⟩
  match idx, hv with
  | [b, i, j, d], hv =>
    refine hf _ _ (hr.add (hr.seqSum fun p hp => ?_) (hB d hv.2.2.2.1))
    have hc : 0 < W.k * c := Nat.pos_of_ne_zero fun h => by simp [h] at hp
    have h1 : p / (W.k * c) < H.k := Nat.div_lt_of_lt_mul (by rwa [Nat.mul_comm] at hp)
    have h2 := Nat.mod_lt p hc
    have h3 : 0 < c := Nat.pos_of_mul_pos_left hc
    exact hr.mul_right (window_rel h0 (fun a ha a' ha' => h [b, a, a', _] ⟨hv.1, ha, ha', Nat.mod_lt _ h3, trivial⟩) i j _ _)
      (hY _ h1 _ (Nat.div_lt_of_lt_mul (h2.trans_eq (Nat.mul_comm _ _))) _ (Nat.mod_lt _ h3) _ hv.2.2.2.1)

/-- C149 (convolution layers, `nchw`). -/
theorem C149_conv_nchw (h0 : ρ 0 0) (hr : KeepsSums ρ ω ρ') (hact : ActsAs act f) (hact' : ActsAs act' f')
    (hf : ∀ a a', ρ' a a' → ρ'' (f a) (f' a')) {H W : Axis} (hH : AxisOK u32 H) (hW : AxisOK u32 W) {t : ConvLayer}
    (ht : HasAxes t H W) {c : Nat} (Y : Nat → Nat → Nat → Nat → R)
    (Y' : Nat → Nat → Nat → Nat → S) (B : Nat → R) (B' : Nat → S)
    (hY : ∀ e < t.filters, ∀ k < c, ∀ r < H.k, ∀ s < W.k, ω (Y e k r s) (Y' e k r s))
    (hB : ∀ e < t.filters, ρ' (B e) (B' e))
    (hw : wInit [t.filters, c, H.k, W.k] (fresh junkW [t.filters, c, H.k, W.k].prod) =
      .ok (tab [t.filters, c, H.k, W.k] (fn4 Y)).data)
    (hb : bInit [t.filters] (fresh junkB [t.filters].prod) = .ok (tab [t.filters] (fn1 B)).data)
    (hw' : wInit' [t.filters, c, H.k, W.k] (fresh junkW' [t.filters, c, H.k, W.k].prod) =
      .ok (tab [t.filters, c, H.k, W.k] (fn4 Y')).data)
    (hb' : bInit' [t.filters] (fresh junkB' [t.filters].prod) = .ok (tab [t.filters] (fn1 B')).data) (n : Nat) :
    Carries ρ ρ'' (fun x => Layers.conv .nchw .dcrs junkW junkY junkB junkI junk act t x wInit bInit)
      (fun x => Layers.conv .nchw .dcrs junkW' junkY' junkB' junkI' junk' act' t x wInit' bInit')
      [n, c, H.n, W.n] [n, t.filters, H.m, W.m] := fun X X' h => by
  have e : ∀ {T : Type} [Zero T] (X : List Nat → T), tab [n, c, H.n, W.n] X =
      tab [n, c, H.n, W.n] (fn4 fun b i j k => X [b, i, j, k]) := fun X => tab_congr fun idx hv => by
    match idx, hv with
    | [b, i, j, k], _ => rfl
  refine ⟨_, _, .at (e X) (.of (conv_layer_nchw junkW junkY junkB junkI junk hact hH hW ht (n := n) (fun b i j k => X [b, i, j, k]) Y
      _ B (fun z hz => C91_conv_order_nchw hH hW _ Y junk hz) hw hb) rfl rfl),
    .at (e X') (.of (conv_layer_nchw junkW' junkY' junkB' junkI' junk' hact' hH hW ht (n := n) (fun b i j k => X' [b, i, j, k]) Y'
      _ B' (fun z hz => C91_conv_order_nchw hH hW _ Y' junk' hz) hw' hb') rfl rfl), fun idx hv => ?_⟩
  match idx, hv with
  | [b, d, i, j], hv =>
    refine hf _ _ (hr.add (hr.seqSum fun p hp => ?_) (hB d hv.2.1))
    have hc : 0 < H.k * W.k := Nat.pos_of_ne_zero fun h => by simp [h] at hp
    have h1 : p / (H.k * W.k) < c := Nat.div_lt_of_lt_mul (by rwa [Nat.mul_comm] at hp)
    have h2 := Nat.mod_lt p hc
    have h3 : 0 < W.k := Nat.pos_of_mul_pos_left hc
    exact hr.mul_left (window_rel h0 (fun a ha a' ha' => h [b, _, a, a'] ⟨hv.1, h1, ha, ha', trivial⟩) i j _ _)
      (hY _ hv.2.1 _ h1 _ (Nat.div_lt_of_lt_mul (h2.trans_eq (Nat.mul_comm _ _))) _ (Nat.mod_lt _ h3))

end

/-- C149 (elementwise activation layers). -/
theorem C149_activation [Zero R] [Zero S] {ρ ρ' : R → S → Prop} (junk : Nat → R) (junk' : Nat → S) {f : R → R} {f' : S → S}
    (hf : ∀ a a', ρ a a' → ρ' (f a) (f' a')) (ds : List Nat) : Carries ρ ρ' (activationOf junk f) (activationOf junk' f') ds ds :=
  fun X X' h => ⟨fun i => f (X i), fun i => f' (X' i), .of (activationOf_run junk f _ (by simp)) rfl (by simp [tab]),
    .of (activationOf_run junk' f' _ (by simp)) rfl (by simp [tab]), fun i hi => hf _ _ (h i hi)⟩

/-- Pooling layers; `E` if some window holds no pixel. -/
theorem pool_carries [Zero R] [Zero S] {ρ ρ' : R → S → Prop} (junk : Nat → R) (junk' : Nat → S) (acc : Acc R) (acc' : Acc S)
    {H W : Axis} (hH : AxisOK u32 H) (hW : AxisOK u32 W) {t : PoolLayer} (ht : PoolHasAxes t H W) (v : List R → R)
    (v' : List S → S) (hv : ∀ l, l.length ≤ H.k * W.k → acc.run l = .ok (v l))
    (hv' : ∀ l, l.length ≤ H.k * W.k → acc'.run l = .ok (v' l))
    {E : Prop} (hE : ∀ i < H.m, ∀ j < W.m, (∃ a b, Under (shifted H) (shifted W) i j a b) ∨ E)
    (hs : ∀ l l', l.length ≤ H.k * W.k → l ≠ [] ∨ E → List.Forall₂ ρ l l' → ρ' (v l) (v' l')) (n c : Nat) :
    Carries ρ ρ' (pool .nhwc junk acc t) (pool .nhwc junk' acc' t) [n, H.n, W.n, c] [n, H.m, W.m, c] ∧
    Carries ρ ρ' (pool .nchw junk acc t) (pool .nchw junk' acc' t) [n, c, H.n, W.n] [n, c, H.m, W.m] := by
  have oH := shifted_ok hH
  have oW := shifted_ok hW
  have hp : ∀ {T : Type} (Y : Nat → Nat → T) i j, (pixels (shifted H) (shifted W) Y i j).length ≤ H.k * W.k := fun Y i j => by
    rw [pixels_length oH.fits.r1 oW.fits.r1]
    exact win_card_le oH.fits.r1 oW.fits.r1 i j
  have key : ∀ (x : Nat → Nat → R) (x' : Nat → Nat → S), ∀ i < H.m, ∀ j < W.m, (∀ a < H.n, ∀ b < W.n, ρ (x a b) (x' a b)) →
      ρ' (v (pixels (shifted H) (shifted W) x i j)) (v' (pixels (shifted H) (shifted W) x' i j)) := fun x x' i hi j hj h => by
    rw [pixels_map (shifted H) (shifted W) (fun a b => (a, b)) (fun p => x p.1 p.2),
      pixels_map (shifted H) (shifted W) (fun a b => (a, b)) (fun p => x' p.1 p.2)]
    refine hs _ _ (by rw [List.length_map]; exact hp _ i j) ((hE i hi j hj).imp_left fun ⟨a, b, hu⟩ => List.ne_nil_of_mem (List.mem_map_of_mem (mem_pixels.2 ⟨a, b, hu, rfl⟩))) ?_
    rw [List.forall₂_map_left_iff, List.forall₂_map_right_iff, List.forall₂_same]
    intro p hp
    obtain ⟨a, b, hu, rfl⟩ := mem_pixels.1 hp
    exact h a (Under_lt hu).1 b (Under_lt hu).2
  constructor <;> intro X X' h
  · have e : ∀ {T : Type} [Zero T] (X : List Nat → T), tab [n, H.n, W.n, c] X =
        tab [n, H.n, W.n, c] (fn4 fun b i j k => X [b, i, j, k]) := fun X => tab_congr fun idx hv => by
      match idx, hv with
      | [b, i, j, k], _ => rfl
    refine ⟨_, _, .at (e X) (.of (poolLayer_gen junk acc hH hW ht (n := n) (c := c) (fun b i j k => X [b, i, j, k]) (fun b i j k =>
        v (pixels (shifted H) (shifted W) (fun a a' => X [b, a, a', k]) i j)) fun b _ i _ j _ k _ => hv _ (hp _ i j)).1 rfl rfl),
      .at (e X') (.of (poolLayer_gen junk' acc' hH hW ht (n := n) (c := c) (fun b i j k => X' [b, i, j, k]) (fun b i j k =>
        v' (pixels (shifted H) (shifted W) (fun a a' => X' [b, a, a', k]) i j)) fun b _ i _ j _ k _ => hv' _ (hp _ i j)).1
        rfl rfl), fun idx hi => ?_⟩
    match idx, hi with
    | [b, i, j, k], hi => exact key _ _ i hi.2.1 j hi.2.2.1 fun a ha a' ha' => h [b, a, a', k] ⟨hi.1, ha, ha', hi.2.2.2.1, trivial⟩
  · have e : ∀ {T : Type} [Zero T] (X : List Nat → T), tab [n, c, H.n, W.n] X =
        tab [n, c, H.n, W.n] (fn4 fun b k i j => X [b, k, i, j]) := fun X => tab_congr fun idx hv => by
      match idx, hv with
      | [b, i, j, k], _ => rfl
    refine ⟨_, _, .at (e X) (.of (poolLayer_gen junk acc hH hW ht (n := n) (c := c) (fun b i j k => X [b, k, i, j]) (fun b i j k =>
        v (pixels (shifted H) (shifted W) (fun a a' => X [b, k, a, a']) i j)) fun b _ i _ j _ k _ => hv _ (hp _ i j)).2 rfl rfl),
      .at (e X') (.of (poolLayer_gen junk' acc' hH hW ht (n := n) (c := c) (fun b i j k => X' [b, k, i, j]) (fun b i j k =>
        v' (pixels (shifted H) (shifted W) (fun a a' => X' [b, k, a, a']) i j)) fun b _ i _ j _ k _ => hv' _ (hp _ i j)).2
        rfl rfl), fun idx hi => ?_⟩
    match idx, hi with
    | [b, k, i, j], hi => exact key _ _ i hi.2.2.1 j hi.2.2.2.1 fun a ha a' ha' => h [b, k, a, a'] ⟨hi.1, hi.2.1, ha, ha', trivial⟩

/-- C149 (pooling layers): the accumulators yield `v` and `v'` of the pixels under a window. -/
theorem C149_pool [Zero R] [Zero S] {ρ ρ' : R → S → Prop} (junk : Nat → R) (junk' : Nat → S) (acc : Acc R) (acc' : Acc S)
    {H W : Axis} (hH : AxisOK u32 H) (hW : AxisOK u32 W) {t : PoolLayer} (ht : PoolHasAxes t H W) (v : List R → R)
    (v' : List S → S) (hv : ∀ l, l.length ≤ H.k * W.k → acc.run l = .ok (v l))
    (hv' : ∀ l, l.length ≤ H.k * W.k → acc'.run l = .ok (v' l))
    (hs : ∀ l l', List.Forall₂ ρ l l' → ρ' (v l) (v' l')) (n c : Nat) :
    Carries ρ ρ' (pool .nhwc junk acc t) (pool .nhwc junk' acc' t) [n, H.n, W.n, c] [n, H.m, W.m, c] ∧
    Carries ρ ρ' (pool .nchw junk acc t) (pool .nchw junk' acc' t) [n, c, H.n, W.n] [n, c, H.m, W.m] :=
  pool_carries junk junk' acc acc' hH hW ht v v' hv hv' (E := True) (fun _ _ _ _ => .inr trivial) (fun l l' _ _ => hs l l') n c

/-- C149 (max pooling layers). -/
theorem C149_max_pool [Zero R] [LT R] [DecidableLT R] [Zero S] [LT S] [DecidableLT S] {ρ : R → S → Prop} (junk : Nat → R)
    (junk' : Nat → S) {lowest : R} {lowest' : S} (hl : ρ lowest lowest')
    (hm : ∀ {a a' b b'}, ρ a a' → ρ b b' → ρ (if a > b then a else b) (if a' > b' then a' else b')) {H W : Axis}
    (hH : AxisOK u32 H) (hW : AxisOK u32 W) {t : PoolLayer} (ht : PoolHasAxes t H W) (n c : Nat) :
    Carries ρ ρ (pool .nhwc junk (Acc.max lowest) t) (pool .nhwc junk' (Acc.max lowest') t) [n, H.n, W.n, c] [n, H.m, W.m, c] ∧
    Carries ρ ρ (pool .nchw junk (Acc.max lowest) t) (pool .nchw junk' (Acc.max lowest') t)
      [n, c, H.n, W.n] [n, c, H.m, W.m] := by
  refine C149_pool junk junk' _ _ hH hW ht _ _ (fun l _ => max_run lowest l) (fun l _ => max_run lowest' l) (fun l l' h => ?_) n c
  clear * - h hl hm
  induction h generalizing lowest lowest' with
  | nil => exact hl
  | cons h1 _ ih => exact ih (hm h1 hl)

theorem max_map {f : R → S} [LinearOrder R] [LinearOrder S] (hf : Monotone f) (a b : R) :
    f (if a > b then a else b) = if f a > f b then f a else f b := by
  rcases lt_or_ge b a with h | h
  · rw [if_pos h]
    rcases (hf h.le).lt_or_eq with h' | h'
    · rw [if_pos h']
    · rw [h', ite_self]
  · rw [if_neg (not_lt.2 h), if_neg (not_lt.2 (hf h))]

/-- C41 for max pooling layers, both layouts: if the map takes `lowest` to `lowest'`, pooling the mapped image gives the mapped
result. -/
theorem C41_layer [LinearOrder R] [LinearOrder S] [Zero R] [Zero S] {f : R → S} (hf : Monotone f) (junk : Nat → R)
    (junk' : Nat → S) {lowest : R} {lowest' : S} (h : f lowest = lowest') {H W : Axis} (hH : AxisOK u32 H) (hW : AxisOK u32 W)
    {t : PoolLayer} (ht : PoolHasAxes t H W) (n c : Nat) :
    Carries (fun a b => f a = b) (fun a b => f a = b) (pool .nhwc junk (Acc.max lowest) t) (pool .nhwc junk' (Acc.max lowest') t)
      [n, H.n, W.n, c] [n, H.m, W.m, c] ∧
    Carries (fun a b => f a = b) (fun a b => f a = b) (pool .nchw junk (Acc.max lowest) t) (pool .nchw junk' (Acc.max lowest') t)
      [n, c, H.n, W.n] [n, c, H.m, W.m] :=
  C149_max_pool junk junk' h (by rintro a _ b _ rfl rfl; exact max_map hf a b) hH hW ht n c

/-- C41 for max pooling layers whose windows all hold a pixel: any monotone map, such as `relu`, if no pixel is below `lowest`
and no mapped pixel below `lowest'`. -/
theorem C41_layer_nonempty [LinearOrder R] [LinearOrder S] [Zero R] [Zero S] {f : R → S} (hf : Monotone f) (junk : Nat → R)
    (junk' : Nat → S) {lowest : R} {lowest' : S} {H W : Axis} (hH : AxisOK u32 H) (hW : AxisOK u32 W)
    {t : PoolLayer} (ht : PoolHasAxes t H W)
    (hu : ∀ i < H.m, ∀ j < W.m, ∃ a b, Under { H with l := 0, q := H.l + H.q } { W with l := 0, q := W.l + W.q } i j a b) (n c : Nat) :
    Carries (fun a b => f a = b ∧ lowest ≤ a ∧ lowest' ≤ b) (fun a b => f a = b) (pool .nhwc junk (Acc.max lowest) t)
      (pool .nhwc junk' (Acc.max lowest') t) [n, H.n, W.n, c] [n, H.m, W.m, c] ∧
    Carries (fun a b => f a = b ∧ lowest ≤ a ∧ lowest' ≤ b) (fun a b => f a = b) (pool .nchw junk (Acc.max lowest) t)
      (pool .nchw junk' (Acc.max lowest') t) [n, c, H.n, W.n] [n, c, H.m, W.m] := by
  refine pool_carries junk junk' _ _ hH hW ht _ _ (fun l _ => max_run lowest l) (fun l _ => max_run lowest' l) (E := False)
    (fun i hi j hj => .inl (hu i hi j hj)) (fun l l' _ hne h => ?_) n c
  have first : ∀ {T : Type} [LinearOrder T] {x low : T}, low ≤ x → (if x > low then x else low) = x := fun h => by
    split
    · rfl
    · next c => exact le_antisymm h (not_lt.1 c)
  cases h with
  | nil => simp at hne
  | @cons a b l l' h1 h2 =>
    simp only [List.foldl_cons, first h1.2.1, first h1.2.2]
    have h1 := h1.1
    clear * - hf h1 h2
    induction h2 generalizing a b with
    | nil => exact h1
    | @cons x y l l' h _ ih => exact ih (by obtain ⟨rfl, -⟩ := h; subst h1; exact max_map hf x a)

/-- C149 (mean pooling layers): `divn`, `divn'` are the divisions by the number of pixels. -/
theorem C149_mean_pool [Zero R] [Add R] [Zero S] [Add S] {ρ ρ' : R → S → Prop} (junk : Nat → R) (junk' : Nat → S)
    (divn : R → Nat → R) (divn' : S → Nat → S) (h0 : ρ 0 0) (ha : ∀ {a a' b b'}, ρ a a' → ρ b b' → ρ (a + b) (a' + b'))
    (hd : ∀ {a a'} k, ρ a a' → ρ' (divn a k) (divn' a' k)) {H W : Axis} (hH : AxisOK u32 H) (hW : AxisOK u32 W)
    {t : PoolLayer} (ht : PoolHasAxes t H W) (hk : H.k * W.k < 2 ^ 32) (n c : Nat) :
    Carries ρ ρ' (pool .nhwc junk (Acc.mean divn) t) (pool .nhwc junk' (Acc.mean divn') t)
      [n, H.n, W.n, c] [n, H.m, W.m, c] ∧
    Carries ρ ρ' (pool .nchw junk (Acc.mean divn) t) (pool .nchw junk' (Acc.mean divn') t)
      [n, c, H.n, W.n] [n, c, H.m, W.m] := by
  refine C149_pool junk junk' _ _ hH hW ht _ _ (fun l hl => mean_run divn l (by omega)) (fun l hl => mean_run divn' l (by omega))
    (fun l l' h => ?_) n c
  rw [h.length_eq]
  refine hd _ ?_
  have : ∀ {a a'}, ρ a a' → ρ (l.foldl (· + ·) a) (l'.foldl (· + ·) a') := by
    induction h with
    | nil => exact id
    | cons h1 _ ih => exact fun h => ih (ha h h1)
  exact this h0

/-! ## Changing the type of the numbers -/

/-- C149 (homomorphisms): a map that keeps zero, sums and products relates what it maps. -/
theorem C149_hom [NonUnitalNonAssocSemiring R] [NonUnitalNonAssocSemiring S] (φ : R →ₙ+* S) :
    KeepsSums (fun a b => φ a = b) (fun a b => φ a = b) (fun a b => φ a = b) where
  zero := map_zero φ
  add h h' := by rw [map_add, h, h']
  mul_right h h' := by rw [map_mul, h, h']
  mul_left h h' := by rw [map_mul, h, h']

/-- C149 (homomorphisms): then converting the input and running the network is running the network and converting the
output. -/
theorem C149_convert [Zero R] [Zero S] {φ : R → S} {f : LayerFn R} {g : LayerFn S} {ds es : List Nat}
    (h : Carries (fun a b => φ a = b) (fun a b => φ a = b) f g ds es) (X : List Nat → R) :
    ∃ Y, Gives f (tab ds X) (tab es Y) ∧ Gives g (tab ds fun i => φ (X i)) (tab es fun i => φ (Y i)) := by
  obtain ⟨Y, Y', h1, h2, h3⟩ := h X (fun i => φ (X i)) fun _ _ => rfl
  exact ⟨Y, h1, by rwa [tab_congr h3]⟩

/-! ## Monotone networks -/

section
variable {rnd : ℝ → ℝ}

/-- C149 (monotone networks): with weights that are not negative, greater inputs give greater sums, bit for bit, in every
arithmetic whose rounding is monotone. -/
theorem C149_nonneg (hr : Monotone rnd) :
    KeepsSums (fun a b : Fl rnd => a ≤ b) (fun w w' => w = w' ∧ 0 ≤ w) (fun a b : Fl rnd => a ≤ b) where
  zero := le_refl (0 : Fl rnd)
  add h h' := hr (add_le_add (α := ℝ) h h')
  mul_right h := by
    rintro ⟨rfl, h'⟩
    exact hr (mul_le_mul_of_nonneg_right (α := ℝ) h h')
  mul_left h := by
    rintro ⟨rfl, h'⟩
    exact hr (mul_le_mul_of_nonneg_left (α := ℝ) h h')

/-- C149 (monotone networks): with weights that are not positive, greater inputs give smaller sums. -/
theorem C149_nonpos (hr : Monotone rnd) :
    KeepsSums (fun a b : Fl rnd => a ≤ b) (fun w w' => w = w' ∧ w ≤ 0) (fun a b : Fl rnd => b ≤ a) where
  zero := le_refl (0 : Fl rnd)
  add h h' := hr (add_le_add (α := ℝ) h h')
  mul_right h := by
    rintro ⟨rfl, h'⟩
    exact hr (mul_le_mul_of_nonpos_right (R := ℝ) h h')
  mul_left h := by
    rintro ⟨rfl, h'⟩
    exact hr (mul_le_mul_of_nonpos_left (R := ℝ) h h')

/-- C149 (monotone networks): max pooling. -/
theorem C149_max_mono {T : Type} [LinearOrder T] {a a' b b' : T} (h : a ≤ a') (h' : b ≤ b') :
    (if a > b then a else b) ≤ if a' > b' then a' else b' := by
  have e : ∀ a b : T, (if a > b then a else b) = max a b := fun a b => by
    split
    · next h => exact (max_eq_left h.le).symm
    · next h => exact (max_eq_right (not_lt.1 h)).symm
  rw [e, e]
  exact max_le_max h h'

theorem relu_mono {T : Type} [LinearOrder T] [Zero T] {a b : T} (h : a ≤ b) :
    (if 0 < a then a else 0) ≤ if 0 < b then b else 0 := C149_max_mono h le_rfl

end

/-! ## Interval arithmetic -/

/-- An interval; sums and products are rounded outwards, by `dn` and `up`. -/
structure Ival (dn up : ℝ → ℝ) where
  lo : ℝ
  hi : ℝ

namespace Ival
variable {dn up : ℝ → ℝ}

noncomputable instance : Zero (Ival dn up) := ⟨⟨0, 0⟩⟩
noncomputable instance : Add (Ival dn up) := ⟨fun I J => ⟨dn (I.lo + J.lo), up (I.hi + J.hi)⟩⟩
noncomputable instance : Mul (Ival dn up) := ⟨fun I J =>
  ⟨dn (min (min (I.lo * J.lo) (I.lo * J.hi)) (min (I.hi * J.lo) (I.hi * J.hi))),
    up (max (max (I.lo * J.lo) (I.lo * J.hi)) (max (I.hi * J.lo) (I.hi * J.hi)))⟩⟩

/-- The interval contains the number. -/
def Has {rnd : ℝ → ℝ} (a : Fl rnd) (I : Ival dn up) : Prop := I.lo ≤ a.val ∧ a.val ≤ I.hi

theorem mul_between {l h a b : ℝ} (h1 : l ≤ a) (h2 : a ≤ h) : min (l * b) (h * b) ≤ a * b ∧ a * b ≤ max (l * b) (h * b) := by
  rcases le_total 0 b with hb | hb
  · exact ⟨min_le_of_left_le (mul_le_mul_of_nonneg_right h1 hb), le_max_of_le_right (mul_le_mul_of_nonneg_right h2 hb)⟩
  · exact ⟨min_le_of_right_le (mul_le_mul_of_nonpos_right h2 hb), le_max_of_le_left (mul_le_mul_of_nonpos_right h1 hb)⟩

theorem mul_has {l h l' h' a b : ℝ} (h1 : l ≤ a) (h2 : a ≤ h) (h3 : l' ≤ b) (h4 : b ≤ h') :
    min (min (l * l') (l * h')) (min (h * l') (h * h')) ≤ a * b ∧
      a * b ≤ max (max (l * l') (l * h')) (max (h * l') (h * h')) := by
  have k := mul_between (b := b) h1 h2
  have k1 := mul_between (b := l) h3 h4
  have k2 := mul_between (b := h) h3 h4
  simp only [mul_comm _ l, mul_comm _ h] at k1 k2
  rw [mul_comm l b, mul_comm h b] at k
  simp only [mul_comm b _] at k
  exact ⟨(min_le_min k1.1 k2.1).trans k.1, k.2.trans (max_le_max k1.2 k2.2)⟩

end Ival

/-- C149 (intervals): one run of a network on intervals encloses what the network computes, rounding errors included, from
any numbers in the intervals. -/
theorem C149_interval {rnd dn up : ℝ → ℝ} (hr : Monotone rnd) (hd : ∀ x, dn x ≤ rnd x) (hu : ∀ x, rnd x ≤ up x) :
    KeepsSums (Ival.Has (rnd := rnd) (dn := dn) (up := up)) Ival.Has Ival.Has where
  zero := ⟨le_refl (0 : ℝ), le_refl (0 : ℝ)⟩
  add h h' := ⟨(hd _).trans (hr (add_le_add h.1 h'.1)), (hr (add_le_add h.2 h'.2)).trans (hu _)⟩
  mul_right h h' :=
    have k := Ival.mul_has h.1 h.2 h'.1 h'.2
    ⟨(hd _).trans (hr k.1), (hr k.2).trans (hu _)⟩
  mul_left h h' :=
    have k := Ival.mul_has h'.1 h'.2 h.1 h.2
    ⟨(hd _).trans (hr k.1), (hr k.2).trans (hu _)⟩

/-- C149 (intervals): a monotone activation, applied to the ends. -/
theorem C149_interval_act {rnd dn up : ℝ → ℝ} {f : ℝ → ℝ} (hf : Monotone f) (a : Fl rnd) (I : Ival dn up) (h : Ival.Has a I) :
    Ival.Has (rnd := rnd) (f a.val) (⟨f I.lo, f I.hi⟩ : Ival dn up) := ⟨hf h.1, hf h.2⟩

/-- C149 (intervals): if in every row the interval of class `cls b` lies above all others, the network gives these classes for
all inputs in the input intervals. -/
theorem C149_interval_class {rnd dn up : ℝ → ℝ} {f : LayerFn (Fl rnd)} {g : LayerFn (Ival dn up)} {ds : List Nat} {n k : Nat}
    (h : Carries Ival.Has Ival.Has f g ds [n, k]) {X : List Nat → Fl rnd} {I : List Nat → Ival dn up}
    (hX : ∀ i, Valid ds i → Ival.Has (X i) (I i)) {J : Nat → Nat → Ival dn up}
    (hJ : Gives g (tab ds I) (tab [n, k] (fn2 J))) (t : IntTy) {cls : Nat → Nat} (hc : ∀ b < n, cls b < k)
    (hsep : ∀ b < n, ∀ j < k, j ≠ cls b → (J b j).hi < (J b (cls b)).lo) :
    ∃ Y : Nat → Nat → Fl rnd, Gives f (tab ds X) (tab [n, k] (fn2 Y)) ∧ ∀ y : List Int, y.length = n →
      Kernels.argmax t k (tab [n, k] (fn2 Y)).data y = .ok ((List.range n).map fun b => t.conv (cls b)) := by
  obtain ⟨Y, Y', h1, h2, h3⟩ := h X I hX
  have e := tab_eq_iff.1 (hJ.unique h2)
  have e' : tab [n, k] Y = tab [n, k] (fn2 fun i j => Y [i, j]) := tab_congr fun idx hv => by
    match idx, hv with
    | [i, l], _ => rfl
  refine ⟨fun i j => Y [i, j], e' ▸ h1, fun y hy => ?_⟩
  rcases Nat.eq_zero_or_pos n with rfl | hn
  · rw [List.length_eq_zero_iff.1 hy]
    rfl
  · have hk : 1 ≤ k := by have := hc 0 hn; omega
    obtain ⟨a, ea, ha⟩ := C57_argmax t hk (fun i j => Y [i, j]) hy
    rw [ea]
    refine congrArg Outcome.ok (List.map_congr_left fun b hb => ?_)
    have hb' : b < n := by simpa using hb
    obtain ⟨a1, a2, -⟩ := ha b hb'
    have : a b = cls b := by
      by_contra hne
      have p := h3 [b, a b] ⟨hb', a1, trivial⟩
      have q := h3 [b, cls b] ⟨hb', hc b hb', trivial⟩
      rw [← e [b, a b] ⟨hb', a1, trivial⟩] at p
      rw [← e [b, cls b] ⟨hb', hc b hb', trivial⟩] at q
      exact absurd (a2 (cls b) (hc b hb')) (not_le.2 ((p.2.trans_lt (hsep b hb' _ a1 hne)).trans_le q.1))
    rw [this]

/-! ## Concrete cases -/

/-- Rounding to whole numbers, downwards. -/
noncomputable def exFloor (x : ℝ) : ℝ := ⌊x⌋

theorem exFloor_mono : Monotone exFloor := fun _ _ h => Int.cast_le.2 (Int.floor_mono h)

/-- A whole number. -/
noncomputable def exFl (n : Nat) : Fl exFloor := (n : ℝ)

/-- A dense layer with rounding, weights `l + j` and `relu`. -/
noncomputable def exMonoF : LayerFn (Fl exFloor) := fun x => dense (fun _ => exFl 5) (fun _ => exFl 6) (fun _ => exFl 7) reluAct 2 x
  (exInit (fn2 fun l j => exFl (l + j))) (exInit (fn1 exFl))

/-- A dense layer with weights `-(l + j)`. -/
noncomputable def exAntiF : LayerFn (Fl exFloor) := fun x => dense (fun _ => exFl 5) (fun _ => exFl 6) (fun _ => exFl 7) noopAct 3 x
  (exInit (fn2 fun l j => -exFl (l + j))) (exInit (fn1 exFl))

/-- Greater inputs give greater outputs. -/
theorem exMonoDense : Carries (fun a b : Fl exFloor => a ≤ b) (fun a b => a ≤ b)
    exMonoF exMonoF [4, 3] [4, 2] :=
  C149_dense _ _ _ _ _ _ (C149_nonneg exFloor_mono) relu_acts relu_acts (fun _ _ h => relu_mono h) (by decide)
    (fun l j => exFl (l + j)) (fun l j => exFl (l + j)) exFl exFl (fun _ _ _ _ => ⟨rfl, Nat.cast_nonneg (α := ℝ) _⟩)
    (fun _ _ => le_rfl) rfl rfl rfl rfl 4

/-- Greater inputs give smaller outputs. -/
theorem exAntiDense : Carries (fun a b : Fl exFloor => a ≤ b) (fun a b => b ≤ a)
    exAntiF exAntiF [4, 2] [4, 3] :=
  C149_dense _ _ _ _ _ _ (C149_nonpos exFloor_mono) noop_acts noop_acts (fun _ _ h => h) (by decide)
    (fun l j => -exFl (l + j)) (fun l j => -exFl (l + j)) exFl exFl
    (fun _ _ _ _ => ⟨rfl, neg_nonpos.2 (Nat.cast_nonneg (α := ℝ) _)⟩) (fun _ _ => le_rfl) rfl rfl rfl rfl 4

example := C149_composed exMonoDense exAntiDense
example := C149_sequential (fun _ => exFl 1) (fun _ => exFl 2)
  (fun i => if i < 2 then fun a b : Fl exFloor => a ≤ b else fun a b => b ≤ a) [exMonoF, exAntiF] [exMonoF, exAntiF] rfl
  (fun i => [[4, 3], [4, 2], [4, 3]].getD i []) fun i hi => by
    match i, hi with
    | 0, _ => exact exMonoDense
    | 1, _ => exact exAntiDense

/-- Whole numbers modulo 5: a convolution computed there is the convolution of whole numbers, reduced. -/
example (X : List Nat → ℤ) := C149_convert (C149_conv_nhwc (fun _ => 1) (fun _ => 2) (fun _ => 3) (fun _ => 4) (fun _ => 5) (fun _ => 0)
  (fun _ => 1) (fun _ => 2) (fun _ => 3) (fun _ => 4) (map_zero (Int.castRingHom (ZMod 5)))
  (C149_hom (Int.castRingHom (ZMod 5) : ℤ →ₙ+* ZMod 5))
  noop_acts noop_acts (fun _ _ h => h) exL_ok exW_ok exLayer_axes (c := 3) (by decide) (fun r s k e => (r : ℤ) - s + k * e)
  (fun r s k e => (r : ZMod 5) - s + k * e) (fun e => 9 * e) (fun e => 9 * e) (fun _ _ _ _ _ _ _ _ => by change ((_ : ℤ) : ZMod 5) = _; push_cast; rfl)
  (fun e _ => by show ((9 * (e : ℤ) : ℤ) : ZMod 5) = 9 * e; push_cast; rfl)
  (wInit := exInit (fn4 fun r s k e => (r : ℤ) - s + k * e)) (bInit := exInit (fn1 fun e => (9 : ℤ) * e))
  (wInit' := exInit (fn4 fun r s k e => (r : ZMod 5) - s + k * e)) (bInit' := exInit (fn1 fun e => (9 : ZMod 5) * e)) rfl rfl rfl rfl 2) X
example (X : List Nat → ℤ) := C149_convert (C149_conv_nchw (fun _ => 1) (fun _ => 2) (fun _ => 3) (fun _ => 4) (fun _ => 5) (fun _ => 0)
  (fun _ => 1) (fun _ => 2) (fun _ => 3) (fun _ => 4) (map_zero (Int.castRingHom (ZMod 5)))
  (C149_hom (Int.castRingHom (ZMod 5) : ℤ →ₙ+* ZMod 5))
  noop_acts noop_acts (fun _ _ h => h) exL_ok exW_ok exLayer_axes (c := 3) (fun e k r s => (r : ℤ) - s + k * e)
  (fun e k r s => (r : ZMod 5) - s + k * e) (fun e => 9 * e) (fun e => 9 * e) (fun _ _ _ _ _ _ _ _ => by change ((_ : ℤ) : ZMod 5) = _; push_cast; rfl)
  (fun e _ => by show ((9 * (e : ℤ) : ℤ) : ZMod 5) = 9 * e; push_cast; rfl)
  (wInit := exInit (fn4 fun e k r s => (r : ℤ) - s + k * e)) (bInit := exInit (fn1 fun e => (9 : ℤ) * e))
  (wInit' := exInit (fn4 fun e k r s => (r : ZMod 5) - s + k * e)) (bInit' := exInit (fn1 fun e => (9 : ZMod 5) * e)) rfl rfl rfl rfl 2) X

example := C149_max_pool (ρ := fun a b : Fl exFloor => a ≤ b) (fun _ => exFl 1) (fun _ => exFl 2) (le_refl (-exFl 128)) C149_max_mono
  exPadH_ok exPadW_ok exPad_axes 2 3
example := C149_mean_pool (ρ := fun a b : Fl exFloor => a ≤ b) (ρ' := fun a b => a ≤ b) (fun _ => exFl 1) (fun _ => exFl 2)
  (fun s n => s / exFl n) (fun s n => s / exFl n) le_rfl (C149_nonneg exFloor_mono).add
  (fun k h => exFloor_mono (div_le_div_of_nonneg_right (G₀ := ℝ) h (Nat.cast_nonneg k))) exPoolH_ok exPoolW_ok exPool_axes
  (by decide) 2 3
example := C149_pool (ρ := fun a b : ℤ => a ≤ b) (ρ' := fun a b : ℤ => a ≤ b) (fun _ => 1) (fun _ => 2) (Acc.max (-128)) (Acc.max (-127))
  exPadH_ok exPadW_ok exPad_axes _ _ (fun l _ => max_run _ l) (fun l _ => max_run _ l) (fun l l' h => by
    have : ∀ {a a' : ℤ}, a ≤ a' → l.foldl (fun v x => if x > v then x else v) a ≤ l'.foldl (fun v x => if x > v then x else v) a' := by
      induction h with
      | nil => exact id
      | cons h1 _ ih => exact fun h => ih (C149_max_mono h1 h)
    exact this (by decide)) 2 3
example := C149_activation (ρ := fun a b : Fl exFloor => a ≤ b) (fun _ => exFl 1) (fun _ => exFl 2) (fun _ _ h => relu_mono h) [2, 3, 4]

example := C41_layer (f := fun x : ℤ => 2 * x + 128) (fun _ _ h => by simpa using h) (fun _ => 1) (fun _ => 2) (lowest := -128)
  (lowest' := -128) (by decide) exPadH_ok exPadW_ok exPad_axes 2 3
example := C41_layer_nonempty (f := fun x : ℤ => if 0 < x then x else 0) (fun _ _ h => relu_mono h) (fun _ => 1) (fun _ => 2)
  (lowest := -128) (lowest' := -128) exPoolH_ok exPoolW_ok exPool_axes (by
    intro i hi j hj
    refine ⟨i, 2 * j, ⟨0, by decide, ?_⟩, 0, by decide, ?_⟩ <;> simp [Axis.Hits, Axis.pos, exPoolH, exPoolW] at * <;> omega) 2 3

/-- An interval, rounded outwards to whole numbers. -/
noncomputable def exIval (a b : ℝ) : Ival exFloor fun x => x := ⟨a, b⟩

/-- A dense layer with weights `1, -1`, and the same layer on intervals. -/
theorem exIvalDense : Carries Ival.Has Ival.Has
    (fun x => dense (fun _ => exFl 5) (fun _ => exFl 6) (fun _ => exFl 7) reluAct 2 x
      (exInit (fn2 fun _ j => if j = 0 then exFl 1 else -exFl 1)) (exInit (fn1 fun _ => exFl 0)))
    (fun x => dense (fun _ => exIval 0 1) (fun _ => exIval 0 1) (fun _ => exIval 0 1)
      (pointwiseAct fun I => exIval (if 0 < I.lo then I.lo else 0) (if 0 < I.hi then I.hi else 0)) 2 x
      (exInit (fn2 fun _ j => if j = 0 then exIval 1 1 else exIval (-1) (-1))) (exInit (fn1 fun _ => exIval 0 0))) [2, 1] [2, 2] :=
  C149_dense _ _ _ _ _ _ (C149_interval exFloor_mono (fun _ => le_rfl) Int.floor_le) relu_acts (pointwise_acts _)
    (fun a I h => C149_interval_act (fun _ _ h => relu_mono h) a I h) (by decide) (fun _ j => if j = 0 then exFl 1 else -exFl 1)
    (fun _ j => if j = 0 then exIval 1 1 else exIval (-1) (-1)) (fun _ => exFl 0) (fun _ => exIval 0 0)
    (fun _ _ j _ => by
      split
      · exact ⟨(Nat.cast_one (R := ℝ)).ge, (Nat.cast_one (R := ℝ)).le⟩
      · exact ⟨(congrArg Neg.neg (Nat.cast_one (R := ℝ))).ge, (congrArg Neg.neg (Nat.cast_one (R := ℝ))).le⟩)
    (fun _ _ => ⟨(Nat.cast_zero (R := ℝ)).ge, (Nat.cast_zero (R := ℝ)).le⟩) rfl rfl rfl rfl 2

/-- On `[1, 2]` and `[-4, -3]` the intervals are `[1, 2], [0, 0]` and `[0, 0], [3, 4]`. -/
theorem exIvalDense_at : Gives (fun x => dense (fun _ => exIval 0 1) (fun _ => exIval 0 1) (fun _ => exIval 0 1)
      (pointwiseAct fun I => exIval (if 0 < I.lo then I.lo else 0) (if 0 < I.hi then I.hi else 0)) 2 x
      (exInit (fn2 fun _ j => if j = 0 then exIval 1 1 else exIval (-1) (-1))) (exInit (fn1 fun _ => exIval 0 0)))
    (tab [2, 1] (fn2 fun i _ => if i = 0 then exIval 1 2 else exIval (-4) (-3)))
    (tab [2, 2] (fn2 fun i j => if i = 0 then (if j = 0 then exIval 1 2 else exIval 0 0) else if j = 0 then exIval 0 0 else exIval 3 4)) := by
  refine .of (C77_dense (n := 2) (k := 2) _ _ _ (pointwise_acts _) (by decide) (fun i _ => if i = 0 then exIval 1 2 else exIval (-4) (-3))
    (fun _ j => if j = 0 then exIval 1 1 else exIval (-1) (-1)) (fun _ => exIval 0 0) rfl rfl) rfl (tab_congr fun idx hv => ?_)
  have add : ∀ a b c d : ℝ, exIval a b + exIval c d = exIval (exFloor (a + c)) (b + d) := fun _ _ _ _ => rfl
  have mul : ∀ a b c d : ℝ, exIval a b * exIval c d = exIval (exFloor (min (min (a * c) (a * d)) (min (b * c) (b * d))))
    (max (max (a * c) (a * d)) (max (b * c) (b * d))) := fun _ _ _ _ => rfl
  have zero : ∀ a b : ℝ, (0 : Ival exFloor fun x => x) + exIval a b = exIval (exFloor (0 + a)) (0 + b) := fun _ _ => rfl
  have lo : ∀ a b, (exIval a b).lo = a := fun _ _ => rfl
  have hi : ∀ a b, (exIval a b).hi = b := fun _ _ => rfl
  match idx, hv with
  | [0, 0], _ => norm_num [seqSum, add, mul, zero, lo, hi, exFloor]
  | [0, 1], _ => norm_num [seqSum, add, mul, zero, lo, hi, exFloor]
  | [1, 0], _ => norm_num [seqSum, add, mul, zero, lo, hi, exFloor]
  | [1, 1], _ => norm_num [seqSum, add, mul, zero, lo, hi, exFloor]

/-- All inputs between 1 and 2 get class 0, all between -4 and -3 class 1. -/
example (X : List Nat → Fl exFloor) (h : ∀ i, Valid [2, 1] i →
    Ival.Has (X i) (fn2 (fun i _ => if i = 0 then exIval 1 2 else exIval (-4) (-3)) i)) :=
  C149_interval_class exIvalDense h exIvalDense_at u32 (cls := id) (fun b hb => hb) fun b hb j hj hne => by
    match b, hb, j, hj with
    | 0, _, 0, _ => exact absurd rfl hne
    | 0, _, 1, _ => simp [exIval]
    | 1, _, 0, _ => simp [exIval]
    | 1, _, 1, _ => exact absurd rfl hne

end StdNN
