import Verif.Props.Relational
import Mathlib.Analysis.Calculus.Deriv.Add
import Mathlib.Analysis.Calculus.Deriv.Mul
import Mathlib.Analysis.SpecialFunctions.ExpDeriv
/-!
# C150: networks on dual numbers compute directional derivatives
-/
namespace StdNN
open IntTy Spec Outcome Finset Models Layers _root_.Filter Topology

/-- A dual number: a value and a derivative. -/
structure Dual where
  val : ℝ
  der : ℝ

namespace Dual

noncomputable instance : Zero Dual := ⟨⟨0, 0⟩⟩
noncomputable instance : Add Dual := ⟨fun a b => ⟨a.val + b.val, a.der + b.der⟩⟩
noncomputable instance : Mul Dual := ⟨fun a b => ⟨a.val * b.val, a.der * b.val + a.val * b.der⟩⟩

/-- Compare the values; if they are equal, the derivatives. -/
instance : LT Dual := ⟨fun a b => a.val < b.val ∨ a.val = b.val ∧ a.der < b.der⟩

open Classical in
noncomputable instance : DecidableLT Dual := fun _ _ => inferInstance

end Dual

/-- At `t = 0` the curve `c` has the value and the one-sided derivative (towards positive `t`) of the dual number. -/
def Follows (c : ℝ → ℝ) (d : Dual) : Prop := c 0 = d.val ∧ HasDerivWithinAt c d.der (Set.Ici 0) 0

theorem follows_const (a : ℝ) : Follows (fun _ => a) ⟨a, 0⟩ := ⟨rfl, hasDerivWithinAt_const ..⟩

/-- C150 (sums). -/
theorem Follows.add {c c' : ℝ → ℝ} {d d' : Dual} (h : Follows c d) (h' : Follows c' d') :
    Follows (fun t => c t + c' t) (d + d') := ⟨congrArg₂ (· + ·) h.1 h'.1, h.2.add h'.2⟩

/-- C150 (products). -/
theorem Follows.mul {c c' : ℝ → ℝ} {d d' : Dual} (h : Follows c d) (h' : Follows c' d') :
    Follows (fun t => c t * c' t) (d * d') := by
  refine ⟨congrArg₂ (· * ·) h.1 h'.1, ?_⟩
  have := h.2.mul h'.2
  rw [h.1, h'.1] at this
  exact this

theorem Follows.seqSum {n : Nat} {c : Nat → ℝ → ℝ} {d : Nat → Dual} (h : ∀ i < n, Follows (c i) (d i)) :
    Follows (fun t => seqSum n fun i => c i t) (seqSum n d) := by
  induction n with
  | zero => exact follows_const 0
  | succ n ih => exact (ih fun i hi => h i (by omega)).add (h n (by omega))

theorem deriv_abs {g : ℝ → ℝ} {e : ℝ} (h0 : g 0 = 0) (h : HasDerivWithinAt g e (Set.Ici 0) 0) :
    HasDerivWithinAt (fun t => |g t|) |e| (Set.Ici 0) 0 := by
  rw [hasDerivWithinAt_iff_tendsto_slope] at h ⊢
  refine (h.abs).congr' ?_
  filter_upwards [self_mem_nhdsWithin] with t ht
  have h1 : 0 ≤ t := ht.1
  rw [slope_def_field, slope_def_field, h0, abs_zero, sub_zero, sub_zero, sub_zero, abs_div, abs_of_nonneg h1]

theorem ite_max (a b : ℝ) : (if a > b then a else b) = (a + b + |a - b|) / 2 := by
  split
  · next h => rw [abs_of_pos (by linarith)]; ring
  · next h => rw [abs_of_nonpos (by linarith)]; ring

/-- C150 (the greater of two numbers): at a tie the greater is the one that grows faster. -/
theorem Follows.max {c c' : ℝ → ℝ} {d d' : Dual} (h : Follows c d) (h' : Follows c' d') :
    Follows (fun t => if c t > c' t then c t else c' t) (if d > d' then d else d') := by
  have hc := h.2.continuousWithinAt
  have hc' := h'.2.continuousWithinAt
  rcases lt_trichotomy d.val d'.val with lt | eq | gt
  · rw [if_neg (show ¬ d > d' by
      rintro (h | h)
      · exact absurd h (not_lt.2 lt.le)
      · exact absurd h.1 lt.ne')]
    have ev : ∀ᶠ t in 𝓝[Set.Ici 0] (0 : ℝ), c t < c' t := hc.eventually_lt hc' (by rwa [h.1, h'.1])
    have n0 : ¬ c 0 > c' 0 := by rw [h.1, h'.1]; exact not_lt.2 lt.le
    exact ⟨(if_neg n0).trans h'.1, h'.2.congr_of_eventuallyEq (ev.mono fun t ht => if_neg (not_lt.2 ht.le)) (if_neg n0)⟩
  · have e1 : (if d > d' then d else d').val = d.val := by split <;> simp [eq]
    have e2 : (if d > d' then d else d').der = (d.der + d'.der + |d.der - d'.der|) / 2 := by
      rw [← ite_max]
      by_cases hd : d.der > d'.der
      · rw [if_pos hd, if_pos (show d > d' from Or.inr ⟨eq.symm, hd⟩)]
      · rw [if_neg hd, if_neg]
        rintro (h | h)
        · exact absurd h (by rw [eq]; exact lt_irrefl _)
        · exact hd h.2
    refine ⟨?_, ?_⟩
    · rw [e1]
      show (if c 0 > c' 0 then c 0 else c' 0) = _
      rw [h.1, h'.1, eq, ite_self]
    · rw [e2]
      simp only [ite_max]
      exact ((h.2.add h'.2).add (deriv_abs (by rw [Pi.sub_apply, h.1, h'.1, eq, sub_self]) (h.2.sub h'.2))).div_const 2
  · rw [if_pos (show d > d' from Or.inl gt)]
    have ev : ∀ᶠ t in 𝓝[Set.Ici 0] (0 : ℝ), c' t < c t := hc'.eventually_lt hc (by rwa [h.1, h'.1])
    have n0 : c 0 > c' 0 := by rw [h.1, h'.1]; exact gt
    exact ⟨(if_pos n0).trans h.1, h.2.congr_of_eventuallyEq (ev.mono fun t ht => if_pos ht) (if_pos n0)⟩

theorem follows_window {H W : Axis} {X : ℝ → Nat → Nat → ℝ} {D : Nat → Nat → Dual}
    (h : ∀ a < H.n, ∀ b < W.n, Follows (fun t => X t a b) (D a b)) (i j u v : Nat) :
    Follows (fun t => window H W (X t) i j u v) (window H W D i j u v) := by
  unfold window padded
  split
  · split
    · exact h _ (by omega) _ (by omega)
    · exact follows_const 0
  · exact follows_const 0

/-! ## Networks -/

/-- When the elements of the input move along curves, the run of `g` on dual numbers gives the values and the one-sided
derivatives of the outputs of the layers `f t`, whose weights may also move. -/
def Differentiates (f : ℝ → LayerFn ℝ) (g : LayerFn Dual) (ds es : List Nat) : Prop :=
  ∀ (X : ℝ → List Nat → ℝ) (D : List Nat → Dual), (∀ i, Valid ds i → Follows (fun t => X t i) (D i)) →
    ∃ (Y : ℝ → List Nat → ℝ) (E : List Nat → Dual), (∀ t, Gives (f t) (tab ds (X t)) (tab es (Y t))) ∧
      Gives g (tab ds D) (tab es E) ∧ ∀ i, Valid es i → Follows (fun t => Y t i) (E i)

/-- C150 (networks): one layer after the other; this is the chain rule. -/
theorem C150_composed {f g : ℝ → LayerFn ℝ} {f' g' : LayerFn Dual} {ds es fs : List Nat} (hf : Differentiates f f' ds es)
    (hg : Differentiates g g' es fs) : Differentiates (fun t => composed (f t) (g t)) (composed f' g') ds fs := fun X D h => by
  obtain ⟨Y, E, h1, h2, h3⟩ := hf X D h
  obtain ⟨Z, F, h4, h5, h6⟩ := hg Y E h3
  exact ⟨Z, F, fun t => (h1 t).comp (h4 t), h2.comp h5, h6⟩

/-- C150 (sequential models). -/
theorem C150_sequential (junk : Nat → ℝ) (junk' : Nat → Dual) (ls : List (ℝ → LayerFn ℝ)) (ls' : List (LayerFn Dual))
    (hl : ls.length = ls'.length) (shapes : Nat → List Nat)
    (h : ∀ i (hi : i < ls.length), Differentiates ls[i] (ls'[i]'(hl ▸ hi)) (shapes i) (shapes (i + 1))) :
    Differentiates (fun t => sequential junk (ls.map (· t))) (sequential junk' ls') (shapes 0) (shapes ls.length) := by
  induction ls using List.reverseRecOn generalizing ls' with
  | nil =>
    obtain rfl := List.length_eq_zero_iff.1 hl.symm
    exact fun X D h => ⟨X, D, fun t => ⟨[], identity_run junk (tab_wf _ _)⟩, ⟨[], identity_run junk' (tab_wf _ _)⟩, h⟩
  | append_singleton ls l ih =>
    obtain ⟨ls', l', rfl⟩ : ∃ a b, ls' = a ++ [b] :=
      ⟨_, _, (List.dropLast_append_getLast (l := ls') (by rintro rfl; simp at hl)).symm⟩
    have hl' : ls.length = ls'.length := by simpa using hl
    simp only [List.map_append, List.map_cons, List.map_nil, sequential_snoc]
    have hlast := h ls.length (by simp)
    simp only [List.getElem_append_right (le_refl _), hl', Nat.sub_self, List.getElem_cons_zero] at hlast
    have := ih ls' hl' fun i hi => by
      have := h i (by simp; omega)
      simpa only [List.getElem_append_left hi, List.getElem_append_left (hl' ▸ hi)] using this
    rw [hl'] at this
    simpa [hl'] using C150_composed this hlast

/-! ## Layers -/

/-- `f'` on dual numbers gives the derivative of `f`. -/
def LiftsTo (f : ℝ → ℝ) (f' : Dual → Dual) : Prop := ∀ c d, Follows c d → Follows (fun t => f (c t)) (f' d)

/-- C150 (activations): `relu` itself, run on dual numbers, also at its kink. -/
theorem C150_relu : LiftsTo (fun a => if 0 < a then a else 0) (fun d => if 0 < d then d else 0) := fun _ _ h =>
  h.max (follows_const 0)

/-- C150 (activations): a differentiable activation. -/
theorem C150_smooth {f f' : ℝ → ℝ} (hf : ∀ x, HasDerivAt f (f' x) x) : LiftsTo f (fun d => ⟨f d.val, f' d.val * d.der⟩) :=
  fun c d h => ⟨congrArg f h.1, by
    have := hf (c 0)
    rw [h.1] at this
    exact this.comp_hasDerivWithinAt_of_eq 0 h.2 h.1.symm⟩

section
variable (junkW junkY junkB : Nat → ℝ) (junkI : Nat → Int) (junk : Nat → ℝ) {act : Act ℝ} {f : ℝ → ℝ}
  (junkW' junkY' junkB' : Nat → Dual) (junkI' : Nat → Int) (junk' : Nat → Dual) {act' : Act Dual} {f' : Dual → Dual}
  {wInit bInit : ℝ → Init ℝ} {wInit' bInit' : Init Dual}

/-- C150 (dense layers). -/
theorem C150_dense (hact : ActsAs act f) (hact' : ActsAs act' f') (hf : LiftsTo f f') {m k : Nat} (hk : k < 2 ^ 32)
    (W : ℝ → Nat → Nat → ℝ) (W' : Nat → Nat → Dual) (B : ℝ → Nat → ℝ) (B' : Nat → Dual)
    (hW : ∀ l < m, ∀ j < k, Follows (fun t => W t l j) (W' l j)) (hB : ∀ j < k, Follows (fun t => B t j) (B' j))
    (hw : ∀ t, wInit t [m, k] (fresh junkW [m, k].prod) = .ok (tab [m, k] (fn2 (W t))).data)
    (hb : ∀ t, bInit t [k] (fresh junkB [k].prod) = .ok (tab [k] (fn1 (B t))).data)
    (hw' : wInit' [m, k] (fresh junkW' [m, k].prod) = .ok (tab [m, k] (fn2 W')).data)
    (hb' : bInit' [k] (fresh junkB' [k].prod) = .ok (tab [k] (fn1 B')).data) (n : Nat) :
    Differentiates (fun t x => dense junkW junkY junkB act k x (wInit t) (bInit t))
      (fun x => dense junkW' junkY' junkB' act' k x wInit' bInit') [n, m] [n, k] := fun X D h => by
  have e : ∀ {T : Type} [Zero T] (X : List Nat → T), tab [n, m] X = tab [n, m] (fn2 fun i l => X [i, l]) := fun X =>
    tab_congr fun idx hv => by
      match idx, hv with
      | [i, l], _ => rfl
  refine ⟨_, _, fun t => .at (e (X t)) (.of (C77_dense junkW junkY junkB hact hk (fun i l => X t [i, l]) (W t) (B t) (hw t) (hb t))
      rfl rfl), .at (e D) (.of (C77_dense junkW' junkY' junkB' hact' hk (fun i l => D [i, l]) W' B' hw' hb') rfl rfl),
    fun idx hv => ?_⟩
  match idx, hv with
  | [i, j], hv =>
    exact hf _ _ (.add (.seqSum fun l hl => (h [i, l] ⟨hv.1, hl, trivial⟩).mul (hW l hl j hv.2.1)) (hB j hv.2.1))

/-- C150 (convolution layers, `nhwc`). -/
theorem C150_conv_nhwc (hact : ActsAs act f) (hact' : ActsAs act' f') (hf : LiftsTo f f') {H W : Axis} (hH : AxisOK u32 H)
    (hW : AxisOK u32 W) {l : ConvLayer} (hl : HasAxes l H W) {c : Nat} (hsz : [H.n, W.n, c].prod ≤ 2 ^ 31)
    (Y : ℝ → Nat → Nat → Nat → Nat → ℝ) (Y' : Nat → Nat → Nat → Nat → Dual) (B : ℝ → Nat → ℝ) (B' : Nat → Dual)
    (hY : ∀ r < H.k, ∀ s < W.k, ∀ k < c, ∀ e < l.filters, Follows (fun t => Y t r s k e) (Y' r s k e))
    (hB : ∀ e < l.filters, Follows (fun t => B t e) (B' e))
    (hw : ∀ t, wInit t [H.k, W.k, c, l.filters] (fresh junkW [H.k, W.k, c, l.filters].prod) =
      .ok (tab [H.k, W.k, c, l.filters] (fn4 (Y t))).data)
    (hb : ∀ t, bInit t [l.filters] (fresh junkB [l.filters].prod) = .ok (tab [l.filters] (fn1 (B t))).data)
    (hw' : wInit' [H.k, W.k, c, l.filters] (fresh junkW' [H.k, W.k, c, l.filters].prod) =
      .ok (tab [H.k, W.k, c, l.filters] (fn4 Y')).data)
    (hb' : bInit' [l.filters] (fresh junkB' [l.filters].prod) = .ok (tab [l.filters] (fn1 B')).data) (n : Nat) :
    Differentiates (fun t x => Layers.conv .nhwc .rscd junkW junkY junkB junkI junk act l x (wInit t) (bInit t))
      (fun x => Layers.conv .nhwc .rscd junkW' junkY' junkB' junkI' junk' act' l x wInit' bInit')
      [n, H.n, W.n, c] [n, H.m, W.m, l.filters] := fun X D h => by
  have e : ∀ {T : Type} [Zero T] (X : List Nat → T), tab [n, H.n, W.n, c] X =
      tab [n, H.n, W.n, c] (fn4 fun b i j k => X [b, i, j, k]) := fun X => tab_congr fun idx hv => by
    match idx, hv with
    | [b, i, j, k], _ => rfl
  refine ⟨_, _, fun t => .at (e (X t)) (.of (conv_layer_nhwc junkW junkY junkB junkI junk hact hH hW hl (n := n)
      (fun b i j k => X t [b, i, j, k]) (Y t) _ (B t) (fun z hz => C91_conv_order hH hW hsz _ (Y t) junkI junk hz) (hw t) (hb t))
      rfl rfl),
    .at (e D) (.of (conv_layer_nhwc junkW' junkY' junkB' junkI' junk' hact' hH hW hl (n := n) (fun b i j k => D [b, i, j, k]) Y'
      _ B' (fun z hz => C91_conv_order hH hW hsz _ Y' junkI' junk' hz) hw' hb') rfl rfl), fun idx hv => ?_⟩
  match idx, hv with
  | [b, i, j, d], hv =>
    refine hf _ _ (.add (.seqSum fun p hp => ?_) (hB d hv.2.2.2.1))
    have hc : 0 < W.k * c := Nat.pos_of_ne_zero fun h => by simp [h] at hp
    have h1 : p / (W.k * c) < H.k := Nat.div_lt_of_lt_mul (by rwa [Nat.mul_comm] at hp)
    have h2 := Nat.mod_lt p hc
    have h3 : 0 < c := Nat.pos_of_mul_pos_left hc
    exact (follows_window (fun a ha a' ha' => h [b, a, a', _] ⟨hv.1, ha, ha', Nat.mod_lt _ h3, trivial⟩) i j _ _).mul
      (hY _ h1 _ (Nat.div_lt_of_lt_mul (h2.trans_eq (Nat.mul_comm _ _))) _ (Nat.mod_lt _ h3) _ hv.2.2.2.1)

/-- C150 (convolution layers, `nchw`). -/
theorem C150_conv_nchw (hact : ActsAs act f) (hact' : ActsAs act' f') (hf : LiftsTo f f') {H W : Axis} (hH : AxisOK u32 H)
    (hW : AxisOK u32 W) {l : ConvLayer} (hl : HasAxes l H W) {c : Nat}
    (Y : ℝ → Nat → Nat → Nat → Nat → ℝ) (Y' : Nat → Nat → Nat → Nat → Dual) (B : ℝ → Nat → ℝ) (B' : Nat → Dual)
    (hY : ∀ e < l.filters, ∀ k < c, ∀ r < H.k, ∀ s < W.k, Follows (fun t => Y t e k r s) (Y' e k r s))
    (hB : ∀ e < l.filters, Follows (fun t => B t e) (B' e))
    (hw : ∀ t, wInit t [l.filters, c, H.k, W.k] (fresh junkW [l.filters, c, H.k, W.k].prod) =
      .ok (tab [l.filters, c, H.k, W.k] (fn4 (Y t))).data)
    (hb : ∀ t, bInit t [l.filters] (fresh junkB [l.filters].prod) = .ok (tab [l.filters] (fn1 (B t))).data)
    (hw' : wInit' [l.filters, c, H.k, W.k] (fresh junkW' [l.filters, c, H.k, W.k].prod) =
      .ok (tab [l.filters, c, H.k, W.k] (fn4 Y')).data)
    (hb' : bInit' [l.filters] (fresh junkB' [l.filters].prod) = .ok (tab [l.filters] (fn1 B')).data) (n : Nat) :
    Differentiates (fun t x => Layers.conv .nchw .dcrs junkW junkY junkB junkI junk act l x (wInit t) (bInit t))
      (fun x => Layers.conv .nchw .dcrs junkW' junkY' junkB' junkI' junk' act' l x wInit' bInit')
      [n, c, H.n, W.n] [n, l.filters, H.m, W.m] := fun X D h => by
  have e : ∀ {T : Type} [Zero T] (X : List Nat → T), tab [n, c, H.n, W.n] X =
      tab [n, c, H.n, W.n] (fn4 fun b i j k => X [b, i, j, k]) := fun X => tab_congr fun idx hv => by
    match idx, hv with
    | [b, i, j, k], _ => rfl
  refine ⟨_, _, fun t => .at (e (X t)) (.of (conv_layer_nchw junkW junkY junkB junkI junk hact hH hW hl (n := n)
      (fun b i j k => X t [b, i, j, k]) (Y t) _ (B t) (fun z hz => C91_conv_order_nchw hH hW _ (Y t) junk hz) (hw t) (hb t))
      rfl rfl),
    .at (e D) (.of (conv_layer_nchw junkW' junkY' junkB' junkI' junk' hact' hH hW hl (n := n) (fun b i j k => D [b, i, j, k]) Y'
      _ B' (fun z hz => C91_conv_order_nchw hH hW _ Y' junk' hz) hw' hb') rfl rfl), fun idx hv => ?_⟩
  match idx, hv with
  | [b, d, i, j], hv =>
    refine hf _ _ (.add (.seqSum fun p hp => ?_) (hB d hv.2.1))
    have hc : 0 < H.k * W.k := Nat.pos_of_ne_zero fun h => by simp [h] at hp
    have h1 : p / (H.k * W.k) < c := Nat.div_lt_of_lt_mul (by rwa [Nat.mul_comm] at hp)
    have h2 := Nat.mod_lt p hc
    have h3 : 0 < W.k := Nat.pos_of_mul_pos_left hc
    exact (hY _ hv.2.1 _ h1 _ (Nat.div_lt_of_lt_mul (h2.trans_eq (Nat.mul_comm _ _))) _ (Nat.mod_lt _ h3)).mul
      (follows_window (fun a ha a' ha' => h [b, _, a, a'] ⟨hv.1, h1, ha, ha', trivial⟩) i j _ _)

end

/-- C150 (elementwise activation layers). -/
theorem C150_activation (junk : Nat → ℝ) (junk' : Nat → Dual) {f : ℝ → ℝ} {f' : Dual → Dual} (hf : LiftsTo f f')
    (ds : List Nat) : Differentiates (fun _ => activationOf junk f) (activationOf junk' f') ds ds :=
  fun X D h => ⟨fun t i => f (X t i), fun i => f' (D i), fun t => .of (activationOf_run junk f _ (by simp)) rfl (by simp [tab]),
    .of (activationOf_run junk' f' _ (by simp)) rfl (by simp [tab]), fun i hi => hf _ _ (h i hi)⟩

/-- C150 (pooling layers): the accumulators yield `v` and `v'` of the pixels under a window. -/
theorem C150_pool (junk : Nat → ℝ) (junk' : Nat → Dual) (acc : Acc ℝ) (acc' : Acc Dual)
    {H W : Axis} (hH : AxisOK u32 H) (hW : AxisOK u32 W) {l : PoolLayer} (hl : PoolHasAxes l H W) (v : List ℝ → ℝ)
    (v' : List Dual → Dual) (hv : ∀ l, l.length ≤ H.k * W.k → acc.run l = .ok (v l))
    (hv' : ∀ l, l.length ≤ H.k * W.k → acc'.run l = .ok (v' l))
    (hs : ∀ (ι : Type) (l : List ι) (x : ℝ → ι → ℝ) (d : ι → Dual), (∀ i ∈ l, Follows (fun t => x t i) (d i)) →
      Follows (fun t => v (l.map (x t))) (v' (l.map d))) (n c : Nat) :
    Differentiates (fun _ => pool .nhwc junk acc l) (pool .nhwc junk' acc' l) [n, H.n, W.n, c] [n, H.m, W.m, c] ∧
    Differentiates (fun _ => pool .nchw junk acc l) (pool .nchw junk' acc' l) [n, c, H.n, W.n] [n, c, H.m, W.m] := by
  have oH := shifted_ok hH
  have oW := shifted_ok hW
  have hp : ∀ {T : Type} (Y : Nat → Nat → T) i j, (pixels (shifted H) (shifted W) Y i j).length ≤ H.k * W.k := fun Y i j => by
    rw [pixels_length oH.fits.r1 oW.fits.r1]
    exact win_card_le oH.fits.r1 oW.fits.r1 i j
  have key : ∀ (x : ℝ → Nat → Nat → ℝ) (d : Nat → Nat → Dual) i j, (∀ a < H.n, ∀ b < W.n, Follows (fun t => x t a b) (d a b)) →
      Follows (fun t => v (pixels (shifted H) (shifted W) (x t) i j)) (v' (pixels (shifted H) (shifted W) d i j)) :=
    fun x d i j h => by
      have e : ∀ t, pixels (shifted H) (shifted W) (x t) i j =
          (pixels (shifted H) (shifted W) (fun a b => (a, b)) i j).map fun p : Nat × Nat => x t p.1 p.2 := fun t =>
        pixels_map (shifted H) (shifted W) (fun a b => (a, b)) (fun p => x t p.1 p.2) i j
      simp only [e]
      rw [pixels_map (shifted H) (shifted W) (fun a b => (a, b)) (fun p => d p.1 p.2)]
      refine hs (Nat × Nat) _ (fun t p => x t p.1 p.2) _ fun p hp => ?_
      obtain ⟨a, b, hu, rfl⟩ := mem_pixels.1 hp
      exact h a (Under_lt hu).1 b (Under_lt hu).2
  constructor <;> intro X D h
  · have e : ∀ {T : Type} [Zero T] (X : List Nat → T), tab [n, H.n, W.n, c] X =
        tab [n, H.n, W.n, c] (fn4 fun b i j k => X [b, i, j, k]) := fun X => tab_congr fun idx hv => by
      match idx, hv with
      | [b, i, j, k], _ => rfl
    refine ⟨_, _, fun t => .at (e (X t)) (.of (poolLayer_gen junk acc hH hW hl (n := n) (c := c) (fun b i j k => X t [b, i, j, k])
        (fun b i j k => v (pixels (shifted H) (shifted W) (fun a a' => X t [b, a, a', k]) i j)) fun b _ i _ j _ k _ =>
          hv _ (hp _ i j)).1 rfl rfl),
      .at (e D) (.of (poolLayer_gen junk' acc' hH hW hl (n := n) (c := c) (fun b i j k => D [b, i, j, k]) (fun b i j k =>
        v' (pixels (shifted H) (shifted W) (fun a a' => D [b, a, a', k]) i j)) fun b _ i _ j _ k _ => hv' _ (hp _ i j)).1
        rfl rfl), fun idx hi => ?_⟩
    match idx, hi with
    | [b, i, j, k], hi =>
      exact key (fun t a a' => X t [b, a, a', k]) _ i j fun a ha a' ha' => h [b, a, a', k] ⟨hi.1, ha, ha', hi.2.2.2.1, trivial⟩
  · have e : ∀ {T : Type} [Zero T] (X : List Nat → T), tab [n, c, H.n, W.n] X =
        tab [n, c, H.n, W.n] (fn4 fun b k i j => X [b, k, i, j]) := fun X => tab_congr fun idx hv => by
      match idx, hv with
      | [b, i, j, k], _ => rfl
    refine ⟨_, _, fun t => .at (e (X t)) (.of (poolLayer_gen junk acc hH hW hl (n := n) (c := c) (fun b i j k => X t [b, k, i, j])
        (fun b i j k => v (pixels (shifted H) (shifted W) (fun a a' => X t [b, k, a, a']) i j)) fun b _ i _ j _ k _ =>
          hv _ (hp _ i j)).2 rfl rfl),
      .at (e D) (.of (poolLayer_gen junk' acc' hH hW hl (n := n) (c := c) (fun b i j k => D [b, k, i, j]) (fun b i j k =>
        v' (pixels (shifted H) (shifted W) (fun a a' => D [b, k, a, a']) i j)) fun b _ i _ j _ k _ => hv' _ (hp _ i j)).2
        rfl rfl), fun idx hi => ?_⟩
    match idx, hi with
    | [b, k, i, j], hi =>
      exact key (fun t a a' => X t [b, k, a, a']) _ i j fun a ha a' ha' => h [b, k, a, a'] ⟨hi.1, hi.2.1, ha, ha', trivial⟩

/-- C150 (max pooling layers): also when several pixels under a window are greatest. -/
theorem C150_max_pool (junk : Nat → ℝ) (junk' : Nat → Dual) (lowest : ℝ) {H W : Axis} (hH : AxisOK u32 H) (hW : AxisOK u32 W)
    {l : PoolLayer} (hl : PoolHasAxes l H W) (n c : Nat) :
    Differentiates (fun _ => pool .nhwc junk (Acc.max lowest) l) (pool .nhwc junk' (Acc.max ⟨lowest, 0⟩) l)
      [n, H.n, W.n, c] [n, H.m, W.m, c] ∧
    Differentiates (fun _ => pool .nchw junk (Acc.max lowest) l) (pool .nchw junk' (Acc.max ⟨lowest, 0⟩) l)
      [n, c, H.n, W.n] [n, c, H.m, W.m] := by
  refine C150_pool junk junk' _ _ hH hW hl _ _ (fun l _ => max_run lowest l) (fun l _ => max_run _ l)
    (fun ι l x d h => ?_) n c
  have : ∀ (c : ℝ → ℝ) (e : Dual), Follows c e →
      Follows (fun t => (l.map (x t)).foldl (fun m a => if a > m then a else m) (c t))
        ((l.map d).foldl (fun m a => if a > m then a else m) e) := by
    induction l with
    | nil => exact fun _ _ h => h
    | cons i l ih => exact fun c e he => ih (fun j hj => h j (by simp [hj])) _ _ ((h i (by simp)).max he)
  exact this _ _ (follows_const lowest)

/-- C150 (mean pooling layers): `divn`, `divn'` are the divisions by the number of pixels. -/
theorem C150_mean_pool (junk : Nat → ℝ) (junk' : Nat → Dual) (divn : ℝ → Nat → ℝ) (divn' : Dual → Nat → Dual)
    (hd : ∀ k, LiftsTo (divn · k) (divn' · k)) {H W : Axis} (hH : AxisOK u32 H) (hW : AxisOK u32 W)
    {l : PoolLayer} (hl : PoolHasAxes l H W) (hk : H.k * W.k < 2 ^ 32) (n c : Nat) :
    Differentiates (fun _ => pool .nhwc junk (Acc.mean divn) l) (pool .nhwc junk' (Acc.mean divn') l)
      [n, H.n, W.n, c] [n, H.m, W.m, c] ∧
    Differentiates (fun _ => pool .nchw junk (Acc.mean divn) l) (pool .nchw junk' (Acc.mean divn') l)
      [n, c, H.n, W.n] [n, c, H.m, W.m] := by
  refine C150_pool junk junk' _ _ hH hW hl _ _ (fun l hl => mean_run divn l (by omega)) (fun l hl => mean_run divn' l (by omega))
    (fun ι l x d h => ?_) n c
  have : ∀ (c : ℝ → ℝ) (e : Dual), Follows c e →
      Follows (fun t => (l.map (x t)).foldl (· + ·) (c t)) ((l.map d).foldl (· + ·) e) := by
    induction l with
    | nil => exact fun _ _ h => h
    | cons i l ih => exact fun c e he => ih (fun j hj => h j (by simp [hj])) _ _ (he.add (h i (by simp)))
  simp only [List.length_map]
  exact hd l.length _ _ (this _ _ (follows_const 0))

/-- C150 (mean pooling layers): division by a number. -/
theorem C150_div (k : Nat) : LiftsTo (· / (k : ℝ)) (fun d => ⟨d.val / k, d.der / k⟩) := fun _ _ h =>
  ⟨congrArg (· / (k : ℝ)) h.1, h.2.div_const _⟩

/-! ## Directional derivatives -/

/-- C150 (directional derivatives): one run of the network `g`, on the dual numbers `x + ε v`, gives the outputs of the network
`f` at `x` and the limits of its difference quotients in the direction `v`. -/
theorem C150_directional {f : LayerFn ℝ} {g : LayerFn Dual} {ds es : List Nat} (h : Differentiates (fun _ => f) g ds es)
    (x v : List Nat → ℝ) : ∃ (Y : ℝ → List Nat → ℝ) (E : List Nat → Dual), (∀ t, Gives f (tab ds fun i => x i + t * v i) (tab es (Y t))) ∧
      Gives g (tab ds fun i => ⟨x i, v i⟩) (tab es E) ∧ ∀ i, Valid es i → (E i).val = Y 0 i ∧
        Tendsto (fun t => (Y t i - Y 0 i) / t) (𝓝[>] 0) (𝓝 (E i).der) := by
  obtain ⟨Y, E, h1, h2, h3⟩ := h (fun t i => x i + t * v i) (fun i => ⟨x i, v i⟩) fun i _ => ⟨by simp, by
    simpa using ((hasDerivWithinAt_id (0 : ℝ) (Set.Ici 0)).mul_const (v i)).const_add (x i)⟩
  refine ⟨Y, E, h1, h2, fun i hi => ⟨(h3 i hi).1.symm, ?_⟩⟩
  have := hasDerivWithinAt_iff_tendsto_slope.1 (h3 i hi).2
  rw [Set.Ici_sdiff_left] at this
  refine this.congr fun t => ?_
  rw [slope_def_field, sub_zero]

/-! ## Concrete cases -/

/-- A dense layer with `relu` whose weights grow with `t`. -/
noncomputable def exDualF (t : ℝ) : LayerFn ℝ := fun x => dense (fun _ => 5) (fun _ => 6) (fun _ => 7) reluAct 2 x
  (exInit (fn2 fun l j => (l : ℝ) - j + t)) (exInit (fn1 fun j => (j : ℝ)))

/-- The layer on dual numbers. -/
noncomputable def exDualG : LayerFn Dual := fun x => dense (fun _ => ⟨5, 1⟩) (fun _ => 0) (fun _ => 0) reluAct 2 x
  (exInit (fn2 fun l j => ⟨(l : ℝ) - j, 1⟩)) (exInit (fn1 fun j => ⟨j, 0⟩))

theorem exDualDense (m : Nat) : Differentiates exDualF exDualG [4, m] [4, 2] :=
  C150_dense _ _ _ _ _ _ relu_acts relu_acts C150_relu (by decide) (fun t l j => (l : ℝ) - j + t) (fun l j => ⟨(l : ℝ) - j, 1⟩)
    (fun _ j => (j : ℝ)) (fun j => ⟨j, 0⟩)
    (fun l _ j _ => ⟨add_zero _, by simpa using (hasDerivWithinAt_id (0 : ℝ) (Set.Ici 0)).const_add ((l : ℝ) - j)⟩)
    (fun j _ => follows_const j) (fun _ => rfl) (fun _ => rfl) rfl rfl 4

example := C150_composed (exDualDense 3) (exDualDense 2)
example := C150_sequential (fun _ => 1) (fun _ => 0) [exDualF, exDualF] [exDualG, exDualG] rfl
  (fun i => [[4, 3], [4, 2], [4, 2]].getD i []) fun i hi => by
    match i, hi with
    | 0, _ => exact exDualDense 3
    | 1, _ => exact exDualDense 2

/-- A convolution with fixed filters on dual numbers. -/
theorem exDualConv : Differentiates
    (fun _ x => Layers.conv .nhwc .rscd (fun _ => 1) (fun _ => 2) (fun _ => 3) (fun _ => 4) (fun _ => 5) noopAct exLayer x
      (exInit (fn4 fun r s k e => (r : ℝ) - s + k * e)) (exInit (fn1 fun e => (9 : ℝ) * e)))
    (fun x => Layers.conv .nhwc .rscd (fun _ => 0) (fun _ => 0) (fun _ => 0) (fun _ => 4) (fun _ => 0) noopAct exLayer x
      (exInit (fn4 fun r s k e => ⟨(r : ℝ) - s + k * e, 0⟩)) (exInit (fn1 fun e => ⟨9 * e, 0⟩)))
    [2, exL.n, exW.n, 3] [2, exL.m, exW.m, exLayer.filters] :=
  C150_conv_nhwc _ _ _ _ _ _ _ _ _ _ noop_acts noop_acts (fun _ _ h => h) exL_ok exW_ok exLayer_axes (c := 3) (by decide)
    (fun _ r s k e => (r : ℝ) - s + k * e) (fun r s k e => ⟨(r : ℝ) - s + k * e, 0⟩) (fun _ e => 9 * e) (fun e => ⟨9 * e, 0⟩)
    (fun _ _ _ _ _ _ _ _ => follows_const _) (fun _ _ => follows_const _) (fun _ => rfl) (fun _ => rfl) rfl rfl 2

/-- With `dcrs` filters. -/
example := C150_conv_nchw (fun _ => 1) (fun _ => 2) (fun _ => 3) (fun _ => 4) (fun _ => 5) (fun _ => 0)
  (fun _ => 0) (fun _ => 0) (fun _ => 4) (fun _ => 0) noop_acts noop_acts (fun _ _ h => h) exL_ok exW_ok exLayer_axes (c := 3)
  (fun _ e k r s => (r : ℝ) - s + k * e) (fun e k r s => ⟨(r : ℝ) - s + k * e, 0⟩) (fun _ e => 9 * e) (fun e => ⟨9 * e, 0⟩)
  (fun _ _ _ _ _ _ _ _ => follows_const _) (fun _ _ => follows_const _)
  (wInit := fun _ => exInit (fn4 fun e k r s => (r : ℝ) - s + k * e)) (bInit := fun _ => exInit (fn1 fun e => 9 * (e : ℝ)))
  (wInit' := exInit (fn4 fun e k r s => ⟨(r : ℝ) - s + k * e, 0⟩)) (bInit' := exInit (fn1 fun e => ⟨9 * e, 0⟩))
  (fun _ => rfl) (fun _ => rfl) rfl rfl 2

example (x v : List Nat → ℝ) := C150_directional exDualConv x v
example := C150_max_pool (fun _ => 1) (fun _ => 0) (-128) exPadH_ok exPadW_ok exPad_axes 2 3
example := C150_mean_pool (fun _ => 1) (fun _ => 0) _ _ C150_div exPoolH_ok exPoolW_ok exPool_axes (by decide) 2 3
example := C150_pool (fun _ => 1) (fun _ => 0) (Acc.max (-127)) (Acc.max ⟨-127, 0⟩) exPadH_ok exPadW_ok exPad_axes _ _
  (fun l _ => max_run _ l) (fun l _ => max_run _ l) (fun ι l x d h => by
    have : ∀ (c : ℝ → ℝ) (e : Dual), Follows c e →
        Follows (fun t => (l.map (x t)).foldl (fun m a => if a > m then a else m) (c t))
          ((l.map d).foldl (fun m a => if a > m then a else m) e) := by
      induction l with
      | nil => exact fun _ _ h => h
      | cons i l ih => exact fun c e he => ih (fun j hj => h j (by simp [hj])) _ _ ((h i (by simp)).max he)
    exact this _ _ (follows_const _)) 2 3
example := C150_activation (fun _ => 1) (fun _ => 0) C150_relu [2, 3, 4]
example := C150_smooth Real.hasDerivAt_exp

/-- At its kink `relu` moves with a rising input and stays with a falling one. -/
example : (if 0 < (⟨0, 3⟩ : Dual) then (⟨0, 3⟩ : Dual) else 0) = ⟨0, 3⟩ := if_pos (.inr ⟨rfl, show (0 : ℝ) < 3 by norm_num⟩)
example : (if 0 < (⟨0, -3⟩ : Dual) then (⟨0, -3⟩ : Dual) else 0) = 0 := if_neg (by
  rintro (h | h)
  · exact lt_irrefl _ h
  · have : (0 : ℝ) < -3 := h.2
    norm_num at this)

end StdNN
