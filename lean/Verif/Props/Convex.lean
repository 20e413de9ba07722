import Verif.Props.Affine
/-!
# C153: networks whose later weights are not negative are convex functions of their input
-/
namespace StdNN
open IntTy Spec Outcome Finset Models Layers
variable {R : Type} [Field R] [LinearOrder R] [IsStrictOrderedRing R]

/-! ## Specification -/

/-- The function of a mixture is at most the mixture of the functions. -/
def Mixes (φ : R → R) : Prop := ∀ {s t : R}, 0 ≤ s → 0 ≤ t → s + t = 1 → ∀ a b, φ (s * a + t * b) ≤ s * φ a + t * φ b

/-- Examples of shape `ds` are treated separately, and each output element of a mixture of two examples is at most the
mixture of the outputs. -/
def ConvexLayer (f : LayerFn R) (ds es : List Nat) : Prop :=
  ∃ G : (List Nat → R) → List Nat → R, PerExample f ds es G ∧
    ∀ {s t : R}, 0 ≤ s → 0 ≤ t → s + t = 1 → ∀ x y o, Valid es o → G (fun i => s * x i + t * y i) o ≤ s * G x o + t * G y o

/-- In addition, no output element becomes smaller if input elements become greater. -/
def RisingLayer (f : LayerFn R) (ds es : List Nat) : Prop :=
  ∃ G : (List Nat → R) → List Nat → R, PerExample f ds es G ∧
    (∀ {s t : R}, 0 ≤ s → 0 ≤ t → s + t = 1 → ∀ x y o, Valid es o → G (fun i => s * x i + t * y i) o ≤ s * G x o + t * G y o) ∧
    ∀ x y, (∀ i, Valid ds i → x i ≤ y i) → ∀ o, Valid es o → G x o ≤ G y o

omit [IsStrictOrderedRing R] in
theorem RisingLayer.convex {f : LayerFn R} {ds es : List Nat} (h : RisingLayer f ds es) : ConvexLayer f ds es := by
  obtain ⟨G, h1, h2, -⟩ := h
  exact ⟨G, h1, h2⟩

omit [IsStrictOrderedRing R] in
theorem mixes_id : Mixes (id : R → R) := fun _ _ _ _ _ => le_refl _

theorem mixes_relu : Mixes (fun a : R => if 0 < a then a else 0) := fun {s t} hs ht _ a b => by
  have ha : a ≤ (if 0 < a then a else 0) ∧ 0 ≤ (if 0 < a then a else 0) := by
    split
    · exact ⟨le_refl _, le_of_lt ‹_›⟩
    · exact ⟨le_of_not_gt ‹_›, le_refl _⟩
  have hb : b ≤ (if 0 < b then b else 0) ∧ 0 ≤ (if 0 < b then b else 0) := by
    split
    · exact ⟨le_refl _, le_of_lt ‹_›⟩
    · exact ⟨le_of_not_gt ‹_›, le_refl _⟩
  have h1 := mul_le_mul_of_nonneg_left ha.1 hs
  have h2 := mul_le_mul_of_nonneg_left hb.1 ht
  have h3 := mul_nonneg hs ha.2
  have h4 := mul_nonneg ht hb.2
  by_cases h : 0 < s * a + t * b
  · simp only [if_pos h]
    linarith
  · simp only [if_neg h]
    linarith

theorem relu_rises : Monotone (fun a : R => if 0 < a then a else 0) := fun a b h => by
  show (if 0 < a then a else 0) ≤ if 0 < b then b else 0
  split <;> split
  · exact h
  · linarith
  · exact le_of_lt ‹_›
  · exact le_refl _

/-! ## What it means -/

/-- C153: the outputs for mixtures of two batches are at most the mixtures of the outputs. -/
theorem C153_mixture {f : LayerFn R} {ds es : List Nat} (h : ConvexLayer f ds es) {s t : R} (hs : 0 ≤ s) (ht : 0 ≤ t)
    (hst : s + t = 1) (n : Nat) (X Y : Nat → List Nat → R) :
    ∃ U V Z : List Nat → R,
      Gives f (tab (n :: ds) fun idx => X (idx.headD 0) idx.tail) (tab (n :: es) U) ∧
      Gives f (tab (n :: ds) fun idx => Y (idx.headD 0) idx.tail) (tab (n :: es) V) ∧
      Gives f (tab (n :: ds) fun idx => s * X (idx.headD 0) idx.tail + t * Y (idx.headD 0) idx.tail) (tab (n :: es) Z) ∧
      (∀ o, Valid (n :: es) o → Z o ≤ s * U o + t * V o) ∧
      ∀ o c, Valid (n :: es) o → U o ≤ c → V o ≤ c → Z o ≤ c := by
  obtain ⟨G, h1, h2⟩ := h
  have key : ∀ o : List Nat, Valid (n :: es) o → G (fun i => s * X (o.headD 0) i + t * Y (o.headD 0) i) o.tail ≤
      s * G (X (o.headD 0)) o.tail + t * G (Y (o.headD 0)) o.tail := fun o ho => by
    match o, ho with
    | _ :: o, ho => exact h2 hs ht hst _ _ o ho.2
  refine ⟨_, _, _, h1 n X, h1 n Y, h1 n fun b i => s * X b i + t * Y b i, key, fun o c ho hU hV => ?_⟩
  refine (key o ho).trans ?_
  calc s * G (X (o.headD 0)) o.tail + t * G (Y (o.headD 0)) o.tail ≤ s * c + t * c :=
        add_le_add (mul_le_mul_of_nonneg_left hU hs) (mul_le_mul_of_nonneg_left hV ht)
    _ = c := by rw [← add_mul, hst, one_mul]

/-- C153: an example that minimises an output among all examples that differ by at most `ε` minimises it among all
examples. -/
theorem C153_minimum {f : LayerFn R} {ds es : List Nat} (h : ConvexLayer f ds es) {o : List Nat} (ho : Valid es o)
    {x y : List Nat → R} (hx : Gives f (tab (1 :: ds) fun idx => x idx.tail) (tab (1 :: es) fun idx => y idx.tail)) {ε : R}
    (hε : 0 < ε) (hmin : ∀ x' y' : List Nat → R, (∀ i, Valid ds i → |x i - x' i| ≤ ε) →
      Gives f (tab (1 :: ds) fun idx => x' idx.tail) (tab (1 :: es) fun idx => y' idx.tail) → y o ≤ y' o)
    {x' y' : List Nat → R} (hx' : Gives f (tab (1 :: ds) fun idx => x' idx.tail) (tab (1 :: es) fun idx => y' idx.tail)) :
    y o ≤ y' o := by
  obtain ⟨G, h1, h2⟩ := h
  have val : ∀ {x y : List Nat → R}, Gives f (tab (1 :: ds) fun idx => x idx.tail) (tab (1 :: es) fun idx => y idx.tail) →
      y o = G x o := fun {x y} hg => by
    have := hg.unique (h1 1 fun _ => x)
    exact (tab_eq_iff.1 this (0 :: o) ⟨by decide, ho⟩)
  set M : R := 1 + ∑ p ∈ range ds.prod, |x (unravel ds p) - x' (unravel ds p)| with hM
  have hM1 : 1 ≤ M := by
    have : 0 ≤ ∑ p ∈ range ds.prod, |x (unravel ds p) - x' (unravel ds p)| := sum_nonneg fun _ _ => abs_nonneg _
    linarith
  have hd : ∀ i, Valid ds i → |x i - x' i| ≤ M := fun i hi => by
    have := single_le_sum (f := fun p => |x (unravel ds p) - x' (unravel ds p)|) (fun _ _ => abs_nonneg _)
      (mem_range.2 (offset_lt hi))
    simp only [unravel_offset hi] at this
    linarith
  set t : R := min 1 (ε / M) with ht
  have M0 : 0 < M := by linarith
  have t0 : 0 < t := lt_min one_pos (div_pos hε M0)
  have t1 : t ≤ 1 := min_le_left _ _
  have tM : t * M ≤ ε := by
    calc t * M ≤ ε / M * M := mul_le_mul_of_nonneg_right (min_le_right _ _) M0.le
      _ = ε := div_mul_cancel₀ _ M0.ne'
  have near := hmin (fun i => (1 - t) * x i + t * x' i) (G fun i => (1 - t) * x i + t * x' i) (fun i hi => by
    have : x i - ((1 - t) * x i + t * x' i) = t * (x i - x' i) := by ring
    rw [this, abs_mul, abs_of_pos t0]
    exact (mul_le_mul_of_nonneg_left (hd i hi) t0.le).trans tM) (h1 1 fun _ i => (1 - t) * x i + t * x' i)
  have mix := h2 (by linarith : (0 : R) ≤ 1 - t) t0.le (by ring) x x' o ho
  rw [val hx, val hx'] at *
  have : t * G x o ≤ t * G x' o := by linarith
  exact le_of_mul_le_mul_left this t0

/-! ## Networks -/

omit [IsStrictOrderedRing R] in
/-- C153 (networks): a layer that rises after a convex one. -/
theorem C153_composed {f g : LayerFn R} {ds es fs : List Nat} (hf : ConvexLayer f ds es) (hg : RisingLayer g es fs) :
    ConvexLayer (composed f g) ds fs := by
  obtain ⟨F, f1, f2⟩ := hf
  obtain ⟨G, g1, g2, g3⟩ := hg
  exact ⟨fun x => G (F x), fun n X => (f1 n X).comp (g1 n fun b => F (X b)), fun hs ht hst x y o ho =>
    (g3 _ _ (fun i hi => f2 hs ht hst x y i hi) o ho).trans (g2 hs ht hst _ _ o ho)⟩

omit [IsStrictOrderedRing R] in
/-- C153 (networks): two layers that rise. -/
theorem C153_composed_rising {f g : LayerFn R} {ds es fs : List Nat} (hf : RisingLayer f ds es) (hg : RisingLayer g es fs) :
    RisingLayer (composed f g) ds fs := by
  obtain ⟨F, f1, f2, f3⟩ := hf
  obtain ⟨G, g1, g2, g3⟩ := hg
  exact ⟨fun x => G (F x), fun n X => (f1 n X).comp (g1 n fun b => F (X b)), fun hs ht hst x y o ho =>
    (g3 _ _ (fun i hi => f2 hs ht hst x y i hi) o ho).trans (g2 hs ht hst _ _ o ho),
    fun x y h o ho => g3 _ _ (fun i hi => f3 x y h i hi) o ho⟩

omit [IsStrictOrderedRing R] in
/-- C153 (sequential models): the first layer is convex, the others rise. -/
theorem C153_sequential (junk : Nat → R) (l : LayerFn R) (ls : List (LayerFn R)) (ds : List Nat) (shapes : Nat → List Nat)
    (hl : ConvexLayer l ds (shapes 0))
    (h : ∀ i (hi : i < ls.length), RisingLayer ls[i] (shapes i) (shapes (i + 1))) :
    ConvexLayer (sequential junk (l :: ls)) ds (shapes ls.length) := by
  induction ls using List.reverseRecOn with
  | nil =>
    obtain ⟨G, g1, g2⟩ := hl
    have := sequential_snoc junk [] l
    rw [List.nil_append] at this
    rw [this]
    exact ⟨G, fun n X => Gives.comp ⟨[], identity_run junk (tab_wf _ _)⟩ (g1 n X), g2⟩
  | append_singleton ls g ih =>
    rw [← List.cons_append, sequential_snoc]
    have hg := h ls.length (by simp)
    simp only [List.getElem_append_right (le_refl _), Nat.sub_self, List.getElem_cons_zero] at hg
    have := ih fun i hi => by
      have := h i (by simp; omega)
      rwa [List.getElem_append_left hi] at this
    simpa using C153_composed this hg

/-! ## Layers -/

omit [LinearOrder R] [IsStrictOrderedRing R] in
theorem affineMap_mix (ds es : List Nat) (W : Nat → Nat → R) (B : Nat → R) {s t : R} (hst : s + t = 1) (x y : List Nat → R)
    (o : List Nat) : affineMap ds es W B (fun i => s * x i + t * y i) o = s * affineMap ds es W B x o + t * affineMap ds es W B y o := by
  simp only [affineMap, mul_add, mul_sum]
  have hB : s * B (offset es o) + t * B (offset es o) = B (offset es o) := by rw [← add_mul, hst, one_mul]
  rw [show ∀ a b c d : R, a + b + (c + d) = a + c + (b + d) from fun a b c d => by ring, ← sum_add_distrib, hB]
  exact congrArg (· + _) (sum_congr rfl fun p _ => by ring)

omit [IsStrictOrderedRing R] in
theorem AffineAct.convex {f : LayerFn R} {ds es : List Nat} {φ : R → R} {w : Nat → Nat → R} {b : Nat → R}
    (h : AffineAct f ds es φ w b) (hφ : Mixes φ) : ConvexLayer f ds es :=
  ⟨_, h, fun hs ht hst x y o _ => by
    rw [affineMap_mix ds es w b hst]
    exact hφ hs ht hst _ _⟩

theorem AffineAct.rising {f : LayerFn R} {ds es : List Nat} {φ : R → R} {w : Nat → Nat → R} {b : Nat → R}
    (h : AffineAct f ds es φ w b) (hφ : Mixes φ) (hm : Monotone φ) (hw : ∀ p < ds.prod, ∀ q < es.prod, 0 ≤ w p q) :
    RisingLayer f ds es :=
  ⟨_, h, fun hs ht hst x y o _ => by
    rw [affineMap_mix ds es w b hst]
    exact hφ hs ht hst _ _, fun x y hxy o ho => hm (by
      unfold affineMap
      refine add_le_add (sum_le_sum fun p hp => ?_) (le_refl _)
      have hp' := mem_range.1 hp
      exact mul_le_mul_of_nonneg_right (hxy _ (valid_unravel hp')) (hw p hp' _ (offset_lt ho)))⟩

section
variable (junkW junkY junkB : Nat → R) {act : Act R} {φ : R → R} (hact : ActsAs act φ) (hφ : Mixes φ)
  {m k : Nat} (hk : k < 2 ^ 32) (W : Nat → Nat → R) (B : Nat → R) {wInit bInit : Init R}
  (hw : wInit [m, k] (fresh junkW [m, k].prod) = .ok (tab [m, k] (fn2 W)).data)
  (hb : bInit [k] (fresh junkB [k].prod) = .ok (tab [k] (fn1 B)).data)
include hact hφ hk hw hb

omit [IsStrictOrderedRing R] in
/-- C153 (dense layers): any weights. -/
theorem C153_dense : ConvexLayer (fun x => dense junkW junkY junkB act k x wInit bInit) [m] [k] :=
  (dense_affine junkW junkY junkB hact hk W B hw hb).convex hφ

/-- C153 (dense layers): weights that are not negative. -/
theorem C153_dense_rising (hm : Monotone φ) (h0 : ∀ l < m, ∀ j < k, 0 ≤ W l j) :
    RisingLayer (fun x => dense junkW junkY junkB act k x wInit bInit) [m] [k] :=
  (dense_affine junkW junkY junkB hact hk W B hw hb).rising hφ hm fun p hp q hq => h0 p (by simpa using hp) q (by simpa using hq)

end

theorem convWeight_nonneg (H W : Axis) {Y : Nat → Nat → Nat → Nat → R} {k e : Nat}
    (h : ∀ u < H.k, ∀ v < W.k, 0 ≤ Y u v k e) (a b i j : Nat) : 0 ≤ convWeight H W Y a b k i j e :=
  sum_nonneg fun u hu => sum_nonneg fun v hv => by
    split
    · exact h u (mem_range.1 hu) v (mem_range.1 hv)
    · exact le_refl _

section
variable (junkW junkY junkB : Nat → R) (junkI : Nat → Int) (junk : Nat → R) {act : Act R} {φ : R → R} {H W : Axis} {t : ConvLayer} {c : Nat}
  (Y : Nat → Nat → Nat → Nat → R) (B : Nat → R) {wInit bInit : Init R}

omit [IsStrictOrderedRing R] in
/-- C153 (convolution layers, `nhwc`): any weights. -/
theorem C153_conv_nhwc (hact : ActsAs act φ) (hφ : Mixes φ) (hH : AxisOK u32 H) (hW : AxisOK u32 W)
    (ht : HasAxes t H W) (hsz : [H.n, W.n, c].prod ≤ 2 ^ 31)
    (hw : wInit [H.k, W.k, c, t.filters] (fresh junkW [H.k, W.k, c, t.filters].prod) =
      .ok (tab [H.k, W.k, c, t.filters] (fn4 Y)).data)
    (hb : bInit [t.filters] (fresh junkB [t.filters].prod) = .ok (tab [t.filters] (fn1 B)).data) :
    ConvexLayer (fun x => Layers.conv .nhwc .rscd junkW junkY junkB junkI junk act t x wInit bInit)
      [H.n, W.n, c] [H.m, W.m, t.filters] :=
  (conv_affine_act junkW junkY junkB junkI junk Y B hact hH hW ht hsz hw hb).convex hφ

/-- C153 (convolution layers, `nhwc`): weights that are not negative. -/
theorem C153_conv_nhwc_rising (hact : ActsAs act φ) (hφ : Mixes φ) (hm : Monotone φ) (hH : AxisOK u32 H) (hW : AxisOK u32 W)
    (ht : HasAxes t H W) (hsz : [H.n, W.n, c].prod ≤ 2 ^ 31)
    (h0 : ∀ u < H.k, ∀ v < W.k, ∀ k < c, ∀ e < t.filters, 0 ≤ Y u v k e)
    (hw : wInit [H.k, W.k, c, t.filters] (fresh junkW [H.k, W.k, c, t.filters].prod) =
      .ok (tab [H.k, W.k, c, t.filters] (fn4 Y)).data)
    (hb : bInit [t.filters] (fresh junkB [t.filters].prod) = .ok (tab [t.filters] (fn1 B)).data) :
    RisingLayer (fun x => Layers.conv .nhwc .rscd junkW junkY junkB junkI junk act t x wInit bInit)
      [H.n, W.n, c] [H.m, W.m, t.filters] :=
  (conv_affine_act junkW junkY junkB junkI junk Y B hact hH hW ht hsz hw hb).rising hφ hm fun p hp q hq => by
    have hc : 0 < c := Nat.pos_of_ne_zero fun h => by simp [h] at hp
    have hd : 0 < t.filters := Nat.pos_of_ne_zero fun h => by simp [h] at hq
    exact convWeight_nonneg H W (fun u hu v hv => h0 u hu v hv _ (Nat.mod_lt _ hc) _ (Nat.mod_lt _ hd)) _ _ _ _

omit [IsStrictOrderedRing R] in
/-- C153 (convolution layers, `nchw`): any weights. -/
theorem C153_conv_nchw (hact : ActsAs act φ) (hφ : Mixes φ) (hH : AxisOK u32 H) (hW : AxisOK u32 W)
    (ht : HasAxes t H W)
    (hw : wInit [t.filters, c, H.k, W.k] (fresh junkW [t.filters, c, H.k, W.k].prod) =
      .ok (tab [t.filters, c, H.k, W.k] (fn4 Y)).data)
    (hb : bInit [t.filters] (fresh junkB [t.filters].prod) = .ok (tab [t.filters] (fn1 B)).data) :
    ConvexLayer (fun x => Layers.conv .nchw .dcrs junkW junkY junkB junkI junk act t x wInit bInit)
      [c, H.n, W.n] [t.filters, H.m, W.m] :=
  (conv_affine_act_nchw junkW junkY junkB junkI junk Y B hact hH hW ht hw hb).convex hφ

/-- C153 (convolution layers, `nchw`): weights that are not negative. -/
theorem C153_conv_nchw_rising (hact : ActsAs act φ) (hφ : Mixes φ) (hm : Monotone φ) (hH : AxisOK u32 H) (hW : AxisOK u32 W)
    (ht : HasAxes t H W)
    (h0 : ∀ e < t.filters, ∀ k < c, ∀ u < H.k, ∀ v < W.k, 0 ≤ Y e k u v)
    (hw : wInit [t.filters, c, H.k, W.k] (fresh junkW [t.filters, c, H.k, W.k].prod) =
      .ok (tab [t.filters, c, H.k, W.k] (fn4 Y)).data)
    (hb : bInit [t.filters] (fresh junkB [t.filters].prod) = .ok (tab [t.filters] (fn1 B)).data) :
    RisingLayer (fun x => Layers.conv .nchw .dcrs junkW junkY junkB junkI junk act t x wInit bInit)
      [c, H.n, W.n] [t.filters, H.m, W.m] :=
  (conv_affine_act_nchw junkW junkY junkB junkI junk Y B hact hH hW ht hw hb).rising hφ hm fun p hp q hq => by
    have e1 : [c, H.n, W.n].prod = c * (H.n * W.n) := by simp
    have e2 : [t.filters, H.m, W.m].prod = t.filters * (H.m * W.m) := by simp
    rw [e1] at hp
    rw [e2] at hq
    exact convWeight_nonneg H W (fun u hu v hv => h0 _ (Nat.div_lt_of_lt_mul (by rwa [mul_comm] at hq)) _
      (Nat.div_lt_of_lt_mul (by rwa [mul_comm] at hp)) u hu v hv) _ _ _ _

end

/-- C153 (activation layers). -/
theorem C153_activation (junk : Nat → R) {φ : R → R} (hφ : Mixes φ) (hm : Monotone φ) (ds : List Nat) :
    RisingLayer (activationOf junk φ) ds ds :=
  (activation_affine junk φ ds).rising hφ hm fun p _ q _ => by
    split
    · exact zero_le_one
    · exact le_refl _

theorem foldl_max_mix {s t : R} (hs : 0 ≤ s) (ht : 0 ≤ t) (L : List (Nat × Nat)) (f g h : Nat × Nat → R)
    (H : ∀ p ∈ L, h p ≤ s * f p + t * g p) : ∀ {v v1 v2 : R}, v ≤ s * v1 + t * v2 →
    (L.map h).foldl (fun v x => if x > v then x else v) v ≤
      s * (L.map f).foldl (fun v x => if x > v then x else v) v1 + t * (L.map g).foldl (fun v x => if x > v then x else v) v2 := by
  induction L with
  | nil => exact fun hv => hv
  | cons p L ih =>
    intro v v1 v2 hv
    simp only [List.map_cons, List.foldl_cons]
    refine ih (fun q hq => H q (List.mem_cons_of_mem _ hq)) ?_
    have hp := H p List.mem_cons_self
    have m1 : ∀ a b : R, a ≤ (if a > b then a else b) ∧ b ≤ if a > b then a else b := fun a b => by
      split
      · exact ⟨le_refl _, le_of_lt ‹_›⟩
      · exact ⟨le_of_not_gt ‹_›, le_refl _⟩
    have a1 := mul_le_mul_of_nonneg_left (m1 (f p) v1).1 hs
    have a2 := mul_le_mul_of_nonneg_left (m1 (f p) v1).2 hs
    have a3 := mul_le_mul_of_nonneg_left (m1 (g p) v2).1 ht
    have a4 := mul_le_mul_of_nonneg_left (m1 (g p) v2).2 ht
    split <;> linarith

theorem pool_max_mix {s t : R} (hs : 0 ≤ s) (ht : 0 ≤ t) (hst : s + t = 1) (H W : Axis) (lowest : R) (X Y Z : Nat → Nat → R)
    (h : ∀ a < H.n, ∀ b < W.n, Z a b ≤ s * X a b + t * Y a b) (i j : Nat) :
    (pixels H W Z i j).foldl (fun v x => if x > v then x else v) lowest ≤
      s * (pixels H W X i j).foldl (fun v x => if x > v then x else v) lowest +
        t * (pixels H W Y i j).foldl (fun v x => if x > v then x else v) lowest := by
  have e : ∀ X : Nat → Nat → R, pixels H W X i j = (pixels H W (fun a b => (a, b)) i j).map fun p => X p.1 p.2 := fun X =>
    pixels_map H W (fun a b => (a, b)) (fun p => X p.1 p.2) i j
  rw [e X, e Y, e Z]
  refine foldl_max_mix hs ht _ _ _ _ (fun p hp => ?_) (by rw [← add_mul, hst, one_mul])
  obtain ⟨a, b, hu, rfl⟩ := mem_pixels.1 hp
  exact h a (Under_lt hu).1 b (Under_lt hu).2

/-- C153 (max pooling layers, both layouts). -/
theorem C153_max_pool (junk : Nat → R) (lowest : R) {H W : Axis} (hH : AxisOK u32 H) (hW : AxisOK u32 W)
    {t : PoolLayer} (ht : PoolHasAxes t H W) (c : Nat) :
    RisingLayer (pool .nhwc junk (Acc.max lowest) t) [H.n, W.n, c] [H.m, W.m, c] ∧
    RisingLayer (pool .nchw junk (Acc.max lowest) t) [c, H.n, W.n] [c, H.m, W.m] := by
  constructor
  · refine ⟨fun x => fn3 fun i j k => (pixels (shifted H) (shifted W) (fun a a' => x [a, a', k]) i j).foldl
      (fun v x => if x > v then x else v) lowest, fun n X => ?_, fun {s t} hs ht hst x y o ho => ?_, fun x y hxy o ho => ?_⟩
    · rw [tab4_rows]
      refine .of (poolLayer_gen junk _ hH hW ht (n := n) (c := c) (fun l i j k => X l [i, j, k]) _
        fun b _ i _ j _ k _ => max_run _ _).1 rfl (tab_congr fun idx hv => ?_)
      match idx, hv with
      | [b, i, j, e], _ => rfl
    · match o, ho with
      | [i, j, k], _ => exact pool_max_mix hs ht hst _ _ _ _ _ _ (fun a _ b _ => le_refl _) i j
    · match o, ho with
      | [i, j, k], ho =>
        have := pool_max_mix (zero_le_one (α := R)) (le_refl (0 : R)) (add_zero 1) (shifted H) (shifted W) lowest
          (fun a a' => y [a, a', k]) (fun a a' => y [a, a', k]) (fun a a' => x [a, a', k])
          (fun a ha b hb => by
            rw [one_mul, zero_mul, add_zero]
            exact hxy _ ⟨ha, hb, ho.2.2.1, trivial⟩) i j
        simpa using this
  · refine ⟨fun x => fn3 fun k i j => (pixels (shifted H) (shifted W) (fun a a' => x [k, a, a']) i j).foldl
      (fun v x => if x > v then x else v) lowest, fun n X => ?_, fun {s t} hs ht hst x y o ho => ?_, fun x y hxy o ho => ?_⟩
    · rw [tab4_rows]
      refine .of (poolLayer_gen junk _ hH hW ht (n := n) (c := c) (fun l i j k => X l [k, i, j]) _
        fun b _ i _ j _ k _ => max_run _ _).2 rfl (tab_congr fun idx hv => ?_)
      match idx, hv with
      | [b, i, j, e], _ => rfl
    · match o, ho with
      | [k, i, j], _ => exact pool_max_mix hs ht hst _ _ _ _ _ _ (fun a _ b _ => le_refl _) i j
    · match o, ho with
      | [k, i, j], ho =>
        have := pool_max_mix (zero_le_one (α := R)) (le_refl (0 : R)) (add_zero 1) (shifted H) (shifted W) lowest
          (fun a a' => y [k, a, a']) (fun a a' => y [k, a, a']) (fun a a' => x [k, a, a'])
          (fun a ha b hb => by
            rw [one_mul, zero_mul, add_zero]
            exact hxy _ ⟨ho.1, ha, hb, trivial⟩) i j
        simpa using this

/-- C153 (mean pooling layers, both layouts), where every window sees a pixel. -/
theorem C153_mean_pool (junk : Nat → R) {H W : Axis} (hH : AxisOK u32 H) (hW : AxisOK u32 W)
    {t : PoolLayer} (ht : PoolHasAxes t H W) (hk : H.k * W.k < 2 ^ 32) (c : Nat)
    (_hne : ∀ i < H.m, ∀ j < W.m, (win (shifted H) (shifted W) i j).Nonempty) :
    RisingLayer (pool .nhwc junk (Acc.mean fun (s : R) n => s / n) t) [H.n, W.n, c] [H.m, W.m, c] ∧
    RisingLayer (pool .nchw junk (Acc.mean fun (s : R) n => s / n) t) [c, H.n, W.n] [c, H.m, W.m] := by
  have := mean_affine (R := R) junk hH hW ht hk c
  have h0 : ∀ i j a b, (0 : R) ≤ meanWeight (shifted H) (shifted W) i j a b := fun i j a b =>
    div_nonneg (Nat.cast_nonneg _) (Nat.cast_nonneg _)
  refine ⟨this.1.rising mixes_id monotone_id fun p _ q _ => ?_, this.2.rising mixes_id monotone_id fun p _ q _ => ?_⟩
  · split
    · exact h0 _ _ _ _
    · exact le_refl _
  · split
    · exact h0 _ _ _ _
    · exact le_refl _

section
variable (sqrt : R → R) (eps : R) (junkM junkV junkB junkG junkY : Nat → R) {act : Act R} {φ : R → R} {h w c : Nat}
  (M V β γ : Nat → R) {meanInit varInit betaInit gammaInit : Init R}

/-- C153 (batch normalisation layers, `nhwc`): scales that are not negative. -/
theorem C153_bn_nhwc (hact : ActsAs act φ) (hφ : Mixes φ) (hm : Monotone φ)
    (h1 : meanInit [c] (fresh junkM [c].prod) = .ok (tab [c] (fn1 M)).data)
    (h2 : varInit [c] (fresh junkV [c].prod) = .ok (tab [c] (fn1 V)).data)
    (h3 : betaInit [c] (fresh junkB [c].prod) = .ok (tab [c] (fn1 β)).data)
    (h4 : gammaInit [c] (fresh junkG [c].prod) = .ok (tab [c] (fn1 γ)).data) (hs : ∀ k < c, 0 < sqrt (V k) + eps)
    (hγ : ∀ k < c, 0 ≤ γ k) :
    RisingLayer (fun x => Layers.batchNorm sqrt eps .nhwc junkM junkV junkB junkG junkY act x meanInit varInit betaInit
      gammaInit) [h, w, c] [h, w, c] :=
  (bn_affine_nhwc sqrt eps junkM junkV junkB junkG junkY M V β γ hact h1 h2 h3 h4).rising hφ hm fun p _ q hq => by
    have hc : 0 < c := Nat.pos_of_ne_zero fun h => by simp [h] at hq
    split
    · exact div_nonneg (hγ _ (Nat.mod_lt _ hc)) (hs _ (Nat.mod_lt _ hc)).le
    · exact le_refl _

/-- C153 (batch normalisation layers, `nchw`): scales that are not negative. -/
theorem C153_bn_nchw (hact : ActsAs act φ) (hφ : Mixes φ) (hm : Monotone φ)
    (h1 : meanInit [c] (fresh junkM [c].prod) = .ok (tab [c] (fn1 M)).data)
    (h2 : varInit [c] (fresh junkV [c].prod) = .ok (tab [c] (fn1 V)).data)
    (h3 : betaInit [c] (fresh junkB [c].prod) = .ok (tab [c] (fn1 β)).data)
    (h4 : gammaInit [c] (fresh junkG [c].prod) = .ok (tab [c] (fn1 γ)).data) (hs : ∀ k < c, 0 < sqrt (V k) + eps)
    (hγ : ∀ k < c, 0 ≤ γ k) :
    RisingLayer (fun x => Layers.batchNorm sqrt eps .nchw junkM junkV junkB junkG junkY act x meanInit varInit betaInit
      gammaInit) [c, h, w] [c, h, w] :=
  (bn_affine_nchw sqrt eps junkM junkV junkB junkG junkY M V β γ hact h1 h2 h3 h4).rising hφ hm fun p _ q hq => by
    have e : [c, h, w].prod = c * (h * w) := by simp
    rw [e, mul_comm] at hq
    split
    · exact div_nonneg (hγ _ (Nat.div_lt_of_lt_mul hq)) (hs _ (Nat.div_lt_of_lt_mul hq)).le
    · exact le_refl _

end

/-! ## Negative weights -/

omit [LinearOrder R] [IsStrictOrderedRing R] in
theorem activation_gives (junk : Nat → R) (φ : R → R) (ds : List Nat) (x : List Nat → R) :
    Gives (activationOf junk φ) (tab ds x) (tab ds fun i => φ (x i)) := by
  refine .of (activationOf_run junk φ _ (by simp)) rfl ?_
  simp [tab]

/-- C153 (the weights matter): `relu` of the input, then the weight -1, is not convex. -/
theorem C153_negative (junk : Nat → R) :
    ¬ ConvexLayer (composed (activationOf junk fun a : R => if 0 < a then a else 0)
      (fun x => dense junk junk junk noopAct 1 x (exInit (fn2 fun _ _ => -1)) (exInit (fn1 fun _ => 0)))) [1] [1] := by
  rintro ⟨G, g1, g2⟩
  have val : ∀ a : R, G (fun _ => a) [0] = -(if 0 < a then a else 0) := fun a => by
    have h := g1 1 fun _ _ => a
    have h0 := activation_gives junk (fun a : R => if 0 < a then a else 0) [1, 1] fun _ => a
    have h' := Gives.comp h0
      (dense_affine junk junk junk noop_acts (m := 1) (k := 1) (by decide) (fun _ _ => (-1 : R)) (fun _ => 0)
        (wInit := exInit (fn2 fun _ _ => -1)) (bInit := exInit (fn1 fun _ => 0)) rfl rfl 1
        fun _ _ => if 0 < a then a else 0)
    have := tab_eq_iff.1 (h.unique h') [0, 0] ⟨by decide, by decide, trivial⟩
    simpa [affineMap, offset, unravel] using this
  have := g2 (by norm_num : (0 : R) ≤ 1 / 2) (by norm_num : (0 : R) ≤ 1 / 2) (by norm_num) (fun _ => 1) (fun _ => -1) [0]
    ⟨by decide, trivial⟩
  have e : (1 / 2 * 1 + 1 / 2 * (-1) : R) = 0 := by norm_num
  simp only [e, val] at this
  norm_num at this

/-! ## Concrete cases -/

/-- A dense layer with weights of both signs and `relu`, then one without negative weights. -/
theorem exConvexNet : ConvexLayer (composed
    (fun x => dense (fun _ => (1 : ℚ)) (fun _ => 2) (fun _ => 3) reluAct 3 x (exInit (fn2 fun l j => (l : ℚ) - j)) (exInit (fn1 fun j => 1 - j)))
    (fun x => dense (fun _ => (4 : ℚ)) (fun _ => 5) (fun _ => 6) noopAct 2 x (exInit (fn2 fun l j => (l : ℚ) * j)) (exInit (fn1 fun j => j - 7))))
    [2] [2] :=
  C153_composed (C153_dense _ _ _ relu_acts mixes_relu (by decide) (fun l j => (l : ℚ) - j) (fun j => 1 - j) rfl rfl)
    (C153_dense_rising _ _ _ noop_acts mixes_id (by decide) (fun l j => (l : ℚ) * j) (fun j => j - 7) rfl rfl monotone_id
      fun l _ j _ => by positivity)

example := C153_mixture exConvexNet (s := 1 / 3) (t := 2 / 3) (by norm_num) (by norm_num) (by norm_num) 4
  (fun b i => (b : ℚ) - i.headD 0) fun b i => (b : ℚ) * i.headD 0

/-- `relu` of one number is least at -5, where it is least nearby. -/
example := C153_minimum (R := ℚ) (C153_activation (fun _ => 7) mixes_relu relu_rises [1]).convex (o := [0]) ⟨by decide, trivial⟩
  (x := fun _ => -5) (y := fun _ => 0) (activation_gives (fun _ => (7 : ℚ)) (fun a => if 0 < a then a else 0) [1, 1] fun _ => -5) (ε := 1) (by norm_num) (fun x' y' _ h => by
    have := tab_eq_iff.1 (h.unique (activation_gives (fun _ => (7 : ℚ)) (fun a => if 0 < a then a else 0) [1, 1] fun idx => x' idx.tail))
      [0, 0] ⟨by decide, by decide, trivial⟩
    simp only [List.tail_cons] at this
    show 0 ≤ y' [0]
    rw [this]
    by_cases hx : 0 < x' [0]
    · exact (if_pos hx).symm ▸ hx.le
    · exact (if_neg hx).ge)
  (x' := fun _ => 4) (y' := fun _ => 4) (by
    have := activation_gives (fun _ => (7 : ℚ)) (fun a => if 0 < a then a else 0) [1, 1] fun _ => 4
    simpa using this)
example := C153_composed_rising (C153_activation (fun _ => (7 : ℚ)) mixes_relu relu_rises [3, 4, 2])
  (C153_activation (fun _ => (8 : ℚ)) mixes_relu relu_rises [3, 4, 2])
example := C153_sequential (fun _ => (1 : ℚ)) _ [activationOf (fun _ => 7) fun a => if 0 < a then a else 0, activationOf (fun _ => 7) id] [2]
  (fun _ => [2]) exConvexNet fun i hi => by
  match i, hi with
  | 0, _ => exact C153_activation _ mixes_relu relu_rises _
  | 1, _ => exact C153_activation _ mixes_id monotone_id _
example := C153_conv_nhwc (fun _ => 1) (fun _ => 2) (fun _ => 3) (fun _ => 4) (fun _ => 5) (fun r s k e => (r : ℚ) - s + k * e)
  (fun e => 9 * e) relu_acts mixes_relu exL_ok exW_ok exLayer_axes (c := 3) (by decide)
  (wInit := exInit (fn4 fun r s k e => (r : ℚ) - s + k * e)) (bInit := exInit (fn1 fun e => (9 : ℚ) * e)) rfl rfl
example := C153_conv_nhwc_rising (fun _ => 1) (fun _ => 2) (fun _ => 3) (fun _ => 4) (fun _ => 5) (fun r s k e => (r : ℚ) + s + k * e)
  (fun e => -9 * e) relu_acts mixes_relu relu_rises exL_ok exW_ok exLayer_axes (c := 3) (by decide)
  (fun u _ v _ k _ e _ => by positivity)
  (wInit := exInit (fn4 fun r s k e => (r : ℚ) + s + k * e)) (bInit := exInit (fn1 fun e => (-9 : ℚ) * e)) rfl rfl
example := C153_conv_nchw (fun _ => 1) (fun _ => 2) (fun _ => 3) (fun _ => 4) (fun _ => 5) (fun e k r s => (r : ℚ) - s + k * e)
  (fun e => 9 * e) relu_acts mixes_relu exL_ok exW_ok exLayer_axes (c := 3)
  (wInit := exInit (fn4 fun e k r s => (r : ℚ) - s + k * e)) (bInit := exInit (fn1 fun e => (9 : ℚ) * e)) rfl rfl
example := C153_conv_nchw_rising (fun _ => 1) (fun _ => 2) (fun _ => 3) (fun _ => 4) (fun _ => 5) (fun e k r s => (r : ℚ) + s + k * e)
  (fun e => -9 * e) relu_acts mixes_relu relu_rises exL_ok exW_ok exLayer_axes (c := 3) (fun e _ k _ u _ v _ => by positivity)
  (wInit := exInit (fn4 fun e k r s => (r : ℚ) + s + k * e)) (bInit := exInit (fn1 fun e => (-9 : ℚ) * e)) rfl rfl
example := C153_max_pool (R := ℚ) (fun _ => 1) (-128) exPadH_ok exPadW_ok exPad_axes 3
example := C153_mean_pool (R := ℚ) (fun _ => 1) exPoolH_ok exPoolW_ok exPool_axes (by decide) 3 (by decide)
example := C153_bn_nhwc id (1 / 8) (fun _ => 1) (fun _ => 2) (fun _ => 3) (fun _ => 4) (fun _ => 5) (h := 2) (w := 3) (c := 2)
  (fun k => (k : ℚ)) (fun k => 1 + k) (fun k => 2 - k) (fun k => 3 * k) relu_acts mixes_relu relu_rises
  (meanInit := exInit (fn1 fun k => k))
  (varInit := exInit (fn1 fun k => 1 + k)) (betaInit := exInit (fn1 fun k => 2 - k)) (gammaInit := exInit (fn1 fun k => 3 * k))
  rfl rfl rfl rfl (fun k _ => by show 0 < (1 + (k : ℚ)) + 1 / 8; positivity) fun k _ => by positivity
example := C153_bn_nchw id (1 / 8) (fun _ => 1) (fun _ => 2) (fun _ => 3) (fun _ => 4) (fun _ => 5) (h := 2) (w := 3) (c := 2)
  (fun k => (k : ℚ)) (fun k => 1 + k) (fun k => 2 - k) (fun k => 3 * k) relu_acts mixes_relu relu_rises
  (meanInit := exInit (fn1 fun k => k))
  (varInit := exInit (fn1 fun k => 1 + k)) (betaInit := exInit (fn1 fun k => 2 - k)) (gammaInit := exInit (fn1 fun k => 3 * k))
  rfl rfl rfl rfl (fun k _ => by show 0 < (1 + (k : ℚ)) + 1 / 8; positivity) fun k _ => by positivity

end StdNN
