import Verif.Props.RoundingLayers
import Mathlib.Combinatorics.Pigeonhole
import Mathlib.Data.Fintype.BigOperators
/-!
# C152: networks without activation functions are one dense layer, and how many dense layers make a network with them
-/
namespace StdNN
open IntTy Spec Outcome Finset Models Layers
variable {R : Type}

/-! ## Specification -/

/-- The example that a dense layer with weights `W` and bias `B` makes of the elements of `x` in row-major order, seen with
shape `es`. -/
def affineMap [Semiring R] (ds es : List Nat) (W : Nat → Nat → R) (B : Nat → R) (x : List Nat → R) (o : List Nat) : R :=
  ∑ p ∈ range ds.prod, x (unravel ds p) * W p (offset es o) + B (offset es o)

/-- On examples of shape `ds` the layer `f` treats the examples of a batch separately, and there are `N` dense layers such
that its output for each example is that of one of them. -/
def Pieces [Semiring R] (f : LayerFn R) (ds es : List Nat) (N : Nat) : Prop :=
  ∃ G : (List Nat → R) → List Nat → R, PerExample f ds es G ∧
    ∃ (W : Fin N → Nat → Nat → R) (B : Fin N → Nat → R), ∀ x, ∃ q, ∀ o, Valid es o → G x o = affineMap ds es (W q) (B q) x o

/-- The function is made of `K` straight lines. -/
def Lines [Semiring R] (f : R → R) (K : Nat) : Prop := ∃ α β : Fin K → R, ∀ a, ∃ r, f a = α r * a + β r

theorem id_lines [Semiring R] : Lines (id : R → R) 1 := ⟨fun _ => 1, fun _ => 0, fun a => ⟨0, by simp⟩⟩

theorem relu_lines [Semiring R] [LT R] [DecidableLT R] : Lines (fun a : R => if 0 < a then a else 0) 2 :=
  ⟨![1, 0], fun _ => 0, fun a => by
    by_cases h : 0 < a
    · exact ⟨0, by simp [h]⟩
    · exact ⟨1, by simp [h]⟩⟩

/-! ## Networks -/

section
variable [Semiring R]

/-- The pieces may be numbered by any finite type. -/
theorem Pieces.of {f : LayerFn R} {ds es : List Nat} {G : (List Nat → R) → List Nat → R} (h : PerExample f ds es G)
    {ι : Type} [Fintype ι] (W : ι → Nat → Nat → R) (B : ι → Nat → R)
    (hp : ∀ x, ∃ q, ∀ o, Valid es o → G x o = affineMap ds es (W q) (B q) x o) : Pieces f ds es (Fintype.card ι) :=
  ⟨G, h, fun q => W ((Fintype.equivFin ι).symm q), fun q => B ((Fintype.equivFin ι).symm q), fun x => by
    obtain ⟨q, hq⟩ := hp x
    exact ⟨Fintype.equivFin ι q, by simpa using hq⟩⟩

theorem affineMap_comp (ds es fs : List Nat) (W : Nat → Nat → R) (B : Nat → R) (W' : Nat → Nat → R) (B' : Nat → R)
    (x : List Nat → R) {y : List Nat → R} (hy : ∀ o, Valid es o → y o = affineMap ds es W B x o) (o : List Nat) :
    affineMap es fs W' B' y o = affineMap ds fs (fun p q => ∑ r ∈ range es.prod, W p r * W' r q)
      (fun q => ∑ r ∈ range es.prod, B r * W' r q + B' q) x o := by
  unfold affineMap
  have : ∀ r ∈ range es.prod, y (unravel es r) * W' r (offset fs o) =
      ∑ p ∈ range ds.prod, x (unravel ds p) * (W p r * W' r (offset fs o)) + B r * W' r (offset fs o) := fun r hr => by
    have hr' := mem_range.1 hr
    rw [hy _ (valid_unravel hr'), affineMap, offset_unravel hr', add_mul, sum_mul]
    simp only [mul_assoc]
  rw [sum_congr rfl this, sum_add_distrib, sum_comm, add_assoc]
  simp only [mul_sum]

/-- C152 (networks): one layer after the other; the numbers of pieces multiply. -/
theorem C152_composed {f g : LayerFn R} {ds es fs : List Nat} {N M : Nat} (hf : Pieces f ds es N) (hg : Pieces g es fs M) :
    Pieces (composed f g) ds fs (N * M) := by
  obtain ⟨F, f1, W, B, f2⟩ := hf
  obtain ⟨G, g1, W', B', g2⟩ := hg
  have := Pieces.of (ι := Fin N × Fin M) (f := composed f g) (ds := ds) (es := fs) (G := fun x => G (F x))
    (fun n X => (f1 n X).comp (g1 n fun b => F (X b))) (fun q => fun p r => ∑ s ∈ range es.prod, W q.1 p s * W' q.2 s r)
    (fun q r => ∑ s ∈ range es.prod, B q.1 s * W' q.2 s r + B' q.2 r) fun x => by
      obtain ⟨q, hq⟩ := f2 x
      obtain ⟨q', hq'⟩ := g2 (F x)
      exact ⟨(q, q'), fun o ho => (hq' o ho).trans (affineMap_comp ds es fs _ _ _ _ x hq o)⟩
  simpa using this

/-- C152 (sequential models): `shapes i` is the shape of the examples before layer `i`, `N i` the number of pieces of layer
`i`. -/
theorem C152_sequential (junk : Nat → R) (ls : List (LayerFn R)) (shapes : Nat → List Nat) (N : Nat → Nat)
    (h : ∀ i (hi : i < ls.length), Pieces ls[i] (shapes i) (shapes (i + 1)) (N i)) :
    Pieces (sequential junk ls) (shapes 0) (shapes ls.length) (∏ i ∈ range ls.length, N i) := by
  induction ls using List.reverseRecOn with
  | nil =>
    refine ⟨fun x => x, fun n X => ⟨[], identity_run junk (tab_wf _ _)⟩, fun _ p q => if p = q then 1 else 0, fun _ _ => 0,
      fun x => ⟨⟨0, by simp⟩, fun o ho => ?_⟩⟩
    have ho' : Valid (shapes 0) o := ho
    unfold affineMap
    have e : offset (shapes ([] : List (LayerFn R)).length) o = offset (shapes 0) o := rfl
    rw [e, sum_eq_single (offset (shapes 0) o) (fun b _ hb => by simp [hb])
      (fun hb => absurd (mem_range.2 (offset_lt ho')) hb), unravel_offset ho']
    simp
  | append_singleton ls l ih =>
    rw [sequential_snoc]
    have hl := h ls.length (by simp)
    simp only [List.getElem_append_right (le_refl _), Nat.sub_self, List.getElem_cons_zero] at hl
    have := ih fun i hi => by
      have := h i (by simp; omega)
      rwa [List.getElem_append_left hi] at this
    simpa [prod_range_succ] using C152_composed this hl

omit [Semiring R] in
/-- The same data seen with other dimensions. -/
theorem tab_reshape (n : Nat) {ds es : List Nat} (hp : es.prod = ds.prod) (X : Nat → List Nat → R) :
    (⟨n :: es, (tab (n :: ds) fun idx => X (idx.headD 0) idx.tail).data⟩ : Tensor R) =
      tab (n :: es) fun idx => X (idx.headD 0) (unravel ds (offset es idx.tail)) := by
  have : (tab (n :: ds) fun idx => X (idx.headD 0) idx.tail).data =
      (tab (n :: es) fun idx => X (idx.headD 0) (unravel ds (offset es idx.tail))).data := by
    refine data_eq_tab (by simp [hp]) fun idx hv => ?_
    match idx, hv with
    | b :: i, hv =>
      have hi : offset es i < ds.prod := by rw [← hp]; exact offset_lt hv.2
      have := tab_getElem? (dims := n :: ds) (idx := b :: unravel ds (offset es i)) (fun idx => X (idx.headD 0) idx.tail)
        ⟨hv.1, valid_unravel hi⟩
      rw [offset_cons, offset_unravel hi] at this
      rw [offset_cons, hp]
      simpa using this
  rw [this]
  rfl

/-- C152 (flattening): a layer applied to the same examples seen with other dimensions, as between convolutions and dense
layers. -/
theorem C152_reshape {f : LayerFn R} {ds es fs : List Nat} (hp : es.prod = ds.prod) {N : Nat} (hf : Pieces f es fs N) :
    Pieces (fun x => f ⟨x.dims.headD 0 :: es, x.data⟩) ds fs N := by
  obtain ⟨G, g1, W, B, g2⟩ := hf
  refine ⟨fun x => G fun i => x (unravel ds (offset es i)), fun n X => ?_, W, B, fun x => ?_⟩
  · have := g1 n fun b i => X b (unravel ds (offset es i))
    rw [← tab_reshape n hp] at this
    exact this
  · obtain ⟨q, hq⟩ := g2 fun i => x (unravel ds (offset es i))
    refine ⟨q, fun o ho => ?_⟩
    refine (hq o ho).trans ?_
    rw [affineMap, affineMap, hp]
    congr 1
    refine sum_congr rfl fun p hp' => ?_
    rw [offset_unravel (by rw [hp]; exact mem_range.1 hp')]

end

/-! ## What it means -/

section
variable [Semiring R]

/-- C152 (one dense layer): a network with one piece gives for every batch what one dense layer gives. -/
theorem C152_one_layer {f : LayerFn R} {ds es : List Nat} (h : Pieces f ds es 1) (hk : es.prod < 2 ^ 32) :
    ∃ (W : Nat → Nat → R) (B : Nat → R), ∀ (junkW junkY junkB : Nat → R) (wInit bInit : Init R),
      wInit [ds.prod, es.prod] (fresh junkW [ds.prod, es.prod].prod) = .ok (tab [ds.prod, es.prod] (fn2 W)).data →
      bInit [es.prod] (fresh junkB [es.prod].prod) = .ok (tab [es.prod] (fn1 B)).data →
      ∀ (n : Nat) (x : List R), x.length = n * ds.prod →
        ∃ y : List R, Gives f ⟨n :: ds, x⟩ ⟨n :: es, y⟩ ∧
          Gives (fun x => dense junkW junkY junkB noopAct es.prod x wInit bInit) ⟨[n, ds.prod], x⟩ ⟨[n, es.prod], y⟩ := by
  obtain ⟨G, g1, W, B, g2⟩ := h
  refine ⟨W 0, B 0, fun junkW junkY junkB wInit bInit hw hb n x hx => ?_⟩
  obtain ⟨X, rfl⟩ := tab_rows hx
  refine ⟨(tab (n :: es) fun idx => G (X (idx.headD 0)) idx.tail).data, g1 n X, ?_⟩
  have e := C77_dense junkW junkY junkB noop_acts (n := n) hk (fun i l => X i (unravel ds l)) (W 0) (B 0) hw hb
  have e1 := tab_reshape n (ds := ds) (es := [ds.prod]) (by simp) X
  rw [e1]
  have e2 := tab_reshape n (ds := es) (es := [es.prod]) (by simp) fun b => G (X b)
  rw [e2]
  have e3 : (tab [n, ds.prod] fun idx => X (idx.headD 0) (unravel ds (offset [ds.prod] idx.tail))) =
      tab [n, ds.prod] (fn2 fun i l => X i (unravel ds l)) := tab_congr fun idx hv => by
    match idx, hv with
    | [i, l], _ => simp
  rw [e3]
  refine .of e rfl (tab_congr fun idx hv => ?_)
  match idx, hv with
  | [i, j], hv =>
    have hj : j < es.prod := hv.2.1
    obtain ⟨q, hq⟩ := g2 (X i)
    have : q = 0 := Subsingleton.elim _ _
    subst this
    have := hq (unravel es j) (valid_unravel hj)
    rw [affineMap, offset_unravel hj] at this
    simp [this, seqSum_eq_sum]

/-- C152 (finitely many dense layers): for each example one of the `N` dense layers gives the output of the network. -/
theorem C152_layers {f : LayerFn R} {ds es : List Nat} {N : Nat} (h : Pieces f ds es N) (hk : es.prod < 2 ^ 32) :
    ∃ (W : Fin N → Nat → Nat → R) (B : Fin N → Nat → R), ∀ x : List R, x.length = ds.prod →
      ∃ (q : Fin N) (y : List R), Gives f ⟨1 :: ds, x⟩ ⟨1 :: es, y⟩ ∧
        ∀ (junkW junkY junkB : Nat → R) (wInit bInit : Init R),
          wInit [ds.prod, es.prod] (fresh junkW [ds.prod, es.prod].prod) = .ok (tab [ds.prod, es.prod] (fn2 (W q))).data →
          bInit [es.prod] (fresh junkB [es.prod].prod) = .ok (tab [es.prod] (fn1 (B q))).data →
          Gives (fun x => dense junkW junkY junkB noopAct es.prod x wInit bInit) ⟨[1, ds.prod], x⟩ ⟨[1, es.prod], y⟩ := by
  obtain ⟨G, g1, W, B, g2⟩ := h
  refine ⟨W, B, fun x hx => ?_⟩
  obtain ⟨X, rfl⟩ := tab_rows (a := 1) (by simpa using hx)
  obtain ⟨q, hq⟩ := g2 (X 0)
  refine ⟨q, (tab (1 :: es) fun idx => G (X (idx.headD 0)) idx.tail).data, g1 1 X, fun junkW junkY junkB wInit bInit hw hb => ?_⟩
  have e := C77_dense junkW junkY junkB noop_acts (n := 1) hk (fun i l => X i (unravel ds l)) (W q) (B q) hw hb
  rw [tab_reshape 1 (ds := ds) (es := [ds.prod]) (by simp) X, tab_reshape 1 (ds := es) (es := [es.prod]) (by simp) fun b => G (X b)]
  have e3 : (tab [1, ds.prod] fun idx => X (idx.headD 0) (unravel ds (offset [ds.prod] idx.tail))) =
      tab [1, ds.prod] (fn2 fun i l => X i (unravel ds l)) := tab_congr fun idx hv => by
    match idx, hv with
    | [i, l], _ => simp
  rw [e3]
  refine .of e rfl (tab_congr fun idx hv => ?_)
  match idx, hv with
  | [i, j], hv =>
    have hj : j < es.prod := hv.2.1
    have hi : i = 0 := by have : i < 1 := hv.1; omega
    subst hi
    have := hq (unravel es j) (valid_unravel hj)
    rw [affineMap, offset_unravel hj] at this
    simp [this, seqSum_eq_sum]

end

/-! ## Layers -/

section
variable [CommSemiring R]

/-- Every element of the output is one of `K` affine functions of the example. -/
theorem pieces_select {f : LayerFn R} {ds es : List Nat} {G : (List Nat → R) → List Nat → R} (h : PerExample f ds es G) {K : Nat}
    (w : Fin K → Nat → Nat → R) (b : Fin K → Nat → R)
    (hs : ∀ x o, Valid es o → ∃ r, G x o = affineMap ds es (w r) (b r) x o) : Pieces f ds es (K ^ es.prod) := by
  have := Pieces.of (ι := Fin es.prod → Fin K) h
    (fun q p t => if ht : t < es.prod then w (q ⟨t, ht⟩) p t else 0) (fun q t => if ht : t < es.prod then b (q ⟨t, ht⟩) t else 0)
    fun x => by
      choose r hr using fun t : Fin es.prod => hs x (unravel es t) (valid_unravel t.2)
      refine ⟨r, fun o ho => ?_⟩
      have := hr ⟨offset es o, offset_lt ho⟩
      simp only [unravel_offset ho] at this
      rw [this, affineMap, affineMap]
      simp only [dif_pos (offset_lt ho)]
  simpa using this

/-- The same, after an activation made of `K` lines. -/
theorem pieces_act {f : LayerFn R} {ds es : List Nat} {G : (List Nat → R) → List Nat → R} {φ : R → R} {K : Nat} (hφ : Lines φ K)
    (h : PerExample f ds es fun x o => φ (G x o)) (w : Nat → Nat → R) (b : Nat → R)
    (hs : ∀ x o, Valid es o → G x o = affineMap ds es w b x o) : Pieces f ds es (K ^ es.prod) := by
  obtain ⟨α, β, hl⟩ := hφ
  refine pieces_select h (fun r p t => α r * w p t) (fun r t => α r * b t + β r) fun x o ho => ?_
  obtain ⟨r, hr⟩ := hl (G x o)
  refine ⟨r, hr.trans ?_⟩
  rw [hs x o ho, affineMap, affineMap, mul_add, mul_sum, add_assoc]
  congr 1
  exact sum_congr rfl fun p _ => by ring

/-- The layer applies `φ` to what a dense layer with weights `w` and bias `b` computes. -/
def AffineAct (f : LayerFn R) (ds es : List Nat) (φ : R → R) (w : Nat → Nat → R) (b : Nat → R) : Prop :=
  PerExample f ds es fun x o => φ (affineMap ds es w b x o)

theorem AffineAct.of {f : LayerFn R} {ds es : List Nat} {G : (List Nat → R) → List Nat → R} {φ : R → R}
    (h : PerExample f ds es fun x o => φ (G x o)) (w : Nat → Nat → R) (b : Nat → R)
    (hs : ∀ x o, Valid es o → G x o = affineMap ds es w b x o) : AffineAct f ds es φ w b := fun n X => by
  have e : (tab (n :: es) fun idx => φ (affineMap ds es w b (X (idx.headD 0)) idx.tail)) =
      tab (n :: es) fun idx => φ (G (X (idx.headD 0)) idx.tail) := tab_congr fun idx hv => by
    match idx, hv with
    | _ :: o, hv => exact congrArg φ (hs _ o hv.2).symm
  show Gives f _ (tab (n :: es) fun idx => φ (affineMap ds es w b (X (idx.headD 0)) idx.tail))
  rw [e]
  exact h n X

theorem AffineAct.pieces {f : LayerFn R} {ds es : List Nat} {φ : R → R} {w : Nat → Nat → R} {b : Nat → R}
    (h : AffineAct f ds es φ w b) {K : Nat} (hφ : Lines φ K) : Pieces f ds es (K ^ es.prod) :=
  pieces_act hφ h w b fun _ _ _ => rfl

theorem dense_affine (junkW junkY junkB : Nat → R) {act : Act R} {φ : R → R} (hact : ActsAs act φ)
    {m k : Nat} (hk : k < 2 ^ 32) (W : Nat → Nat → R) (B : Nat → R) {wInit bInit : Init R}
    (hw : wInit [m, k] (fresh junkW [m, k].prod) = .ok (tab [m, k] (fn2 W)).data)
    (hb : bInit [k] (fresh junkB [k].prod) = .ok (tab [k] (fn1 B)).data) :
    AffineAct (fun x => dense junkW junkY junkB act k x wInit bInit) [m] [k] φ W B := by
  refine .of (G := fun x => fn1 fun j => ∑ l ∈ range m, x [l] * W l j + B j) (fun n X => ?_) W B fun x o ho => ?_
  · have e := C77_dense junkW junkY junkB hact (n := n) hk (fun i l => X i [l]) W B hw hb
    have e1 : (tab [n, m] fun idx => X (idx.headD 0) idx.tail) = tab [n, m] (fn2 fun i l => X i [l]) := by
      refine tab_congr fun idx hv => ?_
      match idx, hv with
      | [i, j], _ => rfl
    rw [e1]
    refine .of e rfl (tab_congr fun idx hv => ?_)
    match idx, hv with
    | [i, j], _ => simp [seqSum_eq_sum]
  · match o, ho with
    | [j], _ => simp [affineMap, unravel]

/-- C152 (dense layers), with an activation of `K` lines: `K = 1` for none, `K = 2` for `relu`. -/
theorem C152_dense (junkW junkY junkB : Nat → R) {act : Act R} {φ : R → R} (hact : ActsAs act φ) {K : Nat} (hφ : Lines φ K)
    {m k : Nat} (hk : k < 2 ^ 32) (W : Nat → Nat → R) (B : Nat → R) {wInit bInit : Init R}
    (hw : wInit [m, k] (fresh junkW [m, k].prod) = .ok (tab [m, k] (fn2 W)).data)
    (hb : bInit [k] (fresh junkB [k].prod) = .ok (tab [k] (fn1 B)).data) :
    Pieces (fun x => dense junkW junkY junkB act k x wInit bInit) [m] [k] (K ^ k) := by
  simpa using (dense_affine junkW junkY junkB hact hk W B hw hb).pieces hφ

/-- The weight with which pixel `(a, b)` of channel `k` enters output `(i, j)` of filter `e`: the element of the filter whose
tap falls on the pixel, if there is one. -/
def convWeight (H W : Axis) (Y : Nat → Nat → Nat → Nat → R) (a b k i j e : Nat) : R :=
  ∑ u ∈ range H.k, ∑ v ∈ range W.k, if H.Hits i u a ∧ W.Hits j v b then Y u v k e else 0

theorem conv2_weights (H W : Axis) (c : Nat) (X : Nat → Nat → Nat → R) (Y : Nat → Nat → Nat → Nat → R) (i j e : Nat) :
    conv2 H W c X Y i j e =
      ∑ a ∈ range H.n, ∑ b ∈ range W.n, ∑ k ∈ range c, X a b k * convWeight H W Y a b k i j e := by
  unfold conv2 convWeight
  simp only [window_sum, sum_mul, mul_sum]
  have t : ∀ (p : Prop) [Decidable p] (x y : R), (if p then x else 0) * y = x * if p then y else 0 := fun p _ x y => by
    split <;> simp
  simp only [t]
  calc _ = ∑ u ∈ range H.k, ∑ v ∈ range W.k, ∑ a ∈ range H.n, ∑ b ∈ range W.n, ∑ k ∈ range c,
        X a b k * (if H.Hits i u a ∧ W.Hits j v b then Y u v k e else 0) := by
        refine sum_congr rfl fun u _ => sum_congr rfl fun v _ => ?_
        rw [sum_comm]
        exact sum_congr rfl fun a _ => sum_comm
    _ = ∑ u ∈ range H.k, ∑ a ∈ range H.n, ∑ b ∈ range W.n, ∑ k ∈ range c, ∑ v ∈ range W.k,
        X a b k * (if H.Hits i u a ∧ W.Hits j v b then Y u v k e else 0) := by
        refine sum_congr rfl fun u _ => ?_
        rw [sum_comm]
        refine sum_congr rfl fun a _ => ?_
        rw [sum_comm]
        refine sum_congr rfl fun b _ => sum_comm
    _ = _ := by
        rw [sum_comm]
        refine sum_congr rfl fun a _ => ?_
        rw [sum_comm]
        refine sum_congr rfl fun b _ => sum_comm

/-- A tap falls on at most one pixel and, if the taps are apart, at most one tap falls on a pixel: the weight is one element
of the filter or zero. -/
theorem C152_shared {H W : Axis} (hH : 0 < H.r) (hW : 0 < W.r) (Y : Nat → Nat → Nat → Nat → R) (a b k i j e : Nat) :
    (∀ u < H.k, ∀ v < W.k, H.Hits i u a → W.Hits j v b → convWeight H W Y a b k i j e = Y u v k e) ∧
    ((∀ u < H.k, ∀ v < W.k, ¬ (H.Hits i u a ∧ W.Hits j v b)) → convWeight H W Y a b k i j e = 0) := by
  constructor
  · intro u hu v hv h1 h2
    have inj : ∀ (A : Axis) (_ : 0 < A.r) {i u u' a : Nat}, A.Hits i u a → A.Hits i u' a → u = u' := by
      intro A hA i u u' a h h'
      have : A.pos i u = A.pos i u' := h.2.trans h'.2.symm
      simp only [Axis.pos] at this
      have : u * A.r = u' * A.r := by omega
      exact Nat.eq_of_mul_eq_mul_right hA this
    unfold convWeight
    rw [sum_eq_single u, sum_eq_single v]
    · rw [if_pos ⟨h1, h2⟩]
    · exact fun v' _ hne => if_neg fun c => hne (inj W hW c.2 h2)
    · exact fun hn => absurd (mem_range.2 hv) hn
    · exact fun u' _ hne => sum_eq_zero fun v' _ => if_neg fun c => hne (inj H hH c.1 h1)
    · exact fun hn => absurd (mem_range.2 hu) hn
  · exact fun h => sum_eq_zero fun u hu => sum_eq_zero fun v hv => if_neg (h u (mem_range.1 hu) v (mem_range.1 hv))

end

section
variable [CommSemiring R] (junkW junkY junkB : Nat → R) (junkI : Nat → Int) (junk : Nat → R) {act : Act R} {φ : R → R} {K : Nat}
  {H W : Axis} {t : ConvLayer} {c : Nat} (Y : Nat → Nat → Nat → Nat → R) (B : Nat → R) {wInit bInit : Init R}

/-- The weights of the dense layer that a convolution layer is, `nhwc`. -/
def toeplitz (H W : Axis) (c d : Nat) (Y : Nat → Nat → Nat → Nat → R) (p q : Nat) : R :=
  convWeight H W Y (p / (W.n * c)) (p % (W.n * c) / c) (p % (W.n * c) % c) (q / (W.m * d)) (q % (W.m * d) / d) (q % (W.m * d) % d)

/-- The weights of the dense layer that a convolution layer is, `nchw`. -/
def toeplitzNchw (H W : Axis) (Y : Nat → Nat → Nat → Nat → R) (p q : Nat) : R :=
  convWeight H W (fun u v k e => Y e k u v) (p % (H.n * W.n) / W.n) (p % (H.n * W.n) % W.n) (p / (H.n * W.n))
    (q % (H.m * W.m) / W.m) (q % (H.m * W.m) % W.m) (q / (H.m * W.m))

theorem split3 {a b c i j k : Nat} (hi : i < a) (hj : j < b) (hk : k < c) :
    offset [a, b, c] [i, j, k] / (b * c) = i ∧ offset [a, b, c] [i, j, k] % (b * c) / c = j ∧
      offset [a, b, c] [i, j, k] % (b * c) % c = k := by
  have := unravel_offset (dims := [a, b, c]) (idx := [i, j, k]) ⟨hi, hj, hk, trivial⟩
  simpa [unravel] using this

/-- C152 (convolution layers, `nhwc`): what the convolution computes is what a dense layer with shared weights computes. -/
theorem conv_affine (H W : Axis) (c d : Nat) (x : List Nat → R) {o : List Nat} (ho : Valid [H.m, W.m, d] o) :
    fn3 (fun i j e => conv2 H W c (fun a a' k => x [a, a', k]) Y i j e + B e) o =
      affineMap [H.n, W.n, c] [H.m, W.m, d] (toeplitz H W c d Y) (fun q => B (q % (W.m * d) % d)) x o := by
  match o, ho with
  | [i, j, e], ho =>
    obtain ⟨e1, e2, e3⟩ := split3 ho.1 ho.2.1 ho.2.2.1
    unfold affineMap toeplitz
    simp only [fn3_apply, e1, e2, e3]
    rw [conv2_weights]
    congr 1
    have := sum_unravel3 H.n W.n c fun l => x l * convWeight H W Y (l.headD 0) (l.tail.headD 0) (l.tail.tail.headD 0) i j e
    simp only [List.headD_cons, List.tail_cons] at this
    rw [← this]
    refine sum_congr rfl fun p _ => ?_
    simp [unravel]

/-- C152 (convolution layers, `nchw`). -/
theorem conv_affine_nchw (H W : Axis) (c d : Nat) (x : List Nat → R) {o : List Nat} (ho : Valid [d, H.m, W.m] o) :
    fn3 (fun e i j => conv2 H W c (fun a a' k => x [k, a, a']) (fun r s k e => Y e k r s) i j e + B e) o =
      affineMap [c, H.n, W.n] [d, H.m, W.m] (toeplitzNchw H W Y) (fun q => B (q / (H.m * W.m))) x o := by
  match o, ho with
  | [e, i, j], ho =>
    obtain ⟨e1, e2, e3⟩ := split3 ho.1 ho.2.1 ho.2.2.1
    unfold affineMap toeplitzNchw
    simp only [fn3_apply, e1, e2, e3]
    rw [conv2_weights]
    congr 1
    have := sum_unravel3 c H.n W.n fun l => x l * convWeight H W (fun r s k e => Y e k r s) (l.tail.headD 0)
      (l.tail.tail.headD 0) (l.headD 0) i j e
    simp only [List.headD_cons, List.tail_cons] at this
    trans ∑ k ∈ range c, ∑ a ∈ range H.n, ∑ b ∈ range W.n, x [k, a, b] * convWeight H W (fun r s k e => Y e k r s) a b k i j e
    · rw [sum_comm]
      conv_rhs => rw [sum_comm]
      conv_lhs => rw [sum_comm]
      refine sum_congr rfl fun a _ => ?_
      exact sum_comm
    rw [← this]
    refine sum_congr rfl fun p _ => ?_
    simp [unravel]

theorem conv_affine_act (hact : ActsAs act φ) (hH : AxisOK u32 H) (hW : AxisOK u32 W)
    (ht : HasAxes t H W) (hsz : [H.n, W.n, c].prod ≤ 2 ^ 31)
    (hw : wInit [H.k, W.k, c, t.filters] (fresh junkW [H.k, W.k, c, t.filters].prod) =
      .ok (tab [H.k, W.k, c, t.filters] (fn4 Y)).data)
    (hb : bInit [t.filters] (fresh junkB [t.filters].prod) = .ok (tab [t.filters] (fn1 B)).data) :
    AffineAct (fun x => Layers.conv .nhwc .rscd junkW junkY junkB junkI junk act t x wInit bInit)
      [H.n, W.n, c] [H.m, W.m, t.filters] φ (toeplitz H W c t.filters Y) (fun q => B (q % (W.m * t.filters) % t.filters)) := by
  refine .of (G := fun x => fn3 fun i j e => conv2 H W c (fun a a' k => x [a, a', k]) Y i j e + B e) (fun n X => ?_) _ _
    fun x o ho => conv_affine Y B H W c t.filters x ho
  rw [tab4_rows]
  refine .of (conv_layer_nhwc junkW junkY junkB junkI junk hact hH hW ht (n := n) (fun l i j k => X l [i, j, k]) Y _ B
    (fun z hz => C91_conv_order hH hW hsz _ Y junkI junk hz) hw hb) rfl (tab_congr fun idx hv => ?_)
  match idx, hv with
  | [b, i, j, e], _ =>
    have := conv2_flat H W c (fun a a' k => X b [a, a', k]) Y i j e
    simp only [fn4_apply, List.headD_cons, List.tail_cons, fn3_apply, seqSum_eq_sum]
    rw [this]

/-- C152 (convolution layers, `nhwc`), with an activation of `K` lines. -/
theorem C152_conv_nhwc (hact : ActsAs act φ) (hφ : Lines φ K) (hH : AxisOK u32 H) (hW : AxisOK u32 W)
    (ht : HasAxes t H W) (hsz : [H.n, W.n, c].prod ≤ 2 ^ 31)
    (hw : wInit [H.k, W.k, c, t.filters] (fresh junkW [H.k, W.k, c, t.filters].prod) =
      .ok (tab [H.k, W.k, c, t.filters] (fn4 Y)).data)
    (hb : bInit [t.filters] (fresh junkB [t.filters].prod) = .ok (tab [t.filters] (fn1 B)).data) :
    Pieces (fun x => Layers.conv .nhwc .rscd junkW junkY junkB junkI junk act t x wInit bInit)
      [H.n, W.n, c] [H.m, W.m, t.filters] (K ^ [H.m, W.m, t.filters].prod) :=
  (conv_affine_act junkW junkY junkB junkI junk Y B hact hH hW ht hsz hw hb).pieces hφ

theorem conv_affine_act_nchw (hact : ActsAs act φ) (hH : AxisOK u32 H) (hW : AxisOK u32 W)
    (ht : HasAxes t H W)
    (hw : wInit [t.filters, c, H.k, W.k] (fresh junkW [t.filters, c, H.k, W.k].prod) =
      .ok (tab [t.filters, c, H.k, W.k] (fn4 Y)).data)
    (hb : bInit [t.filters] (fresh junkB [t.filters].prod) = .ok (tab [t.filters] (fn1 B)).data) :
    AffineAct (fun x => Layers.conv .nchw .dcrs junkW junkY junkB junkI junk act t x wInit bInit)
      [c, H.n, W.n] [t.filters, H.m, W.m] φ (toeplitzNchw H W Y) (fun q => B (q / (H.m * W.m))) := by
  refine .of (G := fun x => fn3 fun e i j =>
    conv2 H W c (fun a a' k => x [k, a, a']) (fun r s k e => Y e k r s) i j e + B e) (fun n X => ?_) _ _
    fun x o ho => conv_affine_nchw Y B H W c t.filters x ho
  rw [tab4_rows]
  refine .of (conv_layer_nchw junkW junkY junkB junkI junk hact hH hW ht (n := n) (fun l i j k => X l [i, j, k]) Y _ B
    (fun z hz => C91_conv_order_nchw hH hW _ Y junk hz) hw hb) rfl (tab_congr fun idx hv => ?_)
  match idx, hv with
  | [b, e, i, j], _ =>
    have := conv2_flat_nchw H W c (fun a a' k => X b [k, a, a']) (fun r s k e => Y e k r s) i j e
    simp only [fn4_apply, List.headD_cons, List.tail_cons, fn3_apply, seqSum_eq_sum]
    rw [← this]
    exact congrArg (fun s => φ (s + B e)) (sum_congr rfl fun p _ => mul_comm _ _)

/-- C152 (convolution layers, `nchw`), with an activation of `K` lines. -/
theorem C152_conv_nchw (hact : ActsAs act φ) (hφ : Lines φ K) (hH : AxisOK u32 H) (hW : AxisOK u32 W)
    (ht : HasAxes t H W)
    (hw : wInit [t.filters, c, H.k, W.k] (fresh junkW [t.filters, c, H.k, W.k].prod) =
      .ok (tab [t.filters, c, H.k, W.k] (fn4 Y)).data)
    (hb : bInit [t.filters] (fresh junkB [t.filters].prod) = .ok (tab [t.filters] (fn1 B)).data) :
    Pieces (fun x => Layers.conv .nchw .dcrs junkW junkY junkB junkI junk act t x wInit bInit)
      [c, H.n, W.n] [t.filters, H.m, W.m] (K ^ [t.filters, H.m, W.m].prod) :=
  (conv_affine_act_nchw junkW junkY junkB junkI junk Y B hact hH hW ht hw hb).pieces hφ

/-- C152 (shared weights): a convolution layer, `nhwc`, gives what the dense layer with the weights `toeplitz` and the bias
repeated for every pixel gives, whatever the activation. -/
theorem C152_conv_dense (hact : ActsAs act φ) (hH : AxisOK u32 H) (hW : AxisOK u32 W)
    (ht : HasAxes t H W) (hsz : [H.n, W.n, c].prod ≤ 2 ^ 31)
    (hw : wInit [H.k, W.k, c, t.filters] (fresh junkW [H.k, W.k, c, t.filters].prod) =
      .ok (tab [H.k, W.k, c, t.filters] (fn4 Y)).data)
    (hb : bInit [t.filters] (fresh junkB [t.filters].prod) = .ok (tab [t.filters] (fn1 B)).data)
    (hk : [H.m, W.m, t.filters].prod < 2 ^ 32) (junkW' junkY' junkB' : Nat → R) {wInit' bInit' : Init R}
    (hw' : wInit' [[H.n, W.n, c].prod, [H.m, W.m, t.filters].prod] (fresh junkW' [[H.n, W.n, c].prod, [H.m, W.m, t.filters].prod].prod) =
      .ok (tab [[H.n, W.n, c].prod, [H.m, W.m, t.filters].prod] (fn2 (toeplitz H W c t.filters Y))).data)
    (hb' : bInit' [[H.m, W.m, t.filters].prod] (fresh junkB' [[H.m, W.m, t.filters].prod].prod) =
      .ok (tab [[H.m, W.m, t.filters].prod] (fn1 fun q => B (q % t.filters))).data)
    (n : Nat) (x : List R) (hx : x.length = n * [H.n, W.n, c].prod) :
    ∃ y : List R,
      Gives (fun x => Layers.conv .nhwc .rscd junkW junkY junkB junkI junk act t x wInit bInit)
        ⟨[n, H.n, W.n, c], x⟩ ⟨[n, H.m, W.m, t.filters], y⟩ ∧
      Gives (fun x => dense junkW' junkY' junkB' act [H.m, W.m, t.filters].prod x wInit' bInit')
        ⟨[n, [H.n, W.n, c].prod], x⟩ ⟨[n, [H.m, W.m, t.filters].prod], y⟩ := by
  obtain ⟨X, rfl⟩ := tab_rows hx
  refine ⟨(tab [n, H.m, W.m, t.filters] fun idx => φ (fn3 (fun i j e =>
    conv2 H W c (fun a a' k => X (idx.headD 0) [a, a', k]) Y i j e + B e) idx.tail)).data, ?_, ?_⟩
  · show Gives _ (tab [n, H.n, W.n, c] fun idx => X (idx.headD 0) idx.tail) _
    rw [tab4_rows]
    refine .of (conv_layer_nhwc junkW junkY junkB junkI junk hact hH hW ht (n := n) (fun l i j k => X l [i, j, k]) Y _ B
      (fun z hz => C91_conv_order hH hW hsz _ Y junkI junk hz) hw hb) rfl (Eq.symm (mk_tab_eq fun idx hv => Eq.symm ?_))
    match idx, hv with
    | [b, i, j, e], _ =>
      have := conv2_flat H W c (fun a a' k => X b [a, a', k]) Y i j e
      simp only [fn4_apply, List.headD_cons, List.tail_cons, fn3_apply, seqSum_eq_sum]
      rw [this]
  · have e := C77_dense junkW' junkY' junkB' hact (n := n) hk (fun i l => X i (unravel [H.n, W.n, c] l))
      (toeplitz H W c t.filters Y) (fun q => B (q % t.filters)) hw' hb'
    rw [tab_reshape n (ds := [H.n, W.n, c]) (es := [[H.n, W.n, c].prod]) (by simp) X]
    have e2 := tab_reshape n (ds := [H.m, W.m, t.filters]) (es := [[H.m, W.m, t.filters].prod]) (by simp) fun b o =>
      φ (fn3 (fun i j e => conv2 H W c (fun a a' k => X b [a, a', k]) Y i j e + B e) o)
    rw [e2]
    have e3 : (tab [n, [H.n, W.n, c].prod] fun idx => X (idx.headD 0) (unravel [H.n, W.n, c] (offset [[H.n, W.n, c].prod] idx.tail))) =
        tab [n, [H.n, W.n, c].prod] (fn2 fun i l => X i (unravel [H.n, W.n, c] l)) := tab_congr fun idx hv => by
      match idx, hv with
      | [i, l], _ => simp
    rw [e3]
    refine .of e rfl (tab_congr fun idx hv => ?_)
    match idx, hv with
    | [b, q], hv =>
      have hq : q < [H.m, W.m, t.filters].prod := hv.2.1
      have := conv_affine Y B H W c t.filters (X b) (valid_unravel hq)
      rw [affineMap, offset_unravel hq] at this
      simp only [fn2_apply, List.headD_cons, List.tail_cons, seqSum_eq_sum]
      have eo : offset [[H.m, W.m, t.filters].prod] [q] = q := by simp
      rw [eo, this, Nat.mod_mul_left_mod]

end

section
variable [CommSemiring R]

/-- Elements of the example as affine functions of it. -/
theorem coordinate_affine {ds : List Nat} {i : List Nat} (hi : Valid ds i) (es : List Nat) (x : List Nat → R) (o : List Nat) :
    x i = affineMap ds es (fun p _ => if p = offset ds i then 1 else 0) (fun _ => 0) x o := by
  unfold affineMap
  rw [sum_eq_single (offset ds i) (fun b _ hb => by simp [hb]) (fun hb => absurd (mem_range.2 (offset_lt hi)) hb), unravel_offset hi]
  simp

theorem activation_affine (junk : Nat → R) (φ : R → R) (ds : List Nat) :
    AffineAct (activationOf junk φ) ds ds φ (fun p q => if p = q then 1 else 0) (fun _ => 0) := by
  refine .of (G := fun x => x) (fun n X => ?_) (fun p q => if p = q then 1 else 0) (fun _ => 0) fun x o ho => ?_
  · refine .of (activationOf_run junk φ _ (by simp)) rfl ?_
    simp [tab]
  · rw [affineMap, sum_eq_single (offset ds o) (fun b _ hb => by simp [hb]) (fun hb => absurd (mem_range.2 (offset_lt ho)) hb),
      unravel_offset ho]
    simp

/-- C152 (activation layers), for activations made of `K` lines. -/
theorem C152_activation (junk : Nat → R) {φ : R → R} {K : Nat} (hφ : Lines φ K) (ds : List Nat) :
    Pieces (activationOf junk φ) ds ds (K ^ ds.prod) :=
  (activation_affine junk φ ds).pieces hφ

omit [CommSemiring R] in
theorem foldl_max_mem [LT R] [DecidableLT R] (l : List R) (s : R) :
    l.foldl (fun v x => if x > v then x else v) s = s ∨ l.foldl (fun v x => if x > v then x else v) s ∈ l := by
  induction l generalizing s with
  | nil => exact .inl rfl
  | cons a l ih =>
    rw [List.foldl_cons]
    split
    · rcases ih a with h | h
      · exact .inr (by rw [h]; exact List.mem_cons_self)
      · exact .inr (List.mem_cons_of_mem _ h)
    · rcases ih s with h | h
      · exact .inl h
      · exact .inr (List.mem_cons_of_mem _ h)

/-- The pixel with number `r` under a window. -/
def pixelAt (H W : Axis) (i j r : Nat) : Nat × Nat := (pixels H W (fun a b => (a, b)) i j).getD r (0, 0)

/-- C152 (max pooling layers, both layouts): each output is one of the pixels under its window or the least value. -/
theorem C152_max_pool [LT R] [DecidableLT R] (junk : Nat → R) (lowest : R) {H W : Axis} (hH : AxisOK u32 H) (hW : AxisOK u32 W)
    {t : PoolLayer} (ht : PoolHasAxes t H W) (c : Nat) :
    Pieces (pool .nhwc junk (Acc.max lowest) t) [H.n, W.n, c] [H.m, W.m, c] ((H.k * W.k + 1) ^ [H.m, W.m, c].prod) ∧
    Pieces (pool .nchw junk (Acc.max lowest) t) [c, H.n, W.n] [c, H.m, W.m] ((H.k * W.k + 1) ^ [c, H.m, W.m].prod) := by
  have oH := shifted_ok hH
  have oW := shifted_ok hW
  have key : ∀ (x : Nat → Nat → R) i j, (pixels (shifted H) (shifted W) x i j).foldl (fun v x => if x > v then x else v) lowest =
      lowest ∨ ∃ r < H.k * W.k, (pixelAt (shifted H) (shifted W) i j r).1 < H.n ∧ (pixelAt (shifted H) (shifted W) i j r).2 < W.n ∧
        (pixels (shifted H) (shifted W) x i j).foldl (fun v x => if x > v then x else v) lowest =
          x (pixelAt (shifted H) (shifted W) i j r).1 (pixelAt (shifted H) (shifted W) i j r).2 := fun x i j => by
    refine (foldl_max_mem _ _).imp_right fun h => ?_
    generalize (pixels (shifted H) (shifted W) x i j).foldl (fun v x => if x > v then x else v) lowest = m at h ⊢
    rw [pixels_map (shifted H) (shifted W) (fun a b => (a, b)) (fun p => x p.1 p.2)] at h
    obtain ⟨p, hp, rfl⟩ := List.mem_map.1 h
    obtain ⟨r, hr, e⟩ := List.getElem_of_mem hp
    have hl := pixels_length (R := Nat × Nat) (X := fun a b => (a, b)) oH.fits.r1 oW.fits.r1 (i := i) (j := j)
    have hc := win_card_le oH.fits.r1 oW.fits.r1 i j
    have e' : pixelAt (shifted H) (shifted W) i j r = p := by
      unfold pixelAt
      rw [List.getD_eq_getElem?_getD, List.getElem?_eq_getElem hr, e]
      rfl
    obtain ⟨a, b, hu, hab⟩ := mem_pixels.1 hp
    have hlt := Under_lt hu
    refine ⟨r, ?_, ?_, ?_, ?_⟩
    · rw [hl] at hr
      exact lt_of_lt_of_le hr hc
    · rw [e', hab]; exact hlt.1
    · rw [e', hab]; exact hlt.2
    · rw [e']
  constructor
  · have := pieces_select (f := pool .nhwc junk (Acc.max lowest) t) (ds := [H.n, W.n, c]) (es := [H.m, W.m, c]) (K := H.k * W.k + 1)
      (G := fun x => fn3 fun i j k => (pixels (shifted H) (shifted W) (fun a a' => x [a, a', k]) i j).foldl
        (fun v x => if x > v then x else v) lowest) (fun n X => ?_)
      (fun r p q => if (r : Nat) < H.k * W.k ∧ p = offset [H.n, W.n, c] [(pixelAt (shifted H) (shifted W)
          (q / (W.m * c)) (q % (W.m * c) / c) r).1, (pixelAt (shifted H) (shifted W)
          (q / (W.m * c)) (q % (W.m * c) / c) r).2, q % (W.m * c) % c] then 1 else 0)
      (fun r _ => if (r : Nat) < H.k * W.k then 0 else lowest) fun x o ho => ?_
    · exact this
    · rw [tab4_rows]
      refine .of (poolLayer_gen junk _ hH hW ht (n := n) (c := c) (fun l i j k => X l [i, j, k]) _
        fun b _ i _ j _ k _ => max_run lowest _).1 rfl (tab_congr fun idx hv => ?_)
      match idx, hv with
      | [b, i, j, e], _ => rfl
    · match o, ho with
      | [i, j, k], ho =>
        obtain ⟨e1, e2, e3⟩ := split3 ho.1 ho.2.1 ho.2.2.1
        rw [fn3_apply]
        simp only [affineMap, e1, e2, e3]
        rcases key (fun a a' => x [a, a', k]) i j with h | ⟨r, hr, h1, h2, h⟩
        · refine ⟨⟨H.k * W.k, by omega⟩, ?_⟩
          rw [h]
          simp
        · refine ⟨⟨r, by omega⟩, ?_⟩
          rw [h]
          simp only [hr, true_and, if_true]
          exact coordinate_affine (ds := [H.n, W.n, c]) (i := [_, _, _]) ⟨h1, h2, ho.2.2.1, trivial⟩ [H.m, W.m, c] x [i, j, k]
  · have := pieces_select (f := pool .nchw junk (Acc.max lowest) t) (ds := [c, H.n, W.n]) (es := [c, H.m, W.m]) (K := H.k * W.k + 1)
      (G := fun x => fn3 fun k i j => (pixels (shifted H) (shifted W) (fun a a' => x [k, a, a']) i j).foldl
        (fun v x => if x > v then x else v) lowest) (fun n X => ?_)
      (fun r p q => if (r : Nat) < H.k * W.k ∧ p = offset [c, H.n, W.n] [q / (H.m * W.m), (pixelAt (shifted H) (shifted W)
          (q % (H.m * W.m) / W.m) (q % (H.m * W.m) % W.m) r).1, (pixelAt (shifted H) (shifted W)
          (q % (H.m * W.m) / W.m) (q % (H.m * W.m) % W.m) r).2] then 1 else 0)
      (fun r _ => if (r : Nat) < H.k * W.k then 0 else lowest) fun x o ho => ?_
    · exact this
    · rw [tab4_rows]
      refine .of (poolLayer_gen junk _ hH hW ht (n := n) (c := c) (fun l i j k => X l [k, i, j]) _
        fun b _ i _ j _ k _ => max_run lowest _).2 rfl (tab_congr fun idx hv => ?_)
      match idx, hv with
      | [b, i, j, e], _ => rfl
    · match o, ho with
      | [k, i, j], ho =>
        obtain ⟨e1, e2, e3⟩ := split3 ho.1 ho.2.1 ho.2.2.1
        rw [fn3_apply]
        simp only [affineMap, e1, e2, e3]
        rcases key (fun a a' => x [k, a, a']) i j with h | ⟨r, hr, h1, h2, h⟩
        · refine ⟨⟨H.k * W.k, by omega⟩, ?_⟩
          rw [h]
          simp
        · refine ⟨⟨r, by omega⟩, ?_⟩
          rw [h]
          simp only [hr, true_and, if_true]
          exact coordinate_affine (ds := [c, H.n, W.n]) (i := [_, _, _]) ⟨ho.1, h1, h2, trivial⟩ [c, H.m, W.m] x [k, i, j]

end

section
variable [Field R]

/-- How often pixel `(a, b)` is counted under a window, over the number of pixels under it. -/
def meanWeight (H W : Axis) (i j a b : Nat) : R :=
  ((pixels H W (fun a b => (a, b)) i j).countP (fun p => decide (p = (a, b))) : R) / ((pixels H W (fun a b => (a, b)) i j).length : R)

theorem mean_weights (H W : Axis) (X : Nat → Nat → R) (i j : Nat) :
    (pixels H W X i j).foldl (· + ·) 0 / ((pixels H W X i j).length : R) =
      ∑ a ∈ range H.n, ∑ b ∈ range W.n, X a b * meanWeight H W i j a b := by
  have e := pixels_map H W (fun a b => (a, b)) (fun p => X p.1 p.2) i j
  simp only at e
  rw [e, ← List.sum_eq_foldl, List.length_map, Finset.sum_list_map_count,
    Finset.sum_subset (s₂ := range H.n ×ˢ range W.n), Finset.sum_product, sum_div]
  · refine sum_congr rfl fun a _ => ?_
    rw [sum_div]
    refine sum_congr rfl fun b _ => ?_
    rw [nsmul_eq_mul, mul_comm (_ : R) (X a b), mul_div_assoc]
    rfl
  · intro p hp
    obtain ⟨a, b, hu, rfl⟩ := mem_pixels.1 (List.mem_toFinset.1 hp)
    have := Under_lt hu
    simp [this.1, this.2]
  · intro p _ hp
    have : (pixels H W (fun a b => (a, b)) i j).countP (fun q => decide (q = p)) = 0 :=
      List.countP_eq_zero.2 fun q hq => by
        rw [decide_eq_true_eq]
        rintro rfl
        exact hp (List.mem_toFinset.2 hq)
    exact (congrArg (· • X p.1 p.2) this).trans (zero_smul ℕ _)

theorem mean_affine (junk : Nat → R) {H W : Axis} (hH : AxisOK u32 H) (hW : AxisOK u32 W)
    {t : PoolLayer} (ht : PoolHasAxes t H W) (hk : H.k * W.k < 2 ^ 32) (c : Nat) :
    AffineAct (pool .nhwc junk (Acc.mean fun (s : R) n => s / n) t) [H.n, W.n, c] [H.m, W.m, c] id
      (fun p q => if p % (W.n * c) % c = q % (W.m * c) % c then meanWeight (shifted H) (shifted W)
          (q / (W.m * c)) (q % (W.m * c) / c) (p / (W.n * c)) (p % (W.n * c) / c) else 0)
      (fun _ => 0) ∧
    AffineAct (pool .nchw junk (Acc.mean fun (s : R) n => s / n) t) [c, H.n, W.n] [c, H.m, W.m] id
      (fun p q => if p / (H.n * W.n) = q / (H.m * W.m) then meanWeight (shifted H) (shifted W)
          (q % (H.m * W.m) / W.m) (q % (H.m * W.m) % W.m) (p % (H.n * W.n) / W.n) (p % (H.n * W.n) % W.n) else 0)
      (fun _ => 0) := by
  have oH := shifted_ok hH
  have oW := shifted_ok hW
  have hp : ∀ (Y : Nat → Nat → R) i j, (pixels (shifted H) (shifted W) Y i j).length < 2 ^ 32 := fun Y i j => by
    rw [pixels_length oH.fits.r1 oW.fits.r1]
    exact lt_of_le_of_lt (win_card_le oH.fits.r1 oW.fits.r1 i j) hk
  constructor
  · refine .of (G := fun x => fn3 fun i j k => (pixels (shifted H) (shifted W) (fun a a' => x [a, a', k]) i j).foldl (· + ·) 0 /
        ((pixels (shifted H) (shifted W) (fun a a' => x [a, a', k]) i j).length : R)) (fun n X => ?_)
      (fun p q => if p % (W.n * c) % c = q % (W.m * c) % c then meanWeight (shifted H) (shifted W)
          (q / (W.m * c)) (q % (W.m * c) / c) (p / (W.n * c)) (p % (W.n * c) / c) else 0)
      (fun _ => 0) fun x o ho => ?_
    · rw [tab4_rows]
      refine .of (poolLayer_gen junk _ hH hW ht (n := n) (c := c) (fun l i j k => X l [i, j, k]) _
        fun b _ i _ j _ k _ => mean_run _ _ (hp _ i j)).1 rfl (tab_congr fun idx hv => ?_)
      match idx, hv with
      | [b, i, j, e], _ => rfl
    · match o, ho with
      | [i, j, k], ho =>
        obtain ⟨e1, e2, e3⟩ := split3 ho.1 ho.2.1 ho.2.2.1
        rw [fn3_apply]
        simp only [affineMap, e1, e2, e3, add_zero]
        rw [mean_weights]
        have := sum_unravel3 H.n W.n c fun l => x l * if l.tail.tail.headD 0 = k then
          (meanWeight (shifted H) (shifted W) i j (l.headD 0) (l.tail.headD 0) : R) else 0
        simp only [List.headD_cons, List.tail_cons] at this
        trans ∑ a ∈ range H.n, ∑ b ∈ range W.n, ∑ k' ∈ range c, x [a, b, k'] * if k' = k then
          (meanWeight (shifted H) (shifted W) i j a b : R) else 0
        · refine sum_congr rfl fun a _ => sum_congr rfl fun b _ => ?_
          rw [sum_eq_single k (fun k' _ hne => by simp [hne]) (fun hn => absurd (mem_range.2 ho.2.2.1) hn), if_pos rfl]
        refine this.symm.trans (sum_congr rfl fun p _ => ?_)
        simp [unravel]
  · refine .of (G := fun x => fn3 fun k i j => (pixels (shifted H) (shifted W) (fun a a' => x [k, a, a']) i j).foldl (· + ·) 0 /
        ((pixels (shifted H) (shifted W) (fun a a' => x [k, a, a']) i j).length : R)) (fun n X => ?_)
      (fun p q => if p / (H.n * W.n) = q / (H.m * W.m) then meanWeight (shifted H) (shifted W)
          (q % (H.m * W.m) / W.m) (q % (H.m * W.m) % W.m) (p % (H.n * W.n) / W.n) (p % (H.n * W.n) % W.n) else 0)
      (fun _ => 0) fun x o ho => ?_
    · rw [tab4_rows]
      refine .of (poolLayer_gen junk _ hH hW ht (n := n) (c := c) (fun l i j k => X l [k, i, j]) _
        fun b _ i _ j _ k _ => mean_run _ _ (hp _ i j)).2 rfl (tab_congr fun idx hv => ?_)
      match idx, hv with
      | [b, i, j, e], _ => rfl
    · match o, ho with
      | [k, i, j], ho =>
        obtain ⟨e1, e2, e3⟩ := split3 ho.1 ho.2.1 ho.2.2.1
        rw [fn3_apply]
        simp only [affineMap, e1, e2, e3, add_zero]
        rw [mean_weights]
        have := sum_unravel3 c H.n W.n fun l => x l * if l.headD 0 = k then
          (meanWeight (shifted H) (shifted W) i j (l.tail.headD 0) (l.tail.tail.headD 0) : R) else 0
        simp only [List.headD_cons, List.tail_cons] at this
        trans ∑ k' ∈ range c, ∑ a ∈ range H.n, ∑ b ∈ range W.n, x [k', a, b] * if k' = k then
          (meanWeight (shifted H) (shifted W) i j a b : R) else 0
        · rw [sum_eq_single k (fun k' _ hne => by simp [hne]) (fun hn => absurd (mem_range.2 ho.1) hn)]
          simp only [if_true]
          rfl
        refine this.symm.trans (sum_congr rfl fun p _ => ?_)
        simp [unravel]

/-- C152 (mean pooling layers, both layouts), where every window sees a pixel. -/
theorem C152_mean_pool (junk : Nat → R) {H W : Axis} (hH : AxisOK u32 H) (hW : AxisOK u32 W)
    {t : PoolLayer} (ht : PoolHasAxes t H W) (hk : H.k * W.k < 2 ^ 32) (c : Nat)
    (_hne : ∀ i < H.m, ∀ j < W.m, (win (shifted H) (shifted W) i j).Nonempty) :
    Pieces (pool .nhwc junk (Acc.mean fun (s : R) n => s / n) t) [H.n, W.n, c] [H.m, W.m, c] 1 ∧
    Pieces (pool .nchw junk (Acc.mean fun (s : R) n => s / n) t) [c, H.n, W.n] [c, H.m, W.m] 1 := by
  have := mean_affine (R := R) junk hH hW ht hk c
  exact ⟨by simpa using this.1.pieces id_lines, by simpa using this.2.pieces id_lines⟩

section
variable (sqrt : R → R) (eps : R) (junkM junkV junkB junkG junkY : Nat → R) {act : Act R} {φ : R → R} {K h w c : Nat}
  (M V β γ : Nat → R) {meanInit varInit betaInit gammaInit : Init R}

theorem bn_affine_nhwc (hact : ActsAs act φ)
    (h1 : meanInit [c] (fresh junkM [c].prod) = .ok (tab [c] (fn1 M)).data)
    (h2 : varInit [c] (fresh junkV [c].prod) = .ok (tab [c] (fn1 V)).data)
    (h3 : betaInit [c] (fresh junkB [c].prod) = .ok (tab [c] (fn1 β)).data)
    (h4 : gammaInit [c] (fresh junkG [c].prod) = .ok (tab [c] (fn1 γ)).data) :
    AffineAct (fun x => Layers.batchNorm sqrt eps .nhwc junkM junkV junkB junkG junkY act x meanInit varInit betaInit
      gammaInit) [h, w, c] [h, w, c] φ
      (fun p q => if p = q then γ (q % (w * c) % c) / (sqrt (V (q % (w * c) % c)) + eps) else 0)
      (fun q => β (q % (w * c) % c) - M (q % (w * c) % c) / (sqrt (V (q % (w * c) % c)) + eps) * γ (q % (w * c) % c)) := by
  refine .of (G := fun x => fn3 fun i j k => (x [i, j, k] - M k) / (sqrt (V k) + eps) * γ k + β k) (fun n X => ?_)
    (fun p q => if p = q then γ (q % (w * c) % c) / (sqrt (V (q % (w * c) % c)) + eps) else 0)
    (fun q => β (q % (w * c) % c) - M (q % (w * c) % c) / (sqrt (V (q % (w * c) % c)) + eps) * γ (q % (w * c) % c)) fun x o ho => ?_
  · rw [tab4_rows]
    refine .of (C86_bn_nhwc sqrt eps junkM junkV junkB junkG junkY hact (n := n) (fun l i j k => X l [i, j, k]) M V β γ h1 h2 h3
      h4) rfl (tab_congr fun idx hv => ?_)
    match idx, hv with
    | [b, i, j, e], _ => rfl
  · match o, ho with
    | [i, j, k], ho =>
      obtain ⟨-, -, e3⟩ := split3 ho.1 ho.2.1 ho.2.2.1
      rw [affineMap, sum_eq_single (offset [h, w, c] [i, j, k]) (fun b _ hb => by rw [if_neg hb, mul_zero])
        (fun hb => absurd (mem_range.2 (offset_lt ho)) hb), unravel_offset ho, if_pos rfl, e3, fn3_apply]
      ring

/-- C152 (batch normalisation layers, `nhwc`), with an activation of `K` lines. -/
theorem C152_bn_nhwc (hact : ActsAs act φ) (hφ : Lines φ K)
    (h1 : meanInit [c] (fresh junkM [c].prod) = .ok (tab [c] (fn1 M)).data)
    (h2 : varInit [c] (fresh junkV [c].prod) = .ok (tab [c] (fn1 V)).data)
    (h3 : betaInit [c] (fresh junkB [c].prod) = .ok (tab [c] (fn1 β)).data)
    (h4 : gammaInit [c] (fresh junkG [c].prod) = .ok (tab [c] (fn1 γ)).data) (_hs : ∀ k < c, sqrt (V k) + eps ≠ 0) :
    Pieces (fun x => Layers.batchNorm sqrt eps .nhwc junkM junkV junkB junkG junkY act x meanInit varInit betaInit
      gammaInit) [h, w, c] [h, w, c] (K ^ [h, w, c].prod) :=
  (bn_affine_nhwc sqrt eps junkM junkV junkB junkG junkY M V β γ hact h1 h2 h3 h4).pieces hφ

theorem bn_affine_nchw (hact : ActsAs act φ)
    (h1 : meanInit [c] (fresh junkM [c].prod) = .ok (tab [c] (fn1 M)).data)
    (h2 : varInit [c] (fresh junkV [c].prod) = .ok (tab [c] (fn1 V)).data)
    (h3 : betaInit [c] (fresh junkB [c].prod) = .ok (tab [c] (fn1 β)).data)
    (h4 : gammaInit [c] (fresh junkG [c].prod) = .ok (tab [c] (fn1 γ)).data) :
    AffineAct (fun x => Layers.batchNorm sqrt eps .nchw junkM junkV junkB junkG junkY act x meanInit varInit betaInit
      gammaInit) [c, h, w] [c, h, w] φ
      (fun p q => if p = q then γ (q / (h * w)) / (sqrt (V (q / (h * w))) + eps) else 0)
      (fun q => β (q / (h * w)) - M (q / (h * w)) / (sqrt (V (q / (h * w))) + eps) * γ (q / (h * w))) := by
  refine .of (G := fun x => fn3 fun k i j => (x [k, i, j] - M k) / (sqrt (V k) + eps) * γ k + β k) (fun n X => ?_)
    (fun p q => if p = q then γ (q / (h * w)) / (sqrt (V (q / (h * w))) + eps) else 0)
    (fun q => β (q / (h * w)) - M (q / (h * w)) / (sqrt (V (q / (h * w))) + eps) * γ (q / (h * w))) fun x o ho => ?_
  · rw [tab4_rows]
    refine .of (C86_bn_nchw sqrt eps junkM junkV junkB junkG junkY hact (n := n) (fun l i j k => X l [i, j, k]) M V β γ h1 h2 h3
      h4) rfl (tab_congr fun idx hv => ?_)
    match idx, hv with
    | [b, i, j, e], _ => rfl
  · match o, ho with
    | [k, i, j], ho =>
      obtain ⟨e1, -, -⟩ := split3 ho.1 ho.2.1 ho.2.2.1
      rw [affineMap, sum_eq_single (offset [c, h, w] [k, i, j]) (fun b _ hb => by rw [if_neg hb, mul_zero])
        (fun hb => absurd (mem_range.2 (offset_lt ho)) hb), unravel_offset ho, if_pos rfl, e1, fn3_apply]
      ring

/-- C152 (batch normalisation layers, `nchw`), with an activation of `K` lines. -/
theorem C152_bn_nchw (hact : ActsAs act φ) (hφ : Lines φ K)
    (h1 : meanInit [c] (fresh junkM [c].prod) = .ok (tab [c] (fn1 M)).data)
    (h2 : varInit [c] (fresh junkV [c].prod) = .ok (tab [c] (fn1 V)).data)
    (h3 : betaInit [c] (fresh junkB [c].prod) = .ok (tab [c] (fn1 β)).data)
    (h4 : gammaInit [c] (fresh junkG [c].prod) = .ok (tab [c] (fn1 γ)).data) (_hs : ∀ k < c, sqrt (V k) + eps ≠ 0) :
    Pieces (fun x => Layers.batchNorm sqrt eps .nchw junkM junkV junkB junkG junkY act x meanInit varInit betaInit
      gammaInit) [c, h, w] [c, h, w] (K ^ [c, h, w].prod) :=
  (bn_affine_nchw sqrt eps junkM junkV junkB junkG junkY M V β γ hact h1 h2 h3 h4).pieces hφ

end

/-! ## What such networks cannot do -/

/-- C152 (exclusive or): no network of one piece predicts the exclusive or of its two inputs. -/
theorem C152_xor [LinearOrder R] [IsStrictOrderedRing R] {f : LayerFn R} (h : Pieces f [2] [2] 1) {y : List R}
    (hy : Gives f ⟨[4, 2], [0, 0, 0, 1, 1, 0, 1, 1]⟩ ⟨[4, 2], y⟩) {z : List Int} (hz : z.length = 4) :
    Kernels.argmax u32 2 y z ≠ .ok [0, 1, 1, 0] := by
  obtain ⟨G, g1, W, B, g2⟩ := h
  have ex : (⟨[4, 2], [0, 0, 0, 1, 1, 0, 1, 1]⟩ : Tensor R) = tab [4, 2] fun idx =>
      (fun (b : Nat) (i : List Nat) => if i = [0] then (if 2 ≤ b then (1 : R) else 0) else if b % 2 = 1 then 1 else 0)
        (idx.headD 0) idx.tail := by
    simp [tab, List.range_succ, unravel]
  rw [ex] at hy
  have eY := hy.unique (g1 4 fun (b : Nat) (i : List Nat) => if i = [0] then (if 2 ≤ b then (1 : R) else 0) else
    if b % 2 = 1 then 1 else 0)
  have e' : (tab [4, 2] fun idx => G ((fun (b : Nat) (i : List Nat) => if i = [0] then (if 2 ≤ b then (1 : R) else 0) else
      if b % 2 = 1 then 1 else 0) (idx.headD 0)) idx.tail) = tab [4, 2] (fn2 fun b j => B 0 j +
        (if 2 ≤ b then W 0 0 j else 0) + if b % 2 = 1 then W 0 1 j else 0) := tab_congr fun idx hv => by
    match idx, hv with
    | [b, j], hv =>
      obtain ⟨q, hq⟩ := g2 ((fun (b : Nat) (i : List Nat) => if i = [0] then (if 2 ≤ b then (1 : R) else 0) else
        if b % 2 = 1 then 1 else 0) b)
      have : q = 0 := Subsingleton.elim _ _
      subst this
      refine (hq [j] hv.2).trans ?_
      rw [fn2_apply]
      simp only [affineMap, List.prod_cons, List.prod_nil, mul_one, sum_range_succ, sum_range_zero, zero_add]
      have u0 : unravel [2] 0 = [0] := by simp [unravel]
      have u1 : unravel [2] 1 = [1] := by simp [unravel]
      rw [u0, u1]
      by_cases c1 : 2 ≤ b <;> by_cases c2 : b % 2 = 1 <;> simp [c1, c2] <;> ring
  rw [e'] at eY
  have ed : y = _ := congrArg Tensor.data eY
  rw [ed]
  obtain ⟨a, ea, ha⟩ := C57_argmax u32 (n := 2) (rows := 4) (by decide) (fun b j => B 0 j +
        (if 2 ≤ b then W 0 0 j else 0) + if b % 2 = 1 then W 0 1 j else 0) hz
  rw [ea]
  intro hc
  have hc := Outcome.ok.inj hc
  have l : ∀ b, b < 4 → a b < 2 := fun b hb => (ha b hb).1
  have cv : ∀ n : Nat, n < 2 → u32.conv n = n := fun n hn => by
    match n, hn with
    | 0, _ => decide
    | 1, _ => decide
  simp only [List.range_succ, List.range_zero, List.map_nil, List.map_cons, List.nil_append, List.cons_append,
    List.cons.injEq, and_true] at hc
  rw [cv _ (l 0 (by decide)), cv _ (l 1 (by decide)), cv _ (l 2 (by decide)), cv _ (l 3 (by decide))] at hc
  have a0 : a 0 = 0 := by omega
  have a1 : a 1 = 1 := by omega
  have a2 : a 2 = 1 := by omega
  have a3 : a 3 = 0 := by omega
  have h0 := (ha 0 (by decide)).2.1 1 (by decide)
  have h1 := (ha 1 (by decide)).2.2 0 (by rw [a1]; decide)
  have h2 := (ha 2 (by decide)).2.2 0 (by rw [a2]; decide)
  have h3 := (ha 3 (by decide)).2.1 1 (by decide)
  rw [a0] at h0
  rw [a1] at h1
  rw [a2] at h2
  rw [a3] at h3
  norm_num at h0 h1 h2 h3
  linarith

/-- C152 (no squares): among `2 N + 1` different numbers there is one whose square a network of `N` pieces does not compute. -/
theorem C152_square {f : LayerFn R} {N : Nat} (h : Pieces f [1] [1] N) (a : Fin (2 * N + 1) → R) (ha : Function.Injective a) :
    ∃ i, ¬ Gives f ⟨[1, 1], [a i]⟩ ⟨[1, 1], [a i * a i]⟩ := by
  by_contra hc
  push Not at hc
  obtain ⟨G, g1, W, B, g2⟩ := h
  have key : ∀ i, ∃ q, a i * a i = a i * W q 0 0 + B q 0 := fun i => by
    obtain ⟨q, hq⟩ := g2 fun _ => a i
    refine ⟨q, ?_⟩
    have e := (hc i).unique (g1 1 fun _ _ => a i)
    have e2 := congrArg Tensor.data e
    have := hq [0] ⟨by decide, trivial⟩
    simp only [affineMap, List.prod_cons, List.prod_nil, mul_one, sum_range_one, offset_cons, offset_nil, zero_add] at this
    rw [← this]
    simpa [tab, unravel] using e2
  choose q hq using key
  obtain ⟨r, -, hr⟩ := Finset.exists_lt_card_fiber_of_mul_lt_card_of_maps_to (s := (univ : Finset (Fin (2 * N + 1))))
    (t := (univ : Finset (Fin N))) (f := q) (n := 2) (fun _ _ => mem_univ _) (by simp; omega)
  obtain ⟨i, j, k, hi, hj, hk, hij, hik, hjk⟩ := Finset.two_lt_card_iff.1 hr
  simp only [mem_filter, mem_univ, true_and] at hi hj hk
  have qi := hq i
  have qj := hq j
  have qk := hq k
  rw [hi] at qi
  rw [hj] at qj
  rw [hk] at qk
  have d1 : a i - a j ≠ 0 := sub_ne_zero.2 fun e => hij (ha e)
  have d2 : a i - a k ≠ 0 := sub_ne_zero.2 fun e => hik (ha e)
  have e1 : a i + a j = W r 0 0 := mul_left_cancel₀ d1 (by linear_combination qi - qj)
  have e2 : a i + a k = W r 0 0 := mul_left_cancel₀ d2 (by linear_combination qi - qk)
  exact hjk (ha (add_left_cancel (e1.trans e2.symm)))

end

/-! ## A hidden layer helps -/

/-- One hidden layer of two units with `relu`, then the scores of two classes. -/
def xorNet [Field R] [LinearOrder R] (junk : Nat → R) : LayerFn R :=
  composed
    (fun x => dense junk junk junk reluAct 2 x (exInit (fn2 fun _ _ => 1)) (exInit (fn1 fun j => if j = 1 then -1 else 0)))
    (fun x => dense junk junk junk noopAct 2 x (exInit (fn2 fun l j => if j = 0 then 0 else if l = 0 then 2 else -4))
      (exInit (fn1 fun j => if j = 0 then 1 else 0)))

/-- C152 (exclusive or): a network of four pieces computes scores whose largest is the exclusive or. -/
theorem C152_xor_relu [Field R] [LinearOrder R] [IsStrictOrderedRing R] (junk : Nat → R) :
    Pieces (xorNet junk) [2] [2] 4 ∧
    Gives (xorNet junk) ⟨[4, 2], [0, 0, 0, 1, 1, 0, 1, 1]⟩ ⟨[4, 2], [1, 0, 1, 2, 1, 2, 1, 0]⟩ ∧
    ∀ z : List Int, z.length = 4 → Kernels.argmax u32 2 ([1, 0, 1, 2, 1, 2, 1, 0] : List R) z = .ok [0, 1, 1, 0] := by
  refine ⟨?_, ?_, fun z hz => ?_⟩
  · have := C152_composed
      (C152_dense junk junk junk relu_acts relu_lines (m := 2) (k := 2) (by decide) (fun _ _ => (1 : R)) (fun j => if j = 1 then -1 else 0)
        (wInit := exInit (fn2 fun _ _ => 1)) (bInit := exInit (fn1 fun j => if j = 1 then -1 else 0)) rfl rfl)
      (C152_dense junk junk junk noop_acts id_lines (m := 2) (k := 2) (by decide)
        (fun l j => if j = 0 then (0 : R) else if l = 0 then 2 else -4) (fun j => if j = 0 then 1 else 0)
        (wInit := exInit (fn2 fun l j => if j = 0 then 0 else if l = 0 then 2 else -4))
        (bInit := exInit (fn1 fun j => if j = 0 then 1 else 0)) rfl rfl)
    simpa [xorNet] using this
  · have ex : (⟨[4, 2], [0, 0, 0, 1, 1, 0, 1, 1]⟩ : Tensor R) =
        tab [4, 2] (fn2 fun b i => if i = 0 then (if 2 ≤ b then (1 : R) else 0) else if b % 2 = 1 then 1 else 0) := by
      simp [tab, List.range_succ, unravel, fn2]
    rw [ex]
    refine Gives.comp (y := tab [4, 2] (fn2 fun b j => if j = 0 then (if 2 ≤ b then (1 : R) else 0) + (if b % 2 = 1 then 1 else 0) else
      if b = 3 then 1 else 0)) (.of (C77_dense junk junk junk relu_acts (n := 4) (m := 2) (k := 2) (by decide) _ (fun _ _ => 1)
        (fun j => if j = 1 then -1 else 0) rfl rfl) rfl ?_)
      (.of (C77_dense junk junk junk noop_acts (n := 4) (m := 2) (k := 2) (by decide) _
        (fun l j => if j = 0 then (0 : R) else if l = 0 then 2 else -4) (fun j => if j = 0 then 1 else 0) rfl rfl) rfl ?_)
    · simp [tab, List.range_succ, unravel, fn2, seqSum]
    · simp [tab, List.range_succ, unravel, fn2, seqSum]
      norm_num
  · have e : ([1, 0, 1, 2, 1, 2, 1, 0] : List R) = (tab [4, 2] (fn2 fun b j => if j = 0 then (1 : R) else if b = 1 ∨ b = 2 then 2 else 0)).data := by
      simp [tab, List.range_succ, unravel, fn2]
    obtain ⟨a, ea, ha⟩ := C57_argmax u32 (n := 2) (rows := 4) (by decide)
      (fun b j => if j = 0 then (1 : R) else if b = 1 ∨ b = 2 then 2 else 0) hz
    rw [e, ea]
    have key : ∀ b < 4, a b = if b = 1 ∨ b = 2 then 1 else 0 := fun b hb => by
      obtain ⟨h1, h2, -⟩ := ha b hb
      have hab : a b = 0 ∨ a b = 1 := by omega
      by_cases hc : b = 1 ∨ b = 2
      · have := h2 1 (by decide)
        rw [if_pos hc]
        rcases hab with h | h
        · simp only [h, hc, if_true, one_ne_zero, if_false] at this
          exact absurd this (by norm_num)
        · exact h
      · have := h2 0 (by decide)
        rw [if_neg hc]
        rcases hab with h | h
        · exact h
        · simp only [h, hc, if_true, one_ne_zero, if_false] at this
          exact absurd this (by norm_num)
    congr 1
    simp only [List.range_succ, List.range_zero, List.map_nil, List.map_cons, List.nil_append, List.cons_append]
    rw [key 0 (by decide), key 1 (by decide), key 2 (by decide), key 3 (by decide)]
    decide

/-- C152: `relu` is not one line, so two lines are needed for it. -/
theorem C152_relu_lines [Field R] [LinearOrder R] [IsStrictOrderedRing R] (junk : Nat → R) :
    ¬ Pieces (activationOf junk fun a : R => if 0 < a then a else 0) [1] [1] 1 := by
  rintro ⟨G, g1, W, B, g2⟩
  have key : ∀ a : R, (if 0 < a then a else 0) = a * W 0 0 0 + B 0 0 := fun a => by
    obtain ⟨q, hq⟩ := g2 fun _ => a
    have q0 : q = 0 := Subsingleton.elim _ _
    subst q0
    have e : (tab [1, 1] fun _ => a) = (tab [1, 1] fun _ => a) := rfl
    have h : Gives (activationOf junk fun a : R => if 0 < a then a else 0) (tab [1, 1] fun _ => a)
        ⟨[1, 1], (tab [1, 1] fun _ => a).data.map fun a => if 0 < a then a else 0⟩ :=
      .of (activationOf_run junk _ _ (by simp)) rfl rfl
    have e2 := congrArg Tensor.data (h.unique (g1 1 fun _ _ => a))
    have := hq [0] ⟨by decide, trivial⟩
    simp only [affineMap, List.prod_cons, List.prod_nil, mul_one, sum_range_one, offset_cons, offset_nil, zero_add] at this
    rw [← this]
    simpa [tab, unravel] using e2
  have h0 := key 0
  have h1 := key 1
  have h2 := key (-1)
  simp at h0 h1 h2
  rw [if_neg (by linarith [zero_lt_one (α := R)])] at h2
  rw [← h0] at h1 h2
  norm_num at h1 h2
  rw [← h1] at h2
  norm_num at h2

/-! ## Non-vacuity -/

/-- Two dense layers without activation. -/
theorem exTwoDense : Pieces (composed
    (fun x => dense (fun _ => 1) (fun _ => 2) (fun _ => 3) noopAct 4 x (exInit (fn2 fun l j => (l : ℚ) - j)) (exInit (fn1 fun j => (j : ℚ))))
    (fun x => dense (fun _ => 4) (fun _ => 5) (fun _ => 6) noopAct 2 x (exInit (fn2 fun l j => (l : ℚ) * j - 1)) (exInit (fn1 fun j => 1 - (j : ℚ)))))
    [3] [2] 1 := by
  have := C152_composed
    (C152_dense (fun _ => 1) (fun _ => 2) (fun _ => 3) noop_acts id_lines (m := 3) (k := 4) (by decide) (fun l j => (l : ℚ) - j)
      (fun j => (j : ℚ)) (wInit := exInit (fn2 fun l j => (l : ℚ) - j)) (bInit := exInit (fn1 fun j => (j : ℚ))) rfl rfl)
    (C152_dense (fun _ => 4) (fun _ => 5) (fun _ => 6) noop_acts id_lines (m := 4) (k := 2) (by decide) (fun l j => (l : ℚ) * j - 1)
      (fun j => 1 - (j : ℚ)) (wInit := exInit (fn2 fun l j => (l : ℚ) * j - 1)) (bInit := exInit (fn1 fun j => 1 - (j : ℚ))) rfl rfl)
  simpa using this

example := C152_one_layer exTwoDense (by decide)
example := C152_layers (C152_xor_relu (R := ℚ) fun _ => 7).1 (by decide)
example := C152_sequential (fun _ => 7) [xorNet (fun _ => (1 : ℚ)), xorNet fun _ => 2] (fun _ => [2]) (fun _ => 4) fun i hi => by
  match i, hi with
  | 0, _ => exact (C152_xor_relu _).1
  | 1, _ => exact (C152_xor_relu _).1
example := C152_reshape (ds := [1, 3]) (es := [3]) (by decide) exTwoDense
example := C152_shared (H := exL) (W := exW) (by decide) (by decide) (fun r s k e => (r : ℚ) - s + k * e) 1 1 2 0 0 1
example := C152_conv_nhwc (fun _ => 1) (fun _ => 2) (fun _ => 3) (fun _ => 4) (fun _ => 5) (fun r s k e => (r : ℚ) - s + k * e)
  (fun e => 9 * e) relu_acts relu_lines exL_ok exW_ok exLayer_axes (c := 3) (by decide)
  (wInit := exInit (fn4 fun r s k e => (r : ℚ) - s + k * e)) (bInit := exInit (fn1 fun e => (9 : ℚ) * e)) rfl rfl
example := C152_conv_nchw (fun _ => 1) (fun _ => 2) (fun _ => 3) (fun _ => 4) (fun _ => 5) (fun e k r s => (r : ℚ) - s + k * e)
  (fun e => 9 * e) relu_acts relu_lines exL_ok exW_ok exLayer_axes (c := 3)
  (wInit := exInit (fn4 fun e k r s => (r : ℚ) - s + k * e)) (bInit := exInit (fn1 fun e => (9 : ℚ) * e)) rfl rfl
example (x : List ℚ) (hx : x.length = 2 * [exL.n, exW.n, 3].prod) := C152_conv_dense (fun _ => 1) (fun _ => 2) (fun _ => 3) (fun _ => 4)
  (fun _ => 5) (fun r s k e => (r : ℚ) - s + k * e) (fun e => 9 * e) relu_acts exL_ok exW_ok exLayer_axes (c := 3) (by decide)
  (wInit := exInit (fn4 fun r s k e => (r : ℚ) - s + k * e)) (bInit := exInit (fn1 fun e => (9 : ℚ) * e)) rfl rfl (by decide)
  (fun _ => 6) (fun _ => 7) (fun _ => 8)
  (wInit' := exInit (fn2 (toeplitz exL exW 3 exLayer.filters fun r s k e => (r : ℚ) - s + k * e)))
  (bInit' := exInit (fn1 fun q => 9 * ((q % exLayer.filters : Nat) : ℚ))) rfl rfl 2 x hx
example := C152_max_pool (R := ℚ) (fun _ => 1) (-128) exPadH_ok exPadW_ok exPad_axes 3
example := C152_mean_pool (R := ℚ) (fun _ => 1) exPoolH_ok exPoolW_ok exPool_axes (by decide) 3 (by decide)
example := C152_activation (fun _ => (1 : ℚ)) relu_lines [2, 3, 4]
example := C152_bn_nhwc id (1 / 8) (fun _ => 1) (fun _ => 2) (fun _ => 3) (fun _ => 4) (fun _ => 5) (h := 2) (w := 3) (c := 2)
  (fun k => (k : ℚ)) (fun k => 1 + k) (fun k => 2 - k) (fun k => 3 * k) relu_acts relu_lines (meanInit := exInit (fn1 fun k => k))
  (varInit := exInit (fn1 fun k => 1 + k)) (betaInit := exInit (fn1 fun k => 2 - k)) (gammaInit := exInit (fn1 fun k => 3 * k))
  rfl rfl rfl rfl fun k _ => by show (1 + (k : ℚ)) + 1 / 8 ≠ 0; positivity
example := C152_bn_nchw id (1 / 8) (fun _ => 1) (fun _ => 2) (fun _ => 3) (fun _ => 4) (fun _ => 5) (h := 2) (w := 3) (c := 2)
  (fun k => (k : ℚ)) (fun k => 1 + k) (fun k => 2 - k) (fun k => 3 * k) relu_acts relu_lines (meanInit := exInit (fn1 fun k => k))
  (varInit := exInit (fn1 fun k => 1 + k)) (betaInit := exInit (fn1 fun k => 2 - k)) (gammaInit := exInit (fn1 fun k => 3 * k))
  rfl rfl rfl rfl fun k _ => by show (1 + (k : ℚ)) + 1 / 8 ≠ 0; positivity
example := C152_square (C152_activation (fun _ => (1 : ℚ)) relu_lines [1]) (fun i => (i : ℚ)) fun _ _ h => Fin.ext (Nat.cast_injective (R := ℚ) h)

end StdNN
