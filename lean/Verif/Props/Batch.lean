import Verif.Props.NetLaws
import Verif.Props.PoolPolicy
/-!
# C111: the examples of a batch do not influence one another
-/
namespace StdNN
open IntTy Spec Outcome Layers Models
variable {R : Type}

/-- The layer call on `x` returns the output `y`; only the tensors owned by the result stay allocated. -/
def Gives (f : LayerFn R) (x y : Tensor R) : Prop := ∃ ws : List (Tensor R), f x = ⟨1 + ws.length, .ok ⟨y, ws⟩⟩

/-- `f` maps batches of examples of shape `ds` to batches of examples of shape `es` (batch dimension first), and a batch put
together from two batches gives the two outputs put together: nothing an example computes depends on its neighbours, on its
position or on the size of the batch. -/
def Batchwise (f : LayerFn R) (ds es : List Nat) : Prop :=
  ∀ (a b : Nat) (x y : List R), x.length = a * ds.prod → y.length = b * ds.prod →
    ∃ u v : List R, u.length = a * es.prod ∧ v.length = b * es.prod ∧
      Gives f ⟨a :: ds, x⟩ ⟨a :: es, u⟩ ∧ Gives f ⟨b :: ds, y⟩ ⟨b :: es, v⟩ ∧
      Gives f ⟨(a + b) :: ds, x ++ y⟩ ⟨(a + b) :: es, u ++ v⟩

theorem Gives.unique {f : LayerFn R} {x y y' : Tensor R} (h : Gives f x y) (h' : Gives f x y') : y = y' := by
  obtain ⟨ws, h⟩ := h
  obtain ⟨ws', h'⟩ := h'
  have := h.symm.trans h'
  simp only [Alloc.mk.injEq, Outcome.ok.injEq, Layer.mk.injEq] at this
  exact this.2.1

theorem Gives.comp {f g : LayerFn R} {x y z : Tensor R} (hf : Gives f x y) (hg : Gives g y z) : Gives (composed f g) x z := by
  obtain ⟨us, hf⟩ := hf
  obtain ⟨vs, hg⟩ := hg
  exact ⟨vs, composed_run hf hg rfl⟩

theorem Gives.of {f : LayerFn R} {x y y' : Tensor R} {a : Int} {ws : List (Tensor R)} (h : f x = ⟨a, .ok ⟨y', ws⟩⟩)
    (ha : a = 1 + ws.length) (hy : y' = y) : Gives f x y := ⟨ws, by rw [h, ha, hy]⟩

/-! ## From one formula per example -/

/-- `f` computes the example `G x` from every example `x` of the batch. -/
def PerExample (f : LayerFn R) (ds es : List Nat) (G : (List Nat → R) → List Nat → R) : Prop :=
  ∀ (n : Nat) (X : Nat → List Nat → R),
    Gives f (tab (n :: ds) fun idx => X (idx.headD 0) idx.tail) (tab (n :: es) fun idx => G (X (idx.headD 0)) idx.tail)

/-- Two batches one after the other. -/
theorem tab_append (a b : Nat) (ds : List Nat) (X : Nat → List Nat → R) :
    (tab (a :: ds) fun idx => X (idx.headD 0) idx.tail).data ++
      (tab (b :: ds) fun idx => X (a + idx.headD 0) idx.tail).data =
    (tab ((a + b) :: ds) fun idx => X (idx.headD 0) idx.tail).data := by
  refine data_eq_tab (by simp [Nat.add_mul]) fun idx hv => ?_
  match idx, hv with
  | i :: is, hv =>
    simp only [valid_cons] at hv
    have ho := offset_lt hv.2
    rw [offset_cons]
    by_cases hi : i < a
    · have hl := offset_lt (dims := a :: ds) (idx := i :: is) ⟨hi, hv.2⟩
      have := tab_getElem? (dims := a :: ds) (idx := i :: is) (fun idx => X (idx.headD 0) idx.tail) ⟨hi, hv.2⟩
      rw [offset_cons] at this hl
      rw [List.getElem?_append_left (by simpa using hl), this]
    · have := tab_getElem? (dims := b :: ds) (idx := (i - a) :: is) (fun idx => X (a + idx.headD 0) idx.tail)
        ⟨by omega, hv.2⟩
      rw [offset_cons] at this
      have e : i * ds.prod = a * ds.prod + (i - a) * ds.prod := by rw [← Nat.add_mul]; congr 1; omega
      rw [List.getElem?_append_right (by simp; omega), tab_length, List.prod_cons, e, Nat.add_assoc, Nat.add_sub_cancel_left,
        this]
      simp only [List.headD_cons, List.tail_cons, show a + (i - a) = i by omega]

/-- The rows of a batch. -/
theorem tab_rows [Zero R] {a : Nat} {ds : List Nat} {x : List R} (hx : x.length = a * ds.prod) :
    ∃ X : Nat → List Nat → R, x = (tab (a :: ds) fun idx => X (idx.headD 0) idx.tail).data := by
  have : Inhabited R := ⟨0⟩
  obtain ⟨f, hf⟩ := Tensor.WF.exists_tab (t := (⟨a :: ds, x⟩ : Tensor R)) (by simpa [Tensor.WF] using hx)
  refine ⟨fun i is => f (i :: is), ?_⟩
  have h2 : (tab (a :: ds) f) = tab (a :: ds) fun idx => f (idx.headD 0 :: idx.tail) := by
    refine tab_congr fun idx hv => ?_
    match idx, hv with
    | i :: is, _ => rfl
  have := congrArg Tensor.data hf
  rw [h2] at this
  exact this

theorem PerExample.batchwise [Zero R] {f : LayerFn R} {ds es : List Nat} {G : (List Nat → R) → List Nat → R}
    (h : PerExample f ds es G) : Batchwise f ds es := by
  intro a b x y hx hy
  obtain ⟨X, rfl⟩ := tab_rows hx
  obtain ⟨Y, rfl⟩ := tab_rows hy
  let Z : Nat → List Nat → R := fun i => if i < a then X i else Y (i - a)
  have eX : ∀ {ds' : List Nat} (K : (List Nat → R) → List Nat → R), (tab (a :: ds') fun idx => K (X (idx.headD 0)) idx.tail) =
      tab (a :: ds') fun idx => K (Z (idx.headD 0)) idx.tail := fun K => by
    refine tab_congr fun idx hv => ?_
    match idx, hv with
    | i :: is, hv => simp only [valid_cons] at hv; simp [Z, hv.1]
  have eY : ∀ {ds' : List Nat} (K : (List Nat → R) → List Nat → R), (tab (b :: ds') fun idx => K (Y (idx.headD 0)) idx.tail) =
      tab (b :: ds') fun idx => K (Z (a + idx.headD 0)) idx.tail := fun K => by
    refine tab_congr fun idx hv => ?_
    match idx, hv with
    | i :: is, hv => simp [Z]
  have hX := h a X
  have hY := h b Y
  have hZ := h (a + b) Z
  refine ⟨(tab (a :: es) fun idx => G (X (idx.headD 0)) idx.tail).data,
    (tab (b :: es) fun idx => G (Y (idx.headD 0)) idx.tail).data, by simp, by simp, hX, hY, ?_⟩
  have e1 := tab_append a b ds Z
  have e2 := tab_append a b es fun i => G (Z i)
  rw [← eX (fun x => x), ← eY (fun x => x)] at e1
  rw [← eX G, ← eY G] at e2
  rw [e1, e2]
  exact hZ

/-! ## Networks of such layers -/

/-- C111 (networks): layers that treat the examples of a batch separately, one after the other. -/
theorem C111_composed {f g : LayerFn R} {ds es fs : List Nat} (hf : Batchwise f ds es) (hg : Batchwise g es fs) :
    Batchwise (composed f g) ds fs := by
  intro a b x y hx hy
  obtain ⟨u, v, hu, hv, f1, f2, f3⟩ := hf a b x y hx hy
  obtain ⟨p, q, hp, hq, g1, g2, g3⟩ := hg a b u v hu hv
  exact ⟨p, q, hp, hq, f1.comp g1, f2.comp g2, f3.comp g3⟩

theorem identity_batchwise [Zero R] (junk : Nat → R) (ds : List Nat) : Batchwise (Layers.identity junk) ds ds := by
  intro a b x y hx hy
  refine ⟨x, y, hx, hy, ⟨[], identity_run junk ?_⟩, ⟨[], identity_run junk ?_⟩, ⟨[], identity_run junk ?_⟩⟩
  · simpa [Tensor.WF] using hx
  · simpa [Tensor.WF] using hy
  · simp [Tensor.WF, hx, hy, Nat.add_mul]

/-- C111 (sequential models): `shapes i` is the shape of the examples before layer `i`. -/
theorem C111_sequential [Zero R] (junk : Nat → R) (ls : List (LayerFn R)) (shapes : Nat → List Nat)
    (h : ∀ i (hi : i < ls.length), Batchwise ls[i] (shapes i) (shapes (i + 1))) :
    Batchwise (sequential junk ls) (shapes 0) (shapes ls.length) := by
  induction ls using List.reverseRecOn with
  | nil => exact identity_batchwise junk _
  | append_singleton ls l ih =>
    rw [sequential_snoc]
    have hl := h ls.length (by simp)
    simp only [List.getElem_append_right (le_refl _), Nat.sub_self, List.getElem_cons_zero] at hl
    have := ih fun i hi => by
      have := h i (by simp; omega)
      rwa [List.getElem_append_left hi] at this
    simpa using C111_composed this hl

/-- C111 (one by one): the output for a batch consists of the outputs for its examples, each run on its own. -/
theorem C111_one_by_one {f : LayerFn R} {ds es : List Nat} (h : Batchwise f ds es) (xs : List (List R))
    (hx : ∀ x ∈ xs, x.length = ds.prod) :
    ∃ ys : List (List R), ys.length = xs.length ∧ (∀ y ∈ ys, y.length = es.prod) ∧
      (∀ p ∈ xs.zip ys, Gives f ⟨1 :: ds, p.1⟩ ⟨1 :: es, p.2⟩) ∧
      Gives f ⟨xs.length :: ds, xs.flatten⟩ ⟨xs.length :: es, ys.flatten⟩ := by
  induction xs with
  | nil =>
    obtain ⟨u, v, hu, -, g, -⟩ := h 0 0 [] [] (by simp) (by simp)
    have : u = [] := by simpa using hu
    subst this
    exact ⟨[], rfl, by simp, by simp, g⟩
  | cons x xs ih =>
    obtain ⟨ys, l, hl, hs, hg⟩ := ih fun x hm => hx x (List.mem_cons_of_mem _ hm)
    have hfl : xs.flatten.length = xs.length * ds.prod := by
      rw [List.length_flatten, List.map_congr_left (g := fun _ => ds.prod) (fun x hm => hx x (List.mem_cons_of_mem _ hm))]
      simp
    obtain ⟨u, v, hu, hv, g1, g2, g3⟩ := h 1 xs.length x xs.flatten (by simp [hx]) hfl
    have := g2.unique hg
    simp only [Tensor.mk.injEq, true_and] at this
    subst this
    refine ⟨u :: ys, by simp [l], fun y hy => ?_, fun p hp => ?_, ?_⟩
    · rcases List.mem_cons.1 hy with rfl | hy
      · simpa using hu
      · exact hl y hy
    · rw [List.zip_cons_cons] at hp
      rcases List.mem_cons.1 hp with rfl | hp
      · exact g1
      · exact hs p hp
    · rw [List.length_cons, Nat.add_comm, List.flatten_cons, List.flatten_cons]
      exact g3

/-! ## The layers -/

/-- C111 (dense layers), any arithmetic. -/
theorem C111_dense [Zero R] [Add R] [Mul R] (junkW junkY junkB : Nat → R) {act : Act R} {f : R → R} (hact : ActsAs act f)
    {m k : Nat} (hk : k < 2 ^ 32) (W : Nat → Nat → R) (B : Nat → R) {wInit bInit : Init R}
    (hw : wInit [m, k] (fresh junkW [m, k].prod) = .ok (tab [m, k] (fn2 W)).data)
    (hb : bInit [k] (fresh junkB [k].prod) = .ok (tab [k] (fn1 B)).data) :
    Batchwise (fun x => dense junkW junkY junkB act k x wInit bInit) [m] [k] := by
  refine PerExample.batchwise (G := fun x => fn1 fun j => f ((seqSum m fun l => x [l] * W l j) + B j)) fun n X => ?_
  have e := C77_dense junkW junkY junkB hact (n := n) hk (fun i l => X i [l]) W B hw hb
  have e1 : (tab [n, m] fun idx => X (idx.headD 0) idx.tail) = tab [n, m] (fn2 fun i l => X i [l]) := by
    refine tab_congr fun idx hv => ?_
    match idx, hv with
    | [i, j], _ => rfl
  rw [e1]
  refine .of e rfl (tab_congr fun idx hv => ?_)
  match idx, hv with
  | [i, j], _ => rfl

theorem tab4_rows [Zero R] (n a b c : Nat) (X : Nat → List Nat → R) :
    (tab [n, a, b, c] fun idx => X (idx.headD 0) idx.tail) = tab [n, a, b, c] (fn4 fun l i j k => X l [i, j, k]) := by
  refine tab_congr fun idx hv => ?_
  match idx, hv with
  | [i, j, k, l], _ => rfl

/-- C111 (convolution layers, `nhwc`), any arithmetic. -/
theorem C111_conv_nhwc [Zero R] [Add R] [Mul R] (junkW junkY junkB : Nat → R) (junkI : Nat → Int) (junk : Nat → R)
    {act : Act R} {f : R → R} (hact : ActsAs act f) {H W : Axis} (hH : AxisOK u32 H) (hW : AxisOK u32 W) {t : ConvLayer}
    (ht : HasAxes t H W) {c : Nat} (hsz : [H.n, W.n, c].prod ≤ 2 ^ 31) (Y : Nat → Nat → Nat → Nat → R) (B : Nat → R)
    {wInit bInit : Init R}
    (hw : wInit [H.k, W.k, c, t.filters] (fresh junkW [H.k, W.k, c, t.filters].prod) =
      .ok (tab [H.k, W.k, c, t.filters] (fn4 Y)).data)
    (hb : bInit [t.filters] (fresh junkB [t.filters].prod) = .ok (tab [t.filters] (fn1 B)).data) :
    Batchwise (fun x => Layers.conv .nhwc .rscd junkW junkY junkB junkI junk act t x wInit bInit)
      [H.n, W.n, c] [H.m, W.m, t.filters] := by
  refine PerExample.batchwise (G := fun x => fn3 fun i j e => f ((seqSum (H.k * (W.k * c)) fun p =>
      window H W (fun a a' => x [a, a', p % (W.k * c) % c]) i j (p / (W.k * c)) (p % (W.k * c) / c) *
        Y (p / (W.k * c)) (p % (W.k * c) / c) (p % (W.k * c) % c) e) + B e)) fun n X => ?_
  rw [tab4_rows]
  refine .of (conv_layer_nhwc junkW junkY junkB junkI junk hact hH hW ht (n := n) (fun l i j k => X l [i, j, k]) Y _ B
    (fun z hz => C91_conv_order hH hW hsz _ Y junkI junk hz) hw hb) rfl (tab_congr fun idx hv => ?_)
  match idx, hv with
  | [b, i, j, e], _ => rfl

/-- C111 (convolution layers, `nchw`), any arithmetic. -/
theorem C111_conv_nchw [Zero R] [Add R] [Mul R] (junkW junkY junkB : Nat → R) (junkI : Nat → Int) (junk : Nat → R)
    {act : Act R} {f : R → R} (hact : ActsAs act f) {H W : Axis} (hH : AxisOK u32 H) (hW : AxisOK u32 W) {t : ConvLayer}
    (ht : HasAxes t H W) {c : Nat} (Y : Nat → Nat → Nat → Nat → R) (B : Nat → R) {wInit bInit : Init R}
    (hw : wInit [t.filters, c, H.k, W.k] (fresh junkW [t.filters, c, H.k, W.k].prod) =
      .ok (tab [t.filters, c, H.k, W.k] (fn4 Y)).data)
    (hb : bInit [t.filters] (fresh junkB [t.filters].prod) = .ok (tab [t.filters] (fn1 B)).data) :
    Batchwise (fun x => Layers.conv .nchw .dcrs junkW junkY junkB junkI junk act t x wInit bInit)
      [c, H.n, W.n] [t.filters, H.m, W.m] := by
  refine PerExample.batchwise (G := fun x => fn3 fun e i j => f ((seqSum (c * (H.k * W.k)) fun p =>
      Y e (p / (H.k * W.k)) (p % (H.k * W.k) / W.k) (p % (H.k * W.k) % W.k) *
        window H W (fun a a' => x [p / (H.k * W.k), a, a']) i j (p % (H.k * W.k) / W.k) (p % (H.k * W.k) % W.k)) + B e))
    fun n X => ?_
  rw [tab4_rows]
  refine .of (conv_layer_nchw junkW junkY junkB junkI junk hact hH hW ht (n := n) (fun l i j k => X l [i, j, k]) Y _ B
    (fun z hz => C91_conv_order_nchw hH hW _ Y junk hz) hw hb) rfl (tab_congr fun idx hv => ?_)
  match idx, hv with
  | [b, i, j, e], _ => rfl

/-- C111 (pooling layers, both layouts), for an accumulator that gives a value for every window. -/
theorem C111_pool [Zero R] (junk : Nat → R) (acc : Acc R) {H W : Axis} (hH : AxisOK u32 H) (hW : AxisOK u32 W)
    {t : PoolLayer} (ht : PoolHasAxes t H W) (c : Nat) (v : List R → R)
    (hv : ∀ l, l.length ≤ H.k * W.k → acc.run l = .ok (v l)) :
    Batchwise (pool .nhwc junk acc t) [H.n, W.n, c] [H.m, W.m, c] ∧
    Batchwise (pool .nchw junk acc t) [c, H.n, W.n] [c, H.m, W.m] := by
  have oH := shifted_ok hH
  have oW := shifted_ok hW
  have hp : ∀ (Y : Nat → Nat → R) i j, (pixels (shifted H) (shifted W) Y i j).length ≤ H.k * W.k := fun Y i j => by
    rw [pixels_length oH.fits.r1 oW.fits.r1]
    exact win_card_le oH.fits.r1 oW.fits.r1 i j
  constructor
  · refine PerExample.batchwise (G := fun x => fn3 fun i j k =>
      v (pixels (shifted H) (shifted W) (fun a a' => x [a, a', k]) i j)) fun n X => ?_
    rw [tab4_rows]
    refine .of (poolLayer_gen junk acc hH hW ht (n := n) (c := c) (fun l i j k => X l [i, j, k]) (fun b i j k =>
      v (pixels (shifted H) (shifted W) (fun a a' => X b [a, a', k]) i j)) fun b _ i _ j _ k _ => hv _ (hp _ i j)).1 rfl
      (tab_congr fun idx hv => ?_)
    match idx, hv with
    | [b, i, j, e], _ => rfl
  · refine PerExample.batchwise (G := fun x => fn3 fun k i j =>
      v (pixels (shifted H) (shifted W) (fun a a' => x [k, a, a']) i j)) fun n X => ?_
    rw [tab4_rows]
    refine .of (poolLayer_gen junk acc hH hW ht (n := n) (c := c) (fun l i j k => X l [k, i, j]) (fun b i j k =>
      v (pixels (shifted H) (shifted W) (fun a a' => X b [k, a, a']) i j)) fun b _ i _ j _ k _ => hv _ (hp _ i j)).2 rfl
      (tab_congr fun idx hv => ?_)
    match idx, hv with
    | [b, i, j, e], _ => rfl

/-- C111 (max pooling layers). -/
theorem C111_max_pool [Zero R] [LT R] [DecidableLT R] (junk : Nat → R) (lowest : R) {H W : Axis} (hH : AxisOK u32 H)
    (hW : AxisOK u32 W) {t : PoolLayer} (ht : PoolHasAxes t H W) (c : Nat) :
    Batchwise (pool .nhwc junk (Acc.max lowest) t) [H.n, W.n, c] [H.m, W.m, c] ∧
    Batchwise (pool .nchw junk (Acc.max lowest) t) [c, H.n, W.n] [c, H.m, W.m] :=
  C111_pool junk _ hH hW ht c _ fun l _ => max_run lowest l

/-- C111 (mean pooling layers): `divn` is the division by the number of pixels. -/
theorem C111_mean_pool [Zero R] [Add R] (junk : Nat → R) (divn : R → Nat → R) {H W : Axis} (hH : AxisOK u32 H)
    (hW : AxisOK u32 W) {t : PoolLayer} (ht : PoolHasAxes t H W) (hk : H.k * W.k < 2 ^ 32) (c : Nat) :
    Batchwise (pool .nhwc junk (Acc.mean divn) t) [H.n, W.n, c] [H.m, W.m, c] ∧
    Batchwise (pool .nchw junk (Acc.mean divn) t) [c, H.n, W.n] [c, H.m, W.m] :=
  C111_pool junk _ hH hW ht c _ fun l hl => mean_run divn l (by omega)

/-- C111 (batch normalisation, `nhwc`), any arithmetic: the statistics are parameters, not computed from the batch. -/
theorem C111_bn_nhwc [Zero R] [Add R] [Sub R] [Mul R] [Div R] (sqrt : R → R) (eps : R)
    (junkM junkV junkB junkG junkY : Nat → R) {act : Act R} {f : R → R}
    (hact : ActsAs act f) {h w c : Nat} (M V β γ : Nat → R) {meanInit varInit betaInit gammaInit : Init R}
    (h1 : meanInit [c] (fresh junkM [c].prod) = .ok (tab [c] (fn1 M)).data)
    (h2 : varInit [c] (fresh junkV [c].prod) = .ok (tab [c] (fn1 V)).data)
    (h3 : betaInit [c] (fresh junkB [c].prod) = .ok (tab [c] (fn1 β)).data)
    (h4 : gammaInit [c] (fresh junkG [c].prod) = .ok (tab [c] (fn1 γ)).data) :
    Batchwise (fun x => Layers.batchNorm sqrt eps .nhwc junkM junkV junkB junkG junkY act x meanInit varInit betaInit
      gammaInit) [h, w, c] [h, w, c] := by
  refine PerExample.batchwise (G := fun x => fn3 fun i j k =>
    f ((x [i, j, k] - M k) / (sqrt (V k) + eps) * γ k + β k)) fun n X => ?_
  rw [tab4_rows]
  refine .of (C86_bn_nhwc sqrt eps junkM junkV junkB junkG junkY hact (n := n) (fun l i j k => X l [i, j, k]) M V β γ h1 h2 h3
    h4) rfl (tab_congr fun idx hv => ?_)
  match idx, hv with
  | [b, i, j, e], _ => rfl

/-- C111 (batch normalisation, `nchw`). -/
theorem C111_bn_nchw [Zero R] [Add R] [Sub R] [Mul R] [Div R] (sqrt : R → R) (eps : R)
    (junkM junkV junkB junkG junkY : Nat → R) {act : Act R} {f : R → R}
    (hact : ActsAs act f) {h w c : Nat} (M V β γ : Nat → R) {meanInit varInit betaInit gammaInit : Init R}
    (h1 : meanInit [c] (fresh junkM [c].prod) = .ok (tab [c] (fn1 M)).data)
    (h2 : varInit [c] (fresh junkV [c].prod) = .ok (tab [c] (fn1 V)).data)
    (h3 : betaInit [c] (fresh junkB [c].prod) = .ok (tab [c] (fn1 β)).data)
    (h4 : gammaInit [c] (fresh junkG [c].prod) = .ok (tab [c] (fn1 γ)).data) :
    Batchwise (fun x => Layers.batchNorm sqrt eps .nchw junkM junkV junkB junkG junkY act x meanInit varInit betaInit
      gammaInit) [c, h, w] [c, h, w] := by
  refine PerExample.batchwise (G := fun x => fn3 fun k i j =>
    f ((x [k, i, j] - M k) / (sqrt (V k) + eps) * γ k + β k)) fun n X => ?_
  rw [tab4_rows]
  refine .of (C86_bn_nchw sqrt eps junkM junkV junkB junkG junkY hact (n := n) (fun l i j k => X l [i, j, k]) M V β γ h1 h2 h3
    h4) rfl (tab_congr fun idx hv => ?_)
  match idx, hv with
  | [b, i, j, e], _ => rfl

/-- C111 (elementwise activation layers). -/
theorem C111_activation [Zero R] (junk : Nat → R) (f : R → R) (ds : List Nat) :
    Batchwise (activationOf junk f) ds ds := by
  intro a b x y hx hy
  refine ⟨x.map f, y.map f, by simpa, by simpa, ⟨[], ?_⟩, ⟨[], ?_⟩, ⟨[], ?_⟩⟩
  · exact activationOf_run junk f ⟨a :: ds, x⟩ (by simpa using hx)
  · exact activationOf_run junk f ⟨b :: ds, y⟩ (by simpa using hy)
  · rw [← List.map_append]
    exact activationOf_run junk f ⟨(a + b) :: ds, x ++ y⟩ (by simp [hx, hy, Nat.add_mul])

/-- C111 (softmax layers), any arithmetic. -/
theorem C111_softmax [Zero R] [One R] [Add R] [Sub R] [Div R] [LT R] [DecidableLT R] (junk : Nat → R) (exp : R → R)
    (eps : R) (ds : List Nat) (k : Nat) :
    Batchwise (activation junk fun s x m => Ops.softmax exp eps s x.dims (.ext x.data) 0 m) (ds ++ [k]) (ds ++ [k]) := by
  refine PerExample.batchwise (G := fun x idx =>
    let v := 1 / seqSum k fun j => exp (x (idx.dropLast ++ [j]) - x (idx.dropLast ++ [idx.getLastD 0]))
    if eps < v then v else eps) fun n X => ?_
  have e := C51_order exp eps (n :: ds) k (fun idx => X (idx.headD 0) idx.tail) (z := 0)
    (m := fresh junk (n :: (ds ++ [k])).prod) (by simp [fresh_length])
  rw [store_all (by simp [fresh_length])] at e
  have e2 : newResult junk (.ok (n :: (ds ++ [k]))) (fun s m => Ops.softmax exp eps s (n :: (ds ++ [k]))
      (.ext (tab (n :: (ds ++ [k])) fun idx => X (idx.headD 0) idx.tail).data) 0 m) = _ := newResult_run e
  refine .of (ws := []) (a := 1) (y' := ?_) ?_ rfl ?_
  rotate_left
  · show Alloc.bind _ _ = _
    simp only [Ops.endoShape, tab_dims]
    rw [e2]
    rfl
  · refine mk_tab_eq (dims := n :: (ds ++ [k])) fun idx hv => ?_
    match idx, hv with
    | b :: i :: is, hv => simp
    | [b], hv => cases ds <;> simp at hv

/-- Non-vacuity: a dense layer with `relu` on a batch of two plus a batch of one. -/
example :
    let f : LayerFn Int := fun x => dense (fun _ => 5) (fun _ => 6) (fun _ => 7) reluAct 2 x
      (fun _ _ => .ok [1, -1, 2, 0]) (fun _ _ => .ok [0, 10])
    Batchwise f [2] [2] ∧ Gives f ⟨[2, 2], [1, 2, 3, 4]⟩ ⟨[2, 2], [5, 9, 11, 7]⟩ ∧ Gives f ⟨[1, 2], [0, -1]⟩ ⟨[1, 2], [0, 10]⟩ ∧
    Gives f ⟨[3, 2], [1, 2, 3, 4, 0, -1]⟩ ⟨[3, 2], [5, 9, 11, 7, 0, 10]⟩ := by
  refine ⟨C111_dense (R := Int) _ _ _ relu_acts (m := 2) (k := 2) (by decide) (fun i j =>
      if i = 0 then (if j = 0 then 1 else -1) else if j = 0 then 2 else 0) (fun j => 10 * j) (by decide) (by decide), ⟨[⟨[2, 2], [1, -1, 2, 0]⟩, ⟨[2], [0, 10]⟩], by decide⟩,
    ⟨[⟨[2, 2], [1, -1, 2, 0]⟩, ⟨[2], [0, 10]⟩], by decide⟩, ⟨[⟨[2, 2], [1, -1, 2, 0]⟩, ⟨[2], [0, 10]⟩], by decide⟩⟩

/-- The property is not trivial: a layer that adds the first example to every example does not have it. -/
example : ¬ Batchwise (fun x : Tensor Int => ⟨1, .ok ⟨⟨x.dims, x.data.map (· + x.data.headD 0)⟩, []⟩⟩) [1] [1] := by
  intro h
  obtain ⟨u, v, -, -, ⟨_, h1⟩, ⟨_, h2⟩, ⟨_, h3⟩⟩ := h 1 1 [1] [2] rfl rfl
  simp at h1 h2 h3
  obtain ⟨-, rfl, -⟩ := h1
  obtain ⟨-, rfl, -⟩ := h2
  simp at h3

/-! ## Concrete cases -/

/-- A layer that adds 1 to every element. -/
def exInc : LayerFn Int := fun x => ⟨1, .ok ⟨⟨x.dims, x.data.map (· + 1)⟩, []⟩⟩

theorem exInc_batch (ds : List Nat) : Batchwise exInc ds ds := fun n m x y hx hy =>
  ⟨x.map (· + 1), y.map (· + 1), by simpa using hx, by simpa using hy, ⟨[], rfl⟩, ⟨[], rfl⟩,
    ⟨[], by simp [exInc]⟩⟩

example := C111_composed (exInc_batch [2, 3]) (exInc_batch [2, 3])
example := C111_sequential (fun _ => 0) [exInc, exInc, exInc] (fun _ => [2, 3])
  (by intro i hi; match i with | 0 | 1 | 2 => exact exInc_batch _)
example := C111_one_by_one (exInc_batch [2]) [[1, 2], [3, 4], [5, 6]] (by decide)
example := C111_conv_nhwc (R := Int) (fun _ => 1) (fun _ => 2) (fun _ => 3) (fun _ => 4) (fun _ => 5) relu_acts exL_ok exW_ok
  exLayer_axes (c := 3) (by decide) (fun r s k e => r - s + k * e) (fun e => 9 * e)
  (wInit := exInit (fn4 fun r s k e => r - s + k * e)) (bInit := exInit (fn1 fun e => 9 * e)) rfl rfl
example := C111_conv_nchw (R := Int) (fun _ => 1) (fun _ => 2) (fun _ => 3) (fun _ => 4) (fun _ => 5) relu_acts exL_ok exW_ok
  exLayer_axes (c := 3) (fun e k r s => r - s + k * e) (fun e => 9 * e)
  (wInit := exInit (fn4 fun e k r s => r - s + k * e)) (bInit := exInit (fn1 fun e => 9 * e)) rfl rfl
example := C111_pool (R := Int) (fun _ => 1) (Acc.max (-128)) exPadH_ok exPadW_ok exPad_axes 3 _ fun l _ => max_run (-128) l
example := C111_max_pool (R := Int) (fun _ => 1) (-128) exPadH_ok exPadW_ok exPad_axes 3
example := C111_mean_pool (fun _ => 1) (fun (x : ℚ) n => x / n) exPadH_ok exPadW_ok exPad_axes (by decide) 3
example := C111_bn_nhwc (R := ℚ) id (1 / 8) (fun _ => 1) (fun _ => 2) (fun _ => 3) (fun _ => 4) (fun _ => 5) relu_acts
  (h := 2) (w := 3) (c := 2) (fun k => k) (fun k => 1 + k) (fun k => 2 - k) (fun k => 3 * k) (meanInit := exInit (fn1 fun k => k))
  (varInit := exInit (fn1 fun k => 1 + k)) (betaInit := exInit (fn1 fun k => 2 - k)) (gammaInit := exInit (fn1 fun k => 3 * k))
  rfl rfl rfl rfl
example := C111_bn_nchw (R := ℚ) id (1 / 8) (fun _ => 1) (fun _ => 2) (fun _ => 3) (fun _ => 4) (fun _ => 5) relu_acts
  (h := 2) (w := 3) (c := 2) (fun k => k) (fun k => 1 + k) (fun k => 2 - k) (fun k => 3 * k) (meanInit := exInit (fn1 fun k => k))
  (varInit := exInit (fn1 fun k => 1 + k)) (betaInit := exInit (fn1 fun k => 2 - k)) (gammaInit := exInit (fn1 fun k => 3 * k))
  rfl rfl rfl rfl

end StdNN
