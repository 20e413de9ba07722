import Verif.Lemmas.Pool
import Verif.Lemmas.Elementwise
import Verif.Props.Shapes
/-!
# C10, C36-C41: pooling
-/
namespace StdNN
open IntTy Spec Outcome
variable {R : Type}

/-! ## C10 -/

theorem pool_make {H W : Axis} (hH : AxisOK u32 H) (hW : AxisOK u32 W) (rH : H.r = 1) (rW : W.r = 1) :
    PoolTrait.make (H.k, W.k) (⟨H.l, H.q⟩, ⟨W.l, W.q⟩) (H.s, W.s) = .ok (poolTrait H W) := by
  have f := hH.fits
  have g := hW.fits
  have h1 := f.k1; have h2 := f.s1; have h3 := g.k1; have h4 := g.s1
  unfold PoolTrait.make Sample.make
  have m1 := Filter.make_ok f.hN f.hk f.hs f.hr (by omega) (by omega) (by omega)
  have m2 := Filter.make_ok g.hN g.hk g.hs g.hr (by omega) (by omega) (by omega)
  have m1' : Filter.make u32 ((H.k, W.k).1 : Nat) ((H.s, W.s).1 : Nat) 1 = .ok ⟨H.k, H.s, H.r⟩ := by
    rw [rH] at m1 ⊢; exact m1
  have m2' : Filter.make u32 ((H.k, W.k).2 : Nat) ((H.s, W.s).2 : Nat) 1 = .ok ⟨W.k, W.s, W.r⟩ := by
    rw [rW] at m2 ⊢; exact m2
  rw [m1', m2']
  rfl

/-- The shape part of pooling on one image axis pair. -/
theorem pool_outShape {H W : Axis} (hH : AxisOK u32 H) (hW : AxisOK u32 W) :
    (poolTrait H W).outShape (H.n, W.n) = .ok (H.m, W.m) := by
  unfold PoolTrait.outShape
  have e1 : (poolTrait H W).h.outSize u32 ((H.n, W.n).1 : Nat) = .ok (H.m : Int) := sample_outSize hH
  have e2 : (poolTrait H W).w.outSize u32 ((H.n, W.n).2 : Nat) = .ok (W.m : Int) := sample_outSize hW
  rw [e1, e2]
  rfl

/-- C10: height and width are sampled, batch and channels are kept, in both layouts; and for a single image. -/
theorem C10_pool_shape {H W : Axis} (hH : AxisOK u32 H) (hW : AxisOK u32 W) (rH : H.r = 1) (rW : W.r = 1)
    {o : Order} {n c : Nat} {xs : List Nat} (hx : batchedImageShape o n (H.n, W.n) c = .ok xs) :
    (do let t ← PoolTrait.make (H.k, W.k) (⟨H.l, H.q⟩, ⟨W.l, W.q⟩) (H.s, W.s)
        Ops.pooledShape o t xs) = batchedImageShape o n (H.m, W.m) c ∧
    (do let t ← PoolTrait.make (H.k, W.k) (⟨H.l, H.q⟩, ⟨W.l, W.q⟩) (H.s, W.s)
        t.outShape (H.n, W.n)) = .ok (H.m, W.m) := by
  rw [pool_make hH hW rH rW, Outcome.ok_bind, Outcome.ok_bind]
  refine ⟨?_, pool_outShape hH hW⟩
  have h := pool_outShape hH hW
  cases o <;> simp only [batchedImageShape, reduceCtorEq, Outcome.ok.injEq] at hx <;> subst hx <;>
    simp only [Ops.pooledShape, batchSize, imageShape, channelSize, getDim, Order.batchPos, Order.heightPos,
      Order.widthPos, Order.channelPos, List.getElem?_cons_zero, List.getElem?_cons_succ, Outcome.ok_bind,
      Outcome.pure_eq, h]

/-- C10: an image that the windows do not cover exactly is rejected with `std::invalid_argument`. -/
theorem C10_rejects {H W : Axis} (hH : Fits u32 u32 H.k H.s H.r H.l H.q H.n)
    (hW : Fits u32 u32 W.k W.s W.r W.l W.q W.n)
    (hno : (∀ m, ¬ OutLen H.k H.s H.r H.l H.q H.n m) ∨ ∀ m, ¬ OutLen W.k W.s W.r W.l W.q W.n m)
    {o : Order} {n c : Nat} {xs : List Nat} (hx : batchedImageShape o n (H.n, W.n) c = .ok xs) :
    Ops.pooledShape o (poolTrait H W) xs = .throw .invalidArgument ∧
      (poolTrait H W).outShape (H.n, W.n) = .throw .invalidArgument := by
  have key : (poolTrait H W).outShape (H.n, W.n) = .throw .invalidArgument := by
    have ev : ∀ A : Axis, Fits u32 u32 A.k A.s A.r A.l A.q A.n →
        (∃ m, OutLen A.k A.s A.r A.l A.q A.n m ∧ A.sample.outSize u32 A.n = .ok (m : Int)) ∨
        A.sample.outSize u32 A.n = .throw .invalidArgument := by
      intro A f
      have h1 := f.k1; have h2 := f.s1; have h3 := f.r1
      have e : sampleCall u32 u32 A.k A.s A.r A.l A.q A.n = A.sample.outSize u32 A.n := by
        unfold sampleCall
        rw [Filter.make_ok f.hN f.hk f.hs f.hr (by omega) (by omega) (by omega), Outcome.ok_bind]
        unfold Sample.outSize Axis.sample
        rfl
      rcases C01_total f with ⟨m, hm, e'⟩ | ⟨-, e'⟩
      · exact Or.inl ⟨m, hm, e ▸ e'⟩
      · exact Or.inr (e ▸ e')
    unfold PoolTrait.outShape
    rcases ev H hH with ⟨m, hm, e⟩ | e
    · rcases ev W hW with ⟨m', hm', e'⟩ | e'
      · rcases hno with hno | hno
        · exact absurd hm (hno m)
        · exact absurd hm' (hno m')
      · have e1 : (poolTrait H W).h.outSize u32 ((H.n, W.n).1 : Nat) = .ok (m : Int) := e
        have e2 : (poolTrait H W).w.outSize u32 ((H.n, W.n).2 : Nat) = .throw .invalidArgument := e'
        rw [e1, e2]; rfl
    · have e1 : (poolTrait H W).h.outSize u32 ((H.n, W.n).1 : Nat) = .throw .invalidArgument := e
      rw [e1]; rfl
  refine ⟨?_, key⟩
  cases o <;> simp only [batchedImageShape, reduceCtorEq, Outcome.ok.injEq] at hx <;> subst hx <;>
    simp only [Ops.pooledShape, batchSize, imageShape, channelSize, getDim, Order.batchPos, Order.heightPos,
      Order.widthPos, Order.channelPos, List.getElem?_cons_zero, List.getElem?_cons_succ, Outcome.ok_bind,
      Outcome.pure_eq, key, Outcome.throw_bind]

/-- C10: omitted stride means stride = kernel size, omitted padding means 0, omitted kernel means 2 × 2. -/
theorem C10_defaults (k s : Nat × Nat) (p : Padding × Padding) :
    PoolTrait.default = PoolTrait.make (2, 2) (⟨0, 0⟩, ⟨0, 0⟩) (2, 2) ∧
      PoolTrait.makeK k = PoolTrait.make k (⟨0, 0⟩, ⟨0, 0⟩) k ∧
      PoolTrait.makeKS k s = PoolTrait.make k (⟨0, 0⟩, ⟨0, 0⟩) s ∧ PoolTrait.makeKP k p = PoolTrait.make k p k :=
  ⟨rfl, rfl, rfl, rfl⟩

/-- C10: a zero kernel size or stride is rejected on construction. -/
theorem C10_zero_rejected {k s : Nat × Nat} (hk1 : k.1 < 2 ^ 32) (hk2 : k.2 < 2 ^ 32) (hs1 : s.1 < 2 ^ 32)
    (hs2 : s.2 < 2 ^ 32) (p : Padding × Padding) (h : k.1 = 0 ∨ k.2 = 0 ∨ s.1 = 0 ∨ s.2 = 0) :
    PoolTrait.make k p s = .throw .invalidArgument := by
  have b : ∀ v : Nat, v < 2 ^ 32 → u32.In (v : Int) := by
    intro v hv
    refine ⟨?_, ?_⟩
    · rw [u32_lo]; omega
    · rw [u32_hi]; omega
  have c1 := C03_constructor (N := u32) u32_std (b _ hk1) (b _ hs1) (show u32.In 1 from b 1 (by norm_num))
  have c2 := C03_constructor (N := u32) u32_std (b _ hk2) (b _ hs2) (show u32.In 1 from b 1 (by norm_num))
  unfold PoolTrait.make Sample.make
  by_cases h1 : k.1 = 0 ∨ s.1 = 0
  · rw [c1.1.2 (by omega)]
    rfl
  · rw [c1.2 (by omega), Outcome.ok_bind, Outcome.pure_eq, Outcome.ok_bind, c2.1.2 (by omega)]
    rfl

/-- Geometry used in the examples: 2 × 2 windows with stride 2 on a 4 × 2 image, and 3 × 3 windows with stride 1 and
padding 1 on a 3-pixel axis. -/
def exP : Axis := ⟨2, 2, 1, 0, 0, 4, 2⟩
/-- See `exP`. -/
def exQ : Axis := ⟨3, 1, 1, 1, 1, 3, 3⟩
theorem exP_ok : AxisOK u32 exP := by
  refine ⟨⟨u32_std, u32_std, ?_, ?_, ?_, ?_, ?_, ?_, ?_, ?_, ?_, ?_, ?_, ?_⟩, ?_⟩ <;> decide
theorem exQ_ok : AxisOK u32 exQ := by
  refine ⟨⟨u32_std, u32_std, ?_, ?_, ?_, ?_, ?_, ?_, ?_, ?_, ?_, ?_, ?_, ?_⟩, ?_⟩ <;> decide

/-- Non-vacuity of C10, with a rejected shape: 5 is not covered by windows of 2 with stride 2. -/
example : exP.r = 1 ∧ exQ.r = 1 ∧ batchedImageShape .nchw 7 (exP.n, exQ.n) 3 = .ok [7, 3, 4, 3] ∧
    Ops.pooledShape .nchw (poolTrait exP exQ) [7, 3, 4, 3] = .ok [7, 3, 2, 3] ∧
    Ops.pooledShape .nhwc (poolTrait exP exQ) [7, 5, 3, 3] = .throw .invalidArgument ∧
    (∀ m, ¬ OutLen 2 2 1 0 0 5 m) := by
  refine ⟨rfl, rfl, rfl, by decide, by decide, ?_⟩
  intro m
  unfold OutLen patch
  omega

/-! ## Windows -/

theorem mem_pixels {H W : Axis} {X : Nat → Nat → R} {i j : Nat} {x : R} :
    x ∈ pixels H W X i j ↔ ∃ a b, Under H W i j a b ∧ x = X a b := by
  unfold pixels Under Axis.Hits
  simp only [List.mem_flatMap, List.mem_range, List.mem_filterMap, Option.ite_none_right_eq_some, Option.some.injEq]
  constructor
  · rintro ⟨u, hu, v, hv, c, rfl⟩
    exact ⟨_, _, ⟨⟨u, hu, by omega, by omega⟩, v, hv, by omega, by omega⟩, rfl⟩
  · rintro ⟨a, b, ⟨⟨u, hu, h1, h2⟩, v, hv, h3, h4⟩, rfl⟩
    refine ⟨u, hu, v, hv, ⟨⟨by omega, by omega⟩, by omega, by omega⟩, ?_⟩
    have e1 : H.pos i u - H.l = a := by omega
    have e2 : W.pos j v - W.l = b := by omega
    rw [e1, e2]

theorem pixels_map {S : Type} (H W : Axis) (X : Nat → Nat → R) (f : R → S) (i j : Nat) :
    pixels H W (fun a b => f (X a b)) i j = (pixels H W X i j).map f := by
  unfold pixels
  rw [List.map_flatMap]
  refine congrArg (fun g => (List.range H.k).flatMap g) (funext fun u => ?_)
  rw [List.map_filterMap]
  refine congrArg (fun g => (List.range W.k).filterMap g) (funext fun v => ?_)
  split <;> rfl

section sums
open Finset
variable [AddCommMonoid R]

theorem padded_sum' (a : Axis) (f : Nat → R) (j u : Nat) :
    padded a.l a.n f (a.pos j u) = ∑ i ∈ range a.n, if a.Hits j u i then f i else 0 := by
  unfold padded
  by_cases c : a.l ≤ a.pos j u ∧ a.pos j u < a.l + a.n
  · rw [if_pos c, sum_eq_single (a.pos j u - a.l)]
    · rw [if_pos ⟨by omega, by omega⟩]
    · intro b _ hne
      exact if_neg fun h => by have := h.2; omega
    · intro h
      exact absurd (mem_range.2 (by omega)) h
  · rw [if_neg c]
    symm
    apply sum_eq_zero
    intro b _
    exact if_neg fun h => by have := h.1; have := h.2; omega

theorem axis_sum {a : Axis} (r1 : 1 ≤ a.r) (f : Nat → R) (j : Nat) :
    ∑ u ∈ range a.k, padded a.l a.n f (a.pos j u) =
      ∑ x ∈ range a.n, if ∃ u < a.k, a.Hits j u x then f x else 0 := by
  simp only [padded_sum']
  rw [sum_comm]
  refine sum_congr rfl fun x _ => ?_
  by_cases h : ∃ u < a.k, a.Hits j u x
  · rw [if_pos h]
    obtain ⟨u, hu, hh⟩ := h
    rw [sum_eq_single u]
    · rw [if_pos hh]
    · intro v _ hne
      refine if_neg fun hv => hne ?_
      have h1 := hh.2
      have h2 := hv.2
      unfold Axis.pos at h1 h2
      exact Nat.eq_of_mul_eq_mul_right r1 (by omega)
    · intro hn
      exact absurd (mem_range.2 hu) hn
  · rw [if_neg h]
    refine sum_eq_zero fun u hu => if_neg fun hh => h ⟨u, mem_range.1 hu, hh⟩

theorem pixels_sum {H W : Axis} (hr : 1 ≤ H.r) (wr : 1 ≤ W.r) (X : Nat → Nat → R) (i j : Nat) :
    (pixels H W X i j).sum = ∑ p ∈ win H W i j, X p.1 p.2 := by
  have fm : ∀ (n : Nat) (g : Nat → Option R), ((List.range n).filterMap g).sum = ∑ v ∈ range n, (g v).getD 0 := by
    intro n g
    induction n with
    | zero => rfl
    | succ n ih =>
      rw [List.range_succ, List.filterMap_append, List.sum_append, ih, sum_range_succ]
      cases h : g n <;> simp [h]
  have fl : ∀ (n : Nat) (g : Nat → List R), ((List.range n).flatMap g).sum = ∑ u ∈ range n, (g u).sum := by
    intro n g
    induction n with
    | zero => rfl
    | succ n ih => rw [List.range_succ, List.flatMap_append, List.sum_append, ih, sum_range_succ]; simp
  have e1 : (pixels H W X i j).sum = ∑ u ∈ range H.k, ∑ v ∈ range W.k,
      padded H.l H.n (fun a => padded W.l W.n (X a) (W.pos j v)) (H.pos i u) := by
    unfold pixels
    rw [fl]
    refine sum_congr rfl fun u _ => ?_
    rw [fm]
    refine sum_congr rfl fun v _ => ?_
    unfold padded
    by_cases c1 : H.l ≤ H.pos i u ∧ H.pos i u < H.l + H.n
    · by_cases c2 : W.l ≤ W.pos j v ∧ W.pos j v < W.l + W.n
      · simp [c1, c2]
      · simp [c1, c2]
    · simp [c1]
  rw [e1, sum_comm]
  simp only [axis_sum hr]
  rw [sum_comm]
  unfold win
  rw [sum_filter, sum_product]
  refine sum_congr rfl fun a _ => ?_
  unfold Under
  by_cases h : ∃ u < H.k, H.Hits i u a
  · simp only [h, true_and]
    simp only [if_true]
    exact axis_sum wr (X a) j
  · simp only [h, false_and, if_false, sum_const_zero]

end sums

theorem pixels_length {H W : Axis} (hr : 1 ≤ H.r) (wr : 1 ≤ W.r) (X : Nat → Nat → R) (i j : Nat) :
    (pixels H W X i j).length = (win H W i j).card := by
  have h := pixels_sum (R := Nat) hr wr (fun _ _ => 1) i j
  rw [Finset.sum_const, smul_eq_mul, Nat.mul_one] at h
  rw [← h, pixels_map H W X (fun _ => 1)]
  simp

theorem mem_win {H W : Axis} {i j a b : Nat} : (a, b) ∈ win H W i j ↔ Under H W i j a b := by
  unfold win
  simp only [Finset.mem_filter, Finset.mem_product, Finset.mem_range, and_iff_right_iff_imp]
  rintro ⟨⟨u, -, h, -⟩, v, -, h', -⟩
  exact ⟨h, h'⟩

/-! ## C36 -/

theorem max_run [LT R] [DecidableLT R] (lowest : R) (l : List R) :
    (Acc.max lowest).run l = .ok (l.foldl (fun v x => if x > v then x else v) lowest) := by
  have : ∀ s : R, l.foldlM (m := Outcome) (fun v x => .ok (if x > v then x else v)) s =
      .ok (l.foldl (fun v x => if x > v then x else v) s) := by
    induction l with
    | nil => intro s; rfl
    | cons x l ih => intro s; simp only [List.foldlM_cons, Outcome.ok_bind, List.foldl_cons, ih]
  unfold Acc.run Acc.max
  simp only [this, Outcome.ok_bind]

theorem fold_max [LinearOrder R] (l : List R) (s : R) :
    let m := l.foldl (fun v x => if x > v then x else v) s
    s ≤ m ∧ (∀ x ∈ l, x ≤ m) ∧ (m = s ∨ m ∈ l) := by
  induction l generalizing s with
  | nil => exact ⟨le_rfl, by simp, Or.inl rfl⟩
  | cons x l ih =>
    obtain ⟨h1, h2, h3⟩ := ih (if x > s then x else s)
    simp only [List.foldl_cons]
    by_cases c : x > s
    · simp only [if_pos c] at h1 h2 h3 ⊢
      refine ⟨le_trans c.le h1, ?_, ?_⟩
      · intro y hy
        rcases List.mem_cons.1 hy with rfl | hy
        · exact h1
        · exact h2 y hy
      · rcases h3 with h3 | h3
        · exact Or.inr (by rw [h3]; exact List.mem_cons_self)
        · exact Or.inr (List.mem_cons_of_mem _ h3)
    · simp only [if_neg c] at h1 h2 h3 ⊢
      refine ⟨h1, ?_, ?_⟩
      · intro y hy
        rcases List.mem_cons.1 hy with rfl | hy
        · exact le_trans (not_lt.1 c) h1
        · exact h2 y hy
      · rcases h3 with h3 | h3
        · exact Or.inl h3
        · exact Or.inr (List.mem_cons_of_mem _ h3)

theorem Under_lt {H W : Axis} {i j a b : Nat} (h : Under H W i j a b) : a < H.n ∧ b < W.n := by
  obtain ⟨⟨_, _, h1⟩, ⟨_, _, h2⟩⟩ := h
  exact ⟨h1.1, h2.1⟩

/-- `v` is the greatest pixel under window `(i, j)` of the image `X`; `lowest` if no pixel is under it. -/
def IsWindowMax [LE R] (lowest : R) (H W : Axis) (X : Nat → Nat → R) (i j : Nat) (v : R) : Prop :=
  (∀ a b, Under H W i j a b → X a b ≤ v) ∧
    ((∃ a b, Under H W i j a b ∧ v = X a b) ∨ ((∀ a b, ¬ Under H W i j a b) ∧ v = lowest))

theorem fold_isMax [LinearOrder R] {lowest : R} (H W : Axis) (X : Nat → Nat → R)
    (hlow : ∀ a < H.n, ∀ b < W.n, lowest ≤ X a b) (i j : Nat) :
    IsWindowMax lowest H W X i j ((pixels H W X i j).foldl (fun v x => if x > v then x else v) lowest) := by
  obtain ⟨h1, h2, h3⟩ := fold_max (pixels H W X i j) lowest
  refine ⟨fun a b hu => h2 _ (mem_pixels.2 ⟨a, b, hu, rfl⟩), ?_⟩
  rcases h3 with h3 | h3
  · by_cases he : ∃ a b, Under H W i j a b
    · obtain ⟨a, b, hu⟩ := he
      refine Or.inl ⟨a, b, hu, le_antisymm ?_ (h2 _ (mem_pixels.2 ⟨a, b, hu, rfl⟩))⟩
      rw [h3]
      exact hlow a (Under_lt hu).1 b (Under_lt hu).2
    · exact Or.inr ⟨fun a b hu => he ⟨a, b, hu⟩, h3⟩
  · obtain ⟨a, b, hu, e⟩ := mem_pixels.1 h3
    exact Or.inl ⟨a, b, hu, e⟩

/-- C36: two-dimensional max pooling writes the greatest pixel of every window (padding never wins), or `lowest` for a
window without pixels; any accepted geometry, whatever the output held. No pixel is below `lowest`. -/
theorem C36_max_pool [LinearOrder R] [Zero R] {lowest : R} {H W : Axis} (hH : AxisOK u32 H) (hW : AxisOK u32 W)
    (X : Nat → Nat → R) (hlow : ∀ a < H.n, ∀ b < W.n, lowest ≤ X a b) {y : List R} (hy : y.length = [H.m, W.m].prod) :
    ∃ Z : Nat → Nat → R,
      Kernels.poolHw (Acc.max lowest) (poolTrait H W) [H.m, W.m] (tab [H.n, W.n] (fn2 X)) y =
        .ok (tab [H.m, W.m] (fn2 Z)).data ∧
      ∀ i < H.m, ∀ j < W.m, IsWindowMax lowest H W X i j (Z i j) :=
  ⟨_, Kernels.poolHw_run hH hW _ X _ (fun i _ j _ => max_run lowest _) hy, fun i _ j _ => fold_isMax H W X hlow i j⟩

/-- C36: the same per channel for `hwc` images. -/
theorem C36_max_pool_hwc [LinearOrder R] [Zero R] {lowest : R} {H W : Axis} (hH : AxisOK u32 H) (hW : AxisOK u32 W)
    {c : Nat} (X : Nat → Nat → Nat → R) (hlow : ∀ a < H.n, ∀ b < W.n, ∀ k < c, lowest ≤ X a b k) {y : List R}
    (hy : y.length = [H.m, W.m, c].prod) :
    ∃ Z : Nat → Nat → Nat → R,
      Kernels.poolHwc (Acc.max lowest) (poolTrait H W) [H.m, W.m, c] (tab [H.n, W.n, c] (fn3 X)) y =
        .ok (tab [H.m, W.m, c] (fn3 Z)).data ∧
      ∀ i < H.m, ∀ j < W.m, ∀ k < c, IsWindowMax lowest H W (fun a b => X a b k) i j (Z i j k) :=
  ⟨_, Kernels.poolHwc_run hH hW _ X (fun i j k => (pixels H W (fun a b => X a b k) i j).foldl
      (fun v x => if x > v then x else v) lowest) (fun i _ j _ k _ => max_run lowest _) hy,
    fun i _ j _ k hk => fold_isMax H W _ (fun a ha b hb => hlow a ha b hb k hk) i j⟩

/-- C36: without any assumption on `lowest` (the least finite float is not below minus infinity) the result is the greatest
of `lowest` and the pixels. -/
theorem C36_lowest [LinearOrder R] [Zero R] (lowest : R) {H W : Axis} (hH : AxisOK u32 H)
    (hW : AxisOK u32 W) (X : Nat → Nat → R) {y : List R} (hy : y.length = [H.m, W.m].prod) :
    ∃ Z : Nat → Nat → R,
      Kernels.poolHw (Acc.max lowest) (poolTrait H W) [H.m, W.m] (tab [H.n, W.n] (fn2 X)) y =
        .ok (tab [H.m, W.m] (fn2 Z)).data ∧
      ∀ i < H.m, ∀ j < W.m, lowest ≤ Z i j ∧ (∀ a b, Under H W i j a b → X a b ≤ Z i j) ∧
        (Z i j = lowest ∨ ∃ a b, Under H W i j a b ∧ Z i j = X a b) := by
  refine ⟨_, Kernels.poolHw_run hH hW _ X _ (fun i _ j _ => max_run lowest _) hy, fun i _ j _ => ?_⟩
  obtain ⟨h1, h2, h3⟩ := fold_max (pixels H W X i j) lowest
  exact ⟨h1, fun a b hu => h2 _ (mem_pixels.2 ⟨a, b, hu, rfl⟩), h3.imp id mem_pixels.1⟩

/-- C36: a channel mismatch between input and output is a `std::runtime_error`. -/
theorem C36_channel_mismatch (acc : Acc R) (t : PoolTrait) {h w c h_ w_ c' : Nat} (hc : c ≠ c') (x y : List R) :
    Kernels.poolHwc acc t [h_, w_, c'] ⟨[h, w, c], x⟩ y = .throw .runtimeError := by
  simp only [Kernels.poolHwc, contractAssert_neg hc, Outcome.throw_bind]

/-- Non-vacuity: a 4 × 3 image with values below zero, padded windows. -/
example : AxisOK u32 exP ∧ AxisOK u32 exQ ∧
    Kernels.poolHw (Acc.max (-128 : Int)) (poolTrait exP exQ) [2, 3]
      ⟨[4, 3], [-1, -2, -3, -4, -5, -6, -7, -8, -9, -10, -11, -12]⟩ [0, 0, 0, 0, 0, 0] =
        .ok [-1, -1, -2, -7, -7, -8] :=
  ⟨exP_ok, exQ_ok, by decide⟩

/-! ## C37 -/

theorem u32_count {n : Nat} (h : n + 1 < 2 ^ 32) : u32.add (n : Int) 1 = .ok ((n + 1 : Nat) : Int) := by
  have e : (2 : Nat) ^ 32 = 4294967296 := by norm_num
  rw [e] at h
  have hh := u32_hi
  have hl := u32_lo
  have := add_eq (t := u32) u32_std (a := n) (b := 1) ⟨by rw [hl]; omega, by rw [hh]; omega⟩
    ⟨by rw [hl]; omega, by rw [hh]; omega⟩ ⟨by rw [hl]; omega, by rw [hh]; omega⟩
  rw [this]
  rfl

theorem mean_run [Zero R] [Add R] (divn : R → Nat → R) (l : List R) (h : l.length < 2 ^ 32) :
    (Acc.mean divn).run l = .ok (divn (l.foldl (· + ·) 0) l.length) := by
  have key : ∀ (l : List R) (s : R) (n : Nat), n + l.length < 2 ^ 32 →
      l.foldlM (m := Outcome) (fun (st : R × Nat) x => do
        let n ← u32.add st.2 1
        return (st.1 + x, n.toNat)) (s, n) = .ok (l.foldl (· + ·) s, n + l.length) := by
    intro l
    induction l with
    | nil => intro s n _; rfl
    | cons x l ih =>
      intro s n hn
      simp only [List.length_cons] at hn
      rw [List.foldlM_cons, u32_count (by omega)]
      simp only [Outcome.ok_bind, Outcome.pure_eq, Int.toNat_natCast]
      refine (ih (s + x) (n + 1) (by omega)).trans ?_
      simp only [List.foldl_cons, List.length_cons]
      congr 2
      omega
  unfold Acc.run Acc.mean
  have := key l 0 0 (by omega)
  rw [this, Outcome.ok_bind]
  simp

/-- The number of pixels under a window is at most the number of taps. -/
theorem win_card_le {H W : Axis} (hr : 1 ≤ H.r) (wr : 1 ≤ W.r) (i j : Nat) : (win H W i j).card ≤ H.k * W.k := by
  rw [← pixels_length hr wr (fun _ _ => ()) i j]
  unfold pixels
  have : ∀ (n m : Nat) (g : Nat → Nat → Option Unit),
      ((List.range n).flatMap fun u => (List.range m).filterMap (g u)).length ≤ n * m := by
    intro n m g
    induction n with
    | zero => simp
    | succ n ih =>
      rw [List.range_succ, List.flatMap_append, List.length_append, Nat.succ_mul]
      have : ((List.range m).filterMap (g n)).length ≤ m := by
        simpa using List.length_filterMap_le (g n) (List.range m)
      simpa using Nat.add_le_add ih this
  exact this H.k W.k _

/-- C37, bit for bit: mean pooling adds the pixels of the window row by row starting from 0 (padding is skipped) and divides
once by their number. Kernels have fewer than 2^32 taps. -/
theorem C37_order [Zero R] [Add R] (divn : R → Nat → R) {H W : Axis} (hH : AxisOK u32 H) (hW : AxisOK u32 W)
    (hk : H.k * W.k < 2 ^ 32) (X : Nat → Nat → R) {y : List R} (hy : y.length = [H.m, W.m].prod) :
    Kernels.poolHw (Acc.mean divn) (poolTrait H W) [H.m, W.m] (tab [H.n, W.n] (fn2 X)) y =
      .ok (tab [H.m, W.m] (fn2 fun i j => divn ((pixels H W X i j).foldl (· + ·) 0) (win H W i j).card)).data := by
  refine Kernels.poolHw_run hH hW _ X _ (fun i _ j _ => ?_) hy
  have hl := pixels_length hH.fits.r1 hW.fits.r1 X i j
  have := win_card_le hH.fits.r1 hW.fits.r1 i j
  rw [mean_run divn _ (by omega), hl]

/-- C37 for `hwc` images. -/
theorem C37_order_hwc [Zero R] [Add R] (divn : R → Nat → R) {H W : Axis} (hH : AxisOK u32 H) (hW : AxisOK u32 W)
    (hk : H.k * W.k < 2 ^ 32) {c : Nat} (X : Nat → Nat → Nat → R) {y : List R} (hy : y.length = [H.m, W.m, c].prod) :
    Kernels.poolHwc (Acc.mean divn) (poolTrait H W) [H.m, W.m, c] (tab [H.n, W.n, c] (fn3 X)) y =
      .ok (tab [H.m, W.m, c] (fn3 fun i j k =>
        divn ((pixels H W (fun a b => X a b k) i j).foldl (· + ·) 0) (win H W i j).card)).data := by
  refine Kernels.poolHwc_run hH hW _ X _ (fun i _ j _ k _ => ?_) hy
  have hl := pixels_length hH.fits.r1 hW.fits.r1 (fun a b => X a b k) i j
  have := win_card_le hH.fits.r1 hW.fits.r1 i j
  rw [mean_run divn _ (by omega), hl]

theorem foldl_add_sum [AddCommMonoid R] (l : List R) : l.foldl (· + ·) 0 = l.sum := by
  rw [List.sum_eq_foldl]

/-- C37: over a field the value is the mean of the pixels under the window, each pixel counted once and the padding not at
all (`0 / 0` for a window without pixels). Both image layouts. -/
theorem C37_mean_pool {F : Type} [Field F] {H W : Axis} (hH : AxisOK u32 H) (hW : AxisOK u32 W)
    (hk : H.k * W.k < 2 ^ 32) {c : Nat} (X : Nat → Nat → F) (Xc : Nat → Nat → Nat → F) {y yc : List F}
    (hy : y.length = [H.m, W.m].prod) (hyc : yc.length = [H.m, W.m, c].prod) :
    Kernels.poolHw (Acc.mean fun s n => s / (n : F)) (poolTrait H W) [H.m, W.m] (tab [H.n, W.n] (fn2 X)) y =
      .ok (tab [H.m, W.m] (fn2 fun i j => (∑ p ∈ win H W i j, X p.1 p.2) / ((win H W i j).card : F))).data ∧
    Kernels.poolHwc (Acc.mean fun s n => s / (n : F)) (poolTrait H W) [H.m, W.m, c] (tab [H.n, W.n, c] (fn3 Xc)) yc =
      .ok (tab [H.m, W.m, c] (fn3 fun i j k =>
        (∑ p ∈ win H W i j, Xc p.1 p.2 k) / ((win H W i j).card : F))).data := by
  constructor
  · rw [C37_order _ hH hW hk X hy]
    simp only [foldl_add_sum, pixels_sum hH.fits.r1 hW.fits.r1]
  · rw [C37_order_hwc _ hH hW hk Xc hyc]
    simp only [foldl_add_sum, pixels_sum hH.fits.r1 hW.fits.r1]

/-- Non-vacuity: corner windows of the padded axis hold fewer pixels. -/
example : AxisOK u32 exQ ∧ exQ.k * exQ.k < 2 ^ 32 ∧ (win exQ exQ 0 0).card = 4 ∧ (win exQ exQ 1 1).card = 9 ∧
    (win exQ exQ 0 1).card = 6 := by
  refine ⟨exQ_ok, ?_, ?_, ?_, ?_⟩ <;> decide

/-! ## C38 -/

/-- C38 is false: the mean of the two pixels -1 and -1 is computed as 2147483647. -/
theorem C38_negative_mean :
    Kernels.poolHw Acc.meanI32 (poolTrait ⟨1, 1, 1, 0, 0, 1, 1⟩ ⟨2, 2, 1, 0, 0, 2, 1⟩) [1, 1] ⟨[1, 2], [-1, -1]⟩ [0] =
      .ok [2147483647] := by decide

/-- C38: a window without pixels divides by zero, which is undefined for integers. -/
theorem C38_empty_window :
    AxisOK u32 ⟨1, 1, 1, 1, 0, 1, 2⟩ ∧
    Kernels.poolHw Acc.meanI32 (poolTrait ⟨1, 1, 1, 0, 0, 1, 1⟩ ⟨1, 1, 1, 1, 0, 1, 2⟩) [1, 2] ⟨[1, 1], [5]⟩ [0, 0] =
      .ub := by
  refine ⟨⟨⟨u32_std, u32_std, ?_, ?_, ?_, ?_, ?_, ?_, ?_, ?_, ?_, ?_, ?_, ?_⟩, ?_⟩, ?_⟩ <;> decide

theorem meanI32_mod (l : List Int) (hl : l.length < 2 ^ 32) (h1 : 1 ≤ l.length)
    (hb : (l.map fun x => |x|).sum ≤ 2147483647) :
    Acc.meanI32.run l = .ok (i32.conv (l.sum % 4294967296 / l.length)) := by
  have key : ∀ (l : List Int) (s : Int) (n : Nat), n + l.length < 2 ^ 32 →
      |s| + (l.map fun x => |x|).sum ≤ 2147483647 →
      l.foldlM (m := Outcome) (fun (st : Int × Nat) x => do
        let s ← i32.add st.1 x
        let n ← u32.add st.2 1
        return (s, n.toNat)) (s, n) = .ok (s + l.sum, n + l.length) := by
    intro l
    induction l with
    | nil => intro s n _ _; simp
    | cons x l ih =>
      intro s n hn hs
      simp only [List.length_cons, List.map_cons, List.sum_cons] at hn hs
      have pos : 0 ≤ (l.map fun x => |x|).sum := List.sum_nonneg (by
        intro a ha
        obtain ⟨b, -, rfl⟩ := List.mem_map.1 ha
        exact abs_nonneg b)
      have t := abs_add_le s x
      have bs := abs_le.1 (show |s| ≤ 2147483647 by have := abs_nonneg x; omega)
      have bx := abs_le.1 (show |x| ≤ 2147483647 by have := abs_nonneg s; omega)
      have bsx := abs_le.1 (show |s + x| ≤ 2147483647 by omega)
      have hi := i32_hi
      have hlo : i32.lo = -2147483648 := by decide
      have e : i32.add s x = .ok (s + x) := add_eq i32_std ⟨by omega, by omega⟩ ⟨by omega, by omega⟩
        ⟨by omega, by omega⟩
      rw [List.foldlM_cons, e, u32_count (by omega)]
      simp only [Outcome.ok_bind, Outcome.pure_eq, Int.toNat_natCast]
      refine (ih (s + x) (n + 1) (by omega) (by omega)).trans ?_
      simp only [List.sum_cons, List.length_cons]
      congr 2
      · omega
      · omega
  have := key l 0 0 (by omega) (by simpa using hb)
  unfold Acc.run Acc.meanI32
  simp only
  rw [this, Outcome.ok_bind]
  have e32 : (2 : Nat) ^ 32 = 4294967296 := by norm_num
  have hu : u32.conv (0 + l.sum) = l.sum % 4294967296 := by
    rw [zero_add]
    unfold conv u32
    norm_num
  have hd : u32.div (l.sum % 4294967296) ((0 + l.length : Nat) : Int) = .ok (l.sum % 4294967296 / l.length) := by
    rw [Nat.zero_add]
    exact div_eq u32_std ⟨by rw [u32_lo]; omega, by rw [u32_hi]; omega⟩ ⟨by rw [u32_lo]; omega, by rw [u32_hi]; omega⟩
      (by omega) (by omega)
  simp only [hu, hd, Outcome.ok_bind, Outcome.pure_eq]

theorem meanI32_run (l : List Int) (hl : l.length < 2 ^ 32) (h1 : 1 ≤ l.length)
    (hb : (l.map fun x => |x|).sum ≤ 2147483647) (h0 : 0 ≤ l.sum) : Acc.meanI32.run l = .ok (l.sum / l.length) := by
  have hsum : l.sum ≤ 2147483647 := by
    have : l.sum ≤ (l.map fun x => |x|).sum := by
      clear h0 hb h1 hl
      induction l with
      | nil => simp
      | cons x l ih => simp only [List.sum_cons, List.map_cons]; have := le_abs_self x; omega
    omega
  rw [meanI32_mod l hl h1 hb, Int.emod_eq_of_lt h0 (by omega)]
  have hq0 : 0 ≤ l.sum / (l.length : Int) := Int.ediv_nonneg h0 (by omega)
  have hq1 : l.sum / (l.length : Int) ≤ l.sum := Int.ediv_le_self _ h0
  rw [conv_eq i32_std ⟨by have : i32.lo = -2147483648 := by decide
                          omega, by rw [i32_hi]; omega⟩]

/-- What integer mean pooling computes for sums of either sign: the sum is taken modulo 2^32 before the division. -/
theorem C38_effect {H W : Axis} (hH : AxisOK u32 H) (hW : AxisOK u32 W) (hk : H.k * W.k < 2 ^ 32)
    (X : Nat → Nat → Int) {y : List Int} (hy : y.length = [H.m, W.m].prod)
    (hne : ∀ i < H.m, ∀ j < W.m, (win H W i j).Nonempty)
    (hb : ∀ i < H.m, ∀ j < W.m, ∑ p ∈ win H W i j, |X p.1 p.2| < 2 ^ 31) :
    Kernels.poolHw Acc.meanI32 (poolTrait H W) [H.m, W.m] (tab [H.n, W.n] (fn2 X)) y =
      .ok (tab [H.m, W.m] (fn2 fun i j =>
        i32.conv ((∑ p ∈ win H W i j, X p.1 p.2) % 4294967296 / ((win H W i j).card : Int)))).data := by
  refine Kernels.poolHw_run hH hW _ X _ (fun i hi j hj => ?_) hy
  have hl := pixels_length hH.fits.r1 hW.fits.r1 X i j
  have hs := pixels_sum hH.fits.r1 hW.fits.r1 X i j
  have ha := pixels_sum hH.fits.r1 hW.fits.r1 (fun a b => |X a b|) i j
  rw [pixels_map H W X (fun x => |x|)] at ha
  have hc := win_card_le hH.fits.r1 hW.fits.r1 i j
  have := Finset.card_pos.2 (hne i hi j hj)
  have hb' := hb i hi j hj
  have e31 : (2 : Int) ^ 31 = 2147483648 := by norm_num
  rw [e31] at hb'
  rw [meanI32_mod _ (by omega) (by omega) (by rw [ha]; omega), hs, hl]

/-- C38, what holds: if the pixels of a window sum to something non-negative, no intermediate sum can overflow (the absolute
values sum to less than 2^31) and every window holds a pixel, the result is the mean rounded towards zero. Missing from
the full claim: negative sums, see `C38_negative_mean`. -/
theorem C38_int_mean_partial {H W : Axis} (hH : AxisOK u32 H) (hW : AxisOK u32 W) (hk : H.k * W.k < 2 ^ 32)
    (X : Nat → Nat → Int) {y : List Int} (hy : y.length = [H.m, W.m].prod)
    (hne : ∀ i < H.m, ∀ j < W.m, (win H W i j).Nonempty)
    (hb : ∀ i < H.m, ∀ j < W.m, ∑ p ∈ win H W i j, |X p.1 p.2| < 2 ^ 31)
    (h0 : ∀ i < H.m, ∀ j < W.m, 0 ≤ ∑ p ∈ win H W i j, X p.1 p.2) :
    Kernels.poolHw Acc.meanI32 (poolTrait H W) [H.m, W.m] (tab [H.n, W.n] (fn2 X)) y =
      .ok (tab [H.m, W.m] (fn2 fun i j => (∑ p ∈ win H W i j, X p.1 p.2) / ((win H W i j).card : Int))).data := by
  refine Kernels.poolHw_run hH hW _ X _ (fun i hi j hj => ?_) hy
  have hl := pixels_length hH.fits.r1 hW.fits.r1 X i j
  have hs := pixels_sum hH.fits.r1 hW.fits.r1 X i j
  have ha := pixels_sum hH.fits.r1 hW.fits.r1 (fun a b => |X a b|) i j
  rw [pixels_map H W X (fun x => |x|)] at ha
  have hc := win_card_le hH.fits.r1 hW.fits.r1 i j
  have := Finset.card_pos.2 (hne i hi j hj)
  have hb' := hb i hi j hj
  have e31 : (2 : Int) ^ 31 = 2147483648 := by norm_num
  rw [e31] at hb'
  rw [meanI32_run _ (by omega) (by omega) (by rw [ha]; omega) (by rw [hs]; exact h0 i hi j hj), hs, hl]

/-- Non-vacuity: padded windows with a negative pixel, the first sums to 3 + 4 - 2 + 8 over 4 pixels. -/
example : Kernels.poolHw Acc.meanI32 (poolTrait exQ exQ) [3, 3] ⟨[3, 3], [3, 4, 0, -2, 8, 8, 8, 8, 8]⟩
    [9, 9, 9, 9, 9, 9, 9, 9, 9] = .ok [3, 3, 5, 4, 5, 6, 5, 6, 8] ∧
    (∀ i < exQ.m, ∀ j < exQ.m, (win exQ exQ i j).Nonempty) := by decide

/-! ## C39 -/

/-- What the four-dimensional operators compute, for every padding: the windows are placed as if all the padding were
behind the image, because the inner operator is built without padding. Any accumulator that returns. -/
theorem C39_effect [Zero R] (acc : Acc R) (hacc : ∀ l, ∃ r, acc.run l = .ok r) {H W : Axis} (hH : AxisOK u32 H)
    (hW : AxisOK u32 W) (rH : H.r = 1) (rW : W.r = 1) {n c : Nat} (X : Nat → Nat → Nat → Nat → R) {y : List R}
    (hy : y.length = [n, H.m, W.m, c].prod) {b : Nat} (hb : b < n) {y1 : List R} (hy1 : y1.length = [H.m, W.m, c].prod) :
    ∃ r, Ops.poolNhwc acc (poolTrait H W) [n, H.m, W.m, c] (tab [n, H.n, W.n, c] (fn4 X)) y = .ok r ∧
      Kernels.poolHwc acc (poolTrait { H with l := 0, q := H.l + H.q } { W with l := 0, q := W.l + W.q })
        [H.m, W.m, c] (tab [H.n, W.n, c] (fn3 (X b))) y1 =
        .ok ((r.drop (b * [H.m, W.m, c].prod)).take [H.m, W.m, c].prod) := by
  choose val hval using hacc
  refine ⟨_, Ops.poolNhwc_run hH hW rH rW acc X (fun b i j k =>
    val (pixels (shifted H) (shifted W) (fun a a' => X b a a' k) i j)) (fun b _ i _ j _ k _ => hval _) hy, ?_⟩
  refine (Kernels.poolHwc_run (shifted_ok hH) (shifted_ok hW) acc (X b) (fun i j k =>
    val (pixels (shifted H) (shifted W) (fun a a' => X b a a' k) i j)) (fun i _ j _ k _ => hval _) hy1).trans ?_
  exact (congrArg (fun t => Outcome.ok (Tensor.data t)) (tab_sub (d := n) (ds := [H.m, W.m, c])
    (fn4 fun b i j k => val (pixels (shifted H) (shifted W) (fun a a' => X b a a' k) i j)) hb)).symm

/-- C39, what holds: without padding in front of the image (left and top 0) pooling a batch equals pooling every image with
the same parameters. Missing from the full claim: left and top padding, see `C39_padding_dropped`. -/
theorem C39_per_image_partial [Zero R] (acc : Acc R) (hacc : ∀ l, ∃ r, acc.run l = .ok r) {H W : Axis}
    (hH : AxisOK u32 H) (hW : AxisOK u32 W) (rH : H.r = 1) (rW : W.r = 1) (lH : H.l = 0) (lW : W.l = 0) {n c : Nat}
    (X : Nat → Nat → Nat → Nat → R) {y : List R} (hy : y.length = [n, H.m, W.m, c].prod) {b : Nat} (hb : b < n)
    {y1 : List R} (hy1 : y1.length = [H.m, W.m, c].prod) :
    ∃ r, Ops.poolNhwc acc (poolTrait H W) [n, H.m, W.m, c] (tab [n, H.n, W.n, c] (fn4 X)) y = .ok r ∧
      Kernels.poolHwc acc (poolTrait H W) [H.m, W.m, c] (tab [H.n, W.n, c] (fn3 (X b))) y1 =
        .ok ((r.drop (b * [H.m, W.m, c].prod)).take [H.m, W.m, c].prod) := by
  have := C39_effect acc hacc hH hW rH rW X hy hb hy1
  obtain ⟨k, s, r, l, q, n', m⟩ := H
  obtain ⟨k', s', r', l', q', n'', m'⟩ := W
  simp only at lH lW
  subst lH lW
  simpa only [Nat.zero_add] using this

/-- C39 for `nchw`: every channel of every image, same restriction. -/
theorem C39_per_channel_partial [Zero R] (acc : Acc R) (hacc : ∀ l, ∃ r, acc.run l = .ok r) {H W : Axis}
    (hH : AxisOK u32 H) (hW : AxisOK u32 W) (rH : H.r = 1) (rW : W.r = 1) (lH : H.l = 0) (lW : W.l = 0) {n c : Nat}
    (X : Nat → Nat → Nat → Nat → R) {y : List R} (hy : y.length = [n, c, H.m, W.m].prod) {b k : Nat} (hb : b < n)
    (hk : k < c) {y1 : List R} (hy1 : y1.length = [H.m, W.m].prod) :
    ∃ r, Ops.poolNchw acc (poolTrait H W) [n, c, H.m, W.m] (tab [n, c, H.n, W.n] (fn4 X)) y = .ok r ∧
      ∃ r1, Kernels.poolHw acc (poolTrait H W) [H.m, W.m] (tab [H.n, W.n] (fn2 (X b k))) y1 = .ok r1 ∧
        ((⟨[n, c, H.m, W.m], r⟩ : Tensor R).sub b).sub k = ⟨[H.m, W.m], r1⟩ := by
  choose val hval using hacc
  have sH : shifted H = H := by
    obtain ⟨k, s, r, l, q, n', m⟩ := H
    simp only at lH
    subst lH
    simp [shifted]
  have sW : shifted W = W := by
    obtain ⟨k, s, r, l, q, n', m⟩ := W
    simp only at lW
    subst lW
    simp [shifted]
  refine ⟨_, Ops.poolNchw_run hH hW rH rW acc X (fun b k i j =>
    val (pixels (shifted H) (shifted W) (X b k) i j)) (fun b _ k _ i _ j _ => hval _) hy, ?_⟩
  refine ⟨_, Kernels.poolHw_run hH hW acc (X b k) (fun i j => val (pixels H W (X b k) i j))
    (fun i _ j _ => hval _) hy1, ?_⟩
  rw [sH, sW]
  refine (congrArg (fun t => Tensor.sub t k) (tab_sub (d := n) (ds := [c, H.m, W.m])
    (fn4 fun b k i j => val (pixels H W (X b k) i j)) hb)).trans ?_
  rw [tab_sub _ hk]
  apply tab_congr
  intro idx hv
  match idx, hv with
  | [i, j], _ => rfl

/-- C39 is false with padding: 2 × 2 max pooling with padding 1 and stride 2 of one 2 × 2 image. The shape function gives
2 × 2 outputs in both cases; pooling the image gives its four pixels, pooling the batch of one image gives the greatest
pixel followed by three values `lowest`. -/
theorem C39_padding_dropped :
    let a : Axis := ⟨2, 2, 1, 1, 1, 2, 2⟩
    AxisOK u32 a ∧ Ops.pooledShape .nhwc (poolTrait a a) [1, 2, 2, 1] = .ok [1, 2, 2, 1] ∧
    Kernels.poolHwc (Acc.max (-99 : Int)) (poolTrait a a) [2, 2, 1] ⟨[2, 2, 1], [1, 2, 3, 4]⟩ [0, 0, 0, 0] =
      .ok [1, 2, 3, 4] ∧
    Ops.poolNhwc (Acc.max (-99 : Int)) (poolTrait a a) [1, 2, 2, 1] ⟨[1, 2, 2, 1], [1, 2, 3, 4]⟩ [0, 0, 0, 0] =
      .ok [4, -99, -99, -99] ∧
    Ops.poolNchw (Acc.max (-99 : Int)) (poolTrait a a) [1, 1, 2, 2] ⟨[1, 1, 2, 2], [1, 2, 3, 4]⟩ [0, 0, 0, 0] =
      .ok [4, -99, -99, -99] := by
  refine ⟨⟨⟨u32_std, u32_std, ?_, ?_, ?_, ?_, ?_, ?_, ?_, ?_, ?_, ?_, ?_, ?_⟩, ?_⟩, ?_, ?_, ?_, ?_⟩ <;> decide

/-- The accumulators of the library return on every window, so that the hypothesis of the theorems above can be met. -/
theorem C39_accumulators [LinearOrder R] (lowest : R) [Zero R] [Add R] (divn : R → Nat → R) :
    (∀ l, ∃ r, (Acc.max lowest).run l = .ok r) ∧ ∀ l, ∃ r, (Acc.mean divn).run l = .ok r := by
  refine ⟨fun l => ⟨_, max_run lowest l⟩, fun l => ?_⟩
  have key : ∀ (l : List R) (st : R × Nat), ∃ st', l.foldlM (m := Outcome) (Acc.mean divn).step st = .ok st' := by
    intro l
    induction l with
    | nil => exact fun st => ⟨st, rfl⟩
    | cons x l ih =>
      intro st
      obtain ⟨st', h⟩ := ih (st.1 + x, ((u32.conv st.2 + u32.conv 1) % 2 ^ 32).toNat)
      refine ⟨st', ?_⟩
      exact h
  obtain ⟨st', h⟩ := key l (0, 0)
  refine ⟨divn st'.1 st'.2, ?_⟩
  unfold Acc.run
  refine (congrArg (fun o => o >>= (Acc.mean divn).result) h).trans ?_
  rfl

/-- Non-vacuity of the partial theorems: unpadded windows, two images. -/
example : AxisOK u32 exP ∧ exP.r = 1 ∧ exP.l = 0 ∧ 1 < 2 ∧
    (List.replicate 16 (0 : Int)).length = [2, exP.m, exP.m, 2].prod ∧
    (List.replicate 8 (0 : Int)).length = [exP.m, exP.m, 2].prod := ⟨exP_ok, by decide⟩

/-! ## C40 -/

/-- C40: pooling in `nhwc` and transposing the result equals transposing the image and pooling in `nchw`: any accepted
geometry including padding, any accumulator that returns on the windows. -/
theorem C40_layouts_agree [Zero R] (acc : Acc R) (hacc : ∀ l, ∃ r, acc.run l = .ok r) {H W : Axis} (hH : AxisOK u32 H)
    (hW : AxisOK u32 W) (rH : H.r = 1) (rW : W.r = 1) {n c : Nat} (X : Nat → Nat → Nat → Nat → R)
    {b1 b2 b3 b4 : List R} (h1 : b1.length = [n, H.m, W.m, c].prod) (h2 : b2.length = [n, c, H.m, W.m].prod)
    (h3 : b3.length = [n, c, H.n, W.n].prod) (h4 : b4.length = [n, c, H.m, W.m].prod) :
    (do let z ← Ops.poolNhwc acc (poolTrait H W) [n, H.m, W.m, c] (tab [n, H.n, W.n, c] (fn4 X)) b1
        Kernels.toFirst id [n, c, H.m, W.m] ⟨[n, H.m, W.m, c], z⟩ b2) =
      (do let x' ← Kernels.toFirst id [n, c, H.n, W.n] (tab [n, H.n, W.n, c] (fn4 X)) b3
          Ops.poolNchw acc (poolTrait H W) [n, c, H.m, W.m] ⟨[n, c, H.n, W.n], x'⟩ b4) := by
  choose val hval using hacc
  let Z : Nat → Nat → Nat → Nat → R := fun b i j k =>
    val (pixels (shifted H) (shifted W) (fun a a' => X b a a' k) i j)
  rw [Ops.poolNhwc_run hH hW rH rW acc X Z (fun b _ i _ j _ k _ => hval _) h1, Outcome.ok_bind,
    Kernels.toFirst_run id X h3, Outcome.ok_bind]
  refine (Kernels.toFirst_run id Z h2).trans ?_
  exact (Ops.poolNchw_run hH hW rH rW acc (fun l k i j => id (X l i j k)) (fun b k i j => id (Z b i j k))
    (fun b _ k _ i _ j _ => hval _) h4).symm

/-- Non-vacuity: padded windows, one image with two channels. -/
example : AxisOK u32 exP ∧ AxisOK u32 exQ ∧ exP.r = 1 ∧ exQ.r = 1 ∧
    (List.replicate 12 (0 : Int)).length = [1, exP.m, exQ.m, 2].prod ∧
    (List.replicate 24 (0 : Int)).length = [1, 2, exP.n, exQ.n].prod := ⟨exP_ok, exQ_ok, by decide⟩

/-! ## C41 -/

theorem fold_max_mono {S : Type} [LinearOrder R] [LinearOrder S] {f : R → S} (hf : Monotone f) (l : List R) (s : R) :
    f (l.foldl (fun v x => if x > v then x else v) s) =
      (l.map f).foldl (fun v x => if x > v then x else v) (f s) := by
  induction l generalizing s with
  | nil => rfl
  | cons x l ih =>
    simp only [List.foldl_cons, List.map_cons]
    rw [ih]
    congr 1
    by_cases c : x > s
    · rw [if_pos c]
      by_cases c' : f x > f s
      · rw [if_pos c']
      · rw [if_neg c']
        exact le_antisymm (not_lt.1 c') (hf c.le)
    · rw [if_neg c, if_neg (not_lt.2 (hf (not_lt.1 c)))]

/-- C41: max pooling commutes with every monotone map `f`, provided `f` maps `lowest` to `lowest`, or the windows are not
empty and no pixel is below `lowest` on either side. -/
theorem C41_monotone {S : Type} [LinearOrder R] [LinearOrder S] [Zero R] [Zero S] {f : R → S} (hf : Monotone f)
    {lowest : R} {lowest' : S} {H W : Axis} (hH : AxisOK u32 H) (hW : AxisOK u32 W) (X : Nat → Nat → R)
    (h : f lowest = lowest' ∨ ((∀ a < H.n, ∀ b < W.n, lowest ≤ X a b ∧ lowest' ≤ f (X a b)) ∧
      ∀ i < H.m, ∀ j < W.m, ∃ a b, Under H W i j a b))
    {y : List R} {y' : List S} (hy : y.length = [H.m, W.m].prod) (hy' : y'.length = [H.m, W.m].prod) :
    ∃ r, Kernels.poolHw (Acc.max lowest) (poolTrait H W) [H.m, W.m] (tab [H.n, W.n] (fn2 X)) y = .ok r ∧
      Kernels.poolHw (Acc.max lowest') (poolTrait H W) [H.m, W.m] (tab [H.n, W.n] (fn2 fun a b => f (X a b))) y' =
        .ok (r.map f) := by
  refine ⟨_, Kernels.poolHw_run hH hW _ X _ (fun i _ j _ => max_run lowest _) hy, ?_⟩
  have e : ∀ i < H.m, ∀ j < W.m, (Acc.max lowest').run (pixels H W (fun a b => f (X a b)) i j) =
      .ok (f ((pixels H W X i j).foldl (fun v x => if x > v then x else v) lowest)) := by
    intro i hi j hj
    rw [max_run, pixels_map H W X f, fold_max_mono hf]
    rcases h with h | ⟨h1, h3⟩
    · rw [h]
    · obtain ⟨a, b, hu⟩ := h3 i hi j hj
      have hm : f (X a b) ∈ (pixels H W X i j).map f := List.mem_map_of_mem (mem_pixels.2 ⟨a, b, hu, rfl⟩)
      generalize (pixels H W X i j).map f = l at hm
      obtain ⟨p1, p2, p3⟩ := fold_max l lowest'
      obtain ⟨q1, q2, q3⟩ := fold_max l (f lowest)
      refine congrArg Outcome.ok (le_antisymm ?_ ?_)
      · rcases p3 with p3 | p3
        · rw [p3]; exact le_trans (h1 a (Under_lt hu).1 b (Under_lt hu).2).2 (q2 _ hm)
        · exact q2 _ p3
      · rcases q3 with q3 | q3
        · rw [q3]
          exact le_trans (hf (h1 a (Under_lt hu).1 b (Under_lt hu).2).1) (p2 _ hm)
        · exact p2 _ q3
  rw [Kernels.poolHw_run hH hW _ _ _ e hy']
  refine congrArg Outcome.ok ?_
  have hm := map_tab f [H.m, W.m] (fn2 fun i j => (pixels H W X i j).foldl (fun v x => if x > v then x else v) lowest)
  refine Eq.trans ?_ hm.symm
  refine congrArg Tensor.data (tab_congr fun idx hv => ?_)
  match idx, hv with
  | [i, j], _ => rfl

/-- Non-vacuity: doubling, with every window of the example geometry holding a pixel; and a clamp that fixes `lowest`. -/
example : Monotone (fun x : Int => 2 * x) ∧ (∀ i < exP.m, ∀ j < exQ.m, (win exP exQ i j).Nonempty) ∧
    Monotone (fun x : Int => max x (-99)) ∧ max (-99 : Int) (-99) = -99 :=
  ⟨fun a b h => by show 2 * a ≤ 2 * b; omega, by decide, fun a b h => by show max a _ ≤ max b _; omega, by decide⟩

/-! ## Concrete cases of the theorems above: 4 × 3 pixels, windows of 2 × 3 padded along the width -/

example := C10_pool_shape exP_ok exQ_ok rfl rfl (o := .nchw) (n := 7) (c := 3) (xs := [7, 3, 4, 3]) rfl
example := C10_rejects (H := ⟨2, 2, 1, 0, 0, 5, 0⟩) (by constructor <;> decide) exQ_ok.fits
  (.inl (by intro m; unfold OutLen patch; dsimp only; omega)) (o := .nhwc) (n := 7) (c := 3) (xs := [7, 5, 3, 3]) rfl
example := C10_zero_rejected (k := (2, 3)) (s := (2, 0)) (by decide) (by decide) (by decide) (by decide) (⟨0, 0⟩, ⟨1, 1⟩)
  (.inr (.inr (.inr rfl)))
example := C36_max_pool (lowest := (-128 : Int)) exP_ok exQ_ok (fun a b => -(10 * a + b : Int)) (by decide)
  (y := List.replicate 6 9) (by decide)
example := C36_max_pool_hwc (lowest := (-128 : Int)) exP_ok exQ_ok (c := 2) (fun a b k => -(10 * a + b : Int) + 20 * k)
  (by decide) (y := List.replicate 12 9) (by decide)
example := C36_lowest (-10 : Int) exP_ok exQ_ok (fun a b => -(10 * a + b : Int)) (y := List.replicate 6 9) (by decide)
example := C36_channel_mismatch (Acc.max (-128 : Int)) (poolTrait exP exQ) (h := 4) (w := 3) (c := 2) (h_ := 2) (w_ := 3)
  (c' := 1) (by decide) (List.replicate 24 1) (List.replicate 6 9)
example := C37_mean_pool (F := ℚ) exP_ok exQ_ok (by decide) (c := 2) (fun a b => 10 * a + b) (fun a b k => 10 * a + b - 7 * k)
  (y := List.replicate 6 9) (yc := List.replicate 12 9) (by decide) (by decide)
example := C37_order (fun (s : Int) n => s / n) exP_ok exQ_ok (by decide) (fun a b => (10 * a + b : Int))
  (y := List.replicate 6 9) (by decide)
example := C37_order_hwc (fun (s : Int) n => s / n) exP_ok exQ_ok (by decide) (c := 2)
  (fun a b k => (10 * a + b - 7 * k : Int)) (y := List.replicate 12 9) (by decide)
example := C38_effect exP_ok exQ_ok (by decide) (fun a b => -(10 * a + b : Int)) (y := List.replicate 6 9) (by decide)
  (by decide) (by decide)
example := C38_int_mean_partial exP_ok exQ_ok (by decide) (fun a b => (10 * a + b : Int) - 1) (y := List.replicate 6 9)
  (by decide) (by decide) (by decide) (by decide)
example := C39_effect (Acc.max (-128 : Int)) (fun _ => ⟨_, max_run _ _⟩) exP_ok exQ_ok rfl rfl (n := 2) (c := 2)
  (fun n a b k => 100 * n + 10 * a + b - 7 * k) (y := List.replicate 24 9) (by decide) (b := 1) (by decide)
  (y1 := List.replicate 12 9) (by decide)
example := C39_per_image_partial (Acc.max (-128 : Int)) (fun _ => ⟨_, max_run _ _⟩) exP_ok exP_ok rfl rfl rfl rfl (n := 2) (c := 2)
  (fun n a b k => 100 * n + 10 * a + b - 7 * k) (y := List.replicate 16 9) (by decide) (b := 1) (by decide)
  (y1 := List.replicate 8 9) (by decide)
example := C39_per_channel_partial (Acc.max (-128 : Int)) (fun _ => ⟨_, max_run _ _⟩) exP_ok exP_ok rfl rfl rfl rfl (n := 2) (c := 2)
  (fun n k a b => 100 * n + 10 * a + b - 7 * k) (y := List.replicate 16 9) (by decide) (b := 1) (k := 1) (by decide) (by decide)
  (y1 := List.replicate 4 9) (by decide)
example := C40_layouts_agree (Acc.max (-128 : Int)) (fun _ => ⟨_, max_run _ _⟩) exP_ok exQ_ok rfl rfl (n := 1) (c := 2)
  (fun n a b k => 100 * n + 10 * a + b - 7 * k) (b1 := List.replicate 12 9) (b2 := List.replicate 12 8)
  (b3 := List.replicate 24 7) (b4 := List.replicate 12 6) (by decide) (by decide) (by decide) (by decide)
example := C41_monotone (f := fun x : Int => max x (-99)) (fun a b h => by show max a _ ≤ max b _; omega) (lowest := -99)
  (lowest' := -99) exP_ok exQ_ok (fun a b => -(50 * a + b : Int)) (.inl rfl) (y := List.replicate 6 9)
  (y' := List.replicate 6 8) (by decide) (by decide)

end StdNN
