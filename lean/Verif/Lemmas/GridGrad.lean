import Verif.Lemmas.Grid
import Verif.Lemmas.Crop
import Verif.Lemmas.Scatter
/-!
# Scattering kernels and gradients of convolution for any way of locating the taps

The lemmas of `Verif.Lemmas.Scatter` for a `Grid`; they are used for paddings that are stored as wrapped negative numbers.
-/
namespace StdNN
open IntTy Spec Outcome
variable {R : Type}

namespace Grid
open Kernels

/-- The windows and taps whose tap falls on pixel `(a, b)`, in the order of the loops. -/
def tapsOn (G : Grid) (a b : Nat) : List (Nat × Nat × Nat × Nat) :=
  (List.range G.m).flatMap fun i => (List.range G.p).flatMap fun j => (List.range G.r).flatMap fun u =>
    (List.range G.s).filterMap fun v => if G.loc i j u v = some (a, b) then some (i, j, u, v) else none

theorem batched_hwrsc_any [Zero R] {G : Grid} (hG : G.OK) {n c : Nat}
    (X : Nat → Nat → Nat → Nat → R) {y : List R} (hy : y.length = [n, G.m, G.p, G.r, G.s, c].prod) :
    Ops.batched (im2colHwrsc [G.hs, G.ws]) [n, G.m, G.p, G.r, G.s, c] (tab [n, G.h, G.w, c] (fn4 X)) y =
      .ok (tab [n, G.m, G.p, G.r, G.s, c]
        (fn6 fun b i j u v k => G.pixel (fun a a' => X b a a' k) i j u v)).data := by
  simp only [Ops.batched, tab_dims, List.tail_cons]
  rw [run_slices (sub := [G.m, G.p, G.r, G.s, c])
    (F := fun b => fn5 fun i j u v k => G.pixel (fun a a' => X b a a' k) i j u v) ?_ (by simpa using hy)]
  · refine congrArg (fun t => Outcome.ok (Tensor.data t)) (tab_congr fun idx hv => ?_)
    match idx, hv with
    | [b, i, j, u, v, k], hv => rfl
  · intro b hb s hs
    rw [tab_sub _ hb]
    have : tab [G.h, G.w, c] (fun idx => fn4 X (b :: idx)) = tab [G.h, G.w, c] (fn3 (X b)) := by
      apply tab_congr
      intro idx hv
      match idx, hv with
      | [a, a', k], hv => rfl
    rw [this, im2colHwrsc_run hG _ hs]

section
variable [Zero R] [Add R]

theorem col2imHwrsc_order {G : Grid} (hG : G.OK) {c : Nat}
    (X : Nat → Nat → Nat → Nat → Nat → R) {y : List R} (hy : y.length = [G.h, G.w, c].prod) :
    col2imHwrsc [G.hs, G.ws] [G.h, G.w, c] (tab [G.m, G.p, G.r, G.s, c] (fn5 X)) y =
      .ok (tab [G.h, G.w, c] (fn3 fun a b k => listSum (G.tapsOn a b) fun t => X t.1 t.2.1 t.2.2.1 t.2.2.2 k)).data := by
  simp only [col2imHwrsc, tab_dims, contractAssert_pos, Outcome.ok_bind]
  let A : Nat → Nat → Nat → Nat → Nat → Nat → R → R := fun i j u v k p r =>
    match G.loc i j u v with
    | some (a, b) => if p = offset [G.h, G.w, c] [a, b, k] then r + X i j u v k else r
    | none => r
  have key := PW.seq (len := [G.h, G.w, c].prod) (PW.fill _ (0 : R))
    (PW.forRange (n := G.m) fun i hi => PW.forRange (n := G.p) fun j hj => PW.forRange (n := G.r) fun u hu =>
      PW.forRange (n := G.s) fun v hv => PW.forRange (n := c) (A := fun k p r => A i j u v k p r) (body := fun k y => do
        let o ← locate G.hs G.ws G.h G.w i j u v
        match o with
        | some (a, b) => do
          let xv ← (tab [G.m, G.p, G.r, G.s, c] (fn5 X)).at_ [i, j, u, v, k]
          upd y (offset [G.h, G.w, c] [a, b, k]) (fun r => r + xv)
        | none => .ok y) fun k hk => by
          rw [hG.at_eq hi hj hu hv]
          simp only [Outcome.ok_bind, tab_at _ (v5 hi hj hu hv hk), fn5_apply, A]
          cases h : G.loc i j u v with
          | none => exact PW.pure _
          | some ab =>
            obtain ⟨a, b⟩ := ab
            have hb := hG.valid h
            exact PW.upd (offset_lt (v3 hb.1 hb.2 hk)) _)
  refine PW.run_tab (dims := [G.h, G.w, c]) key ?_ hy
  intro idx hv r
  match idx, hv with
  | [a, b, k], hv =>
    simp only [fn3_apply, listSum, tapsOn, foldl_flatMap, foldl_filterMap_ite]
    refine foldl_range_congr (fun i hi r => foldl_range_congr (fun j hj r => foldl_range_congr (fun u hu r =>
      foldl_range_congr (fun w hw r => ?_) r) r) r) 0
    rw [foldl_range_single hv.2.2.1]
    · simp only [A]
      cases h : G.loc i j u w with
      | none =>
        simp
      | some ab =>
        obtain ⟨a', b'⟩ := ab
        have hb := hG.valid h
        by_cases e : a' = a ∧ b' = b
        · obtain ⟨rfl, rfl⟩ := e
          simp
        · have : ¬ (some (a', b') = some (a, b)) := by simpa using e
          rw [if_neg this]
          simp only
          rw [if_neg]
          intro e2
          have := offset_inj hv (v3 hb.1 hb.2 hv.2.2.1) e2
          simp at this
          exact e ⟨this.1.symm, this.2.symm⟩
    · intro k' hk' hne r
      simp only [A]
      cases h : G.loc i j u w with
      | none => rfl
      | some ab =>
        obtain ⟨a', b'⟩ := ab
        have hb := hG.valid h
        simp only
        rw [if_neg]
        intro e2
        have := offset_inj hv (v3 hb.1 hb.2 hk') e2
        simp at this
        exact hne this.2.2.symm

theorem batched_col2im_order {G : Grid} (hG : G.OK) {n c : Nat}
    (X : Nat → Nat → Nat → Nat → Nat → Nat → R) {y : List R} (hy : y.length = [n, G.h, G.w, c].prod) :
    Ops.batched (col2imHwrsc [G.hs, G.ws]) [n, G.h, G.w, c] (tab [n, G.m, G.p, G.r, G.s, c] (fn6 X)) y =
      .ok (tab [n, G.h, G.w, c] (fn4 fun e a b k =>
        listSum (G.tapsOn a b) fun t => X e t.1 t.2.1 t.2.2.1 t.2.2.2 k)).data := by
  simp only [Ops.batched, tab_dims, List.tail_cons]
  rw [run_slices (sub := [G.h, G.w, c])
    (F := fun e => fn3 fun a b k => listSum (G.tapsOn a b) fun t => X e t.1 t.2.1 t.2.2.1 t.2.2.2 k) ?_ (by simpa using hy)]
  · refine congrArg (fun t => Outcome.ok (Tensor.data t)) (tab_congr fun idx hv => ?_)
    match idx, hv with
    | [e, a, b, k], hv => rfl
  · intro b hb s hs
    rw [tab_sub _ hb]
    have : tab [G.m, G.p, G.r, G.s, c] (fun idx => fn6 X (b :: idx)) =
        tab [G.m, G.p, G.r, G.s, c] (fn5 (X b)) := by
      apply tab_congr
      intro idx hv
      match idx, hv with
      | [i, j, u, v, k], hv => rfl
    rw [this, col2imHwrsc_order hG _ hs]

end

section
variable [Zero R] [Add R] [Mul R]

theorem convGradX_order {G : Grid} (hG : G.OK) {T : ConvTrait} (e1 : LinConv.getSample T.h G.r = .ok G.hs)
    (e2 : LinConv.getSample T.w G.s = .ok G.ws) {n c d : Nat}
    (D Y : Nat → Nat → Nat → Nat → R) (junk : Nat → R) {gx : List R} (hgx : gx.length = [n, G.h, G.w, c].prod) :
    convGradX T junk [n, G.h, G.w, c] (tab [n, G.m, G.p, d] (fn4 D)) (tab [G.r, G.s, c, d] (fn4 Y)) gx =
      .ok (tab [n, G.h, G.w, c] (fn4 fun e a b k => listSum (G.tapsOn a b) fun t =>
        seqSum d fun o => D e t.1 t.2.1 o * Y t.2.2.1 t.2.2.2 k o)).data := by
  simp only [convGradX, filterShape, getDim, tab_dims, FOrder.heightPos, FOrder.widthPos, List.getElem?_cons_zero,
    List.getElem?_cons_succ, Outcome.ok_bind, Outcome.pure_eq]
  simp only [e1, e2, Outcome.ok_bind, Ops.batchedShape, hwrscShape_run hG c, Outcome.pure_eq]
  have m1 : (tab [n, G.m, G.p, d] (fn4 D)).withDims (asMatrix 3 [n, G.m, G.p, d]) = _ :=
    tab_asMatrix (d1 := [n, G.m, G.p]) (d2 := [d]) (fn4 D)
  have m2 : (tab [G.r, G.s, c, d] (fn4 Y)).withDims (asMatrix 3 [G.r, G.s, c, d]) = _ :=
    tab_asMatrix (d1 := [G.r, G.s, c]) (d2 := [d]) (fn4 Y)
  have m3 : asMatrix 3 [n, G.m, G.p, G.r, G.s, c] = [[n, G.m, G.p].prod, [G.r, G.s, c].prod] := rfl
  have hf : (fresh junk [n, G.m, G.p, G.r, G.s, c].prod).length = [n, G.m, G.p].prod * [G.r, G.s, c].prod := by
    simp [fresh, Nat.mul_assoc]
  rw [m1, m2, m3, Plain.mmt_run _ _ hf]
  simp only [Outcome.ok_bind]
  have e3 := tab_ofMatrix (d1 := [n, G.m, G.p]) (d2 := [G.r, G.s, c])
    (fn2 fun i j => seqSum [d].prod fun k =>
      fn4 D (unravel [n, G.m, G.p] ([i, k].headD 0) ++ unravel [d] ([i, k].tail.headD 0)) *
        fn4 Y (unravel [G.r, G.s, c] ([j, k].headD 0) ++ unravel [d] ([j, k].tail.headD 0)))
    (fn6 fun e i j u v k => seqSum d fun o => D e i j o * Y u v k o) (by
      intro i1 i2 h1 h2
      simp only [fn2_apply, List.headD_cons, List.tail_cons, unravel_offset h1, unravel_offset h2]
      match i1, h1, i2, h2 with
      | [e, i, j], _, [u, v, k], _ => simp [unravel])
  rw [e3]
  exact batched_col2im_order hG (fun e i j u v k => seqSum d fun o => D e i j o * Y u v k o) hgx

theorem convGradY_order {G : Grid} (hG : G.OK) {T : ConvTrait} (e1 : LinConv.getSample T.h G.r = .ok G.hs)
    (e2 : LinConv.getSample T.w G.s = .ok G.ws) {n c d : Nat}
    (D X : Nat → Nat → Nat → Nat → R) (junk : Nat → R) {gy : List R} (hgy : gy.length = [G.r, G.s, c, d].prod) :
    convGradY T junk [G.r, G.s, c, d] (tab [n, G.m, G.p, d] (fn4 D)) (tab [n, G.h, G.w, c] (fn4 X)) gy =
      .ok (tab [G.r, G.s, c, d] (fn4 fun u v k o => seqSum (n * (G.m * G.p)) fun p =>
        let e := p / (G.m * G.p)
        let i := p % (G.m * G.p) / G.p
        let j := p % (G.m * G.p) % G.p
        G.pixel (fun a a' => X e a a' k) i j u v * D e i j o)).data := by
  simp only [convGradY, filterShape, getDim, tab_dims, FOrder.heightPos, FOrder.widthPos, List.getElem?_cons_zero,
    List.getElem?_cons_succ, Outcome.ok_bind, Outcome.pure_eq]
  simp only [e1, e2, Outcome.ok_bind, Ops.batchedShape, hwrscShape_run hG c, Outcome.pure_eq]
  rw [batched_hwrsc_any hG X (by simp [fresh])]
  simp only [Outcome.ok_bind]
  have m1 : (⟨asMatrix 3 [n, G.m, G.p, G.r, G.s, c],
      (tab [n, G.m, G.p, G.r, G.s, c] (fn6 fun b i j u v k => G.pixel (fun a a' => X b a a' k) i j u v)).data⟩ :
      Tensor R) = _ := tab_asMatrix (d1 := [n, G.m, G.p]) (d2 := [G.r, G.s, c]) _
  have m2 : (tab [n, G.m, G.p, d] (fn4 D)).withDims (asMatrix 3 [n, G.m, G.p, d]) = _ :=
    tab_asMatrix (d1 := [n, G.m, G.p]) (d2 := [d]) (fn4 D)
  have m3 : asMatrix 3 [G.r, G.s, c, d] = [[G.r, G.s, c].prod, [d].prod] := rfl
  have hf : gy.length = [G.r, G.s, c].prod * [d].prod := by rw [hgy]; simp [Nat.mul_assoc]
  rw [m1, m2, m3, Plain.mtm_run _ _ hf]
  refine congrArg Outcome.ok (tab_ofMatrix (d1 := [G.r, G.s, c]) (d2 := [d]) _ _ ?_)
  intro i1 i2 h1 h2
  simp only [fn2_apply, List.headD_cons, List.tail_cons, unravel_offset h1, unravel_offset h2]
  match i1, h1, i2, h2 with
  | [u, v, k], _, [o], _ =>
    have e : [n, G.m, G.p].prod = n * (G.m * G.p) := by simp
    rw [e]
    simp [unravel]

end

/-! ## Sums -/

/-- What the scattered entries add up to on a pixel. -/
def scattered [AddCommMonoid R] (G : Grid) (X : Nat → Nat → Nat → Nat → R) (a b : Nat) : R :=
  ∑ i ∈ Finset.range G.m, ∑ j ∈ Finset.range G.p, ∑ u ∈ Finset.range G.r, ∑ v ∈ Finset.range G.s,
    if G.loc i j u v = some (a, b) then X i j u v else 0

theorem listSum_tapsOn [AddCommMonoid R] (G : Grid) (X : Nat → Nat → Nat → Nat → R) (a b : Nat) :
    listSum (G.tapsOn a b) (fun t => X t.1 t.2.1 t.2.2.1 t.2.2.2) = G.scattered X a b := by
  unfold scattered
  simp only [listSum, tapsOn, foldl_flatMap, foldl_filterMap_ite]
  refine (Kernels.foldl_add_range (fun i hi r => Kernels.foldl_add_range (fun j hj r => Kernels.foldl_add_range
    (fun u hu r => Kernels.foldl_add_range (G := fun v => if G.loc i j u v = some (a, b) then X i j u v else 0)
    (fun v hv r => ?_) r) r) r) 0).trans (zero_add _)
  split <;> simp

theorem sum_comm4 [AddCommMonoid R] (I J U V A : Finset Nat) (F : Nat → Nat → Nat → Nat → Nat → R) :
    ∑ i ∈ I, ∑ j ∈ J, ∑ u ∈ U, ∑ v ∈ V, ∑ a ∈ A, F i j u v a = ∑ a ∈ A, ∑ i ∈ I, ∑ j ∈ J, ∑ u ∈ U, ∑ v ∈ V, F i j u v a :=
  (Finset.sum_congr rfl fun _ _ => (Finset.sum_congr rfl fun _ _ => (Finset.sum_congr rfl fun _ _ =>
    Finset.sum_comm).trans Finset.sum_comm).trans Finset.sum_comm).trans Finset.sum_comm

/-- Scattering is the transpose of gathering. -/
theorem scattered_adjoint [CommSemiring R] {G : Grid} (hG : G.OK) (X : Nat → Nat → R) (Y : Nat → Nat → Nat → Nat → R) :
    ∑ i ∈ Finset.range G.m, ∑ j ∈ Finset.range G.p, ∑ u ∈ Finset.range G.r, ∑ v ∈ Finset.range G.s,
        G.pixel X i j u v * Y i j u v =
      ∑ a ∈ Finset.range G.h, ∑ b ∈ Finset.range G.w, X a b * G.scattered Y a b := by
  have one : ∀ i j u v, G.pixel X i j u v * Y i j u v = ∑ a ∈ Finset.range G.h, ∑ b ∈ Finset.range G.w,
      X a b * if G.loc i j u v = some (a, b) then Y i j u v else 0 := by
    intro i j u v
    unfold Grid.pixel
    rcases h : G.loc i j u v with _ | ⟨a, b⟩
    · simp
    · have hb := hG.valid h
      rw [Finset.sum_eq_single_of_mem a (Finset.mem_range.2 hb.1),
        Finset.sum_eq_single_of_mem b (Finset.mem_range.2 hb.2)]
      · simp
      · intro b' _ hne
        rw [if_neg (by simpa using Ne.symm hne), mul_zero]
      · intro a' _ hne
        refine Finset.sum_eq_zero fun b' _ => ?_
        rw [if_neg (by simp only [Option.some.injEq, Prod.mk.injEq]; exact fun e => hne e.1.symm), mul_zero]
  simp only [one, scattered, Finset.mul_sum]
  rw [sum_comm4]
  exact Finset.sum_congr rfl fun a _ => sum_comm4 _ _ _ _ _ _

end Grid

/-- The windows and taps whose tap falls on element `i`. -/
def ztapsOn (a : ZAxis) (i : Nat) : List (Nat × Nat) :=
  (List.range a.m).flatMap fun j => (List.range a.k).filterMap fun u => if a.elem j u = i then some (j, u) else none

theorem zcol2im1d_order [Zero R] [Add R] {a : ZAxis} (h : ZLineOK a) (X : Nat → Nat → R) {y : List R}
    (hy : y.length = [a.n].prod) :
    Ops.col2im1d (a.sample i32) [a.n] (tab [a.m, a.k] (fn2 X)) y =
      .ok (tab [a.n] (fn1 fun i => listSum (ztapsOn a i) fun t => X t.1 t.2)).data := by
  simp only [Ops.col2im1d, tab_dims]
  let A : Nat → Nat → Nat → R → R := fun j u p r =>
    if 0 ≤ a.elem j u ∧ a.elem j u < a.n then (if p = offset [a.n] [(a.elem j u).toNat] then r + X j u else r) else r
  have key := PW.seq (len := [a.n].prod) (PW.fill _ (0 : R))
    (PW.forRange (n := a.m) fun j hj => PW.forRange (n := a.k) (A := fun u p r => A j u p r) (body := fun u y => do
      let i ← (a.sample i32).tap i32 (i32.conv j) (i32.conv u)
      let b ← (a.sample i32).inside i32 i (i32.conv a.n)
      if b then do
        let i' ← (a.sample i32).unpad i32 i
        let xv ← (tab [a.m, a.k] (fn2 X)).at_ [j, u]
        upd y (offset [a.n] [Ops.idx32 i']) (fun r => r + xv)
      else .ok y) fun u hu => by
        obtain ⟨h1, h2, h3, h4, h5⟩ := h.toZAxisOK.small hj hu
        have hn : a.n < 2147483648 := h.hn
        rw [conv_eq i32_std (i32_nat h1), conv_eq i32_std (i32_nat h2), conv_eq i32_std (i32_nat hn), h.sample]
        simp only [Sample.tap, Sample.inside, Sample.unpad]
        rw [h.tap i32_std hj hu]
        simp only [Outcome.ok_bind]
        rw [h.inside hj hu (conv_eq i32_std (i32_nat hn))]
        simp only [Outcome.ok_bind, decide_eq_true_eq, A]
        by_cases c : 0 ≤ a.elem j u ∧ a.elem j u < a.n
        · simp only [if_pos c, (h.unpad hj hu c).1, Outcome.ok_bind]
          have e : Ops.idx32 (a.elem j u) = (a.elem j u).toNat := by
            have e' : a.elem j u = ((a.elem j u).toNat : Int) := by omega
            rw [e', idx32_nat (by omega)]
            rfl
          have lt : (a.elem j u).toNat < a.n := by omega
          rw [e, tab_at _ (v2 hj hu)]
          exact PW.upd (offset_lt (v1 lt)) _
        · simp only [if_neg c]
          exact PW.pure _)
  refine PW.run_tab (dims := [a.n]) key ?_ hy
  intro idx hv r
  match idx, hv with
  | [i], hv =>
    simp only [fn1_apply, listSum, ztapsOn, foldl_flatMap, foldl_filterMap_ite]
    refine foldl_range_congr (fun j hj r => foldl_range_congr (fun u hu r => ?_) r) 0
    have hi : i < a.n := hv.1
    simp only [A, offset_cons, List.prod_nil, Nat.mul_one, offset_nil, Nat.add_zero]
    by_cases c : a.elem j u = i
    · rw [if_pos c, if_pos (by omega), if_pos (by omega)]
    · rw [if_neg c]
      split
      · rw [if_neg (by omega)]
      · rfl

end StdNN
