import Verif.Lemmas.Conv
import Verif.Lemmas.Conv1d
import Verif.Lemmas.Elementwise
/-!
# Scattering kernels and the gradients of convolution for any arithmetic

No law of addition or multiplication is used: the values are given with the order in which the code adds.
-/
namespace StdNN
open IntTy Spec Outcome
variable {R : Type}

namespace Spec

/-- The window rows and columns and tap rows and columns whose tap falls on pixel `(a, b)`, in the order rows of windows,
columns of windows, rows of taps, columns of taps. -/
def tapsOn (H W : Axis) (a b : Nat) : List (Nat × Nat × Nat × Nat) :=
  (List.range H.m).flatMap fun i => (List.range W.m).flatMap fun j => (List.range H.k).flatMap fun u =>
    (List.range W.k).filterMap fun v => if H.Hits i u a ∧ W.Hits j v b then some (i, j, u, v) else none

/-- The windows and taps whose tap falls on element `i` of a vector, windows first. -/
def tapsOn1 (a : Axis) (i : Nat) : List (Nat × Nat) :=
  (List.range a.m).flatMap fun j => (List.range a.k).filterMap fun u => if a.Hits j u i then some (j, u) else none

/-- The sum of the values `f` over a list, started at 0 and added from the left. -/
def listSum [Zero R] [Add R] {T : Type} (l : List T) (f : T → R) : R := l.foldl (fun r t => r + f t) 0

end Spec

theorem foldl_flatMap {S T U : Type} (l : List S) (g : S → List T) (f : U → T → U) (r : U) :
    (l.flatMap g).foldl f r = l.foldl (fun r s => (g s).foldl f r) r := by
  induction l generalizing r with
  | nil => rfl
  | cons s l ih => simp only [List.flatMap_cons, List.foldl_append, List.foldl_cons, ih]

theorem foldl_filterMap_ite {S T U : Type} (l : List S) (p : S → Prop) [DecidablePred p] (g : S → T) (f : U → T → U) (r : U) :
    (l.filterMap fun s => if p s then some (g s) else none).foldl f r = l.foldl (fun r s => if p s then f r (g s) else r) r := by
  induction l generalizing r with
  | nil => rfl
  | cons s l ih =>
    by_cases c : p s
    · simp only [List.filterMap_cons, if_pos c, List.foldl_cons, ih]
    · simp only [List.filterMap_cons, if_neg c, List.foldl_cons, ih]

namespace Kernels

theorem batched_hwrsc_any [Zero R] {H W : Axis} (hH : AxisOK u32 H) (hW : AxisOK u32 W) {n c : Nat}
    (X : Nat → Nat → Nat → Nat → R) {y : List R} (hy : y.length = [n, H.m, W.m, H.k, W.k, c].prod) :
    Ops.batched (im2colHwrsc [H.sample, W.sample]) [n, H.m, W.m, H.k, W.k, c] (tab [n, H.n, W.n, c] (fn4 X)) y =
      .ok (tab [n, H.m, W.m, H.k, W.k, c]
        (fn6 fun b i j u v k => window H W (fun a a' => X b a a' k) i j u v)).data := by
  simp only [Ops.batched, tab_dims, List.tail_cons]
  rw [run_slices (sub := [H.m, W.m, H.k, W.k, c])
    (F := fun b => fn5 fun i j u v k => window H W (fun a a' => X b a a' k) i j u v) ?_ (by simpa using hy)]
  · refine congrArg (fun t => Outcome.ok (Tensor.data t)) (tab_congr fun idx hv => ?_)
    match idx, hv with
    | [b, i, j, u, v, k], hv => rfl
  · intro b hb s hs
    rw [tab_sub _ hb]
    have : tab [H.n, W.n, c] (fun idx => fn4 X (b :: idx)) = tab [H.n, W.n, c] (fn3 (X b)) := by
      apply tab_congr
      intro idx hv
      match idx, hv with
      | [a, a', k], hv => rfl
    rw [this, im2colHwrsc_run hH hW _ hs]

section
variable [Zero R] [Add R]

theorem col2imHwrsc_order {H W : Axis} (hH : AxisOK u32 H) (hW : AxisOK u32 W) {c : Nat}
    (X : Nat → Nat → Nat → Nat → Nat → R) {y : List R} (hy : y.length = [H.n, W.n, c].prod) :
    col2imHwrsc [H.sample, W.sample] [H.n, W.n, c] (tab [H.m, W.m, H.k, W.k, c] (fn5 X)) y =
      .ok (tab [H.n, W.n, c] (fn3 fun a b k => listSum (tapsOn H W a b) fun t => X t.1 t.2.1 t.2.2.1 t.2.2.2 k)).data := by
  simp only [col2imHwrsc, tab_dims, contractAssert_pos, Outcome.ok_bind]
  let A : Nat → Nat → Nat → Nat → Nat → Nat → R → R := fun i j u v k p r =>
    match loc H W i j u v with
    | some (a, b) => if p = offset [H.n, W.n, c] [a, b, k] then r + X i j u v k else r
    | none => r
  have key := PW.seq (len := [H.n, W.n, c].prod) (PW.fill _ (0 : R))
    (PW.forRange (n := H.m) fun i hi => PW.forRange (n := W.m) fun j hj => PW.forRange (n := H.k) fun u hu =>
      PW.forRange (n := W.k) fun v hv => PW.forRange (n := c) (A := fun k p r => A i j u v k p r) (body := fun k y => do
        let o ← locate H.sample W.sample H.n W.n i j u v
        match o with
        | some (a, b) => do
          let xv ← (tab [H.m, W.m, H.k, W.k, c] (fn5 X)).at_ [i, j, u, v, k]
          upd y (offset [H.n, W.n, c] [a, b, k]) (fun r => r + xv)
        | none => .ok y) fun k hk => by
          rw [locate_run hH hW hi hj hu hv]
          simp only [Outcome.ok_bind, tab_at _ (v5 hi hj hu hv hk), fn5_apply, A]
          cases h : loc H W i j u v with
          | none => exact PW.pure _
          | some ab =>
            obtain ⟨a, b⟩ := ab
            have hb := loc_valid h
            exact PW.upd (offset_lt (v3 hb.1 hb.2 hk)) _)
  refine PW.run_tab (dims := [H.n, W.n, c]) key ?_ hy
  intro idx hv r
  match idx, hv with
  | [a, b, k], hv =>
    simp only [fn3_apply, listSum, tapsOn, foldl_flatMap, foldl_filterMap_ite]
    refine foldl_range_congr (fun i hi r => foldl_range_congr (fun j hj r => foldl_range_congr (fun u hu r =>
      foldl_range_congr (fun w hw r => ?_) r) r) r) 0
    rw [foldl_range_single hv.2.2.1]
    · simp only [A]
      cases h : loc H W i j u w with
      | none =>
        have : ¬ (H.Hits i u a ∧ W.Hits j w b) := by rw [← loc_some, h]; simp
        simp [this]
      | some ab =>
        obtain ⟨a', b'⟩ := ab
        have hb := loc_valid h
        by_cases e : a' = a ∧ b' = b
        · obtain ⟨rfl, rfl⟩ := e
          rw [if_pos (loc_some.1 h)]
          simp
        · have : ¬ (H.Hits i u a ∧ W.Hits j w b) := by
            rw [← loc_some, h]; simpa using e
          rw [if_neg this]
          simp only
          rw [if_neg]
          intro e2
          have := offset_inj hv (v3 hb.1 hb.2 hv.2.2.1) e2
          simp at this
          exact e ⟨this.1.symm, this.2.symm⟩
    · intro k' hk' hne r
      simp only [A]
      cases h : loc H W i j u w with
      | none => rfl
      | some ab =>
        obtain ⟨a', b'⟩ := ab
        have hb := loc_valid h
        simp only
        rw [if_neg]
        intro e2
        have := offset_inj hv (v3 hb.1 hb.2 hk') e2
        simp at this
        exact hne this.2.2.symm

theorem batched_col2im_order {H W : Axis} (hH : AxisOK u32 H) (hW : AxisOK u32 W) {n c : Nat}
    (X : Nat → Nat → Nat → Nat → Nat → Nat → R) {y : List R} (hy : y.length = [n, H.n, W.n, c].prod) :
    Ops.batched (col2imHwrsc [H.sample, W.sample]) [n, H.n, W.n, c] (tab [n, H.m, W.m, H.k, W.k, c] (fn6 X)) y =
      .ok (tab [n, H.n, W.n, c] (fn4 fun e a b k =>
        listSum (tapsOn H W a b) fun t => X e t.1 t.2.1 t.2.2.1 t.2.2.2 k)).data := by
  simp only [Ops.batched, tab_dims, List.tail_cons]
  rw [run_slices (sub := [H.n, W.n, c])
    (F := fun e => fn3 fun a b k => listSum (tapsOn H W a b) fun t => X e t.1 t.2.1 t.2.2.1 t.2.2.2 k) ?_ (by simpa using hy)]
  · refine congrArg (fun t => Outcome.ok (Tensor.data t)) (tab_congr fun idx hv => ?_)
    match idx, hv with
    | [e, a, b, k], hv => rfl
  · intro b hb s hs
    rw [tab_sub _ hb]
    have : tab [H.m, W.m, H.k, W.k, c] (fun idx => fn6 X (b :: idx)) =
        tab [H.m, W.m, H.k, W.k, c] (fn5 (X b)) := by
      apply tab_congr
      intro idx hv
      match idx, hv with
      | [i, j, u, v, k], hv => rfl
    rw [this, col2imHwrsc_order hH hW _ hs]

end

section
variable [Zero R] [Add R] [Mul R]

theorem convGradX_order {H W : Axis} (hH : AxisOK u32 H) (hW : AxisOK u32 W) {n c d : Nat}
    (G Y : Nat → Nat → Nat → Nat → R) (junk : Nat → R) {gx : List R} (hgx : gx.length = [n, H.n, W.n, c].prod) :
    convGradX (convTrait H W) junk [n, H.n, W.n, c] (tab [n, H.m, W.m, d] (fn4 G)) (tab [H.k, W.k, c, d] (fn4 Y)) gx =
      .ok (tab [n, H.n, W.n, c] (fn4 fun e a b k => listSum (tapsOn H W a b) fun t =>
        seqSum d fun o => G e t.1 t.2.1 o * Y t.2.2.1 t.2.2.2 k o)).data := by
  simp only [convGradX, filterShape, getDim, tab_dims, FOrder.heightPos, FOrder.widthPos, List.getElem?_cons_zero,
    List.getElem?_cons_succ, Outcome.ok_bind, Outcome.pure_eq]
  have e1 : LinConv.getSample (convTrait H W).h H.k = .ok H.sample := getSample_run hH
  have e2 : LinConv.getSample (convTrait H W).w W.k = .ok W.sample := getSample_run hW
  simp only [e1, e2, Outcome.ok_bind, Ops.batchedShape, hwrscShape_run hH hW c, Outcome.pure_eq]
  have m1 : (tab [n, H.m, W.m, d] (fn4 G)).withDims (asMatrix 3 [n, H.m, W.m, d]) = _ :=
    tab_asMatrix (d1 := [n, H.m, W.m]) (d2 := [d]) (fn4 G)
  have m2 : (tab [H.k, W.k, c, d] (fn4 Y)).withDims (asMatrix 3 [H.k, W.k, c, d]) = _ :=
    tab_asMatrix (d1 := [H.k, W.k, c]) (d2 := [d]) (fn4 Y)
  have m3 : asMatrix 3 [n, H.m, W.m, H.k, W.k, c] = [[n, H.m, W.m].prod, [H.k, W.k, c].prod] := rfl
  have hf : (fresh junk [n, H.m, W.m, H.k, W.k, c].prod).length = [n, H.m, W.m].prod * [H.k, W.k, c].prod := by
    simp [fresh, Nat.mul_assoc]
  rw [m1, m2, m3, Plain.mmt_run _ _ hf]
  simp only [Outcome.ok_bind]
  have e3 := tab_ofMatrix (d1 := [n, H.m, W.m]) (d2 := [H.k, W.k, c])
    (fn2 fun i j => seqSum [d].prod fun k =>
      fn4 G (unravel [n, H.m, W.m] ([i, k].headD 0) ++ unravel [d] ([i, k].tail.headD 0)) *
        fn4 Y (unravel [H.k, W.k, c] ([j, k].headD 0) ++ unravel [d] ([j, k].tail.headD 0)))
    (fn6 fun e i j u v k => seqSum d fun o => G e i j o * Y u v k o) (by
      intro i1 i2 h1 h2
      simp only [fn2_apply, List.headD_cons, List.tail_cons, unravel_offset h1, unravel_offset h2]
      match i1, h1, i2, h2 with
      | [e, i, j], _, [u, v, k], _ => simp [unravel])
  rw [e3]
  exact batched_col2im_order hH hW (fun e i j u v k => seqSum d fun o => G e i j o * Y u v k o) hgx

theorem convGradY_order {H W : Axis} (hH : AxisOK u32 H) (hW : AxisOK u32 W) {n c d : Nat}
    (G X : Nat → Nat → Nat → Nat → R) (junk : Nat → R) {gy : List R} (hgy : gy.length = [H.k, W.k, c, d].prod) :
    convGradY (convTrait H W) junk [H.k, W.k, c, d] (tab [n, H.m, W.m, d] (fn4 G)) (tab [n, H.n, W.n, c] (fn4 X)) gy =
      .ok (tab [H.k, W.k, c, d] (fn4 fun u v k o => seqSum (n * (H.m * W.m)) fun p =>
        let e := p / (H.m * W.m)
        let i := p % (H.m * W.m) / W.m
        let j := p % (H.m * W.m) % W.m
        window H W (fun a a' => X e a a' k) i j u v * G e i j o)).data := by
  simp only [convGradY, filterShape, getDim, tab_dims, FOrder.heightPos, FOrder.widthPos, List.getElem?_cons_zero,
    List.getElem?_cons_succ, Outcome.ok_bind, Outcome.pure_eq]
  have e1 : LinConv.getSample (convTrait H W).h H.k = .ok H.sample := getSample_run hH
  have e2 : LinConv.getSample (convTrait H W).w W.k = .ok W.sample := getSample_run hW
  simp only [e1, e2, Outcome.ok_bind, Ops.batchedShape, hwrscShape_run hH hW c, Outcome.pure_eq]
  rw [batched_hwrsc_any hH hW X (by simp [fresh])]
  simp only [Outcome.ok_bind]
  have m1 : (⟨asMatrix 3 [n, H.m, W.m, H.k, W.k, c],
      (tab [n, H.m, W.m, H.k, W.k, c] (fn6 fun b i j u v k => window H W (fun a a' => X b a a' k) i j u v)).data⟩ :
      Tensor R) = _ := tab_asMatrix (d1 := [n, H.m, W.m]) (d2 := [H.k, W.k, c]) _
  have m2 : (tab [n, H.m, W.m, d] (fn4 G)).withDims (asMatrix 3 [n, H.m, W.m, d]) = _ :=
    tab_asMatrix (d1 := [n, H.m, W.m]) (d2 := [d]) (fn4 G)
  have m3 : asMatrix 3 [H.k, W.k, c, d] = [[H.k, W.k, c].prod, [d].prod] := rfl
  have hf : gy.length = [H.k, W.k, c].prod * [d].prod := by rw [hgy]; simp [Nat.mul_assoc]
  rw [m1, m2, m3, Plain.mtm_run _ _ hf]
  refine congrArg Outcome.ok (tab_ofMatrix (d1 := [H.k, W.k, c]) (d2 := [d]) _ _ ?_)
  intro i1 i2 h1 h2
  simp only [fn2_apply, List.headD_cons, List.tail_cons, unravel_offset h1, unravel_offset h2]
  match i1, h1, i2, h2 with
  | [u, v, k], _, [o], _ =>
    have e : [n, H.m, W.m].prod = n * (H.m * W.m) := by simp
    rw [e]
    simp [unravel]

end
end Kernels

theorem col2im1d_order [Zero R] [Add R] {a : Axis} (h : AxisOK i32 a) (X : Nat → Nat → R) {y : List R}
    (hy : y.length = [a.n].prod) :
    Ops.col2im1d a.sample [a.n] (tab [a.m, a.k] (fn2 X)) y =
      .ok (tab [a.n] (fn1 fun i => listSum (tapsOn1 a i) fun t => X t.1 t.2)).data := by
  simp only [Ops.col2im1d, tab_dims]
  let A : Nat → Nat → Nat → R → R := fun j u p r =>
    match loc1 a j u with
    | some i => if p = offset [a.n] [i] then r + X j u else r
    | none => r
  have key := PW.seq (len := [a.n].prod) (PW.fill _ (0 : R))
    (PW.forRange (n := a.m) fun j hj => PW.forRange (n := a.k) (A := fun u p r => A j u p r) (body := fun u y => do
      let i ← a.sample.tap i32 (i32.conv j) (i32.conv u)
      let b ← a.sample.inside i32 i (i32.conv a.n)
      if b then do
        let i' ← a.sample.unpad i32 i
        let xv ← (tab [a.m, a.k] (fn2 X)).at_ [j, u]
        upd y (offset [a.n] [Ops.idx32 i']) (fun r => r + xv)
      else .ok y) fun u hu => by
        obtain ⟨b1, b2, b3, b4⟩ := h.bounds hj hu
        rw [conv_eq i32_std b1, conv_eq i32_std b2, conv_eq i32_std b3, h.tap hj hu]
        simp only [Outcome.ok_bind, h.inside hj hu, decide_eq_true_eq, A, loc1]
        by_cases c : a.l ≤ a.pos j u ∧ a.pos j u < a.l + a.n
        · simp only [if_pos c, h.unpad hj hu c, Outcome.ok_bind]
          rw [idx32_nat (by omega), tab_at _ (v2 hj hu)]
          have hv : a.pos j u - a.l < a.n := by omega
          exact PW.upd (offset_lt (v1 hv)) _
        · simp only [if_neg c]
          exact PW.pure _)
  refine PW.run_tab (dims := [a.n]) key ?_ hy
  intro idx hv r
  match idx, hv with
  | [i], hv =>
    simp only [fn1_apply, listSum, tapsOn1, foldl_flatMap, foldl_filterMap_ite]
    refine foldl_range_congr (fun j hj r => foldl_range_congr (fun u hu r => ?_) r) 0
    simp only [A]
    rcases e : loc1 a j u with _ | i'
    · have : ¬ a.Hits j u i := by rw [← loc1_some, e]; simp
      simp [this]
    · by_cases e' : i' = i
      · subst e'
        rw [if_pos (loc1_some.1 e)]
        simp
      · have : ¬ a.Hits j u i := by rw [← loc1_some, e]; simpa using e'
        simp [this, Ne.symm e']

end StdNN
