import Verif.Lemmas.Conv
import Verif.Lemmas.Pool
/-!
# The two-dimensional kernels for any way of locating the taps

`Verif.Lemmas.Im2col` runs the kernels for parameters that are natural numbers. The lemmas of this file run them for any pair
of sample objects whose taps are located by a given function; they are used for paddings that are stored as wrapped
negative numbers.
-/
namespace StdNN
open IntTy Spec Outcome
variable {R : Type}

/-- Two sample objects with the sizes of image, output and kernel, and the pixel under each tap. -/
structure Grid where
  hs : Sample
  ws : Sample
  h : Nat
  w : Nat
  m : Nat
  p : Nat
  r : Nat
  s : Nat
  loc : Nat → Nat → Nat → Nat → Option (Nat × Nat)

namespace Grid

/-- The sizes are those the sample objects report, and the taps are where the kernels locate them. -/
structure OK (G : Grid) : Prop where
  out : Ops.outShapeU32 [G.hs, G.ws] [G.h, G.w] = .ok [G.m, G.p]
  ksize : Ops.ksizeU32 [G.hs, G.ws] = [G.r, G.s]
  at_eq : ∀ {i j u v : Nat}, i < G.m → j < G.p → u < G.r → v < G.s →
    Kernels.locate G.hs G.ws G.h G.w i j u v = .ok (G.loc i j u v)
  valid : ∀ {i j u v a b : Nat}, G.loc i j u v = some (a, b) → a < G.h ∧ b < G.w

/-- The value under a tap. -/
def pixel [Zero R] (G : Grid) (X : Nat → Nat → R) (i j u v : Nat) : R :=
  match G.loc i j u v with
  | some (a, b) => X a b
  | none => 0

/-- The values under the taps of a window, those without pixel left out. -/
def pixels (G : Grid) (X : Nat → Nat → R) (i j : Nat) : List R :=
  (List.range G.r).flatMap fun u => (List.range G.s).filterMap fun v =>
    (G.loc i j u v).map fun ab => X ab.1 ab.2

/-- The weighted sum of a window. -/
def conv [Semiring R] (G : Grid) (c : Nat) (X : Nat → Nat → Nat → R) (Y : Nat → Nat → Nat → Nat → R) (i j d : Nat) : R :=
  ∑ u ∈ Finset.range G.r, ∑ v ∈ Finset.range G.s, ∑ k ∈ Finset.range c, G.pixel (fun a b => X a b k) i j u v * Y u v k d

open Kernels

section gather
variable [Zero R]

theorem im2colHwrs_run {G : Grid} (hG : G.OK) (X : Nat → Nat → R) {y : List R}
    (hy : y.length = [G.m, G.p, G.r, G.s].prod) :
    im2colHwrs [G.hs, G.ws] [G.m, G.p, G.r, G.s] (tab [G.h, G.w] (fn2 X)) y =
      .ok (tab [G.m, G.p, G.r, G.s] (fn4 (G.pixel X))).data := by
  simp only [im2colHwrs, tab_dims]
  rw [← run_store4 hy]
  refine forRange_congr (fun i hi s => forRange_congr (fun j hj s => forRange_congr (fun u hu s =>
    forRange_congr (fun v hv s => ?_) s) s) s) y
  rw [hG.at_eq hi hj hu hv, Grid.pixel]
  simp only [Outcome.ok_bind]
  cases h : G.loc i j u v with
  | none => rfl
  | some ab =>
    obtain ⟨a, b⟩ := ab
    have := hG.valid h
    simp only [tab_at _ (v2 this.1 this.2), fn2_apply, Outcome.ok_bind]

theorem im2colRshw_run {G : Grid} (hG : G.OK) (X : Nat → Nat → R) {y : List R}
    (hy : y.length = [G.r, G.s, G.m, G.p].prod) :
    im2colRshw [G.hs, G.ws] [G.r, G.s, G.m, G.p] (tab [G.h, G.w] (fn2 X)) y =
      .ok (tab [G.r, G.s, G.m, G.p] (fn4 fun u v i j => G.pixel X i j u v)).data := by
  simp only [im2colRshw, tab_dims]
  rw [← run_store4 hy]
  refine forRange_congr (fun u hu s => forRange_congr (fun v hv s => forRange_congr (fun i hi s =>
    forRange_congr (fun j hj s => ?_) s) s) s) y
  rw [hG.at_eq hi hj hu hv, Grid.pixel]
  simp only [Outcome.ok_bind]
  cases h : G.loc i j u v with
  | none => rfl
  | some ab =>
    obtain ⟨a, b⟩ := ab
    have := hG.valid h
    simp only [tab_at _ (v2 this.1 this.2), fn2_apply, Outcome.ok_bind]

theorem im2colHwrsc_run {G : Grid} (hG : G.OK) {c : Nat} (X : Nat → Nat → Nat → R)
    {y : List R} (hy : y.length = [G.m, G.p, G.r, G.s, c].prod) :
    im2colHwrsc [G.hs, G.ws] [G.m, G.p, G.r, G.s, c] (tab [G.h, G.w, c] (fn3 X)) y =
      .ok (tab [G.m, G.p, G.r, G.s, c] (fn5 fun i j u v k => G.pixel (fun a b => X a b k) i j u v)).data := by
  simp only [im2colHwrsc, tab_dims, contractAssert_pos, Outcome.ok_bind]
  rw [← run_store5 hy]
  refine forRange_congr (fun i hi s => forRange_congr (fun j hj s => forRange_congr (fun u hu s =>
    forRange_congr (fun v hv s => forRange_congr (fun k hk s => ?_) s) s) s) s) y
  rw [hG.at_eq hi hj hu hv, Grid.pixel]
  simp only [Outcome.ok_bind]
  cases h : G.loc i j u v with
  | none => rfl
  | some ab =>
    obtain ⟨a, b⟩ := ab
    have := hG.valid h
    simp only [tab_at _ (v3 this.1 this.2 hk), fn3_apply, Outcome.ok_bind]

/-- The table of offsets as stored in `int`. -/
def offs (G : Grid) (c : Nat) : List Nat → Int := fn5 fun i j u v k =>
  match G.loc i j u v with
  | some (a, b) => i32.conv (offset [G.h, G.w, c] [a, b, k])
  | none => -1

theorem idxMap_run {G : Grid} (hG : G.OK) {c : Nat}
    {y : List Int} (hy : y.length = [G.m, G.p, G.r, G.s, c].prod) :
    idxMap [G.hs, G.ws] [G.m, G.p, G.r, G.s, c] [G.h, G.w, c] y =
      .ok (tab [G.m, G.p, G.r, G.s, c] (offs G c)).data := by
  simp only [idxMap]
  have e := run_storeFlat (val := fun p => offs G c (unravel [G.m, G.p, G.r, G.s, c] p)) hy
  unfold tab
  rw [← e]
  refine forRange_congr (fun p hp s => ?_) y
  have hv := valid_unravel hp
  generalize unravel [G.m, G.p, G.r, G.s, c] p = idx at hv
  match idx, hv with
  | [i, j, u, v, k], hv =>
    obtain ⟨hi, hj, hu, hv, hk, -⟩ := hv
    simp only [hG.at_eq hi hj hu hv, Outcome.ok_bind, offs, fn5_apply]
    cases h : G.loc i j u v with
    | none => rfl
    | some ab => rfl

/-- What the gather yields for a table truncated to `int`. -/
def gathered (G : Grid) (c : Nat) (X : Nat → Nat → Nat → R) (i j u v k : Nat) : R :=
  match G.loc i j u v with
  | some (a, b) => if offset [G.h, G.w, c] [a, b, k] < 2 ^ 31 then X a b k else 0
  | none => 0

theorem gathered_eq {G : Grid} (hG : G.OK) {c : Nat} (hsz : [G.h, G.w, c].prod ≤ 2 ^ 31) (X : Nat → Nat → Nat → R)
    {i j u v k : Nat} (hk : k < c) : gathered G c X i j u v k = G.pixel (fun a b => X a b k) i j u v := by
  rw [Grid.pixel]
  unfold gathered
  rcases h : G.loc i j u v with _ | ⟨a, b⟩
  · rfl
  · have hb := hG.valid h
    simp only
    rw [if_pos (lt_of_lt_of_le (offset_lt (v3 hb.1 hb.2 hk)) hsz)]

theorem idxGather_run {G : Grid} (hG : G.OK) {c : Nat} (hsz : [G.h, G.w, c].prod ≤ 2 ^ 32) (X : Nat → Nat → Nat → R)
    {y : List R} (hy : y.length = [G.m, G.p, G.r, G.s, c].prod) :
    idxGather (tab [G.m, G.p, G.r, G.s, c] (offs G c)).data (tab [G.h, G.w, c] (fn3 X)).data y =
      .ok (tab [G.m, G.p, G.r, G.s, c] (fn5 (gathered G c X))).data := by
  unfold idxGather
  rw [hy]
  have e := run_storeFlat (val := fun p => fn5 (gathered G c X) (unravel [G.m, G.p, G.r, G.s, c] p)) hy
  conv_rhs => unfold tab
  rw [← e]
  refine forRange_congr (fun p hp s => ?_) y
  obtain ⟨idx, hv, rfl⟩ := exists_offset hp
  have e1 := tab_getElem? (offs G c) hv
  simp only [rd, e1, Outcome.ok_bind, unravel_offset hv]
  match idx, hv with
  | [i, j, u, v, k], hv =>
    obtain ⟨hi, hj, hu, hv, hk, -⟩ := hv
    rcases h : G.loc i j u v with _ | ⟨a, b⟩
    · simp only [offs, fn5_apply, gathered, h]
      rfl
    · simp only [offs, fn5_apply, gathered, h]
      have hb := hG.valid h
      have hlt := offset_lt (v3 hb.1 hb.2 hk)
      have e2 := tab_getElem? (fn3 X) (v3 hb.1 hb.2 hk)
      rw [i32_conv_u32 (lt_of_lt_of_le hlt hsz)]
      by_cases c1 : offset [G.h, G.w, c] [a, b, k] < 2 ^ 31
      · simp only [if_pos c1]
        rw [if_pos (Int.natCast_nonneg _)]
        simp only [Int.toNat_natCast, e2, Outcome.ok_bind, fn3_apply]
      · simp only [if_neg c1]
        rw [if_neg]
        have := lt_of_lt_of_le hlt hsz
        have i32' : (2 : Int) ^ 32 = 4294967296 := by norm_num
        have h32 : (2 : Nat) ^ 32 = 4294967296 := by norm_num
        omega

theorem im2colNhwrsc_run_gen {G : Grid} (hG : G.OK) {n c : Nat}
    (hsz : [G.h, G.w, c].prod ≤ 2 ^ 32) (X : Nat → Nat → Nat → Nat → R) (junk : Nat → Int) {y : List R}
    (hy : y.length = [n, G.m, G.p, G.r, G.s, c].prod) :
    im2colNhwrsc [G.hs, G.ws] junk [n, G.m, G.p, G.r, G.s, c] (tab [n, G.h, G.w, c] (fn4 X)) y =
      .ok (tab [n, G.m, G.p, G.r, G.s, c] (fn6 fun b => gathered G c (X b))).data := by
  simp only [im2colNhwrsc, tab_dims, List.tail_cons]
  rw [idxMap_run hG (by simp [fresh])]
  simp only [Outcome.ok_bind]
  rw [run_slices (sub := [G.m, G.p, G.r, G.s, c]) (F := fun b => fn5 (gathered G c (X b))) ?_ (by simpa using hy)]
  · refine congrArg (fun t => Outcome.ok (Tensor.data t)) (tab_congr fun idx hv => ?_)
    match idx, hv with
    | [b, i, j, u, v, k], hv => rfl
  · intro b hb s hs
    rw [tab_sub _ hb]
    have : tab [G.h, G.w, c] (fun idx => fn4 X (b :: idx)) = tab [G.h, G.w, c] (fn3 (X b)) := by
      apply tab_congr
      intro idx hv
      match idx, hv with
      | [a, a', k], hv => rfl
    rw [this, idxGather_run hG hsz _ hs]

theorem im2colNhwrsc_run {G : Grid} (hG : G.OK) {n c : Nat}
    (hsz : [G.h, G.w, c].prod ≤ 2 ^ 31) (X : Nat → Nat → Nat → Nat → R) (junk : Nat → Int) {y : List R}
    (hy : y.length = [n, G.m, G.p, G.r, G.s, c].prod) :
    im2colNhwrsc [G.hs, G.ws] junk [n, G.m, G.p, G.r, G.s, c] (tab [n, G.h, G.w, c] (fn4 X)) y =
      .ok (tab [n, G.m, G.p, G.r, G.s, c]
        (fn6 fun b i j u v k => G.pixel (fun a a' => X b a a' k) i j u v)).data := by
  rw [im2colNhwrsc_run_gen hG (le_trans hsz (by norm_num)) X junk hy]
  refine congrArg (fun t => Outcome.ok (Tensor.data t)) (tab_congr fun idx hv => ?_)
  match idx, hv with
  | [b, i, j, u, v, k], hv => exact gathered_eq hG hsz (X b) hv.2.2.2.2.2.1

end gather

theorem hwrscShape_run {G : Grid} (hG : G.OK) (c : Nat) :
    Ops.im2colHwrscShape [G.hs, G.ws] [G.h, G.w, c] = .ok [G.m, G.p, G.r, G.s, c] := by
  simp [Ops.im2colHwrscShape, hG.out, hG.ksize]

theorem rshwShape_run {G : Grid} (hG : G.OK) :
    Ops.im2colRshwShape [G.hs, G.ws] [G.h, G.w] = .ok [G.r, G.s, G.m, G.p] := by
  simp [Ops.im2colRshwShape, hG.out, hG.ksize]

theorem hwrsShape_run {G : Grid} (hG : G.OK) :
    Ops.im2colHwrsShape [G.hs, G.ws] [G.h, G.w] = .ok [G.m, G.p, G.r, G.s] := by
  simp [Ops.im2colHwrsShape, hG.out, hG.ksize]

theorem convNhwc_run [Semiring R] {G : Grid} (hG : G.OK) {T : ConvTrait} (e1 : LinConv.getSample T.h G.r = .ok G.hs)
    (e2 : LinConv.getSample T.w G.s = .ok G.ws) {n c d : Nat}
    (hsz : [G.h, G.w, c].prod ≤ 2 ^ 31) (X Y : Nat → Nat → Nat → Nat → R) (junkI : Nat → Int) (junk : Nat → R)
    {z : List R} (hz : z.length = [n, G.m, G.p, d].prod) :
    convNhwc T junkI junk [n, G.m, G.p, d] (tab [n, G.h, G.w, c] (fn4 X))
        (tab [G.r, G.s, c, d] (fn4 Y)) z =
      .ok (tab [n, G.m, G.p, d] (fn4 fun b i j e => G.conv c (X b) Y i j e)).data := by
  simp only [convNhwc, filterShape, getDim, tab_dims, FOrder.heightPos, FOrder.widthPos, List.getElem?_cons_zero,
    List.getElem?_cons_succ, Outcome.ok_bind, Outcome.pure_eq]
  simp only [e1, e2, Outcome.ok_bind, Ops.batchedShape, hwrscShape_run hG c, Outcome.pure_eq]
  rw [im2colNhwrsc_run hG hsz X junkI (by simp [fresh])]
  simp only [Outcome.ok_bind]
  have m1 : (⟨asMatrix 3 [n, G.m, G.p, G.r, G.s, c],
      (tab [n, G.m, G.p, G.r, G.s, c] (fn6 fun b i j u v k => G.pixel (fun a a' => X b a a' k) i j u v)).data⟩ :
      Tensor R) = _ := tab_asMatrix (d1 := [n, G.m, G.p]) (d2 := [G.r, G.s, c]) _
  have m2 : (tab [G.r, G.s, c, d] (fn4 Y)).withDims (asMatrix 3 [G.r, G.s, c, d]) = _ :=
    tab_asMatrix (d1 := [G.r, G.s, c]) (d2 := [d]) (fn4 Y)
  have hz' : z.length = [n, G.m, G.p].prod * [d].prod := by rw [hz]; simp [Nat.mul_assoc]
  rw [m1, m2]
  have m3 : asMatrix 3 [n, G.m, G.p, d] = [[n, G.m, G.p].prod, [d].prod] := rfl
  rw [m3, Plain.mm_run _ _ hz']
  refine congrArg Outcome.ok (tab_ofMatrix (d1 := [n, G.m, G.p]) (d2 := [d]) _ _ ?_)
  intro i1 i2 h1 h2
  simp only [Plain.prod2, fn2_apply, List.headD_cons, List.tail_cons, unravel_offset h1, unravel_offset h2]
  rw [seqSum_eq_sum, sum_unravel3 G.r G.s c (fun l =>
    (fn6 fun b i j u v k => G.pixel (fun a a' => X b a a' k) i j u v) (i1 ++ l) * fn4 Y (l ++ i2))]
  match i1, h1, i2, h2 with
  | [b, i, j], _, [e], _ => rfl

theorem batched_rshw_run [Zero R] {G : Grid} (hG : G.OK) {c : Nat} (X : Nat → Nat → Nat → R)
    {y : List R} (hy : y.length = [c, G.r, G.s, G.m, G.p].prod) :
    Ops.batched (im2colRshw [G.hs, G.ws]) [c, G.r, G.s, G.m, G.p] (tab [c, G.h, G.w] (fn3 X)) y =
      .ok (tab [c, G.r, G.s, G.m, G.p] (fn5 fun k u v i j => G.pixel (X k) i j u v)).data := by
  simp only [Ops.batched, tab_dims, List.tail_cons]
  rw [run_slices (sub := [G.r, G.s, G.m, G.p]) (F := fun k => fn4 fun u v i j => G.pixel (X k) i j u v) ?_
    (by simpa using hy)]
  · refine congrArg (fun t => Outcome.ok (Tensor.data t)) (tab_congr fun idx hv => ?_)
    match idx, hv with
    | [k, u, v, i, j], hv => rfl
  · intro k hk s hs
    rw [tab_sub _ hk]
    have : tab [G.h, G.w] (fun idx => fn3 X (k :: idx)) = tab [G.h, G.w] (fn2 (X k)) := by
      apply tab_congr
      intro idx hv
      match idx, hv with
      | [a, a'], hv => rfl
    rw [this, im2colRshw_run hG _ hs]

theorem convNchw_order [Zero R] [Add R] [Mul R] {G : Grid} (hG : G.OK) {T : ConvTrait}
    (e1 : LinConv.getSample T.h G.r = .ok G.hs) (e2 : LinConv.getSample T.w G.s = .ok G.ws) {n c d : Nat}
    (X Y : Nat → Nat → Nat → Nat → R) (junk : Nat → R) {z : List R} (hz : z.length = [n, d, G.m, G.p].prod) :
    convNchw T junk [n, d, G.m, G.p] (tab [n, c, G.h, G.w] (fn4 X)) (tab [d, c, G.r, G.s] (fn4 Y)) z =
      .ok (tab [n, d, G.m, G.p] (fn4 fun b e i j => seqSum [c, G.r, G.s].prod fun p =>
        fn4 Y (e :: unravel [c, G.r, G.s] p) *
          (fn5 fun k u v i j => G.pixel (X b k) i j u v) (unravel [c, G.r, G.s] p ++ [i, j]))).data := by
  simp only [convNchw, filterShape, getDim, tab_dims, FOrder.heightPos, FOrder.widthPos, List.getElem?_cons_zero,
    List.getElem?_cons_succ, Outcome.ok_bind, Outcome.pure_eq, batchSize, Order.batchPos, List.tail_cons]
  simp only [e1, e2, Outcome.ok_bind, Ops.batchedShape, rshwShape_run hG, Outcome.pure_eq]
  -- the product written into one image
  let F : Nat → List Nat → R := fun b => fn3 fun e i j => seqSum [c, G.r, G.s].prod fun p =>
    fn4 Y (e :: unravel [c, G.r, G.s] p) *
      (fn5 fun k u v i j => G.pixel (X b k) i j u v) (unravel [c, G.r, G.s] p ++ [i, j])
  have step : ∀ b < n, ∀ st : List R × List R, st.1.length = [c, G.r, G.s, G.m, G.p].prod →
      (∀ s : List R, s.length = [d, G.m, G.p].prod → ∃ u, u.length = [c, G.r, G.s, G.m, G.p].prod ∧
        Ops.batched (im2colRshw [G.hs, G.ws]) [c, G.r, G.s, G.m, G.p] ((tab [n, c, G.h, G.w] (fn4 X)).sub b)
          st.1 = .ok u ∧
        Plain.mm ((tab [d, c, G.r, G.s] (fn4 Y)).withDims (asMatrix 1 [d, c, G.r, G.s]))
          ⟨asMatrix 3 [c, G.r, G.s, G.m, G.p], u⟩ (asMatrix 1 [d, G.m, G.p]) s = .ok (tab [d, G.m, G.p] (F b)).data) := by
    intro b hb st hst s hs
    rw [tab_sub _ hb]
    have ex : tab [c, G.h, G.w] (fun idx => fn4 X (b :: idx)) = tab [c, G.h, G.w] (fn3 (X b)) := by
      apply tab_congr
      intro idx hv
      match idx, hv with
      | [a, a', k], hv => rfl
    rw [ex, batched_rshw_run hG _ hst]
    refine ⟨_, by rw [tab_length], rfl, ?_⟩
    have m1 : (⟨asMatrix 3 [c, G.r, G.s, G.m, G.p],
        (tab [c, G.r, G.s, G.m, G.p] (fn5 fun k u v i j => G.pixel (X b k) i j u v)).data⟩ : Tensor R) = _ :=
      tab_asMatrix (d1 := [c, G.r, G.s]) (d2 := [G.m, G.p]) _
    have m2 : (tab [d, c, G.r, G.s] (fn4 Y)).withDims (asMatrix 1 [d, c, G.r, G.s]) = _ :=
      tab_asMatrix (d1 := [d]) (d2 := [c, G.r, G.s]) (fn4 Y)
    have m3 : asMatrix 1 [d, G.m, G.p] = [[d].prod, [G.m, G.p].prod] := rfl
    have hs' : s.length = [d].prod * [G.m, G.p].prod := by rw [hs]; simp
    rw [m1, m2, m3, Plain.mm_run _ _ hs']
    refine congrArg Outcome.ok (tab_ofMatrix (d1 := [d]) (d2 := [G.m, G.p]) _ _ ?_)
    intro i1 i2 h1 h2
    simp only [Plain.prod2, fn2_apply, List.headD_cons, List.tail_cons, unravel_offset h1, unravel_offset h2]
    match i1, h1, i2, h2 with
    | [e], _, [i, j], _ => rfl
  -- run the loop with the scratch buffer
  have loop : ∀ m ≤ n, ∀ (u0 : List R), u0.length = [c, G.r, G.s, G.m, G.p].prod → ∃ u' : List R,
      u'.length = [c, G.r, G.s, G.m, G.p].prod ∧
      forRange m (fun l (st : List R × List R) => do
        let xUpper ← Ops.batched (im2colRshw [G.hs, G.ws]) [c, G.r, G.s, G.m, G.p]
          ((tab [n, c, G.h, G.w] (fn4 X)).sub l) st.1
        let z ← onSlice (l * [d, G.m, G.p].prod) [d, G.m, G.p].prod
          (Plain.mm ((tab [d, c, G.r, G.s] (fn4 Y)).withDims (asMatrix 1 [d, c, G.r, G.s]))
            ⟨asMatrix 3 [c, G.r, G.s, G.m, G.p], xUpper⟩ (asMatrix 1 [d, G.m, G.p])) st.2
        Outcome.ok (xUpper, z)) (u0, z) =
      (forRange m (fun l z => onSlice (l * [d, G.m, G.p].prod) [d, G.m, G.p].prod
        (fun s => if s.length = [d, G.m, G.p].prod then .ok (tab [d, G.m, G.p] (F l)).data else .ub) z) z >>=
          fun z' => .ok (u', z')) := by
    intro m hm u0 hu0
    induction m with
    | zero => exact ⟨u0, hu0, rfl⟩
    | succ m ih =>
      obtain ⟨u1, hu1, e⟩ := ih (by omega)
      simp only [forRange_succ] at e ⊢
      rw [e]
      cases hr : forRange m (fun l z => onSlice (l * [d, G.m, G.p].prod) [d, G.m, G.p].prod
        (fun s => if s.length = [d, G.m, G.p].prod then .ok (tab [d, G.m, G.p] (F l)).data else .ub) z) z with
      | throw e' => exact ⟨u1, hu1, rfl⟩
      | ub => exact ⟨u1, hu1, rfl⟩
      | ok z1 =>
        simp only [Outcome.ok_bind]
        by_cases hl : m * [d, G.m, G.p].prod + [d, G.m, G.p].prod ≤ z1.length
        · obtain ⟨u2, hu2, e2, e3⟩ := step m (by omega) (u1, z1) hu1
            ((z1.drop (m * [d, G.m, G.p].prod)).take [d, G.m, G.p].prod)
            (by rw [List.length_take, List.length_drop]; omega)
          refine ⟨u2, hu2, ?_⟩
          have hlen : ((z1.drop (m * [d, G.m, G.p].prod)).take [d, G.m, G.p].prod).length = [d, G.m, G.p].prod := by
            rw [List.length_take, List.length_drop]; omega
          simp only at e2
          rw [e2]
          simp only [Outcome.ok_bind, onSlice, if_pos hl, e3, if_pos hlen]
        · obtain ⟨u2, hu2, e2, -⟩ := step m (by omega) (u1, z1) hu1
            (List.replicate [d, G.m, G.p].prod 0) (by simp)
          refine ⟨u2, hu2, ?_⟩
          simp only at e2
          rw [e2]
          simp only [Outcome.ok_bind, onSlice, if_neg hl]
          try rfl
  obtain ⟨u', -, e⟩ := loop n (le_refl n) (fresh junk [c, G.r, G.s, G.m, G.p].prod) (by simp [fresh])
  rw [e, run_slices (sub := [d, G.m, G.p]) (F := F) ?_ (by simpa using hz)]
  · simp only [Outcome.ok_bind]
    refine congrArg (fun t => Outcome.ok (Tensor.data t)) (tab_congr fun idx hv => ?_)
    match idx, hv with
    | [b, e, i, j], hv => rfl
  · intro b hb s hs
    rw [if_pos hs]

theorem convNchw_run [CommSemiring R] {G : Grid} (hG : G.OK) {T : ConvTrait}
    (e1 : LinConv.getSample T.h G.r = .ok G.hs) (e2 : LinConv.getSample T.w G.s = .ok G.ws) {n c d : Nat}
    (X Y : Nat → Nat → Nat → Nat → R) (junk : Nat → R) {z : List R} (hz : z.length = [n, d, G.m, G.p].prod) :
    convNchw T junk [n, d, G.m, G.p] (tab [n, c, G.h, G.w] (fn4 X)) (tab [d, c, G.r, G.s] (fn4 Y)) z =
      .ok (tab [n, d, G.m, G.p] (fn4 fun b e i j =>
        G.conv c (fun a a' k => X b k a a') (fun u v k e => Y e k u v) i j e)).data := by
  rw [convNchw_order hG e1 e2 X Y junk hz]
  refine congrArg (fun t => Outcome.ok (Tensor.data t)) (tab_congr fun idx hv => ?_)
  match idx, hv with
  | [b, e, i, j], _ =>
    simp only [fn4_apply]
    rw [seqSum_eq_sum, sum_unravel3 c G.r G.s (fun l =>
      fn4 Y (e :: l) * (fn5 fun k u v i j => G.pixel (X b k) i j u v) (l ++ [i, j]))]
    simp only [List.cons_append, List.nil_append, fn4_apply, fn5_apply, Grid.conv]
    rw [Finset.sum_comm]
    refine Finset.sum_congr rfl fun u _ => ?_
    rw [Finset.sum_comm]
    refine Finset.sum_congr rfl fun v _ => Finset.sum_congr rfl fun k _ => mul_comm _ _

theorem pool_window {G : Grid} (hG : G.OK) (X : Nat → Nat → R) (acc : Acc R)
    (get : Nat → Nat → Outcome R) (hg : ∀ a < G.h, ∀ b < G.w, get a b = .ok (X a b))
    {i j : Nat} (hi : i < G.m) (hj : j < G.p) (s : acc.S) :
    forRange G.r (fun u st => forRange G.s (fun v st => do
        let o ← Kernels.locate G.hs G.ws G.h G.w i j u v
        match o with
        | some (a, b) => do
          let xv ← get a b
          acc.step st xv
        | none => .ok st) st) s = (G.pixels X i j).foldlM acc.step s := by
  unfold pixels
  rw [← forRange_flatMap]
  refine forRange_congr (fun u hu st => ?_) s
  rw [← forRange_filterMap]
  refine forRange_congr (fun v hv st => ?_) st
  rw [hG.at_eq hi hj hu hv, Outcome.ok_bind]
  rcases h : G.loc i j u v with _ | ⟨a, b⟩
  · rfl
  · have hb := hG.valid h
    simp only [Option.map_some, hg _ hb.1 _ hb.2, Outcome.ok_bind]

theorem pool_ksize {G : Grid} (hG : G.OK) : (⟨G.hs, G.ws⟩ : PoolTrait).ksize = (G.r, G.s) := by
  have := hG.ksize
  simp only [Ops.ksizeU32, MultiSample.getKsize, List.map_cons, List.map_nil, List.cons.injEq, and_true] at this
  exact Prod.ext this.1 this.2

theorem poolHw_run [Zero R] {G : Grid} (hG : G.OK) (acc : Acc R) (X Z : Nat → Nat → R)
    (hZ : ∀ i < G.m, ∀ j < G.p, acc.run (G.pixels X i j) = .ok (Z i j)) {y : List R}
    (hy : y.length = [G.m, G.p].prod) :
    poolHw acc ⟨G.hs, G.ws⟩ [G.m, G.p] (tab [G.h, G.w] (fn2 X)) y = .ok (tab [G.m, G.p] (fn2 Z)).data := by
  simp only [poolHw, tab_dims, pool_ksize hG]
  rw [← Plain.run_store2 (by simpa using hy)]
  refine forRange_congr (fun i hi s => forRange_congr (fun j hj s => ?_) s) y
  have := pool_window hG X acc (fun a b => (tab [G.h, G.w] (fn2 X)).at_ [a, b])
    (fun a ha b hb => by rw [tab_at _ (v2 ha hb)]; rfl) hi hj acc.init
  have hz := hZ i hi j hj
  unfold Acc.run at hz
  rw [← this] at hz
  obtain ⟨st, h1, h2⟩ := Outcome.bind_eq_ok.1 hz
  refine (congrArg (fun o => o >>= fun st => acc.result st >>= fun v => wr s (offset [G.m, G.p] [i, j]) v) h1).trans ?_
  simp only [Outcome.ok_bind, h2]

theorem poolHwc_run [Zero R] {G : Grid} (hG : G.OK) (acc : Acc R) {c : Nat}
    (X Z : Nat → Nat → Nat → R)
    (hZ : ∀ i < G.m, ∀ j < G.p, ∀ k < c, acc.run (G.pixels (fun a b => X a b k) i j) = .ok (Z i j k)) {y : List R}
    (hy : y.length = [G.m, G.p, c].prod) :
    poolHwc acc ⟨G.hs, G.ws⟩ [G.m, G.p, c] (tab [G.h, G.w, c] (fn3 X)) y =
      .ok (tab [G.m, G.p, c] (fn3 Z)).data := by
  simp only [poolHwc, tab_dims, pool_ksize hG, contractAssert_pos, Outcome.ok_bind]
  have key : forRange c (fun k y => forRange G.m (fun i y => forRange G.p (fun j y =>
      wr y (offset [G.m, G.p, c] [i, j, k]) (Z i j k)) y) y) y = .ok (tab [G.m, G.p, c] (fn3 Z)).data := by
    refine WS.run_tab (dims := [G.m, G.p, c])
      (S := fun p => ∃ k < c, ∃ i < G.m, ∃ j < G.p, p = offset [G.m, G.p, c] [i, j, k]) ?_ ?_ hy
    · exact WS.forRange fun k hk => WS.forRange fun i hi => WS.forRange fun j hj => WS.wr_idx (v3 hi hj hk) rfl
    · intro idx hv
      match idx, hv with
      | [i, j, k], hv => exact ⟨k, hv.2.2.1, i, hv.1, j, hv.2.1, rfl⟩
  rw [← key]
  refine forRange_congr (fun k hk s => forRange_congr (fun i hi s => forRange_congr (fun j hj s => ?_) s) s) y
  have := pool_window hG (fun a b => X a b k) acc (fun a b => (tab [G.h, G.w, c] (fn3 X)).at_ [a, b, k])
    (fun a ha b hb => by rw [tab_at _ (v3 ha hb hk)]; rfl) hi hj acc.init
  have hz := hZ i hi j hj k hk
  unfold Acc.run at hz
  rw [← this] at hz
  obtain ⟨st, h1, h2⟩ := Outcome.bind_eq_ok.1 hz
  refine (congrArg (fun o => o >>= fun st => acc.result st >>= fun v => wr s (offset [G.m, G.p, c] [i, j, k]) v) h1).trans ?_
  simp only [Outcome.ok_bind, h2]

end Grid
end StdNN
