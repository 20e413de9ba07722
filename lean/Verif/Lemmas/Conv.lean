import Verif.Model.Conv
import Verif.Lemmas.Im2col
import Verif.Spec.Conv
/-!
# Convolutions on tabulated tensors
-/
namespace StdNN
open IntTy Spec Outcome
variable {R : Type}

theorem unravel_length (dims : List Nat) (p : Nat) : (unravel dims p).length = dims.length := by
  induction dims generalizing p with
  | nil => rfl
  | cons d ds ih => simp [unravel, ih]

theorem unravel_append {d1 d2 : List Nat} {p q : Nat} (hp : p < d1.prod) (hq : q < d2.prod) :
    unravel (d1 ++ d2) (p * d2.prod + q) = unravel d1 p ++ unravel d2 q := by
  obtain ⟨i1, h1, rfl⟩ := exists_offset hp
  obtain ⟨i2, h2, rfl⟩ := exists_offset hq
  rw [← offset_append d2 i2 h1, unravel_offset (valid_append h1 h2), unravel_offset h1, unravel_offset h2]

/-- Sum over a flat index. -/
theorem sum_unravel_cons [AddCommMonoid R] (d : Nat) (ds : List Nat) (F : List Nat → R) :
    ∑ p ∈ Finset.range (d :: ds).prod, F (unravel (d :: ds) p) =
      ∑ i ∈ Finset.range d, ∑ p ∈ Finset.range ds.prod, F (i :: unravel ds p) := by
  simp only [List.prod_cons]
  induction d with
  | zero => simp
  | succ d ih =>
    rw [Finset.sum_range_succ, ← ih, Nat.succ_mul, Finset.sum_range_add]
    congr 1
    apply Finset.sum_congr rfl
    intro p hp
    have hp := Finset.mem_range.1 hp
    have hpos : 0 < ds.prod := by omega
    simp only [unravel]
    rw [Nat.mul_comm, Nat.mul_add_div hpos, Nat.mul_add_mod, Nat.div_eq_of_lt hp, Nat.mod_eq_of_lt hp]
    rfl

theorem sum_unravel_nil [AddCommMonoid R] (F : List Nat → R) :
    ∑ p ∈ Finset.range ([] : List Nat).prod, F (unravel [] p) = F [] := by simp [unravel]

theorem sum_unravel3 [AddCommMonoid R] (a b c : Nat) (F : List Nat → R) :
    ∑ p ∈ Finset.range [a, b, c].prod, F (unravel [a, b, c] p) =
      ∑ i ∈ Finset.range a, ∑ j ∈ Finset.range b, ∑ k ∈ Finset.range c, F [i, j, k] := by
  rw [sum_unravel_cons]
  refine Finset.sum_congr rfl fun i _ => ?_
  rw [sum_unravel_cons b [c] (fun l => F (i :: l))]
  refine Finset.sum_congr rfl fun j _ => ?_
  rw [sum_unravel_cons c [] (fun l => F (i :: j :: l))]
  refine Finset.sum_congr rfl fun k _ => ?_
  exact sum_unravel_nil (fun l => F (i :: j :: k :: l))

/-- A tensor seen as a matrix, first index a flat index over `d1`, second over `d2`. -/
theorem tab_asMatrix {d1 d2 : List Nat} (f : List Nat → R) :
    (⟨[d1.prod, d2.prod], (tab (d1 ++ d2) f).data⟩ : Tensor R) =
      tab [d1.prod, d2.prod] (fun idx => f (unravel d1 (idx.headD 0) ++ unravel d2 (idx.tail.headD 0))) := by
  have h := tab_withDims (dims := d1 ++ d2) (dims' := [d1.prod, d2.prod]) f (by simp)
  unfold Tensor.withDims at h
  rw [h]
  apply tab_congr
  intro idx hv
  match idx, hv with
  | [p, q], hv =>
    simp only [offset_cons, List.prod_cons, List.prod_nil, Nat.mul_one, offset_nil, Nat.add_zero, List.headD_cons,
      List.tail_cons]
    rw [unravel_append hv.1 hv.2.1]

/-- The data of a matrix as that of a tensor. -/
theorem tab_ofMatrix {d1 d2 : List Nat} (g : List Nat → R) (f : List Nat → R)
    (h : ∀ i1 i2, Valid d1 i1 → Valid d2 i2 → g [offset d1 i1, offset d2 i2] = f (i1 ++ i2)) :
    (tab [d1.prod, d2.prod] g).data = (tab (d1 ++ d2) f).data := by
  have e := tab_asMatrix (d1 := d1) (d2 := d2) f
  have e2 : tab [d1.prod, d2.prod] g =
      tab [d1.prod, d2.prod] (fun idx => f (unravel d1 (idx.headD 0) ++ unravel d2 (idx.tail.headD 0))) := by
    apply tab_congr
    intro idx hv
    match idx, hv with
    | [p, q], hv =>
      have := h _ _ (valid_unravel hv.1) (valid_unravel hv.2.1)
      rw [offset_unravel hv.1, offset_unravel hv.2.1] at this
      simpa using this
  rw [e2, ← e]

/-! ## Traits -/

/-- The code's convolution trait for two axes (the kernel and image sizes are not part of it). -/
def convTrait (H W : Axis) : ConvTrait := ConvTrait.make (⟨H.l, H.q⟩, ⟨W.l, W.q⟩) (H.s, W.s) (H.r, W.r)

theorem getSample_run {a : Axis} (h : AxisOK u32 a) :
    LinConv.getSample ⟨a.l, a.q, a.r, a.s⟩ a.k = .ok a.sample := by
  have f := h.fits
  have k1 := f.k1; have s1 := f.s1; have r1 := f.r1
  simp [LinConv.getSample, Sample.make, Filter.make_ok f.hN f.hk f.hs f.hr (by omega) (by omega) (by omega),
    Axis.sample]

theorem sample_outSize {N : IntTy} {a : Axis} (h : AxisOK N a) : a.sample.outSize N a.n = .ok (a.m : Int) := by
  have f := h.fits
  have k1 := f.k1; have s1 := f.s1; have r1 := f.r1
  have := (C01_output_length h.fits a.m).2 h.covers
  rw [sampleCall, Filter.make_ok f.hN f.hk f.hs f.hr (by omega) (by omega) (by omega)] at this
  exact this

theorem outShape_run {H W : Axis} (hH : AxisOK u32 H) (hW : AxisOK u32 W) :
    Ops.outShapeU32 [H.sample, W.sample] [H.n, W.n] = .ok [H.m, W.m] := by
  simp [Ops.outShapeU32, MultiSample.outShape, sample_outSize hH, sample_outSize hW]

theorem ksize_run (H W : Axis) : Ops.ksizeU32 [H.sample, W.sample] = [H.k, W.k] := by
  simp [Ops.ksizeU32, MultiSample.getKsize, Axis.sample]

theorem hwrscShape_run {H W : Axis} (hH : AxisOK u32 H) (hW : AxisOK u32 W) (c : Nat) :
    Ops.im2colHwrscShape [H.sample, W.sample] [H.n, W.n, c] = .ok [H.m, W.m, H.k, W.k, c] := by
  simp [Ops.im2colHwrscShape, outShape_run hH hW, ksize_run]

theorem rshwShape_run {H W : Axis} (hH : AxisOK u32 H) (hW : AxisOK u32 W) :
    Ops.im2colRshwShape [H.sample, W.sample] [H.n, W.n] = .ok [H.k, W.k, H.m, W.m] := by
  simp [Ops.im2colRshwShape, outShape_run hH hW, ksize_run]

theorem hwrsShape_run {H W : Axis} (hH : AxisOK u32 H) (hW : AxisOK u32 W) :
    Ops.im2colHwrsShape [H.sample, W.sample] [H.n, W.n] = .ok [H.m, W.m, H.k, W.k] := by
  simp [Ops.im2colHwrsShape, outShape_run hH hW, ksize_run]

namespace Kernels
section
variable [Semiring R]

theorem convNhwc_run {H W : Axis} (hH : AxisOK u32 H) (hW : AxisOK u32 W) {n c d : Nat}
    (hsz : [H.n, W.n, c].prod ≤ 2 ^ 31) (X Y : Nat → Nat → Nat → Nat → R) (junkI : Nat → Int) (junk : Nat → R)
    {z : List R} (hz : z.length = [n, H.m, W.m, d].prod) :
    convNhwc (convTrait H W) junkI junk [n, H.m, W.m, d] (tab [n, H.n, W.n, c] (fn4 X))
        (tab [H.k, W.k, c, d] (fn4 Y)) z =
      .ok (tab [n, H.m, W.m, d] (fn4 fun b i j e => conv2 H W c (X b) Y i j e)).data := by
  simp only [convNhwc, filterShape, getDim, tab_dims, FOrder.heightPos, FOrder.widthPos, List.getElem?_cons_zero,
    List.getElem?_cons_succ, Outcome.ok_bind, Outcome.pure_eq]
  have e1 : LinConv.getSample (convTrait H W).h H.k = .ok H.sample := getSample_run hH
  have e2 : LinConv.getSample (convTrait H W).w W.k = .ok W.sample := getSample_run hW
  simp only [e1, e2, Outcome.ok_bind, Ops.batchedShape, hwrscShape_run hH hW c, Outcome.pure_eq]
  rw [im2colNhwrsc_run hH hW hsz X junkI (by simp [fresh])]
  simp only [Outcome.ok_bind]
  have m1 : (⟨asMatrix 3 [n, H.m, W.m, H.k, W.k, c],
      (tab [n, H.m, W.m, H.k, W.k, c] (fn6 fun b i j u v k => window H W (fun a a' => X b a a' k) i j u v)).data⟩ :
      Tensor R) = _ := tab_asMatrix (d1 := [n, H.m, W.m]) (d2 := [H.k, W.k, c]) _
  have m2 : (tab [H.k, W.k, c, d] (fn4 Y)).withDims (asMatrix 3 [H.k, W.k, c, d]) = _ :=
    tab_asMatrix (d1 := [H.k, W.k, c]) (d2 := [d]) (fn4 Y)
  have hz' : z.length = [n, H.m, W.m].prod * [d].prod := by rw [hz]; simp [Nat.mul_assoc]
  rw [m1, m2]
  have m3 : asMatrix 3 [n, H.m, W.m, d] = [[n, H.m, W.m].prod, [d].prod] := rfl
  rw [m3, Plain.mm_run _ _ hz']
  refine congrArg Outcome.ok (tab_ofMatrix (d1 := [n, H.m, W.m]) (d2 := [d]) _ _ ?_)
  intro i1 i2 h1 h2
  simp only [Plain.prod2, fn2_apply, List.headD_cons, List.tail_cons, unravel_offset h1, unravel_offset h2]
  rw [seqSum_eq_sum, sum_unravel3 H.k W.k c (fun l =>
    (fn6 fun b i j u v k => window H W (fun a a' => X b a a' k) i j u v) (i1 ++ l) * fn4 Y (l ++ i2))]
  match i1, h1, i2, h2 with
  | [b, i, j], _, [e], _ => rfl

omit [Semiring R] in
theorem batched_rshw_run [Zero R] {H W : Axis} (hH : AxisOK u32 H) (hW : AxisOK u32 W) {c : Nat} (X : Nat → Nat → Nat → R)
    {y : List R} (hy : y.length = [c, H.k, W.k, H.m, W.m].prod) :
    Ops.batched (im2colRshw [H.sample, W.sample]) [c, H.k, W.k, H.m, W.m] (tab [c, H.n, W.n] (fn3 X)) y =
      .ok (tab [c, H.k, W.k, H.m, W.m] (fn5 fun k u v i j => window H W (X k) i j u v)).data := by
  simp only [Ops.batched, tab_dims, List.tail_cons]
  rw [run_slices (sub := [H.k, W.k, H.m, W.m]) (F := fun k => fn4 fun u v i j => window H W (X k) i j u v) ?_
    (by simpa using hy)]
  · refine congrArg (fun t => Outcome.ok (Tensor.data t)) (tab_congr fun idx hv => ?_)
    match idx, hv with
    | [k, u, v, i, j], hv => rfl
  · intro k hk s hs
    rw [tab_sub _ hk]
    have : tab [H.n, W.n] (fun idx => fn3 X (k :: idx)) = tab [H.n, W.n] (fn2 (X k)) := by
      apply tab_congr
      intro idx hv
      match idx, hv with
      | [a, a'], hv => rfl
    rw [this, im2colRshw_run hH hW _ hs]

theorem batched_hwrsc_run {H W : Axis} (hH : AxisOK u32 H) (hW : AxisOK u32 W) {n c : Nat}
    (X : Nat → Nat → Nat → Nat → R) {y : List R} (hy : y.length = [n, H.m, W.m, H.k, W.k, c].prod) :
    Ops.batched (im2colHwrsc [H.sample, W.sample]) [n, H.m, W.m, H.k, W.k, c] (tab [n, H.n, W.n, c] (fn4 X)) y =
      .ok (tab [n, H.m, W.m, H.k, W.k, c]
        (fn6 fun b i j u v k => window H W (fun a a' => X b a a' k) i j u v)).data := by
  simp only [Ops.batched, tab_dims, List.tail_cons]
  rw [run_slices (sub := [H.m, W.m, H.k, W.k, c])
    (F := fun b => fn5 fun i j u v k => window H W (fun a a' => X b a a' k) i j u v) ?_ (by simpa using hy)]
  · refine congrArg (fun t => Outcome.ok (Tensor.data t)) (tab_congr fun idx hv => ?_)
    match idx, hv with
    | [b, i, j, u, v, k], hv => rfl
  · intro b hb s hs
    rw [tab_sub _ hb]
    have : tab [H.n, W.n, c] (fun idx => fn4 X (b :: idx)) = tab [H.n, W.n, c] (fn3 (X b)) := by
      apply tab_congr
      intro idx hv
      match idx, hv with
      | [a, a', k], hv => rfl
    rw [this, im2colHwrsc_run hH hW _ hs]

theorem batched_col2im_run {H W : Axis} (hH : AxisOK u32 H) (hW : AxisOK u32 W) {n c : Nat}
    (X : Nat → Nat → Nat → Nat → Nat → Nat → R) {y : List R} (hy : y.length = [n, H.n, W.n, c].prod) :
    Ops.batched (col2imHwrsc [H.sample, W.sample]) [n, H.n, W.n, c] (tab [n, H.m, W.m, H.k, W.k, c] (fn6 X)) y =
      .ok (tab [n, H.n, W.n, c] (fn4 fun e a b k => scatter H W (fun i j u v => X e i j u v k) a b)).data := by
  simp only [Ops.batched, tab_dims, List.tail_cons]
  rw [run_slices (sub := [H.n, W.n, c])
    (F := fun e => fn3 fun a b k => scatter H W (fun i j u v => X e i j u v k) a b) ?_ (by simpa using hy)]
  · refine congrArg (fun t => Outcome.ok (Tensor.data t)) (tab_congr fun idx hv => ?_)
    match idx, hv with
    | [e, a, b, k], hv => rfl
  · intro b hb s hs
    rw [tab_sub _ hb]
    have : tab [H.m, W.m, H.k, W.k, c] (fun idx => fn6 X (b :: idx)) =
        tab [H.m, W.m, H.k, W.k, c] (fn5 (X b)) := by
      apply tab_congr
      intro idx hv
      match idx, hv with
      | [i, j, u, v, k], hv => rfl
    rw [this, col2imHwrsc_run hH hW _ hs]

end

section
variable [Zero R] [Add R] [Mul R]

/-- The `nchw` convolution for any arithmetic: the sum over channels, then tap rows, then tap columns. -/
theorem convNchw_order {H W : Axis} (hH : AxisOK u32 H) (hW : AxisOK u32 W) {n c d : Nat}
    (X Y : Nat → Nat → Nat → Nat → R) (junk : Nat → R) {z : List R} (hz : z.length = [n, d, H.m, W.m].prod) :
    convNchw (convTrait H W) junk [n, d, H.m, W.m] (tab [n, c, H.n, W.n] (fn4 X)) (tab [d, c, H.k, W.k] (fn4 Y)) z =
      .ok (tab [n, d, H.m, W.m] (fn4 fun b e i j => seqSum [c, H.k, W.k].prod fun p =>
        fn4 Y (e :: unravel [c, H.k, W.k] p) *
          (fn5 fun k u v i j => window H W (X b k) i j u v) (unravel [c, H.k, W.k] p ++ [i, j]))).data := by
  simp only [convNchw, filterShape, getDim, tab_dims, FOrder.heightPos, FOrder.widthPos, List.getElem?_cons_zero,
    List.getElem?_cons_succ, Outcome.ok_bind, Outcome.pure_eq, batchSize, Order.batchPos, List.tail_cons]
  have e1 : LinConv.getSample (convTrait H W).h H.k = .ok H.sample := getSample_run hH
  have e2 : LinConv.getSample (convTrait H W).w W.k = .ok W.sample := getSample_run hW
  simp only [e1, e2, Outcome.ok_bind, Ops.batchedShape, rshwShape_run hH hW, Outcome.pure_eq]
  -- the product written into one image
  let F : Nat → List Nat → R := fun b => fn3 fun e i j => seqSum [c, H.k, W.k].prod fun p =>
    fn4 Y (e :: unravel [c, H.k, W.k] p) *
      (fn5 fun k u v i j => window H W (X b k) i j u v) (unravel [c, H.k, W.k] p ++ [i, j])
  have step : ∀ b < n, ∀ st : List R × List R, st.1.length = [c, H.k, W.k, H.m, W.m].prod →
      (∀ s : List R, s.length = [d, H.m, W.m].prod → ∃ u, u.length = [c, H.k, W.k, H.m, W.m].prod ∧
        Ops.batched (im2colRshw [H.sample, W.sample]) [c, H.k, W.k, H.m, W.m] ((tab [n, c, H.n, W.n] (fn4 X)).sub b)
          st.1 = .ok u ∧
        Plain.mm ((tab [d, c, H.k, W.k] (fn4 Y)).withDims (asMatrix 1 [d, c, H.k, W.k]))
          ⟨asMatrix 3 [c, H.k, W.k, H.m, W.m], u⟩ (asMatrix 1 [d, H.m, W.m]) s = .ok (tab [d, H.m, W.m] (F b)).data) := by
    intro b hb st hst s hs
    rw [tab_sub _ hb]
    have ex : tab [c, H.n, W.n] (fun idx => fn4 X (b :: idx)) = tab [c, H.n, W.n] (fn3 (X b)) := by
      apply tab_congr
      intro idx hv
      match idx, hv with
      | [a, a', k], hv => rfl
    rw [ex, batched_rshw_run hH hW _ hst]
    refine ⟨_, by rw [tab_length], rfl, ?_⟩
    have m1 : (⟨asMatrix 3 [c, H.k, W.k, H.m, W.m],
        (tab [c, H.k, W.k, H.m, W.m] (fn5 fun k u v i j => window H W (X b k) i j u v)).data⟩ : Tensor R) = _ :=
      tab_asMatrix (d1 := [c, H.k, W.k]) (d2 := [H.m, W.m]) _
    have m2 : (tab [d, c, H.k, W.k] (fn4 Y)).withDims (asMatrix 1 [d, c, H.k, W.k]) = _ :=
      tab_asMatrix (d1 := [d]) (d2 := [c, H.k, W.k]) (fn4 Y)
    have m3 : asMatrix 1 [d, H.m, W.m] = [[d].prod, [H.m, W.m].prod] := rfl
    have hs' : s.length = [d].prod * [H.m, W.m].prod := by rw [hs]; simp
    rw [m1, m2, m3, Plain.mm_run _ _ hs']
    refine congrArg Outcome.ok (tab_ofMatrix (d1 := [d]) (d2 := [H.m, W.m]) _ _ ?_)
    intro i1 i2 h1 h2
    simp only [Plain.prod2, fn2_apply, List.headD_cons, List.tail_cons, unravel_offset h1, unravel_offset h2]
    match i1, h1, i2, h2 with
    | [e], _, [i, j], _ => rfl
  -- run the loop with the scratch buffer
  have loop : ∀ m ≤ n, ∀ (u0 : List R), u0.length = [c, H.k, W.k, H.m, W.m].prod → ∃ u' : List R,
      u'.length = [c, H.k, W.k, H.m, W.m].prod ∧
      forRange m (fun l (st : List R × List R) => do
        let xUpper ← Ops.batched (im2colRshw [H.sample, W.sample]) [c, H.k, W.k, H.m, W.m]
          ((tab [n, c, H.n, W.n] (fn4 X)).sub l) st.1
        let z ← onSlice (l * [d, H.m, W.m].prod) [d, H.m, W.m].prod
          (Plain.mm ((tab [d, c, H.k, W.k] (fn4 Y)).withDims (asMatrix 1 [d, c, H.k, W.k]))
            ⟨asMatrix 3 [c, H.k, W.k, H.m, W.m], xUpper⟩ (asMatrix 1 [d, H.m, W.m])) st.2
        Outcome.ok (xUpper, z)) (u0, z) =
      (forRange m (fun l z => onSlice (l * [d, H.m, W.m].prod) [d, H.m, W.m].prod
        (fun s => if s.length = [d, H.m, W.m].prod then .ok (tab [d, H.m, W.m] (F l)).data else .ub) z) z >>=
          fun z' => .ok (u', z')) := by
    intro m hm u0 hu0
    induction m with
    | zero => exact ⟨u0, hu0, rfl⟩
    | succ m ih =>
      obtain ⟨u1, hu1, e⟩ := ih (by omega)
      simp only [forRange_succ] at e ⊢
      rw [e]
      cases hr : forRange m (fun l z => onSlice (l * [d, H.m, W.m].prod) [d, H.m, W.m].prod
        (fun s => if s.length = [d, H.m, W.m].prod then .ok (tab [d, H.m, W.m] (F l)).data else .ub) z) z with
      | throw e' => exact ⟨u1, hu1, rfl⟩
      | ub => exact ⟨u1, hu1, rfl⟩
      | ok z1 =>
        simp only [Outcome.ok_bind]
        by_cases hl : m * [d, H.m, W.m].prod + [d, H.m, W.m].prod ≤ z1.length
        · obtain ⟨u2, hu2, e2, e3⟩ := step m (by omega) (u1, z1) hu1
            ((z1.drop (m * [d, H.m, W.m].prod)).take [d, H.m, W.m].prod)
            (by rw [List.length_take, List.length_drop]; omega)
          refine ⟨u2, hu2, ?_⟩
          have hlen : ((z1.drop (m * [d, H.m, W.m].prod)).take [d, H.m, W.m].prod).length = [d, H.m, W.m].prod := by
            rw [List.length_take, List.length_drop]; omega
          simp only at e2
          rw [e2]
          simp only [Outcome.ok_bind, onSlice, if_pos hl, e3, if_pos hlen]
        · obtain ⟨u2, hu2, e2, -⟩ := step m (by omega) (u1, z1) hu1
            (List.replicate [d, H.m, W.m].prod 0) (by simp)
          refine ⟨u2, hu2, ?_⟩
          simp only at e2
          rw [e2]
          simp only [Outcome.ok_bind, onSlice, if_neg hl]
          try rfl
  obtain ⟨u', -, e⟩ := loop n (le_refl n) (fresh junk [c, H.k, W.k, H.m, W.m].prod) (by simp [fresh])
  rw [e, run_slices (sub := [d, H.m, W.m]) (F := F) ?_ (by simpa using hz)]
  · simp only [Outcome.ok_bind]
    refine congrArg (fun t => Outcome.ok (Tensor.data t)) (tab_congr fun idx hv => ?_)
    match idx, hv with
    | [b, e, i, j], hv => rfl
  · intro b hb s hs
    rw [if_pos hs]

end

theorem convNchw_run [CommSemiring R] {H W : Axis} (hH : AxisOK u32 H) (hW : AxisOK u32 W) {n c d : Nat}
    (X Y : Nat → Nat → Nat → Nat → R) (junk : Nat → R) {z : List R} (hz : z.length = [n, d, H.m, W.m].prod) :
    convNchw (convTrait H W) junk [n, d, H.m, W.m] (tab [n, c, H.n, W.n] (fn4 X)) (tab [d, c, H.k, W.k] (fn4 Y)) z =
      .ok (tab [n, d, H.m, W.m] (fn4 fun b e i j =>
        conv2 H W c (fun a a' k => X b k a a') (fun u v k e => Y e k u v) i j e)).data := by
  rw [convNchw_order hH hW X Y junk hz]
  refine congrArg (fun t => Outcome.ok (Tensor.data t)) (tab_congr fun idx hv => ?_)
  match idx, hv with
  | [b, e, i, j], _ =>
    simp only [fn4_apply]
    rw [seqSum_eq_sum, sum_unravel3 c H.k W.k (fun l =>
      fn4 Y (e :: l) * (fn5 fun k u v i j => window H W (X b k) i j u v) (l ++ [i, j]))]
    simp only [List.cons_append, List.nil_append, fn4_apply, fn5_apply, conv2]
    rw [Finset.sum_comm]
    refine Finset.sum_congr rfl fun u _ => ?_
    rw [Finset.sum_comm]
    refine Finset.sum_congr rfl fun v _ => Finset.sum_congr rfl fun k _ => mul_comm _ _

section
variable [Semiring R]

theorem convGradX_run {H W : Axis} (hH : AxisOK u32 H) (hW : AxisOK u32 W) {n c d : Nat}
    (G Y : Nat → Nat → Nat → Nat → R) (junk : Nat → R) {gx : List R} (hgx : gx.length = [n, H.n, W.n, c].prod) :
    convGradX (convTrait H W) junk [n, H.n, W.n, c] (tab [n, H.m, W.m, d] (fn4 G)) (tab [H.k, W.k, c, d] (fn4 Y)) gx =
      .ok (tab [n, H.n, W.n, c] (fn4 fun e a b k => scatter H W
        (fun i j u v => ∑ o ∈ Finset.range d, G e i j o * Y u v k o) a b)).data := by
  simp only [convGradX, filterShape, getDim, tab_dims, FOrder.heightPos, FOrder.widthPos, List.getElem?_cons_zero,
    List.getElem?_cons_succ, Outcome.ok_bind, Outcome.pure_eq]
  have e1 : LinConv.getSample (convTrait H W).h H.k = .ok H.sample := getSample_run hH
  have e2 : LinConv.getSample (convTrait H W).w W.k = .ok W.sample := getSample_run hW
  simp only [e1, e2, Outcome.ok_bind, Ops.batchedShape, hwrscShape_run hH hW c, Outcome.pure_eq]
  have m1 : (tab [n, H.m, W.m, d] (fn4 G)).withDims (asMatrix 3 [n, H.m, W.m, d]) = _ :=
    tab_asMatrix (d1 := [n, H.m, W.m]) (d2 := [d]) (fn4 G)
  have m2 : (tab [H.k, W.k, c, d] (fn4 Y)).withDims (asMatrix 3 [H.k, W.k, c, d]) = _ :=
    tab_asMatrix (d1 := [H.k, W.k, c]) (d2 := [d]) (fn4 Y)
  have m3 : asMatrix 3 [n, H.m, W.m, H.k, W.k, c] = [[n, H.m, W.m].prod, [H.k, W.k, c].prod] := rfl
  have hf : (fresh junk [n, H.m, W.m, H.k, W.k, c].prod).length = [n, H.m, W.m].prod * [H.k, W.k, c].prod := by
    simp [fresh, Nat.mul_assoc]
  rw [m1, m2, m3, Plain.mmt_run _ _ hf]
  simp only [Outcome.ok_bind]
  have e3 := tab_ofMatrix (d1 := [n, H.m, W.m]) (d2 := [H.k, W.k, c])
    (fn2 fun i j => seqSum [d].prod fun k =>
      fn4 G (unravel [n, H.m, W.m] ([i, k].headD 0) ++ unravel [d] ([i, k].tail.headD 0)) *
        fn4 Y (unravel [H.k, W.k, c] ([j, k].headD 0) ++ unravel [d] ([j, k].tail.headD 0)))
    (fn6 fun e i j u v k => ∑ o ∈ Finset.range d, G e i j o * Y u v k o) (by
      intro i1 i2 h1 h2
      simp only [fn2_apply, List.headD_cons, List.tail_cons, unravel_offset h1, unravel_offset h2]
      rw [seqSum_eq_sum, sum_unravel_cons d [] (fun l => fn4 G (i1 ++ l) * fn4 Y (i2 ++ l))]
      match i1, h1, i2, h2 with
      | [e, i, j], _, [u, v, k], _ => simp [unravel])
  rw [e3]
  exact batched_col2im_run hH hW (fun e i j u v k => ∑ o ∈ Finset.range d, G e i j o * Y u v k o) hgx

theorem convGradY_run {H W : Axis} (hH : AxisOK u32 H) (hW : AxisOK u32 W) {n c d : Nat}
    (G X : Nat → Nat → Nat → Nat → R) (junk : Nat → R) {gy : List R} (hgy : gy.length = [H.k, W.k, c, d].prod) :
    convGradY (convTrait H W) junk [H.k, W.k, c, d] (tab [n, H.m, W.m, d] (fn4 G)) (tab [n, H.n, W.n, c] (fn4 X)) gy =
      .ok (tab [H.k, W.k, c, d] (fn4 fun u v k o => ∑ e ∈ Finset.range n, ∑ i ∈ Finset.range H.m,
        ∑ j ∈ Finset.range W.m, window H W (fun a a' => X e a a' k) i j u v * G e i j o)).data := by
  simp only [convGradY, filterShape, getDim, tab_dims, FOrder.heightPos, FOrder.widthPos, List.getElem?_cons_zero,
    List.getElem?_cons_succ, Outcome.ok_bind, Outcome.pure_eq]
  have e1 : LinConv.getSample (convTrait H W).h H.k = .ok H.sample := getSample_run hH
  have e2 : LinConv.getSample (convTrait H W).w W.k = .ok W.sample := getSample_run hW
  simp only [e1, e2, Outcome.ok_bind, Ops.batchedShape, hwrscShape_run hH hW c, Outcome.pure_eq]
  rw [batched_hwrsc_run hH hW X (by simp [fresh])]
  simp only [Outcome.ok_bind]
  have m1 : (⟨asMatrix 3 [n, H.m, W.m, H.k, W.k, c],
      (tab [n, H.m, W.m, H.k, W.k, c] (fn6 fun b i j u v k => window H W (fun a a' => X b a a' k) i j u v)).data⟩ :
      Tensor R) = _ := tab_asMatrix (d1 := [n, H.m, W.m]) (d2 := [H.k, W.k, c]) _
  have m2 : (tab [n, H.m, W.m, d] (fn4 G)).withDims (asMatrix 3 [n, H.m, W.m, d]) = _ :=
    tab_asMatrix (d1 := [n, H.m, W.m]) (d2 := [d]) (fn4 G)
  have m3 : asMatrix 3 [H.k, W.k, c, d] = [[H.k, W.k, c].prod, [d].prod] := rfl
  have hf : gy.length = [H.k, W.k, c].prod * [d].prod := by rw [hgy]; simp [Nat.mul_assoc]
  rw [m1, m2, m3, Plain.mtm_run _ _ hf]
  refine congrArg Outcome.ok (tab_ofMatrix (d1 := [H.k, W.k, c]) (d2 := [d]) _ _ ?_)
  intro i1 i2 h1 h2
  simp only [fn2_apply, List.headD_cons, List.tail_cons, unravel_offset h1, unravel_offset h2]
  rw [seqSum_eq_sum, sum_unravel3 n H.m W.m (fun l =>
    (fn6 fun b i j u v k => window H W (fun a a' => X b a a' k) i j u v) (l ++ i1) * fn4 G (l ++ i2))]
  match i1, h1, i2, h2 with
  | [u, v, k], _, [o], _ => rfl

end
end Kernels
end StdNN
