import Verif.Lemmas.Conv1d
import Mathlib.Data.Int.Order.Basic
import Mathlib.Algebra.Ring.Int.Defs
import Mathlib.Algebra.BigOperators.Ring.List
/-!
# C26-C30: im2col and col2im

`AxisOK N a`: the parameters of the axis are in range for the dimension type `N` and the windows cover the padded axis
exactly (which, by C01, is what makes the shape function accept it).
Tensors are written `tab dims (fnK X)`: the row-major tensor of shape `dims` whose element `[i, j, ...]` is `X i j ...`;
every tensor is of this form (`Tensor.WF.exists_tab`).
-/
namespace StdNN
open IntTy Spec Outcome Finset
variable {R : Type}

/-- A 3-pixel axis padded by (1, 0), kernel 2: 3 windows. -/
def exH : Axis := ⟨2, 1, 1, 1, 0, 3, 3⟩
/-- A 5-pixel axis padded by (1, 1), kernel 2, stride 2, rate 2: 3 windows. -/
def exW : Axis := ⟨2, 2, 2, 1, 1, 5, 3⟩

theorem exH_ok : AxisOK u32 exH := by
  refine ⟨⟨?_, ?_, ?_, ?_, ?_, ?_, ?_, ?_, ?_, ?_, ?_, ?_, ?_, ?_⟩, ?_⟩ <;> decide
theorem exW_ok : AxisOK u32 exW := by
  refine ⟨⟨?_, ?_, ?_, ?_, ?_, ?_, ?_, ?_, ?_, ?_, ?_, ?_, ?_, ?_⟩, ?_⟩ <;> decide
theorem exW_ok32 : AxisOK i32 exW := by
  refine ⟨⟨?_, ?_, ?_, ?_, ?_, ?_, ?_, ?_, ?_, ?_, ?_, ?_, ?_, ?_⟩, ?_⟩ <;> decide

/-! ## C26 -/
section gather
variable [Zero R]

/-- C26 (hw to hwrs): cell `[i, j, u, v]` is the pixel of the zero-padded image under tap `(u, v)` of window
`(i, j)`; every output cell is written, whatever it held before. -/
theorem C26_im2col_hwrs {H W : Axis} (hH : AxisOK u32 H) (hW : AxisOK u32 W) (X : Nat → Nat → R) {y : List R}
    (hy : y.length = [H.m, W.m, H.k, W.k].prod) :
    Kernels.im2colHwrs [H.sample, W.sample] [H.m, W.m, H.k, W.k] (tab [H.n, W.n] (fn2 X)) y =
      .ok (tab [H.m, W.m, H.k, W.k] (fn4 (window H W X))).data := Kernels.im2colHwrs_run hH hW X hy

/-- C26 (hw to rshw). -/
theorem C26_im2col_rshw {H W : Axis} (hH : AxisOK u32 H) (hW : AxisOK u32 W) (X : Nat → Nat → R) {y : List R}
    (hy : y.length = [H.k, W.k, H.m, W.m].prod) :
    Kernels.im2colRshw [H.sample, W.sample] [H.k, W.k, H.m, W.m] (tab [H.n, W.n] (fn2 X)) y =
      .ok (tab [H.k, W.k, H.m, W.m] (fn4 fun u v i j => window H W X i j u v)).data :=
  Kernels.im2colRshw_run hH hW X hy

/-- C26 (hwc to hwrsc): channel by channel. -/
theorem C26_im2col_hwrsc {H W : Axis} (hH : AxisOK u32 H) (hW : AxisOK u32 W) {c : Nat} (X : Nat → Nat → Nat → R)
    {y : List R} (hy : y.length = [H.m, W.m, H.k, W.k, c].prod) :
    Kernels.im2colHwrsc [H.sample, W.sample] [H.m, W.m, H.k, W.k, c] (tab [H.n, W.n, c] (fn3 X)) y =
      .ok (tab [H.m, W.m, H.k, W.k, c] (fn5 fun i j u v k => window H W (fun a b => X a b k) i j u v)).data :=
  Kernels.im2colHwrsc_run hH hW X hy

/-- C26 (channel mismatch): an output tensor with another number of channels is rejected before anything is written. -/
theorem C26_channel_mismatch (hs ws : Sample) {h w c h_ w_ r s c' : Nat} (hne : c' ≠ c) (X : List Nat → R) (y : List R) :
    Kernels.im2colHwrsc [hs, ws] [h_, w_, r, s, c'] (tab [h, w, c] X) y = .throw .runtimeError := by
  simp only [Kernels.im2colHwrsc, tab_dims]
  rw [contractAssert_neg hne]
  rfl

/-- C26 (one dimension). -/
theorem C26_im2col1d {a : Axis} (h : AxisOK i32 a) (X : Nat → R) {y : List R} (hy : y.length = a.m * a.k) :
    Ops.im2col1d a.sample [a.m, a.k] (tab [a.n] (fn1 X)) y =
      .ok (tab [a.m, a.k] (fn2 fun j u => padded a.l a.n X (a.pos j u))).data := im2col1d_run h X hy

end gather

/-- Non-vacuity: both axes of a padded, strided, dilated sample are accepted; window (0, 0) of the 3 × 5 image starts in
the padding, and its last tap (1, 1) is pixel (0, 1). -/
example : AxisOK u32 exH ∧ AxisOK u32 exW ∧
    window exH exW (fun a b => (10 * a + b + 1 : Int)) 0 0 0 0 = 0 ∧
    window exH exW (fun a b => (10 * a + b + 1 : Int)) 0 0 1 1 = 2 := ⟨exH_ok, exW_ok, by decide, by decide⟩

/-! ## C27 -/
section idxmap
variable [Zero R]

/-- C27: the index-map im2col of a batch equals the direct im2col of each image, when one image has at most `2 ^ 31`
elements. -/
theorem C27_idx_map {H W : Axis} (hH : AxisOK u32 H) (hW : AxisOK u32 W) {n c : Nat}
    (hsz : [H.n, W.n, c].prod ≤ 2 ^ 31) (X : Nat → Nat → Nat → Nat → R) (junk : Nat → Int) {y : List R}
    (hy : y.length = [n, H.m, W.m, H.k, W.k, c].prod) :
    Kernels.im2colNhwrsc [H.sample, W.sample] junk [n, H.m, W.m, H.k, W.k, c] (tab [n, H.n, W.n, c] (fn4 X)) y =
        .ok (tab [n, H.m, W.m, H.k, W.k, c]
          (fn6 fun b i j u v k => window H W (fun a a' => X b a a' k) i j u v)).data ∧
    Kernels.im2colNhwrsc [H.sample, W.sample] junk [n, H.m, W.m, H.k, W.k, c] (tab [n, H.n, W.n, c] (fn4 X)) y =
      Ops.batched (Kernels.im2colHwrsc [H.sample, W.sample]) [n, H.m, W.m, H.k, W.k, c]
        (tab [n, H.n, W.n, c] (fn4 X)) y := by
  have e := Kernels.im2colNhwrsc_run hH hW hsz X junk hy
  refine ⟨e, e.trans ?_⟩
  symm
  simp only [Ops.batched, tab_dims, List.tail_cons]
  rw [run_slices (sub := [H.m, W.m, H.k, W.k, c])
    (F := fun b => fn5 fun i j u v k => window H W (fun a a' => X b a a' k) i j u v) ?_ (by simpa using hy)]
  · refine congrArg (fun t => Outcome.ok (Tensor.data t)) (tab_congr fun idx hv => ?_)
    match idx, hv with
    | [b, i, j, u, v, k], hv => rfl
  · intro b hb s hs
    rw [tab_sub _ hb]
    have : tab [H.n, W.n, c] (fun idx => fn4 X (b :: idx)) = tab [H.n, W.n, c] (fn3 (X b)) := by
      apply tab_congr
      intro idx hv
      match idx, hv with
      | [a, a', k], hv => rfl
    rw [this, Kernels.im2colHwrsc_run hH hW _ hs]

/-- C27 (limit): the size hypothesis is needed. In a bigger image every tap on an element whose flat offset is at least
`2 ^ 31` reads as zero (the offset does not fit the `int` of the map). -/
theorem C27_limit {H W : Axis} (hH : AxisOK u32 H) (hW : AxisOK u32 W) {n c : Nat}
    (hsz : [H.n, W.n, c].prod ≤ 2 ^ 32) (X : Nat → Nat → Nat → Nat → R) (junk : Nat → Int) {y : List R}
    (hy : y.length = [n, H.m, W.m, H.k, W.k, c].prod) {b i j u v k a a' : Nat} (hb : b < n) (hi : i < H.m)
    (hj : j < W.m) (hu : u < H.k) (hv : v < W.k) (hk : k < c) (ha : H.Hits i u a) (ha' : W.Hits j v a')
    (hbig : 2 ^ 31 ≤ (a * W.n + a') * c + k) :
    ∃ y', Kernels.im2colNhwrsc [H.sample, W.sample] junk [n, H.m, W.m, H.k, W.k, c] (tab [n, H.n, W.n, c] (fn4 X)) y =
        .ok y' ∧
      y'[offset [n, H.m, W.m, H.k, W.k, c] [b, i, j, u, v, k]]? = some 0 ∧
      window H W (fun p q => X b p q k) i j u v = X b a a' k := by
  refine ⟨_, Kernels.im2colNhwrsc_run_gen hH hW hsz X junk hy, ?_, ?_⟩
  · rw [tab_getElem? _ (v6 hb hi hj hu hv hk)]
    have e := (loc_some (H := H) (W := W)).2 ⟨ha, ha'⟩
    simp only [fn6_apply, Kernels.gathered, e]
    rw [if_neg]
    have e2 : offset [H.n, W.n, c] [a, a', k] = (a * W.n + a') * c + k := by simp; ring
    omega
  · rw [window_loc, (loc_some (H := H) (W := W)).2 ⟨ha, ha'⟩]

end idxmap

/-- An axis of `2 ^ 31 + 1` pixels. -/
def exBig : Axis := ⟨1, 1, 1, 0, 0, 2 ^ 31 + 1, 2 ^ 31 + 1⟩
/-- One pixel. -/
def exOne : Axis := ⟨1, 1, 1, 0, 0, 1, 1⟩

/-- Non-vacuity of C27: the 3 × 5 image with 2 channels is small enough; the hypotheses of C27_limit hold for a
`(2 ^ 31 + 1) × 1` image at its last pixel. -/
example : [exH.n, exW.n, 2].prod ≤ 2 ^ 31 ∧
    AxisOK u32 exBig ∧ AxisOK u32 exOne ∧ [exBig.n, exOne.n, 1].prod ≤ 2 ^ 32 ∧
    exBig.Hits (2 ^ 31) 0 (2 ^ 31) ∧ exOne.Hits 0 0 0 ∧ 2 ^ 31 < exBig.m ∧ 2 ^ 31 ≤ (2 ^ 31 * exOne.n + 0) * 1 + 0 := by
  refine ⟨by decide, ⟨⟨?_, ?_, ?_, ?_, ?_, ?_, ?_, ?_, ?_, ?_, ?_, ?_, ?_, ?_⟩, ?_⟩,
    ⟨⟨?_, ?_, ?_, ?_, ?_, ?_, ?_, ?_, ?_, ?_, ?_, ?_, ?_, ?_⟩, ?_⟩, ?_, ?_, ?_, ?_, ?_⟩ <;> decide

/-! ## C28 -/
section scatter
variable [AddCommMonoid R]

/-- C28: col2im writes into every pixel the sum of all column entries whose tap falls on that pixel (taps on padding
are dropped), whatever the output held before. -/
theorem C28_col2im {H W : Axis} (hH : AxisOK u32 H) (hW : AxisOK u32 W) {c : Nat}
    (X : Nat → Nat → Nat → Nat → Nat → R) {y : List R} (hy : y.length = [H.n, W.n, c].prod) :
    Kernels.col2imHwrsc [H.sample, W.sample] [H.n, W.n, c] (tab [H.m, W.m, H.k, W.k, c] (fn5 X)) y =
      .ok (tab [H.n, W.n, c] (fn3 fun a b k =>
        ∑ i ∈ range H.m, ∑ j ∈ range W.m, ∑ u ∈ range H.k, ∑ v ∈ range W.k,
          if H.Hits i u a ∧ W.Hits j v b then X i j u v k else 0)).data :=
  Kernels.col2imHwrsc_run hH hW X hy

/-- C28 (one dimension). -/
theorem C28_col2im1d {a : Axis} (h : AxisOK i32 a) (X : Nat → Nat → R) {y : List R} (hy : y.length = a.n) :
    Ops.col2im1d a.sample [a.n] (tab [a.m, a.k] (fn2 X)) y =
      .ok (tab [a.n] (fn1 fun i => ∑ j ∈ range a.m, ∑ u ∈ range a.k, if a.Hits j u i then X j u else 0)).data :=
  col2im1d_run h X (by simpa using hy)

end scatter

/-- Non-vacuity: with kernel 2 and stride 1 pixel 1 of the height axis is hit by tap 1 of window 1 and tap 0 of
window 2. -/
example : exH.Hits 1 1 1 ∧ exH.Hits 2 0 1 ∧ ¬ exH.Hits 0 1 1 ∧ AxisOK u32 exH ∧ AxisOK i32 exW :=
  ⟨by decide, by decide, by decide, exH_ok, exW_ok32⟩

/-! ## C29 -/

/-- Inner product of two buffers. -/
def dot [Semiring R] (a b : List R) : R := (List.zipWith (· * ·) a b).sum

theorem dot_tab [Semiring R] (dims : List Nat) (f g : List Nat → R) :
    dot (tab dims f).data (tab dims g).data = ∑ p ∈ range dims.prod, f (unravel dims p) * g (unravel dims p) := by
  simp only [dot, tab]
  generalize dims.prod = n
  rw [List.zipWith_map, List.zipWith_self]
  induction n with
  | zero => simp
  | succ n ih => simp only [List.range_succ, List.map_append, List.sum_append, ih, sum_range_succ]; simp

section adjoint
variable [Semiring R]

theorem padded_sum (a : Axis) (f : Nat → R) (j u : Nat) :
    padded a.l a.n f (a.pos j u) = ∑ i ∈ range a.n, if a.Hits j u i then f i else 0 := by
  unfold padded
  by_cases c : a.l ≤ a.pos j u ∧ a.pos j u < a.l + a.n
  · rw [if_pos c, sum_eq_single (a.pos j u - a.l)]
    · rw [if_pos ⟨by omega, by omega⟩]
    · intro b _ hne
      exact if_neg fun h => by have := h.2; omega
    · intro h
      exact absurd (mem_range.2 (by omega)) h
  · rw [if_neg c]
    symm
    apply sum_eq_zero
    intro b _
    exact if_neg fun h => by have := h.1; have := h.2; omega

theorem window_sum (H W : Axis) (X : Nat → Nat → R) (i j u v : Nat) :
    window H W X i j u v =
      ∑ a ∈ range H.n, ∑ b ∈ range W.n, if H.Hits i u a ∧ W.Hits j v b then X a b else 0 := by
  unfold window
  rw [padded_sum]
  refine sum_congr rfl fun a _ => ?_
  rw [padded_sum]
  by_cases c : H.Hits i u a
  · simp [c]
  · simp [c]

theorem sum_unravel5 (a b c d e : Nat) (F : List Nat → R) :
    ∑ p ∈ range [a, b, c, d, e].prod, F (unravel [a, b, c, d, e] p) =
      ∑ i ∈ range a, ∑ j ∈ range b, ∑ k ∈ range c, ∑ l ∈ range d, ∑ m ∈ range e, F [i, j, k, l, m] := by
  rw [sum_unravel_cons]
  refine sum_congr rfl fun i _ => ?_
  rw [sum_unravel_cons b [c, d, e] (fun l => F (i :: l))]
  refine sum_congr rfl fun j _ => ?_
  exact sum_unravel3 c d e (fun l => F (i :: j :: l))

theorem adjoint_sum (H W : Axis) (X : Nat → Nat → R) (Y : Nat → Nat → Nat → Nat → R) :
    ∑ i ∈ range H.m, ∑ j ∈ range W.m, ∑ u ∈ range H.k, ∑ v ∈ range W.k, window H W X i j u v * Y i j u v =
      ∑ a ∈ range H.n, ∑ b ∈ range W.n, X a b * Kernels.scatter H W Y a b := by
  simp only [window_sum, Kernels.scatter, sum_mul, mul_sum, ite_mul, zero_mul, mul_ite, mul_zero]
  -- move the image indices to the front
  have e1 : ∀ i j u, ∑ v ∈ range W.k, ∑ a ∈ range H.n, ∑ b ∈ range W.n,
      (if H.Hits i u a ∧ W.Hits j v b then X a b * Y i j u v else 0) =
      ∑ a ∈ range H.n, ∑ b ∈ range W.n, ∑ v ∈ range W.k,
        (if H.Hits i u a ∧ W.Hits j v b then X a b * Y i j u v else 0) := by
    intro i j u
    rw [sum_comm]
    exact sum_congr rfl fun a _ => sum_comm
  have e2 : ∀ i j, ∑ u ∈ range H.k, ∑ a ∈ range H.n, ∑ b ∈ range W.n, ∑ v ∈ range W.k,
      (if H.Hits i u a ∧ W.Hits j v b then X a b * Y i j u v else 0) =
      ∑ a ∈ range H.n, ∑ b ∈ range W.n, ∑ u ∈ range H.k, ∑ v ∈ range W.k,
        (if H.Hits i u a ∧ W.Hits j v b then X a b * Y i j u v else 0) := by
    intro i j
    rw [sum_comm]
    exact sum_congr rfl fun a _ => sum_comm
  have e3 : ∀ i, ∑ j ∈ range W.m, ∑ a ∈ range H.n, ∑ b ∈ range W.n, ∑ u ∈ range H.k, ∑ v ∈ range W.k,
      (if H.Hits i u a ∧ W.Hits j v b then X a b * Y i j u v else 0) =
      ∑ a ∈ range H.n, ∑ b ∈ range W.n, ∑ j ∈ range W.m, ∑ u ∈ range H.k, ∑ v ∈ range W.k,
        (if H.Hits i u a ∧ W.Hits j v b then X a b * Y i j u v else 0) := by
    intro i
    rw [sum_comm]
    exact sum_congr rfl fun a _ => sum_comm
  simp only [e1, e2, e3]
  rw [sum_comm]
  exact sum_congr rfl fun a _ => sum_comm

theorem adjoint_flat (H W : Axis) (c : Nat) (X : Nat → Nat → Nat → R) (Y : Nat → Nat → Nat → Nat → Nat → R) :
    dot (tab [H.m, W.m, H.k, W.k, c] (fn5 fun i j u v k => window H W (fun a b => X a b k) i j u v)).data
        (tab [H.m, W.m, H.k, W.k, c] (fn5 Y)).data =
      dot (tab [H.n, W.n, c] (fn3 X)).data
        (tab [H.n, W.n, c] (fn3 fun a b k => Kernels.scatter H W (fun i j u v => Y i j u v k) a b)).data := by
  rw [dot_tab, dot_tab, sum_unravel5 _ _ _ _ _ (fun l =>
      (fn5 fun i j u v k => window H W (fun a b => X a b k) i j u v) l * fn5 Y l),
    sum_unravel3 _ _ _ (fun l => fn3 X l * (fn3 fun a b k => Kernels.scatter H W (fun i j u v => Y i j u v k) a b) l)]
  simp only [fn5_apply, fn3_apply]
  -- bring the channel sum to the front on both sides
  have l1 : ∀ (F : Nat → Nat → Nat → Nat → Nat → R),
      ∑ i ∈ range H.m, ∑ j ∈ range W.m, ∑ u ∈ range H.k, ∑ v ∈ range W.k, ∑ k ∈ range c, F i j u v k =
      ∑ k ∈ range c, ∑ i ∈ range H.m, ∑ j ∈ range W.m, ∑ u ∈ range H.k, ∑ v ∈ range W.k, F i j u v k := by
    intro F
    have a1 : ∀ i j u, ∑ v ∈ range W.k, ∑ k ∈ range c, F i j u v k =
      ∑ k ∈ range c, ∑ v ∈ range W.k, F i j u v k := fun i j u => sum_comm
    have a2 : ∀ i j, ∑ u ∈ range H.k, ∑ k ∈ range c, ∑ v ∈ range W.k, F i j u v k =
      ∑ k ∈ range c, ∑ u ∈ range H.k, ∑ v ∈ range W.k, F i j u v k := fun i j => sum_comm
    have a3 : ∀ i, ∑ j ∈ range W.m, ∑ k ∈ range c, ∑ u ∈ range H.k, ∑ v ∈ range W.k, F i j u v k =
      ∑ k ∈ range c, ∑ j ∈ range W.m, ∑ u ∈ range H.k, ∑ v ∈ range W.k, F i j u v k := fun i => sum_comm
    simp only [a1, a2, a3]
    exact sum_comm
  rw [l1]
  have l2 : ∀ (F : Nat → Nat → Nat → R),
      ∑ a ∈ range H.n, ∑ b ∈ range W.n, ∑ k ∈ range c, F a b k =
      ∑ k ∈ range c, ∑ a ∈ range H.n, ∑ b ∈ range W.n, F a b k := by
    intro F
    have a1 : ∀ a, ∑ b ∈ range W.n, ∑ k ∈ range c, F a b k =
      ∑ k ∈ range c, ∑ b ∈ range W.n, F a b k := fun a => sum_comm
    simp only [a1]
    exact sum_comm
  rw [l2]
  exact sum_congr rfl fun k _ => adjoint_sum H W (fun a b => X a b k) (fun i j u v => Y i j u v k)

/-- C29: col2im is the adjoint of im2col: for every image `X` and every column tensor `Y` the inner product of the
columns of `X` with `Y` equals the inner product of `X` with the image of `Y`. -/
theorem C29_adjoint {H W : Axis} (hH : AxisOK u32 H) (hW : AxisOK u32 W) {c : Nat} (X : Nat → Nat → Nat → R)
    (Y : Nat → Nat → Nat → Nat → Nat → R) {cols im : List R} (hc : cols.length = [H.m, W.m, H.k, W.k, c].prod)
    (him : im.length = [H.n, W.n, c].prod) :
    ∃ cols' im',
      Kernels.im2colHwrsc [H.sample, W.sample] [H.m, W.m, H.k, W.k, c] (tab [H.n, W.n, c] (fn3 X)) cols = .ok cols' ∧
      Kernels.col2imHwrsc [H.sample, W.sample] [H.n, W.n, c] (tab [H.m, W.m, H.k, W.k, c] (fn5 Y)) im = .ok im' ∧
      dot cols' (tab [H.m, W.m, H.k, W.k, c] (fn5 Y)).data = dot (tab [H.n, W.n, c] (fn3 X)).data im' :=
  ⟨_, _, Kernels.im2colHwrsc_run hH hW X hc, Kernels.col2imHwrsc_run hH hW Y him, adjoint_flat H W c X Y⟩

/-- C29 (one dimension). -/
theorem C29_adjoint1d {a : Axis} (h : AxisOK i32 a) (X : Nat → R) (Y : Nat → Nat → R) {cols im : List R}
    (hc : cols.length = a.m * a.k) (him : im.length = a.n) :
    ∃ cols' im', Ops.im2col1d a.sample [a.m, a.k] (tab [a.n] (fn1 X)) cols = .ok cols' ∧
      Ops.col2im1d a.sample [a.n] (tab [a.m, a.k] (fn2 Y)) im = .ok im' ∧
      dot cols' (tab [a.m, a.k] (fn2 Y)).data = dot (tab [a.n] (fn1 X)).data im' := by
  refine ⟨_, _, im2col1d_run h X hc, col2im1d_run h Y (by simpa using him), ?_⟩
  rw [dot_tab, dot_tab, sum_unravel_cons a.n [] (fun l => fn1 X l * fn1 (scatter1 a Y) l),
    sum_unravel_cons a.m [a.k] (fun l => (fn2 fun j u => padded a.l a.n X (a.pos j u)) l * fn2 Y l)]
  have e : ∀ j, ∑ p ∈ range [a.k].prod, (fn2 fun j u => padded a.l a.n X (a.pos j u)) (j :: unravel [a.k] p) *
      fn2 Y (j :: unravel [a.k] p) = ∑ u ∈ range a.k, padded a.l a.n X (a.pos j u) * Y j u := by
    intro j
    rw [sum_unravel_cons a.k [] (fun l => (fn2 fun j u => padded a.l a.n X (a.pos j u)) (j :: l) * fn2 Y (j :: l))]
    simp [unravel]
  rw [sum_congr rfl fun j _ => e j]
  simp only [List.prod_nil, sum_range_one, unravel, fn1_apply, scatter1, padded_sum, sum_mul, mul_sum, ite_mul,
    zero_mul, mul_ite, mul_zero]
  have e1 : ∀ j, ∑ u ∈ range a.k, ∑ i ∈ range a.n, (if a.Hits j u i then X i * Y j u else 0) =
      ∑ i ∈ range a.n, ∑ u ∈ range a.k, (if a.Hits j u i then X i * Y j u else 0) := fun j => sum_comm
  simp only [e1]
  exact sum_comm

end adjoint

/-- Non-vacuity: on the 3 × 5 image the two operators are not zero: pixel (0, 1) is used by window (0, 0). -/
example : AxisOK u32 exH ∧ AxisOK u32 exW ∧ Kernels.scatter exH exW (fun _ _ _ _ => (1 : Int)) 0 1 = 4 := by
  refine ⟨exH_ok, exW_ok, by decide⟩

/-! ## C30 -/

/-- How many taps of all windows of the axis fall on element `i`. -/
def mult (a : Axis) (i : Nat) : Nat := ((range a.m ×ˢ range a.k).filter fun p => a.Hits p.1 p.2 i).card

section multiplicity
variable [Semiring R]

theorem scatter_window (H W : Axis) (X : Nat → Nat → R) {a b : Nat} :
    Kernels.scatter H W (fun i j u v => window H W X i j u v) a b = (mult H a * mult W b : Nat) • X a b := by
  have hw : ∀ i j u v, (if H.Hits i u a ∧ W.Hits j v b then window H W X i j u v else 0) =
      (if H.Hits i u a then (if W.Hits j v b then X a b else 0) else 0) := by
    intro i j u v
    by_cases c1 : H.Hits i u a
    · by_cases c2 : W.Hits j v b
      · rw [if_pos ⟨c1, c2⟩, if_pos c1, if_pos c2, window_loc, loc_some.2 ⟨c1, c2⟩]
      · rw [if_neg (fun h => c2 h.2), if_pos c1, if_neg c2]
    · rw [if_neg (fun h => c1 h.1), if_neg c1]
  have hm : ∀ (A : Axis) (t : Nat) (y : R), ∑ i ∈ range A.m, ∑ u ∈ range A.k, (if A.Hits i u t then y else 0) =
      mult A t • y := by
    intro A t y
    rw [← sum_product' (range A.m) (range A.k) (fun i u => if A.Hits i u t then y else 0), ← sum_filter, sum_const]
    rfl
  unfold Kernels.scatter
  simp only [hw]
  have e1 : ∀ i, ∑ j ∈ range W.m, ∑ u ∈ range H.k, ∑ v ∈ range W.k,
      (if H.Hits i u a then (if W.Hits j v b then X a b else 0) else 0) =
      ∑ u ∈ range H.k, if H.Hits i u a then mult W b • X a b else 0 := by
    intro i
    rw [sum_comm]
    refine sum_congr rfl fun u _ => ?_
    by_cases c : H.Hits i u a
    · simp only [if_pos c]
      exact hm W b (X a b)
    · simp only [if_neg c, sum_const_zero]
  simp only [e1]
  rw [hm H a, mul_nsmul']

/-- C30: col2im after im2col multiplies each pixel by the number of (window, tap) pairs that touch it, which is the
product of the numbers for its row and its column. -/
theorem C30_multiplicity {H W : Axis} (hH : AxisOK u32 H) (hW : AxisOK u32 W) {c : Nat} (X : Nat → Nat → Nat → R)
    {cols im : List R} (hc : cols.length = [H.m, W.m, H.k, W.k, c].prod) (him : im.length = [H.n, W.n, c].prod) :
    (do let y ← Kernels.im2colHwrsc [H.sample, W.sample] [H.m, W.m, H.k, W.k, c] (tab [H.n, W.n, c] (fn3 X)) cols
        Kernels.col2imHwrsc [H.sample, W.sample] [H.n, W.n, c] ⟨[H.m, W.m, H.k, W.k, c], y⟩ im) =
      .ok (tab [H.n, W.n, c] (fn3 fun a b k => (mult H a * mult W b : Nat) • X a b k)).data := by
  rw [Kernels.im2colHwrsc_run hH hW X hc, Outcome.ok_bind]
  have := Kernels.col2imHwrsc_run hH hW (fun i j u v k => window H W (fun a b => X a b k) i j u v) him
  refine this.trans ?_
  refine congrArg (fun t => Outcome.ok (Tensor.data t)) (tab_congr fun idx hv => ?_)
  match idx, hv with
  | [a, b, k], hv => exact scatter_window H W (fun a b => X a b k)

/-- C30 (exact tiling): if every window starts where the previous one ends, without padding and dilation, col2im inverts
im2col. -/
theorem C30_tiling {H W : Axis} (hH : AxisOK u32 H) (hW : AxisOK u32 W) (tH : H.s = H.k ∧ H.r = 1 ∧ H.l = 0 ∧ H.q = 0)
    (tW : W.s = W.k ∧ W.r = 1 ∧ W.l = 0 ∧ W.q = 0) {c : Nat} (X : Nat → Nat → Nat → R)
    {cols im : List R} (hc : cols.length = [H.m, W.m, H.k, W.k, c].prod) (him : im.length = [H.n, W.n, c].prod) :
    (do let y ← Kernels.im2colHwrsc [H.sample, W.sample] [H.m, W.m, H.k, W.k, c] (tab [H.n, W.n, c] (fn3 X)) cols
        Kernels.col2imHwrsc [H.sample, W.sample] [H.n, W.n, c] ⟨[H.m, W.m, H.k, W.k, c], y⟩ im) =
      .ok (tab [H.n, W.n, c] (fn3 X)).data := by
  have one : ∀ (A : Axis), AxisOK u32 A → (A.s = A.k ∧ A.r = 1 ∧ A.l = 0 ∧ A.q = 0) → ∀ i < A.n, mult A i = 1 := by
    intro A hA ⟨es, er, el, eq⟩ i hi
    have k1 := hA.fits.k1
    obtain ⟨m1, hcov⟩ := hA.covers
    unfold patch at hcov
    rw [es, er, el, eq] at hcov
    have hn : A.n = A.m * A.k := by
      have : (A.m - 1 + 1) * A.k = (A.m - 1) * A.k + A.k := by ring
      rw [Nat.sub_add_cancel m1] at this
      omega
    unfold mult
    rw [card_eq_one]
    refine ⟨(i / A.k, i % A.k), ?_⟩
    ext ⟨j, u⟩
    simp only [mem_filter, mem_product, mem_range, mem_singleton, Prod.mk.injEq, Axis.Hits, Axis.pos, es, er, el]
    constructor
    · rintro ⟨⟨hj, hu⟩, _, e⟩
      have e' : i = u + A.k * j := by rw [Nat.mul_comm]; omega
      rw [e', Nat.add_mul_div_left _ _ (by omega), Nat.div_eq_of_lt hu, Nat.add_mul_mod_self_left, Nat.mod_eq_of_lt hu]
      omega
    · rintro ⟨rfl, rfl⟩
      have h1 : i / A.k < A.m := (Nat.div_lt_iff_lt_mul (by omega)).2 (by omega)
      have h2 := Nat.mod_lt i (show A.k > 0 by omega)
      have h3 := Nat.div_add_mod' i A.k
      exact ⟨⟨h1, h2⟩, hi, by omega⟩
  rw [C30_multiplicity hH hW X hc him]
  refine congrArg (fun t => Outcome.ok (Tensor.data t)) (tab_congr fun idx hv => ?_)
  match idx, hv with
  | [a, b, k], hv =>
    simp only [fn3_apply, one H hH tH a hv.1, one W hW tW b hv.2.1]
    simp

end multiplicity

/-- Tiling of 6 pixels by kernel 2, stride 2. -/
def exT : Axis := ⟨2, 2, 1, 0, 0, 6, 3⟩

/-- Non-vacuity: multiplicities of the overlapping axis are 2, 2, 1 (pixel 2 only under tap 1 of the last window), those of
the tiling are all 1. -/
example : AxisOK u32 exT ∧ (exT.s = exT.k ∧ exT.r = 1 ∧ exT.l = 0 ∧ exT.q = 0) ∧ mult exH 0 = 2 ∧ mult exH 1 = 2 ∧
    mult exH 2 = 1 ∧ mult exT 3 = 1 := by
  refine ⟨⟨⟨?_, ?_, ?_, ?_, ?_, ?_, ?_, ?_, ?_, ?_, ?_, ?_, ?_, ?_⟩, ?_⟩, ?_, ?_, ?_, ?_, ?_⟩ <;> decide

/-! ## Concrete cases of the theorems above: images of 3 × 5 pixels, padded windows, stride 2 along the width -/

example := C26_im2col_hwrs exH_ok exW_ok (fun a b => (10 * a + b : Int)) (y := List.replicate 36 9) (by decide)
example := C26_im2col_rshw exH_ok exW_ok (fun a b => (10 * a + b : Int)) (y := List.replicate 36 9) (by decide)
example := C26_im2col_hwrsc exH_ok exW_ok (c := 2) (fun a b k => (10 * a + b - 7 * k : Int)) (y := List.replicate 72 9)
  (by decide)
example := C26_channel_mismatch exH.sample exW.sample (h := 3) (w := 5) (c := 2) (h_ := 3) (w_ := 3) (r := 2) (s := 2)
  (c' := 1) (by decide) (fun i => (i.sum : Int)) (List.replicate 36 9)
example := C26_im2col1d exW_ok32 (fun a => (a : Int) + 1) (y := List.replicate 6 9) rfl
example := C27_idx_map exH_ok exW_ok (n := 2) (c := 2) (by decide) (fun n a b k => (100 * n + 10 * a + b - 7 * k : Int))
  (fun _ => 4) (y := List.replicate [2, 3, 3, 2, 2, 2].prod 9) List.length_replicate
example := C28_col2im exH_ok exW_ok (c := 2) (fun i j u v k => (i + 2 * j + 3 * u + 5 * v - 7 * k : Int))
  (y := List.replicate 30 9) (by decide)
example := C28_col2im1d exW_ok32 (fun j u => (j + 10 * u : Int)) (y := List.replicate 5 9) rfl
example := C29_adjoint exH_ok exW_ok (c := 2) (fun a b k => (10 * a + b - 7 * k : Int))
  (fun i j u v k => (i + 2 * j + 3 * u + 5 * v - 7 * k : Int)) (cols := List.replicate 72 9) (im := List.replicate 30 9)
  (by decide) (by decide)
example := C29_adjoint1d exW_ok32 (fun a => (a : Int) + 1) (fun j u => (j + 10 * u : Int)) (cols := List.replicate 6 9)
  (im := List.replicate 5 9) rfl rfl
example := C30_multiplicity exH_ok exW_ok (c := 2) (fun a b k => (10 * a + b - 7 * k : Int)) (cols := List.replicate 72 9)
  (im := List.replicate 30 9) (by decide) (by decide)
example := C30_tiling (H := exT) (W := exT) ⟨by constructor <;> decide, by decide⟩ ⟨by constructor <;> decide, by decide⟩
  (by decide) (by decide) (c := 2) (fun a b k => (10 * a + b - 7 * k : Int))
  (cols := List.replicate [exT.m, exT.m, exT.k, exT.k, 2].prod 9)
  (im := List.replicate [exT.n, exT.n, 2].prod 9) List.length_replicate List.length_replicate

end StdNN
