import Verif.Props.Conv
/-!
# C87-C92: what padding, dilation and stride mean, locality, and convolutions that are matrix products
-/
namespace StdNN
open IntTy Spec Outcome Finset
variable {R : Type}

/-! ## C87: explicit padding -/

/-- The axis of an image whose padding has been made explicit. -/
def _root_.StdNN.Spec.Axis.explicit (a : Axis) : Axis := { a with l := 0, q := 0, n := a.l + a.n + a.q }

/-- The zero-padded image, pixels counted from the first row and column of the padding. -/
def paddedImage [Zero R] (H W : Axis) (X : Nat → Nat → R) (p q : Nat) : R :=
  if (H.l ≤ p ∧ p < H.l + H.n) ∧ (W.l ≤ q ∧ q < W.l + W.n) then X (p - H.l) (q - W.l) else 0

theorem AxisOK.explicit {N : IntTy} (h0 : N.In 0) {a : Axis} (h : AxisOK N a) : AxisOK N a.explicit := by
  have f := h.fits
  refine ⟨⟨f.hN, f.hD, f.k1, f.s1, f.r1, f.hk, f.hs, f.hr, h0, h0, f.padded, ?_, f.patchN, f.patchD⟩, ?_⟩
  · have := f.padded
    simpa [Axis.explicit] using this
  · have c := h.covers
    unfold Axis.Covers OutLen at c ⊢
    simp only [Axis.explicit]
    omega

theorem pos_lt {N : IntTy} {a : Axis} (h : AxisOK N a) {j u : Nat} (hj : j < a.m) (hu : u < a.k) :
    a.pos j u < a.l + a.n + a.q := by
  obtain ⟨h1, h2⟩ := h.covers
  unfold patch at h2
  unfold Axis.pos
  have e1 : j * a.s ≤ (a.m - 1) * a.s := Nat.mul_le_mul_right _ (by omega)
  have e2 : u * a.r ≤ (a.k - 1) * a.r := Nat.mul_le_mul_right _ (by omega)
  omega

theorem window_explicit [Zero R] {N : IntTy} {H W : Axis} (hH : AxisOK N H) (hW : AxisOK N W) (X : Nat → Nat → R)
    {i j u v : Nat} (hi : i < H.m) (hj : j < W.m) (hu : u < H.k) (hv : v < W.k) :
    window H.explicit W.explicit (paddedImage H W X) i j u v = window H W X i j u v := by
  have p1 := pos_lt hH hi hu
  have p2 := pos_lt hW hj hv
  have e1 : H.explicit.pos i u = H.pos i u := rfl
  have e2 : W.explicit.pos j v = W.pos j v := rfl
  rw [window_eq, window_eq, e1, e2]
  have c : (H.explicit.l ≤ H.pos i u ∧ H.pos i u < H.explicit.l + H.explicit.n) ∧
      (W.explicit.l ≤ W.pos j v ∧ W.pos j v < W.explicit.l + W.explicit.n) := by
    simp only [Axis.explicit]; omega
  rw [if_pos c]
  rfl

theorem conv2_congr [Semiring R] {H W : Axis} {c : Nat} {X X' : Nat → Nat → Nat → R} {Y : Nat → Nat → Nat → Nat → R}
    {H' W' : Axis} (hk : H'.k = H.k) (wk : W'.k = W.k) {i j i' j' d : Nat}
    (h : ∀ u < H.k, ∀ v < W.k, ∀ k < c,
      window H W (fun a b => X a b k) i j u v = window H' W' (fun a b => X' a b k) i' j' u v) :
    conv2 H W c X Y i j d = conv2 H' W' c X' Y i' j' d := by
  unfold conv2
  rw [hk, wk]
  refine sum_congr rfl fun u hu => sum_congr rfl fun v hv => sum_congr rfl fun k hk => ?_
  rw [h u (mem_range.1 hu) v (mem_range.1 hv) k (mem_range.1 hk)]

theorem tab4_congr {a b c d : Nat} [Zero R] {F G : Nat → Nat → Nat → Nat → R}
    (h : ∀ i < a, ∀ j < b, ∀ k < c, ∀ l < d, F i j k l = G i j k l) :
    (tab [a, b, c, d] (fn4 F)).data = (tab [a, b, c, d] (fn4 G)).data := by
  refine congrArg Tensor.data (tab_congr fun idx hv => ?_)
  match idx, hv with
  | [i, j, k, l], hv => exact h i hv.1 j hv.2.1 k hv.2.2.1 l hv.2.2.2.1

/-- C87 (`nhwc`): convolving with padding equals convolving the zero-padded image without padding. -/
theorem C87_padding_nhwc [Semiring R] {H W : Axis} (hH : AxisOK u32 H) (hW : AxisOK u32 W) {n c d : Nat}
    (hsz : [H.l + H.n + H.q, W.l + W.n + W.q, c].prod ≤ 2 ^ 31) (X Y : Nat → Nat → Nat → Nat → R)
    (junkI junkI' : Nat → Int) (junk junk' : Nat → R) {z z' : List R} (hz : z.length = [n, H.m, W.m, d].prod)
    (hz' : z'.length = [n, H.m, W.m, d].prod) :
    Kernels.convNhwc (convTrait H W) junkI junk [n, H.m, W.m, d] (tab [n, H.n, W.n, c] (fn4 X))
        (tab [H.k, W.k, c, d] (fn4 Y)) z =
      Kernels.convNhwc (ConvTrait.make (⟨0, 0⟩, ⟨0, 0⟩) (H.s, W.s) (H.r, W.r)) junkI' junk' [n, H.m, W.m, d]
        (tab [n, H.l + H.n + H.q, W.l + W.n + W.q, c]
          (fn4 fun b p q k => paddedImage H W (fun a a' => X b a a' k) p q))
        (tab [H.k, W.k, c, d] (fn4 Y)) z' := by
  have hsz0 : [H.n, W.n, c].prod ≤ 2 ^ 31 := by
    refine le_trans ?_ hsz
    simp only [List.prod_cons, List.prod_nil, Nat.mul_one]
    exact Nat.mul_le_mul (by omega) (Nat.mul_le_mul_right _ (by omega))
  rw [Kernels.convNhwc_run hH hW hsz0 X Y junkI junk hz]
  have et : ConvTrait.make (⟨0, 0⟩, ⟨0, 0⟩) (H.s, W.s) (H.r, W.r) = convTrait H.explicit W.explicit := rfl
  have eh : H.l + H.n + H.q = H.explicit.n := rfl
  have ew : W.l + W.n + W.q = W.explicit.n := rfl
  rw [et, eh, ew]
  rw [eh, ew] at hsz
  refine Eq.trans (congrArg Outcome.ok (tab4_congr fun b _ i hi j hj e _ => ?_))
    (Kernels.convNhwc_run (hH.explicit (by decide)) (hW.explicit (by decide)) hsz
      (fun b p q k => paddedImage H W (fun a a' => X b a a' k) p q) Y junkI' junk' hz').symm
  refine conv2_congr (H := H) (W := W) (c := c) (i := i) (j := j) (i' := i) (j' := j) (d := e)
    (H' := H.explicit) (W' := W.explicit) (X := X b)
    (X' := fun p q k => paddedImage H W (fun a a' => X b a a' k) p q) (Y := Y) rfl rfl fun u hu v hv k _ => ?_
  exact (window_explicit hH hW (fun a a' => X b a a' k) hi hj hu hv).symm

/-- C87 (`nchw`). -/
theorem C87_padding_nchw [CommSemiring R] {H W : Axis} (hH : AxisOK u32 H) (hW : AxisOK u32 W) {n c d : Nat}
    (X Y : Nat → Nat → Nat → Nat → R) (junk junk' : Nat → R) {z z' : List R} (hz : z.length = [n, d, H.m, W.m].prod)
    (hz' : z'.length = [n, d, H.m, W.m].prod) :
    Kernels.convNchw (convTrait H W) junk [n, d, H.m, W.m] (tab [n, c, H.n, W.n] (fn4 X))
        (tab [d, c, H.k, W.k] (fn4 Y)) z =
      Kernels.convNchw (ConvTrait.make (⟨0, 0⟩, ⟨0, 0⟩) (H.s, W.s) (H.r, W.r)) junk' [n, d, H.m, W.m]
        (tab [n, c, H.l + H.n + H.q, W.l + W.n + W.q] (fn4 fun b k p q => paddedImage H W (X b k) p q))
        (tab [d, c, H.k, W.k] (fn4 Y)) z' := by
  rw [Kernels.convNchw_run hH hW X Y junk hz]
  have et : ConvTrait.make (⟨0, 0⟩, ⟨0, 0⟩) (H.s, W.s) (H.r, W.r) = convTrait H.explicit W.explicit := rfl
  have eh : H.l + H.n + H.q = H.explicit.n := rfl
  have ew : W.l + W.n + W.q = W.explicit.n := rfl
  rw [et, eh, ew]
  refine Eq.trans (congrArg Outcome.ok (tab4_congr fun b _ e _ i hi j hj => ?_))
    (Kernels.convNchw_run (hH.explicit (by decide)) (hW.explicit (by decide))
      (fun b k p q => paddedImage H W (X b k) p q) Y junk' hz').symm
  refine conv2_congr (H := H) (W := W) (c := c) (i := i) (j := j) (i' := i) (j' := j) (d := e)
    (H' := H.explicit) (W' := W.explicit) (X := fun p q k => X b k p q)
    (X' := fun p q k => paddedImage H W (X b k) p q) (Y := fun u v k e => Y e k u v) rfl rfl fun u hu v hv k _ => ?_
  exact (window_explicit hH hW (X b k) hi hj hu hv).symm

/-- C87 (one dimension). -/
theorem C87_padding_1d [Semiring R] {a : Axis} (h : AxisOK i32 a) (X Y : Nat → R) {z z' : List R}
    (hz : z.length = a.m) (hz' : z'.length = a.m) :
    (conv1dTrait a).run [a.m] (tab [a.n] (fn1 X)) (tab [a.k] (fn1 Y)) z =
      (⟨a.s, a.r, ⟨0, 0⟩⟩ : Conv1d).run [a.m]
        (tab [a.l + a.n + a.q] (fn1 fun p => if a.l ≤ p ∧ p < a.l + a.n then X (p - a.l) else 0))
        (tab [a.k] (fn1 Y)) z' := by
  rw [C35_conv1d h X Y hz]
  refine Eq.trans ?_ (C35_conv1d (h.explicit (by decide))
    (fun p => if a.l ≤ p ∧ p < a.l + a.n then X (p - a.l) else 0) Y hz').symm
  refine congrArg (fun t => Outcome.ok (Tensor.data t)) (tab_congr fun idx hv => ?_)
  match idx, hv with
  | [j], hv =>
    refine sum_congr rfl fun u hu => ?_
    have p1 := pos_lt h hv.1 (mem_range.1 hu)
    have c : a.explicit.l ≤ a.explicit.pos j u ∧ a.explicit.pos j u < a.explicit.l + a.explicit.n := by
      simp only [Axis.explicit, Axis.pos] at p1 ⊢; omega
    unfold padded
    rw [if_pos c]
    rfl

/-- Non-vacuity of C87: the padded image of the example axes is 4 × 7, with its first row and column all zero. -/
example : AxisOK u32 exH ∧ AxisOK u32 exW ∧ AxisOK i32 exW ∧
    [exH.l + exH.n + exH.q, exW.l + exW.n + exW.q, 1].prod = 28 ∧
    (tab [4, 7] (fn2 (paddedImage exH exW fun a b => (10 * a + b + 1 : Int)))).data =
      [0, 0, 0, 0, 0, 0, 0, 0, 1, 2, 3, 4, 5, 0, 0, 11, 12, 13, 14, 15, 0, 0, 21, 22, 23, 24, 25, 0] :=
  ⟨exH_ok, exW_ok, exW_ok32, by decide, by decide⟩

/-! ## C88: dilation -/

/-- The axis of the filter with zeros inserted between its taps. -/
def _root_.StdNN.Spec.Axis.spread (a : Axis) : Axis := { a with k := patch a.k a.r, r := 1 }

theorem patch_one (k : Nat) (h : 1 ≤ k) : patch k 1 = k := by unfold patch; omega

theorem AxisOK.spread {N : IntTy} (h1 : N.In 1) {a : Axis} (h : AxisOK N a) : AxisOK N a.spread := by
  have f := h.fits
  have hp : 1 ≤ patch a.k a.r := by unfold patch; omega
  have e := patch_one _ hp
  refine ⟨⟨f.hN, f.hD, hp, f.s1, Nat.le_refl 1, f.patchN, f.hs, h1, f.hl, f.hq, f.hn, f.padded, ?_, ?_⟩, ?_⟩
  · simp only [Axis.spread, e]; exact f.patchN
  · simp only [Axis.spread, e]; exact f.patchD
  · have c := h.covers
    unfold Axis.Covers OutLen at c ⊢
    simp only [Axis.spread, e]
    exact c

/-- A sum over the extent of a spread filter of terms that vanish between the taps. -/
theorem sum_spread [AddCommMonoid R] {k r : Nat} (hk : 1 ≤ k) (hr : 1 ≤ r) (g : Nat → R) :
    ∑ u ∈ range (patch k r), (if r ∣ u then g u else 0) = ∑ u ∈ range k, g (u * r) := by
  obtain ⟨k, rfl⟩ : ∃ k', k = k' + 1 := ⟨k - 1, by omega⟩
  unfold patch
  rw [Nat.add_sub_cancel]
  induction k with
  | zero => simp
  | succ k ih =>
    rw [sum_range_succ (n := k + 1), ← ih (by omega), Nat.succ_mul, Nat.add_right_comm, sum_range_add]
    congr 1
    rw [sum_eq_single (r - 1)]
    · have e : k * r + 1 + (r - 1) = (k + 1) * r := by rw [Nat.succ_mul]; omega
      rw [e, if_pos (Dvd.intro_left _ rfl), Nat.succ_mul]
    · intro x hx hne
      have hx := mem_range.1 hx
      rw [if_neg]
      intro hd
      have : r ∣ 1 + x := by
        have h2 : r ∣ k * r := Dvd.intro_left _ rfl
        have := (Nat.dvd_add_right h2).1 (by rwa [Nat.add_assoc] at hd)
        exact this
      have := Nat.le_of_dvd (by omega) this
      omega
    · intro hx
      exact absurd (mem_range.2 (by omega)) hx

theorem conv2_spread [Semiring R] {H W : Axis} (hk : 1 ≤ H.k) (hr : 1 ≤ H.r) (wk : 1 ≤ W.k) (wr : 1 ≤ W.r) {c : Nat}
    (X : Nat → Nat → Nat → R) (Y : Nat → Nat → Nat → Nat → R) (i j d : Nat) :
    conv2 H.spread W.spread c X (fun u v k e => if H.r ∣ u ∧ W.r ∣ v then Y (u / H.r) (v / W.r) k e else 0) i j d =
      conv2 H W c X Y i j d := by
  unfold conv2
  have w : ∀ k u v, window H.spread W.spread (fun a b => X a b k) i j (u * H.r) (v * W.r) =
      window H W (fun a b => X a b k) i j u v := by
    intro k u v
    have e1 : H.spread.pos i (u * H.r) = H.pos i u := by simp [Axis.spread, Axis.pos]
    have e2 : W.spread.pos j (v * W.r) = W.pos j v := by simp [Axis.spread, Axis.pos]
    rw [window_eq, window_eq, e1, e2]
    rfl
  have inner : ∀ u, ∑ v ∈ range W.spread.k, ∑ k ∈ range c, window H.spread W.spread (fun a b => X a b k) i j u v *
        (if H.r ∣ u ∧ W.r ∣ v then Y (u / H.r) (v / W.r) k d else 0) =
      if H.r ∣ u then ∑ v ∈ range W.k, ∑ k ∈ range c,
        window H.spread W.spread (fun a b => X a b k) i j u (v * W.r) * Y (u / H.r) v k d else 0 := by
    intro u
    by_cases hu : H.r ∣ u
    · rw [if_pos hu]
      refine Eq.trans (sum_congr rfl fun v _ => ?_) ((sum_spread wk wr fun v => ∑ k ∈ range c,
        window H.spread W.spread (fun a b => X a b k) i j u v * Y (u / H.r) (v / W.r) k d).trans ?_)
      · by_cases hv : W.r ∣ v
        · simp [hu, hv]
        · simp [hv]
      · refine sum_congr rfl fun v _ => ?_
        rw [Nat.mul_div_cancel _ (by omega)]
    · simp [hu]
  simp only [inner]
  refine (sum_spread hk hr _).trans ?_
  refine sum_congr rfl fun u _ => sum_congr rfl fun v _ => sum_congr rfl fun k _ => ?_
  rw [w, Nat.mul_div_cancel _ (by omega)]

/-- C88 (`nhwc`): a convolution with rates `rh`, `rw` equals the convolution with rate 1 and the filter in which `rh - 1`
rows and `rw - 1` columns of zeros have been inserted between the taps. -/
theorem C88_dilation_nhwc [Semiring R] {H W : Axis} (hH : AxisOK u32 H) (hW : AxisOK u32 W) {n c d : Nat}
    (hsz : [H.n, W.n, c].prod ≤ 2 ^ 31) (X Y : Nat → Nat → Nat → Nat → R) (junkI junkI' : Nat → Int)
    (junk junk' : Nat → R) {z z' : List R} (hz : z.length = [n, H.m, W.m, d].prod)
    (hz' : z'.length = [n, H.m, W.m, d].prod) :
    Kernels.convNhwc (convTrait H W) junkI junk [n, H.m, W.m, d] (tab [n, H.n, W.n, c] (fn4 X))
        (tab [H.k, W.k, c, d] (fn4 Y)) z =
      Kernels.convNhwc (ConvTrait.makePS (⟨H.l, H.q⟩, ⟨W.l, W.q⟩) (H.s, W.s)) junkI' junk' [n, H.m, W.m, d]
        (tab [n, H.n, W.n, c] (fn4 X))
        (tab [(H.k - 1) * H.r + 1, (W.k - 1) * W.r + 1, c, d]
          (fn4 fun u v k e => if H.r ∣ u ∧ W.r ∣ v then Y (u / H.r) (v / W.r) k e else 0)) z' := by
  rw [Kernels.convNhwc_run hH hW hsz X Y junkI junk hz]
  refine Eq.trans (congrArg Outcome.ok (tab4_congr fun b _ i hi j hj e _ => ?_))
    (Kernels.convNhwc_run (hH.spread (by decide)) (hW.spread (by decide)) hsz X
      (fun u v k e => if H.r ∣ u ∧ W.r ∣ v then Y (u / H.r) (v / W.r) k e else 0) junkI' junk' hz').symm
  exact (conv2_spread hH.fits.k1 hH.fits.r1 hW.fits.k1 hW.fits.r1 (X b) Y i j e).symm

/-- C88 (`nchw`). -/
theorem C88_dilation_nchw [CommSemiring R] {H W : Axis} (hH : AxisOK u32 H) (hW : AxisOK u32 W) {n c d : Nat}
    (X Y : Nat → Nat → Nat → Nat → R) (junk junk' : Nat → R) {z z' : List R} (hz : z.length = [n, d, H.m, W.m].prod)
    (hz' : z'.length = [n, d, H.m, W.m].prod) :
    Kernels.convNchw (convTrait H W) junk [n, d, H.m, W.m] (tab [n, c, H.n, W.n] (fn4 X))
        (tab [d, c, H.k, W.k] (fn4 Y)) z =
      Kernels.convNchw (ConvTrait.makePS (⟨H.l, H.q⟩, ⟨W.l, W.q⟩) (H.s, W.s)) junk' [n, d, H.m, W.m]
        (tab [n, c, H.n, W.n] (fn4 X))
        (tab [d, c, (H.k - 1) * H.r + 1, (W.k - 1) * W.r + 1]
          (fn4 fun e k u v => if H.r ∣ u ∧ W.r ∣ v then Y e k (u / H.r) (v / W.r) else 0)) z' := by
  rw [Kernels.convNchw_run hH hW X Y junk hz]
  refine Eq.trans (congrArg Outcome.ok (tab4_congr fun b _ e _ i hi j hj => ?_))
    (Kernels.convNchw_run (hH.spread (by decide)) (hW.spread (by decide)) X
      (fun e k u v => if H.r ∣ u ∧ W.r ∣ v then Y e k (u / H.r) (v / W.r) else 0) junk' hz').symm
  exact (conv2_spread hH.fits.k1 hH.fits.r1 hW.fits.k1 hW.fits.r1 (fun a a' k => X b k a a')
    (fun u v k e => Y e k u v) i j e).symm

/-- C88 (one dimension). -/
theorem C88_dilation_1d [Semiring R] {a : Axis} (h : AxisOK i32 a) (X Y : Nat → R) {z z' : List R}
    (hz : z.length = a.m) (hz' : z'.length = a.m) :
    (conv1dTrait a).run [a.m] (tab [a.n] (fn1 X)) (tab [a.k] (fn1 Y)) z =
      (⟨a.s, 1, ⟨a.l, a.q⟩⟩ : Conv1d).run [a.m] (tab [a.n] (fn1 X))
        (tab [(a.k - 1) * a.r + 1] (fn1 fun u => if a.r ∣ u then Y (u / a.r) else 0)) z' := by
  rw [C35_conv1d h X Y hz]
  refine Eq.trans ?_ (C35_conv1d (h.spread (by decide)) X (fun u => if a.r ∣ u then Y (u / a.r) else 0) hz').symm
  refine congrArg (fun t => Outcome.ok (Tensor.data t)) (tab_congr fun idx hv => ?_)
  match idx, hv with
  | [j], hv =>
    simp only [fn1_apply]
    refine Eq.trans ?_ (Eq.trans (sum_spread h.fits.k1 h.fits.r1
      (fun u => Y (u / a.r) * padded a.l a.n X (a.spread.pos j u))).symm ?_)
    · refine sum_congr rfl fun u _ => ?_
      rw [Nat.mul_div_cancel _ h.fits.r1]
      simp [Axis.spread, Axis.pos]
    · refine sum_congr rfl fun u _ => ?_
      by_cases hu : a.r ∣ u
      · simp only [hu, if_true]; rfl
      · simp [hu]

/-- Non-vacuity of C88: the filter (1, 2) at rate 2 becomes (1, 0, 2). -/
example : AxisOK u32 exH ∧ AxisOK u32 exW ∧ AxisOK i32 exW ∧ [exH.n, exW.n, 1].prod ≤ 2 ^ 31 ∧
    (tab [(exW.k - 1) * exW.r + 1] (fn1 fun u => if exW.r ∣ u then ((u / exW.r + 1 : Nat) : Int) else 0)).data =
      [1, 0, 2] := ⟨exH_ok, exW_ok, exW_ok32, by decide, by decide⟩

/-! ## C89: stride -/

/-- The axis with stride 1. -/
def _root_.StdNN.Spec.Axis.dense (a : Axis) : Axis := { a with s := 1, m := (a.m - 1) * a.s + 1 }

theorem AxisOK.dense {N : IntTy} (h1 : N.In 1) {a : Axis} (h : AxisOK N a) : AxisOK N a.dense := by
  have f := h.fits
  refine ⟨⟨f.hN, f.hD, f.k1, Nat.le_refl 1, f.r1, f.hk, h1, f.hr, f.hl, f.hq, f.hn, f.padded, f.patchN, f.patchD⟩, ?_⟩
  have c := h.covers
  unfold Axis.Covers OutLen at c ⊢
  simp only [Axis.dense]
  omega

/-- C89 (`nhwc`): a strided convolution is the convolution with stride 1 (over the same padded image) with every `sh`-th
row and `sw`-th column of the result kept. -/
theorem C89_stride_nhwc [Semiring R] {H W : Axis} (hH : AxisOK u32 H) (hW : AxisOK u32 W) {n c d : Nat}
    (hsz : [H.n, W.n, c].prod ≤ 2 ^ 31) (X Y : Nat → Nat → Nat → Nat → R) (junkI junkI' : Nat → Int)
    (junk junk' : Nat → R) {z z' : List R} (hz : z.length = [n, H.m, W.m, d].prod)
    (hz' : z'.length = [n, (H.m - 1) * H.s + 1, (W.m - 1) * W.s + 1, d].prod) :
    ∃ Z : Nat → Nat → Nat → Nat → R,
      Kernels.convNhwc (ConvTrait.make (⟨H.l, H.q⟩, ⟨W.l, W.q⟩) (1, 1) (H.r, W.r)) junkI' junk'
          [n, (H.m - 1) * H.s + 1, (W.m - 1) * W.s + 1, d] (tab [n, H.n, W.n, c] (fn4 X))
          (tab [H.k, W.k, c, d] (fn4 Y)) z' =
        .ok (tab [n, (H.m - 1) * H.s + 1, (W.m - 1) * W.s + 1, d] (fn4 Z)).data ∧
      Kernels.convNhwc (convTrait H W) junkI junk [n, H.m, W.m, d] (tab [n, H.n, W.n, c] (fn4 X))
          (tab [H.k, W.k, c, d] (fn4 Y)) z =
        .ok (tab [n, H.m, W.m, d] (fn4 fun b i j e => Z b (i * H.s) (j * W.s) e)).data := by
  have et : ConvTrait.make (⟨H.l, H.q⟩, ⟨W.l, W.q⟩) (1, 1) (H.r, W.r) = convTrait H.dense W.dense := rfl
  have eh : (H.m - 1) * H.s + 1 = H.dense.m := rfl
  have ew : (W.m - 1) * W.s + 1 = W.dense.m := rfl
  rw [eh, ew] at hz'
  rw [et, eh, ew]
  refine ⟨_, Kernels.convNhwc_run (hH.dense (by decide)) (hW.dense (by decide)) hsz X Y junkI' junk' hz', ?_⟩
  rw [Kernels.convNhwc_run hH hW hsz X Y junkI junk hz]
  refine congrArg Outcome.ok (tab4_congr fun b _ i hi j hj e _ => ?_)
  refine conv2_congr (H := H) (W := W) (c := c) (i := i) (j := j) (d := e) (H' := H.dense) (W' := W.dense)
    (X := X b) (X' := X b) (Y := Y) (i' := i * H.s) (j' := j * W.s)
    rfl rfl fun u hu v hv k _ => ?_
  simp only [window, Axis.pos, Axis.dense, Nat.mul_one]

/-- C89 (`nchw`). -/
theorem C89_stride_nchw [CommSemiring R] {H W : Axis} (hH : AxisOK u32 H) (hW : AxisOK u32 W) {n c d : Nat}
    (X Y : Nat → Nat → Nat → Nat → R) (junk junk' : Nat → R) {z z' : List R} (hz : z.length = [n, d, H.m, W.m].prod)
    (hz' : z'.length = [n, d, (H.m - 1) * H.s + 1, (W.m - 1) * W.s + 1].prod) :
    ∃ Z : Nat → Nat → Nat → Nat → R,
      Kernels.convNchw (ConvTrait.make (⟨H.l, H.q⟩, ⟨W.l, W.q⟩) (1, 1) (H.r, W.r)) junk'
          [n, d, (H.m - 1) * H.s + 1, (W.m - 1) * W.s + 1] (tab [n, c, H.n, W.n] (fn4 X))
          (tab [d, c, H.k, W.k] (fn4 Y)) z' =
        .ok (tab [n, d, (H.m - 1) * H.s + 1, (W.m - 1) * W.s + 1] (fn4 Z)).data ∧
      Kernels.convNchw (convTrait H W) junk [n, d, H.m, W.m] (tab [n, c, H.n, W.n] (fn4 X))
          (tab [d, c, H.k, W.k] (fn4 Y)) z =
        .ok (tab [n, d, H.m, W.m] (fn4 fun b e i j => Z b e (i * H.s) (j * W.s))).data := by
  have et : ConvTrait.make (⟨H.l, H.q⟩, ⟨W.l, W.q⟩) (1, 1) (H.r, W.r) = convTrait H.dense W.dense := rfl
  have eh : (H.m - 1) * H.s + 1 = H.dense.m := rfl
  have ew : (W.m - 1) * W.s + 1 = W.dense.m := rfl
  rw [eh, ew] at hz'
  rw [et, eh, ew]
  refine ⟨_, Kernels.convNchw_run (hH.dense (by decide)) (hW.dense (by decide)) X Y junk' hz', ?_⟩
  rw [Kernels.convNchw_run hH hW X Y junk hz]
  refine congrArg Outcome.ok (tab4_congr fun b _ e _ i hi j hj => ?_)
  refine conv2_congr (H := H) (W := W) (c := c) (i := i) (j := j) (d := e) (H' := H.dense) (W' := W.dense)
    (X := fun p q k => X b k p q) (X' := fun p q k => X b k p q)
    (Y := fun u v k e => Y e k u v) (i' := i * H.s) (j' := j * W.s) rfl rfl fun u hu v hv k _ => ?_
  simp only [window, Axis.pos, Axis.dense, Nat.mul_one]

/-- C89 (one dimension). -/
theorem C89_stride_1d [Semiring R] {a : Axis} (h : AxisOK i32 a) (X Y : Nat → R) {z z' : List R}
    (hz : z.length = a.m) (hz' : z'.length = (a.m - 1) * a.s + 1) :
    ∃ Z : Nat → R,
      (⟨1, a.r, ⟨a.l, a.q⟩⟩ : Conv1d).run [(a.m - 1) * a.s + 1] (tab [a.n] (fn1 X)) (tab [a.k] (fn1 Y)) z' =
        .ok (tab [(a.m - 1) * a.s + 1] (fn1 Z)).data ∧
      (conv1dTrait a).run [a.m] (tab [a.n] (fn1 X)) (tab [a.k] (fn1 Y)) z =
        .ok (tab [a.m] (fn1 fun j => Z (j * a.s))).data := by
  refine ⟨_, C35_conv1d (h.dense (by decide)) X Y hz', ?_⟩
  rw [C35_conv1d h X Y hz]
  simp only [Axis.pos, Axis.dense, Nat.mul_one]

/-- Non-vacuity of C89: 5 cells padded to 7, kernel extent 3: with stride 1 there are 5 windows, with stride 2 three. -/
example : AxisOK u32 exH ∧ AxisOK u32 exW ∧ AxisOK i32 exW ∧ (exW.m - 1) * exW.s + 1 = 5 ∧ exW.m = 3 :=
  ⟨exH_ok, exW_ok, exW_ok32, by decide, by decide⟩

/-! ## C90: locality -/

/-- `a'` is a part of the unpadded axis `a` that begins `t` windows further. -/
structure Crop (a a' : Axis) (t : Nat) : Prop where
  k : a'.k = a.k
  s : a'.s = a.s
  r : a'.r = a.r
  l : a.l = 0
  q : a.q = 0
  l' : a'.l = 0
  q' : a'.q = 0
  le : t * a.s + a'.n ≤ a.n

theorem Crop.m_le {N : IntTy} {a a' : Axis} {t : Nat} (h : Crop a a' t) (ha : AxisOK N a) (ha' : AxisOK N a') :
    t + a'.m ≤ a.m := by
  obtain ⟨c1, c2⟩ := ha.covers
  obtain ⟨d1, d2⟩ := ha'.covers
  rw [h.k, h.s, h.r, h.l', h.q'] at d2
  rw [h.l, h.q] at c2
  have hle := h.le
  have s1 := ha.fits.s1
  have : (t + (a'.m - 1)) * a.s ≤ (a.m - 1) * a.s := by rw [Nat.add_mul]; omega
  have := Nat.le_of_mul_le_mul_right this s1
  omega

theorem Crop.padded [Zero R] {N : IntTy} {a a' : Axis} {t : Nat} (h : Crop a a' t) (ha : AxisOK N a)
    (ha' : AxisOK N a') (f : Nat → R) {j u : Nat} (hj : j < a'.m) (hu : u < a'.k) :
    Spec.padded a'.l a'.n (fun x => f (x + t * a.s)) (a'.pos j u) = Spec.padded a.l a.n f (a.pos (j + t) u) := by
  have p1 := pos_lt ha' hj hu
  have p2 := pos_lt ha (show j + t < a.m by have := h.m_le ha ha'; omega) (show u < a.k by rw [← h.k]; exact hu)
  have e : a.pos (j + t) u = a'.pos j u + t * a.s := by
    unfold Axis.pos; rw [h.s, h.r, Nat.add_mul]; omega
  have := h.l; have := h.q; have := h.l'; have := h.q'
  unfold Spec.padded
  rw [if_pos (by omega), if_pos (by omega), e, h.l, h.l']
  rfl

/-- C90 (`nhwc`): without padding, the convolution of a crop of the image is the corresponding crop of the convolution: a
rectangle of the result depends on nothing but the pixels under its windows. -/
theorem C90_crop_nhwc [Semiring R] {H W H' W' : Axis} {th tw : Nat} (hH : AxisOK u32 H) (hW : AxisOK u32 W)
    (hH' : AxisOK u32 H') (hW' : AxisOK u32 W') (cH : Crop H H' th) (cW : Crop W W' tw) {n c d : Nat}
    (hsz : [H.n, W.n, c].prod ≤ 2 ^ 31) (X Y : Nat → Nat → Nat → Nat → R) (junkI junkI' : Nat → Int)
    (junk junk' : Nat → R) {z z' : List R} (hz : z.length = [n, H.m, W.m, d].prod)
    (hz' : z'.length = [n, H'.m, W'.m, d].prod) :
    th + H'.m ≤ H.m ∧ tw + W'.m ≤ W.m ∧
    ∃ Z : Nat → Nat → Nat → Nat → R,
      Kernels.convNhwc (convTrait H W) junkI junk [n, H.m, W.m, d] (tab [n, H.n, W.n, c] (fn4 X))
          (tab [H.k, W.k, c, d] (fn4 Y)) z = .ok (tab [n, H.m, W.m, d] (fn4 Z)).data ∧
      Kernels.convNhwc (convTrait H W) junkI' junk' [n, H'.m, W'.m, d]
          (tab [n, H'.n, W'.n, c] (fn4 fun b p q k => X b (p + th * H.s) (q + tw * W.s) k))
          (tab [H.k, W.k, c, d] (fn4 Y)) z' =
        .ok (tab [n, H'.m, W'.m, d] (fn4 fun b i j e => Z b (i + th) (j + tw) e)).data := by
  refine ⟨cH.m_le hH hH', cW.m_le hW hW', _, Kernels.convNhwc_run hH hW hsz X Y junkI junk hz, ?_⟩
  have hsz' : [H'.n, W'.n, c].prod ≤ 2 ^ 31 := by
    refine le_trans ?_ hsz
    have := cH.le; have := cW.le
    simp only [List.prod_cons, List.prod_nil, Nat.mul_one]
    exact Nat.mul_le_mul (by omega) (Nat.mul_le_mul_right _ (by omega))
  have et : convTrait H W = convTrait H' W' := by
    simp [convTrait, cH.s, cH.r, cH.l, cH.q, cH.l', cH.q', cW.s, cW.r, cW.l, cW.q, cW.l', cW.q']
  rw [et, ← cH.k, ← cW.k]
  refine (Kernels.convNhwc_run hH' hW' hsz' (fun b p q k => X b (p + th * H.s) (q + tw * W.s) k) Y junkI' junk'
    hz').trans (congrArg Outcome.ok (tab4_congr fun b _ i hi j hj e _ => ?_))
  refine conv2_congr cH.k.symm cW.k.symm fun u hu v hv k _ => ?_
  unfold window
  have e1 := cH.padded hH hH' (fun p => Spec.padded W.l W.n (fun q => X b p q k) (W.pos (j + tw) v)) hi hu
  rw [← e1]
  refine congrArg (fun g => Spec.padded H'.l H'.n g (H'.pos i u)) (funext fun p => ?_)
  exact cW.padded hW hW' (fun q => X b (p + th * H.s) q k) hj hv

/-- C90 (`nchw`). -/
theorem C90_crop_nchw [CommSemiring R] {H W H' W' : Axis} {th tw : Nat} (hH : AxisOK u32 H) (hW : AxisOK u32 W)
    (hH' : AxisOK u32 H') (hW' : AxisOK u32 W') (cH : Crop H H' th) (cW : Crop W W' tw) {n c d : Nat}
    (X Y : Nat → Nat → Nat → Nat → R) (junk junk' : Nat → R) {z z' : List R} (hz : z.length = [n, d, H.m, W.m].prod)
    (hz' : z'.length = [n, d, H'.m, W'.m].prod) :
    ∃ Z : Nat → Nat → Nat → Nat → R,
      Kernels.convNchw (convTrait H W) junk [n, d, H.m, W.m] (tab [n, c, H.n, W.n] (fn4 X))
          (tab [d, c, H.k, W.k] (fn4 Y)) z = .ok (tab [n, d, H.m, W.m] (fn4 Z)).data ∧
      Kernels.convNchw (convTrait H W) junk' [n, d, H'.m, W'.m]
          (tab [n, c, H'.n, W'.n] (fn4 fun b k p q => X b k (p + th * H.s) (q + tw * W.s)))
          (tab [d, c, H.k, W.k] (fn4 Y)) z' =
        .ok (tab [n, d, H'.m, W'.m] (fn4 fun b e i j => Z b e (i + th) (j + tw))).data := by
  refine ⟨_, Kernels.convNchw_run hH hW X Y junk hz, ?_⟩
  have et : convTrait H W = convTrait H' W' := by
    simp [convTrait, cH.s, cH.r, cH.l, cH.q, cH.l', cH.q', cW.s, cW.r, cW.l, cW.q, cW.l', cW.q']
  rw [et, ← cH.k, ← cW.k]
  refine (Kernels.convNchw_run hH' hW' (fun b k p q => X b k (p + th * H.s) (q + tw * W.s)) Y junk'
    hz').trans (congrArg Outcome.ok (tab4_congr fun b _ e _ i hi j hj => ?_))
  refine conv2_congr cH.k.symm cW.k.symm fun u hu v hv k _ => ?_
  unfold window
  have e1 := cH.padded hH hH' (fun p => Spec.padded W.l W.n (fun q => X b k p q) (W.pos (j + tw) v)) hi hu
  rw [← e1]
  refine congrArg (fun g => Spec.padded H'.l H'.n g (H'.pos i u)) (funext fun p => ?_)
  exact cW.padded hW hW' (fun q => X b k (p + th * H.s) q) hj hv

/-- Non-vacuity of C90: 9 cells, kernel 3, stride 2 (4 windows); the crop of 5 cells from cell 4 on has the last two. -/
example : let a : Axis := ⟨3, 2, 1, 0, 0, 9, 4⟩; let a' : Axis := ⟨3, 2, 1, 0, 0, 5, 2⟩
    AxisOK u32 a ∧ AxisOK u32 a' ∧ Crop a a' 2 := by
  refine ⟨⟨⟨?_, ?_, ?_, ?_, ?_, ?_, ?_, ?_, ?_, ?_, ?_, ?_, ?_, ?_⟩, ?_⟩,
    ⟨⟨?_, ?_, ?_, ?_, ?_, ?_, ?_, ?_, ?_, ?_, ?_, ?_, ?_, ?_⟩, ?_⟩, ⟨?_, ?_, ?_, ?_, ?_, ?_, ?_, ?_⟩⟩ <;> decide

/-! ## C91, C92: bit-exact values -/
section order
variable [Zero R] [Add R] [Mul R]

theorem Kernels.convNhwc_seq {H W : Axis} (hH : AxisOK u32 H) (hW : AxisOK u32 W) {n c d : Nat}
    (hsz : [H.n, W.n, c].prod ≤ 2 ^ 31) (X Y : Nat → Nat → Nat → Nat → R) (junkI : Nat → Int) (junk : Nat → R)
    (z : List R) :
    convNhwc (convTrait H W) junkI junk [n, H.m, W.m, d] (tab [n, H.n, W.n, c] (fn4 X))
        (tab [H.k, W.k, c, d] (fn4 Y)) z =
      Plain.mm (tab [[n, H.m, W.m].prod, [H.k, W.k, c].prod] fun idx =>
          (fn6 fun b i j u v k => window H W (fun a a' => X b a a' k) i j u v)
            (unravel [n, H.m, W.m] (idx.headD 0) ++ unravel [H.k, W.k, c] (idx.tail.headD 0)))
        ((tab [H.k, W.k, c, d] (fn4 Y)).withDims [[H.k, W.k, c].prod, [d].prod])
        [[n, H.m, W.m].prod, [d].prod] z := by
  simp only [convNhwc, filterShape, getDim, tab_dims, FOrder.heightPos, FOrder.widthPos, List.getElem?_cons_zero,
    List.getElem?_cons_succ, Outcome.ok_bind, Outcome.pure_eq]
  have e1 : LinConv.getSample (convTrait H W).h H.k = .ok H.sample := getSample_run hH
  have e2 : LinConv.getSample (convTrait H W).w W.k = .ok W.sample := getSample_run hW
  simp only [e1, e2, Outcome.ok_bind, Ops.batchedShape, hwrscShape_run hH hW c, Outcome.pure_eq]
  rw [im2colNhwrsc_run hH hW hsz X junkI (by simp [fresh])]
  simp only [Outcome.ok_bind]
  have m1 : (⟨asMatrix 3 [n, H.m, W.m, H.k, W.k, c],
      (tab [n, H.m, W.m, H.k, W.k, c] (fn6 fun b i j u v k => window H W (fun a a' => X b a a' k) i j u v)).data⟩ :
      Tensor R) = _ := tab_asMatrix (d1 := [n, H.m, W.m]) (d2 := [H.k, W.k, c]) _
  rw [m1]
  rfl

/-- C91: bit for bit, with no law assumed of `+` and `*`: every output of the `nhwc` convolution is the sum, started at 0
and taken over tap rows, then tap columns, then channels, of pixel times weight; taps in the padding contribute the
product of 0 and the weight. -/
theorem C91_conv_order {H W : Axis} (hH : AxisOK u32 H) (hW : AxisOK u32 W) {n c d : Nat}
    (hsz : [H.n, W.n, c].prod ≤ 2 ^ 31) (X Y : Nat → Nat → Nat → Nat → R) (junkI : Nat → Int) (junk : Nat → R)
    {z : List R} (hz : z.length = [n, H.m, W.m, d].prod) :
    Kernels.convNhwc (convTrait H W) junkI junk [n, H.m, W.m, d] (tab [n, H.n, W.n, c] (fn4 X))
        (tab [H.k, W.k, c, d] (fn4 Y)) z =
      .ok (tab [n, H.m, W.m, d] (fn4 fun b i j e => seqSum (H.k * (W.k * c)) fun p =>
        let u := p / (W.k * c)
        let v := p % (W.k * c) / c
        let k := p % (W.k * c) % c
        window H W (fun a a' => X b a a' k) i j u v * Y u v k e)).data := by
  rw [Kernels.convNhwc_seq hH hW hsz X Y junkI junk z]
  have m2 : (tab [H.k, W.k, c, d] (fn4 Y)).withDims [[H.k, W.k, c].prod, [d].prod] = _ :=
    tab_asMatrix (d1 := [H.k, W.k, c]) (d2 := [d]) (fn4 Y)
  have hz' : z.length = [n, H.m, W.m].prod * [d].prod := by rw [hz]; simp [Nat.mul_assoc]
  rw [m2, Plain.mm_run _ _ hz']
  refine congrArg Outcome.ok (tab_ofMatrix (d1 := [n, H.m, W.m]) (d2 := [d]) _ _ ?_)
  intro i1 i2 h1 h2
  simp only [Plain.prod2, fn2_apply, List.headD_cons, List.tail_cons, unravel_offset h1, unravel_offset h2]
  match i1, h1, i2, h2 with
  | [b, i, j], _, [e], _ =>
    have e : [H.k, W.k, c].prod = H.k * (W.k * c) := by simp
    rw [e]
    simp [unravel]

/-- C91 for `nchw`: the order is channels, then tap rows, then tap columns, and the weight is the first factor. -/
theorem C91_conv_order_nchw {H W : Axis} (hH : AxisOK u32 H) (hW : AxisOK u32 W) {n c d : Nat}
    (X Y : Nat → Nat → Nat → Nat → R) (junk : Nat → R) {z : List R} (hz : z.length = [n, d, H.m, W.m].prod) :
    Kernels.convNchw (convTrait H W) junk [n, d, H.m, W.m] (tab [n, c, H.n, W.n] (fn4 X))
        (tab [d, c, H.k, W.k] (fn4 Y)) z =
      .ok (tab [n, d, H.m, W.m] (fn4 fun b e i j => seqSum (c * (H.k * W.k)) fun p =>
        let k := p / (H.k * W.k)
        let u := p % (H.k * W.k) / W.k
        let v := p % (H.k * W.k) % W.k
        Y e k u v * window H W (X b k) i j u v)).data := by
  rw [Kernels.convNchw_order hH hW X Y junk hz]
  refine congrArg (fun t => Outcome.ok (Tensor.data t)) (tab_congr fun idx hv => ?_)
  match idx, hv with
  | [b, e, i, j], _ =>
    have e' : [c, H.k, W.k].prod = c * (H.k * W.k) := by simp
    simp only [fn4_apply]
    rw [e']
    simp [unravel]

/-- C92: a convolution with a 1 × 1 kernel (stride 1, no padding) is, bit for bit, the product of the matrix of pixels with
the filter. -/
theorem C92_one_by_one {H W : Axis} (hH : AxisOK u32 H) (hW : AxisOK u32 W) (kH : H.k = 1) (kW : W.k = 1)
    (sH : H.s = 1) (sW : W.s = 1) (lH : H.l = 0) (lW : W.l = 0) (qH : H.q = 0) (qW : W.q = 0) {n c d : Nat}
    (hsz : [H.n, W.n, c].prod ≤ 2 ^ 31) (X Y : Nat → Nat → Nat → Nat → R) (junkI : Nat → Int) (junk : Nat → R)
    (z : List R) :
    Kernels.convNhwc (convTrait H W) junkI junk [n, H.n, W.n, d] (tab [n, H.n, W.n, c] (fn4 X))
        (tab [1, 1, c, d] (fn4 Y)) z =
      Plain.mm ((tab [n, H.n, W.n, c] (fn4 X)).withDims [n * H.n * W.n, c])
        ((tab [1, 1, c, d] (fn4 Y)).withDims [c, d]) [n * H.n * W.n, d] z := by
  have mh : H.m = H.n := by
    have := hH.covers.1; have := hH.covers.2; unfold patch at this; rw [kH, sH, lH, qH] at this; omega
  have mw : W.m = W.n := by
    have := hW.covers.1; have := hW.covers.2; unfold patch at this; rw [kW, sW, lW, qW] at this; omega
  have key := Kernels.convNhwc_seq hH hW (n := n) (d := d) hsz X Y junkI junk z
  rw [mh, mw, kH, kW] at key
  rw [key]
  have e1 : [n, H.n, W.n].prod = n * H.n * W.n := by simp [Nat.mul_assoc]
  have e2 : [1, 1, c].prod = c := by simp
  have e3 : [d].prod = d := by simp
  have m1 : (tab [n, H.n, W.n, c] (fn4 X)).withDims [[n, H.n, W.n].prod, [c].prod] = _ :=
    tab_asMatrix (d1 := [n, H.n, W.n]) (d2 := [c]) (fn4 X)
  have e4 : [c].prod = c := by simp
  rw [e4] at m1
  rw [e2, e3, ← e1, m1]
  congr 1
  apply tab_congr
  intro idx hv
  match idx, hv with
  | [p, k], hv =>
    have hk : k < c := hv.2.1
    simp only [List.headD_cons, List.tail_cons]
    have hp := valid_unravel (dims := [n, H.n, W.n]) hv.1
    match unravel [n, H.n, W.n] p, hp with
    | [b, i, j], hp =>
      have c0 : 0 < c := by omega
      have hi : i < H.n := hp.2.1
      have hj : j < W.n := hp.2.2.1
      have u1 : unravel [1, 1, c] k = [0, 0, k] := by
        simp [unravel, Nat.div_eq_of_lt hk, Nat.mod_eq_of_lt hk]
      have u2 : unravel [c] k = [k] := by simp [unravel]
      rw [u1, u2]
      simp only [List.cons_append, List.nil_append, fn6_apply, fn4_apply]
      rw [window_eq]
      simp [Axis.pos, lH, lW, sH, sW, hi, hj]

/-- C92: a convolution whose kernel is as large as the image (no padding) is, bit for bit, the product of the matrix of
flattened images with the flattened filter: a dense layer. -/
theorem C92_full_kernel {H W : Axis} (hH : AxisOK u32 H) (hW : AxisOK u32 W) (kH : H.k = H.n) (kW : W.k = W.n)
    (rH : H.r = 1) (rW : W.r = 1) (lH : H.l = 0) (lW : W.l = 0) (qH : H.q = 0) (qW : W.q = 0) {n c d : Nat}
    (hsz : [H.n, W.n, c].prod ≤ 2 ^ 31) (X Y : Nat → Nat → Nat → Nat → R) (junkI : Nat → Int) (junk : Nat → R)
    (z : List R) :
    Kernels.convNhwc (convTrait H W) junkI junk [n, 1, 1, d] (tab [n, H.n, W.n, c] (fn4 X))
        (tab [H.n, W.n, c, d] (fn4 Y)) z =
      Plain.mm ((tab [n, H.n, W.n, c] (fn4 X)).withDims [n, H.n * W.n * c])
        ((tab [H.n, W.n, c, d] (fn4 Y)).withDims [H.n * W.n * c, d]) [n, d] z := by
  have mh : H.m = 1 := by
    have h2 := hH.covers.2; have h1 := hH.covers.1; unfold patch at h2
    have k1 := hH.fits.k1; have s1 := hH.fits.s1
    rw [kH] at k1; rw [kH, rH, lH, qH] at h2
    have : (H.m - 1) * H.s = 0 := by omega
    rcases Nat.mul_eq_zero.1 this with h | h <;> omega
  have mw : W.m = 1 := by
    have h2 := hW.covers.2; have h1 := hW.covers.1; unfold patch at h2
    have k1 := hW.fits.k1; have s1 := hW.fits.s1
    rw [kW] at k1; rw [kW, rW, lW, qW] at h2
    have : (W.m - 1) * W.s = 0 := by omega
    rcases Nat.mul_eq_zero.1 this with h | h <;> omega
  have key := Kernels.convNhwc_seq hH hW (n := n) (d := d) hsz X Y junkI junk z
  rw [mh, mw, kH, kW] at key
  rw [key]
  have e1 : [n, 1, 1].prod = n := by simp
  have e2 : [H.n, W.n, c].prod = H.n * W.n * c := by simp [Nat.mul_assoc]
  have e3 : [d].prod = d := by simp
  have m1 : (tab [n, H.n, W.n, c] (fn4 X)).withDims [[n].prod, [H.n, W.n, c].prod] = _ :=
    tab_asMatrix (d1 := [n]) (d2 := [H.n, W.n, c]) (fn4 X)
  have e4 : [n].prod = n := by simp
  rw [e4] at m1
  rw [e1, e3, ← e2, m1]
  congr 1
  apply tab_congr
  intro idx hv
  match idx, hv with
  | [b, p], hv =>
    have hb : b < n := hv.1
    simp only [List.headD_cons, List.tail_cons]
    have hp := valid_unravel (dims := [H.n, W.n, c]) hv.2.1
    match unravel [H.n, W.n, c] p, hp with
    | [u, v, k], hp =>
      have hu : u < H.n := hp.1
      have hv' : v < W.n := hp.2.1
      have u1 : unravel [n, 1, 1] b = [b, 0, 0] := by simp [unravel, Nat.mod_one]
      have u2 : unravel [n] b = [b] := by simp [unravel]
      rw [u1, u2]
      simp only [List.cons_append, List.nil_append, fn6_apply, fn4_apply]
      rw [window_eq]
      simp [Axis.pos, lH, lW, rH, rW, hu, hv']

end order

/-- Non-vacuity of C91 and C92: a 1 × 1 and a full-size kernel on 3 × 5 images; the first sums the 2 channels of a pixel. -/
example : AxisOK u32 exH ∧ AxisOK u32 exW ∧ AxisOK u32 ⟨1, 1, 1, 0, 0, 3, 3⟩ ∧ AxisOK u32 ⟨1, 1, 1, 0, 0, 5, 5⟩ ∧
    AxisOK u32 ⟨3, 4, 1, 0, 0, 3, 1⟩ ∧ AxisOK u32 ⟨5, 1, 1, 0, 0, 5, 1⟩ ∧ [3, 5, 2].prod ≤ 2 ^ 31 ∧
    Kernels.convNhwc (convTrait ⟨1, 1, 1, 0, 0, 1, 1⟩ ⟨1, 1, 1, 0, 0, 2, 2⟩) (fun _ => 0) (fun _ => 0) [1, 1, 2, 1]
      ⟨[1, 1, 2, 2], [(1 : Int), 2, 3, 4]⟩ ⟨[1, 1, 2, 1], [10, 100]⟩ [7, 7] = .ok [210, 430] := by
  refine ⟨exH_ok, exW_ok, ⟨⟨?_, ?_, ?_, ?_, ?_, ?_, ?_, ?_, ?_, ?_, ?_, ?_, ?_, ?_⟩, ?_⟩,
    ⟨⟨?_, ?_, ?_, ?_, ?_, ?_, ?_, ?_, ?_, ?_, ?_, ?_, ?_, ?_⟩, ?_⟩,
    ⟨⟨?_, ?_, ?_, ?_, ?_, ?_, ?_, ?_, ?_, ?_, ?_, ?_, ?_, ?_⟩, ?_⟩,
    ⟨⟨?_, ?_, ?_, ?_, ?_, ?_, ?_, ?_, ?_, ?_, ?_, ?_, ?_, ?_⟩, ?_⟩, ?_, ?_⟩ <;> decide

/-! ## Concrete cases of the theorems above: images of 3 × 5 pixels, padded windows, stride 2 along the width -/

example := C87_padding_nhwc exH_ok exW_ok (n := 2) (c := 2) (d := 3) (by decide) exI exI (fun _ => 0) (fun _ => 1) (fun _ => 5)
  (fun _ => 6) (z := List.replicate 54 9) (z' := List.replicate 54 8) (by decide) (by decide)
example := C87_padding_nchw exH_ok exW_ok (n := 2) (c := 2) (d := 3) exI exI (fun _ => 5) (fun _ => 6)
  (z := List.replicate 54 9) (z' := List.replicate 54 8) (by decide) (by decide)
example := C87_padding_1d exW_ok32 (fun i => (i : Int) + 1) (fun i => 10 ^ (i + 1)) (z := [7, 7, 7]) (z' := [6, 6, 6]) rfl rfl
example := C88_dilation_nhwc exH_ok exW_ok (n := 2) (c := 2) (d := 3) (by decide) exI exI (fun _ => 0) (fun _ => 1) (fun _ => 5)
  (fun _ => 6) (z := List.replicate 54 9) (z' := List.replicate 54 8) (by decide) (by decide)
example := C88_dilation_nchw exH_ok exW_ok (n := 2) (c := 2) (d := 3) exI exI (fun _ => 5) (fun _ => 6)
  (z := List.replicate 54 9) (z' := List.replicate 54 8) (by decide) (by decide)
example := C88_dilation_1d exW_ok32 (fun i => (i : Int) + 1) (fun i => 10 ^ (i + 1)) (z := [7, 7, 7]) (z' := [6, 6, 6]) rfl rfl
example := C89_stride_nhwc exH_ok exW_ok (n := 2) (c := 2) (d := 3) (by decide) exI exI (fun _ => 0) (fun _ => 1) (fun _ => 5)
  (fun _ => 6) (z := List.replicate 54 9) (z' := List.replicate 90 8) (by decide) (by decide)
example := C89_stride_nchw exH_ok exW_ok (n := 2) (c := 2) (d := 3) exI exI (fun _ => 5) (fun _ => 6)
  (z := List.replicate 54 9) (z' := List.replicate 90 8) (by decide) (by decide)
example := C89_stride_1d exW_ok32 (fun i => (i : Int) + 1) (fun i => 10 ^ (i + 1)) (z := [7, 7, 7]) (z' := [6, 6, 6, 6, 6]) rfl rfl

/-- Nine pixels in windows of three with stride 2, and five pixels of them. -/
def exLong : Axis := ⟨3, 2, 1, 0, 0, 9, 4⟩
/-- See `exLong`. -/
def exShort : Axis := ⟨3, 2, 1, 0, 0, 5, 2⟩
theorem exLong_ok : AxisOK u32 exLong := by
  refine ⟨⟨?_, ?_, ?_, ?_, ?_, ?_, ?_, ?_, ?_, ?_, ?_, ?_, ?_, ?_⟩, ?_⟩ <;> decide
theorem exShort_ok : AxisOK u32 exShort := by
  refine ⟨⟨?_, ?_, ?_, ?_, ?_, ?_, ?_, ?_, ?_, ?_, ?_, ?_, ?_, ?_⟩, ?_⟩ <;> decide
theorem exShort_crop (t : Nat) (ht : t ≤ 2) : Crop exLong exShort t := by
  refine ⟨?_, ?_, ?_, ?_, ?_, ?_, ?_, ?_⟩ <;> first | rfl | (simp only [exLong, exShort]; omega)

example := C90_crop_nhwc exLong_ok exLong_ok exShort_ok exShort_ok (exShort_crop 1 (by decide)) (exShort_crop 2 (by decide))
  (n := 1) (c := 2) (d := 1) (by decide) exI exI (fun _ => 0) (fun _ => 1) (fun _ => 5) (fun _ => 6)
  (z := List.replicate 16 9) (z' := List.replicate 4 8) (by decide) (by decide)
example := C90_crop_nchw exLong_ok exLong_ok exShort_ok exShort_ok (exShort_crop 1 (by decide)) (exShort_crop 2 (by decide))
  (n := 1) (c := 2) (d := 1) exI exI (fun _ => 5) (fun _ => 6)
  (z := List.replicate 16 9) (z' := List.replicate 4 8) (by decide) (by decide)
example := C91_conv_order exH_ok exW_ok (n := 2) (c := 2) (d := 3) (by decide) exI exI (fun _ => 0) (fun _ => 5)
  (z := List.replicate 54 9) (by decide)
example := C91_conv_order_nchw exH_ok exW_ok (n := 2) (c := 2) (d := 3) exI exI (fun _ => 5)
  (z := List.replicate 54 9) (by decide)
example := C92_one_by_one (H := ⟨1, 1, 1, 0, 0, 3, 3⟩) (W := ⟨1, 1, 1, 0, 0, 5, 5⟩)
  ⟨by constructor <;> decide, by decide⟩ ⟨by constructor <;> decide, by decide⟩ rfl rfl rfl rfl rfl rfl rfl rfl
  (n := 2) (c := 2) (d := 3) (by decide) exI exI (fun _ => 0) (fun _ => 5) (List.replicate 90 9)
example := C92_full_kernel (H := ⟨3, 4, 1, 0, 0, 3, 1⟩) (W := ⟨5, 1, 1, 0, 0, 5, 1⟩)
  ⟨by constructor <;> decide, by decide⟩ ⟨by constructor <;> decide, by decide⟩ rfl rfl rfl rfl rfl rfl rfl rfl
  (n := 2) (c := 2) (d := 3) (by decide) exI exI (fun _ => 0) (fun _ => 5) (List.replicate 6 9)

end StdNN
