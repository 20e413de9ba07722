import Verif.Props.ConvLaws
/-!
# C139: the gradients of a convolution are convolutions

The filter gradient is the convolution in which stride and rate have changed places; the image gradient is the
convolution of the gradient, spread by the stride, with the filter turned by 180 degrees.
-/
namespace StdNN
open IntTy Spec Outcome Finset
variable {R : Type}

/-! ## The filter gradient -/

/-- The axis on which windows and taps have changed places. -/
def _root_.StdNN.Spec.Axis.swap (a : Axis) : Axis := ⟨a.m, a.r, a.s, a.l, a.q, a.n, a.k⟩

theorem le_mul_pred {m s : Nat} (hs : 1 ≤ s) (hm : 1 ≤ m) : m ≤ (m - 1) * s + 1 := by
  have := Nat.mul_le_mul_left (m - 1) hs
  omega

theorem AxisOK.swap {N : IntTy} {a : Axis} (h : AxisOK N a) : AxisOK N a.swap := by
  have f := h.fits
  obtain ⟨h1, h2⟩ := h.covers
  have hp : patch a.m a.s ≤ a.l + a.n + a.q := by
    have : 1 ≤ patch a.k a.r := by unfold patch; omega
    unfold patch
    unfold patch at h2 this
    omega
  have hm := le_mul_pred f.s1 h1
  have hpN : N.In (patch a.m a.s : Nat) := f.padded.mono (by omega) (by omega)
  refine ⟨⟨f.hN, f.hD, h1, f.r1, f.s1, hpN.mono (by omega) (by unfold patch; exact_mod_cast hm), f.hr, f.hs, f.hl, f.hq, f.hn,
    f.padded, hpN, hpN⟩, f.k1, ?_⟩
  simp only [Axis.swap]
  unfold patch at h2 ⊢
  omega

/-- C139 (filter): the filter gradient is the convolution of the images, batch and channel exchanged, with the gradient
as filter, in which stride and rate have changed places; this convolution fits the padded images exactly. -/
theorem C139_filter [Semiring R] {H W : Axis} (hH : AxisOK u32 H) (hW : AxisOK u32 W) {n c d : Nat}
    (hsz : [H.n, W.n, n].prod ≤ 2 ^ 31) (G X : Nat → Nat → Nat → Nat → R) (junkI : Nat → Int) (junk junk' : Nat → R)
    {gy z : List R} (hgy : gy.length = [H.k, W.k, c, d].prod) (hz : z.length = [c, H.k, W.k, d].prod) :
    ∃ F : Nat → Nat → Nat → Nat → R,
      Kernels.convGradY (convTrait H W) junk [H.k, W.k, c, d] (tab [n, H.m, W.m, d] (fn4 G)) (tab [n, H.n, W.n, c] (fn4 X)) gy =
        .ok (tab [H.k, W.k, c, d] (fn4 F)).data ∧
      Kernels.convNhwc (ConvTrait.make (⟨H.l, H.q⟩, ⟨W.l, W.q⟩) (H.r, W.r) (H.s, W.s)) junkI junk' [c, H.k, W.k, d]
          (tab [c, H.n, W.n, n] (fn4 fun k a b e => X e a b k)) (tab [H.m, W.m, n, d] (fn4 fun i j e o => G e i j o)) z =
        .ok (tab [c, H.k, W.k, d] (fn4 fun k u v o => F u v k o)).data := by
  refine ⟨_, Kernels.convGradY_run hH hW G X junk hgy, ?_⟩
  refine (Kernels.convNhwc_run hH.swap hW.swap hsz (fun k a b e => X e a b k) (fun i j e o => G e i j o) junkI junk' hz).trans ?_
  refine congrArg (fun t => Outcome.ok (Tensor.data t)) (tab_congr fun idx hv => ?_)
  match idx, hv with
  | [k, u, v, o], _ =>
    simp only [fn4_apply]
    unfold conv2
    simp only [Axis.swap]
    have e : ∀ i j, ∑ e ∈ range n, window ⟨H.m, H.r, H.s, H.l, H.q, H.n, H.k⟩ ⟨W.m, W.r, W.s, W.l, W.q, W.n, W.k⟩
          (fun a b => X e a b k) u v i j * G e i j o =
        ∑ e ∈ range n, window H W (fun a a' => X e a a' k) i j u v * G e i j o := fun i j =>
      sum_congr rfl fun e _ => by
        unfold window Axis.pos
        simp only [Nat.add_comm]
    simp only [e]
    rw [sum_congr rfl fun i _ => sum_comm (s := range W.m) (t := range n), sum_comm]

/-! ## The image gradient -/

/-- The axis of the image gradient: the gradient spread by the stride, windows moved by one cell. -/
def _root_.StdNN.Spec.Axis.back (a : Axis) : Axis :=
  ⟨a.k, 1, a.r, (a.k - 1) * a.r - a.l, (a.k - 1) * a.r - a.q, (a.m - 1) * a.s + 1, a.n⟩

theorem AxisOK.back {N : IntTy} (h1 : N.In 1) {a : Axis} (h : AxisOK N a) (n1 : 1 ≤ a.n) (hl : a.l ≤ (a.k - 1) * a.r)
    (hq : a.q ≤ (a.k - 1) * a.r) (hb : N.In ((a.n + (a.k - 1) * a.r : Nat) : Int)) : AxisOK N a.back := by
  have f := h.fits
  obtain ⟨m1, h2⟩ := h.covers
  unfold patch at h2
  refine ⟨⟨f.hN, f.hD, f.k1, Nat.le_refl 1, f.r1, f.hk, h1, f.hr, hb.mono (by omega) ?_, hb.mono (by omega) ?_,
    f.padded.mono (by omega) ?_, hb.mono (by omega) ?_, f.patchN, f.patchD⟩, n1, ?_⟩ <;>
    simp only [Axis.back] <;> try unfold patch
  all_goals omega

/-- One axis of the image gradient: what lies under the mirrored tap. -/
theorem padded_spread [AddCommMonoid R] {N : IntTy} {a : Axis} (h : AxisOK N a) (hl : a.l ≤ (a.k - 1) * a.r) (F : Nat → R)
    {i u : Nat} (hi : i < a.n) (hu : u < a.k) :
    padded a.back.l a.back.n (fun p => if a.s ∣ p then F (p / a.s) else 0) (a.back.pos i (a.k - 1 - u)) =
      ∑ j ∈ range a.m, if a.Hits j u i then F j else 0 := by
  have f := h.fits
  obtain ⟨m1, h2⟩ := h.covers
  have s1 : 0 < a.s := f.s1
  have eu : (a.k - 1 - u) * a.r + u * a.r = (a.k - 1) * a.r := by rw [← Nat.add_mul]; congr 1; omega
  unfold padded Axis.back Axis.pos
  simp only [Nat.mul_one]
  by_cases c : ∃ j < a.m, j * a.s + u * a.r = a.l + i
  · obtain ⟨j, hj, e⟩ := c
    have hle : j * a.s ≤ (a.m - 1) * a.s := Nat.mul_le_mul_right _ (by omega)
    have ep : i + (a.k - 1 - u) * a.r - ((a.k - 1) * a.r - a.l) = j * a.s := by omega
    rw [if_pos (by omega), ep, if_pos ⟨j, Nat.mul_comm _ _⟩, Nat.mul_div_cancel _ s1,
      Finset.sum_eq_single j, if_pos ⟨hi, e⟩]
    · intro j' _ hne
      refine if_neg fun hh => hne ?_
      have : j' * a.s = j * a.s := by have := hh.2; unfold Axis.pos at this; omega
      exact Nat.eq_of_mul_eq_mul_right s1 this
    · intro hh
      exact absurd (mem_range.2 hj) hh
  · rw [Finset.sum_eq_zero]
    · split
      · rename_i hc
        split
        · rename_i hd
          obtain ⟨j, hj⟩ := hd
          refine absurd ⟨j, ?_, ?_⟩ c
          · by_contra hh
            have := Nat.mul_le_mul_left a.s (show a.m - 1 + 1 ≤ j by omega)
            rw [← hj, Nat.mul_add, Nat.mul_one, Nat.mul_comm a.s] at this
            omega
          · rw [Nat.mul_comm j]
            omega
        · rfl
      · rfl
    · intro j hj
      exact if_neg fun hh => c ⟨j, mem_range.1 hj, hh.2⟩

theorem window_spread [AddCommMonoid R] {N : IntTy} {H W : Axis} (hH : AxisOK N H) (hW : AxisOK N W)
    (lH : H.l ≤ (H.k - 1) * H.r) (lW : W.l ≤ (W.k - 1) * W.r) (F : Nat → Nat → R) {a b u v : Nat} (ha : a < H.n) (hb : b < W.n)
    (hu : u < H.k) (hv : v < W.k) :
    window H.back W.back (fun p q => if H.s ∣ p ∧ W.s ∣ q then F (p / H.s) (q / W.s) else 0) a b (H.k - 1 - u) (W.k - 1 - v) =
      ∑ i ∈ range H.m, ∑ j ∈ range W.m, if H.Hits i u a ∧ W.Hits j v b then F i j else 0 := by
  unfold window
  have e : (fun p => padded W.back.l W.back.n (fun q => if H.s ∣ p ∧ W.s ∣ q then F (p / H.s) (q / W.s) else 0)
        (W.back.pos b (W.k - 1 - v))) =
      fun p => if H.s ∣ p then ∑ j ∈ range W.m, (if W.Hits j v b then F (p / H.s) j else 0) else 0 := by
    funext p
    by_cases c : H.s ∣ p
    · simp only [c, true_and, if_true]
      exact padded_spread hW lW (F (p / H.s)) hb hv
    · simp only [c, false_and, if_false]
      unfold padded
      simp
  rw [e, padded_spread hH lH (fun i => ∑ j ∈ range W.m, if W.Hits j v b then F i j else 0) ha hu]
  refine sum_congr rfl fun i _ => ?_
  by_cases c : H.Hits i u a
  · simp [c]
  · simp [c]

/-- C139 (image): the image gradient is the convolution, with stride 1 and the same rate, of the gradient with zeros
inserted between its pixels (`stride - 1` of them) and the filter turned by 180 degrees, channels in and out exchanged,
with what is missing to the full extent of the filter as padding. -/
theorem C139_image [Semiring R] {H W : Axis} (hH : AxisOK u32 H) (hW : AxisOK u32 W) (nH : 1 ≤ H.n) (nW : 1 ≤ W.n)
    (pH : H.l ≤ (H.k - 1) * H.r ∧ H.q ≤ (H.k - 1) * H.r) (pW : W.l ≤ (W.k - 1) * W.r ∧ W.q ≤ (W.k - 1) * W.r)
    (bH : u32.In ((H.n + (H.k - 1) * H.r : Nat) : Int)) (bW : u32.In ((W.n + (W.k - 1) * W.r : Nat) : Int)) {n c d : Nat}
    (hsz : [(H.m - 1) * H.s + 1, (W.m - 1) * W.s + 1, d].prod ≤ 2 ^ 31) (G Y : Nat → Nat → Nat → Nat → R)
    (junkI : Nat → Int) (junk junk' : Nat → R) {gx z : List R} (hgx : gx.length = [n, H.n, W.n, c].prod)
    (hz : z.length = [n, H.n, W.n, c].prod) :
    Kernels.convGradX (convTrait H W) junk [n, H.n, W.n, c] (tab [n, H.m, W.m, d] (fn4 G)) (tab [H.k, W.k, c, d] (fn4 Y)) gx =
      Kernels.convNhwc (ConvTrait.make (⟨((H.k - 1) * H.r - H.l : Nat), ((H.k - 1) * H.r - H.q : Nat)⟩,
          ⟨((W.k - 1) * W.r - W.l : Nat), ((W.k - 1) * W.r - W.q : Nat)⟩) (1, 1) (H.r, W.r)) junkI junk' [n, H.n, W.n, c]
        (tab [n, (H.m - 1) * H.s + 1, (W.m - 1) * W.s + 1, d]
          (fn4 fun e p q o => if H.s ∣ p ∧ W.s ∣ q then G e (p / H.s) (q / W.s) o else 0))
        (tab [H.k, W.k, d, c] (fn4 fun u v o k => Y (H.k - 1 - u) (W.k - 1 - v) k o)) z := by
  rw [Kernels.convGradX_run hH hW G Y junk hgx]
  refine Eq.trans ?_ (Kernels.convNhwc_run (hH.back (by decide) nH pH.1 pH.2 bH) (hW.back (by decide) nW pW.1 pW.2 bW) hsz
    (fun e p q o => if H.s ∣ p ∧ W.s ∣ q then G e (p / H.s) (q / W.s) o else 0)
    (fun u v o k => Y (H.k - 1 - u) (W.k - 1 - v) k o) junkI junk' hz).symm
  refine congrArg (fun t => Outcome.ok (Tensor.data t)) (tab_congr fun idx hv => ?_)
  match idx, hv with
  | [e, a, b, k], hv =>
    obtain ⟨-, ha, hb, -⟩ := hv
    simp only [fn4_apply]
    unfold conv2 Kernels.scatter
    show _ = ∑ u ∈ range H.k, ∑ v ∈ range W.k, _
    rw [← sum_range_reflect (n := H.k)]
    rw [sum_congr rfl fun u _ => (sum_range_reflect (n := W.k) _).symm]
    have key : ∀ u ∈ range H.k, ∀ v ∈ range W.k,
        ∑ o ∈ range d, window H.back W.back
            (fun p q => if H.s ∣ p ∧ W.s ∣ q then G e (p / H.s) (q / W.s) o else 0) a b (H.k - 1 - u) (W.k - 1 - v) *
            Y (H.k - 1 - (H.k - 1 - u)) (W.k - 1 - (W.k - 1 - v)) k o =
          ∑ i ∈ range H.m, ∑ j ∈ range W.m,
            if H.Hits i u a ∧ W.Hits j v b then ∑ o ∈ range d, G e i j o * Y u v k o else 0 := by
      intro u hu v hv
      have hu := mem_range.1 hu
      have hv := mem_range.1 hv
      have e1 : H.k - 1 - (H.k - 1 - u) = u := by omega
      have e2 : W.k - 1 - (W.k - 1 - v) = v := by omega
      have e3 : ∀ o, window H.back W.back
            (fun p q => if H.s ∣ p ∧ W.s ∣ q then G e (p / H.s) (q / W.s) o else 0) a b (H.k - 1 - u) (W.k - 1 - v) = _ :=
        fun o => window_spread hH hW pH.1 pW.1 (fun i j => G e i j o) ha hb hu hv
      simp only [e1, e2, e3, sum_mul]
      rw [sum_comm]
      refine sum_congr rfl fun i _ => ?_
      rw [sum_comm]
      refine sum_congr rfl fun j _ => ?_
      split
      · rfl
      · simp
    rw [sum_congr rfl fun u hu => sum_congr rfl fun v hv => key u hu v hv]
    have r1 : ∀ F : Nat → Nat → Nat → Nat → R, ∑ i ∈ range H.m, ∑ j ∈ range W.m, ∑ u ∈ range H.k, ∑ v ∈ range W.k, F i j u v =
        ∑ u ∈ range H.k, ∑ v ∈ range W.k, ∑ i ∈ range H.m, ∑ j ∈ range W.m, F i j u v := by
      intro F
      have a1 : ∀ i, ∑ j ∈ range W.m, ∑ u ∈ range H.k, ∑ v ∈ range W.k, F i j u v =
          ∑ u ∈ range H.k, ∑ v ∈ range W.k, ∑ j ∈ range W.m, F i j u v := fun i => by
        rw [sum_comm]
        exact sum_congr rfl fun u _ => sum_comm
      simp only [a1]
      rw [sum_comm]
      exact sum_congr rfl fun u _ => sum_comm
    exact r1 _

/-- C139 (image, stride 1): no zeros are inserted. -/
theorem C139_image_stride_one [Semiring R] {H W : Axis} (hH : AxisOK u32 H) (hW : AxisOK u32 W) (nH : 1 ≤ H.n) (nW : 1 ≤ W.n)
    (sH : H.s = 1) (sW : W.s = 1)
    (pH : H.l ≤ (H.k - 1) * H.r ∧ H.q ≤ (H.k - 1) * H.r) (pW : W.l ≤ (W.k - 1) * W.r ∧ W.q ≤ (W.k - 1) * W.r)
    (bH : u32.In ((H.n + (H.k - 1) * H.r : Nat) : Int)) (bW : u32.In ((W.n + (W.k - 1) * W.r : Nat) : Int)) {n c d : Nat}
    (hsz : [H.m, W.m, d].prod ≤ 2 ^ 31) (G Y : Nat → Nat → Nat → Nat → R)
    (junkI : Nat → Int) (junk junk' : Nat → R) {gx z : List R} (hgx : gx.length = [n, H.n, W.n, c].prod)
    (hz : z.length = [n, H.n, W.n, c].prod) :
    Kernels.convGradX (convTrait H W) junk [n, H.n, W.n, c] (tab [n, H.m, W.m, d] (fn4 G)) (tab [H.k, W.k, c, d] (fn4 Y)) gx =
      Kernels.convNhwc (ConvTrait.make (⟨((H.k - 1) * H.r - H.l : Nat), ((H.k - 1) * H.r - H.q : Nat)⟩,
          ⟨((W.k - 1) * W.r - W.l : Nat), ((W.k - 1) * W.r - W.q : Nat)⟩) (1, 1) (H.r, W.r)) junkI junk' [n, H.n, W.n, c]
        (tab [n, H.m, W.m, d] (fn4 G)) (tab [H.k, W.k, d, c] (fn4 fun u v o k => Y (H.k - 1 - u) (W.k - 1 - v) k o)) z := by
  obtain ⟨mH, -⟩ := hH.covers
  obtain ⟨mW, -⟩ := hW.covers
  have eH : (H.m - 1) * H.s + 1 = H.m := by rw [sH]; omega
  have eW : (W.m - 1) * W.s + 1 = W.m := by rw [sW]; omega
  have h := C139_image hH hW nH nW pH pW bH bW (n := n) (c := c) (d := d) (by rw [eH, eW]; exact hsz) G Y junkI junk junk' hgx hz
  rw [eH, eW] at h
  rw [h, sH, sW]
  simp

/-- Non-vacuity: an axis with stride 2, rate 2 and padding, and the images of C45. -/
def exBack : Axis := ⟨3, 2, 2, 1, 2, 8, 4⟩
theorem exBack_ok : AxisOK u32 exBack := by
  refine ⟨⟨?_, ?_, ?_, ?_, ?_, ?_, ?_, ?_, ?_, ?_, ?_, ?_, ?_, ?_⟩, ?_⟩ <;> decide

example := C139_filter (R := Int) exBack_ok exW_ok (n := 2) (c := 3) (d := 2) (by decide) (fun e i j o => (e : Int) - i + j * o)
  (fun e a b k => (e : Int) * a - b + k) (fun _ => 5) (fun _ => 6) (fun _ => 7) (gy := List.replicate 36 9) (z := List.replicate 36 9)
  rfl rfl
example := C139_image (R := Int) exBack_ok exBack_ok (by decide) (by decide) (by decide) (by decide) (by decide) (by decide) (n := 1) (c := 3)
  (d := 2) (by decide) (fun e i j o => (e : Int) - i + j * o) (fun u v k o => (u : Int) * v - o + k) (fun _ => 5) (fun _ => 6)
  (fun _ => 7) (gx := List.replicate 192 9) (z := List.replicate 192 9) (List.length_replicate ..) (List.length_replicate ..)

/-- Non-vacuity for stride 1: a filter of three taps at rate 2, a padding of one cell. -/
def exBack1 : Axis := ⟨3, 1, 2, 1, 2, 4, 3⟩
theorem exBack1_ok : AxisOK u32 exBack1 := by
  refine ⟨⟨?_, ?_, ?_, ?_, ?_, ?_, ?_, ?_, ?_, ?_, ?_, ?_, ?_, ?_⟩, ?_⟩ <;> decide

example := C139_image_stride_one (R := Int) exBack1_ok exBack1_ok (by decide) (by decide) rfl rfl (by decide) (by decide) (by decide)
  (by decide) (n := 1) (c := 2) (d := 2) (by decide) (fun e i j o => (e : Int) - i + j * o) (fun u v k o => (u : Int) * v - o + k)
  (fun _ => 5) (fun _ => 6) (fun _ => 7) (gx := List.replicate 32 9) (z := List.replicate 32 9) (List.length_replicate ..)
  (List.length_replicate ..)

end StdNN
