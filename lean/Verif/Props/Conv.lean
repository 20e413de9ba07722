import Verif.Lemmas.Elementwise
import Verif.Props.Im2col
/-!
# C31-C35, C45, C46: convolutions and their gradients
-/
namespace StdNN
open IntTy Spec Outcome Finset
variable {R : Type}

/-- C31: the `nhwc`/`rscd` convolution computes the cross-correlation `conv2` (Spec/Conv.lean) of every image with the
filter, for every accepted geometry, whatever the output and the scratch tensors held before; image size up to 2^31
elements (the index map of C27 has `int` entries). -/
theorem C31_conv_nhwc [Semiring R] {H W : Axis} (hH : AxisOK u32 H) (hW : AxisOK u32 W) {n c d : Nat}
    (hsz : [H.n, W.n, c].prod ≤ 2 ^ 31) (X Y : Nat → Nat → Nat → Nat → R) (junkI : Nat → Int) (junk : Nat → R)
    {z : List R} (hz : z.length = [n, H.m, W.m, d].prod) :
    Kernels.convNhwc (convTrait H W) junkI junk [n, H.m, W.m, d] (tab [n, H.n, W.n, c] (fn4 X))
        (tab [H.k, W.k, c, d] (fn4 Y)) z =
      .ok (tab [n, H.m, W.m, d] (fn4 fun b i j e => conv2 H W c (X b) Y i j e)).data :=
  Kernels.convNhwc_run hH hW hsz X Y junkI junk hz

/-- C32: the `nchw`/`dcrs` convolution. -/
theorem C32_conv_nchw [CommSemiring R] {H W : Axis} (hH : AxisOK u32 H) (hW : AxisOK u32 W) {n c d : Nat}
    (X Y : Nat → Nat → Nat → Nat → R) (junk : Nat → R) {z : List R} (hz : z.length = [n, d, H.m, W.m].prod) :
    Kernels.convNchw (convTrait H W) junk [n, d, H.m, W.m] (tab [n, c, H.n, W.n] (fn4 X))
        (tab [d, c, H.k, W.k] (fn4 Y)) z =
      .ok (tab [n, d, H.m, W.m] (fn4 fun b e i j =>
        conv2 H W c (fun a a' k => X b k a a') (fun u v k e => Y e k u v) i j e)).data :=
  Kernels.convNchw_run hH hW X Y junk hz

/-- Non-vacuity of C31 and C32: a padded, strided, dilated convolution of one 3 × 5 image. The value at output pixel
(0, 0) is the single product of the only tap that is not padding, the one at (2, 1) sums four products. -/
example : AxisOK u32 exH ∧ AxisOK u32 exW ∧ [exH.n, exW.n, 1].prod ≤ 2 ^ 31 ∧
    conv2 exH exW 1 (fun a b _ => (10 * a + b : Int)) (fun u v _ _ => (2 * u + v + 1 : Int)) 0 0 0 = 4 ∧
    conv2 exH exW 1 (fun a b _ => (10 * a + b : Int)) (fun u v _ _ => (2 * u + v + 1 : Int)) 2 1 0 =
      11 * 1 + 13 * 2 + 21 * 3 + 23 * 4 := by
  refine ⟨exH_ok, exW_ok, ?_, ?_, ?_⟩ <;> decide

/-! ## C33 -/

/-- C33: convolving in `nhwc` and transposing the result equals transposing the image and convolving it in `nchw` with the
permuted filter. -/
theorem C33_layouts_agree [CommSemiring R] {H W : Axis} (hH : AxisOK u32 H) (hW : AxisOK u32 W) {n c d : Nat}
    (hsz : [H.n, W.n, c].prod ≤ 2 ^ 31) (X Y : Nat → Nat → Nat → Nat → R) (junkI : Nat → Int) (junk junk' : Nat → R)
    {b1 b2 b3 b4 : List R} (h1 : b1.length = [n, H.m, W.m, d].prod) (h2 : b2.length = [n, d, H.m, W.m].prod)
    (h3 : b3.length = [n, c, H.n, W.n].prod) (h4 : b4.length = [n, d, H.m, W.m].prod) :
    (do let z ← Kernels.convNhwc (convTrait H W) junkI junk [n, H.m, W.m, d] (tab [n, H.n, W.n, c] (fn4 X))
          (tab [H.k, W.k, c, d] (fn4 Y)) b1
        Kernels.toFirst id [n, d, H.m, W.m] ⟨[n, H.m, W.m, d], z⟩ b2) =
      (do let x' ← Kernels.toFirst id [n, c, H.n, W.n] (tab [n, H.n, W.n, c] (fn4 X)) b3
          Kernels.convNchw (convTrait H W) junk' [n, d, H.m, W.m] ⟨[n, c, H.n, W.n], x'⟩
            (tab [d, c, H.k, W.k] (fn4 fun e k u v => Y u v k e)) b4) := by
  rw [Kernels.convNhwc_run hH hW hsz X Y junkI junk h1, Outcome.ok_bind, Kernels.toFirst_run id X h3,
    Outcome.ok_bind]
  refine (Kernels.toFirst_run id (fun b i j e => conv2 H W c (X b) Y i j e) h2).trans ?_
  exact (Kernels.convNchw_run hH hW (fun l k i j => id (X l i j k)) (fun e k u v => Y u v k e) junk' h4).symm

/-- Non-vacuity: the hypotheses of C33 with the example axes and 2 channels. -/
example : AxisOK u32 exH ∧ AxisOK u32 exW ∧ [exH.n, exW.n, 2].prod ≤ 2 ^ 31 ∧
    (List.replicate 36 (0 : Int)).length = [2, exH.m, exW.m, 2].prod := by
  refine ⟨exH_ok, exW_ok, ?_, ?_⟩ <;> decide

/-! ## C34 -/
section bilinear
variable [CommSemiring R]

theorem window_linear (H W : Axis) (X X' : Nat → Nat → R) (a : R) (i j u v : Nat) :
    window H W (fun p q => X p q + a * X' p q) i j u v = window H W X i j u v + a * window H W X' i j u v := by
  unfold window padded
  split
  · split <;> simp
  · simp

theorem conv2_linear_left (H W : Axis) (c : Nat) (X X' : Nat → Nat → Nat → R) (a : R)
    (Y : Nat → Nat → Nat → Nat → R) (i j d : Nat) :
    conv2 H W c (fun p q k => X p q k + a * X' p q k) Y i j d =
      conv2 H W c X Y i j d + a * conv2 H W c X' Y i j d := by
  simp only [conv2, mul_sum, ← sum_add_distrib]
  refine sum_congr rfl fun u _ => sum_congr rfl fun v _ => sum_congr rfl fun k _ => ?_
  rw [window_linear]
  ring

theorem conv2_linear_right (H W : Axis) (c : Nat) (X : Nat → Nat → Nat → R) (a : R)
    (Y Y' : Nat → Nat → Nat → Nat → R) (i j d : Nat) :
    conv2 H W c X (fun u v k e => Y u v k e + a * Y' u v k e) i j d =
      conv2 H W c X Y i j d + a * conv2 H W c X Y' i j d := by
  simp only [conv2, mul_sum, ← sum_add_distrib]
  refine sum_congr rfl fun u _ => sum_congr rfl fun v _ => sum_congr rfl fun k _ => ?_
  ring

theorem tab4_zip {a b c d : Nat} (f : R → R → R) (F G : Nat → Nat → Nat → Nat → R) :
    List.zipWith f (tab [a, b, c, d] (fn4 F)).data (tab [a, b, c, d] (fn4 G)).data =
      (tab [a, b, c, d] (fn4 fun i j k l => f (F i j k l) (G i j k l))).data := by
  rw [zipWith_tab]
  refine congrArg Tensor.data (tab_congr fun idx hv => ?_)
  match idx, hv with
  | [i, j, k, l], _ => rfl

/-- C34 (`nhwc`): linear in the image. -/
theorem C34_linear_image {H W : Axis} (hH : AxisOK u32 H) (hW : AxisOK u32 W) {n c d : Nat}
    (hsz : [H.n, W.n, c].prod ≤ 2 ^ 31) (X X' Y : Nat → Nat → Nat → Nat → R) (a : R) (junkI : Nat → Int)
    (junk : Nat → R) {z : List R} (hz : z.length = [n, H.m, W.m, d].prod) :
    let conv := fun X => Kernels.convNhwc (convTrait H W) junkI junk [n, H.m, W.m, d] (tab [n, H.n, W.n, c] (fn4 X))
      (tab [H.k, W.k, c, d] (fn4 Y)) z
    ∃ z1 z2, conv X = .ok z1 ∧ conv X' = .ok z2 ∧
      conv (fun b p q k => X b p q k + a * X' b p q k) = .ok (List.zipWith (fun p q => p + a * q) z1 z2) := by
  intro conv
  refine ⟨_, _, Kernels.convNhwc_run hH hW hsz X Y junkI junk hz, Kernels.convNhwc_run hH hW hsz X' Y junkI junk hz, ?_⟩
  rw [tab4_zip]
  refine (Kernels.convNhwc_run hH hW hsz _ Y junkI junk hz).trans ?_
  simp only [conv2_linear_left]

/-- C34 (`nhwc`): linear in the filter. -/
theorem C34_linear_filter {H W : Axis} (hH : AxisOK u32 H) (hW : AxisOK u32 W) {n c d : Nat}
    (hsz : [H.n, W.n, c].prod ≤ 2 ^ 31) (X Y Y' : Nat → Nat → Nat → Nat → R) (a : R) (junkI : Nat → Int)
    (junk : Nat → R) {z : List R} (hz : z.length = [n, H.m, W.m, d].prod) :
    let conv := fun Y => Kernels.convNhwc (convTrait H W) junkI junk [n, H.m, W.m, d] (tab [n, H.n, W.n, c] (fn4 X))
      (tab [H.k, W.k, c, d] (fn4 Y)) z
    ∃ z1 z2, conv Y = .ok z1 ∧ conv Y' = .ok z2 ∧
      conv (fun u v k e => Y u v k e + a * Y' u v k e) = .ok (List.zipWith (fun p q => p + a * q) z1 z2) := by
  intro conv
  refine ⟨_, _, Kernels.convNhwc_run hH hW hsz X Y junkI junk hz, Kernels.convNhwc_run hH hW hsz X Y' junkI junk hz, ?_⟩
  rw [tab4_zip]
  refine (Kernels.convNhwc_run hH hW hsz X _ junkI junk hz).trans ?_
  simp only [conv2_linear_right]

/-- C34 (`nchw`): linear in the image and in the filter. -/
theorem C34_linear_nchw {H W : Axis} (hH : AxisOK u32 H) (hW : AxisOK u32 W) {n c d : Nat}
    (X X' Y Y' : Nat → Nat → Nat → Nat → R) (a : R) (junk : Nat → R) {z : List R}
    (hz : z.length = [n, d, H.m, W.m].prod) :
    let conv := fun X Y => Kernels.convNchw (convTrait H W) junk [n, d, H.m, W.m] (tab [n, c, H.n, W.n] (fn4 X))
      (tab [d, c, H.k, W.k] (fn4 Y)) z
    ∃ z1 z2 z3, conv X Y = .ok z1 ∧ conv X' Y = .ok z2 ∧ conv X Y' = .ok z3 ∧
      conv (fun b k p q => X b k p q + a * X' b k p q) Y = .ok (List.zipWith (fun p q => p + a * q) z1 z2) ∧
      conv X (fun e k u v => Y e k u v + a * Y' e k u v) = .ok (List.zipWith (fun p q => p + a * q) z1 z3) := by
  intro conv
  refine ⟨_, _, _, Kernels.convNchw_run hH hW X Y junk hz, Kernels.convNchw_run hH hW X' Y junk hz,
    Kernels.convNchw_run hH hW X Y' junk hz, ?_, ?_⟩
  · rw [tab4_zip]
    refine (Kernels.convNchw_run hH hW _ Y junk hz).trans ?_
    simp only [conv2_linear_left]
  · rw [tab4_zip]
    refine (Kernels.convNchw_run hH hW X _ junk hz).trans ?_
    simp only [conv2_linear_right]

omit [CommSemiring R] in
theorem tab_single {ds : List Nat} (f : List Nat → R) : (tab (1 :: ds) f).data = (tab ds fun idx => f (0 :: idx)).data := by
  rw [← tab_sub f (by decide : 0 < 1)]
  simp [Tensor.sub]

/-- C34 (both layouts): image `b` of the result is the convolution of image `b` alone. -/
theorem C34_batch {H W : Axis} (hH : AxisOK u32 H) (hW : AxisOK u32 W) {n c d : Nat}
    (hsz : [H.n, W.n, c].prod ≤ 2 ^ 31) (X Y : Nat → Nat → Nat → Nat → R) (junkI : Nat → Int) (junk : Nat → R)
    {z z1 zf zf1 : List R} (hz : z.length = [n, H.m, W.m, d].prod) (hz1 : z1.length = [1, H.m, W.m, d].prod)
    (hf : zf.length = [n, d, H.m, W.m].prod) (hf1 : zf1.length = [1, d, H.m, W.m].prod) {b : Nat} (hb : b < n) :
    (∃ r, Kernels.convNhwc (convTrait H W) junkI junk [n, H.m, W.m, d] (tab [n, H.n, W.n, c] (fn4 X))
          (tab [H.k, W.k, c, d] (fn4 Y)) z = .ok r ∧
      Kernels.convNhwc (convTrait H W) junkI junk [1, H.m, W.m, d] (tab [1, H.n, W.n, c] (fn4 fun _ => X b))
          (tab [H.k, W.k, c, d] (fn4 Y)) z1 = .ok ((r.drop (b * [H.m, W.m, d].prod)).take [H.m, W.m, d].prod)) ∧
    (∃ r, Kernels.convNchw (convTrait H W) junk [n, d, H.m, W.m] (tab [n, c, H.n, W.n] (fn4 X))
          (tab [d, c, H.k, W.k] (fn4 Y)) zf = .ok r ∧
      Kernels.convNchw (convTrait H W) junk [1, d, H.m, W.m] (tab [1, c, H.n, W.n] (fn4 fun _ => X b))
          (tab [d, c, H.k, W.k] (fn4 Y)) zf1 =
            .ok ((r.drop (b * [d, H.m, W.m].prod)).take [d, H.m, W.m].prod)) := by
  refine ⟨⟨_, Kernels.convNhwc_run hH hW hsz X Y junkI junk hz, ?_⟩,
    ⟨_, Kernels.convNchw_run hH hW X Y junk hf, ?_⟩⟩
  · refine (Kernels.convNhwc_run hH hW hsz _ Y junkI junk hz1).trans ?_
    have := congrArg Tensor.data (tab_sub (d := n) (ds := [H.m, W.m, d])
      (fn4 fun b i j e => conv2 H W c (X b) Y i j e) hb)
    rw [tab_single]
    exact congrArg Outcome.ok this.symm
  · refine (Kernels.convNchw_run hH hW _ Y junk hf1).trans ?_
    have := congrArg Tensor.data (tab_sub (d := n) (ds := [d, H.m, W.m])
      (fn4 fun b e i j => conv2 H W c (fun a a' k => X b k a a') (fun u v k e => Y e k u v) i j e) hb)
    rw [tab_single]
    exact congrArg Outcome.ok this.symm

end bilinear

/-- Non-vacuity: two images of 3 × 5 pixels, one channel in, one out. -/
example : AxisOK u32 exH ∧ AxisOK u32 exW ∧ [exH.n, exW.n, 1].prod ≤ 2 ^ 31 ∧ 1 < 2 ∧
    (List.replicate 18 (0 : Int)).length = [2, exH.m, exW.m, 1].prod ∧
    (List.replicate 9 (0 : Int)).length = [1, exH.m, exW.m, 1].prod := by
  refine ⟨exH_ok, exW_ok, ?_, ?_, ?_, ?_⟩ <;> decide

/-! ## C35 -/

/-- C35: the one-dimensional convolution over a semiring. -/
theorem C35_conv1d [Semiring R] {a : Axis} (h : AxisOK i32 a) (X Y : Nat → R) {z : List R} (hz : z.length = a.m) :
    (conv1dTrait a).run [a.m] (tab [a.n] (fn1 X)) (tab [a.k] (fn1 Y)) z =
      .ok (tab [a.m] (fn1 fun j => ∑ u ∈ range a.k, Y u * padded a.l a.n X (a.pos j u))).data := conv1d_run h X Y hz

/-- C35, bit for bit: with no law assumed of `+` and `*` the accumulator starts at 0 and the taps inside the input are
added in increasing order; the taps in the padding are skipped, not added as zeros. -/
theorem C35_order [Zero R] [Add R] [Mul R] {a : Axis} (h : AxisOK i32 a) (X Y : Nat → R) {z : List R}
    (hz : z.length = a.m) :
    (conv1dTrait a).run [a.m] (tab [a.n] (fn1 X)) (tab [a.k] (fn1 Y)) z =
      .ok (tab [a.m] (fn1 fun j =>
        ((List.range a.k).filter fun u => a.l ≤ j * a.s + u * a.r ∧ j * a.s + u * a.r < a.l + a.n).foldl
          (fun acc u => acc + Y u * X (j * a.s + u * a.r - a.l)) 0)).data := by
  have f := h.fits
  have k1 := f.k1; have s1 := f.s1; have r1 := f.r1
  unfold Conv1d.run
  simp only [tab_dims]
  rw [conv_eq i32_std f.hk]
  unfold conv1dTrait
  rw [Filter.make_ok f.hN f.hk f.hs f.hr (by omega) (by omega) (by omega), Outcome.ok_bind]
  rw [← Plain.run_store1 hz]
  refine forRange_congr (fun j hj s => ?_) z
  have key : ∀ n, n ≤ a.k → ∀ G : Nat → R → Outcome R,
      (∀ u < a.k, ∀ x, G u x = .ok (if a.l ≤ j * a.s + u * a.r ∧ j * a.s + u * a.r < a.l + a.n then
        x + Y u * X (j * a.s + u * a.r - a.l) else x)) →
      forRange n G 0 = .ok (((List.range n).filter fun u => a.l ≤ j * a.s + u * a.r ∧
        j * a.s + u * a.r < a.l + a.n).foldl (fun acc u => acc + Y u * X (j * a.s + u * a.r - a.l)) 0) := by
    intro n hn G hG
    induction n with
    | zero => rfl
    | succ n ih =>
      rw [forRange_succ, ih (by omega), Outcome.ok_bind, hG n (by omega), List.range_succ, List.filter_append,
        List.foldl_append]
      by_cases c : a.l ≤ j * a.s + n * a.r ∧ j * a.s + n * a.r < a.l + a.n
      · rw [if_pos c, List.filter_cons_of_pos (by simpa using c)]; rfl
      · rw [if_neg c, List.filter_cons_of_neg (by simpa using c)]; rfl
  rw [key a.k le_rfl]
  · simp
  · intro u hu x
    obtain ⟨t1, -, t3, t4⟩ := C02_taps f.i32_u32 f.padded h.covers hj hu
    rw [t1]
    simp only [Outcome.ok_bind, t3, decide_eq_true_eq]
    by_cases c : a.l ≤ j * a.s + u * a.r ∧ j * a.s + u * a.r < a.l + a.n
    · have hi : j * a.s + u * a.r - a.l < a.n := by omega
      have he : j * a.s + u * a.r = a.l + (j * a.s + u * a.r - a.l) := by omega
      rw [if_pos ⟨_, hi, he⟩, if_pos c, t4 _ hi he]
      have e1 := tab_getElem? (fn1 Y) (v1 hu)
      have e2 := tab_getElem? (fn1 X) (v1 hi)
      simp only [offset_cons, List.prod_nil, Nat.mul_one, offset_nil, Nat.add_zero] at e1 e2
      simp [rd, e1, e2]
    · rw [if_neg c, if_neg]
      · rfl
      · rintro ⟨i, hi, he⟩
        omega

/-- C35: it is the matrix-vector product of the columns of `x` with the filter. -/
theorem C35_conv1d_im2col [CommSemiring R] {a : Axis} (h : AxisOK i32 a) (X Y : Nat → R) {z z' cols : List R}
    (hz : z.length = a.m) (hz' : z'.length = a.m) (hc : cols.length = a.m * a.k) :
    (do let y ← Ops.im2col1d a.sample [a.m, a.k] (tab [a.n] (fn1 X)) cols
        Plain.mv ⟨[a.m, a.k], y⟩ (tab [a.k] (fn1 Y)) [a.m] z') =
      (conv1dTrait a).run [a.m] (tab [a.n] (fn1 X)) (tab [a.k] (fn1 Y)) z := by
  rw [im2col1d_run h X hc, Outcome.ok_bind, conv1d_run h X Y hz]
  refine (Plain.mv_run (fn2 fun j u => padded a.l a.n X (a.pos j u)) (fn1 Y) hz').trans ?_
  refine congrArg (fun t => Outcome.ok (Tensor.data t)) (tab_congr fun idx hv => ?_)
  match idx, hv with
  | [j], _ =>
    simp only [fn1_apply, fn2_apply, seqSum_eq_sum, conv1]
    exact sum_congr rfl fun u _ => mul_comm _ _

/-- C35: the shape function accepts exactly the axes that the windows cover, with their number of windows. -/
theorem C35_shape {a : Axis} (h : AxisOK i32 a) : (conv1dTrait a).shape [a.n] [a.k] = .ok [a.m] := by
  have f := h.fits
  have k1 := f.k1; have s1 := f.s1; have r1 := f.r1
  have := (C01_output_length f.i32_u32 a.m).2 h.covers
  unfold sampleCall at this
  rw [Filter.make_ok f.hN f.hk f.hs f.hr (by omega) (by omega) (by omega), Outcome.ok_bind] at this
  unfold Conv1d.shape conv1dTrait
  simp only
  rw [conv_eq i32_std f.hk, Filter.make_ok f.hN f.hk f.hs f.hr (by omega) (by omega) (by omega), Outcome.ok_bind,
    this]
  rfl

/-- Non-vacuity: kernel 2, stride 2, rate 2, padding (1, 1) on 5 cells: windows (0, x1), (x1, x3), (x3, 0). -/
example : AxisOK i32 exW ∧
    (conv1dTrait exW).run [3] ⟨[5], [(1 : Int), 2, 3, 4, 5]⟩ ⟨[2], [10, 100]⟩ [7, 7, 7] = .ok [200, 420, 40] :=
  ⟨exW_ok32, by decide⟩

/-! ## C45, C46 -/
section gradients
variable [CommSemiring R]

theorem sum_unravel4 (a b c d : Nat) (F : List Nat → R) :
    ∑ p ∈ range [a, b, c, d].prod, F (unravel [a, b, c, d] p) =
      ∑ i ∈ range a, ∑ j ∈ range b, ∑ k ∈ range c, ∑ l ∈ range d, F [i, j, k, l] := by
  rw [sum_unravel_cons]
  exact sum_congr rfl fun i _ => sum_unravel3 b c d (fun l => F (i :: l))

theorem dot_tab4 (a b c d : Nat) (F G : Nat → Nat → Nat → Nat → R) :
    dot (tab [a, b, c, d] (fn4 F)).data (tab [a, b, c, d] (fn4 G)).data =
      ∑ i ∈ range a, ∑ j ∈ range b, ∑ k ∈ range c, ∑ l ∈ range d, F i j k l * G i j k l := by
  rw [dot_tab, sum_unravel4 _ _ _ _ (fun l => fn4 F l * fn4 G l)]
  rfl

/-- Reverse the outermost and innermost of four sums. -/
theorem sum4_swap {α β γ δ : Type} (s : Finset α) (t : Finset β) (p : Finset γ) (q : Finset δ) (F : α → β → γ → δ → R) :
    ∑ a ∈ s, ∑ b ∈ t, ∑ c ∈ p, ∑ d ∈ q, F a b c d = ∑ d ∈ q, ∑ b ∈ t, ∑ c ∈ p, ∑ a ∈ s, F a b c d := by
  have e1 : ∀ a, ∑ b ∈ t, ∑ c ∈ p, ∑ d ∈ q, F a b c d = ∑ d ∈ q, ∑ b ∈ t, ∑ c ∈ p, F a b c d := by
    intro a
    have : ∀ b, ∑ c ∈ p, ∑ d ∈ q, F a b c d = ∑ d ∈ q, ∑ c ∈ p, F a b c d := fun b => sum_comm
    simp only [this]
    exact sum_comm
  have e2 : ∀ d, ∑ a ∈ s, ∑ b ∈ t, ∑ c ∈ p, F a b c d = ∑ b ∈ t, ∑ c ∈ p, ∑ a ∈ s, F a b c d := by
    intro d
    rw [sum_comm]
    exact sum_congr rfl fun b _ => sum_comm
  simp only [e1]
  rw [sum_comm]
  simp only [e2]

/-- Move the first of three sums to the end. -/
theorem sum3_rot {α β γ : Type} (s : Finset α) (t : Finset β) (p : Finset γ) (F : α → β → γ → R) :
    ∑ a ∈ s, ∑ b ∈ t, ∑ c ∈ p, F a b c = ∑ b ∈ t, ∑ c ∈ p, ∑ a ∈ s, F a b c := by
  rw [sum_comm]
  exact sum_congr rfl fun b _ => sum_comm

/-- C45: the image gradient of the `nhwc`/`rscd` convolution is the adjoint of the convolution in its image argument: for
every perturbation `DX`, `⟨gz, conv(DX, y)⟩ = ⟨gx, DX⟩`. -/
theorem C45_conv_grad_image {H W : Axis} (hH : AxisOK u32 H) (hW : AxisOK u32 W) {n c d : Nat}
    (hsz : [H.n, W.n, c].prod ≤ 2 ^ 31) (G Y : Nat → Nat → Nat → Nat → R) (junkI : Nat → Int) (junk junk' : Nat → R)
    {gx z : List R} (hgx : gx.length = [n, H.n, W.n, c].prod) (hz : z.length = [n, H.m, W.m, d].prod) :
    ∃ gx', Kernels.convGradX (convTrait H W) junk [n, H.n, W.n, c] (tab [n, H.m, W.m, d] (fn4 G))
        (tab [H.k, W.k, c, d] (fn4 Y)) gx = .ok gx' ∧ gx'.length = gx.length ∧
      ∀ DX : Nat → Nat → Nat → Nat → R, ∃ dz,
        Kernels.convNhwc (convTrait H W) junkI junk' [n, H.m, W.m, d] (tab [n, H.n, W.n, c] (fn4 DX))
          (tab [H.k, W.k, c, d] (fn4 Y)) z = .ok dz ∧
        dot (tab [n, H.m, W.m, d] (fn4 G)).data dz = dot gx' (tab [n, H.n, W.n, c] (fn4 DX)).data := by
  refine ⟨_, Kernels.convGradX_run hH hW G Y junk hgx, by rw [tab_length, hgx], fun DX =>
    ⟨_, Kernels.convNhwc_run hH hW hsz DX Y junkI junk' hz, ?_⟩⟩
  rw [dot_tab4, dot_tab4]
  refine sum_congr rfl fun e _ => ?_
  have lhs : ∀ i j, ∑ o ∈ range d, G e i j o * conv2 H W c (DX e) Y i j o =
      ∑ k ∈ range c, ∑ u ∈ range H.k, ∑ v ∈ range W.k,
        window H W (fun a b => DX e a b k) i j u v * ∑ o ∈ range d, G e i j o * Y u v k o := by
    intro i j
    simp only [conv2, mul_sum]
    rw [sum4_swap]
    refine sum_congr rfl fun k _ => sum_congr rfl fun u _ => sum_congr rfl fun v _ => sum_congr rfl fun o _ => ?_
    ring
  simp only [lhs]
  have l2 : ∀ F : Nat → Nat → Nat → R, ∑ i ∈ range H.m, ∑ j ∈ range W.m, ∑ k ∈ range c, F i j k =
      ∑ k ∈ range c, ∑ i ∈ range H.m, ∑ j ∈ range W.m, F i j k := by
    intro F
    exact (sum3_rot _ _ _ fun k i j => F i j k).symm
  have l3 : ∀ F : Nat → Nat → Nat → R, ∑ a ∈ range H.n, ∑ b ∈ range W.n, ∑ k ∈ range c, F a b k =
      ∑ k ∈ range c, ∑ a ∈ range H.n, ∑ b ∈ range W.n, F a b k := by
    intro F
    exact (sum3_rot _ _ _ fun k i j => F i j k).symm
  rw [l2, l3]
  refine sum_congr rfl fun k _ => ?_
  rw [adjoint_sum H W (fun a b => DX e a b k) (fun i j u v => ∑ o ∈ range d, G e i j o * Y u v k o)]
  exact sum_congr rfl fun a _ => sum_congr rfl fun b _ => mul_comm _ _

/-- C46: the filter gradient is the adjoint in the filter argument. -/
theorem C46_conv_grad_filter {H W : Axis} (hH : AxisOK u32 H) (hW : AxisOK u32 W) {n c d : Nat}
    (hsz : [H.n, W.n, c].prod ≤ 2 ^ 31) (G X : Nat → Nat → Nat → Nat → R) (junkI : Nat → Int) (junk junk' : Nat → R)
    {gy z : List R} (hgy : gy.length = [H.k, W.k, c, d].prod) (hz : z.length = [n, H.m, W.m, d].prod) :
    ∃ gy', Kernels.convGradY (convTrait H W) junk [H.k, W.k, c, d] (tab [n, H.m, W.m, d] (fn4 G))
        (tab [n, H.n, W.n, c] (fn4 X)) gy = .ok gy' ∧ gy'.length = gy.length ∧
      ∀ DY : Nat → Nat → Nat → Nat → R, ∃ dz,
        Kernels.convNhwc (convTrait H W) junkI junk' [n, H.m, W.m, d] (tab [n, H.n, W.n, c] (fn4 X))
          (tab [H.k, W.k, c, d] (fn4 DY)) z = .ok dz ∧
        dot (tab [n, H.m, W.m, d] (fn4 G)).data dz = dot gy' (tab [H.k, W.k, c, d] (fn4 DY)).data := by
  refine ⟨_, Kernels.convGradY_run hH hW G X junk hgy, by rw [tab_length, hgy], fun DY =>
    ⟨_, Kernels.convNhwc_run hH hW hsz X DY junkI junk' hz, ?_⟩⟩
  rw [dot_tab4, dot_tab4]
  simp only [conv2, sum_mul, mul_sum]
  -- left: e i j o u v k, right: u v k o e i j
  have r1 : ∀ u v k, ∑ o ∈ range d, ∑ e ∈ range n, ∑ i ∈ range H.m, ∑ j ∈ range W.m,
      window H W (fun a a' => X e a a' k) i j u v * G e i j o * DY u v k o =
      ∑ e ∈ range n, ∑ i ∈ range H.m, ∑ j ∈ range W.m, ∑ o ∈ range d,
        window H W (fun a a' => X e a a' k) i j u v * G e i j o * DY u v k o := by
    intro u v k
    rw [sum_comm]
    exact sum_congr rfl fun e _ => sum3_rot _ _ _ _
  simp only [r1]
  have r2 : ∀ F : Nat → Nat → Nat → Nat → Nat → Nat → Nat → R,
      ∑ u ∈ range H.k, ∑ v ∈ range W.k, ∑ k ∈ range c, ∑ e ∈ range n, ∑ i ∈ range H.m, ∑ j ∈ range W.m,
        ∑ o ∈ range d, F u v k e i j o =
      ∑ e ∈ range n, ∑ i ∈ range H.m, ∑ j ∈ range W.m, ∑ o ∈ range d, ∑ u ∈ range H.k, ∑ v ∈ range W.k,
        ∑ k ∈ range c, F u v k e i j o := by
    intro F
    have m1 : ∀ G : Nat → Nat → Nat → Nat → R, ∀ N : Nat,
        ∑ u ∈ range H.k, ∑ v ∈ range W.k, ∑ k ∈ range c, ∑ x ∈ range N, G u v k x =
        ∑ x ∈ range N, ∑ u ∈ range H.k, ∑ v ∈ range W.k, ∑ k ∈ range c, G u v k x := by
      intro G N
      have : ∀ u v, ∑ k ∈ range c, ∑ x ∈ range N, G u v k x = ∑ x ∈ range N, ∑ k ∈ range c, G u v k x :=
        fun u v => sum_comm
      simp only [this]
      exact (sum3_rot _ _ _ fun x u v => ∑ k ∈ range c, G u v k x).symm
    rw [m1]
    refine sum_congr rfl fun e _ => ?_
    rw [m1]
    refine sum_congr rfl fun i _ => ?_
    rw [m1]
    refine sum_congr rfl fun j _ => ?_
    rw [m1]
  rw [r2]
  refine sum_congr rfl fun e _ => sum_congr rfl fun i _ => sum_congr rfl fun j _ => sum_congr rfl fun o _ =>
    sum_congr rfl fun u _ => sum_congr rfl fun v _ => sum_congr rfl fun k _ => ?_
  ring

end gradients

/-- Non-vacuity of C45 and C46. -/
example : AxisOK u32 exH ∧ AxisOK u32 exW ∧ [exH.n, exW.n, 2].prod ≤ 2 ^ 31 ∧
    (List.replicate 60 (5 : Int)).length = [2, exH.n, exW.n, 2].prod ∧
    (List.replicate 54 (5 : Int)).length = [2, exH.m, exW.m, 3].prod ∧
    (List.replicate 24 (5 : Int)).length = [exH.k, exW.k, 2, 3].prod := by
  refine ⟨exH_ok, exW_ok, ?_, ?_, ?_, ?_⟩ <;> decide

/-! ## Concrete cases of the theorems above: images of 3 × 5 pixels, padded windows, stride 2 along the width -/

/-- Two images with two channels, or a filter. -/
def exI (a b c d : Nat) : Int := 100 * a + 20 * b + 3 * c - 7 * d

example := C31_conv_nhwc exH_ok exW_ok (n := 2) (c := 2) (d := 3) (by decide) exI exI (fun _ => 0) (fun _ => 5)
  (z := List.replicate 54 9) (by decide)
example := C32_conv_nchw exH_ok exW_ok (n := 2) (c := 2) (d := 3) exI exI (fun _ => 5)
  (z := List.replicate 54 9) (by decide)
example := C33_layouts_agree exH_ok exW_ok (n := 2) (c := 2) (d := 3) (by decide) exI exI (fun _ => 0) (fun _ => 5) (fun _ => 6)
  (b1 := List.replicate 54 9) (b2 := List.replicate 54 8) (b3 := List.replicate 60 7) (b4 := List.replicate 54 6)
  (by decide) (by decide) (by decide) (by decide)
example := C34_linear_image exH_ok exW_ok (n := 2) (c := 2) (d := 3) (by decide) exI (fun a b c d => exI d c b a) exI 11
  (fun _ => 0) (fun _ => 5) (z := List.replicate 54 9) (by decide)
example := C34_linear_filter exH_ok exW_ok (n := 2) (c := 2) (d := 3) (by decide) exI exI (fun a b c d => exI d c b a) 11
  (fun _ => 0) (fun _ => 5) (z := List.replicate 54 9) (by decide)
example := C34_linear_nchw exH_ok exW_ok (n := 2) (c := 2) (d := 3) exI (fun a b c d => exI d c b a) exI
  (fun a b c d => exI d c b a) 11 (fun _ => 5) (z := List.replicate 54 9) (by decide)
example := C34_batch exH_ok exW_ok (n := 2) (c := 2) (d := 3) (by decide) exI exI (fun _ => 0) (fun _ => 5)
  (z := List.replicate 54 9) (z1 := List.replicate 27 9) (zf := List.replicate 54 9) (zf1 := List.replicate 27 9)
  (by decide) (by decide) (by decide) (by decide) (b := 1) (by decide)
example := C35_conv1d exW_ok32 (fun i => (i : Int) + 1) (fun i => 10 ^ (i + 1)) (z := [7, 7, 7]) rfl
example := C35_order exW_ok32 (fun i => (i : Int) + 1) (fun i => 10 ^ (i + 1)) (z := [7, 7, 7]) rfl
example := C35_conv1d_im2col exW_ok32 (fun i => (i : Int) + 1) (fun i => 10 ^ (i + 1)) (z := [7, 7, 7]) (z' := [6, 6, 6])
  (cols := List.replicate 6 5) rfl rfl rfl
example : (conv1dTrait exW).shape [5] [2] = .ok [3] := C35_shape exW_ok32
example := C45_conv_grad_image exH_ok exW_ok (n := 2) (c := 2) (d := 3) (by decide) exI exI (fun _ => 0) (fun _ => 5) (fun _ => 6)
  (gx := List.replicate 60 9) (z := List.replicate 54 9) (by decide) (by decide)
example := C46_conv_grad_filter exH_ok exW_ok (n := 2) (c := 2) (d := 3) (by decide) exI exI (fun _ => 0) (fun _ => 5) (fun _ => 6)
  (gy := List.replicate 24 9) (z := List.replicate 54 9) (by decide) (by decide)

end StdNN
