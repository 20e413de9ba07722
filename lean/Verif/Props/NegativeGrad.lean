import Verif.Lemmas.GridGrad
import Verif.Props.NegativePadding
import Verif.Props.Conv
import Verif.Props.Shapes
import Verif.Props.Gradients
/-!
# C164: what negative paddings do to `col2im` and to the gradients of convolution

The shapes of `col2im` are those of the uncropped image. With a negative padding at the bottom or on the right the scattering
operators and the gradients are those of the cropped convolution; with one at the top or on the left they are zero. In all
cases they are the transposes of what `im2col` and `conv2d` compute.
-/
namespace StdNN
open IntTy Spec Outcome Finset
variable {R : Type}

/-! ## Shapes -/

theorem zorigin_run {a : ZAxis} (h : ZAxisOK a) : Ops.originSize a.m (a.sample u32) = .ok a.n := by
  obtain ⟨m1, e⟩ := h.covers
  have k1 := h.k1; have s1 := h.s1; have r1 := h.r1; have hk := h.hk; have hs := h.hs; have hr := h.hr
  have hn := h.hn; have hp := h.padded
  have hl := i32_In.1 h.hl; have hq := i32_In.1 h.hq
  have hin : ∀ {v : Int}, 0 ≤ v → v < 4294967296 → u32.In v := fun h0 h1 => ⟨by rw [u32_lo]; exact h0, by
    rw [u32_hi]; exact h1⟩
  have hm0 : (a.m - 1) * 1 ≤ (a.m - 1) * a.s := Nat.mul_le_mul_left _ s1
  generalize hy : (a.m - 1) * a.s = y at *
  generalize hx : (a.k - 1) * a.r = x at *
  have hx' : ((a.k : Int) - 1) * a.r = x := by
    have : ((a.k - 1 : Nat) : Int) = (a.k : Int) - 1 := by omega
    rw [← hx, Nat.cast_mul, this]
  have hy' : ((a.m : Int) - 1) * a.s = y := by
    have : ((a.m - 1 : Nat) : Int) = (a.m : Int) - 1 := by omega
    rw [← hy, Nat.cast_mul, this]
  have ps : Filter.patchSize u32 ⟨a.k, a.s, a.r⟩ = .ok (x + 1 : Int) := by
    rw [Filter.patchSize_ok u32_std (by omega) (by omega) (hin (by omega) (by omega)) (hin (by omega) (by omega))
      (by rw [hx']; exact hin (by omega) (by omega)), hx']
  have hc : common u32 i32 = u32 := by decide
  have ea : Padding.apply u32 i32 (Padding.ofInts u32 a.l a.q) 0 = .ok (i32.conv ((a.l + a.q) % 4294967296)) := by
    simp only [Padding.apply, Padding.ofInts, hc, IntTy.add, u32_conv, u32_arith, Outcome.ok_bind, Outcome.pure_eq]
    congr 2
    omega
  unfold Ops.originSize
  simp only [ZAxis.sample]
  rw [sub_eq u32_std (hin (by omega) (by omega)) (hin (by omega) (by omega)) (hin (by omega) (by omega)), Outcome.ok_bind,
    mul_eq u32_std (hin (by omega) (by omega)) (hin (by omega) (by omega)) (by rw [hy']; exact hin (by omega) (by omega)),
    Outcome.ok_bind, ps, Outcome.ok_bind, hy',
    add_eq u32_std (hin (by omega) (by omega)) (hin (by omega) (by omega)) (hin (by omega) (by omega)), Outcome.ok_bind, ea,
    Outcome.ok_bind]
  unfold IntTy.sub
  rw [u32_i32_conv (hin (by omega) (by omega)), u32_arith, u32_conv]
  congr 1
  omega

/-- C164 (shapes): `col2im` of the columns of an image has the shape of the image, whatever the signs of the paddings. -/
theorem C164_shape {H W : ZAxis} (hH : ZAxisOK H) (hW : ZAxisOK W) (c : Nat) :
    (do let s ← Ops.im2colHwrscShape [H.sample u32, W.sample u32] [H.n, W.n, c]
        Ops.col2imHwrscShape [H.sample u32, W.sample u32] s) = .ok [H.n, W.n, c] := by
  rw [(C158_shape hH hW 0 c 0).2.2.1, Outcome.ok_bind]
  have ks : Ops.ksizeU32 [H.sample u32, W.sample u32] = [H.k, W.k] := (zgrid_ok hH hW).ksize
  have hin : ∀ {v : Nat}, v < 2147483648 → u32.In (v : Int) := fun h1 => ⟨by rw [u32_lo]; omega, by rw [u32_hi]; omega⟩
  unfold Ops.col2imHwrscShape
  simp only
  rw [ks, contractAssert_pos rfl, Outcome.ok_bind, zorigin_run hH, Outcome.ok_bind, zorigin_run hW,
    Outcome.ok_bind, u32_i32_conv (hin hH.hn), u32_i32_conv (hin hW.hn)]
  simp

/-- C164 (shapes, one dimension). -/
theorem C164_shape_line {a : ZAxis} (h : ZLineOK a) :
    (do let s ← Ops.im2col1dShape (a.sample i32) [a.n]
        Ops.col2im1dShape (a.sample i32) s) = .ok [a.n] := by
  rw [(C158_shape_line h).1, Outcome.ok_bind, h.sample]
  obtain ⟨m1, e⟩ := h.covers
  have k1 := h.k1; have s1 := h.s1; have r1 := h.r1; have hk := h.hk; have hs := h.hs; have hr := h.hr
  have hn := h.hn; have hp := h.padded
  have hl := i32_In.1 h.hl; have hq := i32_In.1 h.hq
  have hin : ∀ {v : Int}, 0 ≤ v → v < 4294967296 → u32.In v := fun h0 h1 => ⟨by rw [u32_lo]; exact h0, by
    rw [u32_hi]; exact h1⟩
  have hii : ∀ {v : Int}, -2147483648 ≤ v → v < 2147483648 → i32.In v := fun h0 h1 => i32_In.2 ⟨h0, h1⟩
  have hm0 : (a.m - 1) * 1 ≤ (a.m - 1) * a.s := Nat.mul_le_mul_left _ s1
  generalize hy : (a.m - 1) * a.s = y at *
  generalize hx : (a.k - 1) * a.r = x at *
  have hx' : ((a.k : Int) - 1) * a.r = x := by
    have : ((a.k - 1 : Nat) : Int) = (a.k : Int) - 1 := by omega
    rw [← hx, Nat.cast_mul, this]
  have hy' : ((a.m : Int) - 1) * a.s = y := by
    have : ((a.m - 1 : Nat) : Int) = (a.m : Int) - 1 := by omega
    rw [← hy, Nat.cast_mul, this]
  have ps : Filter.patchSize i32 ⟨a.k, a.s, a.r⟩ = .ok (x + 1 : Int) := by
    rw [Filter.patchSize_ok i32_std (by omega) (by omega) (hii (by omega) (by omega)) (hii (by omega) (by omega))
      (by rw [hx']; exact hii (by omega) (by omega)), hx']
  have c1 : (common i32 i32) = i32 := common_self _
  have ap : Padding.apply i32 i32 ⟨a.l, a.q⟩ 0 = .ok (a.l + a.q) := by
    have hlq : i32.In (a.l + a.q) := hii (by omega) (by omega)
    simp only [Padding.apply, c1, add_eq i32_std h.hl (In.zero _) (by simpa using h.hl), Outcome.ok_bind, Int.add_zero,
      add_eq i32_std h.hl h.hq hlq, conv_eq i32_std hlq, Outcome.pure_eq]
  unfold Ops.col2im1dShape
  simp only
  rw [conv_eq u32_std (hin (by omega) (by omega)), contractAssert_pos rfl, Outcome.ok_bind,
    sub_eq u32_std (hin (by omega) (by omega)) (hin (by omega) (by omega)) (hin (by omega) (by omega)), Outcome.ok_bind,
    mul_eq u32_std (hin (by omega) (by omega)) (hin (by omega) (by omega)) (by rw [hy']; exact hin (by omega) (by omega)),
    Outcome.ok_bind, ps, Outcome.ok_bind, hy',
    add_eq u32_std (hin (by omega) (by omega)) (hin (by omega) (by omega)) (hin (by omega) (by omega)), Outcome.ok_bind, ap,
    Outcome.ok_bind, conv_eq i32_std (hii (by omega) (by omega)),
    sub_eq i32_std (hii (by omega) (by omega)) (hii (by omega) (by omega)) (hii (by omega) (by omega)), Outcome.ok_bind,
    Outcome.pure_eq, conv_eq u32_std (hin (by omega) (by omega))]
  exact congrArg (fun v => Outcome.ok [v]) (by omega)

/-! ## One dimension -/

/-- C164 (one dimension): `col2im1d` adds to every element the entries whose tap falls on it; cropped elements get nothing. -/
theorem C164_line [AddCommMonoid R] {a : ZAxis} (h : ZLineOK a) (X : Nat → Nat → R) {y : List R} (hy : y.length = a.n) :
    Ops.col2im1d (a.sample i32) [a.n] (tab [a.m, a.k] (fn2 X)) y =
      .ok (tab [a.n] (fn1 fun i => ∑ j ∈ range a.m, ∑ u ∈ range a.k, if a.elem j u = i then X j u else 0)).data := by
  rw [zcol2im1d_order h X (by simpa using hy)]
  refine congrArg (fun t => Outcome.ok (Tensor.data t)) (tab_congr fun idx hv => ?_)
  match idx, hv with
  | [i], hv =>
    simp only [fn1_apply, listSum, ztapsOn, foldl_flatMap, foldl_filterMap_ite]
    refine (Kernels.foldl_add_range (fun j hj r => Kernels.foldl_add_range
      (G := fun u => if a.elem j u = i then X j u else 0) (fun u hu r => ?_) r) 0).trans (zero_add _)
    split <;> simp

/-- C164 (one dimension): it is the transpose of `im2col1d`. -/
theorem C164_line_adjoint [CommSemiring R] {a : ZAxis} (h : ZLineOK a) (X : Nat → R) (Y : Nat → Nat → R) {cols im : List R}
    (hc : cols.length = a.m * a.k) (him : im.length = a.n) :
    ∃ cols' im', Ops.im2col1d (a.sample i32) [a.m, a.k] (tab [a.n] (fn1 X)) cols = .ok cols' ∧
      Ops.col2im1d (a.sample i32) [a.n] (tab [a.m, a.k] (fn2 Y)) im = .ok im' ∧
      dot cols' (tab [a.m, a.k] (fn2 Y)).data = dot (tab [a.n] (fn1 X)).data im' := by
  refine ⟨_, _, zim2col1d_run h X hc, C164_line h Y him, ?_⟩
  rw [dot_tab2, dot_tab1]
  have one : ∀ j u, cell a.n X (a.elem j u) * Y j u =
      ∑ i ∈ range a.n, X i * if a.elem j u = i then Y j u else 0 := by
    intro j u
    unfold cell
    split
    · next c =>
      rw [sum_eq_single_of_mem (a.elem j u).toNat (mem_range.2 (by omega))]
      · rw [if_pos (by omega)]
      · intro i _ hne
        rw [if_neg (by omega), mul_zero]
    · next c =>
      rw [zero_mul]
      refine (sum_eq_zero fun i hi => ?_).symm
      rw [if_neg (by have := mem_range.1 hi; omega), mul_zero]
  simp only [one, mul_sum]
  refine (sum_congr rfl fun j _ => sum_comm).trans sum_comm

/-! ## Two dimensions, paddings of any sign -/

theorem zgrid_scattered [AddCommMonoid R] {H W : ZAxis} (lH : 0 ≤ H.l) (lW : 0 ≤ W.l) (X : Nat → Nat → Nat → Nat → R)
    {a b : Nat} (ha : a < H.n) (hb : b < W.n) : (zgrid H W).scattered X a b = spread H W X a b := by
  unfold Grid.scattered spread
  refine sum_congr rfl fun i _ => sum_congr rfl fun j _ => sum_congr rfl fun u _ => sum_congr rfl fun v _ => ?_
  congr 1
  simp only [zgrid, zloc, lH, lW, true_and, eq_iff_iff]
  split
  · simp only [Option.some.injEq, Prod.mk.injEq]
    omega
  · simp only [reduceCtorEq, false_iff]
    omega

theorem zgrid_scattered_blank [AddCommMonoid R] {H W : ZAxis} (h : H.l < 0 ∨ W.l < 0) (X : Nat → Nat → Nat → Nat → R)
    (a b : Nat) : (zgrid H W).scattered X a b = 0 := by
  unfold Grid.scattered
  simp [zgrid_blank h]

theorem zcol2im_run [AddCommMonoid R] {H W : ZAxis} (hH : ZAxisOK H) (hW : ZAxisOK W) {c : Nat}
    (X : Nat → Nat → Nat → Nat → Nat → R) {y : List R} (hy : y.length = [H.n, W.n, c].prod) :
    Kernels.col2imHwrsc [H.sample u32, W.sample u32] [H.n, W.n, c] (tab [H.m, W.m, H.k, W.k, c] (fn5 X)) y =
      .ok (tab [H.n, W.n, c] (fn3 fun a b k => (zgrid H W).scattered (fun i j u v => X i j u v k) a b)).data := by
  refine (Grid.col2imHwrsc_order (zgrid_ok hH hW) X hy).trans ?_
  simp only [fun a b k => Grid.listSum_tapsOn (zgrid H W) (fun i j u v => X i j u v k) a b]
  rfl

theorem zgradX_run [CommSemiring R] {H W : ZAxis} (hH : ZAxisOK H) (hW : ZAxisOK W) {n c d : Nat}
    (G Y : Nat → Nat → Nat → Nat → R) (junk : Nat → R) {gx : List R} (hgx : gx.length = [n, H.n, W.n, c].prod) :
    Kernels.convGradX (zconvTrait H W) junk [n, H.n, W.n, c] (tab [n, H.m, W.m, d] (fn4 G)) (tab [H.k, W.k, c, d] (fn4 Y)) gx =
      .ok (tab [n, H.n, W.n, c] (fn4 fun e a b k => (zgrid H W).scattered
        (fun i j u v => ∑ o ∈ range d, G e i j o * Y u v k o) a b)).data := by
  refine (Grid.convGradX_order (zgrid_ok hH hW) (T := zconvTrait H W) (zgetSample hH) (zgetSample hW) G Y junk hgx).trans ?_
  simp only [seqSum_eq_sum]
  simp only [fun e a b k => Grid.listSum_tapsOn (zgrid H W) (fun i j u v => ∑ o ∈ range d, G e i j o * Y u v k o) a b]
  rfl

theorem zgradY_run [CommSemiring R] {H W : ZAxis} (hH : ZAxisOK H) (hW : ZAxisOK W) {n c d : Nat}
    (G X : Nat → Nat → Nat → Nat → R) (junk : Nat → R) {gy : List R} (hgy : gy.length = [H.k, W.k, c, d].prod) :
    Kernels.convGradY (zconvTrait H W) junk [H.k, W.k, c, d] (tab [n, H.m, W.m, d] (fn4 G)) (tab [n, H.n, W.n, c] (fn4 X)) gy =
      .ok (tab [H.k, W.k, c, d] (fn4 fun u v k o => ∑ e ∈ range n, ∑ i ∈ range H.m, ∑ j ∈ range W.m,
        (zgrid H W).pixel (fun a a' => X e a a' k) i j u v * G e i j o)).data := by
  refine (Grid.convGradY_order (zgrid_ok hH hW) (T := zconvTrait H W) (zgetSample hH) (zgetSample hW) G X junk hgy).trans ?_
  refine congrArg (fun t => Outcome.ok (Tensor.data t)) (tab_congr fun idx hv => ?_)
  match idx, hv with
  | [u, v, k, o], _ =>
    have hU : ∀ p, unravel [n, H.m, W.m] p = [p / (H.m * W.m), p % (H.m * W.m) / W.m, p % (H.m * W.m) % W.m] := by
      intro p; simp [unravel]
    have := sum_unravel3 n H.m W.m (fn3 fun e i j => (zgrid H W).pixel (fun a a' => X e a a' k) i j u v * G e i j o)
    simp only [hU, fn3_apply] at this
    simp only [fn4_apply, seqSum_eq_sum]
    rw [← this]
    exact sum_congr (by simp [zgrid]) fun _ _ => rfl

/-- C164 (transpose): whatever the signs of the paddings, `col2im` is the transpose of `im2col`. -/
theorem C164_adjoint [CommSemiring R] {H W : ZAxis} (hH : ZAxisOK H) (hW : ZAxisOK W) {c : Nat} (X : Nat → Nat → Nat → R)
    (Y : Nat → Nat → Nat → Nat → Nat → R) {cols im : List R} (hc : cols.length = [H.m, W.m, H.k, W.k, c].prod)
    (him : im.length = [H.n, W.n, c].prod) :
    ∃ cols' im',
      Kernels.im2colHwrsc [H.sample u32, W.sample u32] [H.m, W.m, H.k, W.k, c] (tab [H.n, W.n, c] (fn3 X)) cols =
        .ok cols' ∧
      Kernels.col2imHwrsc [H.sample u32, W.sample u32] [H.n, W.n, c] (tab [H.m, W.m, H.k, W.k, c] (fn5 Y)) im = .ok im' ∧
      dot cols' (tab [H.m, W.m, H.k, W.k, c] (fn5 Y)).data = dot (tab [H.n, W.n, c] (fn3 X)).data im' := by
  refine ⟨_, _, Grid.im2colHwrsc_run (zgrid_ok hH hW) X hc, zcol2im_run hH hW Y him, ?_⟩
  have := fun k => Grid.scattered_adjoint (zgrid_ok hH hW) (fun a b => X a b k) (fun i j u v => Y i j u v k)
  simp only [show (zgrid H W).m = H.m from rfl, show (zgrid H W).p = W.m from rfl, show (zgrid H W).r = H.k from rfl,
    show (zgrid H W).s = W.k from rfl, show (zgrid H W).h = H.n from rfl, show (zgrid H W).w = W.n from rfl] at this ⊢
  rw [dot_tab, dot_tab, sum_unravel5 _ _ _ _ _ (fun l =>
      (fn5 fun i j u v k => (zgrid H W).pixel (fun a b => X a b k) i j u v) l * fn5 Y l),
    sum_unravel3 _ _ _ (fun l => fn3 X l * (fn3 fun a b k => (zgrid H W).scattered (fun i j u v => Y i j u v k) a b) l)]
  simp only [fn5_apply, fn3_apply]
  rw [Grid.sum_comm4, sum_congr rfl fun k _ => this k, sum3_rot]

/-- C164 (transpose, image): whatever the signs of the paddings, the gradient by the image belongs to what `conv2d`
computes. -/
theorem C164_adjoint_image [CommSemiring R] {H W : ZAxis} (hH : ZAxisOK H) (hW : ZAxisOK W) {n c d : Nat}
    (hsz : [H.n, W.n, c].prod ≤ 2 ^ 31) (G Y : Nat → Nat → Nat → Nat → R) (junkI : Nat → Int) (junk junk' : Nat → R)
    {gx z : List R} (hgx : gx.length = [n, H.n, W.n, c].prod) (hz : z.length = [n, H.m, W.m, d].prod) :
    ∃ gx', Kernels.convGradX (zconvTrait H W) junk [n, H.n, W.n, c] (tab [n, H.m, W.m, d] (fn4 G))
        (tab [H.k, W.k, c, d] (fn4 Y)) gx = .ok gx' ∧ gx'.length = gx.length ∧
      ∀ DX : Nat → Nat → Nat → Nat → R, ∃ dz,
        Kernels.convNhwc (zconvTrait H W) junkI junk' [n, H.m, W.m, d] (tab [n, H.n, W.n, c] (fn4 DX))
          (tab [H.k, W.k, c, d] (fn4 Y)) z = .ok dz ∧
        dot (tab [n, H.m, W.m, d] (fn4 G)).data dz = dot gx' (tab [n, H.n, W.n, c] (fn4 DX)).data := by
  refine ⟨_, zgradX_run hH hW G Y junk hgx, by rw [tab_length, hgx], fun DX =>
    ⟨_, Grid.convNhwc_run (zgrid_ok hH hW) (T := zconvTrait H W) (zgetSample hH) (zgetSample hW) hsz DX Y junkI junk' hz, ?_⟩⟩
  simp only [show (zgrid H W).m = H.m from rfl, show (zgrid H W).p = W.m from rfl]
  rw [dot_tab4, dot_tab4]
  refine sum_congr rfl fun e _ => ?_
  have lhs : ∀ i j, ∑ o ∈ range d, G e i j o * (zgrid H W).conv c (DX e) Y i j o =
      ∑ k ∈ range c, ∑ u ∈ range H.k, ∑ v ∈ range W.k,
        (zgrid H W).pixel (fun a b => DX e a b k) i j u v * ∑ o ∈ range d, G e i j o * Y u v k o := by
    intro i j
    simp only [Grid.conv, mul_sum]
    rw [sum4_swap]
    refine sum_congr rfl fun k _ => sum_congr rfl fun u _ => sum_congr rfl fun v _ => sum_congr rfl fun o _ => ?_
    ring
  simp only [lhs]
  rw [(sum3_rot (range c) (range H.m) (range W.m) fun k i j => ∑ u ∈ range H.k, ∑ v ∈ range W.k,
      (zgrid H W).pixel (fun a b => DX e a b k) i j u v * ∑ o ∈ range d, G e i j o * Y u v k o).symm,
    (sum3_rot (range c) (range H.n) (range W.n) fun k a b => (zgrid H W).scattered
      (fun i j u v => ∑ o ∈ range d, G e i j o * Y u v k o) a b * DX e a b k).symm]
  refine sum_congr rfl fun k _ => ?_
  refine (Grid.scattered_adjoint (zgrid_ok hH hW) (fun a b => DX e a b k)
    (fun i j u v => ∑ o ∈ range d, G e i j o * Y u v k o)).trans ?_
  exact sum_congr rfl fun a _ => sum_congr rfl fun b _ => mul_comm _ _

/-- C164 (transpose, filter). -/
theorem C164_adjoint_filter [CommSemiring R] {H W : ZAxis} (hH : ZAxisOK H) (hW : ZAxisOK W) {n c d : Nat}
    (hsz : [H.n, W.n, c].prod ≤ 2 ^ 31) (G X : Nat → Nat → Nat → Nat → R) (junkI : Nat → Int) (junk junk' : Nat → R)
    {gy z : List R} (hgy : gy.length = [H.k, W.k, c, d].prod) (hz : z.length = [n, H.m, W.m, d].prod) :
    ∃ gy', Kernels.convGradY (zconvTrait H W) junk [H.k, W.k, c, d] (tab [n, H.m, W.m, d] (fn4 G))
        (tab [n, H.n, W.n, c] (fn4 X)) gy = .ok gy' ∧ gy'.length = gy.length ∧
      ∀ DY : Nat → Nat → Nat → Nat → R, ∃ dz,
        Kernels.convNhwc (zconvTrait H W) junkI junk' [n, H.m, W.m, d] (tab [n, H.n, W.n, c] (fn4 X))
          (tab [H.k, W.k, c, d] (fn4 DY)) z = .ok dz ∧
        dot (tab [n, H.m, W.m, d] (fn4 G)).data dz = dot gy' (tab [H.k, W.k, c, d] (fn4 DY)).data := by
  refine ⟨_, zgradY_run hH hW G X junk hgy, by rw [tab_length, hgy], fun DY =>
    ⟨_, Grid.convNhwc_run (zgrid_ok hH hW) (T := zconvTrait H W) (zgetSample hH) (zgetSample hW) hsz X DY junkI junk' hz, ?_⟩⟩
  simp only [show (zgrid H W).m = H.m from rfl, show (zgrid H W).p = W.m from rfl]
  rw [dot_tab4, dot_tab4]
  simp only [Grid.conv, sum_mul, mul_sum, show (zgrid H W).r = H.k from rfl, show (zgrid H W).s = W.k from rfl]
  -- left: e i j o u v k, right: u v k o e i j
  have r3 : ∀ (F : Nat → Nat → Nat → Nat → Nat → Nat → Nat → R),
      ∑ e ∈ range n, ∑ i ∈ range H.m, ∑ j ∈ range W.m, ∑ o ∈ range d, ∑ u ∈ range H.k, ∑ v ∈ range W.k, ∑ k ∈ range c,
        F e i j o u v k =
      ∑ u ∈ range H.k, ∑ v ∈ range W.k, ∑ k ∈ range c, ∑ o ∈ range d, ∑ e ∈ range n, ∑ i ∈ range H.m, ∑ j ∈ range W.m,
        F e i j o u v k := by
    intro F
    rw [Grid.sum_comm4 (range n) (range H.m) (range W.m) (range d) (range H.k)]
    refine sum_congr rfl fun u _ => ?_
    rw [Grid.sum_comm4 (range n) (range H.m) (range W.m) (range d) (range W.k)]
    refine sum_congr rfl fun v _ => ?_
    rw [Grid.sum_comm4 (range n) (range H.m) (range W.m) (range d) (range c)]
    refine sum_congr rfl fun k _ => ?_
    exact (sum_congr rfl fun e _ => (sum_congr rfl fun i _ => sum_comm).trans sum_comm).trans sum_comm
  rw [r3]
  refine sum_congr rfl fun u _ => sum_congr rfl fun v _ => sum_congr rfl fun k _ => sum_congr rfl fun o _ =>
    sum_congr rfl fun e _ => sum_congr rfl fun i _ => sum_congr rfl fun j _ => ?_
  ring

/-! ## Bottom and right -/

/-- C164 (bottom and right): if only the second padding of each axis may be negative, `col2im` adds to every pixel the entries
of the cropped windows that fall on it, the gradient by the image is this sum for gradient times weights, and the gradient by
the filter is the sum over all windows of cropped pixel times gradient. -/
theorem C164_right [CommSemiring R] {H W : ZAxis} (hH : ZAxisOK H) (hW : ZAxisOK W) (lH : 0 ≤ H.l) (lW : 0 ≤ W.l)
    {n c d : Nat} (Z : Nat → Nat → Nat → Nat → Nat → R) (G X Y : Nat → Nat → Nat → Nat → R) (junk : Nat → R)
    {y gx gy : List R} (hy : y.length = [H.n, W.n, c].prod) (hgx : gx.length = [n, H.n, W.n, c].prod)
    (hgy : gy.length = [H.k, W.k, c, d].prod) :
    Kernels.col2imHwrsc [H.sample u32, W.sample u32] [H.n, W.n, c] (tab [H.m, W.m, H.k, W.k, c] (fn5 Z)) y =
      .ok (tab [H.n, W.n, c] (fn3 fun a b k => spread H W (fun i j u v => Z i j u v k) a b)).data ∧
    Kernels.convGradX (zconvTrait H W) junk [n, H.n, W.n, c] (tab [n, H.m, W.m, d] (fn4 G)) (tab [H.k, W.k, c, d] (fn4 Y)) gx =
      .ok (tab [n, H.n, W.n, c] (fn4 fun e a b k =>
        spread H W (fun i j u v => ∑ o ∈ range d, G e i j o * Y u v k o) a b)).data ∧
    Kernels.convGradY (zconvTrait H W) junk [H.k, W.k, c, d] (tab [n, H.m, W.m, d] (fn4 G)) (tab [n, H.n, W.n, c] (fn4 X)) gy =
      .ok (tab [H.k, W.k, c, d] (fn4 fun u v k o => ∑ e ∈ range n, ∑ i ∈ range H.m, ∑ j ∈ range W.m,
        cropped H W (fun a b => X e a b k) i j u v * G e i j o)).data := by
  refine ⟨(zcol2im_run hH hW Z hy).trans ?_, (zgradX_run hH hW G Y junk hgx).trans ?_,
    (zgradY_run hH hW G X junk hgy).trans ?_⟩
  · refine congrArg (fun t => Outcome.ok (Tensor.data t)) (tab_congr fun idx hv => ?_)
    match idx, hv with
    | [a, b, k], hv => exact zgrid_scattered lH lW _ hv.1 hv.2.1
  · refine congrArg (fun t => Outcome.ok (Tensor.data t)) (tab_congr fun idx hv => ?_)
    match idx, hv with
    | [e, a, b, k], hv => exact zgrid_scattered lH lW _ hv.2.1 hv.2.2.1
  · simp only [zgrid_pixel lH lW]

/-- C164 (bottom and right): a pixel that is cropped away gets nothing. -/
theorem C164_cropped_away [AddCommMonoid R] {H W : ZAxis} (hH : ZAxisOK H) (hW : ZAxisOK W) (X : Nat → Nat → Nat → Nat → R)
    {a b : Nat} (h : (H.n : Int) + H.q ≤ a ∨ (W.n : Int) + W.q ≤ b) : spread H W X a b = 0 := by
  unfold spread
  refine sum_eq_zero fun i hi => sum_eq_zero fun j hj => sum_eq_zero fun u hu => sum_eq_zero fun v hv => if_neg ?_
  have t1 := hH.tap_lt (mem_range.1 hi) (mem_range.1 hu)
  have t2 := hW.tap_lt (mem_range.1 hj) (mem_range.1 hv)
  unfold ZAxis.elem
  omega

/-! ## Top and left -/

/-- C164 (top and left): with a negative padding there, `col2im` and both gradients are zero, whatever their arguments. -/
theorem C164_left [CommSemiring R] {H W : ZAxis} (hH : ZAxisOK H) (hW : ZAxisOK W) (hl : H.l < 0 ∨ W.l < 0)
    {n c d : Nat} (Z : Nat → Nat → Nat → Nat → Nat → R) (G X Y : Nat → Nat → Nat → Nat → R) (junk : Nat → R)
    {y gx gy : List R} (hy : y.length = [H.n, W.n, c].prod) (hgx : gx.length = [n, H.n, W.n, c].prod)
    (hgy : gy.length = [H.k, W.k, c, d].prod) :
    Kernels.col2imHwrsc [H.sample u32, W.sample u32] [H.n, W.n, c] (tab [H.m, W.m, H.k, W.k, c] (fn5 Z)) y =
      .ok (tab [H.n, W.n, c] fun _ => 0).data ∧
    Kernels.convGradX (zconvTrait H W) junk [n, H.n, W.n, c] (tab [n, H.m, W.m, d] (fn4 G)) (tab [H.k, W.k, c, d] (fn4 Y)) gx =
      .ok (tab [n, H.n, W.n, c] fun _ => 0).data ∧
    Kernels.convGradY (zconvTrait H W) junk [H.k, W.k, c, d] (tab [n, H.m, W.m, d] (fn4 G)) (tab [n, H.n, W.n, c] (fn4 X)) gy =
      .ok (tab [H.k, W.k, c, d] fun _ => 0).data := by
  refine ⟨(zcol2im_run hH hW Z hy).trans ?_, (zgradX_run hH hW G Y junk hgx).trans ?_,
    (zgradY_run hH hW G X junk hgy).trans ?_⟩ <;>
  refine congrArg (fun t => Outcome.ok (Tensor.data t)) (tab_congr fun idx hv => ?_)
  · match idx, hv with
    | [a, b, k], hv => exact zgrid_scattered_blank hl _ _ _
  · match idx, hv with
    | [e, a, b, k], hv => exact zgrid_scattered_blank hl _ _ _
  · match idx, hv with
    | [u, v, k, o], hv => simp [zgrid_pixel_blank hl]

/-! ## Examples -/

example := C164_shape exCropH_ok exCropW_ok 3
example := C164_shape exCropTop_ok exCropW_ok 3
example := C164_shape_line exLine_ok
example := C164_line exLine_ok (fun j u => ((10 * j + u : Nat) : Int)) (y := List.replicate 9 5) rfl
/-- The first two elements and the last are cropped, the others are hit once. -/
example : (tab [9] (fn1 fun i => ∑ j ∈ range 3, ∑ u ∈ range 2, if exLine.elem j u = i then ((10 * j + u : Nat) : Int) else 0)).data =
    [0, 0, 0, 1, 10, 11, 20, 21, 0] := by decide
example := C164_line_adjoint exLine_ok (fun i => ((i * i : Nat) : Int)) (fun j u => ((10 * j + u : Nat) : Int))
  (cols := List.replicate 6 1) (im := List.replicate 9 5) rfl rfl
example := C164_adjoint exCropH_ok exCropW_ok (c := 2) (fun a b k => ((a * b + k : Nat) : Int))
  (fun i j u v k => ((i * j + u * v + k : Nat) : Int)) (cols := List.replicate 48 1) (im := List.replicate 70 5)
  (by decide) (by decide)
example := C164_adjoint_image exCropH_ok exCropW_ok (n := 2) (c := 2) (d := 3) (by decide)
  (fun e i j o => ((e + i * j + o : Nat) : Int)) (fun u v k o => ((u * v + k * o : Nat) : Int) - 1) (fun _ => 7) (fun _ => 8)
  (fun _ => 9) (gx := List.replicate 140 1) (z := List.replicate 36 5) (by rw [List.length_replicate]; rfl) (by rw [List.length_replicate]; rfl)
example := C164_adjoint_filter exCropTop_ok exCropW_ok (n := 2) (c := 2) (d := 3) (by decide)
  (fun e i j o => ((e + i * j + o : Nat) : Int)) (fun e a b k => ((e * a + b + k : Nat) : Int) - 1) (fun _ => 7) (fun _ => 8)
  (fun _ => 9) (gy := List.replicate 12 1) (z := List.replicate 36 5) (by decide) (by decide)
example := C164_right exCropH_ok exCropW_ok (by decide) (by decide) (n := 2) (c := 2) (d := 3)
  (fun i j u v k => ((i * j + u * v + k : Nat) : Int)) (fun e i j o => ((e + i * j + o : Nat) : Int))
  (fun e a b k => ((e * a + b + k : Nat) : Int) - 1) (fun u v k o => ((u * v + k * o : Nat) : Int) - 1) (fun _ => 8)
  (y := List.replicate 70 1) (gx := List.replicate 140 5) (gy := List.replicate 24 5) (by rw [List.length_replicate]; rfl)
  (by rw [List.length_replicate]; rfl) (by rw [List.length_replicate]; rfl)
example := C164_cropped_away exCropH_ok exCropW_ok (fun i j u v => ((i * j + u * v : Nat) : Int)) (a := 3) (b := 0) (by decide)
/-- A pixel in row 1 is hit by two rows of windows. -/
example : spread exCropH exCropW (fun i j u v => ((1000 * i + 100 * j + 10 * u + v : Nat) : Int)) 1 3 = 3212 := by decide
example := C164_left exCropTop_ok exCropW_ok (.inl (by decide)) (n := 2) (c := 2) (d := 3)
  (fun i j u v k => ((i * j + u * v + k : Nat) : Int)) (fun e i j o => ((e + i * j + o : Nat) : Int))
  (fun e a b k => ((e * a + b + k : Nat) : Int) - 1) (fun u v k o => ((u * v + k * o : Nat) : Int) - 1) (fun _ => 8)
  (y := List.replicate 84 1) (gx := List.replicate 168 5) (gy := List.replicate 12 5) (by rw [List.length_replicate]; rfl)
  (by rw [List.length_replicate]; rfl) (by rw [List.length_replicate]; rfl)

end StdNN
