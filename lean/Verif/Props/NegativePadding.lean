import Verif.Lemmas.Crop
import Verif.Props.Pool
/-!
# C158: what negative paddings do

A negative padding asks for a crop. The shapes of all operators are those of the cropped input. The one-dimensional operators,
whose dimension type is signed, crop. The two-dimensional ones store paddings as `uint32_t`: with a negative padding at the
bottom or on the right they crop, with one at the top or on the left they see no pixel at all and nothing reports it.
-/
namespace StdNN
open IntTy Spec Outcome
variable {R : Type}

/-- The convolution trait of two axes, its paddings built from numbers. -/
def zconvTrait (H W : ZAxis) : ConvTrait :=
  ConvTrait.make (Padding.ofInts u32 H.l H.q, Padding.ofInts u32 W.l W.q) (H.s, W.s) (H.r, W.r)

/-- C158 (what is stored): the unsigned type stores a negative padding as a number of at least `2 ^ 31`, the signed type as it
is; paddings that are not negative are stored unchanged by both. -/
theorem C158_stored {l q : Int} (hl : i32.In l) (hq : i32.In q) :
    (Padding.ofInts i32 l q).dims = [l, q] ∧
      (Padding.ofInts u32 l q).dims = [if l < 0 then l + 2 ^ 32 else l, if q < 0 then q + 2 ^ 32 else q] ∧
      Padding.pair l q = (Padding.ofInts u32 l l, Padding.ofInts u32 q q) := by
  have hl' := i32_In.1 hl
  have hq' := i32_In.1 hq
  have i32' : (2 : Int) ^ 32 = 4294967296 := by norm_num
  refine ⟨by simp [Padding.ofInts, Padding.dims, conv_eq i32_std hl, conv_eq i32_std hq], ?_, rfl⟩
  simp only [Padding.ofInts, Padding.dims, u32_conv, i32', List.cons.injEq, and_true]
  constructor <;> split <;> omega

example := C158_stored (l := -2) (q := 3) (by decide) (by decide)

/-- C158 (construction): the constructors accept such paddings. -/
theorem C158_made {a : ZAxis} (h : ZAxisOK a) :
    Sample.make u32 a.k a.s a.r (Padding.ofInts u32 a.l a.q) = .ok (a.sample u32) ∧
      Sample.make i32 a.k a.s a.r (Padding.ofInts i32 a.l a.q) = .ok (a.sample i32) := by
  have k1 := h.k1; have s1 := h.s1; have r1 := h.r1; have hk := h.hk; have hs := h.hs; have hr := h.hr
  have hin : ∀ {v : Nat}, v < 2147483648 → u32.In (v : Int) := fun h1 => ⟨by rw [u32_lo]; omega, by rw [u32_hi]; omega⟩
  constructor
  · simp [Sample.make, ZAxis.sample,
      Filter.make_ok u32_std (hin hk) (hin hs) (hin hr) (by omega) (by omega) (by omega)]
  · simp [Sample.make, ZAxis.sample,
      Filter.make_ok i32_std (i32_nat hk) (i32_nat hs) (i32_nat hr) (by omega) (by omega) (by omega)]

/-- C158 (shapes, two dimensions): the shapes of `im2col`, `conv2d` and of pooling are those of the padded or cropped image. -/
theorem C158_shape {H W : ZAxis} (hH : ZAxisOK H) (hW : ZAxisOK W) (n c d : Nat) :
    Ops.im2colHwrsShape [H.sample u32, W.sample u32] [H.n, W.n] = .ok [H.m, W.m, H.k, W.k] ∧
    Ops.im2colRshwShape [H.sample u32, W.sample u32] [H.n, W.n] = .ok [H.k, W.k, H.m, W.m] ∧
    Ops.im2colHwrscShape [H.sample u32, W.sample u32] [H.n, W.n, c] = .ok [H.m, W.m, H.k, W.k, c] ∧
    (zconvTrait H W).infer .nhwc .rscd [n, H.n, W.n, c] [H.k, W.k, c, d] = .ok [n, H.m, W.m, d] ∧
    (zconvTrait H W).infer .nchw .dcrs [n, c, H.n, W.n] [d, c, H.k, W.k] = .ok [n, d, H.m, W.m] ∧
    (⟨H.sample u32, W.sample u32⟩ : PoolTrait).outShape (H.n, W.n) = .ok (H.m, W.m) := by
  have hG := zgrid_ok hH hW
  have o1 : (zconvTrait H W).h.outSize H.n H.k = .ok (H.m : Int) := by
    have : LinConv.getSample (zconvTrait H W).h H.k = .ok (H.sample u32) := zgetSample hH
    rw [LinConv.outSize, this, Outcome.ok_bind, hH.outSize]
  have o2 : (zconvTrait H W).w.outSize W.n W.k = .ok (W.m : Int) := by
    have : LinConv.getSample (zconvTrait H W).w W.k = .ok (W.sample u32) := zgetSample hW
    rw [LinConv.outSize, this, Outcome.ok_bind, hW.outSize]
  have out : Ops.outShapeU32 [H.sample u32, W.sample u32] [H.n, W.n] = .ok [H.m, W.m] := hG.out
  have ks : Ops.ksizeU32 [H.sample u32, W.sample u32] = [H.k, W.k] := hG.ksize
  refine ⟨?_, ?_, ?_, ?_, ?_, ?_⟩
  · simp [Ops.im2colHwrsShape, out, ks]
  · simp [Ops.im2colRshwShape, out, ks]
  · simp [Ops.im2colHwrscShape, out, ks]
  · simp [ConvTrait.infer, batchSize, imageShape, channelSize, filterShape, filterIn, filterOut, getDim, Order.batchPos,
      Order.heightPos, Order.widthPos, Order.channelPos, FOrder.heightPos, FOrder.widthPos, FOrder.inPos, FOrder.outPos,
      o1, o2, batchedImageShape]
  · simp [ConvTrait.infer, batchSize, imageShape, channelSize, filterShape, filterIn, filterOut, getDim, Order.batchPos,
      Order.heightPos, Order.widthPos, Order.channelPos, FOrder.heightPos, FOrder.widthPos, FOrder.inPos, FOrder.outPos,
      o1, o2, batchedImageShape]
  · simp [PoolTrait.outShape, hH.outSize, hW.outSize]

/-- C158 (shapes, one dimension). -/
theorem C158_shape_line {a : ZAxis} (h : ZLineOK a) :
    Ops.im2col1dShape (a.sample i32) [a.n] = .ok [a.m, a.k] ∧
      Conv1d.shape ⟨a.s, a.r, Padding.ofInts i32 a.l a.q⟩ [a.n] [a.k] = .ok [a.m] := by
  have k1 := h.k1; have s1 := h.s1; have r1 := h.r1; have hk := h.hk; have hs := h.hs; have hr := h.hr
  have hn : a.n < 2147483648 := h.hn
  have hm : a.m < 4294967296 := by
    obtain ⟨m1, -⟩ := h.covers
    have := (h.toZAxisOK.small (j := a.m - 1) (u := 0) (by omega) (by omega)).1
    omega
  have hun : ∀ {v : Nat}, v < 4294967296 → u32.In (v : Int) := fun h1 => ⟨by rw [u32_lo]; omega, by rw [u32_hi]; omega⟩
  have hk' : a.k < 4294967296 := by omega
  constructor
  · have e : (a.sample i32).filter.ksize = (a.k : Int) := rfl
    simp only [Ops.im2col1dShape, conv_eq i32_std (i32_nat hn), h.outSize, Outcome.ok_bind, Outcome.pure_eq, e,
      conv_eq u32_std (hun hm), conv_eq u32_std (hun hk'), Int.toNat_natCast]
  · simp only [Conv1d.shape, Padding.ofInts, conv_eq i32_std h.hl, conv_eq i32_std h.hq, conv_eq i32_std (i32_nat hk),
      Filter.make_ok i32_std (i32_nat hk) (i32_nat hs) (i32_nat hr) (by omega : (1 : Int) ≤ a.k)
        (by omega : (1 : Int) ≤ a.s) (by omega : (1 : Int) ≤ a.r), Outcome.ok_bind, h.outSize_mixed, Outcome.pure_eq,
      Int.toNat_natCast]

/-- C158 (one dimension): `im2col1d` and `conv1d` read the padded or cropped line. -/
theorem C158_line [Semiring R] {a : ZAxis} (h : ZLineOK a) (X Y : Nat → R) {y z : List R} (hy : y.length = a.m * a.k)
    (hz : z.length = a.m) :
    Ops.im2col1d (a.sample i32) [a.m, a.k] (tab [a.n] (fn1 X)) y =
        .ok (tab [a.m, a.k] (fn2 fun j u => cell a.n X (a.elem j u))).data ∧
      Conv1d.run ⟨a.s, a.r, Padding.ofInts i32 a.l a.q⟩ [a.m] (tab [a.n] (fn1 X)) (tab [a.k] (fn1 Y)) z =
        .ok (tab [a.m] (fn1 fun j => ∑ u ∈ Finset.range a.k, Y u * cell a.n X (a.elem j u))).data :=
  ⟨zim2col1d_run h X hy, zconv1d_run h X Y hz⟩

/-- Kernel 2, stride 2 on nine elements of which the first two and the last are cropped. -/
def exLine : ZAxis := ⟨2, 2, 1, 9, 3, -2, -1⟩

theorem exLine_ok : ZLineOK exLine := by
  refine ⟨⟨by decide, by decide, by decide, by decide, by decide, by decide, by decide, by decide, by decide, by decide,
    by decide⟩, by decide⟩

example := C158_shape_line exLine_ok
example := C158_line exLine_ok (fun i => ((i * i : Nat) : Int)) (fun u => (u : Int) - 1) (y := List.replicate 6 0)
  (z := List.replicate 3 0) rfl rfl
/-- Its second window is the elements 4 and 5. -/
example : cell exLine.n (fun i => ((i * i : Nat) : Int)) (exLine.elem 1 0) = 16 ∧
    cell exLine.n (fun i => ((i * i : Nat) : Int)) (exLine.elem 1 1) = 25 := by decide

/-! ## Bottom and right -/

/-- C158 (bottom and right, `im2col`): if only the second padding of each axis may be negative, the kernels read the cropped
image. -/
theorem C158_right_im2col [Zero R] {H W : ZAxis} (hH : ZAxisOK H) (hW : ZAxisOK W) (lH : 0 ≤ H.l) (lW : 0 ≤ W.l)
    {n c : Nat} (hsz : [H.n, W.n, c].prod ≤ 2 ^ 31) (X : Nat → Nat → R) (Z : Nat → Nat → Nat → R)
    (B : Nat → Nat → Nat → Nat → R) (junk : Nat → Int) {y1 y2 y3 y4 : List R}
    (h1 : y1.length = [H.m, W.m, H.k, W.k].prod) (h2 : y2.length = [H.k, W.k, H.m, W.m].prod)
    (h3 : y3.length = [H.m, W.m, H.k, W.k, c].prod) (h4 : y4.length = [n, H.m, W.m, H.k, W.k, c].prod) :
    Kernels.im2colHwrs [H.sample u32, W.sample u32] [H.m, W.m, H.k, W.k] (tab [H.n, W.n] (fn2 X)) y1 =
        .ok (tab [H.m, W.m, H.k, W.k] (fn4 (cropped H W X))).data ∧
    Kernels.im2colRshw [H.sample u32, W.sample u32] [H.k, W.k, H.m, W.m] (tab [H.n, W.n] (fn2 X)) y2 =
        .ok (tab [H.k, W.k, H.m, W.m] (fn4 fun u v i j => cropped H W X i j u v)).data ∧
    Kernels.im2colHwrsc [H.sample u32, W.sample u32] [H.m, W.m, H.k, W.k, c] (tab [H.n, W.n, c] (fn3 Z)) y3 =
        .ok (tab [H.m, W.m, H.k, W.k, c] (fn5 fun i j u v k => cropped H W (fun a b => Z a b k) i j u v)).data ∧
    Kernels.im2colNhwrsc [H.sample u32, W.sample u32] junk [n, H.m, W.m, H.k, W.k, c] (tab [n, H.n, W.n, c] (fn4 B)) y4 =
        .ok (tab [n, H.m, W.m, H.k, W.k, c]
          (fn6 fun b i j u v k => cropped H W (fun a a' => B b a a' k) i j u v)).data := by
  have hG := zgrid_ok hH hW
  refine ⟨(Grid.im2colHwrs_run hG X h1).trans ?_, (Grid.im2colRshw_run hG X h2).trans ?_,
    (Grid.im2colHwrsc_run hG Z h3).trans ?_, (Grid.im2colNhwrsc_run hG hsz B junk h4).trans ?_⟩ <;>
  simp only [zgrid_pixel lH lW] <;> rfl

/-- C158 (bottom and right, `conv2d`). -/
theorem C158_right_conv [CommSemiring R] {H W : ZAxis} (hH : ZAxisOK H) (hW : ZAxisOK W) (lH : 0 ≤ H.l) (lW : 0 ≤ W.l)
    {n c d : Nat} (hsz : [H.n, W.n, c].prod ≤ 2 ^ 31) (X Y : Nat → Nat → Nat → Nat → R) (junkI : Nat → Int)
    (junk : Nat → R) {z z' : List R} (hz : z.length = [n, H.m, W.m, d].prod) (hz' : z'.length = [n, d, H.m, W.m].prod) :
    Kernels.convNhwc (zconvTrait H W) junkI junk [n, H.m, W.m, d] (tab [n, H.n, W.n, c] (fn4 X))
        (tab [H.k, W.k, c, d] (fn4 Y)) z =
      .ok (tab [n, H.m, W.m, d] (fn4 fun b i j e => croppedConv H W c (X b) Y i j e)).data ∧
    Kernels.convNchw (zconvTrait H W) junk [n, d, H.m, W.m] (tab [n, c, H.n, W.n] (fn4 X))
        (tab [d, c, H.k, W.k] (fn4 Y)) z' =
      .ok (tab [n, d, H.m, W.m] (fn4 fun b e i j =>
        croppedConv H W c (fun a a' k => X b k a a') (fun u v k e => Y e k u v) i j e)).data := by
  have hG := zgrid_ok hH hW
  have e1 : LinConv.getSample (zconvTrait H W).h H.k = .ok (H.sample u32) := zgetSample hH
  have e2 : LinConv.getSample (zconvTrait H W).w W.k = .ok (W.sample u32) := zgetSample hW
  refine ⟨(Grid.convNhwc_run hG e1 e2 hsz X Y junkI junk hz).trans ?_,
    (Grid.convNchw_run hG e1 e2 X Y junk hz').trans ?_⟩ <;>
  simp only [Grid.conv, zgrid_pixel lH lW] <;> rfl

/-- C158 (bottom and right, pooling): every accumulator sees the pixels of the cropped image. -/
theorem C158_right_pool [Zero R] {H W : ZAxis} (hH : ZAxisOK H) (hW : ZAxisOK W) (lH : 0 ≤ H.l) (lW : 0 ≤ W.l)
    (acc : Acc R) {c : Nat} (X : Nat → Nat → R) (Z : Nat → Nat → R) (X' Z' : Nat → Nat → Nat → R)
    (hZ : ∀ i < H.m, ∀ j < W.m, acc.run (croppedPixels H W X i j) = .ok (Z i j))
    (hZ' : ∀ i < H.m, ∀ j < W.m, ∀ k < c, acc.run (croppedPixels H W (fun a b => X' a b k) i j) = .ok (Z' i j k))
    {y y' : List R} (hy : y.length = [H.m, W.m].prod) (hy' : y'.length = [H.m, W.m, c].prod) :
    Kernels.poolHw acc ⟨H.sample u32, W.sample u32⟩ [H.m, W.m] (tab [H.n, W.n] (fn2 X)) y =
        .ok (tab [H.m, W.m] (fn2 Z)).data ∧
      Kernels.poolHwc acc ⟨H.sample u32, W.sample u32⟩ [H.m, W.m, c] (tab [H.n, W.n, c] (fn3 X')) y' =
        .ok (tab [H.m, W.m, c] (fn3 Z')).data := by
  have hG := zgrid_ok hH hW
  refine ⟨Grid.poolHw_run hG acc X Z (fun i hi j hj => ?_) hy, Grid.poolHwc_run hG acc X' Z' (fun i hi j hj k hk => ?_) hy'⟩
  · rw [zgrid_pixels lH lW]; exact hZ i hi j hj
  · rw [zgrid_pixels lH lW]; exact hZ' i hi j hj k hk

/-- Kernel 2, stride 1, one row of zeros added at the top and two rows cropped at the bottom of five. -/
def exCropH : ZAxis := ⟨2, 1, 1, 5, 3, 1, -2⟩
/-- Kernel 2, stride 2, three of seven columns cropped on the right. -/
def exCropW : ZAxis := ⟨2, 2, 1, 7, 2, 0, -3⟩

theorem exCropH_ok : ZAxisOK exCropH := by
  refine ⟨by decide, by decide, by decide, by decide, by decide, by decide, by decide, by decide, by decide, by decide,
    by decide⟩
theorem exCropW_ok : ZAxisOK exCropW := by
  refine ⟨by decide, by decide, by decide, by decide, by decide, by decide, by decide, by decide, by decide, by decide,
    by decide⟩

example := C158_made exCropH_ok
example := C158_shape exCropH_ok exCropW_ok 2 3 4
example := C158_right_im2col exCropH_ok exCropW_ok (by decide) (by decide) (n := 2) (c := 3) (by decide)
  (fun a b => ((a * b : Nat) : Int)) (fun a b k => ((a * b + k : Nat) : Int)) (fun n a b k => ((n + a * b + k : Nat) : Int))
  (fun _ => 7) (y1 := List.replicate 24 0) (y2 := List.replicate 24 0) (y3 := List.replicate 72 0)
  (y4 := List.replicate 144 0) (by decide) (by decide) (by decide) (by decide)
example := C158_right_conv exCropH_ok exCropW_ok (by decide) (by decide) (n := 2) (c := 3) (d := 2) (by decide)
  (fun n a b k => ((n + a * b + k : Nat) : Int)) (fun n a b k => ((n + a + b + k : Nat) : Int))
  (fun _ => 7) (fun _ => 8) (z := List.replicate 24 0) (z' := List.replicate 24 0) (by decide) (by decide)
example := C158_right_pool exCropH_ok exCropW_ok (by decide) (by decide) (Acc.max (-100 : Int)) (c := 2)
  (fun a b => ((a * b : Nat) : Int)) _ (fun a b k => ((a * b + k : Nat) : Int)) (fun i j k =>
    (croppedPixels exCropH exCropW (fun a b => ((a * b + k : Nat) : Int)) i j).foldl (fun v x => if x > v then x else v) (-100))
  (fun i _ j _ => max_run _ _) (fun i _ j _ k _ => max_run _ _)
  (y := List.replicate 6 0) (y' := List.replicate 12 0) (by decide) (by decide)
/-- The last tap of the last window is the pixel in row 2, column 3. -/
example : cropped exCropH exCropW (fun a b => ((10 * a + b : Nat) : Int)) 2 1 1 1 = 23 := by decide

/-! ## Top and left -/

/-- C158 (top and left, `im2col`): with a negative padding there, all entries are zero, whatever the image. -/
theorem C158_left_im2col [Zero R] {H W : ZAxis} (hH : ZAxisOK H) (hW : ZAxisOK W) (hl : H.l < 0 ∨ W.l < 0)
    {n c : Nat} (hsz : [H.n, W.n, c].prod ≤ 2 ^ 31) (X : Nat → Nat → R) (Z : Nat → Nat → Nat → R)
    (B : Nat → Nat → Nat → Nat → R) (junk : Nat → Int) {y1 y2 y3 y4 : List R}
    (h1 : y1.length = [H.m, W.m, H.k, W.k].prod) (h2 : y2.length = [H.k, W.k, H.m, W.m].prod)
    (h3 : y3.length = [H.m, W.m, H.k, W.k, c].prod) (h4 : y4.length = [n, H.m, W.m, H.k, W.k, c].prod) :
    Kernels.im2colHwrs [H.sample u32, W.sample u32] [H.m, W.m, H.k, W.k] (tab [H.n, W.n] (fn2 X)) y1 =
        .ok (tab [H.m, W.m, H.k, W.k] fun _ => 0).data ∧
    Kernels.im2colRshw [H.sample u32, W.sample u32] [H.k, W.k, H.m, W.m] (tab [H.n, W.n] (fn2 X)) y2 =
        .ok (tab [H.k, W.k, H.m, W.m] fun _ => 0).data ∧
    Kernels.im2colHwrsc [H.sample u32, W.sample u32] [H.m, W.m, H.k, W.k, c] (tab [H.n, W.n, c] (fn3 Z)) y3 =
        .ok (tab [H.m, W.m, H.k, W.k, c] fun _ => 0).data ∧
    Kernels.im2colNhwrsc [H.sample u32, W.sample u32] junk [n, H.m, W.m, H.k, W.k, c] (tab [n, H.n, W.n, c] (fn4 B)) y4 =
        .ok (tab [n, H.m, W.m, H.k, W.k, c] fun _ => 0).data := by
  have hG := zgrid_ok hH hW
  refine ⟨(Grid.im2colHwrs_run hG X h1).trans ?_, (Grid.im2colRshw_run hG X h2).trans ?_,
    (Grid.im2colHwrsc_run hG Z h3).trans ?_, (Grid.im2colNhwrsc_run hG hsz B junk h4).trans ?_⟩ <;>
  simp only [zgrid_pixel_blank hl] <;>
  refine congrArg (fun t => Outcome.ok (Tensor.data t)) (tab_congr fun idx hv => ?_)
  · match idx, hv with
    | [i, j, u, v], _ => rfl
  · match idx, hv with
    | [i, j, u, v], _ => rfl
  · match idx, hv with
    | [i, j, u, v, k], _ => rfl
  · match idx, hv with
    | [b, i, j, u, v, k], _ => rfl

/-- C158 (top and left, `conv2d`): the result is zero, whatever the image and the filter. -/
theorem C158_left_conv [CommSemiring R] {H W : ZAxis} (hH : ZAxisOK H) (hW : ZAxisOK W) (hl : H.l < 0 ∨ W.l < 0)
    {n c d : Nat} (hsz : [H.n, W.n, c].prod ≤ 2 ^ 31) (X Y : Nat → Nat → Nat → Nat → R) (junkI : Nat → Int)
    (junk : Nat → R) {z z' : List R} (hz : z.length = [n, H.m, W.m, d].prod) (hz' : z'.length = [n, d, H.m, W.m].prod) :
    Kernels.convNhwc (zconvTrait H W) junkI junk [n, H.m, W.m, d] (tab [n, H.n, W.n, c] (fn4 X))
        (tab [H.k, W.k, c, d] (fn4 Y)) z = .ok (tab [n, H.m, W.m, d] fun _ => 0).data ∧
    Kernels.convNchw (zconvTrait H W) junk [n, d, H.m, W.m] (tab [n, c, H.n, W.n] (fn4 X))
        (tab [d, c, H.k, W.k] (fn4 Y)) z' = .ok (tab [n, d, H.m, W.m] fun _ => 0).data := by
  have hG := zgrid_ok hH hW
  have e1 : LinConv.getSample (zconvTrait H W).h H.k = .ok (H.sample u32) := zgetSample hH
  have e2 : LinConv.getSample (zconvTrait H W).w W.k = .ok (W.sample u32) := zgetSample hW
  refine ⟨(Grid.convNhwc_run hG e1 e2 hsz X Y junkI junk hz).trans ?_,
    (Grid.convNchw_run hG e1 e2 X Y junk hz').trans ?_⟩ <;>
  simp only [Grid.conv, zgrid_pixel_blank hl, zero_mul, Finset.sum_const_zero] <;>
  refine congrArg (fun t => Outcome.ok (Tensor.data t)) (tab_congr fun idx hv => ?_)
  · match idx, hv with
    | [b, i, j, e], _ => rfl
  · match idx, hv with
    | [b, e, i, j], _ => rfl

/-- C158 (top and left, pooling): every accumulator reports what it reports for no pixel: maximum pooling the least value of
the type, mean pooling zero divided by zero, which is undefined for `int32_t`. -/
theorem C158_left_pool [Zero R] [Add R] [LT R] [DecidableLT R] {H W : ZAxis} (hH : ZAxisOK H) (hW : ZAxisOK W)
    (hl : H.l < 0 ∨ W.l < 0) (lowest : R) (divn : R → Nat → R) (X : Nat → Nat → R) {y : List R}
    (hy : y.length = [H.m, W.m].prod) :
    Kernels.poolHw (Acc.max lowest) ⟨H.sample u32, W.sample u32⟩ [H.m, W.m] (tab [H.n, W.n] (fn2 X)) y =
        .ok (tab [H.m, W.m] fun _ => lowest).data ∧
      Kernels.poolHw (Acc.mean divn) ⟨H.sample u32, W.sample u32⟩ [H.m, W.m] (tab [H.n, W.n] (fn2 X)) y =
        .ok (tab [H.m, W.m] fun _ => divn 0 0).data := by
  have hG := zgrid_ok hH hW
  constructor
  · refine (Grid.poolHw_run hG _ X (fun _ _ => lowest) (fun i hi j hj => ?_) hy).trans ?_
    · rw [zgrid_pixels_blank hl]; rfl
    · refine congrArg (fun t => Outcome.ok (Tensor.data t)) (tab_congr fun idx hv => ?_)
      match idx, hv with
      | [i, j], _ => rfl
  · refine (Grid.poolHw_run hG _ X (fun _ _ => divn 0 0) (fun i hi j hj => ?_) hy).trans ?_
    · rw [zgrid_pixels_blank hl]; rfl
    · refine congrArg (fun t => Outcome.ok (Tensor.data t)) (tab_congr fun idx hv => ?_)
      match idx, hv with
      | [i, j], _ => rfl

/-- A loop whose first iteration is undefined. -/
theorem forRange_ub {σ : Type} {n : Nat} (hn : 1 ≤ n) {body : Nat → σ → Outcome σ} (h : ∀ s, body 0 s = .ub) (s : σ) :
    forRange n body s = .ub := by
  induction n with
  | zero => omega
  | succ n ih =>
    rw [forRange_succ]
    by_cases c : n = 0
    · subst c
      exact h s
    · rw [ih (by omega)]
      rfl

/-- C158 (top and left, mean pooling of `int32_t`): undefined, because the window without pixels is divided by zero. -/
theorem C158_left_mean_int {H W : ZAxis} (hH : ZAxisOK H) (hW : ZAxisOK W) (hl : H.l < 0 ∨ W.l < 0)
    (X : Nat → Nat → Int) (y : List Int) :
    Kernels.poolHw Acc.meanI32 ⟨H.sample u32, W.sample u32⟩ [H.m, W.m] (tab [H.n, W.n] (fn2 X)) y = .ub := by
  have hG := zgrid_ok hH hW
  obtain ⟨m1, -⟩ := hH.covers
  obtain ⟨m2, -⟩ := hW.covers
  simp only [Kernels.poolHw, tab_dims]
  have first : ∀ s : List Int, (do
      let st ← forRange (⟨H.sample u32, W.sample u32⟩ : PoolTrait).ksize.1 (fun u st =>
        forRange (⟨H.sample u32, W.sample u32⟩ : PoolTrait).ksize.2 (fun v st => do
        let o ← Kernels.locate (H.sample u32) (W.sample u32) H.n W.n 0 0 u v
        match o with
        | some (a, b) => do
          let xv ← (tab [H.n, W.n] (fn2 X)).at_ [a, b]
          Acc.meanI32.step st xv
        | none => .ok st) st) Acc.meanI32.init
      let v ← Acc.meanI32.result st
      wr s (offset [H.m, W.m] [0, 0]) v) = (.ub : Outcome (List Int)) := by
    intro s
    have hk := Grid.pool_ksize hG
    have := Grid.pool_window hG X Acc.meanI32 (fun a b => (tab [H.n, W.n] (fn2 X)).at_ [a, b])
      (fun a ha b hb => (tab_at (fn2 X) (v2 ha hb)).trans rfl) (i := 0) (j := 0) m1 m2 Acc.meanI32.init
    rw [zgrid_pixels_blank hl] at this
    simp only [zgrid] at hk this
    rw [hk]
    refine (congrArg (fun o => o >>= fun st => Acc.meanI32.result st >>= fun v => wr s (offset [H.m, W.m] [0, 0]) v) this).trans ?_
    rfl
  exact forRange_ub m1 (fun s => forRange_ub m2 first s) y

/-- Kernel 1, stride 2, one of six rows cropped at the top. -/
def exCropTop : ZAxis := ⟨1, 2, 1, 6, 3, -1, 0⟩

theorem exCropTop_ok : ZAxisOK exCropTop := by
  refine ⟨by decide, by decide, by decide, by decide, by decide, by decide, by decide, by decide, by decide, by decide,
    by decide⟩

example := C158_left_im2col exCropTop_ok exCropW_ok (.inl (by decide)) (n := 2) (c := 3) (by decide)
  (fun a b => ((a * b : Nat) : Int)) (fun a b k => ((a * b + k : Nat) : Int)) (fun n a b k => ((n + a * b + k : Nat) : Int))
  (fun _ => 7) (y1 := List.replicate 12 0) (y2 := List.replicate 12 0) (y3 := List.replicate 36 0)
  (y4 := List.replicate 72 0) (by decide) (by decide) (by decide) (by decide)
example := C158_left_conv exCropTop_ok exCropW_ok (.inl (by decide)) (n := 2) (c := 3) (d := 2) (by decide)
  (fun n a b k => ((n + a * b + k : Nat) : Int)) (fun n a b k => ((n + a + b + k : Nat) : Int))
  (fun _ => 7) (fun _ => 8) (z := List.replicate 24 0) (z' := List.replicate 24 0) (by decide) (by decide)
example := C158_left_pool exCropTop_ok exCropW_ok (.inl (by decide)) (-100 : Int) (fun s n => s / n)
  (fun a b => ((a * b : Nat) : Int)) (y := List.replicate 6 0) (by decide)
example := C158_left_mean_int exCropTop_ok exCropW_ok (.inl (by decide)) (fun a b => ((a * b : Nat) : Int))

/-- C158 (no crop at the top): so a negative padding at the top is not a crop: `im2col` of a column of six pixels, of which
the first is to be cropped, gives three zeros where the cropped image has the pixels 1, 3 and 5. -/
theorem C158_no_crop :
    ∃ (H W : ZAxis) (X : Nat → Nat → Int), ZAxisOK H ∧ ZAxisOK W ∧
      Kernels.im2colHwrs [H.sample u32, W.sample u32] [H.m, W.m, H.k, W.k] (tab [H.n, W.n] (fn2 X)) [9, 9, 9] =
        .ok [0, 0, 0] ∧
      (tab [H.m, W.m, H.k, W.k] (fn4 (cropped H W X))).data = [1, 3, 5] := by
  have hW : ZAxisOK ⟨1, 1, 1, 1, 1, 0, 0⟩ := by
    refine ⟨by decide, by decide, by decide, by decide, by decide, by decide, by decide, by decide, by decide, by decide,
      by decide⟩
  refine ⟨exCropTop, ⟨1, 1, 1, 1, 1, 0, 0⟩, fun a _ => (a : Int), exCropTop_ok, hW, ?_, by decide⟩
  exact (C158_left_im2col exCropTop_ok hW (.inl (by decide)) (n := 1) (c := 1) (by decide) (fun a _ => (a : Int))
    (fun _ _ _ => 0) (fun _ _ _ _ => 0) (fun _ => 0) (y1 := [9, 9, 9]) (y2 := [9, 9, 9]) (y3 := [9, 9, 9])
    (y4 := [9, 9, 9]) rfl rfl rfl rfl).1

end StdNN
