import Verif.Props.PoolLayer
/-!
# C110: pooling layers with any padding policy, kernel and stride
-/
namespace StdNN
open Spec Outcome IntTy Layers
variable {R : Type}

/-- The pooling layer `t` has the geometry of the two axes: kernel size and stride are those of the axes, the rate is 1, and
the padding policy yields their padding on images of that size. -/
structure PoolHasAxes (t : PoolLayer) (H W : Axis) : Prop where
  ksize : t.ksize = (H.k, W.k)
  stride : t.stride = (H.s, W.s)
  rH : H.r = 1
  rW : W.r = 1
  padH : t.padding H.k H.s 1 H.n = .ok ⟨H.l, H.q⟩
  padW : t.padding W.k W.s 1 W.n = .ok ⟨W.l, W.q⟩

theorem pool_opTrait {t : PoolLayer} {H W : Axis} (h : PoolHasAxes t H W) (hH : AxisOK u32 H) (hW : AxisOK u32 W) :
    t.opTrait (H.n, W.n) = .ok (poolTrait H W) := by
  unfold PoolLayer.opTrait
  rw [h.ksize, h.stride]
  simp only [h.padH, h.padW, Outcome.ok_bind]
  exact pool_make hH hW h.rH h.rW

/-- A pooling layer of any geometry and any accumulator: the windows lie as if all padding were behind the image. -/
theorem poolLayer_gen [Zero R] (junk : Nat → R) (acc : Acc R) {H W : Axis} (hH : AxisOK u32 H) (hW : AxisOK u32 W)
    {t : PoolLayer} (ht : PoolHasAxes t H W) {n c : Nat} (X Z : Nat → Nat → Nat → Nat → R)
    (hZ : ∀ b < n, ∀ i < H.m, ∀ j < W.m, ∀ k < c,
      acc.run (pixels (shifted H) (shifted W) (fun a a' => X b a a' k) i j) = .ok (Z b i j k)) :
    pool .nhwc junk acc t (tab [n, H.n, W.n, c] (fn4 X)) = ⟨1, .ok ⟨tab [n, H.m, W.m, c] (fn4 Z), []⟩⟩ ∧
    pool .nchw junk acc t (tab [n, c, H.n, W.n] (fn4 fun b k i j => X b i j k)) =
      ⟨1, .ok ⟨tab [n, c, H.m, W.m] (fn4 fun b k i j => Z b i j k), []⟩⟩ := by
  have op := pool_opTrait ht hH hW
  have mk := pool_make hH hW ht.rH ht.rW
  constructor
  · have s : Ops.pooledShape .nhwc (poolTrait H W) [n, H.n, W.n, c] = .ok [n, H.m, W.m, c] := by
      have := (C10_pool_shape hH hW ht.rH ht.rW (o := .nhwc) (n := n) (c := c) (xs := [n, H.n, W.n, c]) rfl).1
      rw [mk, Outcome.ok_bind] at this
      exact this
    have r : newResult junk (.ok [n, H.m, W.m, c]) (fun s m => poolOp .nhwc acc (poolTrait H W) s
        (tab [n, H.n, W.n, c] (fn4 X)) m) = ⟨1, .ok (tab [n, H.m, W.m, c] (fn4 Z))⟩ :=
      newResult_run (Ops.poolNhwc_run hH hW ht.rH ht.rW acc X Z hZ (fresh_length _ _))
    have hi : imageShape .nhwc (tab [n, H.n, W.n, c] (fn4 X)).dims = .ok (H.n, W.n) := rfl
    unfold pool
    rw [hi, Alloc.lift_ok, Alloc.ok_bind, op, Alloc.lift_ok, Alloc.ok_bind, tab_dims, s, r, Alloc.ok_bind]
    rfl
  · have s : Ops.pooledShape .nchw (poolTrait H W) [n, c, H.n, W.n] = .ok [n, c, H.m, W.m] := by
      have := (C10_pool_shape hH hW ht.rH ht.rW (o := .nchw) (n := n) (c := c) (xs := [n, c, H.n, W.n]) rfl).1
      rw [mk, Outcome.ok_bind] at this
      exact this
    have r : newResult junk (.ok [n, c, H.m, W.m]) (fun s m => poolOp .nchw acc (poolTrait H W) s
        (tab [n, c, H.n, W.n] (fn4 fun b k i j => X b i j k)) m) =
        ⟨1, .ok (tab [n, c, H.m, W.m] (fn4 fun b k i j => Z b i j k))⟩ :=
      newResult_run (Ops.poolNchw_run hH hW ht.rH ht.rW acc _ _ (fun b hb k hk i hi j hj => hZ b hb i hi j hj k hk)
        (fresh_length _ _))
    have hi : imageShape .nchw (tab [n, c, H.n, W.n] (fn4 fun b k i j => X b i j k)).dims = .ok (H.n, W.n) := rfl
    unfold pool
    rw [hi, Alloc.lift_ok, Alloc.ok_bind, op, Alloc.lift_ok, Alloc.ok_bind, tab_dims, s, r, Alloc.ok_bind]
    rfl

theorem shifted_self {a : Axis} (h : a.l = 0) : shifted a = a := by
  obtain ⟨k, s, r, l, q, n, m⟩ := a
  simp only at h
  subst h
  simp [shifted]

/-- C110, what holds (max pooling): with a policy that puts no padding in front of the image, the layer returns in both
layouts the greatest pixel under every window, `lowest` under a window in the padding. Missing from the full claim: padding
in front, see `C110_padding_misplaced`. -/
theorem C110_max_partial [LinearOrder R] [Zero R] (junk : Nat → R) {lowest : R} {H W : Axis} (hH : AxisOK u32 H)
    (hW : AxisOK u32 W) {t : PoolLayer} (ht : PoolHasAxes t H W) (lH : H.l = 0) (lW : W.l = 0) {n c : Nat}
    (X : Nat → Nat → Nat → Nat → R) (hlow : ∀ b < n, ∀ i < H.n, ∀ j < W.n, ∀ k < c, lowest ≤ X b i j k) :
    ∃ Z : Nat → Nat → Nat → Nat → R,
      pool .nhwc junk (Acc.max lowest) t (tab [n, H.n, W.n, c] (fn4 X)) =
        ⟨1, .ok ⟨tab [n, H.m, W.m, c] (fn4 Z), []⟩⟩ ∧
      pool .nchw junk (Acc.max lowest) t (tab [n, c, H.n, W.n] (fn4 fun b k i j => X b i j k)) =
        ⟨1, .ok ⟨tab [n, c, H.m, W.m] (fn4 fun b k i j => Z b i j k), []⟩⟩ ∧
      ∀ b < n, ∀ i < H.m, ∀ j < W.m, ∀ k < c, IsWindowMax lowest H W (fun a a' => X b a a' k) i j (Z b i j k) := by
  refine ⟨fun b i j k => (pixels H W (fun a a' => X b a a' k) i j).foldl (fun v x => if x > v then x else v) lowest, ?_⟩
  obtain ⟨r1, r2⟩ := poolLayer_gen junk (Acc.max lowest) (n := n) (c := c) hH hW ht X (fun b i j k =>
    (pixels H W (fun a a' => X b a a' k) i j).foldl (fun v x => if x > v then x else v) lowest)
    (fun b _ i _ j _ k _ => by rw [shifted_self lH, shifted_self lW]; exact max_run lowest _)
  exact ⟨r1, r2, fun b hb i _ j _ k hk => fold_isMax H W _ (fun a ha a' ha' => hlow b hb a ha a' ha' k hk) i j⟩

/-- C110, what holds (mean pooling), with the same restriction: the mean of the pixels under every window, over any field,
windows that hold no pixel excepted (the code divides by the number 0 there). -/
theorem C110_mean_partial {F : Type} [Field F] (junk : Nat → F) {H W : Axis} (hH : AxisOK u32 H)
    (hW : AxisOK u32 W) {t : PoolLayer} (ht : PoolHasAxes t H W) (lH : H.l = 0) (lW : W.l = 0) (hk : H.k * W.k < 2 ^ 32)
    {n c : Nat} (X : Nat → Nat → Nat → Nat → F) :
    ∃ Z : Nat → Nat → Nat → Nat → F,
      pool .nhwc junk (Acc.mean fun s n => s / (n : F)) t (tab [n, H.n, W.n, c] (fn4 X)) =
        ⟨1, .ok ⟨tab [n, H.m, W.m, c] (fn4 Z), []⟩⟩ ∧
      pool .nchw junk (Acc.mean fun s n => s / (n : F)) t (tab [n, c, H.n, W.n] (fn4 fun b k i j => X b i j k)) =
        ⟨1, .ok ⟨tab [n, c, H.m, W.m] (fn4 fun b k i j => Z b i j k), []⟩⟩ ∧
      ∀ b < n, ∀ i < H.m, ∀ j < W.m, ∀ k < c, (win H W i j).Nonempty →
        Z b i j k = (∑ p ∈ win H W i j, X b p.1 p.2 k) / ((win H W i j).card : F) := by
  refine ⟨fun b i j k => (∑ p ∈ win H W i j, X b p.1 p.2 k) / ((win H W i j).card : F), ?_⟩
  obtain ⟨r1, r2⟩ := poolLayer_gen junk (Acc.mean fun s n => s / (n : F)) (n := n) (c := c) hH hW ht X (fun b i j k =>
    (∑ p ∈ win H W i j, X b p.1 p.2 k) / ((win H W i j).card : F)) (fun b _ i _ j _ k _ => by
      rw [shifted_self lH, shifted_self lW]
      have hl := pixels_length hH.fits.r1 hW.fits.r1 (fun a a' => X b a a' k) i j
      have hs := pixels_sum hH.fits.r1 hW.fits.r1 (fun a a' => X b a a' k) i j
      have hc := win_card_le hH.fits.r1 hW.fits.r1 i j
      rw [mean_run _ _ (by omega), hl, foldl_add_sum, hs])
  exact ⟨r1, r2, fun b _ i _ j _ k _ _ => rfl⟩

/-- C110, the exact effect of any policy (max pooling): the layer pools as if all the padding were behind the image. With
padding in front the windows so lie further ahead than the policy says (`C110_padding_misplaced`). -/
theorem C110_max_effect [LinearOrder R] [Zero R] (junk : Nat → R) {lowest : R} {H W : Axis} (hH : AxisOK u32 H)
    (hW : AxisOK u32 W) {t : PoolLayer} (ht : PoolHasAxes t H W) {n c : Nat} (X : Nat → Nat → Nat → Nat → R)
    (hlow : ∀ b < n, ∀ i < H.n, ∀ j < W.n, ∀ k < c, lowest ≤ X b i j k) :
    ∃ Z : Nat → Nat → Nat → Nat → R,
      pool .nhwc junk (Acc.max lowest) t (tab [n, H.n, W.n, c] (fn4 X)) =
        ⟨1, .ok ⟨tab [n, H.m, W.m, c] (fn4 Z), []⟩⟩ ∧
      pool .nchw junk (Acc.max lowest) t (tab [n, c, H.n, W.n] (fn4 fun b k i j => X b i j k)) =
        ⟨1, .ok ⟨tab [n, c, H.m, W.m] (fn4 fun b k i j => Z b i j k), []⟩⟩ ∧
      ∀ b < n, ∀ i < H.m, ∀ j < W.m, ∀ k < c, IsWindowMax lowest { H with l := 0, q := H.l + H.q }
        { W with l := 0, q := W.l + W.q } (fun a a' => X b a a' k) i j (Z b i j k) := by
  refine ⟨fun b i j k => (pixels (shifted H) (shifted W) (fun a a' => X b a a' k) i j).foldl
    (fun v x => if x > v then x else v) lowest, ?_⟩
  obtain ⟨r1, r2⟩ := poolLayer_gen junk (Acc.max lowest) (n := n) (c := c) hH hW ht X (fun b i j k =>
    (pixels (shifted H) (shifted W) (fun a a' => X b a a' k) i j).foldl (fun v x => if x > v then x else v) lowest)
    (fun b _ i _ j _ k _ => max_run lowest _)
  exact ⟨r1, r2, fun b hb i _ j _ k hk =>
    fold_isMax (shifted H) (shifted W) _ (fun a ha a' ha' => hlow b hb a ha a' ha' k hk) i j⟩

/-- C110, the exact effect of any policy (mean pooling). -/
theorem C110_mean_effect {F : Type} [Field F] (junk : Nat → F) {H W : Axis} (hH : AxisOK u32 H)
    (hW : AxisOK u32 W) {t : PoolLayer} (ht : PoolHasAxes t H W) (hk : H.k * W.k < 2 ^ 32)
    {n c : Nat} (X : Nat → Nat → Nat → Nat → F) :
    ∃ Z : Nat → Nat → Nat → Nat → F,
      pool .nhwc junk (Acc.mean fun s n => s / (n : F)) t (tab [n, H.n, W.n, c] (fn4 X)) =
        ⟨1, .ok ⟨tab [n, H.m, W.m, c] (fn4 Z), []⟩⟩ ∧
      pool .nchw junk (Acc.mean fun s n => s / (n : F)) t (tab [n, c, H.n, W.n] (fn4 fun b k i j => X b i j k)) =
        ⟨1, .ok ⟨tab [n, c, H.m, W.m] (fn4 fun b k i j => Z b i j k), []⟩⟩ ∧
      ∀ b < n, ∀ i < H.m, ∀ j < W.m, ∀ k < c,
        let V := win { H with l := 0, q := H.l + H.q } { W with l := 0, q := W.l + W.q } i j
        V.Nonempty → Z b i j k = (∑ p ∈ V, X b p.1 p.2 k) / (V.card : F) := by
  refine ⟨fun b i j k => (∑ p ∈ win (shifted H) (shifted W) i j, X b p.1 p.2 k) /
    ((win (shifted H) (shifted W) i j).card : F), ?_⟩
  obtain ⟨r1, r2⟩ := poolLayer_gen junk (Acc.mean fun s n => s / (n : F)) (n := n) (c := c) hH hW ht X (fun b i j k =>
    (∑ p ∈ win (shifted H) (shifted W) i j, X b p.1 p.2 k) / ((win (shifted H) (shifted W) i j).card : F))
    (fun b _ i _ j _ k _ => by
      have r1 : 1 ≤ (shifted H).r := hH.fits.r1
      have r2 : 1 ≤ (shifted W).r := hW.fits.r1
      have hl := pixels_length r1 r2 (fun a a' => X b a a' k) i j
      have hs := pixels_sum r1 r2 (fun a a' => X b a a' k) i j
      have hc := win_card_le r1 r2 i j
      have hc' : (win (shifted H) (shifted W) i j).card ≤ H.k * W.k := hc
      rw [mean_run _ _ (by omega), hl, foldl_add_sum, hs])
  exact ⟨r1, r2, fun b _ i _ j _ k _ _ => rfl⟩

/-- C110 (valid padding): with stride `s` dividing `n - k` on both sides, valid padding adds none, so that the theorems above
apply to layers of any kernel and stride. -/
theorem C110_valid {k1 k2 s1 s2 h w : Nat} (p1 : 1 ≤ k1) (p2 : 1 ≤ k2) (q1 : 1 ≤ s1) (q2 : 1 ≤ s2)
    (hk1 : u32.In k1) (hk2 : u32.In k2) (hs1 : u32.In s1) (hs2 : u32.In s2) (hh : u32.In ((h + s1 : Nat) : Int))
    (hw : u32.In ((w + s2 : Nat) : Int)) (lh : k1 ≤ h) (lw : k2 ≤ w) (d1 : s1 ∣ h - k1) (d2 : s2 ∣ w - k2) :
    let H : Axis := ⟨k1, s1, 1, 0, 0, h, (h - k1) / s1 + 1⟩
    let W : Axis := ⟨k2, s2, 1, 0, 0, w, (w - k2) / s2 + 1⟩
    AxisOK u32 H ∧ AxisOK u32 W ∧ PoolHasAxes (PoolLayer.make ((k1 : Int), (k2 : Int)) (Sample.paddingValid u32)
      ((s1 : Int), (s2 : Int))) H W := by
  have one : ∀ k s n : Nat, 1 ≤ k → 1 ≤ s → u32.In k → u32.In s → u32.In ((n + s : Nat) : Int) → k ≤ n → s ∣ n - k →
      Sample.validPadding u32 k s (1 : Nat) n = .ok ⟨0, 0⟩ ∧ AxisOK u32 ⟨k, s, 1, 0, 0, n, (n - k) / s + 1⟩ := by
    intro k s n hk hs ik is ins hn hd
    have p := patch_one k hk
    obtain ⟨l, q, e, hlq, ok⟩ := valid_axis hk hs (r := 1) (le_refl 1) ik is (by decide) ins (by rw [p]; exact hn)
    obtain ⟨c, hc⟩ := hd
    have hm : (n - k + s - 1) / s = c := by
      rw [hc, Nat.div_eq_iff (by omega), Nat.mul_comm c s]
      constructor <;> omega
    have hm' : (n - k) / s = c := by
      rw [hc]; exact Nat.mul_div_cancel_left _ (by omega)
    rw [p, hm] at ok
    have cov := ok.covers.2
    simp only [p] at cov
    have : l + q = 0 := by
      rw [Nat.add_sub_cancel, Nat.mul_comm c s] at cov
      omega
    have l0 : l = 0 := by omega
    have q0 : q = 0 := by omega
    subst l0 q0
    rw [hm']
    exact ⟨e, ok⟩
  obtain ⟨e1, o1⟩ := one k1 s1 h p1 q1 hk1 hs1 hh lh d1
  obtain ⟨e2, o2⟩ := one k2 s2 w p2 q2 hk2 hs2 hw lw d2
  exact ⟨o1, o2, pair_eq hk1 hk2, pair_eq hs1 hs2, rfl, rfl, e1, e2⟩

/-- C110 (rejected images): a policy that throws for one of the sides makes the layer throw the same, with nothing left
allocated. -/
theorem C110_rejects {o : Order} (junk : Nat → R) (acc : Acc R) {t : PoolLayer} {n h w c : Nat} {xs : List Nat} {e : Err}
    (hx : batchedImageShape o n (h, w) c = .ok xs)
    (he : t.padding t.ksize.1 t.stride.1 1 h = .throw e ∨
      (∃ p, t.padding t.ksize.1 t.stride.1 1 h = .ok p) ∧ t.padding t.ksize.2 t.stride.2 1 w = .throw e) (d : List R) :
    pool o junk acc t ⟨xs, d⟩ = ⟨0, .throw e⟩ := by
  have hi : imageShape o xs = .ok (h, w) := by
    cases o <;> simp only [batchedImageShape, reduceCtorEq, Outcome.ok.injEq] at hx <;> subst hx <;> rfl
  have op : t.opTrait (h, w) = .throw e := by
    unfold PoolLayer.opTrait
    rcases he with he | ⟨⟨p, hp⟩, he⟩
    · rw [he, Outcome.throw_bind]
    · rw [hp, Outcome.ok_bind, he, Outcome.throw_bind]
  unfold pool
  simp only [hi]
  rw [Alloc.lift_ok, Alloc.ok_bind, op, Alloc.lift_throw, Alloc.throw_bind]
  rfl

/-- C110 is false with padding in front: a 2 × 2 max pooling layer with stride 2 and one cell of padding on every side of a
2 × 2 image. Under every window lies exactly one pixel; the layer returns the greatest of them once and `lowest` three
times. -/
theorem C110_padding_misplaced :
    let a : Axis := ⟨2, 2, 1, 1, 1, 2, 2⟩
    let t := PoolLayer.make (2, 2) (Sample.paddingFixed ⟨1, 1⟩) (2, 2)
    AxisOK u32 a ∧ PoolHasAxes t a a ∧ (∀ i < 2, ∀ j < 2, win a a i j = {(i, j)}) ∧
    pool .nhwc (fun _ => (0 : Int)) (Acc.max (-99)) t ⟨[1, 2, 2, 1], [1, 2, 3, 4]⟩ =
      ⟨1, .ok ⟨⟨[1, 2, 2, 1], [4, -99, -99, -99]⟩, []⟩⟩ ∧
    pool .nchw (fun _ => (0 : Int)) (Acc.max (-99)) t ⟨[1, 1, 2, 2], [1, 2, 3, 4]⟩ =
      ⟨1, .ok ⟨⟨[1, 1, 2, 2], [4, -99, -99, -99]⟩, []⟩⟩ := by
  refine ⟨⟨⟨u32_std, u32_std, ?_, ?_, ?_, ?_, ?_, ?_, ?_, ?_, ?_, ?_, ?_, ?_⟩, ?_⟩, ⟨?_, ?_, ?_, ?_, ?_, ?_⟩, ?_, ?_, ?_⟩ <;>
    decide

/-- Non-vacuity: overlapping windows, 3 × 2 with strides 2 and 1 on a 5 × 3 image, no padding. -/
example : let t := PoolLayer.make (3, 2) (Sample.paddingValid u32) (2, 1)
    PoolHasAxes t ⟨3, 2, 1, 0, 0, 5, 2⟩ ⟨2, 1, 1, 0, 0, 3, 2⟩ ∧
    pool .nhwc (fun _ => (0 : Int)) (Acc.max (-99)) t
      ⟨[1, 5, 3, 1], [1, 2, 3, 4, 5, 6, 7, 8, 9, 10, 11, 12, 13, 14, 15]⟩ = ⟨1, .ok ⟨⟨[1, 2, 2, 1], [8, 9, 14, 15]⟩, []⟩⟩ ∧
    pool .nhwc (fun _ => (0 : Rat)) (Acc.mean fun s n => s / (n : Rat)) t
      ⟨[1, 5, 3, 1], [1, 2, 3, 4, 5, 6, 7, 8, 9, 10, 11, 12, 13, 14, 15]⟩ =
        ⟨1, .ok ⟨⟨[1, 2, 2, 1], [9 / 2, 11 / 2, 21 / 2, 23 / 2]⟩, []⟩⟩ ∧
    2 ∣ 5 - 3 ∧ 1 ∣ 3 - 2 := by
  refine ⟨⟨?_, ?_, ?_, ?_, ?_, ?_⟩, ?_, ?_, ?_⟩ <;> decide +kernel

/-- Non-vacuity of the rejection: same padding with stride 3 and kernel 3 on a 4 × 3 image. -/
example : (PoolLayer.makeK (3, 3)).padding 3 3 1 4 = .throw .runtimeError ∧
    batchedImageShape .nchw 2 (4, 3) 1 = .ok [2, 1, 4, 3] := by decide

/-! ## Concrete cases

A pooling layer of 2x2 windows with strides (1, 2), without padding and with one pixel of padding on every side. -/

def exPool : PoolLayer := PoolLayer.make (2, 2) (Sample.paddingValid u32) (1, 2)
def exPoolH : Axis := ⟨2, 1, 1, 0, 0, 3, 2⟩
def exPoolW : Axis := ⟨2, 2, 1, 0, 0, 4, 2⟩
def exPad : PoolLayer := PoolLayer.make (2, 2) (Sample.paddingFixed ⟨1, 1⟩) (1, 2)
def exPadH : Axis := ⟨2, 1, 1, 1, 1, 3, 4⟩
def exPadW : Axis := ⟨2, 2, 1, 1, 1, 4, 3⟩

theorem exPoolH_ok : AxisOK u32 exPoolH := by
  refine ⟨⟨?_, ?_, ?_, ?_, ?_, ?_, ?_, ?_, ?_, ?_, ?_, ?_, ?_, ?_⟩, ?_⟩ <;> decide
theorem exPoolW_ok : AxisOK u32 exPoolW := by
  refine ⟨⟨?_, ?_, ?_, ?_, ?_, ?_, ?_, ?_, ?_, ?_, ?_, ?_, ?_, ?_⟩, ?_⟩ <;> decide
theorem exPadH_ok : AxisOK u32 exPadH := by
  refine ⟨⟨?_, ?_, ?_, ?_, ?_, ?_, ?_, ?_, ?_, ?_, ?_, ?_, ?_, ?_⟩, ?_⟩ <;> decide
theorem exPadW_ok : AxisOK u32 exPadW := by
  refine ⟨⟨?_, ?_, ?_, ?_, ?_, ?_, ?_, ?_, ?_, ?_, ?_, ?_, ?_, ?_⟩, ?_⟩ <;> decide
theorem exPool_axes : PoolHasAxes exPool exPoolH exPoolW := by
  refine ⟨?_, ?_, ?_, ?_, ?_, ?_⟩ <;> decide
theorem exPad_axes : PoolHasAxes exPad exPadH exPadW := by
  refine ⟨?_, ?_, ?_, ?_, ?_, ?_⟩ <;> decide

example := C110_max_partial (R := Int) (fun _ => 9) (lowest := -128) exPoolH_ok exPoolW_ok exPool_axes rfl rfl (n := 2)
  (c := 2) (fun b i j k => b + i - j * k) (by decide)
example := C110_mean_partial (F := ℚ) (fun _ => 9) exPoolH_ok exPoolW_ok exPool_axes rfl rfl (by decide) (n := 2) (c := 2)
  (fun b i j k => b + i - j * k)
example := C110_max_effect (R := Int) (fun _ => 9) (lowest := -128) exPadH_ok exPadW_ok exPad_axes (n := 2)
  (c := 2) (fun b i j k => b + i - j * k) (by decide)
example := C110_mean_effect (F := ℚ) (fun _ => 9) exPadH_ok exPadW_ok exPad_axes (by decide) (n := 2) (c := 2)
  (fun b i j k => b + i - j * k)
example := C110_valid (k1 := 3) (k2 := 2) (s1 := 2) (s2 := 1) (h := 5) (w := 3) (by decide) (by decide) (by decide)
  (by decide) (by decide) (by decide) (by decide) (by decide) (by decide) (by decide) (by decide) (by decide) (by decide)
  (by decide)
example := C110_rejects (o := .nchw) (fun _ => (0 : Int)) (Acc.max (-99)) (t := PoolLayer.makeK (3, 3)) (n := 2) (h := 3)
  (w := 4) (c := 1) (xs := [2, 1, 3, 4]) (e := .runtimeError) (by decide) (.inr ⟨⟨⟨0, 0⟩, by decide⟩, by decide⟩)
  (List.replicate 24 7)

end StdNN
