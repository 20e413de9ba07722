import Verif.Props.ConvLaws
import Verif.Props.Concat
/-!
# C141: convolution and pooling are local

An output depends on the pixels under its window only. So convolving or pooling a part of an image gives a part of the
result, and a shifted image gives a shifted result, for any arithmetic, bit for bit.
-/
namespace StdNN
open IntTy Spec Outcome
variable {R : Type}

/-! ## One window -/

/-- C141 (one window, nhwc): two images, perhaps of different sizes, in different batches and with different padding, that
agree under one window each have the same results there. -/
theorem C141_window_nhwc [Zero R] [Add R] [Mul R] {H W H' W' : Axis} (hH : AxisOK u32 H) (hW : AxisOK u32 W) (hH' : AxisOK u32 H')
    (hW' : AxisOK u32 W') (kH : H'.k = H.k) (kW : W'.k = W.k) {n n' c d : Nat} (hsz : [H.n, W.n, c].prod ≤ 2 ^ 31)
    (hsz' : [H'.n, W'.n, c].prod ≤ 2 ^ 31) (X X' Y : Nat → Nat → Nat → Nat → R) (junkI junkI' : Nat → Int) (junk junk' : Nat → R)
    {z z' : List R} (hz : z.length = [n, H.m, W.m, d].prod) (hz' : z'.length = [n', H'.m, W'.m, d].prod) :
    ∃ Z Z' : Nat → Nat → Nat → Nat → R,
      Kernels.convNhwc (convTrait H W) junkI junk [n, H.m, W.m, d] (tab [n, H.n, W.n, c] (fn4 X)) (tab [H.k, W.k, c, d] (fn4 Y)) z =
        .ok (tab [n, H.m, W.m, d] (fn4 Z)).data ∧
      Kernels.convNhwc (convTrait H' W') junkI' junk' [n', H'.m, W'.m, d] (tab [n', H'.n, W'.n, c] (fn4 X'))
        (tab [H.k, W.k, c, d] (fn4 Y)) z' = .ok (tab [n', H'.m, W'.m, d] (fn4 Z')).data ∧
      ∀ b b' i i' j j', (∀ u < H.k, ∀ v < W.k, ∀ k < c,
          window H' W' (fun a a' => X' b' a a' k) i' j' u v = window H W (fun a a' => X b a a' k) i j u v) →
        ∀ e, Z' b' i' j' e = Z b i j e := by
  have h' := C91_conv_order hH' hW' hsz' X' Y junkI' junk' hz'
  rw [kH, kW] at h'
  refine ⟨_, _, C91_conv_order hH hW hsz X Y junkI junk hz, h', fun b b' i i' j j' h e => seqSum_congr fun p hp => ?_⟩
  have hc : 0 < W.k * c := Nat.pos_of_ne_zero fun h0 => by rw [h0] at hp; omega
  have c0 : 0 < c := Nat.pos_of_mul_pos_left hc
  have h1 : p / (W.k * c) < H.k := Nat.div_lt_of_lt_mul (by rw [Nat.mul_comm]; exact hp)
  have h2 : p % (W.k * c) / c < W.k := Nat.div_lt_of_lt_mul (by rw [Nat.mul_comm c]; exact Nat.mod_lt _ hc)
  have h3 : p % (W.k * c) % c < c := Nat.mod_lt _ c0
  dsimp only
  rw [h _ h1 _ h2 _ h3]

/-- C141 (one window, nchw). -/
theorem C141_window_nchw [Zero R] [Add R] [Mul R] {H W H' W' : Axis} (hH : AxisOK u32 H) (hW : AxisOK u32 W) (hH' : AxisOK u32 H')
    (hW' : AxisOK u32 W') (kH : H'.k = H.k) (kW : W'.k = W.k) {n n' c d : Nat} (X X' Y : Nat → Nat → Nat → Nat → R)
    (junk junk' : Nat → R) {z z' : List R} (hz : z.length = [n, d, H.m, W.m].prod) (hz' : z'.length = [n', d, H'.m, W'.m].prod) :
    ∃ Z Z' : Nat → Nat → Nat → Nat → R,
      Kernels.convNchw (convTrait H W) junk [n, d, H.m, W.m] (tab [n, c, H.n, W.n] (fn4 X)) (tab [d, c, H.k, W.k] (fn4 Y)) z =
        .ok (tab [n, d, H.m, W.m] (fn4 Z)).data ∧
      Kernels.convNchw (convTrait H' W') junk' [n', d, H'.m, W'.m] (tab [n', c, H'.n, W'.n] (fn4 X'))
        (tab [d, c, H.k, W.k] (fn4 Y)) z' = .ok (tab [n', d, H'.m, W'.m] (fn4 Z')).data ∧
      ∀ b b' i i' j j', (∀ u < H.k, ∀ v < W.k, ∀ k < c, window H' W' (X' b' k) i' j' u v = window H W (X b k) i j u v) →
        ∀ e, Z' b' e i' j' = Z b e i j := by
  have h' := C91_conv_order_nchw (c := c) hH' hW' X' Y junk' hz'
  rw [kH, kW] at h'
  refine ⟨_, _, C91_conv_order_nchw hH hW X Y junk hz, h', fun b b' i i' j j' h e => seqSum_congr fun p hp => ?_⟩
  have hk : 0 < H.k * W.k := Nat.mul_pos hH.fits.k1 hW.fits.k1
  have h1 : p / (H.k * W.k) < c := Nat.div_lt_of_lt_mul (by rw [Nat.mul_comm]; exact hp)
  have h2 : p % (H.k * W.k) / W.k < H.k := Nat.div_lt_of_lt_mul (by rw [Nat.mul_comm W.k]; exact Nat.mod_lt _ hk)
  have h3 : p % (H.k * W.k) % W.k < W.k := Nat.mod_lt _ hW.fits.k1
  dsimp only
  rw [h _ h2 _ h3 _ h1]

/-! ## Parts of an image -/

/-- The axis `a'` is the part of `a` that starts at cell `o` and has its first window where `a` has window `t`; it lies
inside the image and is not padded. -/
structure PartOf (a a' : Axis) (t o : Nat) : Prop where
  k : a'.k = a.k
  s : a'.s = a.s
  r : a'.r = a.r
  l : a'.l = 0
  q : a'.q = 0
  start : o + a.l = t * a.s
  stop : o + a'.n ≤ a.n

/-- The windows of a part are windows of the whole. -/
theorem PartOf.windows {N : IntTy} {a a' : Axis} {t o : Nat} (h : AxisOK N a) (h' : AxisOK N a') (c : PartOf a a' t o) : t + a'.m ≤ a.m := by
  obtain ⟨m1, h1⟩ := h.covers
  obtain ⟨m1', h2⟩ := h'.covers
  have s1 : 1 ≤ a.s := h.fits.s1
  rw [c.k, c.r, c.l, c.q, c.s] at h2
  have hs := c.start
  have he := c.stop
  by_contra hh
  have : a.m * a.s ≤ (t + a'.m - 1) * a.s := Nat.mul_le_mul_right _ (by omega)
  have e1 : (t + a'.m - 1) * a.s = t * a.s + (a'.m - 1) * a.s := by rw [← Nat.add_mul]; congr 1; omega
  have e2 : a.m * a.s = (a.m - 1) * a.s + a.s := by rw [← Nat.succ_mul]; congr 1; omega
  omega

theorem PartOf.pos {N : IntTy} {a a' : Axis} {t o : Nat} (h' : AxisOK N a') (c : PartOf a a' t o) {i u : Nat} (hi : i < a'.m) (hu : u < a.k) :
    a'.pos i u < a'.n ∧ a.pos (t + i) u = a.l + (o + a'.pos i u) := by
  obtain ⟨m1', h2⟩ := h'.covers
  rw [c.l, c.q, c.s] at h2
  have b1 : i * a.s ≤ (a'.m - 1) * a.s := Nat.mul_le_mul_right _ (by omega)
  have b2 : u * a.r ≤ (a.k - 1) * a.r := Nat.mul_le_mul_right _ (by omega)
  have hs := c.start
  have e : (t + i) * a.s = t * a.s + i * a.s := Nat.add_mul ..
  unfold patch at h2
  rw [c.k, c.r] at h2
  unfold Axis.pos
  rw [c.s, c.r]
  omega

theorem PartOf.window [Zero R] {H W H' W' : Axis} {N : IntTy} (hH' : AxisOK N H') (hW' : AxisOK N W') {t o t' o' : Nat}
    (cH : PartOf H H' t o) (cW : PartOf W W' t' o') (X : Nat → Nat → R) {i j u v : Nat} (hi : i < H'.m) (hj : j < W'.m) (hu : u < H.k)
    (hv : v < W.k) : Spec.window H' W' (fun a b => X (o + a) (o' + b)) i j u v = Spec.window H W X (t + i) (t' + j) u v := by
  obtain ⟨p1, p2⟩ := cH.pos hH' hi hu
  obtain ⟨q1, q2⟩ := cW.pos hW' hj hv
  have s1 := cH.stop
  have s2 := cW.stop
  have l1 := cH.l
  have l2 := cW.l
  unfold Spec.window padded
  rw [if_pos (c := H'.l ≤ _ ∧ _) (by omega), if_pos (c := H.l ≤ _ ∧ _) (by omega)]
  dsimp only
  rw [if_pos (c := W'.l ≤ _ ∧ _) (by omega), if_pos (c := W.l ≤ _ ∧ _) (by omega)]
  congr 1 <;> omega

/-- C141 (parts, nhwc): convolving a part of the images gives the part of the result that belongs to it. -/
theorem C141_crop_nhwc [Zero R] [Add R] [Mul R] {H W H' W' : Axis} (hH : AxisOK u32 H) (hW : AxisOK u32 W) (hH' : AxisOK u32 H')
    (hW' : AxisOK u32 W') {t o t' o' : Nat} (cH : PartOf H H' t o) (cW : PartOf W W' t' o') {n c d : Nat}
    (hsz : [H.n, W.n, c].prod ≤ 2 ^ 31) (X Y : Nat → Nat → Nat → Nat → R) (junkI junkI' : Nat → Int) (junk junk' : Nat → R)
    {z z' : List R} (hz : z.length = [n, H.m, W.m, d].prod) (hz' : z'.length = [n, H'.m, W'.m, d].prod) :
    t + H'.m ≤ H.m ∧ t' + W'.m ≤ W.m ∧
    ∃ Z : Nat → Nat → Nat → Nat → R,
      Kernels.convNhwc (convTrait H W) junkI junk [n, H.m, W.m, d] (tab [n, H.n, W.n, c] (fn4 X)) (tab [H.k, W.k, c, d] (fn4 Y)) z =
        .ok (tab [n, H.m, W.m, d] (fn4 Z)).data ∧
      Kernels.convNhwc (convTrait H' W') junkI' junk' [n, H'.m, W'.m, d]
        (tab [n, H'.n, W'.n, c] (fn4 fun b i j k => X b (o + i) (o' + j) k)) (tab [H.k, W.k, c, d] (fn4 Y)) z' =
          .ok (tab [n, H'.m, W'.m, d] (fn4 fun b i j e => Z b (t + i) (t' + j) e)).data := by
  have hsz' : [H'.n, W'.n, c].prod ≤ 2 ^ 31 := by
    refine le_trans ?_ hsz
    simp only [List.prod_cons, List.prod_nil, Nat.mul_one]
    have := cH.stop
    have := cW.stop
    exact Nat.mul_le_mul (by omega) (Nat.mul_le_mul_right _ (by omega))
  obtain ⟨Z, Z', h1, h2, h3⟩ := C141_window_nhwc hH hW hH' hW' cH.k cW.k hsz hsz' X (fun b i j k => X b (o + i) (o' + j) k) Y junkI
    junkI' junk junk' hz hz'
  refine ⟨cH.windows hH hH', cW.windows hW hW', Z, h1, h2.trans (congrArg Outcome.ok (tab4_congr fun b _ i hi j hj e _ => ?_))⟩
  exact h3 b b (t + i) i (t' + j) j (fun u hu v hv k _ => cH.window hH' hW' cW (fun a a' => X b a a' k) hi hj hu hv) e

/-- C141 (parts, nchw). -/
theorem C141_crop_nchw [Zero R] [Add R] [Mul R] {H W H' W' : Axis} (hH : AxisOK u32 H) (hW : AxisOK u32 W) (hH' : AxisOK u32 H')
    (hW' : AxisOK u32 W') {t o t' o' : Nat} (cH : PartOf H H' t o) (cW : PartOf W W' t' o') {n c d : Nat}
    (X Y : Nat → Nat → Nat → Nat → R) (junk junk' : Nat → R) {z z' : List R} (hz : z.length = [n, d, H.m, W.m].prod)
    (hz' : z'.length = [n, d, H'.m, W'.m].prod) :
    t + H'.m ≤ H.m ∧ t' + W'.m ≤ W.m ∧
    ∃ Z : Nat → Nat → Nat → Nat → R,
      Kernels.convNchw (convTrait H W) junk [n, d, H.m, W.m] (tab [n, c, H.n, W.n] (fn4 X)) (tab [d, c, H.k, W.k] (fn4 Y)) z =
        .ok (tab [n, d, H.m, W.m] (fn4 Z)).data ∧
      Kernels.convNchw (convTrait H' W') junk' [n, d, H'.m, W'.m]
        (tab [n, c, H'.n, W'.n] (fn4 fun b k i j => X b k (o + i) (o' + j))) (tab [d, c, H.k, W.k] (fn4 Y)) z' =
          .ok (tab [n, d, H'.m, W'.m] (fn4 fun b e i j => Z b e (t + i) (t' + j))).data := by
  obtain ⟨Z, Z', h1, h2, h3⟩ := C141_window_nchw hH hW hH' hW' cH.k cW.k X (fun b k i j => X b k (o + i) (o' + j)) Y junk junk' hz hz'
  refine ⟨cH.windows hH hH', cW.windows hW hW', Z, h1, h2.trans (congrArg Outcome.ok (tab4_congr fun b _ e _ i hi j hj => ?_))⟩
  exact h3 b b (t + i) i (t' + j) j (fun u hu v hv k _ => cH.window hH' hW' cW (X b k) hi hj hu hv) e

/-! ## Shifted images -/

theorem padded_shift [Zero R] (l n d p : Nat) (f : Nat → R) (hp : p + d < l + n) :
    padded l n (fun a => if a < d then 0 else f (a - d)) (p + d) = padded l n f p := by
  unfold padded
  by_cases h : l ≤ p
  · rw [if_pos (by omega), if_pos (by omega)]
    dsimp only
    rw [if_neg (by omega)]
    congr 1
    omega
  · rw [if_neg (c := l ≤ p ∧ _) (by omega)]
    split
    · dsimp only
      rw [if_pos (by omega)]
    · rfl

theorem window_shift [Zero R] {H W : Axis} (X : Nat → Nat → R) {t t' i j u v : Nat} (hu : H.pos (i + t) u < H.l + H.n)
    (hv : W.pos (j + t') v < W.l + W.n) :
    window H W (fun a b => if a < t * H.s ∨ b < t' * W.s then 0 else X (a - t * H.s) (b - t' * W.s)) (i + t) (j + t') u v =
      window H W X i j u v := by
  have e1 : H.pos (i + t) u = H.pos i u + t * H.s := by unfold Axis.pos; rw [Nat.add_mul]; omega
  have e2 : W.pos (j + t') v = W.pos j v + t' * W.s := by unfold Axis.pos; rw [Nat.add_mul]; omega
  unfold window
  rw [e1] at hu ⊢
  rw [e2] at hv ⊢
  have e : (fun a => padded W.l W.n (fun b => if a < t * H.s ∨ b < t' * W.s then 0 else X (a - t * H.s) (b - t' * W.s))
        (W.pos j v + t' * W.s)) =
      fun a => if a < t * H.s then 0 else (fun a => padded W.l W.n (X a) (W.pos j v)) (a - t * H.s) := by
    funext a
    by_cases ha : a < t * H.s
    · simp only [ha, true_or, if_true]
      unfold padded
      simp
    · simp only [ha, false_or, if_false]
      exact padded_shift _ _ _ _ (X (a - t * H.s)) hv
  rw [e]
  exact padded_shift _ _ (t * H.s) (H.pos i u) (fun a => padded W.l W.n (X a) (W.pos j v)) hu

/-- A window that does not reach behind the image is one of the windows. -/
theorem AxisOK.window_lt {N : IntTy} {a : Axis} (h : AxisOK N a) {i : Nat} (hi : a.pos i (a.k - 1) < a.l + a.n) : i < a.m := by
  obtain ⟨m1, h1⟩ := h.covers
  have s1 : 1 ≤ a.s := h.fits.s1
  unfold Axis.pos at hi
  unfold patch at h1
  by_contra hh
  have : a.m * a.s ≤ i * a.s := Nat.mul_le_mul_right _ (by omega)
  have e2 : a.m * a.s = (a.m - 1) * a.s + a.s := by rw [← Nat.succ_mul]; congr 1; omega
  omega

/-- C141 (shift, nhwc): images moved down and to the right by multiples of the stride, with zeros in the place of what is
missing, have results moved by as many windows; this holds for all windows that do not reach behind the images. -/
theorem C141_shift_nhwc [Zero R] [Add R] [Mul R] {H W : Axis} (hH : AxisOK u32 H) (hW : AxisOK u32 W) {n c d : Nat}
    (hsz : [H.n, W.n, c].prod ≤ 2 ^ 31) (X Y : Nat → Nat → Nat → Nat → R) (t t' : Nat) (junkI junkI' : Nat → Int) (junk junk' : Nat → R)
    {z z' : List R} (hz : z.length = [n, H.m, W.m, d].prod) (hz' : z'.length = [n, H.m, W.m, d].prod) :
    ∃ Z Z' : Nat → Nat → Nat → Nat → R,
      Kernels.convNhwc (convTrait H W) junkI junk [n, H.m, W.m, d] (tab [n, H.n, W.n, c] (fn4 X)) (tab [H.k, W.k, c, d] (fn4 Y)) z =
        .ok (tab [n, H.m, W.m, d] (fn4 Z)).data ∧
      Kernels.convNhwc (convTrait H W) junkI' junk' [n, H.m, W.m, d]
        (tab [n, H.n, W.n, c] (fn4 fun b i j k => if i < t * H.s ∨ j < t' * W.s then 0 else X b (i - t * H.s) (j - t' * W.s) k))
        (tab [H.k, W.k, c, d] (fn4 Y)) z' = .ok (tab [n, H.m, W.m, d] (fn4 Z')).data ∧
      ∀ b i j e, H.pos (i + t) (H.k - 1) < H.l + H.n → W.pos (j + t') (W.k - 1) < W.l + W.n →
        i + t < H.m ∧ j + t' < W.m ∧ Z' b (i + t) (j + t') e = Z b i j e := by
  obtain ⟨Z, Z', h1, h2, h3⟩ := C141_window_nhwc hH hW hH hW rfl rfl hsz hsz X
    (fun b i j k => if i < t * H.s ∨ j < t' * W.s then 0 else X b (i - t * H.s) (j - t' * W.s) k) Y junkI junkI' junk junk' hz hz'
  refine ⟨Z, Z', h1, h2, fun b i j e hu hv => ⟨hH.window_lt hu, hW.window_lt hv, h3 b b i (i + t) j (j + t') (fun u hu' v hv' k _ => ?_) e⟩⟩
  exact window_shift (fun a a' => X b a a' k) (lt_of_le_of_lt (Nat.add_le_add_left (Nat.mul_le_mul_right _ (by omega)) _) hu)
    (lt_of_le_of_lt (Nat.add_le_add_left (Nat.mul_le_mul_right _ (by omega)) _) hv)

/-- C141 (shift, nchw). -/
theorem C141_shift_nchw [Zero R] [Add R] [Mul R] {H W : Axis} (hH : AxisOK u32 H) (hW : AxisOK u32 W) {n c d : Nat}
    (X Y : Nat → Nat → Nat → Nat → R) (t t' : Nat) (junk junk' : Nat → R)
    {z z' : List R} (hz : z.length = [n, d, H.m, W.m].prod) (hz' : z'.length = [n, d, H.m, W.m].prod) :
    ∃ Z Z' : Nat → Nat → Nat → Nat → R,
      Kernels.convNchw (convTrait H W) junk [n, d, H.m, W.m] (tab [n, c, H.n, W.n] (fn4 X)) (tab [d, c, H.k, W.k] (fn4 Y)) z =
        .ok (tab [n, d, H.m, W.m] (fn4 Z)).data ∧
      Kernels.convNchw (convTrait H W) junk' [n, d, H.m, W.m]
        (tab [n, c, H.n, W.n] (fn4 fun b k i j => if i < t * H.s ∨ j < t' * W.s then 0 else X b k (i - t * H.s) (j - t' * W.s)))
        (tab [d, c, H.k, W.k] (fn4 Y)) z' = .ok (tab [n, d, H.m, W.m] (fn4 Z')).data ∧
      ∀ b i j e, H.pos (i + t) (H.k - 1) < H.l + H.n → W.pos (j + t') (W.k - 1) < W.l + W.n →
        i + t < H.m ∧ j + t' < W.m ∧ Z' b e (i + t) (j + t') = Z b e i j := by
  obtain ⟨Z, Z', h1, h2, h3⟩ := C141_window_nchw hH hW hH hW rfl rfl X
    (fun b k i j => if i < t * H.s ∨ j < t' * W.s then 0 else X b k (i - t * H.s) (j - t' * W.s)) Y junk junk' hz hz'
  refine ⟨Z, Z', h1, h2, fun b i j e hu hv => ⟨hH.window_lt hu, hW.window_lt hv, h3 b b i (i + t) j (j + t') (fun u hu' v hv' k _ => ?_) e⟩⟩
  exact window_shift (X b k) (lt_of_le_of_lt (Nat.add_le_add_left (Nat.mul_le_mul_right _ (by omega)) _) hu)
    (lt_of_le_of_lt (Nat.add_le_add_left (Nat.mul_le_mul_right _ (by omega)) _) hv)

/-! ## Pooling -/

theorem PartOf.pixels {H W H' W' : Axis} {N : IntTy} (hH' : AxisOK N H') (hW' : AxisOK N W') {t o t' o' : Nat}
    (cH : PartOf H H' t o) (cW : PartOf W W' t' o') (X : Nat → Nat → R) {i j : Nat} (hi : i < H'.m) (hj : j < W'.m) :
    Spec.pixels H' W' (fun a b => X (o + a) (o' + b)) i j = Spec.pixels H W X (t + i) (t' + j) := by
  unfold Spec.pixels
  rw [cH.k, cW.k]
  refine List.flatMap_congr fun u hu => List.filterMap_congr fun v hv => ?_
  obtain ⟨p1, p2⟩ := cH.pos hH' hi (List.mem_range.1 hu)
  obtain ⟨q1, q2⟩ := cW.pos hW' hj (List.mem_range.1 hv)
  have s1 := cH.stop
  have s2 := cW.stop
  have l1 := cH.l
  have l2 := cW.l
  rw [if_pos (by omega), if_pos (by omega)]
  have e1 : H.pos (t + i) u - H.l = o + (H'.pos i u - H'.l) := by omega
  have e2 : W.pos (t' + j) v - W.l = o' + (W'.pos j v - W'.l) := by omega
  rw [e1, e2]

theorem shifted_eq {a : Axis} (h : a.l = 0) : shifted a = a := by
  unfold shifted
  rw [h, Nat.zero_add, ← h]

/-- C141 (parts, pooling): pooling a part of the images gives the part of the result that belongs to it, for maximum, mean
or any other summary. Padding behind the images is allowed (padding in front is misplaced by the operator, see C39). -/
theorem C141_pool_nhwc [Zero R] {acc : Acc R} (hacc : ∀ l, ∃ v, acc.run l = .ok v) {H W H' W' : Axis} (hH : AxisOK u32 H)
    (hW : AxisOK u32 W) (hH' : AxisOK u32 H') (hW' : AxisOK u32 W') (rH : H.r = 1) (rW : W.r = 1) (lH : H.l = 0) (lW : W.l = 0)
    {t o t' o' : Nat} (cH : PartOf H H' t o) (cW : PartOf W W' t' o') {n c : Nat} (X : Nat → Nat → Nat → Nat → R) {y y' : List R}
    (hy : y.length = [n, H.m, W.m, c].prod) (hy' : y'.length = [n, H'.m, W'.m, c].prod) :
    t + H'.m ≤ H.m ∧ t' + W'.m ≤ W.m ∧
    ∃ Z : Nat → Nat → Nat → Nat → R,
      Ops.poolNhwc acc (poolTrait H W) [n, H.m, W.m, c] (tab [n, H.n, W.n, c] (fn4 X)) y = .ok (tab [n, H.m, W.m, c] (fn4 Z)).data ∧
      Ops.poolNhwc acc (poolTrait H' W') [n, H'.m, W'.m, c] (tab [n, H'.n, W'.n, c] (fn4 fun b i j k => X b (o + i) (o' + j) k)) y' =
        .ok (tab [n, H'.m, W'.m, c] (fn4 fun b i j k => Z b (t + i) (t' + j) k)).data := by
  choose v hv using hacc
  refine ⟨cH.windows hH hH', cW.windows hW hW', fun b i j k => v (Spec.pixels H W (fun a a' => X b a a' k) i j),
    Ops.poolNhwc_run hH hW rH rW acc X _ (fun b _ i _ j _ k _ => by rw [shifted_eq lH, shifted_eq lW]; exact hv _) hy,
    Ops.poolNhwc_run hH' hW' (cH.r.trans rH) (cW.r.trans rW) acc _ _ (fun b _ i hi j hj k _ => ?_) hy'⟩
  rw [shifted_eq cH.l, shifted_eq cW.l]
  exact (congrArg acc.run (cH.pixels hH' hW' cW (fun a a' => X b a a' k) hi hj)).trans (hv _)

/-- C141 (parts, pooling, nchw). -/
theorem C141_pool_nchw [Zero R] {acc : Acc R} (hacc : ∀ l, ∃ v, acc.run l = .ok v) {H W H' W' : Axis} (hH : AxisOK u32 H)
    (hW : AxisOK u32 W) (hH' : AxisOK u32 H') (hW' : AxisOK u32 W') (rH : H.r = 1) (rW : W.r = 1) (lH : H.l = 0) (lW : W.l = 0)
    {t o t' o' : Nat} (cH : PartOf H H' t o) (cW : PartOf W W' t' o') {n c : Nat} (X : Nat → Nat → Nat → Nat → R) {y y' : List R}
    (hy : y.length = [n, c, H.m, W.m].prod) (hy' : y'.length = [n, c, H'.m, W'.m].prod) :
    t + H'.m ≤ H.m ∧ t' + W'.m ≤ W.m ∧
    ∃ Z : Nat → Nat → Nat → Nat → R,
      Ops.poolNchw acc (poolTrait H W) [n, c, H.m, W.m] (tab [n, c, H.n, W.n] (fn4 X)) y = .ok (tab [n, c, H.m, W.m] (fn4 Z)).data ∧
      Ops.poolNchw acc (poolTrait H' W') [n, c, H'.m, W'.m] (tab [n, c, H'.n, W'.n] (fn4 fun b k i j => X b k (o + i) (o' + j))) y' =
        .ok (tab [n, c, H'.m, W'.m] (fn4 fun b k i j => Z b k (t + i) (t' + j))).data := by
  choose v hv using hacc
  refine ⟨cH.windows hH hH', cW.windows hW hW', fun b k i j => v (Spec.pixels H W (X b k) i j),
    Ops.poolNchw_run hH hW rH rW acc X _ (fun b _ k _ i _ j _ => by rw [shifted_eq lH, shifted_eq lW]; exact hv _) hy,
    Ops.poolNchw_run hH' hW' (cH.r.trans rH) (cW.r.trans rW) acc _ _ (fun b _ k _ i hi j hj => ?_) hy'⟩
  rw [shifted_eq cH.l, shifted_eq cW.l]
  exact (congrArg acc.run (cH.pixels hH' hW' cW (X b k) hi hj)).trans (hv _)

/-! ## Concrete cases -/

/-- Nine cells with padding (1, 1), three taps, stride 2: five windows; the cells 1 to 5 hold the windows 1 and 2. -/
def exWhole : Axis := ⟨3, 2, 1, 1, 1, 9, 5⟩
def exPart : Axis := ⟨3, 2, 1, 0, 0, 5, 2⟩
theorem exWhole_ok : AxisOK u32 exWhole := by
  refine ⟨⟨?_, ?_, ?_, ?_, ?_, ?_, ?_, ?_, ?_, ?_, ?_, ?_, ?_, ?_⟩, ?_⟩ <;> decide
theorem exPart_ok : AxisOK u32 exPart := by
  refine ⟨⟨?_, ?_, ?_, ?_, ?_, ?_, ?_, ?_, ?_, ?_, ?_, ?_, ?_, ?_⟩, ?_⟩ <;> decide
theorem exPart_crop : PartOf exWhole exPart 1 1 := by constructor <;> decide

example := C141_crop_nhwc (R := Int) exWhole_ok exWhole_ok exPart_ok exPart_ok exPart_crop exPart_crop (n := 1) (c := 2) (d := 3) (by decide)
  (fun b i j k => (b : Int) + i * j - k) (fun u v k e => (u : Int) - v + k * e) (fun _ => 1) (fun _ => 2) (fun _ => 3) (fun _ => 4)
  (z := List.replicate 75 0) (z' := List.replicate 12 0) rfl rfl
example := C141_crop_nchw (R := Int) exWhole_ok exWhole_ok exPart_ok exPart_ok exPart_crop exPart_crop (n := 1) (c := 2) (d := 3)
  (fun b k i j => (b : Int) + i * j - k) (fun e k u v => (u : Int) - v + k * e) (fun _ => 3) (fun _ => 4)
  (z := List.replicate 75 0) (z' := List.replicate 12 0) rfl rfl
example := C141_window_nhwc (R := Int) exWhole_ok exWhole_ok exPart_ok exPart_ok rfl rfl (n := 1) (n' := 2) (c := 2) (d := 3) (by decide)
  (by decide) (fun b i j k => (b : Int) + i * j - k) (fun b i j k => (b : Int) + i + j * k) (fun u v k e => (u : Int) - v + k * e)
  (fun _ => 1) (fun _ => 2) (fun _ => 3) (fun _ => 4) (z := List.replicate 75 0) (z' := List.replicate 24 0) rfl rfl
example := C141_window_nchw (R := Int) exWhole_ok exWhole_ok exPart_ok exPart_ok rfl rfl (n := 1) (n' := 2) (c := 2) (d := 3)
  (fun b k i j => (b : Int) + i * j - k) (fun b i j k => (b : Int) + i + j * k) (fun e k u v => (u : Int) - v + k * e)
  (fun _ => 3) (fun _ => 4) (z := List.replicate 75 0) (z' := List.replicate 24 0) rfl rfl
example := C141_shift_nhwc (R := Int) exWhole_ok exWhole_ok (n := 1) (c := 2) (d := 3) (by decide)
  (fun b i j k => (b : Int) + i * j - k) (fun u v k e => (u : Int) - v + k * e) 1 2 (fun _ => 1) (fun _ => 2) (fun _ => 3) (fun _ => 4)
  (z := List.replicate 75 0) (z' := List.replicate 75 0) rfl rfl
example := C141_shift_nchw (R := Int) exWhole_ok exWhole_ok (n := 1) (c := 2) (d := 3)
  (fun b k i j => (b : Int) + i * j - k) (fun e k u v => (u : Int) - v + k * e) 1 2 (fun _ => 3) (fun _ => 4)
  (z := List.replicate 75 0) (z' := List.replicate 75 0) rfl rfl
/-- Window 2 of the shifted image stays inside: the condition of `C141_shift_nhwc` for `t = 1` and `i = 1`. -/
example : exWhole.pos (1 + 1) (exWhole.k - 1) < exWhole.l + exWhole.n := by decide

/-- Pooling: nine cells and one behind them, windows of two. -/
def exPoolWhole : Axis := ⟨2, 2, 1, 0, 1, 9, 5⟩
def exPoolPart : Axis := ⟨2, 2, 1, 0, 0, 4, 2⟩
theorem exPoolWhole_ok : AxisOK u32 exPoolWhole := by
  refine ⟨⟨?_, ?_, ?_, ?_, ?_, ?_, ?_, ?_, ?_, ?_, ?_, ?_, ?_, ?_⟩, ?_⟩ <;> decide
theorem exPoolPart_ok : AxisOK u32 exPoolPart := by
  refine ⟨⟨?_, ?_, ?_, ?_, ?_, ?_, ?_, ?_, ?_, ?_, ?_, ?_, ?_, ?_⟩, ?_⟩ <;> decide
theorem exPool_crop : PartOf exPoolWhole exPoolPart 2 4 := by constructor <;> decide

example := C141_pool_nhwc (R := Int) (acc := Acc.max (-128)) (fun l => ⟨_, max_run _ l⟩) exPoolWhole_ok exPoolWhole_ok exPoolPart_ok
  exPoolPart_ok rfl rfl rfl rfl exPool_crop exPool_crop (n := 1) (c := 2) (fun b i j k => (b : Int) + i * j - k)
  (y := List.replicate 50 0) (y' := List.replicate 8 0) rfl rfl
example := C141_pool_nchw (R := Int) (acc := Acc.mean fun s k => s / k) (fun l => mean_total _ l) exPoolWhole_ok exPoolWhole_ok exPoolPart_ok
  exPoolPart_ok rfl rfl rfl rfl exPool_crop exPool_crop (n := 1) (c := 2) (fun b k i j => (b : Int) + i * j - k)
  (y := List.replicate 50 0) (y' := List.replicate 8 0) rfl rfl

end StdNN
