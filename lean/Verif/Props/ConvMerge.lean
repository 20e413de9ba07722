import Verif.Props.ConvLaws
import Verif.Props.NetLaws
/-!
# C116, C117: channels of convolutions can be reordered and selected; convolutions in a row merge into one
-/
namespace StdNN
open IntTy Spec Outcome Finset Layers Models
variable {R : Type}

/-! ## C116 -/

/-- C116 (`nhwc`): reordering the channels of the images and of the filter in the same way does not change the result. -/
theorem C116_channels_nhwc [Semiring R] {H W : Axis} (hH : AxisOK u32 H) (hW : AxisOK u32 W) {n c d : Nat}
    (hsz : [H.n, W.n, c].prod ≤ 2 ^ 31) (X Y : Nat → Nat → Nat → Nat → R) {σ : Nat → Nat}
    (hσ : Set.BijOn σ (Set.Iio c) (Set.Iio c)) (junkI junkI' : Nat → Int)
    (junk junk' : Nat → R) {z z' : List R} (hz : z.length = [n, H.m, W.m, d].prod)
    (hz' : z'.length = [n, H.m, W.m, d].prod) :
    Kernels.convNhwc (convTrait H W) junkI junk [n, H.m, W.m, d] (tab [n, H.n, W.n, c] (fn4 fun b p q k => X b p q (σ k)))
        (tab [H.k, W.k, c, d] (fn4 fun u v k e => Y u v (σ k) e)) z =
      Kernels.convNhwc (convTrait H W) junkI' junk' [n, H.m, W.m, d] (tab [n, H.n, W.n, c] (fn4 X))
        (tab [H.k, W.k, c, d] (fn4 Y)) z' := by
  rw [C31_conv_nhwc hH hW hsz _ _ _ _ hz, C31_conv_nhwc hH hW hsz _ _ _ _ hz']
  refine congrArg Outcome.ok (tab4_congr fun b _ i _ j _ e _ => ?_)
  unfold conv2
  refine sum_congr rfl fun u _ => sum_congr rfl fun v _ => ?_
  exact sum_nbij (g := fun k => window H W (fun a a' => X b a a' k) i j u v * Y u v k e) σ
    (fun k hk => mem_range.2 (hσ.1 (mem_range.1 hk)))
    (fun a ha b hb => hσ.2.1 (by simpa using ha) (by simpa using hb))
    (fun k hk => by
      obtain ⟨a, ha, rfl⟩ := hσ.2.2 (show k ∈ Set.Iio c by simpa using hk)
      exact ⟨a, by simpa using ha, rfl⟩) (fun _ _ => rfl)

/-- C116 (`nchw`). -/
theorem C116_channels_nchw [CommSemiring R] {H W : Axis} (hH : AxisOK u32 H) (hW : AxisOK u32 W) {n c d : Nat}
    (X Y : Nat → Nat → Nat → Nat → R) {σ : Nat → Nat} (hσ : Set.BijOn σ (Set.Iio c) (Set.Iio c))
    (junk junk' : Nat → R) {z z' : List R} (hz : z.length = [n, d, H.m, W.m].prod)
    (hz' : z'.length = [n, d, H.m, W.m].prod) :
    Kernels.convNchw (convTrait H W) junk [n, d, H.m, W.m] (tab [n, c, H.n, W.n] (fn4 fun b k => X b (σ k)))
        (tab [d, c, H.k, W.k] (fn4 fun e k => Y e (σ k))) z =
      Kernels.convNchw (convTrait H W) junk' [n, d, H.m, W.m] (tab [n, c, H.n, W.n] (fn4 X))
        (tab [d, c, H.k, W.k] (fn4 Y)) z' := by
  rw [C32_conv_nchw hH hW _ _ _ hz, C32_conv_nchw hH hW _ _ _ hz']
  refine congrArg Outcome.ok (tab4_congr fun b _ e _ i _ j _ => ?_)
  unfold conv2
  refine sum_congr rfl fun u _ => sum_congr rfl fun v _ => ?_
  exact sum_nbij (g := fun k => window H W (fun a a' => X b k a a') i j u v * Y e k u v) σ
    (fun k hk => mem_range.2 (hσ.1 (mem_range.1 hk)))
    (fun a ha b hb => hσ.2.1 (by simpa using ha) (by simpa using hb))
    (fun k hk => by
      obtain ⟨a, ha, rfl⟩ := hσ.2.2 (show k ∈ Set.Iio c by simpa using hk)
      exact ⟨a, by simpa using ha, rfl⟩) (fun _ _ => rfl)

/-- C116 (`nhwc`, filters): with filters selected in any order and number by `τ`, the output channels are those selected by
`τ`, bit for bit; so every output channel depends on its own filter only. -/
theorem C116_filters_nhwc [Add R] [Mul R] [Zero R] {H W : Axis} (hH : AxisOK u32 H) (hW : AxisOK u32 W) {n c d d' : Nat}
    (hsz : [H.n, W.n, c].prod ≤ 2 ^ 31) (X Y : Nat → Nat → Nat → Nat → R) {τ : Nat → Nat} (hτ : ∀ e < d', τ e < d)
    (junkI junkI' : Nat → Int) (junk junk' : Nat → R) {z z' : List R} (hz : z.length = [n, H.m, W.m, d].prod)
    (hz' : z'.length = [n, H.m, W.m, d'].prod) :
    ∃ r r' : List R,
      Kernels.convNhwc (convTrait H W) junkI junk [n, H.m, W.m, d] (tab [n, H.n, W.n, c] (fn4 X))
        (tab [H.k, W.k, c, d] (fn4 Y)) z = .ok r ∧
      Kernels.convNhwc (convTrait H W) junkI' junk' [n, H.m, W.m, d'] (tab [n, H.n, W.n, c] (fn4 X))
        (tab [H.k, W.k, c, d'] (fn4 fun u v k e => Y u v k (τ e))) z' = .ok r' ∧
      ∀ b < n, ∀ i < H.m, ∀ j < W.m, ∀ e < d',
        r'[offset [n, H.m, W.m, d'] [b, i, j, e]]? = r[offset [n, H.m, W.m, d] [b, i, j, τ e]]? := by
  refine ⟨_, _, C91_conv_order hH hW hsz X Y junkI junk hz, C91_conv_order hH hW hsz X _ junkI' junk' hz',
    fun b hb i hi j hj e he => ?_⟩
  rw [tab_getElem? _ (v4 hb hi hj he), tab_getElem? _ (v4 hb hi hj (hτ e he))]
  rfl

/-- C116 (`nchw`, filters). -/
theorem C116_filters_nchw [Add R] [Mul R] [Zero R] {H W : Axis} (hH : AxisOK u32 H) (hW : AxisOK u32 W) {n c d d' : Nat}
    (X Y : Nat → Nat → Nat → Nat → R) {τ : Nat → Nat} (hτ : ∀ e < d', τ e < d)
    (junk junk' : Nat → R) {z z' : List R} (hz : z.length = [n, d, H.m, W.m].prod)
    (hz' : z'.length = [n, d', H.m, W.m].prod) :
    ∃ r r' : List R,
      Kernels.convNchw (convTrait H W) junk [n, d, H.m, W.m] (tab [n, c, H.n, W.n] (fn4 X))
        (tab [d, c, H.k, W.k] (fn4 Y)) z = .ok r ∧
      Kernels.convNchw (convTrait H W) junk' [n, d', H.m, W.m] (tab [n, c, H.n, W.n] (fn4 X))
        (tab [d', c, H.k, W.k] (fn4 fun e => Y (τ e))) z' = .ok r' ∧
      ∀ b < n, ∀ e < d', ∀ i < H.m, ∀ j < W.m,
        r'[offset [n, d', H.m, W.m] [b, e, i, j]]? = r[offset [n, d, H.m, W.m] [b, τ e, i, j]]? := by
  refine ⟨_, _, C91_conv_order_nchw hH hW X Y junk hz, C91_conv_order_nchw hH hW X _ junk' hz',
    fun b hb e he i hi j hj => ?_⟩
  rw [tab_getElem? _ (v4 hb he hi hj), tab_getElem? _ (v4 hb (hτ e he) hi hj)]
  rfl

/-! ## C117 -/

/-- Axis `b` continues axis `a`: it takes the output of `a` and adds no padding. -/
structure After (a b : Axis) : Prop where
  n : b.n = a.m
  l : b.l = 0
  q : b.q = 0

/-- The axis of the merged convolution: the kernel reaches from the first tap of the first window to the last tap of the last
window under one window of `b`. -/
def _root_.StdNN.Spec.Axis.merge (a b : Axis) : Axis :=
  ⟨(b.k - 1) * b.r * a.s + (a.k - 1) * a.r + 1, a.s * b.s, 1, a.l, a.q, a.n, b.m⟩

theorem AxisOK.merge {N : IntTy} (h1 : N.In 1) {a b : Axis} (ha : AxisOK N a) (hb : AxisOK N b) (h : After a b)
    (hs : N.In ((a.s * b.s : Nat) : Int)) : AxisOK N (a.merge b) := by
  have f := ha.fits
  have ca := ha.covers
  have cb := hb.covers
  unfold Axis.Covers OutLen patch at ca cb
  rw [h.l, h.q, h.n] at cb
  have e : a.m - 1 = (b.m - 1) * b.s + (b.k - 1) * b.r := by omega
  have key : (b.m - 1) * (a.s * b.s) + ((b.k - 1) * b.r * a.s + (a.k - 1) * a.r + 1) = a.l + a.n + a.q := by
    rw [← ca.2, e]; ring
  have pk : patch (a.merge b).k 1 = (a.merge b).k := patch_one _ (by simp [Axis.merge])
  have kle : (a.merge b).k ≤ a.l + a.n + a.q := by simp only [Axis.merge]; omega
  have kIn : N.In ((a.merge b).k : Int) := f.padded.mono (by omega) (by exact_mod_cast kle)
  refine ⟨⟨f.hN, f.hD, by simp [Axis.merge], Nat.mul_pos f.s1 hb.fits.s1, le_refl 1, kIn, hs, h1, f.hl, f.hq, f.hn,
    f.padded, ?_, ?_⟩, cb.1, ?_⟩
  · rw [show (a.merge b).r = 1 from rfl, pk]; exact kIn
  · rw [show (a.merge b).r = 1 from rfl, pk]; exact kIn
  · rw [show (a.merge b).r = 1 from rfl, pk]; exact key

/-- The merged filter: tap `(U, V)` collects the products of the taps of the two filters that meet there. -/
def mergedFilter [Semiring R] (H1 W1 H2 W2 : Axis) (d : Nat) (Y1 Y2 : Nat → Nat → Nat → Nat → R) (U V k e : Nat) : R :=
  ∑ p ∈ range H2.k, ∑ q ∈ range W2.k, ∑ m ∈ range d, ∑ u ∈ range H1.k, ∑ v ∈ range W1.k,
    if U = p * H2.r * H1.s + u * H1.r ∧ V = q * W2.r * W1.s + v * W1.r then Y1 u v k m * Y2 p q m e else 0

theorem sum_pick [Semiring R] {ι : Type} (T : Finset ι) (K L : Nat) (f g : ι → Nat) (hf : ∀ t ∈ T, f t < K)
    (hg : ∀ t ∈ T, g t < L) (w : Nat → Nat → R) (a : ι → R) :
    ∑ U ∈ range K, ∑ V ∈ range L, w U V * ∑ t ∈ T, (if U = f t ∧ V = g t then a t else 0) =
      ∑ t ∈ T, w (f t) (g t) * a t := by
  simp only [mul_sum]
  have : ∀ U ∈ range K, ∑ V ∈ range L, ∑ t ∈ T, w U V * (if U = f t ∧ V = g t then a t else 0) =
      ∑ t ∈ T, ∑ V ∈ range L, w U V * (if U = f t ∧ V = g t then a t else 0) := fun U _ => sum_comm
  rw [sum_congr rfl this, sum_comm]
  refine sum_congr rfl fun t ht => ?_
  rw [sum_eq_single (f t), sum_eq_single (g t)]
  · simp
  · intro V _ hV; simp [hV]
  · intro h; exact absurd (mem_range.2 (hg t ht)) h
  · intro U _ hU
    exact sum_eq_zero fun V _ => by simp [hU]
  · intro h; exact absurd (mem_range.2 (hf t ht)) h

theorem window_merge [Zero R] {H1 W1 H2 W2 : Axis} (X : Nat → Nat → R) (i j p q u v : Nat) :
    window (H1.merge H2) (W1.merge W2) X i j (p * H2.r * H1.s + u * H1.r) (q * W2.r * W1.s + v * W1.r) =
      window H1 W1 X (H2.pos i p) (W2.pos j q) u v := by
  have e1 : (H1.merge H2).pos i (p * H2.r * H1.s + u * H1.r) = H1.pos (H2.pos i p) u := by
    simp only [Axis.pos, Axis.merge]; ring
  have e2 : (W1.merge W2).pos j (q * W2.r * W1.s + v * W1.r) = W1.pos (W2.pos j q) v := by
    simp only [Axis.pos, Axis.merge]; ring
  unfold window
  rw [e1, e2]
  rfl

theorem window_inside [Zero R] {N : IntTy} {H W : Axis} (hH : AxisOK N H) (hW : AxisOK N W) (lH : H.l = 0) (qH : H.q = 0)
    (lW : W.l = 0) (qW : W.q = 0) (X : Nat → Nat → R) {i j u v : Nat} (hi : i < H.m) (hj : j < W.m) (hu : u < H.k)
    (hv : v < W.k) : window H W X i j u v = X (H.pos i u) (W.pos j v) := by
  have p1 := pos_lt hH hi hu
  have p2 := pos_lt hW hj hv
  rw [window_eq, if_pos (by omega), lH, lW]
  rfl

theorem merge_tap_lt {a b : Axis} {p u : Nat} (hp : p < b.k) (hu : u < a.k) : p * b.r * a.s + u * a.r < (a.merge b).k := by
  have e1 : p * b.r * a.s ≤ (b.k - 1) * b.r * a.s :=
    Nat.mul_le_mul_right _ (Nat.mul_le_mul_right _ (by omega))
  have e2 : u * a.r ≤ (a.k - 1) * a.r := Nat.mul_le_mul_right _ (by omega)
  simp only [Axis.merge]
  omega

theorem conv2_merge [Semiring R] {N : IntTy} {H1 W1 H2 W2 : Axis} (hH : AxisOK N H2) (hW : AxisOK N W2)
    (aH : After H1 H2) (aW : After W1 W2) {c d : Nat} (X : Nat → Nat → Nat → R) (Y1 Y2 : Nat → Nat → Nat → Nat → R)
    {i j : Nat} (hi : i < H2.m) (hj : j < W2.m) (e : Nat) :
    conv2 H2 W2 d (fun a a' m => conv2 H1 W1 c X Y1 a a' m) Y2 i j e =
      conv2 (H1.merge H2) (W1.merge W2) c X (mergedFilter H1 W1 H2 W2 d Y1 Y2) i j e := by
  let T : Finset (Nat × Nat × Nat × Nat × Nat) :=
    range H2.k ×ˢ range W2.k ×ˢ range d ×ˢ range H1.k ×ˢ range W1.k
  let w : Nat → Nat × Nat × Nat × Nat × Nat → R := fun k t =>
    window H1 W1 (fun a b => X a b k) (H2.pos i t.1) (W2.pos j t.2.1) t.2.2.2.1 t.2.2.2.2 *
      (Y1 t.2.2.2.1 t.2.2.2.2 k t.2.2.1 * Y2 t.1 t.2.1 t.2.2.1 e)
  have left : conv2 H2 W2 d (fun a a' m => conv2 H1 W1 c X Y1 a a' m) Y2 i j e = ∑ k ∈ range c, ∑ t ∈ T, w k t := by
    rw [sum_comm]
    simp only [T, sum_product, conv2]
    refine sum_congr rfl fun p hp => sum_congr rfl fun q hq => sum_congr rfl fun m _ => ?_
    rw [window_inside hH hW aH.l aH.q aW.l aW.q _ hi hj (mem_range.1 hp) (mem_range.1 hq)]
    simp only [sum_mul, w, mul_assoc]
  have right : conv2 (H1.merge H2) (W1.merge W2) c X (mergedFilter H1 W1 H2 W2 d Y1 Y2) i j e =
      ∑ k ∈ range c, ∑ t ∈ T, w k t := by
    unfold conv2
    have swap : ∀ g : Nat → Nat → Nat → R, ∑ U ∈ range (H1.merge H2).k, ∑ V ∈ range (W1.merge W2).k, ∑ k ∈ range c, g U V k =
        ∑ k ∈ range c, ∑ U ∈ range (H1.merge H2).k, ∑ V ∈ range (W1.merge W2).k, g U V k := fun g => by
      rw [sum_comm (s := range c)]
      exact sum_congr rfl fun U _ => sum_comm
    rw [swap]
    refine sum_congr rfl fun k _ => ?_
    have pick := sum_pick T (H1.merge H2).k (W1.merge W2).k (fun t => t.1 * H2.r * H1.s + t.2.2.2.1 * H1.r)
      (fun t => t.2.1 * W2.r * W1.s + t.2.2.2.2 * W1.r)
      (fun t ht => by
        simp only [T, mem_product, mem_range] at ht
        exact merge_tap_lt ht.1 ht.2.2.2.1)
      (fun t ht => by
        simp only [T, mem_product, mem_range] at ht
        exact merge_tap_lt ht.2.1 ht.2.2.2.2)
      (fun U V => window (H1.merge H2) (W1.merge W2) (fun a b => X a b k) i j U V)
      (fun t => Y1 t.2.2.2.1 t.2.2.2.2 k t.2.2.1 * Y2 t.1 t.2.1 t.2.2.1 e)
    simp only [window_merge] at pick
    rw [show ∑ t ∈ T, w k t = _ from pick.symm]
    simp only [T, sum_product, mergedFilter]
  rw [left, right]

/-- C117 (`nhwc`): two convolutions in a row, the second without padding, are one convolution with the merged filter, the
product of the strides and the padding of the first. -/
theorem C117_merge_nhwc [Semiring R] {H1 W1 H2 W2 : Axis} (hH1 : AxisOK u32 H1) (hW1 : AxisOK u32 W1)
    (hH2 : AxisOK u32 H2) (hW2 : AxisOK u32 W2) (aH : After H1 H2) (aW : After W1 W2)
    (sH : u32.In ((H1.s * H2.s : Nat) : Int)) (sW : u32.In ((W1.s * W2.s : Nat) : Int)) {n c d e : Nat}
    (hsz : [H1.n, W1.n, c].prod ≤ 2 ^ 31) (hsz' : [H1.m, W1.m, d].prod ≤ 2 ^ 31) (X Y1 Y2 : Nat → Nat → Nat → Nat → R)
    (J : Nat → Nat → R) (I : Nat → Nat → Int) {z1 z2 z3 : List R} (h1 : z1.length = [n, H1.m, W1.m, d].prod)
    (h2 : z2.length = [n, H2.m, W2.m, e].prod) (h3 : z3.length = [n, H2.m, W2.m, e].prod) :
    (do let y ← Kernels.convNhwc (convTrait H1 W1) (I 0) (J 0) [n, H1.m, W1.m, d] (tab [n, H1.n, W1.n, c] (fn4 X))
          (tab [H1.k, W1.k, c, d] (fn4 Y1)) z1
        Kernels.convNhwc (convTrait H2 W2) (I 1) (J 1) [n, H2.m, W2.m, e] ⟨[n, H1.m, W1.m, d], y⟩
          (tab [H2.k, W2.k, d, e] (fn4 Y2)) z2) =
      Kernels.convNhwc (ConvTrait.make (⟨H1.l, H1.q⟩, ⟨W1.l, W1.q⟩) (H1.s * H2.s, W1.s * W2.s) (1, 1)) (I 2) (J 2)
        [n, H2.m, W2.m, e] (tab [n, H1.n, W1.n, c] (fn4 X))
        (tab [(H2.k - 1) * H2.r * H1.s + (H1.k - 1) * H1.r + 1, (W2.k - 1) * W2.r * W1.s + (W1.k - 1) * W1.r + 1, c, e]
          (fn4 (mergedFilter H1 W1 H2 W2 d Y1 Y2))) z3 := by
  have et : ConvTrait.make (⟨H1.l, H1.q⟩, ⟨W1.l, W1.q⟩) ((H1.s * H2.s : Nat), (W1.s * W2.s : Nat)) (1, 1) =
    convTrait (H1.merge H2) (W1.merge W2) := rfl
  have mH := AxisOK.merge (by decide) hH1 hH2 aH sH
  have mW := AxisOK.merge (by decide) hW1 hW2 aW sW
  rw [C31_conv_nhwc hH1 hW1 hsz X Y1 (I 0) (J 0) h1, Outcome.ok_bind]
  rw [← aH.n, ← aW.n] at hsz'
  have r2 := C31_conv_nhwc hH2 hW2 hsz' (fun b => conv2 H1 W1 c (X b) Y1) Y2 (I 1) (J 1) h2
  rw [aH.n, aW.n] at r2
  have r3 := C31_conv_nhwc mH mW hsz X (mergedFilter H1 W1 H2 W2 d Y1 Y2) (I 2) (J 2) h3
  push_cast at et
  rw [et]
  refine r2.trans (Eq.trans ?_ r3.symm)
  refine congrArg Outcome.ok (tab4_congr fun b _ i hi j hj k _ => ?_)
  exact conv2_merge hH2 hW2 aH aW (X b) Y1 Y2 hi hj k

/-- C117 (`nchw`). -/
theorem C117_merge_nchw [CommSemiring R] {H1 W1 H2 W2 : Axis} (hH1 : AxisOK u32 H1) (hW1 : AxisOK u32 W1)
    (hH2 : AxisOK u32 H2) (hW2 : AxisOK u32 W2) (aH : After H1 H2) (aW : After W1 W2)
    (sH : u32.In ((H1.s * H2.s : Nat) : Int)) (sW : u32.In ((W1.s * W2.s : Nat) : Int)) {n c d e : Nat}
    (X Y1 Y2 : Nat → Nat → Nat → Nat → R) (J : Nat → Nat → R) {z1 z2 z3 : List R}
    (h1 : z1.length = [n, d, H1.m, W1.m].prod) (h2 : z2.length = [n, e, H2.m, W2.m].prod)
    (h3 : z3.length = [n, e, H2.m, W2.m].prod) :
    (do let y ← Kernels.convNchw (convTrait H1 W1) (J 0) [n, d, H1.m, W1.m] (tab [n, c, H1.n, W1.n] (fn4 X))
          (tab [d, c, H1.k, W1.k] (fn4 Y1)) z1
        Kernels.convNchw (convTrait H2 W2) (J 1) [n, e, H2.m, W2.m] ⟨[n, d, H1.m, W1.m], y⟩
          (tab [e, d, H2.k, W2.k] (fn4 Y2)) z2) =
      Kernels.convNchw (ConvTrait.make (⟨H1.l, H1.q⟩, ⟨W1.l, W1.q⟩) (H1.s * H2.s, W1.s * W2.s) (1, 1)) (J 2)
        [n, e, H2.m, W2.m] (tab [n, c, H1.n, W1.n] (fn4 X))
        (tab [e, c, (H2.k - 1) * H2.r * H1.s + (H1.k - 1) * H1.r + 1, (W2.k - 1) * W2.r * W1.s + (W1.k - 1) * W1.r + 1]
          (fn4 fun e k U V => mergedFilter H1 W1 H2 W2 d (fun u v k m => Y1 m k u v) (fun p q m e => Y2 e m p q) U V k e))
        z3 := by
  have et : ConvTrait.make (⟨H1.l, H1.q⟩, ⟨W1.l, W1.q⟩) ((H1.s * H2.s : Nat), (W1.s * W2.s : Nat)) (1, 1) =
    convTrait (H1.merge H2) (W1.merge W2) := rfl
  have mH := AxisOK.merge (by decide) hH1 hH2 aH sH
  have mW := AxisOK.merge (by decide) hW1 hW2 aW sW
  rw [C32_conv_nchw hH1 hW1 X Y1 (J 0) h1, Outcome.ok_bind]
  have r2 := C32_conv_nchw (c := d) hH2 hW2 (fun b m a a' => conv2 H1 W1 c (fun p q k => X b k p q) (fun u v k m => Y1 m k u v) a a' m)
    Y2 (J 1) h2
  rw [aH.n, aW.n] at r2
  have r3 := C32_conv_nchw (c := c) mH mW X (fun e k U V => mergedFilter H1 W1 H2 W2 d (fun u v k m => Y1 m k u v)
    (fun p q m e => Y2 e m p q) U V k e) (J 2) h3
  push_cast at et
  rw [et]
  refine r2.trans (Eq.trans ?_ r3.symm)
  refine congrArg Outcome.ok (tab4_congr fun b _ k _ i hi j hj => ?_)
  exact conv2_merge hH2 hW2 aH aW (fun p q k => X b k p q) (fun u v k m => Y1 m k u v) (fun p q m e => Y2 e m p q) hi hj k

/-- C117 (1-d): two 1-d convolutions in a row, the second without padding. -/
theorem C117_merge_1d [CommSemiring R] {a b : Axis} (ha : AxisOK i32 a) (hb : AxisOK i32 b) (ab : After a b)
    (hs : i32.In ((a.s * b.s : Nat) : Int)) (X Y1 Y2 : Nat → R) {z1 z2 z3 : List R} (h1 : z1.length = a.m)
    (h2 : z2.length = b.m) (h3 : z3.length = b.m) :
    (do let y ← (conv1dTrait a).run [a.m] (tab [a.n] (fn1 X)) (tab [a.k] (fn1 Y1)) z1
        (conv1dTrait b).run [b.m] ⟨[a.m], y⟩ (tab [b.k] (fn1 Y2)) z2) =
      (⟨a.s * b.s, 1, ⟨a.l, a.q⟩⟩ : Conv1d).run [b.m] (tab [a.n] (fn1 X))
        (tab [(b.k - 1) * b.r * a.s + (a.k - 1) * a.r + 1] (fn1 fun U => ∑ p ∈ range b.k, ∑ u ∈ range a.k,
          if U = p * b.r * a.s + u * a.r then Y1 u * Y2 p else 0)) z3 := by
  have et : (⟨(a.s * b.s : Nat), 1, ⟨a.l, a.q⟩⟩ : Conv1d) = conv1dTrait (a.merge b) := rfl
  have m := AxisOK.merge (by decide) ha hb ab hs
  rw [C35_conv1d ha X Y1 h1, Outcome.ok_bind]
  have r2 := C35_conv1d hb (fun j => ∑ u ∈ range a.k, Y1 u * padded a.l a.n X (a.pos j u)) Y2 h2
  rw [ab.n] at r2
  have r3 := C35_conv1d m X (fun U => ∑ p ∈ range b.k, ∑ u ∈ range a.k,
    if U = p * b.r * a.s + u * a.r then Y1 u * Y2 p else 0) h3
  push_cast at et
  rw [et]
  refine r2.trans (Eq.trans ?_ r3.symm)
  refine congrArg (fun t => Outcome.ok (Tensor.data t)) (tab_congr fun idx hv => ?_)
  match idx, hv with
  | [j], hv =>
    have hj : j < b.m := hv.1
    simp only [fn1_apply]
    have left : ∀ p ∈ range b.k, Y2 p * padded b.l a.m (fun j => ∑ u ∈ range a.k, Y1 u * padded a.l a.n X (a.pos j u))
        (b.pos j p) = ∑ u ∈ range a.k, padded a.l a.n X (a.pos (b.pos j p) u) * (Y1 u * Y2 p) := by
      intro p hp
      have := pos_lt hb hj (mem_range.1 hp)
      rw [ab.n, ab.l, ab.q] at this
      rw [padded, if_pos (by rw [ab.l]; omega), ab.l, mul_sum]
      exact sum_congr rfl fun u _ => by rw [Nat.sub_zero]; ring
    rw [sum_congr rfl left]
    have pick := sum_pick (range b.k ×ˢ range a.k) (a.merge b).k 1 (fun t => t.1 * b.r * a.s + t.2 * a.r) (fun _ => 0)
      (fun t ht => by
        simp only [mem_product, mem_range] at ht
        exact merge_tap_lt ht.1 ht.2) (by simp)
      (fun U _ => padded a.l a.n X ((a.merge b).pos j U)) (fun t => Y1 t.2 * Y2 t.1)
    simp only [sum_range_one, and_true, sum_product] at pick
    have e : ∀ p u, (a.merge b).pos j (p * b.r * a.s + u * a.r) = a.pos (b.pos j p) u := fun p u => by
      simp only [Axis.pos, Axis.merge]; ring
    simp only [e] at pick
    rw [← pick]
    exact sum_congr rfl fun U _ => mul_comm _ _

theorem conv2_bias [Semiring R] {N : IntTy} {H W : Axis} (hH : AxisOK N H) (hW : AxisOK N W) (lH : H.l = 0) (qH : H.q = 0)
    (lW : W.l = 0) (qW : W.q = 0) {d : Nat} (Z : Nat → Nat → Nat → R) (B : Nat → R) (Y : Nat → Nat → Nat → Nat → R) {i j : Nat}
    (hi : i < H.m) (hj : j < W.m) (e : Nat) :
    conv2 H W d (fun a b m => Z a b m + B m) Y i j e =
      conv2 H W d Z Y i j e + ∑ p ∈ range H.k, ∑ q ∈ range W.k, ∑ m ∈ range d, B m * Y p q m e := by
  unfold conv2
  simp only [← sum_add_distrib]
  refine sum_congr rfl fun p hp => sum_congr rfl fun q hq => sum_congr rfl fun m _ => ?_
  rw [window_inside hH hW lH qH lW qW _ hi hj (mem_range.1 hp) (mem_range.1 hq),
    window_inside hH hW lH qH lW qW _ hi hj (mem_range.1 hp) (mem_range.1 hq), add_mul]

/-- C117 (layers, `nhwc`): two convolution layers in a row, the first without activation and the second without padding, are
one convolution layer with the merged filter, the image of the first bias added to the second, and the activation of the
second. -/
theorem C117_layers_nhwc [Semiring R] (J : Nat → Nat → R) (I : Nat → Nat → Int) {act : Act R} {f : R → R}
    (hact : ActsAs act f) {H1 W1 H2 W2 : Axis} (hH1 : AxisOK u32 H1) (hW1 : AxisOK u32 W1) (hH2 : AxisOK u32 H2)
    (hW2 : AxisOK u32 W2) (aH : After H1 H2) (aW : After W1 W2) (sH : u32.In ((H1.s * H2.s : Nat) : Int))
    (sW : u32.In ((W1.s * W2.s : Nat) : Int)) {t1 t2 t3 : ConvLayer} (ht1 : HasAxes t1 H1 W1) (ht2 : HasAxes t2 H2 W2)
    (ht3 : HasAxes t3 (H1.merge H2) (W1.merge W2)) (hf : t3.filters = t2.filters) {n c : Nat}
    (hsz : [H1.n, W1.n, c].prod ≤ 2 ^ 31) (hsz' : [H1.m, W1.m, t1.filters].prod ≤ 2 ^ 31)
    (X Y1 Y2 : Nat → Nat → Nat → Nat → R) (B1 B2 : Nat → R) {w1 b1 w2 b2 w3 b3 : Init R}
    (hw1 : ∀ m, w1 [H1.k, W1.k, c, t1.filters] m = .ok (tab [H1.k, W1.k, c, t1.filters] (fn4 Y1)).data)
    (hb1 : ∀ m, b1 [t1.filters] m = .ok (tab [t1.filters] (fn1 B1)).data)
    (hw2 : ∀ m, w2 [H2.k, W2.k, t1.filters, t2.filters] m = .ok (tab [H2.k, W2.k, t1.filters, t2.filters] (fn4 Y2)).data)
    (hb2 : ∀ m, b2 [t2.filters] m = .ok (tab [t2.filters] (fn1 B2)).data)
    (hw3 : ∀ m, w3 [(H1.merge H2).k, (W1.merge W2).k, c, t2.filters] m =
      .ok (tab [(H1.merge H2).k, (W1.merge W2).k, c, t2.filters] (fn4 (mergedFilter H1 W1 H2 W2 t1.filters Y1 Y2))).data)
    (hb3 : ∀ m, b3 [t2.filters] m = .ok (tab [t2.filters] (fn1 fun e =>
      (∑ p ∈ range H2.k, ∑ q ∈ range W2.k, ∑ m ∈ range t1.filters, B1 m * Y2 p q m e) + B2 e)).data) :
    ∃ (y : Tensor R) (ws ws' : List (Tensor R)),
      composed (fun x => Layers.conv .nhwc .rscd (J 0) (J 1) (J 2) (I 0) (J 3) noopAct t1 x w1 b1)
          (fun x => Layers.conv .nhwc .rscd (J 4) (J 5) (J 6) (I 1) (J 7) act t2 x w2 b2) (tab [n, H1.n, W1.n, c] (fn4 X)) =
        ⟨3, .ok ⟨y, ws⟩⟩ ∧
      Layers.conv .nhwc .rscd (J 8) (J 9) (J 10) (I 2) (J 11) act t3 (tab [n, H1.n, W1.n, c] (fn4 X)) w3 b3 =
        ⟨3, .ok ⟨y, ws'⟩⟩ := by
  have mH := AxisOK.merge (by decide) hH1 hH2 aH sH
  have mW := AxisOK.merge (by decide) hW1 hW2 aW sW
  rw [← aH.n, ← aW.n] at hsz'
  have r2 := fun Z => C78_conv_nhwc (n := n) (J 4) (J 5) (J 6) (I 1) (J 7) hact hH2 hW2 ht2 hsz' Z Y2 B2 (hw2 _) (hb2 _)
  simp only [aH.n, aW.n] at r2
  rw [← hf] at hw3 hb3
  refine ⟨_, _, _, composed_run (C78_conv_nhwc (J 0) (J 1) (J 2) (I 0) (J 3) noop_acts hH1 hW1 ht1 hsz X Y1 B1 (hw1 _) (hb1 _))
    (r2 _) rfl, (C78_conv_nhwc (J 8) (J 9) (J 10) (I 2) (J 11) hact mH mW ht3 hsz X _ _ (hw3 _) (hb3 _)).trans
    (same_output ?_)⟩
  rw [hf]
  refine tab_congr fun idx hv => ?_
  match idx, hv with
  | [b, i, j, e], ⟨_, hi, hj, _, _⟩ =>
    simp only [fn4, id]
    rw [conv2_bias hH2 hW2 aH.l aH.q aW.l aW.q _ B1 Y2 hi hj e, add_assoc]
    exact congrArg (fun v => f (v + _)) (conv2_merge hH2 hW2 aH aW (X b) Y1 Y2 hi hj e).symm

/-- C117 (layers, `nchw`). -/
theorem C117_layers_nchw [CommSemiring R] (J : Nat → Nat → R) (I : Nat → Nat → Int) {act : Act R} {f : R → R}
    (hact : ActsAs act f) {H1 W1 H2 W2 : Axis} (hH1 : AxisOK u32 H1) (hW1 : AxisOK u32 W1) (hH2 : AxisOK u32 H2)
    (hW2 : AxisOK u32 W2) (aH : After H1 H2) (aW : After W1 W2) (sH : u32.In ((H1.s * H2.s : Nat) : Int))
    (sW : u32.In ((W1.s * W2.s : Nat) : Int)) {t1 t2 t3 : ConvLayer} (ht1 : HasAxes t1 H1 W1) (ht2 : HasAxes t2 H2 W2)
    (ht3 : HasAxes t3 (H1.merge H2) (W1.merge W2)) (hf : t3.filters = t2.filters) {n c : Nat}
    (X Y1 Y2 : Nat → Nat → Nat → Nat → R) (B1 B2 : Nat → R) {w1 b1 w2 b2 w3 b3 : Init R}
    (hw1 : ∀ m, w1 [t1.filters, c, H1.k, W1.k] m = .ok (tab [t1.filters, c, H1.k, W1.k] (fn4 Y1)).data)
    (hb1 : ∀ m, b1 [t1.filters] m = .ok (tab [t1.filters] (fn1 B1)).data)
    (hw2 : ∀ m, w2 [t2.filters, t1.filters, H2.k, W2.k] m = .ok (tab [t2.filters, t1.filters, H2.k, W2.k] (fn4 Y2)).data)
    (hb2 : ∀ m, b2 [t2.filters] m = .ok (tab [t2.filters] (fn1 B2)).data)
    (hw3 : ∀ m, w3 [t2.filters, c, (H1.merge H2).k, (W1.merge W2).k] m =
      .ok (tab [t2.filters, c, (H1.merge H2).k, (W1.merge W2).k] (fn4 fun e k U V =>
        mergedFilter H1 W1 H2 W2 t1.filters (fun u v k m => Y1 m k u v) (fun p q m e => Y2 e m p q) U V k e)).data)
    (hb3 : ∀ m, b3 [t2.filters] m = .ok (tab [t2.filters] (fn1 fun e =>
      (∑ p ∈ range H2.k, ∑ q ∈ range W2.k, ∑ m ∈ range t1.filters, B1 m * Y2 e m p q) + B2 e)).data) :
    ∃ (y : Tensor R) (ws ws' : List (Tensor R)),
      composed (fun x => Layers.conv .nchw .dcrs (J 0) (J 1) (J 2) (I 0) (J 3) noopAct t1 x w1 b1)
          (fun x => Layers.conv .nchw .dcrs (J 4) (J 5) (J 6) (I 1) (J 7) act t2 x w2 b2) (tab [n, c, H1.n, W1.n] (fn4 X)) =
        ⟨3, .ok ⟨y, ws⟩⟩ ∧
      Layers.conv .nchw .dcrs (J 8) (J 9) (J 10) (I 2) (J 11) act t3 (tab [n, c, H1.n, W1.n] (fn4 X)) w3 b3 =
        ⟨3, .ok ⟨y, ws'⟩⟩ := by
  have mH := AxisOK.merge (by decide) hH1 hH2 aH sH
  have mW := AxisOK.merge (by decide) hW1 hW2 aW sW
  have r2 := fun Z => C78_conv_nchw (n := n) (J 4) (J 5) (J 6) (I 1) (J 7) hact hH2 hW2 ht2 Z Y2 B2 (hw2 _) (hb2 _)
  simp only [aH.n, aW.n] at r2
  rw [← hf] at hw3 hb3
  refine ⟨_, _, _, composed_run (C78_conv_nchw (J 0) (J 1) (J 2) (I 0) (J 3) noop_acts hH1 hW1 ht1 X Y1 B1 (hw1 _) (hb1 _))
    (r2 _) rfl, (C78_conv_nchw (J 8) (J 9) (J 10) (I 2) (J 11) hact mH mW ht3 X _ _ (hw3 _) (hb3 _)).trans
    (same_output ?_)⟩
  rw [hf]
  refine tab_congr fun idx hv => ?_
  match idx, hv with
  | [b, e, i, j], ⟨_, _, hi, hj, _⟩ =>
    simp only [fn4, id]
    rw [conv2_bias hH2 hW2 aH.l aH.q aW.l aW.q (fun a a' m => conv2 H1 W1 c (fun p q k => X b k p q)
      (fun u v k m => Y1 m k u v) a a' m) B1 (fun p q m e => Y2 e m p q) hi hj e, add_assoc]
    exact congrArg (fun v => f (v + _)) (conv2_merge hH2 hW2 aH aW (fun p q k => X b k p q) (fun u v k m => Y1 m k u v)
      (fun p q m e => Y2 e m p q) hi hj e).symm

/-- Non-vacuity of C116: two channels swapped, and the second of two filters alone. -/
example : let σ : Nat → Nat := fun k => 1 - k
    Set.BijOn σ (Set.Iio 2) (Set.Iio 2) ∧
    Kernels.convNhwc (convTrait ⟨1, 1, 1, 0, 0, 1, 1⟩ ⟨2, 1, 1, 0, 0, 2, 1⟩) (fun _ => 0) (fun _ => 0) [1, 1, 1, 2]
      (⟨[1, 1, 2, 2], [1, 2, 3, 4]⟩ : Tensor Int) ⟨[1, 2, 2, 2], [1, 5, 2, 6, 3, 7, 4, 8]⟩ [0, 0] = .ok [30, 70] ∧
    Kernels.convNhwc (convTrait ⟨1, 1, 1, 0, 0, 1, 1⟩ ⟨2, 1, 1, 0, 0, 2, 1⟩) (fun _ => 0) (fun _ => 0) [1, 1, 1, 2]
      (⟨[1, 1, 2, 2], [2, 1, 4, 3]⟩ : Tensor Int) ⟨[1, 2, 2, 2], [2, 6, 1, 5, 4, 8, 3, 7]⟩ [0, 0] = .ok [30, 70] ∧
    Kernels.convNhwc (convTrait ⟨1, 1, 1, 0, 0, 1, 1⟩ ⟨2, 1, 1, 0, 0, 2, 1⟩) (fun _ => 0) (fun _ => 0) [1, 1, 1, 1]
      (⟨[1, 1, 2, 2], [1, 2, 3, 4]⟩ : Tensor Int) ⟨[1, 2, 2, 1], [5, 6, 7, 8]⟩ [0] = .ok [70] ∧
    ∀ e < 1, (fun _ => 1) e < 2 := by
  refine ⟨⟨fun k hk => ?_, fun a ha b hb h => ?_, fun k hk => ⟨1 - k, ?_, ?_⟩⟩, ?_, ?_, ?_, by decide⟩
  · simp only [Set.mem_Iio] at hk ⊢; omega
  · simp only [Set.mem_Iio] at ha hb h; omega
  · simp only [Set.mem_Iio] at hk ⊢; omega
  · simp only [Set.mem_Iio] at hk ⊢; omega
  all_goals decide

/-- Non-vacuity of C117: a line of 7 cells padded to 9, kernel 2 with stride 2 and rate 2, then kernel 2 with stride 1 and
rate 1: the merged kernel has 5 taps, two of which coincide, and stride 2. -/
example : let a : Axis := ⟨2, 2, 2, 1, 1, 7, 4⟩
    let b : Axis := ⟨2, 1, 1, 0, 0, 4, 3⟩
    AxisOK i32 a ∧ AxisOK i32 b ∧ After a b ∧
    (conv1dTrait a).run [4] ⟨[7], [(1 : Int), 2, 3, 4, 5, 6, 7]⟩ ⟨[2], [10, 100]⟩ [0, 0, 0, 0] = .ok [200, 420, 640, 60] ∧
    (conv1dTrait b).run [3] ⟨[4], [(200 : Int), 420, 640, 60]⟩ ⟨[2], [1, 3]⟩ [0, 0, 0] = .ok [1460, 2340, 820] ∧
    (⟨2, 1, ⟨1, 1⟩⟩ : Conv1d).run [3] ⟨[7], [(1 : Int), 2, 3, 4, 5, 6, 7]⟩ ⟨[5], [10, 0, 100 + 30, 0, 300]⟩ [0, 0, 0] =
      .ok [1460, 2340, 820] := by
  refine ⟨⟨⟨i32_std, i32_std, ?_, ?_, ?_, ?_, ?_, ?_, ?_, ?_, ?_, ?_, ?_, ?_⟩, ?_⟩,
    ⟨⟨i32_std, i32_std, ?_, ?_, ?_, ?_, ?_, ?_, ?_, ?_, ?_, ?_, ?_, ?_⟩, ?_⟩, ⟨rfl, rfl, rfl⟩, ?_, ?_, ?_⟩ <;> decide

/-- Non-vacuity of the layers: 1 × 2 kernels with biases 7 and -40 and relu at the end; the merged kernel is 1 × 3. -/
example : composed (fun x => Layers.conv .nhwc .rscd (fun _ => 0) (fun _ => 0) (fun _ => 0) (fun _ => 0) (fun _ => 0) noopAct
        (ConvLayer.makeK 1 (1, 2)) x (fun _ _ => .ok [1, 2]) (fun _ _ => .ok [7]))
      (fun x => Layers.conv .nhwc .rscd (fun _ => 0) (fun _ => 0) (fun _ => 0) (fun _ => 0) (fun _ => 0) reluAct
        (ConvLayer.makeK 1 (1, 2)) x (fun _ _ => .ok [1, 3]) (fun _ _ => .ok [-40]))
      (⟨[1, 1, 4, 1], [1, 2, 9, -9]⟩ : Tensor Int) =
      ⟨3, .ok ⟨⟨[1, 1, 2, 1], [53, 0]⟩, [⟨[1, 2, 1, 1], [1, 3]⟩, ⟨[1], [-40]⟩]⟩⟩ ∧
    Layers.conv .nhwc .rscd (fun _ => 0) (fun _ => 0) (fun _ => 0) (fun _ => 0) (fun _ => 0) reluAct
        (ConvLayer.makeK 1 (1, 3)) (⟨[1, 1, 4, 1], [1, 2, 9, -9]⟩ : Tensor Int) (fun _ _ => .ok [1, 2 + 3, 6])
        (fun _ _ => .ok [7 * 1 + 7 * 3 + -40]) =
      ⟨3, .ok ⟨⟨[1, 1, 2, 1], [53, 0]⟩, [⟨[1, 3, 1, 1], [1, 5, 6]⟩, ⟨[1], [-12]⟩]⟩⟩ := by decide

/-! ## Concrete cases

The first axis is followed by one whose windows lie on its output; the stages are merged into one axis. -/

def exA1 : Axis := ⟨2, 2, 2, 1, 1, 7, 4⟩
def exA2 : Axis := ⟨2, 1, 1, 0, 0, 4, 3⟩
theorem exA1_ok : AxisOK u32 exA1 := by
  refine ⟨⟨?_, ?_, ?_, ?_, ?_, ?_, ?_, ?_, ?_, ?_, ?_, ?_, ?_, ?_⟩, ?_⟩ <;> decide
theorem exA2_ok : AxisOK u32 exA2 := by
  refine ⟨⟨?_, ?_, ?_, ?_, ?_, ?_, ?_, ?_, ?_, ?_, ?_, ?_, ?_, ?_⟩, ?_⟩ <;> decide
theorem exA1_ok32 : AxisOK i32 exA1 := by
  refine ⟨⟨?_, ?_, ?_, ?_, ?_, ?_, ?_, ?_, ?_, ?_, ?_, ?_, ?_, ?_⟩, ?_⟩ <;> decide
theorem exA2_ok32 : AxisOK i32 exA2 := by
  refine ⟨⟨?_, ?_, ?_, ?_, ?_, ?_, ?_, ?_, ?_, ?_, ?_, ?_, ?_, ?_⟩, ?_⟩ <;> decide
theorem exA_after : After exA1 exA2 := ⟨rfl, rfl, rfl⟩

def exL1 : ConvLayer := ConvLayer.make 3 (2, 2) (Sample.paddingFixed ⟨1, 1⟩) (2, 2) (2, 2)
def exL2 : ConvLayer := ConvLayer.make 2 (2, 2) (Sample.paddingFixed ⟨0, 0⟩) (1, 1) (1, 1)
def exL3 : ConvLayer := ConvLayer.make 2 (5, 5) (Sample.paddingFixed ⟨1, 1⟩) (2, 2) (1, 1)
theorem exL1_axes : HasAxes exL1 exA1 exA1 := by refine ⟨?_, ?_, ?_, ?_, ?_⟩ <;> decide
theorem exL2_axes : HasAxes exL2 exA2 exA2 := by refine ⟨?_, ?_, ?_, ?_, ?_⟩ <;> decide
theorem exL3_axes : HasAxes exL3 (exA1.merge exA2) (exA1.merge exA2) := by refine ⟨?_, ?_, ?_, ?_, ?_⟩ <;> decide

theorem exSwap : Set.BijOn (fun k => 1 - k) (Set.Iio 2) (Set.Iio 2) := by
  refine ⟨fun k hk => ?_, fun a ha b hb h => ?_, fun k hk => ⟨1 - k, ?_, ?_⟩⟩ <;> simp_all <;> omega

example := C116_channels_nhwc (R := Int) exH_ok exW_ok (n := 1) (c := 2) (d := 2) (by decide) (fun _ p q k => p - 7 * q + k)
  (fun r s k e => r + s - k * e) exSwap (fun _ => 1) (fun _ => 2) (fun _ => 3) (fun _ => 4) (z := List.replicate 18 0)
  (z' := List.replicate 18 5) rfl rfl
example := C116_channels_nchw (R := Int) exH_ok exW_ok (n := 1) (c := 2) (d := 2) (fun _ k p q => p - 7 * q + k)
  (fun e k r s => r + s - k * e) exSwap (fun _ => 3) (fun _ => 4) (z := List.replicate 18 0)
  (z' := List.replicate 18 5) rfl rfl
example := C116_filters_nhwc (R := Int) exH_ok exW_ok (n := 1) (c := 2) (d := 2) (d' := 3) (by decide)
  (fun _ p q k => p - 7 * q + k) (fun r s k e => r + s - k * e) (τ := fun e => e % 2) (by decide) (fun _ => 1) (fun _ => 2)
  (fun _ => 3) (fun _ => 4) (z := List.replicate 18 0) (z' := List.replicate 27 5) rfl rfl
example := C116_filters_nchw (R := Int) exH_ok exW_ok (n := 1) (c := 2) (d := 2) (d' := 3)
  (fun _ k p q => p - 7 * q + k) (fun e k r s => r + s - k * e) (τ := fun e => e % 2) (by decide)
  (fun _ => 3) (fun _ => 4) (z := List.replicate 18 0) (z' := List.replicate 27 5) rfl rfl
example := C117_merge_nhwc (R := Int) exA1_ok exA1_ok exA2_ok exA2_ok exA_after exA_after (by decide) (by decide) (n := 1)
  (c := 2) (d := 3) (e := 2) (by decide) (by decide) (fun _ p q k => p - 7 * q + k) (fun r s k e => r + s - k * e)
  (fun r s k e => r * s + k - e) (fun _ _ => 5) (fun _ _ => 6) (z1 := List.replicate 48 0) (z2 := List.replicate 18 0)
  (z3 := List.replicate 18 0) rfl rfl rfl
example := C117_merge_nchw (R := Int) exA1_ok exA1_ok exA2_ok exA2_ok exA_after exA_after (by decide) (by decide) (n := 1)
  (c := 2) (d := 3) (e := 2) (fun _ k p q => p - 7 * q + k) (fun e k r s => r + s - k * e)
  (fun e k r s => r * s + k - e) (fun _ _ => 5) (z1 := List.replicate 48 0) (z2 := List.replicate 18 0)
  (z3 := List.replicate 18 0) rfl rfl rfl
example := C117_merge_1d (R := Int) exA1_ok32 exA2_ok32 exA_after (by decide) (fun p => 3 * p - 5) (fun u => 2 * u + 1)
  (fun p => 4 - p) (z1 := List.replicate 4 0) (z2 := List.replicate 3 0) (z3 := List.replicate 3 0) rfl rfl rfl
example := C117_layers_nhwc (R := Int) (fun _ _ => 5) (fun _ _ => 6) relu_acts exA1_ok exA1_ok exA2_ok exA2_ok exA_after
  exA_after (by decide) (by decide) exL1_axes exL2_axes exL3_axes rfl (n := 2) (c := 2) (by decide) (by decide)
  (fun _ p q k => p - 7 * q + k) (fun r s k e => r + s - k * e) (fun r s k e => r * s + k - e) (fun e => e) (fun e => 1 - e)
  (w1 := exInit (fn4 fun r s k e => r + s - k * e)) (b1 := exInit (fn1 fun e => e))
  (w2 := exInit (fn4 fun r s k e => r * s + k - e)) (b2 := exInit (fn1 fun e => 1 - e))
  (w3 := exInit (fn4 (mergedFilter exA1 exA1 exA2 exA2 3 (fun r s k e => r + s - k * e) (fun r s k e => r * s + k - e))))
  (b3 := exInit (fn1 fun e => (∑ p ∈ range 2, ∑ q ∈ range 2, ∑ m ∈ range 3, (m : Int) * (p * q + m - e)) + (1 - e)))
  (fun _ => rfl) (fun _ => rfl) (fun _ => rfl) (fun _ => rfl) (fun _ => rfl) (fun _ => rfl)
example := C117_layers_nchw (R := Int) (fun _ _ => 5) (fun _ _ => 6) relu_acts exA1_ok exA1_ok exA2_ok exA2_ok exA_after
  exA_after (by decide) (by decide) exL1_axes exL2_axes exL3_axes rfl (n := 2) (c := 2)
  (fun _ k p q => p - 7 * q + k) (fun e k r s => r + s - k * e) (fun e k r s => r * s + k - e) (fun e => e) (fun e => 1 - e)
  (w1 := exInit (fn4 fun e k r s => r + s - k * e)) (b1 := exInit (fn1 fun e => e))
  (w2 := exInit (fn4 fun e k r s => r * s + k - e)) (b2 := exInit (fn1 fun e => 1 - e))
  (w3 := exInit (fn4 fun e k U V => mergedFilter exA1 exA1 exA2 exA2 3 (fun r s k e => r + s - k * e)
    (fun r s k e => r * s + k - e) U V k e))
  (b3 := exInit (fn1 fun e => (∑ p ∈ range 2, ∑ q ∈ range 2, ∑ m ∈ range 3, (m : Int) * (p * q + m - e)) + (1 - e)))
  (fun _ => rfl) (fun _ => rfl) (fun _ => rfl) (fun _ => rfl) (fun _ => rfl) (fun _ => rfl)

end StdNN
