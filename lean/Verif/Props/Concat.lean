import Verif.Props.ConvMerge
import Verif.Props.PoolPolicy
import Verif.Props.Functional
import Verif.Props.Batch
/-!
# C128: channel concatenation before and after convolutions, and around pooling layers
-/
namespace StdNN
open IntTy Spec Outcome Finset Layers
variable {R : Type}

theorem sum_split [AddCommMonoid R] (a b : Nat) (f : Nat → R) :
    ∑ k ∈ range (a + b), f k = ∑ k ∈ range a, f k + ∑ k ∈ range b, f (a + k) := sum_range_add f a b

theorem conv2_split [Semiring R] {H W : Axis} (c1 c2 : Nat) (X : Nat → Nat → Nat → R) (Y : Nat → Nat → Nat → Nat → R) (i j d : Nat) :
    conv2 H W (c1 + c2) X Y i j d =
      conv2 H W c1 X Y i j d + conv2 H W c2 (fun a a' k => X a a' (c1 + k)) (fun u v k => Y u v (c1 + k)) i j d := by
  unfold conv2
  rw [← sum_add_distrib]
  refine sum_congr rfl fun u _ => ?_
  rw [← sum_add_distrib]
  exact sum_congr rfl fun v _ => sum_split c1 c2 _

theorem conv2_ext [Semiring R] {H W : Axis} {c : Nat} {X X' : Nat → Nat → Nat → R} {Y : Nat → Nat → Nat → Nat → R} {i j d : Nat}
    (h : ∀ a a', ∀ k < c, X a a' k = X' a a' k) : conv2 H W c X Y i j d = conv2 H W c X' Y i j d :=
  conv2_congr rfl rfl fun u _ v _ k hk => by
    rw [show (fun a b => X a b k) = fun a b => X' a b k from funext₂ fun a b => h a b k hk]

section
variable [Semiring R] {H W : Axis} {n c1 c2 c3 d : Nat}

/-- C128 (`nhwc`): convolving three concatenated images is adding up their convolutions with the parts of the filter that meet
their channels. -/
theorem C128_images_nhwc (hH : AxisOK u32 H) (hW : AxisOK u32 W) (hc : c1 + c2 < 2 ^ 32)
    (hsz : [H.n, W.n, c1 + c2 + c3].prod ≤ 2 ^ 31) (X1 X2 X3 Y : Nat → Nat → Nat → Nat → R) (junkI : Nat → Int) (junk : Nat → R)
    {t z z1 z2 z3 : List R} (ht : t.length = [n, H.n, W.n, c1 + c2 + c3].prod) (hz : z.length = [n, H.m, W.m, d].prod)
    (hz1 : z1.length = [n, H.m, W.m, d].prod) (hz2 : z2.length = [n, H.m, W.m, d].prod)
    (hz3 : z3.length = [n, H.m, W.m, d].prod) :
    ∃ x : List R, ∃ Z1 Z2 Z3 : Nat → Nat → Nat → Nat → R,
      Kernels.concatNhwc [n, H.n, W.n, c1 + c2 + c3] (tab [n, H.n, W.n, c1] (fn4 X1)) (tab [n, H.n, W.n, c2] (fn4 X2))
        (tab [n, H.n, W.n, c3] (fn4 X3)) t = .ok x ∧
      Kernels.convNhwc (convTrait H W) junkI junk [n, H.m, W.m, d] (tab [n, H.n, W.n, c1] (fn4 X1))
        (tab [H.k, W.k, c1, d] (fn4 Y)) z1 = .ok (tab [n, H.m, W.m, d] (fn4 Z1)).data ∧
      Kernels.convNhwc (convTrait H W) junkI junk [n, H.m, W.m, d] (tab [n, H.n, W.n, c2] (fn4 X2))
        (tab [H.k, W.k, c2, d] (fn4 fun u v k => Y u v (c1 + k))) z2 = .ok (tab [n, H.m, W.m, d] (fn4 Z2)).data ∧
      Kernels.convNhwc (convTrait H W) junkI junk [n, H.m, W.m, d] (tab [n, H.n, W.n, c3] (fn4 X3))
        (tab [H.k, W.k, c3, d] (fn4 fun u v k => Y u v (c1 + c2 + k))) z3 = .ok (tab [n, H.m, W.m, d] (fn4 Z3)).data ∧
      Kernels.convNhwc (convTrait H W) junkI junk [n, H.m, W.m, d] ⟨[n, H.n, W.n, c1 + c2 + c3], x⟩
        (tab [H.k, W.k, c1 + c2 + c3, d] (fn4 Y)) z =
        .ok (tab [n, H.m, W.m, d] (fn4 fun b i j e => Z1 b i j e + Z2 b i j e + Z3 b i j e)).data := by
  have le : ∀ c' ≤ c1 + c2 + c3, [H.n, W.n, c'].prod ≤ 2 ^ 31 := fun c' h => by
    refine le_trans ?_ hsz
    simp only [List.prod_cons, List.prod_nil, mul_one]
    exact Nat.mul_le_mul_left _ (Nat.mul_le_mul_left _ h)
  refine ⟨_, _, _, _, Kernels.concatNhwc_run (by omega) X1 X2 X3 ht,
    C31_conv_nhwc hH hW (le _ (by omega)) _ _ _ _ hz1, C31_conv_nhwc hH hW (le _ (by omega)) _ _ _ _ hz2,
    C31_conv_nhwc hH hW (le _ (by omega)) _ _ _ _ hz3, ?_⟩
  refine (C31_conv_nhwc hH hW hsz (fun l i j k => if k < c1 then X1 l i j k
        else if k < c1 + c2 then X2 l i j (k - c1) else X3 l i j (k - c1 - c2)) Y junkI junk hz).trans ?_
  refine congrArg Outcome.ok (tab4_congr fun b _ i _ j _ e _ => ?_)
  rw [conv2_split, conv2_split]
  refine congrArg₂ _ (congrArg₂ _ (conv2_ext fun a a' k hk => ?_) (conv2_ext fun a a' k hk => ?_))
    (conv2_ext fun a a' k hk => ?_)
  · rw [if_pos hk]
  · rw [if_neg (by omega), if_pos (by omega), Nat.add_sub_cancel_left]
  · rw [if_neg (by omega), if_neg (by omega)]
    congr 1
    omega

end

/-- C128 (`nchw`): two images. -/
theorem C128_images_nchw [CommSemiring R] {H W : Axis} {n c1 c2 d : Nat} (hH : AxisOK u32 H) (hW : AxisOK u32 W)
    (X1 X2 Y : Nat → Nat → Nat → Nat → R) (junk : Nat → R) {t z z1 z2 : List R}
    (ht : t.length = [n, c1 + c2, H.n, W.n].prod) (hz : z.length = [n, d, H.m, W.m].prod)
    (hz1 : z1.length = [n, d, H.m, W.m].prod) (hz2 : z2.length = [n, d, H.m, W.m].prod) :
    ∃ x : List R, ∃ Z1 Z2 : Nat → Nat → Nat → Nat → R,
      Kernels.concatNchw [n, c1 + c2, H.n, W.n] (tab [n, c1, H.n, W.n] (fn4 X1)) (tab [n, c2, H.n, W.n] (fn4 X2)) t = .ok x ∧
      Kernels.convNchw (convTrait H W) junk [n, d, H.m, W.m] (tab [n, c1, H.n, W.n] (fn4 X1))
        (tab [d, c1, H.k, W.k] (fn4 Y)) z1 = .ok (tab [n, d, H.m, W.m] (fn4 Z1)).data ∧
      Kernels.convNchw (convTrait H W) junk [n, d, H.m, W.m] (tab [n, c2, H.n, W.n] (fn4 X2))
        (tab [d, c2, H.k, W.k] (fn4 fun e k => Y e (c1 + k))) z2 = .ok (tab [n, d, H.m, W.m] (fn4 Z2)).data ∧
      Kernels.convNchw (convTrait H W) junk [n, d, H.m, W.m] ⟨[n, c1 + c2, H.n, W.n], x⟩
        (tab [d, c1 + c2, H.k, W.k] (fn4 Y)) z =
        .ok (tab [n, d, H.m, W.m] (fn4 fun b e i j => Z1 b e i j + Z2 b e i j)).data := by
  refine ⟨_, _, _, Kernels.concatNchw_run X1 X2 ht, C32_conv_nchw hH hW _ _ _ hz1, C32_conv_nchw hH hW _ _ _ hz2, ?_⟩
  refine (C32_conv_nchw hH hW (fun l k i j => if k < c1 then X1 l k i j else X2 l (k - c1) i j) Y junk hz).trans ?_
  refine congrArg Outcome.ok (tab4_congr fun b _ e _ i _ j _ => ?_)
  rw [conv2_split]
  refine congrArg₂ _ (conv2_ext fun a a' k hk => ?_) (conv2_ext fun a a' k hk => ?_)
  · rw [if_pos hk]
  · rw [if_neg (by omega), Nat.add_sub_cancel_left]

/-- C128 (`nchw`, filters): concatenating the results of two convolutions of the same images is one convolution with the
filters of both, bit for bit. The data of the common filter are those of the first followed by those of the second. -/
theorem C128_filters_nchw [Zero R] [Add R] [Mul R] {H W : Axis} {n c d1 d2 : Nat} (hH : AxisOK u32 H) (hW : AxisOK u32 W)
    (X Y1 Y2 : Nat → Nat → Nat → Nat → R) (junk : Nat → R) {t z z1 z2 : List R}
    (ht : t.length = [n, d1 + d2, H.m, W.m].prod) (hz : z.length = [n, d1 + d2, H.m, W.m].prod)
    (hz1 : z1.length = [n, d1, H.m, W.m].prod) (hz2 : z2.length = [n, d2, H.m, W.m].prod) :
    ∃ r1 r2 r : List R,
      Kernels.convNchw (convTrait H W) junk [n, d1, H.m, W.m] (tab [n, c, H.n, W.n] (fn4 X))
        (tab [d1, c, H.k, W.k] (fn4 Y1)) z1 = .ok r1 ∧
      Kernels.convNchw (convTrait H W) junk [n, d2, H.m, W.m] (tab [n, c, H.n, W.n] (fn4 X))
        (tab [d2, c, H.k, W.k] (fn4 Y2)) z2 = .ok r2 ∧
      Kernels.concatNchw [n, d1 + d2, H.m, W.m] ⟨[n, d1, H.m, W.m], r1⟩ ⟨[n, d2, H.m, W.m], r2⟩ t = .ok r ∧
      Kernels.convNchw (convTrait H W) junk [n, d1 + d2, H.m, W.m] (tab [n, c, H.n, W.n] (fn4 X))
        ⟨[d1 + d2, c, H.k, W.k], (tab [d1, c, H.k, W.k] (fn4 Y1)).data ++ (tab [d2, c, H.k, W.k] (fn4 Y2)).data⟩ z = .ok r := by
  have e : ((tab [d1, c, H.k, W.k] (fn4 Y1)).data ++ (tab [d2, c, H.k, W.k] (fn4 Y2)).data : List R) =
      (tab [d1 + d2, c, H.k, W.k] (fn4 fun e => if e < d1 then Y1 e else Y2 (e - d1))).data := by
    have := tab_append d1 d2 [c, H.k, W.k] fun e => fn3 (if e < d1 then Y1 e else Y2 (e - d1))
    refine Eq.trans (congrArg₂ _ (congrArg Tensor.data (tab_congr fun idx hv => ?_)) (congrArg Tensor.data (tab_congr fun idx hv => ?_)))
      (this.trans (congrArg Tensor.data (tab_congr fun idx hv => ?_)))
    · match idx, hv with
      | [e, k, u, v], hv => simp [hv.1]
    · match idx, hv with
      | [e, k, u, v], hv => simp
    · match idx, hv with
      | [e, k, u, v], hv => simp
  refine ⟨_, _, _, C91_conv_order_nchw hH hW _ _ _ hz1, C91_conv_order_nchw hH hW _ _ _ hz2, Kernels.concatNchw_run _ _ ht, ?_⟩
  rw [e]
  refine (C91_conv_order_nchw hH hW X (fun e => if e < d1 then Y1 e else Y2 (e - d1)) junk hz).trans ?_
  refine congrArg Outcome.ok (tab4_congr fun b _ e _ i _ j _ => ?_)
  by_cases h : e < d1
  · simp only [if_pos h]
  · simp only [if_neg h]

/-- C128 (`nhwc`, filters): three convolutions. -/
theorem C128_filters_nhwc [Zero R] [Add R] [Mul R] {H W : Axis} {n c d1 d2 d3 : Nat} (hH : AxisOK u32 H) (hW : AxisOK u32 W)
    (hsz : [H.n, W.n, c].prod ≤ 2 ^ 31) (hd : d1 + d2 < 2 ^ 32) (X Y1 Y2 Y3 : Nat → Nat → Nat → Nat → R) (junkI : Nat → Int)
    (junk : Nat → R) {t z z1 z2 z3 : List R}
    (ht : t.length = [n, H.m, W.m, d1 + d2 + d3].prod) (hz : z.length = [n, H.m, W.m, d1 + d2 + d3].prod)
    (hz1 : z1.length = [n, H.m, W.m, d1].prod) (hz2 : z2.length = [n, H.m, W.m, d2].prod)
    (hz3 : z3.length = [n, H.m, W.m, d3].prod) :
    ∃ r1 r2 r3 r : List R,
      Kernels.convNhwc (convTrait H W) junkI junk [n, H.m, W.m, d1] (tab [n, H.n, W.n, c] (fn4 X))
        (tab [H.k, W.k, c, d1] (fn4 Y1)) z1 = .ok r1 ∧
      Kernels.convNhwc (convTrait H W) junkI junk [n, H.m, W.m, d2] (tab [n, H.n, W.n, c] (fn4 X))
        (tab [H.k, W.k, c, d2] (fn4 Y2)) z2 = .ok r2 ∧
      Kernels.convNhwc (convTrait H W) junkI junk [n, H.m, W.m, d3] (tab [n, H.n, W.n, c] (fn4 X))
        (tab [H.k, W.k, c, d3] (fn4 Y3)) z3 = .ok r3 ∧
      Kernels.concatNhwc [n, H.m, W.m, d1 + d2 + d3] ⟨[n, H.m, W.m, d1], r1⟩ ⟨[n, H.m, W.m, d2], r2⟩
        ⟨[n, H.m, W.m, d3], r3⟩ t = .ok r ∧
      Kernels.convNhwc (convTrait H W) junkI junk [n, H.m, W.m, d1 + d2 + d3] (tab [n, H.n, W.n, c] (fn4 X))
        (tab [H.k, W.k, c, d1 + d2 + d3] (fn4 fun u v k e => if e < d1 then Y1 u v k e
          else if e < d1 + d2 then Y2 u v k (e - d1) else Y3 u v k (e - d1 - d2))) z = .ok r := by
  refine ⟨_, _, _, _, C91_conv_order hH hW hsz _ _ _ _ hz1, C91_conv_order hH hW hsz _ _ _ _ hz2,
    C91_conv_order hH hW hsz _ _ _ _ hz3, Kernels.concatNhwc_run (by omega) _ _ _ ht, ?_⟩
  rw [C91_conv_order hH hW hsz X _ junkI junk hz]
  refine congrArg Outcome.ok (tab4_congr fun b _ i _ j _ e _ => ?_)
  by_cases h : e < d1
  · simp only [if_pos h]
  · by_cases h' : e < d1 + d2
    · simp only [if_neg h, if_pos h']
    · simp only [if_neg h, if_neg h']

/-! ## Pooling layers -/

theorem concatLayer_nhwc [Zero R] (junk : Nat → R) {n h w c1 c2 c3 : Nat} (hc : c1 + c2 + c3 < 2 ^ 32)
    (X Y Z : Nat → Nat → Nat → Nat → R) :
    Layers.concatChannel .nhwc junk [tab [n, h, w, c1] (fn4 X), tab [n, h, w, c2] (fn4 Y), tab [n, h, w, c3] (fn4 Z)] =
      ⟨1, .ok ⟨tab [n, h, w, c1 + c2 + c3] (fn4 fun l i j k => if k < c1 then X l i j k
        else if k < c1 + c2 then Y l i j (k - c1) else Z l i j (k - c1 - c2)), []⟩⟩ := by
  have hs : Ops.concatChannelShape .nhwc [[n, h, w, c1], [n, h, w, c2], [n, h, w, c3]] = .ok [n, h, w, c1 + c2 + c3] := by
    have := (C14_channel n h w (cs := [c1, c2, c3]) (by simp) (by simp; omega)).2
    simpa [Nat.add_assoc] using this
  unfold Layers.concatChannel
  simp only [List.map_cons, List.map_nil, tab_dims, hs, Layers.newResult, Ops.concatChannel]
  rw [Kernels.concatNhwc_run (by omega) X Y Z (by simp [Layers.fresh_length])]
  rfl

theorem concatLayer_nchw [Zero R] (junk : Nat → R) {n h w c1 c2 : Nat} (hc : c1 + c2 < 2 ^ 32)
    (X Y : Nat → Nat → Nat → Nat → R) :
    Layers.concatChannel .nchw junk [tab [n, c1, h, w] (fn4 X), tab [n, c2, h, w] (fn4 Y)] =
      ⟨1, .ok ⟨tab [n, c1 + c2, h, w] (fn4 fun l k i j => if k < c1 then X l k i j else Y l (k - c1) i j), []⟩⟩ := by
  have hs : Ops.concatChannelShape .nchw [[n, c1, h, w], [n, c2, h, w]] = .ok [n, c1 + c2, h, w] := by
    have := (C14_channel n h w (cs := [c1, c2]) (by simp) (by simpa using hc)).1
    simpa using this
  unfold Layers.concatChannel
  simp only [List.map_cons, List.map_nil, tab_dims, hs, Layers.newResult, Ops.concatChannel]
  rw [Kernels.concatNchw_run X Y (by simp [Layers.fresh_length])]
  rfl

section
variable [Zero R] {acc : Acc R} (hacc : ∀ l, ∃ v, acc.run l = .ok v) (J : Nat → Nat → R) {H W : Axis} (hH : AxisOK u32 H)
  (hW : AxisOK u32 W) {t : PoolLayer} (ht : PoolHasAxes t H W) {n c1 c2 c3 : Nat}
include hacc hH hW ht

/-- C128 (pooling, `nhwc`): pooling the concatenation is concatenating the pooled images, for every accumulator that is
defined on all windows (the maximum, and the mean of a type whose sum and quotient cannot fail), every geometry and padding policy. -/
theorem C128_pool_nhwc (hc : c1 + c2 + c3 < 2 ^ 32) (X1 X2 X3 : Nat → Nat → Nat → Nat → R) :
    ∃ x y y1 y2 y3 : Tensor R,
      Layers.concatChannel .nhwc (J 0) [tab [n, H.n, W.n, c1] (fn4 X1), tab [n, H.n, W.n, c2] (fn4 X2),
        tab [n, H.n, W.n, c3] (fn4 X3)] = ⟨1, .ok ⟨x, []⟩⟩ ∧
      pool .nhwc (J 1) acc t x = ⟨1, .ok ⟨y, []⟩⟩ ∧
      pool .nhwc (J 2) acc t (tab [n, H.n, W.n, c1] (fn4 X1)) = ⟨1, .ok ⟨y1, []⟩⟩ ∧
      pool .nhwc (J 3) acc t (tab [n, H.n, W.n, c2] (fn4 X2)) = ⟨1, .ok ⟨y2, []⟩⟩ ∧
      pool .nhwc (J 4) acc t (tab [n, H.n, W.n, c3] (fn4 X3)) = ⟨1, .ok ⟨y3, []⟩⟩ ∧
      Layers.concatChannel .nhwc (J 5) [y1, y2, y3] = ⟨1, .ok ⟨y, []⟩⟩ := by
  choose v hv using hacc
  have run : ∀ (c : Nat) (j : Nat → R) (X : Nat → Nat → Nat → Nat → R), _ := fun c j X =>
    (poolLayer_gen j acc hH hW ht (n := n) (c := c) X (fun b i j k => v (pixels (shifted H) (shifted W) (fun a a' => X b a a' k) i j))
      fun _ _ _ _ _ _ _ _ => hv _).1
  refine ⟨_, _, _, _, _, concatLayer_nhwc (J 0) hc X1 X2 X3, run _ (J 1) _, run _ (J 2) X1, run _ (J 3) X2, run _ (J 4) X3,
    (concatLayer_nhwc (J 5) hc _ _ _).trans ?_⟩
  refine congrArg (fun t : Tensor R => (⟨1, .ok ⟨t, []⟩⟩ : Alloc (Layer R))) (tab_congr fun idx hv => ?_)
  match idx, hv with
  | [b, i, j, k], hv =>
    simp only [fn4_apply]
    by_cases h : k < c1
    · simp only [if_pos h]
    · by_cases h' : k < c1 + c2
      · simp only [if_neg h, if_pos h']
      · simp only [if_neg h, if_neg h']

/-- C128 (pooling, `nchw`). -/
theorem C128_pool_nchw (hc : c1 + c2 < 2 ^ 32) (X1 X2 : Nat → Nat → Nat → Nat → R) :
    ∃ x y y1 y2 : Tensor R,
      Layers.concatChannel .nchw (J 0) [tab [n, c1, H.n, W.n] (fn4 X1), tab [n, c2, H.n, W.n] (fn4 X2)] = ⟨1, .ok ⟨x, []⟩⟩ ∧
      pool .nchw (J 1) acc t x = ⟨1, .ok ⟨y, []⟩⟩ ∧
      pool .nchw (J 2) acc t (tab [n, c1, H.n, W.n] (fn4 X1)) = ⟨1, .ok ⟨y1, []⟩⟩ ∧
      pool .nchw (J 3) acc t (tab [n, c2, H.n, W.n] (fn4 X2)) = ⟨1, .ok ⟨y2, []⟩⟩ ∧
      Layers.concatChannel .nchw (J 4) [y1, y2] = ⟨1, .ok ⟨y, []⟩⟩ := by
  choose v hv using hacc
  have run : ∀ (c : Nat) (j : Nat → R) (X : Nat → Nat → Nat → Nat → R), _ := fun c j X =>
    (poolLayer_gen j acc hH hW ht (n := n) (c := c) (fun b i j k => X b k i j)
      (fun b i j k => v (pixels (shifted H) (shifted W) (fun a a' => X b k a a') i j)) fun _ _ _ _ _ _ _ _ => hv _).2
  refine ⟨_, _, _, _, concatLayer_nchw (J 0) hc X1 X2, run _ (J 1) _, run _ (J 2) X1, run _ (J 3) X2,
    (concatLayer_nchw (J 4) hc _ _).trans ?_⟩
  refine congrArg (fun t : Tensor R => (⟨1, .ok ⟨t, []⟩⟩ : Alloc (Layer R))) (tab_congr fun idx hv => ?_)
  match idx, hv with
  | [b, k, i, j], hv =>
    simp only [fn4_apply]
    by_cases h : k < c1
    · simp only [if_pos h]
    · simp only [if_neg h]

end

/-! ## Examples -/

/-- Non-vacuity of C128: images with one and two channels; the padded, strided, dilated convolution of C31. -/
example : AxisOK u32 exH ∧ AxisOK u32 exW ∧ [exH.n, exW.n, 1 + 2 + 1].prod ≤ 2 ^ 31 ∧
    (List.replicate 60 (0 : Int)).length = [1, exH.n, exW.n, 1 + 2 + 1].prod ∧
    Kernels.convNhwc (convTrait ⟨1, 1, 1, 0, 0, 1, 1⟩ ⟨1, 1, 1, 0, 0, 2, 2⟩) (fun _ => 0) (fun _ => 0) [1, 1, 2, 1]
      (⟨[1, 1, 2, 4], [1, 2, 3, 4, 5, 6, 7, 8]⟩ : Tensor Int) ⟨[1, 1, 4, 1], [1, 10, 100, 1000]⟩ [0, 0] = .ok [4321, 8765] ∧
    Kernels.concatNhwc [1, 1, 2, 4] (⟨[1, 1, 2, 1], [1, 5]⟩ : Tensor Int) ⟨[1, 1, 2, 2], [2, 3, 6, 7]⟩ ⟨[1, 1, 2, 1], [4, 8]⟩
      (List.replicate 8 0) = .ok [1, 2, 3, 4, 5, 6, 7, 8] := by
  refine ⟨exH_ok, exW_ok, ?_, ?_, ?_, ?_⟩ <;> decide +kernel

theorem mean_total [Zero R] [Add R] (divn : R → Nat → R) (l : List R) : ∃ v, (Acc.mean divn).run l = .ok v := by
  have key : ∀ (l : List R) (st : R × Nat), ∃ st', l.foldlM (m := Outcome) (fun (st : R × Nat) x => do
        let n ← u32.add st.2 1
        return (st.1 + x, n.toNat)) st = .ok st' := by
    intro l
    induction l with
    | nil => exact fun st => ⟨st, rfl⟩
    | cons x l ih =>
      intro st
      obtain ⟨n, hn⟩ : ∃ n, u32.add st.2 1 = .ok n := ⟨_, rfl⟩
      obtain ⟨st', h⟩ := ih (st.1 + x, n.toNat)
      refine ⟨st', ?_⟩
      rw [List.foldlM_cons, hn]
      exact h
  obtain ⟨st, h⟩ := key l (0, 0)
  refine ⟨divn st.1 st.2, ?_⟩
  unfold Acc.run
  show (l.foldlM (m := Outcome) _ _ >>= _) = _
  exact (congrArg (· >>= (Acc.mean divn).result) h).trans rfl

/-- Non-vacuity of C128 (pooling): both accumulators are defined on all windows. -/
example : (∀ l, ∃ v, (Acc.max (-99 : Int)).run l = .ok v) ∧ (∀ l, ∃ v, (Acc.mean fun (s : ℚ) n => s / (n : ℚ)).run l = .ok v) ∧
    PoolHasAxes (PoolLayer.make (2, 2) (Sample.paddingFixed ⟨1, 1⟩) (2, 2)) ⟨2, 2, 1, 1, 1, 2, 2⟩ ⟨2, 2, 1, 1, 1, 2, 2⟩ :=
  ⟨fun _ => ⟨_, max_run _ _⟩, fun l => mean_total _ l, by constructor <;> decide⟩

/-! ## Concrete cases -/

example := C128_images_nhwc (R := Int) (n := 1) (c1 := 1) (c2 := 2) (c3 := 1) (d := 2) exH_ok exW_ok (by decide) (by decide)
  (fun l i j k => l + i - j * k) (fun l i j k => l * i + j - k) (fun l i j k => l * i * j * k) (fun r s k e => r + s - k * e) (fun _ => 1) (fun _ => 2)
  (t := List.replicate 60 0) (z := List.replicate 18 0) (z1 := List.replicate 18 0) (z2 := List.replicate 18 0)
  (z3 := List.replicate 18 0) rfl rfl rfl rfl rfl
example := C128_images_nchw (R := Int) (n := 1) (c1 := 1) (c2 := 2) (d := 2) exH_ok exW_ok
  (fun l i j k => l + i - j * k) (fun l i j k => l * i + j - k) (fun r s k e => r + s - k * e) (fun _ => 2) (t := List.replicate 45 0) (z := List.replicate 18 0)
  (z1 := List.replicate 18 0) (z2 := List.replicate 18 0) rfl rfl rfl rfl
example := C128_filters_nchw (R := Int) (n := 1) (c := 2) (d1 := 1) (d2 := 2) exH_ok exW_ok
  (fun l i j k => l + i - j * k) (fun l i j k => l * i + j - k) (fun r s k e => r + s - k * e) (fun _ => 2) (t := List.replicate 27 0) (z := List.replicate 27 0)
  (z1 := List.replicate 9 0) (z2 := List.replicate 18 0) rfl rfl rfl rfl
example := C128_filters_nhwc (R := Int) (n := 1) (c := 2) (d1 := 1) (d2 := 2) (d3 := 1) exH_ok exW_ok (by decide) (by decide)
  (fun l i j k => l + i - j * k) (fun l i j k => l * i + j - k) (fun r s k e => r + s - k * e) (fun l i j k => l * i * j * k) (fun _ => 1) (fun _ => 2)
  (t := List.replicate 36 0) (z := List.replicate 36 0) (z1 := List.replicate 9 0) (z2 := List.replicate 18 0)
  (z3 := List.replicate 9 0) rfl rfl rfl rfl rfl
example := C128_pool_nhwc (R := Int) (acc := Acc.max (-128)) (fun l => ⟨_, max_run _ l⟩) (fun _ _ => 9) exPadH_ok exPadW_ok
  exPad_axes (n := 2) (c1 := 1) (c2 := 2) (c3 := 1) (by decide) (fun l i j k => l + i - j * k) (fun l i j k => l * i + j - k) (fun l i j k => l * i * j * k)
example := C128_pool_nchw (R := Int) (acc := Acc.max (-128)) (fun l => ⟨_, max_run _ l⟩) (fun _ _ => 9) exPadH_ok exPadW_ok
  exPad_axes (n := 2) (c1 := 1) (c2 := 2) (by decide) (fun l i j k => l + i - j * k) (fun l i j k => l * i + j - k)

end StdNN
