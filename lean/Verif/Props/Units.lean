import Verif.Props.ConvMerge
/-!
# C146: hidden units of a network can be reordered, rescaled, merged and pruned
-/
namespace StdNN
open IntTy Spec Outcome Layers Models Finset
variable {R : Type}

/-- The weights that leave unit `j'` of the smaller network: those of all units `j` that copy it, times their scales. -/
def joined [Semiring R] (b : Nat) (τ : Nat → Nat) (s : Nat → R) (w : Nat → R) (j' : Nat) : R :=
  ∑ j ∈ range b with τ j = j', s j * w j

theorem sum_joined [Semiring R] {b b' : Nat} {τ : Nat → Nat} (hτ : ∀ j < b, τ j < b') (s w g : Nat → R) :
    ∑ j ∈ range b, g (τ j) * s j * w j = ∑ j' ∈ range b', g j' * joined b τ s w j' := by
  rw [← sum_fiberwise_of_maps_to (t := range b') (g := τ) fun j hj => mem_range.2 (hτ j (mem_range.1 hj))]
  refine sum_congr rfl fun j' _ => ?_
  rw [joined, mul_sum]
  refine sum_congr rfl fun j hj => ?_
  rw [(mem_filter.1 hj).2, mul_assoc]

/-- C146 (dense layers): unit `j` of the hidden layer has `s j` times the weights and the bias of unit `τ j` of another
hidden layer, and the activation `f` of the hidden layer lets the factors `s j` pass. Then the network equals the one with
the other hidden layer, whose units have as leaving weights the sums, over their copies, of the leaving weights times the
factors. -/
theorem C146_dense [Semiring R] (J : Nat → Nat → R) {act act' : Act R} {f g : R → R} (hact : ActsAs act f)
    (hact' : ActsAs act' g) {n a b b' c : Nat} (hb : b < 2 ^ 32) (hb' : b' < 2 ^ 32) (hc : c < 2 ^ 32)
    (X U W : Nat → Nat → R) (A B : Nat → R) {τ : Nat → Nat} (hτ : ∀ j < b, τ j < b') {s : Nat → R}
    (hs : ∀ j < b, ∀ v, f (v * s j) = f v * s j) {uInit aInit wInit bInit uInit' aInit' wInit' : Init R}
    (hU : ∀ m, uInit [a, b] m = .ok (tab [a, b] (fn2 fun i j => U i (τ j) * s j)).data)
    (hA : ∀ m, aInit [b] m = .ok (tab [b] (fn1 fun j => A (τ j) * s j)).data)
    (hW : ∀ m, wInit [b, c] m = .ok (tab [b, c] (fn2 W)).data) (hB : ∀ m, bInit [c] m = .ok (tab [c] (fn1 B)).data)
    (hU' : ∀ m, uInit' [a, b'] m = .ok (tab [a, b'] (fn2 U)).data)
    (hA' : ∀ m, aInit' [b'] m = .ok (tab [b'] (fn1 A)).data)
    (hW' : ∀ m, wInit' [b', c] m = .ok (tab [b', c] (fn2 fun j k => ∑ i ∈ range b with τ i = j, s i * W i k)).data) :
    ∃ (y : Tensor R) (ws ws' : List (Tensor R)),
      composed (fun x => dense (J 0) (J 1) (J 2) act b x uInit aInit)
          (fun x => dense (J 3) (J 4) (J 5) act' c x wInit bInit) (tab [n, a] (fn2 X)) = ⟨3, .ok ⟨y, ws⟩⟩ ∧
      composed (fun x => dense (J 6) (J 7) (J 8) act b' x uInit' aInit')
          (fun x => dense (J 9) (J 10) (J 11) act' c x wInit' bInit) (tab [n, a] (fn2 X)) = ⟨3, .ok ⟨y, ws'⟩⟩ := by
  refine ⟨_, _, _, composed_run (C77_dense (J 0) (J 1) (J 2) hact hb X _ _ (hU _) (hA _))
    (C77_dense (J 3) (J 4) (J 5) hact' hc _ W B (hW _) (hB _)) rfl,
    (composed_run (a := 3) (C77_dense (J 6) (J 7) (J 8) hact hb' X U A (hU' _) (hA' _))
    (C77_dense (J 9) (J 10) (J 11) hact' hc _ _ B (hW' _) (hB _)) rfl).trans (same_output ?_)⟩
  refine tab_congr fun idx hv => ?_
  match idx, hv with
  | [r, k], _ =>
    simp only [fn2, seqSum_eq_sum]
    refine congrArg (fun v => g (v + B k)) ?_
    rw [show (∑ j ∈ range b, f ((∑ i ∈ range a, X r i * (U i (τ j) * s j)) + A (τ j) * s j) * W j k) =
        ∑ j ∈ range b, (fun q => f ((∑ i ∈ range a, X r i * U i q) + A q)) (τ j) * s j * W j k from
      sum_congr rfl fun j hj => by
        simp only [← mul_assoc, ← sum_mul, ← add_mul, hs j (mem_range.1 hj)]]
    exact (sum_joined hτ s (fun j => W j k) _).symm

theorem conv2_units [Semiring R] {H W H2 W2 : Axis} {b b' c : Nat} {τ : Nat → Nat} (hτ : ∀ j < b, τ j < b') {s : Nat → R}
    {f : R → R} (hs : ∀ j < b, ∀ v, f (v * s j) = f v * s j) (X : Nat → Nat → Nat → R) (Y Z : Nat → Nat → Nat → Nat → R)
    (A : Nat → R) (i j e : Nat) :
    conv2 H2 W2 b (fun p q m => f (conv2 H W c X (fun u v k m => Y u v k (τ m) * s m) p q m + A (τ m) * s m)) Z i j e =
      conv2 H2 W2 b' (fun p q m => f (conv2 H W c X Y p q m + A m)) (fun u v m e => joined b τ s (fun m => Z u v m e) m) i j e := by
  have h : ∀ p q, ∀ m < b, f (conv2 H W c X (fun u v k m => Y u v k (τ m) * s m) p q m + A (τ m) * s m) =
      f (conv2 H W c X Y p q (τ m) + A (τ m)) * s m := by
    intro p q m hm
    rw [show conv2 H W c X (fun u v k m => Y u v k (τ m) * s m) p q m = conv2 H W c X Y p q (τ m) * s m by
      simp only [conv2, sum_mul, mul_assoc], ← add_mul, hs m hm]
  refine sum_congr rfl fun u _ => sum_congr rfl fun v _ => ?_
  rw [← sum_joined hτ s (fun m => Z u v m e) fun m => window H2 W2 (fun p q => f (conv2 H W c X Y p q m + A m)) i j u v]
  refine sum_congr rfl fun m hm => ?_
  congr 1
  simp only [h _ _ m (mem_range.1 hm)]
  unfold window padded
  split_ifs
  · rfl
  · rw [zero_mul]
  · rw [zero_mul]

/-- C146 (convolution layers, `nhwc`): filter `m` of the first layer is `s m` times filter `τ m` of another layer, and so is
its bias; then the two layers equal the other layer followed by a convolution layer whose filters have, at each tap and
channel, the sums of the old ones over the copies of the channel, times the factors. -/
theorem C146_conv_nhwc [Semiring R] (J : Nat → Nat → R) (I : Nat → Nat → Int) {act act' : Act R} {f g : R → R}
    (hact : ActsAs act f) (hact' : ActsAs act' g) {H1 W1 H2 W2 : Axis} (hH1 : AxisOK u32 H1) (hW1 : AxisOK u32 W1)
    (hH2 : AxisOK u32 H2) (hW2 : AxisOK u32 W2) (aH : H2.n = H1.m) (aW : W2.n = W1.m) {t1 t1' t2 : ConvLayer}
    (ht1 : HasAxes t1 H1 W1) (ht1' : HasAxes t1' H1 W1) (ht2 : HasAxes t2 H2 W2) {n c : Nat}
    (hsz : [H1.n, W1.n, c].prod ≤ 2 ^ 31) (hsz1 : [H1.m, W1.m, t1.filters].prod ≤ 2 ^ 31)
    (hsz1' : [H1.m, W1.m, t1'.filters].prod ≤ 2 ^ 31) (X Y Z : Nat → Nat → Nat → Nat → R) (A B : Nat → R)
    {τ : Nat → Nat} (hτ : ∀ j < t1.filters, τ j < t1'.filters) {s : Nat → R}
    (hs : ∀ j < t1.filters, ∀ v, f (v * s j) = f v * s j) {w1 b1 w2 b2 w1' b1' w2' : Init R}
    (hw1 : ∀ m, w1 [H1.k, W1.k, c, t1.filters] m =
      .ok (tab [H1.k, W1.k, c, t1.filters] (fn4 fun u v k j => Y u v k (τ j) * s j)).data)
    (hb1 : ∀ m, b1 [t1.filters] m = .ok (tab [t1.filters] (fn1 fun j => A (τ j) * s j)).data)
    (hw2 : ∀ m, w2 [H2.k, W2.k, t1.filters, t2.filters] m = .ok (tab [H2.k, W2.k, t1.filters, t2.filters] (fn4 Z)).data)
    (hb2 : ∀ m, b2 [t2.filters] m = .ok (tab [t2.filters] (fn1 B)).data)
    (hw1' : ∀ m, w1' [H1.k, W1.k, c, t1'.filters] m = .ok (tab [H1.k, W1.k, c, t1'.filters] (fn4 Y)).data)
    (hb1' : ∀ m, b1' [t1'.filters] m = .ok (tab [t1'.filters] (fn1 A)).data)
    (hw2' : ∀ m, w2' [H2.k, W2.k, t1'.filters, t2.filters] m = .ok (tab [H2.k, W2.k, t1'.filters, t2.filters]
      (fn4 fun u v j e => ∑ i ∈ range t1.filters with τ i = j, s i * Z u v i e)).data) :
    ∃ (y : Tensor R) (ws ws' : List (Tensor R)),
      composed (fun x => Layers.conv .nhwc .rscd (J 0) (J 1) (J 2) (I 0) (J 3) act t1 x w1 b1)
          (fun x => Layers.conv .nhwc .rscd (J 4) (J 5) (J 6) (I 1) (J 7) act' t2 x w2 b2) (tab [n, H1.n, W1.n, c] (fn4 X)) =
        ⟨3, .ok ⟨y, ws⟩⟩ ∧
      composed (fun x => Layers.conv .nhwc .rscd (J 8) (J 9) (J 10) (I 2) (J 11) act t1' x w1' b1')
          (fun x => Layers.conv .nhwc .rscd (J 12) (J 13) (J 14) (I 3) (J 15) act' t2 x w2' b2) (tab [n, H1.n, W1.n, c] (fn4 X)) =
        ⟨3, .ok ⟨y, ws'⟩⟩ := by
  rw [← aH, ← aW] at hsz1 hsz1'
  have r2 := fun Z' => C78_conv_nhwc (n := n) (J 4) (J 5) (J 6) (I 1) (J 7) hact' hH2 hW2 ht2 hsz1 Z' Z B (hw2 _) (hb2 _)
  have r2' := fun Z' => C78_conv_nhwc (n := n) (J 12) (J 13) (J 14) (I 3) (J 15) hact' hH2 hW2 ht2 hsz1' Z' _ B (hw2' _) (hb2 _)
  simp only [aH, aW] at r2 r2'
  refine ⟨_, _, _, composed_run (C78_conv_nhwc (J 0) (J 1) (J 2) (I 0) (J 3) hact hH1 hW1 ht1 hsz X _ _ (hw1 _) (hb1 _))
    (r2 _) rfl, (composed_run (a := 3) (C78_conv_nhwc (J 8) (J 9) (J 10) (I 2) (J 11) hact hH1 hW1 ht1' hsz X Y A (hw1' _)
    (hb1' _)) (r2' _) rfl).trans (same_output ?_)⟩
  refine tab_congr fun idx hv => ?_
  match idx, hv with
  | [b, i, j, e], _ =>
    simp only [fn4]
    exact congrArg (fun v => g (v + B e)) (conv2_units hτ hs (X b) Y Z A i j e).symm

/-- C146 (convolution layers, `nchw`). -/
theorem C146_conv_nchw [CommSemiring R] (J : Nat → Nat → R) (I : Nat → Nat → Int) {act act' : Act R} {f g : R → R}
    (hact : ActsAs act f) (hact' : ActsAs act' g) {H1 W1 H2 W2 : Axis} (hH1 : AxisOK u32 H1) (hW1 : AxisOK u32 W1)
    (hH2 : AxisOK u32 H2) (hW2 : AxisOK u32 W2) (aH : H2.n = H1.m) (aW : W2.n = W1.m) {t1 t1' t2 : ConvLayer}
    (ht1 : HasAxes t1 H1 W1) (ht1' : HasAxes t1' H1 W1) (ht2 : HasAxes t2 H2 W2) {n c : Nat}
    (X Y Z : Nat → Nat → Nat → Nat → R) (A B : Nat → R)
    {τ : Nat → Nat} (hτ : ∀ j < t1.filters, τ j < t1'.filters) {s : Nat → R}
    (hs : ∀ j < t1.filters, ∀ v, f (v * s j) = f v * s j) {w1 b1 w2 b2 w1' b1' w2' : Init R}
    (hw1 : ∀ m, w1 [t1.filters, c, H1.k, W1.k] m =
      .ok (tab [t1.filters, c, H1.k, W1.k] (fn4 fun j k u v => Y (τ j) k u v * s j)).data)
    (hb1 : ∀ m, b1 [t1.filters] m = .ok (tab [t1.filters] (fn1 fun j => A (τ j) * s j)).data)
    (hw2 : ∀ m, w2 [t2.filters, t1.filters, H2.k, W2.k] m = .ok (tab [t2.filters, t1.filters, H2.k, W2.k] (fn4 Z)).data)
    (hb2 : ∀ m, b2 [t2.filters] m = .ok (tab [t2.filters] (fn1 B)).data)
    (hw1' : ∀ m, w1' [t1'.filters, c, H1.k, W1.k] m = .ok (tab [t1'.filters, c, H1.k, W1.k] (fn4 Y)).data)
    (hb1' : ∀ m, b1' [t1'.filters] m = .ok (tab [t1'.filters] (fn1 A)).data)
    (hw2' : ∀ m, w2' [t2.filters, t1'.filters, H2.k, W2.k] m = .ok (tab [t2.filters, t1'.filters, H2.k, W2.k]
      (fn4 fun e j u v => ∑ i ∈ range t1.filters with τ i = j, s i * Z e i u v)).data) :
    ∃ (y : Tensor R) (ws ws' : List (Tensor R)),
      composed (fun x => Layers.conv .nchw .dcrs (J 0) (J 1) (J 2) (I 0) (J 3) act t1 x w1 b1)
          (fun x => Layers.conv .nchw .dcrs (J 4) (J 5) (J 6) (I 1) (J 7) act' t2 x w2 b2) (tab [n, c, H1.n, W1.n] (fn4 X)) =
        ⟨3, .ok ⟨y, ws⟩⟩ ∧
      composed (fun x => Layers.conv .nchw .dcrs (J 8) (J 9) (J 10) (I 2) (J 11) act t1' x w1' b1')
          (fun x => Layers.conv .nchw .dcrs (J 12) (J 13) (J 14) (I 3) (J 15) act' t2 x w2' b2) (tab [n, c, H1.n, W1.n] (fn4 X)) =
        ⟨3, .ok ⟨y, ws'⟩⟩ := by
  have r2 := fun Z' => C78_conv_nchw (n := n) (J 4) (J 5) (J 6) (I 1) (J 7) hact' hH2 hW2 ht2 Z' Z B (hw2 _) (hb2 _)
  have r2' := fun Z' => C78_conv_nchw (n := n) (J 12) (J 13) (J 14) (I 3) (J 15) hact' hH2 hW2 ht2 Z' _ B (hw2' _) (hb2 _)
  simp only [aH, aW] at r2 r2'
  refine ⟨_, _, _, composed_run (C78_conv_nchw (J 0) (J 1) (J 2) (I 0) (J 3) hact hH1 hW1 ht1 X _ _ (hw1 _) (hb1 _))
    (r2 _) rfl, (composed_run (a := 3) (C78_conv_nchw (J 8) (J 9) (J 10) (I 2) (J 11) hact hH1 hW1 ht1' X Y A (hw1' _)
    (hb1' _)) (r2' _) rfl).trans (same_output ?_)⟩
  refine tab_congr fun idx hv => ?_
  match idx, hv with
  | [b, e, i, j], _ =>
    simp only [fn4]
    exact congrArg (fun v => g (v + B e)) (conv2_units hτ hs (fun p q k => X b k p q) (fun u v k m => Y m k u v)
      (fun u v m e => Z e m u v) A i j e).symm

/-- C146 (which factors pass): `relu` lets every factor pass that is not negative. -/
theorem C146_relu [Ring R] [LinearOrder R] [IsStrictOrderedRing R] {s : R} (hs : 0 ≤ s) (v : R) :
    (if 0 < v * s then v * s else 0) = (if 0 < v then v else 0) * s := by
  rcases hs.eq_or_lt with rfl | hs
  · simp
  · simp only [mul_pos_iff_of_pos_right hs, ite_mul, zero_mul]

theorem joined_reorder [Semiring R] {b : Nat} {τ : Nat → Nat} (hτ : Set.BijOn τ (Set.Iio b) (Set.Iio b)) (w : Nat → R)
    {j : Nat} (hj : j < b) : (∑ i ∈ range b with τ i = j, (1 : R) * w (τ i)) = w j := by
  obtain ⟨i, hi, rfl⟩ := hτ.surjOn hj
  rw [sum_eq_single_of_mem i (by simpa using hi)]
  · rw [one_mul]
  · intro k hk hne
    simp only [mem_filter, mem_range] at hk
    exact absurd (hτ.injOn hk.1 hi hk.2) hne

/-- C146 (reordering): the units of a hidden layer can be reordered, with any activation. -/
theorem C146_dense_reorder [Semiring R] (J : Nat → Nat → R) {act act' : Act R} {f g : R → R} (hact : ActsAs act f)
    (hact' : ActsAs act' g) {n a b c : Nat} (hb : b < 2 ^ 32) (hc : c < 2 ^ 32) (X U W : Nat → Nat → R) (A B : Nat → R)
    {τ : Nat → Nat} (hτ : Set.BijOn τ (Set.Iio b) (Set.Iio b)) {uInit aInit wInit bInit uInit' aInit' wInit' : Init R}
    (hU : ∀ m, uInit [a, b] m = .ok (tab [a, b] (fn2 fun i j => U i (τ j))).data)
    (hA : ∀ m, aInit [b] m = .ok (tab [b] (fn1 fun j => A (τ j))).data)
    (hW : ∀ m, wInit [b, c] m = .ok (tab [b, c] (fn2 fun j => W (τ j))).data)
    (hB : ∀ m, bInit [c] m = .ok (tab [c] (fn1 B)).data)
    (hU' : ∀ m, uInit' [a, b] m = .ok (tab [a, b] (fn2 U)).data) (hA' : ∀ m, aInit' [b] m = .ok (tab [b] (fn1 A)).data)
    (hW' : ∀ m, wInit' [b, c] m = .ok (tab [b, c] (fn2 W)).data) :
    ∃ (y : Tensor R) (ws ws' : List (Tensor R)),
      composed (fun x => dense (J 0) (J 1) (J 2) act b x uInit aInit)
          (fun x => dense (J 3) (J 4) (J 5) act' c x wInit bInit) (tab [n, a] (fn2 X)) = ⟨3, .ok ⟨y, ws⟩⟩ ∧
      composed (fun x => dense (J 6) (J 7) (J 8) act b x uInit' aInit')
          (fun x => dense (J 9) (J 10) (J 11) act' c x wInit' bInit) (tab [n, a] (fn2 X)) = ⟨3, .ok ⟨y, ws'⟩⟩ := by
  refine C146_dense J hact hact' hb hb hc X U (fun j => W (τ j)) A B (fun j hj => hτ.mapsTo hj) (s := fun _ => 1)
    (fun j _ v => by rw [mul_one, mul_one]) (fun m => ?_) (fun m => ?_) hW hB hU' hA' fun m => ?_
  · simpa only [mul_one, id] using hU m
  · simpa only [mul_one, id] using hA m
  · rw [hW' m]
    refine congrArg (fun t : Tensor R => Outcome.ok t.data) (tab_congr fun idx hv => ?_)
    match idx, hv with
    | [j, k], ⟨hj, _⟩ => exact (joined_reorder hτ (fun i => W i k) hj).symm

/-- C146 (pruning): units of a hidden layer whose leaving weights are zero can be left out; here those from `b` on. -/
theorem C146_dense_prune [Semiring R] (J : Nat → Nat → R) {act act' : Act R} {f g : R → R} (hact : ActsAs act f)
    (hact' : ActsAs act' g) {n a b b' c : Nat} (hbb : b ≤ b') (hb' : b' < 2 ^ 32) (hc : c < 2 ^ 32)
    (X U W : Nat → Nat → R) (A B : Nat → R) (hz : ∀ j, b ≤ j → j < b' → ∀ k < c, W j k = 0)
    {uInit aInit wInit bInit uInit' aInit' wInit' : Init R}
    (hU : ∀ m, uInit [a, b] m = .ok (tab [a, b] (fn2 U)).data) (hA : ∀ m, aInit [b] m = .ok (tab [b] (fn1 A)).data)
    (hW : ∀ m, wInit [b, c] m = .ok (tab [b, c] (fn2 W)).data) (hB : ∀ m, bInit [c] m = .ok (tab [c] (fn1 B)).data)
    (hU' : ∀ m, uInit' [a, b'] m = .ok (tab [a, b'] (fn2 U)).data) (hA' : ∀ m, aInit' [b'] m = .ok (tab [b'] (fn1 A)).data)
    (hW' : ∀ m, wInit' [b', c] m = .ok (tab [b', c] (fn2 W)).data) :
    ∃ (y : Tensor R) (ws ws' : List (Tensor R)),
      composed (fun x => dense (J 0) (J 1) (J 2) act b x uInit aInit)
          (fun x => dense (J 3) (J 4) (J 5) act' c x wInit bInit) (tab [n, a] (fn2 X)) = ⟨3, .ok ⟨y, ws⟩⟩ ∧
      composed (fun x => dense (J 6) (J 7) (J 8) act b' x uInit' aInit')
          (fun x => dense (J 9) (J 10) (J 11) act' c x wInit' bInit) (tab [n, a] (fn2 X)) = ⟨3, .ok ⟨y, ws'⟩⟩ := by
  refine C146_dense J hact hact' (by omega) hb' hc X U W A B (τ := id) (fun j hj => by simp only [id]; omega) (s := fun _ => 1)
    (fun j _ v => by rw [mul_one, mul_one]) (fun m => ?_) (fun m => ?_) hW hB hU' hA' fun m => ?_
  · simpa only [mul_one, id] using hU m
  · simpa only [mul_one, id] using hA m
  · rw [hW' m]
    refine congrArg (fun t : Tensor R => Outcome.ok t.data) (tab_congr fun idx hv => ?_)
    match idx, hv with
    | [j, k], ⟨hj, hk, _⟩ =>
      simp only [fn2, one_mul, id, sum_filter, sum_ite_eq', mem_range]
      split_ifs with h
      · rfl
      · exact hz j (by omega) hj k hk

/-! ## Concrete cases -/

/-- Three hidden units, of which the last two are 2 and 3 times unit 1 of a hidden layer with two units. -/
example := C146_dense (R := Int) (fun _ _ => 5) relu_acts noop_acts (n := 2) (a := 2) (b := 3) (b' := 2) (c := 1) (by decide)
  (by decide) (by decide) (fun r i => r - 2 * i) (fun i j => i - j) (fun j _ => j + 1) (fun j => j) (fun _ => 7)
  (τ := fun j => if j = 0 then 0 else 1) (fun j _ => by split <;> decide) (s := fun j => j + 1)
  (fun j _ v => C146_relu (by omega) v)
  (uInit := exInit (fn2 fun i j => ((i : Int) - (if j = 0 then 0 else 1 : Nat)) * (j + 1)))
  (aInit := exInit (fn1 fun j => ((if j = 0 then 0 else 1 : Nat) : Int) * (j + 1)))
  (wInit := exInit (fn2 fun j _ => (j : Int) + 1)) (bInit := exInit (fn1 fun _ => 7))
  (uInit' := exInit (fn2 fun i j => (i : Int) - j)) (aInit' := exInit (fn1 fun j => (j : Int)))
  (wInit' := exInit (fn2 fun j _ => ∑ i ∈ range 3 with (if i = 0 then 0 else 1) = j, ((i : Int) + 1) * (i + 1)))
  (fun _ => rfl) (fun _ => rfl) (fun _ => rfl) (fun _ => rfl) (fun _ => rfl) (fun _ => rfl) (fun _ => rfl)
example := C146_dense_reorder (R := Int) (fun _ _ => 5) relu_acts noop_acts (n := 2) (a := 2) (b := 2) (c := 1) (by decide)
  (by decide) (fun r i => r - 2 * i) (fun i j => i - j) (fun j _ => j + 1) (fun j => j) (fun _ => 7) exSwap
  (uInit := exInit (fn2 fun i j => (i : Int) - (1 - j : Nat)))
  (aInit := exInit (fn1 fun j => ((1 - j : Nat) : Int)))
  (wInit := exInit (fn2 fun j _ => ((1 - j : Nat) : Int) + 1)) (bInit := exInit (fn1 fun _ => 7))
  (uInit' := exInit (fn2 fun i j => (i : Int) - j)) (aInit' := exInit (fn1 fun j => (j : Int)))
  (wInit' := exInit (fn2 fun j _ => (j : Int) + 1))
  (fun _ => rfl) (fun _ => rfl) (fun _ => rfl) (fun _ => rfl) (fun _ => rfl) (fun _ => rfl) (fun _ => rfl)
example := C146_dense_prune (R := Int) (fun _ _ => 5) relu_acts noop_acts (n := 2) (a := 2) (b := 2) (b' := 4) (c := 1)
  (by decide) (by decide) (by decide) (fun r i => r - 2 * i) (fun i j => i - j) (fun j _ => if j < 2 then j + 1 else 0)
  (fun j => j) (fun _ => 7) (fun j hj _ _ _ => if_neg (by omega))
  (uInit := exInit (fn2 fun i j => (i : Int) - j)) (aInit := exInit (fn1 fun j => (j : Int)))
  (wInit := exInit (fn2 fun j _ => if j < 2 then (j : Int) + 1 else 0)) (bInit := exInit (fn1 fun _ => 7))
  (uInit' := exInit (fn2 fun i j => (i : Int) - j)) (aInit' := exInit (fn1 fun j => (j : Int)))
  (wInit' := exInit (fn2 fun j _ => if j < 2 then (j : Int) + 1 else 0))
  (fun _ => rfl) (fun _ => rfl) (fun _ => rfl) (fun _ => rfl) (fun _ => rfl) (fun _ => rfl) (fun _ => rfl)

/-- The first layer of C117's concrete case with two filters instead of three. -/
def exL1' : ConvLayer := ConvLayer.make 2 (2, 2) (Sample.paddingFixed ⟨1, 1⟩) (2, 2) (2, 2)
theorem exL1'_axes : HasAxes exL1' exA1 exA1 := by refine ⟨?_, ?_, ?_, ?_, ?_⟩ <;> decide

example := C146_conv_nhwc (R := Int) (fun _ _ => 5) (fun _ _ => 6) relu_acts noop_acts exA1_ok exA1_ok exA2_ok exA2_ok rfl rfl
  exL1_axes exL1'_axes exL2_axes (n := 2) (c := 2) (by decide) (by decide) (by decide)
  (fun _ p q k => p - 7 * q + k) (fun r s k e => r + s - k * e) (fun r s k e => r * s + k - e) (fun e => e) (fun e => 1 - e)
  (τ := fun j => if j = 0 then 0 else 1) (fun j _ => by show _ < 2; split <;> decide) (s := fun j => j + 1)
  (fun j _ v => C146_relu (by omega) v)
  (w1 := exInit (fn4 fun r s k j => ((r : Int) + s - k * (if j = 0 then 0 else 1 : Nat)) * (j + 1)))
  (b1 := exInit (fn1 fun j => ((if j = 0 then 0 else 1 : Nat) : Int) * (j + 1)))
  (w2 := exInit (fn4 fun r s k e => r * s + k - e)) (b2 := exInit (fn1 fun e => 1 - e))
  (w1' := exInit (fn4 fun r s k e => r + s - k * e)) (b1' := exInit (fn1 fun e => e))
  (w2' := exInit (fn4 fun r s j e => ∑ i ∈ range 3 with (if i = 0 then 0 else 1) = j, ((i : Int) + 1) * (r * s + i - e)))
  (fun _ => rfl) (fun _ => rfl) (fun _ => rfl) (fun _ => rfl) (fun _ => rfl) (fun _ => rfl) (fun _ => rfl)
example := C146_conv_nchw (R := Int) (fun _ _ => 5) (fun _ _ => 6) relu_acts noop_acts exA1_ok exA1_ok exA2_ok exA2_ok rfl rfl
  exL1_axes exL1'_axes exL2_axes (n := 2) (c := 2)
  (fun _ k p q => p - 7 * q + k) (fun e k r s => r + s - k * e) (fun e k r s => r * s + k - e) (fun e => e) (fun e => 1 - e)
  (τ := fun j => if j = 0 then 0 else 1) (fun j _ => by show _ < 2; split <;> decide) (s := fun j => j + 1)
  (fun j _ v => C146_relu (by omega) v)
  (w1 := exInit (fn4 fun j k r s => ((r : Int) + s - k * (if j = 0 then 0 else 1 : Nat)) * (j + 1)))
  (b1 := exInit (fn1 fun j => ((if j = 0 then 0 else 1 : Nat) : Int) * (j + 1)))
  (w2 := exInit (fn4 fun e k r s => r * s + k - e)) (b2 := exInit (fn1 fun e => 1 - e))
  (w1' := exInit (fn4 fun e k r s => r + s - k * e)) (b1' := exInit (fn1 fun e => e))
  (w2' := exInit (fn4 fun e j r s => ∑ i ∈ range 3 with (if i = 0 then 0 else 1) = j, ((i : Int) + 1) * (r * s + i - e)))
  (fun _ => rfl) (fun _ => rfl) (fun _ => rfl) (fun _ => rfl) (fun _ => rfl) (fun _ => rfl) (fun _ => rfl)
example := C146_relu (R := Int) (s := 3) (by decide) (-4)

end StdNN
