import Verif.Props.Layers
/-!
# C79: pooling layers
-/
namespace StdNN
open Spec Outcome IntTy Layers
variable {R : Type}

/-- The axis of a pooling layer with default padding and stride on an image side of `n = k * m` pixels. -/
def tileAxis (k n : Nat) : Axis := ⟨k, k, 1, 0, 0, n, n / k⟩

theorem patch_one (k : Nat) (h : 1 ≤ k) : patch k 1 = k := by unfold patch; omega

theorem tile_ok {k n : Nat} (k1 : 1 ≤ k) (hd : k ∣ n) (n1 : 1 ≤ n) (h : u32.In ((n + k : Nat) : Int))
    (h2 : u32.In ((2 * k : Nat) : Int)) :
    Sample.samePadding u32 k k (1 : Nat) n = .ok ⟨0, 0⟩ ∧ AxisOK u32 (tileAxis k n) := by
  have hk : u32.In (k : Int) := h.mono (by omega) (by omega)
  have hm : n % k = 0 := Nat.mod_eq_zero_of_dvd hd
  have hp := patch_one k k1
  obtain ⟨l, q, e, -, -, e0, ok⟩ := same_axis k1 k1 (r := 1) (le_refl 1) hk hk (by decide) (by rw [hp]; exact h) h2
    (by omega) (Nat.le_of_dvd n1 hd)
  have l0 : l = 0 := by omega
  have q0 : q = 0 := by omega
  subst l0 q0
  exact ⟨e, ok⟩

/-- Window `i` of a tiled axis holds exactly the pixels `a` with `a / k = i`. -/
theorem tile_under {k1 k2 h w : Nat} (p1 : 1 ≤ k1) (p2 : 1 ≤ k2) (i j a b : Nat) :
    Under (tileAxis k1 h) (tileAxis k2 w) i j a b ↔ (a < h ∧ a / k1 = i) ∧ b < w ∧ b / k2 = j := by
  have one : ∀ k n i a : Nat, 1 ≤ k → ((∃ u < (tileAxis k n).k, (tileAxis k n).Hits i u a) ↔ a < n ∧ a / k = i) := by
    intro k n i a hk
    constructor
    · rintro ⟨u, hu, h1, h2⟩
      have hu' : u < k := hu
      have h2' : i * k + u * 1 = 0 + a := h2
      refine ⟨h1, ?_⟩
      rw [Nat.div_eq_iff (by omega)]
      constructor <;> omega
    · rintro ⟨h1, h2⟩
      refine ⟨a % k, Nat.mod_lt _ (by omega), h1, ?_⟩
      show i * k + a % k * 1 = 0 + a
      have := Nat.div_add_mod a k
      rw [h2, Nat.mul_comm] at this
      omega
  unfold Under
  rw [one k1 h i a p1, one k2 w j b p2]

theorem tile_shifted (k n : Nat) : shifted (tileAxis k n) = tileAxis k n := rfl

theorem makeK_eq {k1 k2 : Nat} (h1 : u32.In k1) (h2 : u32.In k2) :
    PoolLayer.makeK ((k1 : Int), (k2 : Int)) = ⟨(k1, k2), Sample.paddingSame u32, (k1, k2)⟩ := by
  unfold PoolLayer.makeK PoolLayer.makeP PoolLayer.make
  rw [pair_eq h1 h2]
  simp only [ConvLayer.pair, u32_i32_conv h1, u32_i32_conv h2, Int.toNat_natCast]

/-- C79 (false as stated): when a side of the image is not a multiple of the kernel side, the default pooling layer throws
`std::runtime_error`, whatever the layout, pixels and pooling algorithm. -/
theorem C79_rejects {o : Order} (junk : Nat → R) (acc : Acc R) {k1 k2 n h w c : Nat} {xs : List Nat}
    (p1 : 1 ≤ k1) (p2 : 1 ≤ k2) (hk1 : u32.In ((2 * k1 : Nat) : Int)) (hk2 : u32.In ((2 * k2 : Nat) : Int))
    (hh : u32.In h) (hw : u32.In w) (hx : batchedImageShape o n (h, w) c = .ok xs) (hn : ¬ (k1 ∣ h ∧ k2 ∣ w)) (d : List R) :
    pool o junk acc (PoolLayer.makeK ((k1 : Int), (k2 : Int))) ⟨xs, d⟩ = ⟨0, .throw .runtimeError⟩ := by
  have i1 : u32.In (k1 : Int) := hk1.mono (by omega) (by omega)
  have i2 : u32.In (k2 : Int) := hk2.mono (by omega) (by omega)
  have hi : imageShape o xs = .ok (h, w) := by
    cases o <;> simp only [batchedImageShape, reduceCtorEq, Outcome.ok.injEq] at hx <;> subst hx <;> rfl
  have t1 := C05_same_padding_throws u32_std p1 p1 (r := 1) (n := h) (le_refl 1) i1 i1 (by decide) hh
    (by rw [patch_one k1 p1]; exact i1) hk1
  have t2 := C05_same_padding_throws u32_std p2 p2 (r := 1) (n := w) (le_refl 1) i2 i2 (by decide) hw
    (by rw [patch_one k2 p2]; exact i2) hk2
  rw [patch_one k1 p1] at t1
  rw [patch_one k2 p2] at t2
  have op : (⟨(k1, k2), Sample.paddingSame u32, (k1, k2)⟩ : PoolLayer).opTrait (h, w) = .throw .runtimeError := by
    unfold PoolLayer.opTrait
    simp only [Sample.paddingSame]
    by_cases d1 : k1 ∣ h
    · have d2 : ¬ k2 ∣ w := fun d2 => hn ⟨d1, d2⟩
      have m2 : 0 < w % k2 := Nat.pos_of_ne_zero fun e => d2 (Nat.dvd_of_mod_eq_zero e)
      have e2 : Sample.samePadding u32 k2 k2 1 w = .throw .runtimeError := t2.2 (by omega)
      have hp := patch_cast 1 p1
      rw [patch_one k1 p1] at hp
      have e1 := Sample.samePadding_eval u32_std (k := (k1 : Int)) (s := k1) (r := (1 : Nat)) (n := h) (by omega) (by omega)
        (by omega) (by omega) i1 i1 (by decide) hh (by rw [← hp]; exact i1) (by push_cast at hk1; exact hk1)
      rw [← hp] at e1
      have m1 : ((h : Int)) % k1 = 0 := Int.emod_eq_zero_of_dvd (Int.natCast_dvd_natCast.2 d1)
      rw [m1, if_pos (by omega)] at e1
      have e1' : Sample.samePadding u32 k1 k1 1 h = .ok ⟨((k1 : Int) - k1 - 0) / 2, (k1 : Int) - k1 - 0 - ((k1 : Int) - k1 - 0) / 2⟩ := by
        rw [Sample.evenPadding_ok u32_std (by omega) (i1.mono (by omega) (by omega))] at e1
        exact e1
      rw [e1', Outcome.ok_bind, e2, Outcome.throw_bind]
    · have m1 : 0 < h % k1 := Nat.pos_of_ne_zero fun e => d1 (Nat.dvd_of_mod_eq_zero e)
      have e1 : Sample.samePadding u32 k1 k1 1 h = .throw .runtimeError := t1.2 (by omega)
      rw [e1, Outcome.throw_bind]
  unfold pool
  simp only [hi]
  rw [makeK_eq i1 i2, Alloc.lift_ok, Alloc.ok_bind, op, Alloc.lift_throw, Alloc.throw_bind]
  rfl

theorem opTrait_tile {k1 k2 h w : Nat} (e1 : Sample.samePadding u32 k1 k1 (1 : Nat) h = .ok ⟨0, 0⟩)
    (e2 : Sample.samePadding u32 k2 k2 (1 : Nat) w = .ok ⟨0, 0⟩) (hH : AxisOK u32 (tileAxis k1 h))
    (hW : AxisOK u32 (tileAxis k2 w)) :
    (⟨(k1, k2), Sample.paddingSame u32, (k1, k2)⟩ : PoolLayer).opTrait (h, w) =
      .ok (poolTrait (tileAxis k1 h) (tileAxis k2 w)) := by
  unfold PoolLayer.opTrait
  simp only [Sample.paddingSame]
  have e1' : Sample.samePadding u32 k1 k1 1 h = .ok ⟨0, 0⟩ := e1
  have e2' : Sample.samePadding u32 k2 k2 1 w = .ok ⟨0, 0⟩ := e2
  rw [e1', e2', Outcome.ok_bind, Outcome.ok_bind]
  have := pool_make hH hW rfl rfl
  simp only [tileAxis, Nat.cast_zero] at this ⊢
  exact this

/-- The pooling layer on an image whose sides are multiples of the kernel, for any accumulator. -/
theorem poolLayer_run [Zero R] (junk : Nat → R) (acc : Acc R) {k1 k2 n h w c : Nat} (p1 : 1 ≤ k1) (p2 : 1 ≤ k2)
    (h1 : 1 ≤ h) (w1 : 1 ≤ w) (d1 : k1 ∣ h) (d2 : k2 ∣ w) (hh : u32.In ((h + k1 : Nat) : Int))
    (hw : u32.In ((w + k2 : Nat) : Int)) (hk1 : u32.In ((2 * k1 : Nat) : Int)) (hk2 : u32.In ((2 * k2 : Nat) : Int))
    (X Z : Nat → Nat → Nat → Nat → R) (hZ : ∀ b < n, ∀ i < h / k1, ∀ j < w / k2, ∀ k < c,
      acc.run (pixels (tileAxis k1 h) (tileAxis k2 w) (fun a a' => X b a a' k) i j) = .ok (Z b i j k)) :
    pool .nhwc junk acc (PoolLayer.makeK ((k1 : Int), (k2 : Int))) (tab [n, h, w, c] (fn4 X)) =
        ⟨1, .ok ⟨tab [n, h / k1, w / k2, c] (fn4 Z), []⟩⟩ ∧
    pool .nchw junk acc (PoolLayer.makeK ((k1 : Int), (k2 : Int))) (tab [n, c, h, w] (fn4 fun b k i j => X b i j k)) =
        ⟨1, .ok ⟨tab [n, c, h / k1, w / k2] (fn4 fun b k i j => Z b i j k), []⟩⟩ := by
  obtain ⟨e1, hH⟩ := tile_ok p1 d1 h1 hh hk1
  obtain ⟨e2, hW⟩ := tile_ok p2 d2 w1 hw hk2
  have i1 : u32.In (k1 : Int) := hk1.mono (by omega) (by omega)
  have i2 : u32.In (k2 : Int) := hk2.mono (by omega) (by omega)
  have op := opTrait_tile e1 e2 hH hW
  have mk := pool_make hH hW rfl rfl
  constructor
  · have s : Ops.pooledShape .nhwc (poolTrait (tileAxis k1 h) (tileAxis k2 w)) [n, h, w, c] =
        .ok [n, h / k1, w / k2, c] := by
      have := (C10_pool_shape hH hW rfl rfl (o := .nhwc) (n := n) (c := c) (xs := [n, h, w, c]) rfl).1
      rw [mk, Outcome.ok_bind] at this
      exact this
    have r : newResult junk (.ok [n, h / k1, w / k2, c]) (fun s m => poolOp .nhwc acc
        (poolTrait (tileAxis k1 h) (tileAxis k2 w)) s (tab [n, h, w, c] (fn4 X)) m) =
        ⟨1, .ok (tab [n, h / k1, w / k2, c] (fn4 Z))⟩ :=
      newResult_run (Ops.poolNhwc_run hH hW rfl rfl acc X Z hZ (fresh_length _ _))
    have hi : imageShape .nhwc (tab [n, h, w, c] (fn4 X)).dims = .ok (h, w) := rfl
    unfold pool
    rw [makeK_eq i1 i2, hi, Alloc.lift_ok, Alloc.ok_bind, op, Alloc.lift_ok, Alloc.ok_bind, tab_dims, s, r, Alloc.ok_bind]
    rfl
  · have s : Ops.pooledShape .nchw (poolTrait (tileAxis k1 h) (tileAxis k2 w)) [n, c, h, w] =
        .ok [n, c, h / k1, w / k2] := by
      have := (C10_pool_shape hH hW rfl rfl (o := .nchw) (n := n) (c := c) (xs := [n, c, h, w]) rfl).1
      rw [mk, Outcome.ok_bind] at this
      exact this
    have r : newResult junk (.ok [n, c, h / k1, w / k2]) (fun s m => poolOp .nchw acc
        (poolTrait (tileAxis k1 h) (tileAxis k2 w)) s (tab [n, c, h, w] (fn4 fun b k i j => X b i j k)) m) =
        ⟨1, .ok (tab [n, c, h / k1, w / k2] (fn4 fun b k i j => Z b i j k))⟩ :=
      newResult_run (Ops.poolNchw_run hH hW rfl rfl acc _ _ (fun b hb k hk i hi j hj => hZ b hb i hi j hj k hk)
        (fresh_length _ _))
    have hi : imageShape .nchw (tab [n, c, h, w] (fn4 fun b k i j => X b i j k)).dims = .ok (h, w) := rfl
    unfold pool
    rw [makeK_eq i1 i2, hi, Alloc.lift_ok, Alloc.ok_bind, op, Alloc.lift_ok, Alloc.ok_bind, tab_dims, s, r, Alloc.ok_bind]
    rfl

theorem fold_tile [LinearOrder R] {lowest : R} {k1 k2 h w : Nat} (p1 : 1 ≤ k1) (p2 : 1 ≤ k2) (d1 : k1 ∣ h) (d2 : k2 ∣ w)
    (X : Nat → Nat → R) (hlow : ∀ a < h, ∀ b < w, lowest ≤ X a b) {i j : Nat} (hi : i < h / k1) (hj : j < w / k2) :
    (∀ a < h, ∀ a' < w, a / k1 = i → a' / k2 = j → X a a' ≤
      (pixels (tileAxis k1 h) (tileAxis k2 w) X i j).foldl (fun v x => if x > v then x else v) lowest) ∧
    ∃ a < h, ∃ a' < w, a / k1 = i ∧ a' / k2 = j ∧
      (pixels (tileAxis k1 h) (tileAxis k2 w) X i j).foldl (fun v x => if x > v then x else v) lowest = X a a' := by
  obtain ⟨m1, m2⟩ := fold_isMax (lowest := lowest) (tileAxis k1 h) (tileAxis k2 w) X hlow i j
  refine ⟨fun a ha a' ha' ei ej => m1 a a' ((tile_under p1 p2 i j a a').2 ⟨⟨ha, ei⟩, ha', ej⟩), ?_⟩
  rcases m2 with ⟨a, a', hu, e⟩ | ⟨hne, -⟩
  · obtain ⟨⟨ha, ei⟩, ha', ej⟩ := (tile_under p1 p2 i j a a').1 hu
    exact ⟨a, ha, a', ha', ei, ej, e⟩
  · exfalso
    have b1 : i * k1 < h := by
      have := Nat.div_mul_cancel d1
      calc i * k1 < h / k1 * k1 := Nat.mul_lt_mul_of_pos_right hi (by omega)
        _ = h := this
    have b2 : j * k2 < w := by
      have := Nat.div_mul_cancel d2
      calc j * k2 < w / k2 * k2 := Nat.mul_lt_mul_of_pos_right hj (by omega)
        _ = w := this
    exact hne (i * k1) (j * k2) ((tile_under p1 p2 i j _ _).2
      ⟨⟨b1, Nat.mul_div_cancel _ (by omega)⟩, b2, Nat.mul_div_cancel _ (by omega)⟩)

/-- C79 (partial: only sides that are multiples of the kernel side, see `C79_rejects`). Max pooling: the layer returns, in
both layouts, an image of height `h / k1` and width `w / k2` holding the greatest pixel of every tile. -/
theorem C79_max_partial [LinearOrder R] [Zero R] (junk : Nat → R) {lowest : R} {k1 k2 n h w c : Nat} (p1 : 1 ≤ k1)
    (p2 : 1 ≤ k2) (h1 : 1 ≤ h) (w1 : 1 ≤ w) (d1 : k1 ∣ h) (d2 : k2 ∣ w) (hh : u32.In ((h + k1 : Nat) : Int))
    (hw : u32.In ((w + k2 : Nat) : Int)) (hk1 : u32.In ((2 * k1 : Nat) : Int)) (hk2 : u32.In ((2 * k2 : Nat) : Int))
    (X : Nat → Nat → Nat → Nat → R) (hlow : ∀ b < n, ∀ i < h, ∀ j < w, ∀ k < c, lowest ≤ X b i j k) :
    ∃ Z : Nat → Nat → Nat → Nat → R,
      pool .nhwc junk (Acc.max lowest) (PoolLayer.makeK ((k1 : Int), (k2 : Int))) (tab [n, h, w, c] (fn4 X)) =
        ⟨1, .ok ⟨tab [n, h / k1, w / k2, c] (fn4 Z), []⟩⟩ ∧
      pool .nchw junk (Acc.max lowest) (PoolLayer.makeK ((k1 : Int), (k2 : Int)))
          (tab [n, c, h, w] (fn4 fun b k i j => X b i j k)) =
        ⟨1, .ok ⟨tab [n, c, h / k1, w / k2] (fn4 fun b k i j => Z b i j k), []⟩⟩ ∧
      ∀ b < n, ∀ i < h / k1, ∀ j < w / k2, ∀ k < c,
        (∀ a < h, ∀ a' < w, a / k1 = i → a' / k2 = j → X b a a' k ≤ Z b i j k) ∧
        ∃ a < h, ∃ a' < w, a / k1 = i ∧ a' / k2 = j ∧ Z b i j k = X b a a' k := by
  refine ⟨fun b i j k => (pixels (tileAxis k1 h) (tileAxis k2 w) (fun a a' => X b a a' k) i j).foldl
    (fun v x => if x > v then x else v) lowest, ?_⟩
  obtain ⟨r1, r2⟩ := poolLayer_run junk (Acc.max lowest) (n := n) (c := c) p1 p2 h1 w1 d1 d2 hh hw hk1 hk2 X _
    fun b _ i _ j _ k _ => max_run lowest _
  exact ⟨r1, r2, fun b hb i hi j hj k hk => fold_tile p1 p2 d1 d2 (fun a a' => X b a a' k)
    (fun a ha a' ha' => hlow b hb a ha a' ha' k hk) hi hj⟩

theorem tile_win {k1 k2 h w i j : Nat} (p1 : 1 ≤ k1) (p2 : 1 ≤ k2) (d1 : k1 ∣ h) (d2 : k2 ∣ w) (hi : i < h / k1)
    (hj : j < w / k2) :
    win (tileAxis k1 h) (tileAxis k2 w) i j =
      (Finset.range k1 ×ˢ Finset.range k2).image fun p => (i * k1 + p.1, j * k2 + p.2) := by
  ext ⟨a, b⟩
  rw [mem_win, tile_under p1 p2]
  simp only [Finset.mem_image, Finset.mem_product, Finset.mem_range, Prod.mk.injEq, Prod.exists]
  have bound : ∀ {i k h : Nat}, k ∣ h → i < h / k → (i + 1) * k ≤ h := by
    intro i k h hd hi
    calc (i + 1) * k ≤ h / k * k := Nat.mul_le_mul_right _ hi
      _ = h := Nat.div_mul_cancel hd
  have B1 := bound d1 hi
  have B2 := bound d2 hj
  constructor
  · rintro ⟨⟨ha, ei⟩, hb, ej⟩
    refine ⟨a % k1, b % k2, ⟨Nat.mod_lt _ (by omega), Nat.mod_lt _ (by omega)⟩, ?_, ?_⟩
    · rw [← ei]; exact Nat.div_add_mod' a k1
    · rw [← ej]; exact Nat.div_add_mod' b k2
  · rintro ⟨u, v, ⟨hu, hv⟩, rfl, rfl⟩
    rw [Nat.add_mul] at B1 B2
    refine ⟨⟨by omega, ?_⟩, by omega, ?_⟩
    · rw [Nat.div_eq_iff (by omega)]; constructor <;> omega
    · rw [Nat.div_eq_iff (by omega)]; constructor <;> omega

/-- C79 (partial, mean pooling): the mean of every tile, over any field. -/
theorem C79_mean_partial {F : Type} [Field F] (junk : Nat → F) {k1 k2 n h w c : Nat} (p1 : 1 ≤ k1)
    (p2 : 1 ≤ k2) (h1 : 1 ≤ h) (w1 : 1 ≤ w) (d1 : k1 ∣ h) (d2 : k2 ∣ w) (hh : u32.In ((h + k1 : Nat) : Int))
    (hw : u32.In ((w + k2 : Nat) : Int)) (hk1 : u32.In ((2 * k1 : Nat) : Int)) (hk2 : u32.In ((2 * k2 : Nat) : Int))
    (hk : k1 * k2 < 2 ^ 32) (X : Nat → Nat → Nat → Nat → F) :
    pool .nhwc junk (Acc.mean fun s n => s / (n : F)) (PoolLayer.makeK ((k1 : Int), (k2 : Int))) (tab [n, h, w, c] (fn4 X)) =
      ⟨1, .ok ⟨tab [n, h / k1, w / k2, c] (fn4 fun b i j k =>
        (∑ u ∈ Finset.range k1, ∑ v ∈ Finset.range k2, X b (i * k1 + u) (j * k2 + v) k) / ((k1 * k2 : Nat) : F)), []⟩⟩ ∧
    pool .nchw junk (Acc.mean fun s n => s / (n : F)) (PoolLayer.makeK ((k1 : Int), (k2 : Int)))
        (tab [n, c, h, w] (fn4 fun b k i j => X b i j k)) =
      ⟨1, .ok ⟨tab [n, c, h / k1, w / k2] (fn4 fun b k i j =>
        (∑ u ∈ Finset.range k1, ∑ v ∈ Finset.range k2, X b (i * k1 + u) (j * k2 + v) k) / ((k1 * k2 : Nat) : F)), []⟩⟩ := by
  refine poolLayer_run junk _ p1 p2 h1 w1 d1 d2 hh hw hk1 hk2 X (fun b i j k =>
    (∑ u ∈ Finset.range k1, ∑ v ∈ Finset.range k2, X b (i * k1 + u) (j * k2 + v) k) / ((k1 * k2 : Nat) : F))
    fun b hb i hi j hj k hk' => ?_
  have inj : Set.InjOn (fun p : Nat × Nat => (i * k1 + p.1, j * k2 + p.2))
      ((Finset.range k1 ×ˢ Finset.range k2 : Finset (Nat × Nat)) : Set (Nat × Nat)) := by
    rintro ⟨a, b⟩ - ⟨a', b'⟩ - e
    simp only [Prod.mk.injEq] at e ⊢
    omega
  have hl := pixels_length (H := tileAxis k1 h) (W := tileAxis k2 w) (le_refl 1) (le_refl 1) (fun a a' => X b a a' k) i j
  have hs := pixels_sum (H := tileAxis k1 h) (W := tileAxis k2 w) (le_refl 1) (le_refl 1) (fun a a' => X b a a' k) i j
  rw [tile_win p1 p2 d1 d2 hi hj, Finset.card_image_of_injOn inj, Finset.card_product, Finset.card_range,
    Finset.card_range] at hl
  rw [tile_win p1 p2 d1 d2 hi hj, Finset.sum_image inj, Finset.sum_product] at hs
  rw [mean_run _ _ (by omega), hl, foldl_add_sum, hs]

/-- Non-vacuity: 2 × 2 max pooling of a 2 × 4 image; the default layer on a 3 × 4 image throws. -/
example : pool .nhwc (fun _ => (0 : Int)) (Acc.max (-99)) PoolLayer.default ⟨[1, 2, 4, 1], [1, 2, 3, 4, 5, 6, 7, 8]⟩ =
      ⟨1, .ok ⟨⟨[1, 1, 2, 1], [6, 8]⟩, []⟩⟩ ∧
    pool .nhwc (fun _ => (0 : Int)) (Acc.max (-99)) PoolLayer.default
      ⟨[1, 3, 4, 1], [1, 2, 3, 4, 5, 6, 7, 8, 9, 10, 11, 12]⟩ = ⟨0, .throw .runtimeError⟩ ∧
    batchedImageShape .nhwc 1 (3, 4) 1 = .ok [1, 3, 4, 1] ∧ ¬ (2 ∣ 3 ∧ 2 ∣ 4) := by decide

/-! ## Concrete cases -/

example := C79_rejects (o := .nhwc) (fun _ => (0 : Int)) (Acc.max (-99)) (k1 := 2) (k2 := 3) (n := 1) (h := 4) (w := 5)
  (c := 2) (by decide) (by decide) (by decide) (by decide) (by decide) (by decide) (xs := [1, 4, 5, 2]) (by decide)
  (by decide) (List.replicate 40 7)
example := C79_max_partial (R := Int) (fun _ => 9) (lowest := -128) (k1 := 2) (k2 := 3) (n := 2) (h := 4) (w := 6) (c := 2)
  (by decide) (by decide) (by decide) (by decide) (by decide) (by decide) (by decide) (by decide) (by decide) (by decide)
  (fun b i j k => b + i - j * k) (by decide)
example := C79_mean_partial (F := ℚ) (fun _ => 9) (k1 := 2) (k2 := 3) (n := 2) (h := 4) (w := 6) (c := 2)
  (by decide) (by decide) (by decide) (by decide) (by decide) (by decide) (by decide) (by decide) (by decide) (by decide)
  (by decide) (fun b i j k => b + i - j * k)

end StdNN
