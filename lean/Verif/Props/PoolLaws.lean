import Verif.Props.PoolLayer
import Verif.Props.NetLaws
import Verif.Props.LayerMemory
/-!
# C114, C115: laws of pooling layers
-/
namespace StdNN
open Spec Outcome IntTy Layers Models
variable {R : Type}

/-- `Z` holds the greatest pixel of every tile of `k1 × k2` pixels of `X`, an image of `h × w` pixels. -/
def TileMax [LE R] (k1 k2 n h w c : Nat) (X Z : Nat → Nat → Nat → Nat → R) : Prop :=
  ∀ b < n, ∀ i < h / k1, ∀ j < w / k2, ∀ k < c,
    (∀ a < h, ∀ a' < w, a / k1 = i → a' / k2 = j → X b a a' k ≤ Z b i j k) ∧
    ∃ a < h, ∃ a' < w, a / k1 = i ∧ a' / k2 = j ∧ Z b i j k = X b a a' k

theorem TileMax.unique [PartialOrder R] {k1 k2 n h w c : Nat} {X Z Z' : Nat → Nat → Nat → Nat → R}
    (hZ : TileMax k1 k2 n h w c X Z) (hZ' : TileMax k1 k2 n h w c X Z') :
    ∀ b < n, ∀ i < h / k1, ∀ j < w / k2, ∀ k < c, Z b i j k = Z' b i j k := by
  intro b hb i hi j hj k hk
  obtain ⟨m, a, ha, a', ha', ei, ej, e⟩ := hZ b hb i hi j hj k hk
  obtain ⟨m', d, hd, d', hd', ei', ej', e'⟩ := hZ' b hb i hi j hj k hk
  apply le_antisymm
  · rw [e]; exact m' a ha a' ha' ei ej
  · rw [e']; exact m d hd d' hd' ei' ej'

theorem tab4_nhwc [Zero R] {n h w c : Nat} {X Y : Nat → Nat → Nat → Nat → R}
    (e : ∀ b < n, ∀ i < h, ∀ j < w, ∀ k < c, X b i j k = Y b i j k) :
    tab [n, h, w, c] (fn4 X) = tab [n, h, w, c] (fn4 Y) := by
  refine tab_congr fun idx hv => ?_
  match idx, hv with
  | [b, i, j, k], ⟨hb, hi, hj, hk, _⟩ => exact e b hb i hi j hj k hk

theorem tab4_nchw [Zero R] {n h w c : Nat} {X Y : Nat → Nat → Nat → Nat → R}
    (e : ∀ b < n, ∀ i < h, ∀ j < w, ∀ k < c, X b i j k = Y b i j k) :
    tab [n, c, h, w] (fn4 fun b k i j => X b i j k) = tab [n, c, h, w] (fn4 fun b k i j => Y b i j k) := by
  refine tab_congr fun idx hv => ?_
  match idx, hv with
  | [b, k, i, j], ⟨hb, hk, hi, hj, _⟩ => exact e b hb i hi j hj k hk

/-- The max pooling layer returns any image of tile maxima, whatever the new memory held. -/
theorem tileMax_run [LinearOrder R] [Zero R] (junk : Nat → R) {lowest : R} {k1 k2 n h w c : Nat} (p1 : 1 ≤ k1)
    (p2 : 1 ≤ k2) (h1 : 1 ≤ h) (w1 : 1 ≤ w) (d1 : k1 ∣ h) (d2 : k2 ∣ w) (hh : u32.In ((h + k1 : Nat) : Int))
    (hw : u32.In ((w + k2 : Nat) : Int)) (hk1 : u32.In ((2 * k1 : Nat) : Int)) (hk2 : u32.In ((2 * k2 : Nat) : Int))
    {X Z : Nat → Nat → Nat → Nat → R} (hlow : ∀ b < n, ∀ i < h, ∀ j < w, ∀ k < c, lowest ≤ X b i j k)
    (hZ : TileMax k1 k2 n h w c X Z) :
    pool .nhwc junk (Acc.max lowest) (PoolLayer.makeK ((k1 : Int), (k2 : Int))) (tab [n, h, w, c] (fn4 X)) =
      ⟨1, .ok ⟨tab [n, h / k1, w / k2, c] (fn4 Z), []⟩⟩ ∧
    pool .nchw junk (Acc.max lowest) (PoolLayer.makeK ((k1 : Int), (k2 : Int)))
        (tab [n, c, h, w] (fn4 fun b k i j => X b i j k)) =
      ⟨1, .ok ⟨tab [n, c, h / k1, w / k2] (fn4 fun b k i j => Z b i j k), []⟩⟩ := by
  obtain ⟨V, r1, r2, m⟩ := C79_max_partial junk (n := n) (c := c) p1 p2 h1 w1 d1 d2 hh hw hk1 hk2 X hlow
  have e := TileMax.unique m hZ
  exact ⟨r1.trans (same_output (tab4_nhwc e)), r2.trans (same_output (tab4_nchw e))⟩

/-- The side conditions of two tilings one after the other, from those of the coarse one. -/
theorem tiles_fit {k l h : Nat} (pk : 1 ≤ k) (pl : 1 ≤ l) (h1 : 1 ≤ h) (d : k * l ∣ h) (hh : u32.In ((h + k * l : Nat) : Int)) :
    k ∣ h ∧ l ∣ h / k ∧ 1 ≤ h / k ∧ u32.In ((h + k : Nat) : Int) ∧ u32.In ((h / k + l : Nat) : Int) ∧
      u32.In ((2 * k : Nat) : Int) ∧ u32.In ((2 * l : Nat) : Int) ∧ u32.In ((2 * (k * l) : Nat) : Int) ∧
      h / k / l = h / (k * l) := by
  have dk : k ∣ h := (Dvd.intro _ rfl).trans d
  have dl : l ∣ h / k := by
    obtain ⟨q, rfl⟩ := d
    rw [Nat.mul_assoc, Nat.mul_div_cancel_left _ (by omega)]
    exact Dvd.intro _ rfl
  have hle := Nat.le_of_dvd (by omega) d
  have hk : k ≤ k * l := Nat.le_mul_of_pos_right _ (by omega)
  have hl : l ≤ k * l := Nat.le_mul_of_pos_left _ (by omega)
  have hd : h / k ≤ h := Nat.div_le_self _ _
  have hkh := Nat.le_of_dvd (by omega) dk
  refine ⟨dk, dl, (Nat.one_le_div_iff (by omega)).2 hkh, ?_, ?_, ?_, ?_, ?_, Nat.div_div_eq_div_mul _ _ _⟩ <;>
    refine hh.mono ?_ ?_ <;> push_cast <;> first | positivity | (norm_cast; omega)

/-! ## C114 -/

/-- C114 (max pooling): a layer with tiles of `k1 × k2` followed by one with tiles of `l1 × l2` gives the same image as one
layer with tiles of `k1 l1 × k2 l2`, in both layouts. -/
theorem C114_max [LinearOrder R] [Zero R] (J : Nat → Nat → R) {lowest : R} {k1 k2 l1 l2 n h w c : Nat} (p1 : 1 ≤ k1)
    (p2 : 1 ≤ k2) (q1 : 1 ≤ l1) (q2 : 1 ≤ l2) (h1 : 1 ≤ h) (w1 : 1 ≤ w) (d1 : k1 * l1 ∣ h) (d2 : k2 * l2 ∣ w)
    (hh : u32.In ((h + k1 * l1 : Nat) : Int)) (hw : u32.In ((w + k2 * l2 : Nat) : Int))
    (X : Nat → Nat → Nat → Nat → R) (hlow : ∀ b < n, ∀ i < h, ∀ j < w, ∀ k < c, lowest ≤ X b i j k) :
    ∃ y z : Tensor R,
      composed (pool .nhwc (J 0) (Acc.max lowest) (PoolLayer.makeK ((k1 : Int), (k2 : Int))))
          (pool .nhwc (J 1) (Acc.max lowest) (PoolLayer.makeK ((l1 : Int), (l2 : Int)))) (tab [n, h, w, c] (fn4 X)) =
        ⟨1, .ok ⟨y, []⟩⟩ ∧
      pool .nhwc (J 2) (Acc.max lowest) (PoolLayer.makeK (((k1 * l1 : Nat) : Int), ((k2 * l2 : Nat) : Int)))
          (tab [n, h, w, c] (fn4 X)) = ⟨1, .ok ⟨y, []⟩⟩ ∧
      composed (pool .nchw (J 3) (Acc.max lowest) (PoolLayer.makeK ((k1 : Int), (k2 : Int))))
          (pool .nchw (J 4) (Acc.max lowest) (PoolLayer.makeK ((l1 : Int), (l2 : Int))))
          (tab [n, c, h, w] (fn4 fun b k i j => X b i j k)) = ⟨1, .ok ⟨z, []⟩⟩ ∧
      pool .nchw (J 5) (Acc.max lowest) (PoolLayer.makeK (((k1 * l1 : Nat) : Int), ((k2 * l2 : Nat) : Int)))
          (tab [n, c, h, w] (fn4 fun b k i j => X b i j k)) = ⟨1, .ok ⟨z, []⟩⟩ := by
  obtain ⟨a1, a2, a3, a4, a5, a6, a7, a8, a9⟩ := tiles_fit p1 q1 h1 d1 hh
  obtain ⟨b1, b2, b3, b4, b5, b6, b7, b8, b9⟩ := tiles_fit p2 q2 w1 d2 hw
  obtain ⟨Z, -, -, m⟩ := C79_max_partial (J 0) (n := n) (c := c) p1 p2 h1 w1 a1 b1 a4 b4 a6 b6 X hlow
  have hlow' : ∀ b < n, ∀ i < h / k1, ∀ j < w / k2, ∀ k < c, lowest ≤ Z b i j k := by
    intro b hb i hi j hj k hk
    obtain ⟨-, a, ha, a', ha', -, -, e⟩ := m b hb i hi j hj k hk
    rw [e]
    exact hlow b hb a ha a' ha' k hk
  obtain ⟨V, -, -, m'⟩ := C79_max_partial (J 1) (n := n) (c := c) q1 q2 a3 b3 a2 b2 a5 b5 a7 b7 Z hlow'
  have hV : TileMax (k1 * l1) (k2 * l2) n h w c X V := by
    rw [← TileMax, TileMax, a9, b9] at m'
    intro b hb i hi j hj k hk
    obtain ⟨u, a, ha, a', ha', ei, ej, e⟩ := m' b hb i hi j hj k hk
    refine ⟨fun d hd d' hd' ei' ej' => ?_, ?_⟩
    · have x1 : d / k1 < h / k1 := Nat.div_lt_div_of_lt_of_dvd a1 hd
      have x2 : d' / k2 < w / k2 := Nat.div_lt_div_of_lt_of_dvd b1 hd'
      exact ((m b hb _ x1 _ x2 k hk).1 d hd d' hd' rfl rfl).trans
        (u _ x1 _ x2 (by rw [Nat.div_div_eq_div_mul, ei']) (by rw [Nat.div_div_eq_div_mul, ej']))
    · obtain ⟨-, d, hd, d', hd', ei', ej', e'⟩ := m b hb a ha a' ha' k hk
      exact ⟨d, hd, d', hd', by rw [← Nat.div_div_eq_div_mul, ei', ei], by rw [← Nat.div_div_eq_div_mul, ej', ej],
        e.trans e'⟩
  have one := fun i => tileMax_run (J i) p1 p2 h1 w1 a1 b1 a4 b4 a6 b6 hlow m
  have two := fun i => tileMax_run (J i) q1 q2 a3 b3 a2 b2 a5 b5 a7 b7 hlow' m'
  have all := fun i => tileMax_run (J i) (Nat.mul_pos p1 q1) (Nat.mul_pos p2 q2) h1 w1 d1 d2 hh hw a8 b8 hlow hV
  rw [← a9, ← b9] at all
  exact ⟨_, _, composed_run (one 0).1 (two 1).1 rfl, (all 2).1, composed_run (one 3).2 (two 4).2 rfl, (all 5).2⟩

theorem sum_tiles {M : Type} [AddCommMonoid M] (m n : Nat) (f : Nat → M) :
    ∑ p ∈ Finset.range (n * m), f p = ∑ i ∈ Finset.range m, ∑ j ∈ Finset.range n, f (i * n + j) := by
  induction m with
  | zero => simp
  | succ m ih => rw [Finset.sum_range_succ, Nat.mul_succ, Finset.sum_range_add, ih, Nat.mul_comm]

/-- C114 (mean pooling), over any field. -/
theorem C114_mean {F : Type} [Field F] (J : Nat → Nat → F) {k1 k2 l1 l2 n h w c : Nat} (p1 : 1 ≤ k1)
    (p2 : 1 ≤ k2) (q1 : 1 ≤ l1) (q2 : 1 ≤ l2) (h1 : 1 ≤ h) (w1 : 1 ≤ w) (d1 : k1 * l1 ∣ h) (d2 : k2 * l2 ∣ w)
    (hh : u32.In ((h + k1 * l1 : Nat) : Int)) (hw : u32.In ((w + k2 * l2 : Nat) : Int))
    (hk : (k1 * l1) * (k2 * l2) < 2 ^ 32) (X : Nat → Nat → Nat → Nat → F) :
    let acc : Acc F := Acc.mean fun s n => s / (n : F)
    ∃ y z : Tensor F,
      composed (pool .nhwc (J 0) acc (PoolLayer.makeK ((k1 : Int), (k2 : Int))))
          (pool .nhwc (J 1) acc (PoolLayer.makeK ((l1 : Int), (l2 : Int)))) (tab [n, h, w, c] (fn4 X)) =
        ⟨1, .ok ⟨y, []⟩⟩ ∧
      pool .nhwc (J 2) acc (PoolLayer.makeK (((k1 * l1 : Nat) : Int), ((k2 * l2 : Nat) : Int)))
          (tab [n, h, w, c] (fn4 X)) = ⟨1, .ok ⟨y, []⟩⟩ ∧
      composed (pool .nchw (J 3) acc (PoolLayer.makeK ((k1 : Int), (k2 : Int))))
          (pool .nchw (J 4) acc (PoolLayer.makeK ((l1 : Int), (l2 : Int))))
          (tab [n, c, h, w] (fn4 fun b k i j => X b i j k)) = ⟨1, .ok ⟨z, []⟩⟩ ∧
      pool .nchw (J 5) acc (PoolLayer.makeK (((k1 * l1 : Nat) : Int), ((k2 * l2 : Nat) : Int)))
          (tab [n, c, h, w] (fn4 fun b k i j => X b i j k)) = ⟨1, .ok ⟨z, []⟩⟩ := by
  intro acc
  obtain ⟨a1, a2, a3, a4, a5, a6, a7, a8, a9⟩ := tiles_fit p1 q1 h1 d1 hh
  obtain ⟨b1, b2, b3, b4, b5, b6, b7, b8, b9⟩ := tiles_fit p2 q2 w1 d2 hw
  have c1 : k1 * k2 < 2 ^ 32 := lt_of_le_of_lt (Nat.mul_le_mul (Nat.le_mul_of_pos_right _ q1)
    (Nat.le_mul_of_pos_right _ q2)) hk
  have c2 : l1 * l2 < 2 ^ 32 := lt_of_le_of_lt (Nat.mul_le_mul (Nat.le_mul_of_pos_left _ p1)
    (Nat.le_mul_of_pos_left _ p2)) hk
  have one := fun i => C79_mean_partial (J i) (n := n) (c := c) p1 p2 h1 w1 a1 b1 a4 b4 a6 b6 c1 X
  have two := fun i Y => C79_mean_partial (J i) (n := n) (c := c) q1 q2 a3 b3 a2 b2 a5 b5 a7 b7 c2 Y
  have all := fun i => C79_mean_partial (J i) (n := n) (c := c) (Nat.mul_pos p1 q1) (Nat.mul_pos p2 q2) h1 w1 d1 d2 hh hw
    a8 b8 hk X
  rw [← a9, ← b9] at all
  have e : ∀ b < n, ∀ i < h / k1 / l1, ∀ j < w / k2 / l2, ∀ k < c,
      (∑ u ∈ Finset.range (k1 * l1), ∑ v ∈ Finset.range (k2 * l2), X b (i * (k1 * l1) + u) (j * (k2 * l2) + v) k) /
        ((k1 * l1 * (k2 * l2) : Nat) : F) =
      (∑ u ∈ Finset.range l1, ∑ v ∈ Finset.range l2,
        (∑ u' ∈ Finset.range k1, ∑ v' ∈ Finset.range k2, X b ((i * l1 + u) * k1 + u') ((j * l2 + v) * k2 + v') k) /
          ((k1 * k2 : Nat) : F)) / ((l1 * l2 : Nat) : F) := by
    intro b _ i _ j _ k _
    simp only [← Finset.sum_div]
    rw [div_div, sum_tiles]
    congr 1
    · refine Finset.sum_congr rfl fun u _ => ?_
      refine (Finset.sum_congr rfl fun u' _ => sum_tiles _ _ _).trans (Finset.sum_comm.trans ?_)
      refine Finset.sum_congr rfl fun v _ => Finset.sum_congr rfl fun u' _ => Finset.sum_congr rfl fun v' _ => ?_
      congr 1 <;> ring
    · push_cast
      ring
  exact ⟨_, _, composed_run (one 0).1 (two 1 _).1 rfl, (all 2).1.trans (same_output (tab4_nhwc e)),
    composed_run (one 3).2 (two 4 _).2 rfl, (all 5).2.trans (same_output (tab4_nchw e))⟩

/-! ## C115 -/

/-- C115: a monotone elementwise layer before max pooling gives the same as after it, in both layouts. -/
theorem C115_monotone [LinearOrder R] [Zero R] (J : Nat → Nat → R) {lowest : R} {f : R → R} (hf : Monotone f)
    {k1 k2 n h w c : Nat} (p1 : 1 ≤ k1) (p2 : 1 ≤ k2) (h1 : 1 ≤ h) (w1 : 1 ≤ w) (d1 : k1 ∣ h) (d2 : k2 ∣ w)
    (hh : u32.In ((h + k1 : Nat) : Int)) (hw : u32.In ((w + k2 : Nat) : Int)) (hk1 : u32.In ((2 * k1 : Nat) : Int))
    (hk2 : u32.In ((2 * k2 : Nat) : Int)) (X : Nat → Nat → Nat → Nat → R)
    (hlow : ∀ b < n, ∀ i < h, ∀ j < w, ∀ k < c, lowest ≤ X b i j k ∧ lowest ≤ f (X b i j k)) :
    ∃ y z : Tensor R,
      composed (activationOf (J 0) f) (pool .nhwc (J 1) (Acc.max lowest) (PoolLayer.makeK ((k1 : Int), (k2 : Int))))
        (tab [n, h, w, c] (fn4 X)) = ⟨1, .ok ⟨y, []⟩⟩ ∧
      composed (pool .nhwc (J 2) (Acc.max lowest) (PoolLayer.makeK ((k1 : Int), (k2 : Int)))) (activationOf (J 3) f)
        (tab [n, h, w, c] (fn4 X)) = ⟨1, .ok ⟨y, []⟩⟩ ∧
      composed (activationOf (J 4) f) (pool .nchw (J 5) (Acc.max lowest) (PoolLayer.makeK ((k1 : Int), (k2 : Int))))
        (tab [n, c, h, w] (fn4 fun b k i j => X b i j k)) = ⟨1, .ok ⟨z, []⟩⟩ ∧
      composed (pool .nchw (J 6) (Acc.max lowest) (PoolLayer.makeK ((k1 : Int), (k2 : Int)))) (activationOf (J 7) f)
        (tab [n, c, h, w] (fn4 fun b k i j => X b i j k)) = ⟨1, .ok ⟨z, []⟩⟩ := by
  obtain ⟨Z, -, -, m⟩ := C79_max_partial (J 0) (n := n) (c := c) p1 p2 h1 w1 d1 d2 hh hw hk1 hk2 X
    fun b hb i hi j hj k hk => (hlow b hb i hi j hj k hk).1
  have m' : TileMax k1 k2 n h w c (fun b i j k => f (X b i j k)) (fun b i j k => f (Z b i j k)) := by
    intro b hb i hi j hj k hk
    obtain ⟨u, a, ha, a', ha', ei, ej, e⟩ := m b hb i hi j hj k hk
    exact ⟨fun d hd d' hd' e1 e2 => hf (u d hd d' hd' e1 e2), a, ha, a', ha', ei, ej, congrArg f e⟩
  have first := fun i => tileMax_run (J i) p1 p2 h1 w1 d1 d2 hh hw hk1 hk2
    (fun b hb i hi j hj k hk => (hlow b hb i hi j hj k hk).1) m
  have last := fun i => tileMax_run (J i) p1 p2 h1 w1 d1 d2 hh hw hk1 hk2
    (fun b hb i hi j hj k hk => (hlow b hb i hi j hj k hk).2) m'
  have act : ∀ i ds (G : List Nat → R), activationOf (J i) f (tab ds G) = ⟨1, .ok ⟨tab ds fun idx => f (G idx), []⟩⟩ := by
    intro i ds G
    rw [activationOf_run (J i) f _ (by simp)]
    simp [tab, Function.comp_def]
  have c4 : ∀ a b c d (Y : Nat → Nat → Nat → Nat → R), (tab [a, b, c, d] fun idx => f (fn4 Y idx)) =
      tab [a, b, c, d] (fn4 fun b i j k => f (Y b i j k)) := fun a b c d Y => by
    refine tab_congr fun idx hv => ?_
    match idx, hv with
    | [_, _, _, _], _ => rfl
  exact ⟨_, _, composed_run ((act 0 _ _).trans (same_output (c4 _ _ _ _ _))) (last 1).1 rfl,
    composed_run (first 2).1 ((act 3 _ _).trans (same_output (c4 _ _ _ _ _))) rfl,
    composed_run ((act 4 _ _).trans (same_output (c4 _ _ _ _ _))) (last 5).2 rfl,
    composed_run (first 6).2 ((act 7 _ _).trans (same_output (c4 _ _ _ _ _))) rfl⟩

/-- C115 (relu): the relu layer and the max pooling layer can be exchanged. -/
theorem C115_relu [LinearOrder R] [Zero R] (J : Nat → Nat → R) {lowest : R} (h0 : lowest ≤ 0) {k1 k2 n h w c : Nat}
    (p1 : 1 ≤ k1) (p2 : 1 ≤ k2) (h1 : 1 ≤ h) (w1 : 1 ≤ w) (d1 : k1 ∣ h) (d2 : k2 ∣ w) (hh : u32.In ((h + k1 : Nat) : Int))
    (hw : u32.In ((w + k2 : Nat) : Int)) (hk1 : u32.In ((2 * k1 : Nat) : Int)) (hk2 : u32.In ((2 * k2 : Nat) : Int))
    (X : Nat → Nat → Nat → Nat → R) (hlow : ∀ b < n, ∀ i < h, ∀ j < w, ∀ k < c, lowest ≤ X b i j k) :
    ∃ y z : Tensor R,
      composed (activationOf (J 0) Kernels.scalarRelu)
          (pool .nhwc (J 1) (Acc.max lowest) (PoolLayer.makeK ((k1 : Int), (k2 : Int)))) (tab [n, h, w, c] (fn4 X)) =
        ⟨1, .ok ⟨y, []⟩⟩ ∧
      composed (pool .nhwc (J 2) (Acc.max lowest) (PoolLayer.makeK ((k1 : Int), (k2 : Int))))
          (activationOf (J 3) Kernels.scalarRelu) (tab [n, h, w, c] (fn4 X)) = ⟨1, .ok ⟨y, []⟩⟩ ∧
      composed (activationOf (J 4) Kernels.scalarRelu)
          (pool .nchw (J 5) (Acc.max lowest) (PoolLayer.makeK ((k1 : Int), (k2 : Int))))
          (tab [n, c, h, w] (fn4 fun b k i j => X b i j k)) = ⟨1, .ok ⟨z, []⟩⟩ ∧
      composed (pool .nchw (J 6) (Acc.max lowest) (PoolLayer.makeK ((k1 : Int), (k2 : Int))))
          (activationOf (J 7) Kernels.scalarRelu) (tab [n, c, h, w] (fn4 fun b k i j => X b i j k)) =
        ⟨1, .ok ⟨z, []⟩⟩ := by
  have e : ∀ v : R, Kernels.scalarRelu v = max 0 v := fun v => by
    unfold Kernels.scalarRelu
    rcases lt_or_ge 0 v with p | p
    · simp [p, p.le]
    · simp [not_lt.2 p, p]
  refine C115_monotone J (fun a b hab => ?_) p1 p2 h1 w1 d1 d2 hh hw hk1 hk2 X fun b hb i hi j hj k hk =>
    ⟨hlow b hb i hi j hj k hk, ?_⟩
  · rw [e, e]; exact max_le_max le_rfl hab
  · rw [e]; exact h0.trans (le_max_left _ _)

/-- Non-vacuity: 1 × 2 tiles and then 2 × 1 tiles of a 2 × 4 image, against 2 × 2 tiles; maximum, mean, and relu before and
after. -/
example : let x : Tensor Rat := ⟨[1, 2, 4, 1], [-1, -2, 3, 4, -5, -6, 7, -8]⟩
    let mx := fun k1 k2 => pool .nhwc (fun _ => (0 : Rat)) (Acc.max (-99)) (PoolLayer.makeK (k1, k2))
    let mn := fun k1 k2 => pool .nhwc (fun _ => (0 : Rat)) (Acc.mean fun s n => s / (n : Rat)) (PoolLayer.makeK (k1, k2))
    let re := activationOf (fun _ => (0 : Rat)) Kernels.scalarRelu
    composed (mx 1 2) (mx 2 1) x = ⟨1, .ok ⟨⟨[1, 1, 2, 1], [-1, 7]⟩, []⟩⟩ ∧
    mx 2 2 x = ⟨1, .ok ⟨⟨[1, 1, 2, 1], [-1, 7]⟩, []⟩⟩ ∧
    composed (mn 1 2) (mn 2 1) x = ⟨1, .ok ⟨⟨[1, 1, 2, 1], [-7 / 2, 3 / 2]⟩, []⟩⟩ ∧
    mn 2 2 x = ⟨1, .ok ⟨⟨[1, 1, 2, 1], [-7 / 2, 3 / 2]⟩, []⟩⟩ ∧
    composed re (mx 2 2) x = ⟨1, .ok ⟨⟨[1, 1, 2, 1], [0, 7]⟩, []⟩⟩ ∧
    composed (mx 2 2) re x = ⟨1, .ok ⟨⟨[1, 1, 2, 1], [0, 7]⟩, []⟩⟩ ∧
    1 * 2 ∣ 2 ∧ 2 * 1 ∣ 4 ∧ u32.In ((2 + 1 * 2 : Nat) : Int) ∧ u32.In ((4 + 2 * 1 : Nat) : Int) := by decide +kernel

/-! ## Concrete cases -/

example := C114_max (R := Int) (fun _ _ => 7) (lowest := -128) (k1 := 2) (k2 := 1) (l1 := 1) (l2 := 3) (n := 2) (h := 4)
  (w := 6) (c := 2) (by decide) (by decide) (by decide) (by decide) (by decide) (by decide) (by decide) (by decide)
  (by decide) (by decide) (fun l i j k => l + i - j * k) (by decide)
example := C114_mean (F := ℚ) (fun _ _ => 7) (k1 := 2) (k2 := 1) (l1 := 1) (l2 := 3) (n := 2) (h := 4)
  (w := 6) (c := 2) (by decide) (by decide) (by decide) (by decide) (by decide) (by decide) (by decide) (by decide)
  (by decide) (by decide) (by decide) (fun l i j k => l + i - j * k)
example := C115_monotone (R := Int) (fun _ _ => 7) (lowest := -128) (f := fun a => 3 * a - 1) (fun a b h => by dsimp only; omega)
  (k1 := 2) (k2 := 3) (n := 2) (h := 4) (w := 6) (c := 2) (by decide) (by decide) (by decide) (by decide) (by decide)
  (by decide) (by decide) (by decide) (by decide) (by decide) (fun l i j k => l + i - j * k) (by decide)
example := C115_relu (R := Int) (fun _ _ => 7) (lowest := -128) (by decide)
  (k1 := 2) (k2 := 3) (n := 2) (h := 4) (w := 6) (c := 2) (by decide) (by decide) (by decide) (by decide) (by decide)
  (by decide) (by decide) (by decide) (by decide) (by decide) (fun l i j k => l + i - j * k) (by decide)

end StdNN
