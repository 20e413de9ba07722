import Verif.Props.PoolPolicy
import Verif.Props.Conv
import Mathlib.Algebra.BigOperators.Intervals
/-!
# C123: convolution and pooling commute with reflections and with the transposition of images
-/
namespace StdNN
open Spec Outcome IntTy Layers Kernels Finset
variable {R : Type}

namespace Spec

/-- Coordinate `x` of a line of `n` cells, read from the other end if `f`. -/
def flip (f : Bool) (n x : Nat) : Nat := if f then n - 1 - x else x

/-- The axis seen in a mirror (if `f`): the padding on the left is that on the right, the rest is the same. -/
def Axis.turn (f : Bool) (a : Axis) : Axis := if f then { a with l := a.q, q := a.l } else a

end Spec

@[simp] theorem turn_false (a : Axis) : a.turn false = a := rfl
@[simp] theorem turn_k (f : Bool) (a : Axis) : (a.turn f).k = a.k := by cases f <;> rfl
@[simp] theorem turn_m (f : Bool) (a : Axis) : (a.turn f).m = a.m := by cases f <;> rfl
@[simp] theorem turn_n (f : Bool) (a : Axis) : (a.turn f).n = a.n := by cases f <;> rfl
theorem turn_pos (f : Bool) (a : Axis) (j u : Nat) : (a.turn f).pos j u = a.pos j u := by cases f <;> rfl

theorem turn_ok {N : IntTy} {a : Axis} (h : AxisOK N a) (f : Bool) : AxisOK N (a.turn f) := by
  cases f
  · exact h
  · obtain ⟨⟨hN, hD, k1, s1, r1, hk, hs, hr, hl, hq, hn, hp, pN, pD⟩, c1, c2⟩ := h
    refine ⟨⟨hN, hD, k1, s1, r1, hk, hs, hr, hq, hl, hn, ?_, pN, pD⟩, c1, ?_⟩
    · show N.In ((a.q + a.n + a.l : Nat) : Int)
      rw [show a.q + a.n + a.l = a.l + a.n + a.q by omega]; exact hp
    · show (a.m - 1) * a.s + patch a.k a.r = a.q + a.n + a.l
      omega

theorem turn_self {a : Axis} (h : a.l = a.q) (f : Bool) : a.turn f = a := by
  obtain ⟨k, s, r, l, q, n, m⟩ := a
  simp only at h
  subst h
  cases f <;> rfl

/-- The mirrored window and tap lie at the mirrored position of the padded axis. -/
theorem mirror_pos {a : Axis} (h : a.Covers) {j u : Nat} (hj : j < a.m) (hu : u < a.k) :
    a.pos (a.m - 1 - j) (a.k - 1 - u) + a.pos j u + 1 = a.l + a.n + a.q := by
  obtain ⟨_, c⟩ := h
  unfold patch at c
  unfold Axis.pos
  have e1 : (a.m - 1 - j) * a.s + j * a.s = (a.m - 1) * a.s := by rw [← Nat.add_mul]; congr 1; omega
  have e2 : (a.k - 1 - u) * a.r + u * a.r = (a.k - 1) * a.r := by rw [← Nat.add_mul]; congr 1; omega
  omega

theorem flip_in {a : Axis} (h : a.Covers) (f : Bool) {j u : Nat} (hj : j < a.m) (hu : u < a.k) :
    ((a.turn f).l ≤ (a.turn f).pos (flip f a.m j) (flip f a.k u) ∧
      (a.turn f).pos (flip f a.m j) (flip f a.k u) < (a.turn f).l + a.n) ↔ a.l ≤ a.pos j u ∧ a.pos j u < a.l + a.n := by
  cases f
  · rfl
  · have := mirror_pos h hj hu
    show a.q ≤ a.pos (a.m - 1 - j) (a.k - 1 - u) ∧ a.pos (a.m - 1 - j) (a.k - 1 - u) < a.q + a.n ↔ _
    omega

theorem flip_idx {a : Axis} (h : a.Covers) (f : Bool) {j u : Nat} (hj : j < a.m) (hu : u < a.k)
    (hp : a.l ≤ a.pos j u ∧ a.pos j u < a.l + a.n) :
    flip f a.n ((a.turn f).pos (flip f a.m j) (flip f a.k u) - (a.turn f).l) = a.pos j u - a.l := by
  cases f
  · rfl
  · have := mirror_pos h hj hu
    show a.n - 1 - (a.pos (a.m - 1 - j) (a.k - 1 - u) - a.q) = _
    omega

theorem flip_lt {f : Bool} {n x : Nat} (h : x < n) : flip f n x < n := by
  cases f
  · exact h
  · show n - 1 - x < n
    omega

theorem flip_flip {f : Bool} {n x : Nat} (h : x < n) : flip f n (flip f n x) = x := by
  cases f
  · rfl
  · show n - 1 - (n - 1 - x) = x
    omega

theorem sum_flip {M : Type} [AddCommMonoid M] (f : Bool) (n : Nat) (g : Nat → M) :
    ∑ u ∈ range n, g (flip f n u) = ∑ u ∈ range n, g u := by
  cases f
  · rfl
  · exact sum_range_reflect g n

theorem flip_window [Zero R] {H W : Axis} (hH : H.Covers) (hW : W.Covers) (f g : Bool) (X : Nat → Nat → R) {i j u v : Nat}
    (hi : i < H.m) (hj : j < W.m) (hu : u < H.k) (hv : v < W.k) :
    window (H.turn f) (W.turn g) (fun a b => X (flip f H.n a) (flip g W.n b)) (flip f H.m i) (flip g W.m j)
      (flip f H.k u) (flip g W.k v) = window H W X i j u v := by
  rw [window_eq, window_eq]
  simp only [turn_n, flip_in hH f hi hu, flip_in hW g hj hv]
  split
  · rename_i h
    rw [flip_idx hH f hi hu h.1, flip_idx hW g hj hv h.2]
  · rfl

theorem conv2_flip [Semiring R] {H W : Axis} (hH : H.Covers) (hW : W.Covers) (f g : Bool) (c : Nat)
    (X : Nat → Nat → Nat → R) (Y : Nat → Nat → Nat → Nat → R) {i j : Nat} (e : Nat) (hi : i < H.m) (hj : j < W.m) :
    conv2 (H.turn f) (W.turn g) c (fun a b => X (flip f H.n a) (flip g W.n b))
      (fun u v => Y (flip f H.k u) (flip g W.k v)) i j e = conv2 H W c X Y (flip f H.m i) (flip g W.m j) e := by
  unfold conv2
  rw [turn_k, turn_k, ← sum_flip f]
  refine sum_congr rfl fun u hu => ?_
  rw [← sum_flip g]
  refine sum_congr rfl fun v hv => sum_congr rfl fun k _ => ?_
  rw [mem_range] at hu hv
  have := flip_window hH hW f g (fun a b => X a b k) (flip_lt (f := f) hi) (flip_lt (f := g) hj) hu hv
  rw [flip_flip hi, flip_flip hj] at this
  rw [this]
  show _ * Y (flip f H.k (flip f H.k u)) (flip g W.k (flip g W.k v)) k e = _
  rw [flip_flip hu, flip_flip hv]

/-- C123 (reflected convolution, NHWC): reflect images and filter up to down, left to right or both, and exchange the
paddings at the two ends of the reflected axes; the output is the reflected output, for every stride and rate. -/
theorem C123_reflect_nhwc [Semiring R] {H W : Axis} (hH : AxisOK u32 H) (hW : AxisOK u32 W) {n c d : Nat}
    (hsz : [H.n, W.n, c].prod ≤ 2 ^ 31) (X Y : Nat → Nat → Nat → Nat → R) (junkI : Nat → Int) (junk : Nat → R)
    (f g : Bool) {z z' : List R} (hz : z.length = [n, H.m, W.m, d].prod) (hz' : z'.length = [n, H.m, W.m, d].prod) :
    ∃ Z : Nat → Nat → Nat → Nat → R,
      convNhwc (convTrait H W) junkI junk [n, H.m, W.m, d] (tab [n, H.n, W.n, c] (fn4 X)) (tab [H.k, W.k, c, d] (fn4 Y)) z =
        .ok (tab [n, H.m, W.m, d] (fn4 Z)).data ∧
      convNhwc (convTrait (H.turn f) (W.turn g)) junkI junk [n, H.m, W.m, d]
          (tab [n, H.n, W.n, c] (fn4 fun b i j => X b (flip f H.n i) (flip g W.n j)))
          (tab [H.k, W.k, c, d] (fn4 fun u v => Y (flip f H.k u) (flip g W.k v))) z' =
        .ok (tab [n, H.m, W.m, d] (fn4 fun b i j => Z b (flip f H.m i) (flip g W.m j))).data := by
  refine ⟨_, convNhwc_run hH hW hsz X Y junkI junk hz, ?_⟩
  have := convNhwc_run (turn_ok hH f) (turn_ok hW g) (n := n) (c := c) (d := d) (by simpa using hsz)
    (fun b i j => X b (flip f H.n i) (flip g W.n j)) (fun u v => Y (flip f H.k u) (flip g W.k v)) junkI junk
    (z := z') (by simpa using hz')
  simp only [turn_k, turn_m, turn_n] at this
  rw [this]
  refine congrArg (fun t => Outcome.ok (Tensor.data t)) (tab_congr fun idx hv => ?_)
  match idx, hv with
  | [b, i, j, e], ⟨_, hi, hj, _, _⟩ => exact conv2_flip hH.covers hW.covers f g c (X b) Y e hi hj

/-- C123 (reflected convolution, NCHW). -/
theorem C123_reflect_nchw [CommSemiring R] {H W : Axis} (hH : AxisOK u32 H) (hW : AxisOK u32 W) {n c d : Nat}
    (X Y : Nat → Nat → Nat → Nat → R) (junk : Nat → R) (f g : Bool) {z z' : List R}
    (hz : z.length = [n, d, H.m, W.m].prod) (hz' : z'.length = [n, d, H.m, W.m].prod) :
    ∃ Z : Nat → Nat → Nat → Nat → R,
      convNchw (convTrait H W) junk [n, d, H.m, W.m] (tab [n, c, H.n, W.n] (fn4 X)) (tab [d, c, H.k, W.k] (fn4 Y)) z =
        .ok (tab [n, d, H.m, W.m] (fn4 Z)).data ∧
      convNchw (convTrait (H.turn f) (W.turn g)) junk [n, d, H.m, W.m]
          (tab [n, c, H.n, W.n] (fn4 fun b k i j => X b k (flip f H.n i) (flip g W.n j)))
          (tab [d, c, H.k, W.k] (fn4 fun e k u v => Y e k (flip f H.k u) (flip g W.k v))) z' =
        .ok (tab [n, d, H.m, W.m] (fn4 fun b e i j => Z b e (flip f H.m i) (flip g W.m j))).data := by
  refine ⟨_, convNchw_run hH hW X Y junk hz, ?_⟩
  have := convNchw_run (turn_ok hH f) (turn_ok hW g) (n := n) (c := c) (d := d)
    (fun b k i j => X b k (flip f H.n i) (flip g W.n j)) (fun e k u v => Y e k (flip f H.k u) (flip g W.k v)) junk
    (z := z') (by simpa using hz')
  simp only [turn_k, turn_m, turn_n] at this
  rw [this]
  refine congrArg (fun t => Outcome.ok (Tensor.data t)) (tab_congr fun idx hv => ?_)
  match idx, hv with
  | [b, e, i, j], ⟨_, _, hi, hj, _⟩ =>
    exact conv2_flip hH.covers hW.covers f g c (fun a a' k => X b k a a') (fun u v k e => Y e k u v) e hi hj

/-- C123 (reflected 1-d convolution). -/
theorem C123_reflect_1d [Semiring R] {a : Axis} (h : AxisOK i32 a) (X Y : Nat → R) {z z' : List R} (hz : z.length = a.m)
    (hz' : z'.length = a.m) :
    ∃ Z : Nat → R,
      (conv1dTrait a).run [a.m] (tab [a.n] (fn1 X)) (tab [a.k] (fn1 Y)) z = .ok (tab [a.m] (fn1 Z)).data ∧
      (conv1dTrait (a.turn true)).run [a.m] (tab [a.n] (fn1 fun x => X (a.n - 1 - x)))
          (tab [a.k] (fn1 fun u => Y (a.k - 1 - u))) z' =
        .ok (tab [a.m] (fn1 fun j => Z (a.m - 1 - j))).data := by
  refine ⟨_, C35_conv1d h X Y hz, (C35_conv1d (turn_ok h true) _ _ hz').trans ?_⟩
  refine congrArg (fun t => Outcome.ok (Tensor.data t)) (tab_congr fun idx hv => ?_)
  match idx, hv with
  | [j], ⟨(hj : j < a.m), _⟩ =>
    simp only [fn1_apply]
    show ∑ u ∈ range a.k, _ = _
    rw [← sum_flip true a.k]
    refine sum_congr rfl fun u hu => ?_
    rw [mem_range] at hu
    have hj' := flip_lt (f := true) hj
    have e1 := flip_in h.covers true hj' hu
    rw [flip_flip hj] at e1
    have e2 : flip true a.k u = a.k - 1 - u := rfl
    have e3 : a.k - 1 - (a.k - 1 - u) = u := flip_flip (f := true) hu
    rw [e2, e3]
    rw [e2] at e1
    congr 1
    unfold padded
    rw [show (a.turn true).n = a.n from rfl]
    rw [show a.m - 1 - j = flip true a.m j from rfl]
    by_cases hp : a.l ≤ a.pos (flip true a.m j) u ∧ a.pos (flip true a.m j) u < a.l + a.n
    · have e4 := flip_idx h.covers true hj' hu hp
      rw [flip_flip hj] at e4
      rw [if_pos (e1.2 hp), if_pos hp]
      exact congrArg X e4
    · rw [if_neg (fun q => hp (e1.1 q)), if_neg hp]

/-! ## Transposition -/

theorem conv2_transpose [Semiring R] (H W : Axis) (c : Nat) (X : Nat → Nat → Nat → R) (Y : Nat → Nat → Nat → Nat → R)
    (i j e : Nat) :
    conv2 W H c (fun a b => X b a) (fun u v => Y v u) i j e = conv2 H W c X Y j i e := by
  unfold conv2
  rw [sum_comm]
  refine sum_congr rfl fun u _ => sum_congr rfl fun v _ => sum_congr rfl fun k _ => ?_
  rw [window_eq, window_eq]
  simp only [and_comm]

/-- C123 (transposed convolution inputs, NHWC): exchange the rows and columns of images, filter and trait; the output is
the transposed output. -/
theorem C123_transpose_nhwc [Semiring R] {H W : Axis} (hH : AxisOK u32 H) (hW : AxisOK u32 W) {n c d : Nat}
    (hsz : [H.n, W.n, c].prod ≤ 2 ^ 31) (X Y : Nat → Nat → Nat → Nat → R) (junkI : Nat → Int) (junk : Nat → R)
    {z z' : List R} (hz : z.length = [n, H.m, W.m, d].prod) (hz' : z'.length = [n, W.m, H.m, d].prod) :
    ∃ Z : Nat → Nat → Nat → Nat → R,
      convNhwc (convTrait H W) junkI junk [n, H.m, W.m, d] (tab [n, H.n, W.n, c] (fn4 X)) (tab [H.k, W.k, c, d] (fn4 Y)) z =
        .ok (tab [n, H.m, W.m, d] (fn4 Z)).data ∧
      convNhwc (convTrait W H) junkI junk [n, W.m, H.m, d] (tab [n, W.n, H.n, c] (fn4 fun b i j => X b j i))
          (tab [W.k, H.k, c, d] (fn4 fun u v => Y v u)) z' =
        .ok (tab [n, W.m, H.m, d] (fn4 fun b i j => Z b j i)).data := by
  refine ⟨_, convNhwc_run hH hW hsz X Y junkI junk hz, ?_⟩
  rw [convNhwc_run hW hH (by simpa [Nat.mul_left_comm] using hsz) _ _ junkI junk hz']
  refine congrArg (fun t => Outcome.ok (Tensor.data t)) (tab_congr fun idx hv => ?_)
  match idx, hv with
  | [b, i, j, e], _ => exact conv2_transpose H W c (X b) Y i j e

/-- C123 (transposed convolution inputs, NCHW). -/
theorem C123_transpose_nchw [CommSemiring R] {H W : Axis} (hH : AxisOK u32 H) (hW : AxisOK u32 W) {n c d : Nat}
    (X Y : Nat → Nat → Nat → Nat → R) (junk : Nat → R) {z z' : List R} (hz : z.length = [n, d, H.m, W.m].prod)
    (hz' : z'.length = [n, d, W.m, H.m].prod) :
    ∃ Z : Nat → Nat → Nat → Nat → R,
      convNchw (convTrait H W) junk [n, d, H.m, W.m] (tab [n, c, H.n, W.n] (fn4 X)) (tab [d, c, H.k, W.k] (fn4 Y)) z =
        .ok (tab [n, d, H.m, W.m] (fn4 Z)).data ∧
      convNchw (convTrait W H) junk [n, d, W.m, H.m] (tab [n, c, W.n, H.n] (fn4 fun b k i j => X b k j i))
          (tab [d, c, W.k, H.k] (fn4 fun e k u v => Y e k v u)) z' =
        .ok (tab [n, d, W.m, H.m] (fn4 fun b e i j => Z b e j i)).data := by
  refine ⟨_, convNchw_run hH hW X Y junk hz, ?_⟩
  rw [convNchw_run hW hH _ _ junk hz']
  refine congrArg (fun t => Outcome.ok (Tensor.data t)) (tab_congr fun idx hv => ?_)
  match idx, hv with
  | [b, e, i, j], _ =>
    exact conv2_transpose H W c (fun a a' k => X b k a a') (fun u v k e => Y e k u v) i j e

/-! ## Pooling -/

/-- The pixels of a window as a sum of multisets. -/
theorem pixels_multiset (H W : Axis) (X : Nat → Nat → R) (i j : Nat) :
    (pixels H W X i j : Multiset R) = ∑ u ∈ range H.k, ∑ v ∈ range W.k,
      if (H.l ≤ H.pos i u ∧ H.pos i u < H.l + H.n) ∧ W.l ≤ W.pos j v ∧ W.pos j v < W.l + W.n then
        {X (H.pos i u - H.l) (W.pos j v - W.l)} else 0 := by
  have inner : ∀ (p : Nat → Prop) [DecidablePred p] (x : Nat → R) (k : Nat),
      (((List.range k).filterMap fun v => if p v then some (x v) else none : List R) : Multiset R) =
        ∑ v ∈ range k, if p v then {x v} else 0 := by
    intro p _ x k
    induction k with
    | zero => rfl
    | succ k ih =>
      rw [List.range_succ, List.filterMap_append, ← Multiset.coe_add, ih, sum_range_succ]
      congr 1
      by_cases h : p k <;> simp [h]
  have outer : ∀ (L : Nat → List R) (k : Nat),
      (((List.range k).flatMap L : List R) : Multiset R) = ∑ u ∈ range k, (L u : Multiset R) := by
    intro L k
    induction k with
    | zero => rfl
    | succ k ih => rw [List.range_succ, List.flatMap_append, ← Multiset.coe_add, ih, sum_range_succ]; simp
  unfold pixels
  rw [outer]
  exact sum_congr rfl fun u _ => inner _ _ _

theorem pixels_flip {H W : Axis} (hH : H.Covers) (hW : W.Covers) (f g : Bool) (X : Nat → Nat → R) {i j : Nat}
    (hi : i < H.m) (hj : j < W.m) :
    (pixels (H.turn f) (W.turn g) (fun a b => X (flip f H.n a) (flip g W.n b)) i j).Perm
      (pixels H W X (flip f H.m i) (flip g W.m j)) := by
  rw [← Multiset.coe_eq_coe, pixels_multiset, pixels_multiset, turn_k, turn_k, ← sum_flip f]
  refine sum_congr rfl fun u hu => ?_
  rw [← sum_flip g]
  refine sum_congr rfl fun v hv => ?_
  rw [mem_range] at hu hv
  have hi' := flip_lt (f := f) hi
  have hj' := flip_lt (f := g) hj
  have a1 := flip_in hH f hi' hu
  have a2 := flip_in hW g hj' hv
  rw [flip_flip hi] at a1
  rw [flip_flip hj] at a2
  simp only [turn_n, a1, a2]
  split
  · rename_i h
    have b1 := flip_idx hH f hi' hu h.1
    have b2 := flip_idx hW g hj' hv h.2
    rw [flip_flip hi] at b1
    rw [flip_flip hj] at b2
    rw [b1, b2]
  · rfl

theorem pixels_transpose (H W : Axis) (X : Nat → Nat → R) (i j : Nat) :
    (pixels W H (fun a b => X b a) i j).Perm (pixels H W X j i) := by
  rw [← Multiset.coe_eq_coe, pixels_multiset, pixels_multiset, sum_comm]
  refine sum_congr rfl fun u _ => sum_congr rfl fun v _ => ?_
  simp only [and_comm]

/-- Max and mean accumulators: they return a value on every list of at most `N` pixels, the same for every order. -/
structure Unordered (N : Nat) (acc : Acc R) : Prop where
  total : ∀ l : List R, l.length ≤ N → ∃ v, acc.run l = .ok v
  perm : ∀ l l' : List R, l.length ≤ N → l.Perm l' → acc.run l = acc.run l'

theorem max_unordered [LinearOrder R] (lowest : R) (N : Nat) : Unordered N (Acc.max lowest) := by
  refine ⟨fun l _ => ⟨_, max_run lowest l⟩, fun l l' _ p => ?_⟩
  rw [max_run, max_run]
  obtain ⟨a1, a2, a3⟩ := fold_max l lowest
  obtain ⟨b1, b2, b3⟩ := fold_max l' lowest
  congr 1
  apply le_antisymm
  · rcases a3 with e | e
    · rw [e]; exact b1
    · exact b2 _ (p.mem_iff.1 e)
  · rcases b3 with e | e
    · rw [e]; exact a1
    · exact a2 _ (p.mem_iff.2 e)

theorem mean_unordered [AddCommMonoid R] (divn : R → Nat → R) {N : Nat} (hN : N < 2 ^ 32) :
    Unordered N (Acc.mean divn) := by
  refine ⟨fun l h => ⟨_, mean_run divn l (by omega)⟩, fun l l' h p => ?_⟩
  rw [mean_run divn l (by omega), mean_run divn l' (by rw [← p.length_eq]; omega), p.length_eq,
    ← List.sum_eq_foldl, ← List.sum_eq_foldl, p.sum_eq]

theorem pixels_short {H W : Axis} (hr : 1 ≤ H.r) (wr : 1 ≤ W.r) (X : Nat → Nat → R) (i j : Nat) :
    (pixels H W X i j).length ≤ H.k * W.k := (pixels_length hr wr X i j).trans_le (win_card_le hr wr i j)

/-- Pooling of one image, of the reflected image and of the transposed image. -/
theorem pool_symmetry [Zero R] {H W : Axis} (hH : AxisOK u32 H) (hW : AxisOK u32 W) {acc : Acc R}
    (hacc : Unordered (H.k * W.k) acc) (f g : Bool) (X : Nat → Nat → R) {y y' y'' : List R}
    (hy : y.length = [H.m, W.m].prod) (hy' : y'.length = [H.m, W.m].prod) (hy'' : y''.length = [W.m, H.m].prod) :
    ∃ Z : Nat → Nat → R,
      poolHw acc (poolTrait H W) [H.m, W.m] (tab [H.n, W.n] (fn2 X)) y = .ok (tab [H.m, W.m] (fn2 Z)).data ∧
      poolHw acc (poolTrait (H.turn f) (W.turn g)) [H.m, W.m]
          (tab [H.n, W.n] (fn2 fun i j => X (flip f H.n i) (flip g W.n j))) y' =
        .ok (tab [H.m, W.m] (fn2 fun i j => Z (flip f H.m i) (flip g W.m j))).data ∧
      poolHw acc (poolTrait W H) [W.m, H.m] (tab [W.n, H.n] (fn2 fun i j => X j i)) y'' =
        .ok (tab [W.m, H.m] (fn2 fun i j => Z j i)).data := by
  choose Z hZ using fun i j => hacc.total _ (pixels_short hH.fits.r1 hW.fits.r1 X i j)
  refine ⟨Z, poolHw_run hH hW acc X Z (fun i _ j _ => hZ i j) hy, ?_, ?_⟩
  · have := poolHw_run (turn_ok hH f) (turn_ok hW g) acc (fun i j => X (flip f H.n i) (flip g W.n j))
      (fun i j => Z (flip f H.m i) (flip g W.m j)) (fun i hi j hj => by
        rw [turn_m] at hi hj
        rw [← hZ]
        exact (hacc.perm _ _ (pixels_short hH.fits.r1 hW.fits.r1 X _ _)
          (pixels_flip hH.covers hW.covers f g X hi hj).symm).symm) (y := y') (by simpa using hy')
    simpa only [turn_m, turn_n] using this
  · refine poolHw_run hW hH _ _ _ (fun i hi j hj => ?_) hy''
    rw [← hZ]
    exact (hacc.perm _ _ (pixels_short hH.fits.r1 hW.fits.r1 X _ _) (pixels_transpose H W X i j).symm).symm

/-- C123 (max pooling of a reflected and of a transposed image), at any padding; the values need only be ordered. -/
theorem C123_max [LinearOrder R] [Zero R] (lowest : R) {H W : Axis} (hH : AxisOK u32 H) (hW : AxisOK u32 W) (f g : Bool)
    (X : Nat → Nat → R) {y y' y'' : List R} (hy : y.length = [H.m, W.m].prod) (hy' : y'.length = [H.m, W.m].prod)
    (hy'' : y''.length = [W.m, H.m].prod) :
    ∃ Z : Nat → Nat → R,
      poolHw (Acc.max lowest) (poolTrait H W) [H.m, W.m] (tab [H.n, W.n] (fn2 X)) y =
        .ok (tab [H.m, W.m] (fn2 Z)).data ∧
      poolHw (Acc.max lowest) (poolTrait (H.turn f) (W.turn g)) [H.m, W.m]
          (tab [H.n, W.n] (fn2 fun i j => X (flip f H.n i) (flip g W.n j))) y' =
        .ok (tab [H.m, W.m] (fn2 fun i j => Z (flip f H.m i) (flip g W.m j))).data ∧
      poolHw (Acc.max lowest) (poolTrait W H) [W.m, H.m] (tab [W.n, H.n] (fn2 fun i j => X j i)) y'' =
        .ok (tab [W.m, H.m] (fn2 fun i j => Z j i)).data :=
  pool_symmetry hH hW (max_unordered lowest _) f g X hy hy' hy''

/-- C123 (mean pooling of a reflected and of a transposed image), at any padding and for any division. -/
theorem C123_mean [AddCommMonoid R] (divn : R → Nat → R) {H W : Axis} (hH : AxisOK u32 H) (hW : AxisOK u32 W)
    (hk : H.k * W.k < 2 ^ 32) (f g : Bool) (X : Nat → Nat → R) {y y' y'' : List R} (hy : y.length = [H.m, W.m].prod)
    (hy' : y'.length = [H.m, W.m].prod) (hy'' : y''.length = [W.m, H.m].prod) :
    ∃ Z : Nat → Nat → R,
      poolHw (Acc.mean divn) (poolTrait H W) [H.m, W.m] (tab [H.n, W.n] (fn2 X)) y =
        .ok (tab [H.m, W.m] (fn2 Z)).data ∧
      poolHw (Acc.mean divn) (poolTrait (H.turn f) (W.turn g)) [H.m, W.m]
          (tab [H.n, W.n] (fn2 fun i j => X (flip f H.n i) (flip g W.n j))) y' =
        .ok (tab [H.m, W.m] (fn2 fun i j => Z (flip f H.m i) (flip g W.m j))).data ∧
      poolHw (Acc.mean divn) (poolTrait W H) [W.m, H.m] (tab [W.n, H.n] (fn2 fun i j => X j i)) y'' =
        .ok (tab [W.m, H.m] (fn2 fun i j => Z j i)).data :=
  pool_symmetry hH hW (mean_unordered divn hk) f g X hy hy' hy''

/-- Pooling layers that add no padding, on batches of reflected images. -/
theorem poolLayer_symmetry [Zero R] (junk : Nat → R) {H W : Axis} (hH : AxisOK u32 H) (hW : AxisOK u32 W) {acc : Acc R}
    (hacc : Unordered (H.k * W.k) acc) {t : PoolLayer} (ht : PoolHasAxes t H W) (lH : H.l = 0) (lW : W.l = 0)
    (qH : H.q = 0) (qW : W.q = 0) (f g : Bool) {n c : Nat} (X : Nat → Nat → Nat → Nat → R) :
    ∃ Z : Nat → Nat → Nat → Nat → R,
      pool .nhwc junk acc t (tab [n, H.n, W.n, c] (fn4 X)) = ⟨1, .ok ⟨tab [n, H.m, W.m, c] (fn4 Z), []⟩⟩ ∧
      pool .nhwc junk acc t (tab [n, H.n, W.n, c] (fn4 fun b i j => X b (flip f H.n i) (flip g W.n j))) =
        ⟨1, .ok ⟨tab [n, H.m, W.m, c] (fn4 fun b i j => Z b (flip f H.m i) (flip g W.m j)), []⟩⟩ ∧
      pool .nchw junk acc t (tab [n, c, H.n, W.n] (fn4 fun b k i j => X b i j k)) =
        ⟨1, .ok ⟨tab [n, c, H.m, W.m] (fn4 fun b k i j => Z b i j k), []⟩⟩ ∧
      pool .nchw junk acc t (tab [n, c, H.n, W.n] (fn4 fun b k i j => X b (flip f H.n i) (flip g W.n j) k)) =
        ⟨1, .ok ⟨tab [n, c, H.m, W.m] (fn4 fun b k i j => Z b (flip f H.m i) (flip g W.m j) k), []⟩⟩ := by
  choose Z hZ using fun b k i j => hacc.total _ (pixels_short hH.fits.r1 hW.fits.r1 (fun a a' => X b a a' k) i j)
  obtain ⟨r1, r2⟩ := poolLayer_gen junk acc hH hW ht (n := n) (c := c) X (fun b i j k => Z b k i j)
    (fun b _ i _ j _ k _ => by rw [shifted_self lH, shifted_self lW]; exact hZ b k i j)
  have tH : H.turn f = H := turn_self (lH.trans qH.symm) f
  have tW : W.turn g = W := turn_self (lW.trans qW.symm) g
  obtain ⟨s1, s2⟩ := poolLayer_gen junk acc hH hW ht (n := n) (c := c)
    (fun b i j k => X b (flip f H.n i) (flip g W.n j) k) (fun b i j k => Z b k (flip f H.m i) (flip g W.m j))
    (fun b _ i hi j hj k _ => by
      rw [shifted_self lH, shifted_self lW, ← hZ]
      have p := pixels_flip hH.covers hW.covers f g (fun a a' => X b a a' k) hi hj
      rw [tH, tW] at p
      exact (hacc.perm _ _ (pixels_short hH.fits.r1 hW.fits.r1 _ _ _) p.symm).symm)
  exact ⟨_, r1, s1, r2, s2⟩

/-- C123 (max pooling layers that add no padding): a batch of reflected images gives the reflected outputs. -/
theorem C123_max_layer [LinearOrder R] [Zero R] (junk : Nat → R) (lowest : R) {H W : Axis} (hH : AxisOK u32 H)
    (hW : AxisOK u32 W) {t : PoolLayer} (ht : PoolHasAxes t H W) (lH : H.l = 0) (lW : W.l = 0) (qH : H.q = 0)
    (qW : W.q = 0) (f g : Bool) {n c : Nat} (X : Nat → Nat → Nat → Nat → R) :
    ∃ Z : Nat → Nat → Nat → Nat → R,
      pool .nhwc junk (Acc.max lowest) t (tab [n, H.n, W.n, c] (fn4 X)) =
        ⟨1, .ok ⟨tab [n, H.m, W.m, c] (fn4 Z), []⟩⟩ ∧
      pool .nhwc junk (Acc.max lowest) t (tab [n, H.n, W.n, c] (fn4 fun b i j => X b (flip f H.n i) (flip g W.n j))) =
        ⟨1, .ok ⟨tab [n, H.m, W.m, c] (fn4 fun b i j => Z b (flip f H.m i) (flip g W.m j)), []⟩⟩ ∧
      pool .nchw junk (Acc.max lowest) t (tab [n, c, H.n, W.n] (fn4 fun b k i j => X b i j k)) =
        ⟨1, .ok ⟨tab [n, c, H.m, W.m] (fn4 fun b k i j => Z b i j k), []⟩⟩ ∧
      pool .nchw junk (Acc.max lowest) t
          (tab [n, c, H.n, W.n] (fn4 fun b k i j => X b (flip f H.n i) (flip g W.n j) k)) =
        ⟨1, .ok ⟨tab [n, c, H.m, W.m] (fn4 fun b k i j => Z b (flip f H.m i) (flip g W.m j) k), []⟩⟩ :=
  poolLayer_symmetry junk hH hW (max_unordered lowest _) ht lH lW qH qW f g X

/-- C123 (mean pooling layers that add no padding). -/
theorem C123_mean_layer [AddCommMonoid R] (junk : Nat → R) (divn : R → Nat → R) {H W : Axis} (hH : AxisOK u32 H)
    (hW : AxisOK u32 W) (hk : H.k * W.k < 2 ^ 32) {t : PoolLayer} (ht : PoolHasAxes t H W) (lH : H.l = 0) (lW : W.l = 0)
    (qH : H.q = 0) (qW : W.q = 0) (f g : Bool) {n c : Nat} (X : Nat → Nat → Nat → Nat → R) :
    ∃ Z : Nat → Nat → Nat → Nat → R,
      pool .nhwc junk (Acc.mean divn) t (tab [n, H.n, W.n, c] (fn4 X)) =
        ⟨1, .ok ⟨tab [n, H.m, W.m, c] (fn4 Z), []⟩⟩ ∧
      pool .nhwc junk (Acc.mean divn) t (tab [n, H.n, W.n, c] (fn4 fun b i j => X b (flip f H.n i) (flip g W.n j))) =
        ⟨1, .ok ⟨tab [n, H.m, W.m, c] (fn4 fun b i j => Z b (flip f H.m i) (flip g W.m j)), []⟩⟩ ∧
      pool .nchw junk (Acc.mean divn) t (tab [n, c, H.n, W.n] (fn4 fun b k i j => X b i j k)) =
        ⟨1, .ok ⟨tab [n, c, H.m, W.m] (fn4 fun b k i j => Z b i j k), []⟩⟩ ∧
      pool .nchw junk (Acc.mean divn) t
          (tab [n, c, H.n, W.n] (fn4 fun b k i j => X b (flip f H.n i) (flip g W.n j) k)) =
        ⟨1, .ok ⟨tab [n, c, H.m, W.m] (fn4 fun b k i j => Z b (flip f H.m i) (flip g W.m j) k), []⟩⟩ :=
  poolLayer_symmetry junk hH hW (mean_unordered divn hk) ht lH lW qH qW f g X

/-! ## Instances -/

/-- Padding (1, 0) becomes (0, 1): the mirrored axis is another axis, and both are in range. The image `1 2 3` with filter
`1 10` at padding (1, 0) gives `10 21 32`, the image `3 2 1` with filter `10 1` at padding (0, 1) gives `32 21 10`. -/
example : AxisOK u32 exH ∧ AxisOK u32 (exH.turn true) ∧ AxisOK i32 ⟨2, 1, 1, 1, 0, 3, 3⟩ ∧
    (exH.turn true).l = 0 ∧ (exH.turn true).q = 1 ∧ exH.l = 1 ∧
    (conv1dTrait ⟨2, 1, 1, 1, 0, 3, 3⟩).run [3] ⟨[3], [(1 : Int), 2, 3]⟩ ⟨[2], [1, 10]⟩ [0, 0, 0] = .ok [10, 21, 32] ∧
    (conv1dTrait ⟨2, 1, 1, 0, 1, 3, 3⟩).run [3] ⟨[3], [(3 : Int), 2, 1]⟩ ⟨[2], [10, 1]⟩ [0, 0, 0] =
      .ok [32, 21, 10] := by
  refine ⟨exH_ok, turn_ok exH_ok _, ⟨⟨?_, ?_, ?_, ?_, ?_, ?_, ?_, ?_, ?_, ?_, ?_, ?_, ?_, ?_⟩, ?_⟩, ?_⟩ <;> decide

/-- A batch of two 3 × 5 images with 2 channels, 4 filters; the sizes asked of the outputs. -/
example : AxisOK u32 exH ∧ AxisOK u32 exW ∧ [exH.n, exW.n, 2].prod ≤ 2 ^ 31 ∧
    (List.replicate 72 (0 : Int)).length = [2, exH.m, exW.m, 4].prod ∧
    (List.replicate 72 (0 : Int)).length = [2, exW.m, exH.m, 4].prod ∧
    (List.replicate 72 (0 : Int)).length = [2, 4, exH.m, exW.m].prod ∧
    (List.replicate 72 (0 : Int)).length = [2, 4, exW.m, exH.m].prod := by
  refine ⟨exH_ok, exW_ok, ?_, ?_, ?_, ?_, ?_⟩ <;> decide

/-- Pooling of one 4 × 3 image, kernel 2 × 3, with padding on one axis. -/
example : AxisOK u32 exP ∧ AxisOK u32 exQ ∧ exP.k * exQ.k < 2 ^ 32 ∧
    (List.replicate 6 (0 : Int)).length = [exP.m, exQ.m].prod ∧
    Unordered (exP.k * exQ.k) (Acc.max (-99 : Int)) :=
  ⟨exP_ok, exQ_ok, by decide, by decide, max_unordered _ _⟩

/-- A layer with kernel 3 × 2, stride (2, 1) and valid padding has axes without padding. -/
example : PoolHasAxes (PoolLayer.make (3, 2) (Sample.paddingValid u32) (2, 1)) ⟨3, 2, 1, 0, 0, 5, 2⟩ ⟨2, 1, 1, 0, 0, 3, 2⟩ :=
  ⟨rfl, rfl, rfl, rfl, by decide, by decide⟩

/-! ## Concrete cases -/

example := C123_reflect_nhwc (R := Int) exH_ok exW_ok (n := 1) (c := 2) (d := 2) (by decide) (fun b p q k => b + p - 7 * q + k) (fun r s k e => r + s - k * e)
  (fun _ => 1) (fun _ => 2) true false (z := List.replicate 18 0) (z' := List.replicate 18 5) rfl rfl
example := C123_reflect_nchw (R := Int) exH_ok exW_ok (n := 1) (c := 2) (d := 2) (fun b k p q => b + p - 7 * q + k) (fun e k r s => r + s - k * e)
  (fun _ => 2) true false (z := List.replicate 18 0) (z' := List.replicate 18 5) rfl rfl
example := C123_reflect_1d (R := Int) exW_ok32 (fun x => 3 * x - 5) (fun u => 2 * u + 1) (z := List.replicate 3 0)
  (z' := List.replicate 3 5) rfl rfl
example := C123_transpose_nhwc (R := Int) exH_ok exW_ok (n := 1) (c := 2) (d := 2) (by decide) (fun b p q k => b + p - 7 * q + k) (fun r s k e => r + s - k * e)
  (fun _ => 1) (fun _ => 2) (z := List.replicate 18 0) (z' := List.replicate 18 5) rfl rfl
example := C123_transpose_nchw (R := Int) exH_ok exW_ok (n := 1) (c := 2) (d := 2) (fun b k p q => b + p - 7 * q + k) (fun e k r s => r + s - k * e)
  (fun _ => 2) (z := List.replicate 18 0) (z' := List.replicate 18 5) rfl rfl
example := C123_max (R := Int) (-128) exP_ok exQ_ok true false (fun i j => 3 * i - j) (y := List.replicate 6 0)
  (y' := List.replicate 6 1) (y'' := List.replicate 6 2) rfl rfl rfl
example := C123_mean (fun (x : ℚ) n => x / n) exP_ok exQ_ok (by decide) true false (fun i j => 3 * i - j)
  (y := List.replicate 6 0) (y' := List.replicate 6 1) (y'' := List.replicate 6 2) rfl rfl rfl
example := C123_max_layer (R := Int) (fun _ => 9) (-128) exPoolH_ok exPoolW_ok exPool_axes rfl rfl rfl rfl true false
  (n := 2) (c := 2) (fun b i j k => b + i - j * k)
example := C123_mean_layer (fun _ => 9) (fun (x : ℚ) n => x / n) exPoolH_ok exPoolW_ok (by decide) exPool_axes rfl rfl rfl
  rfl true false (n := 2) (c := 2) (fun b i j k => b + i - j * k)

end StdNN
