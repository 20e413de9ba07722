import Mathlib.Data.Int.Log
import Mathlib.Tactic.Linarith
import Mathlib.Tactic.Ring
import Mathlib.Tactic.Positivity
import Verif.Props.ConvLaws
import Verif.Spec.Float
/-!
# C93: rounding errors of matrix products and convolutions
-/
namespace StdNN
open IntTy Spec Outcome Finset
variable {u : ℝ} {rnd : ℝ → ℝ}

/-- The rounded inner product, in the order of the code. -/
theorem seqSum_error (hu : 0 ≤ u) (h : RelErr u rnd) (n : Nat) (a b : Nat → Fl rnd) :
    |(seqSum n fun k => a k * b k).val - ∑ k ∈ range n, (a k).val * (b k).val| ≤
      ((1 + u) ^ (n + 1) - 1) * ∑ k ∈ range n, |(a k).val| * |(b k).val| := by
  induction n with
  | zero => simp [seqSum, Fl.val_zero]
  | succ n ih =>
    rw [sum_range_succ, sum_range_succ]
    simp only [seqSum, Fl.val_add, Fl.val_mul]
    set S := (seqSum n fun k => a k * b k).val
    set T := ∑ k ∈ range n, (a k).val * (b k).val
    set M := ∑ k ∈ range n, |(a k).val| * |(b k).val| with hM
    have hp := h ((a n).val * (b n).val)
    set p := (a n).val * (b n).val with hpdef
    have hab : |(a n).val| * |(b n).val| = |p| := by rw [hpdef, abs_mul]
    rw [hab]
    have hs := h (S + rnd p)
    have hTM : |T| ≤ M := by
      refine (abs_sum_le_sum_abs _ _).trans (le_of_eq ?_)
      exact sum_congr rfl fun k _ => abs_mul _ _
    have hM0 : 0 ≤ M := le_trans (abs_nonneg _) hTM
    have hp0 : 0 ≤ |p| := abs_nonneg _
    set g := (1 + u) ^ (n + 1) - 1 with hg
    have h1 : |S + rnd p - (T + p)| ≤ g * M + u * |p| := by
      have : S + rnd p - (T + p) = (S - T) + (rnd p - p) := by ring
      rw [this]
      exact (abs_add_le _ _).trans (add_le_add ih hp)
    have h2 : |S + rnd p| ≤ M + |p| + (g * M + u * |p|) := by
      have : S + rnd p = (T + p) + (S + rnd p - (T + p)) := by ring
      rw [this]
      refine (abs_add_le _ _).trans (add_le_add ?_ h1)
      exact (abs_add_le _ _).trans (add_le_add hTM le_rfl)
    have h3 : |rnd (S + rnd p) - (T + p)| ≤ u * (M + |p| + (g * M + u * |p|)) + (g * M + u * |p|) := by
      have : rnd (S + rnd p) - (T + p) = (rnd (S + rnd p) - (S + rnd p)) + (S + rnd p - (T + p)) := by ring
      rw [this]
      refine (abs_add_le _ _).trans (add_le_add (hs.trans ?_) h1)
      exact mul_le_mul_of_nonneg_left h2 hu
    refine h3.trans ?_
    have hpow : (1 + u) ^ 2 ≤ (1 + u) ^ (n + 2) := pow_le_pow_right₀ (by linarith) (by omega)
    have e : (1 + u) ^ (n + 1 + 1) = (1 + u) * (g + 1) := by rw [hg]; ring
    have e2 : (1 + u) ^ (n + 2) = (1 + u) * (g + 1) := by rw [hg]; ring
    rw [e]
    rw [e2] at hpow
    nlinarith [mul_le_mul_of_nonneg_right hpow hp0]

/-- C93: every entry of a matrix product computed in rounded arithmetic is within `((1+u)^(l+1) - 1) Σ |a||b|` of the exact
one, `l` being the inner dimension. -/
theorem C93_matmul (hu : 0 ≤ u) (h : RelErr u rnd) {m l n : Nat} (A B : Nat → Nat → Fl rnd) {c : List (Fl rnd)}
    (hc : c.length = m * n) :
    ∃ C : Nat → Nat → Fl rnd,
      Plain.mm (tab [m, l] (fn2 A)) (tab [l, n] (fn2 B)) [m, n] c = .ok (tab [m, n] (fn2 C)).data ∧
      ∀ i j, |(C i j).val - ∑ k ∈ range l, (A i k).val * (B k j).val| ≤
        ((1 + u) ^ (l + 1) - 1) * ∑ k ∈ range l, |(A i k).val| * |(B k j).val| :=
  ⟨_, Plain.mm_run _ _ hc, fun i j => seqSum_error hu h l (fun k => A i k) (fun k => B k j)⟩

/-- C93 for the product with the second factor transposed: the gradient of `matmul` by its first argument. -/
theorem C93_mmt (hu : 0 ≤ u) (h : RelErr u rnd) {m l n : Nat} (A B : Nat → Nat → Fl rnd) {c : List (Fl rnd)}
    (hc : c.length = m * n) :
    ∃ C : Nat → Nat → Fl rnd,
      Plain.mmt (tab [m, l] (fn2 A)) (tab [n, l] (fn2 B)) [m, n] c = .ok (tab [m, n] (fn2 C)).data ∧
      ∀ i j, |(C i j).val - ∑ k ∈ range l, (A i k).val * (B j k).val| ≤
        ((1 + u) ^ (l + 1) - 1) * ∑ k ∈ range l, |(A i k).val| * |(B j k).val| :=
  ⟨_, Plain.mmt_run _ _ hc, fun i j => seqSum_error hu h l (fun k => A i k) (fun k => B j k)⟩

/-- C93 for the product with the first factor transposed: the gradient of `matmul` by its second argument. -/
theorem C93_mtm (hu : 0 ≤ u) (h : RelErr u rnd) {m l n : Nat} (A B : Nat → Nat → Fl rnd) {c : List (Fl rnd)}
    (hc : c.length = m * n) :
    ∃ C : Nat → Nat → Fl rnd,
      Plain.mtm (tab [l, m] (fn2 A)) (tab [l, n] (fn2 B)) [m, n] c = .ok (tab [m, n] (fn2 C)).data ∧
      ∀ i j, |(C i j).val - ∑ k ∈ range l, (A k i).val * (B k j).val| ≤
        ((1 + u) ^ (l + 1) - 1) * ∑ k ∈ range l, |(A k i).val| * |(B k j).val| :=
  ⟨_, Plain.mtm_run _ _ hc, fun i j => seqSum_error hu h l (fun k => A k i) (fun k => B k j)⟩

theorem window_val (H W : Axis) (X : Nat → Nat → Fl rnd) (i j p q : Nat) :
    (window H W X i j p q).val = window H W (fun a b => (X a b).val) i j p q := by
  rw [window_eq, window_eq]
  by_cases c : (H.l ≤ H.pos i p ∧ H.pos i p < H.l + H.n) ∧ (W.l ≤ W.pos j q ∧ W.pos j q < W.l + W.n)
  · rw [if_pos c, if_pos c]
  · rw [if_neg c, if_neg c]; rfl

theorem window_abs (H W : Axis) (X : Nat → Nat → ℝ) (i j p q : Nat) :
    |window H W X i j p q| = window H W (fun a b => |X a b|) i j p q := by
  rw [window_eq, window_eq]
  by_cases c : (H.l ≤ H.pos i p ∧ H.pos i p < H.l + H.n) ∧ (W.l ≤ W.pos j q ∧ W.pos j q < W.l + W.n)
  · rw [if_pos c, if_pos c]
  · rw [if_neg c, if_neg c, abs_zero]

/-- C93: every output of the `nhwc` convolution computed in rounded arithmetic is within `(1+u)^(rsc+1) - 1` times the
convolution of the absolute values of the exact one, `rsc` being the number of taps times the number of channels. -/
theorem C93_conv (hu : 0 ≤ u) (h : RelErr u rnd) {H W : Axis} (hH : AxisOK u32 H) (hW : AxisOK u32 W) {n c d : Nat}
    (hsz : [H.n, W.n, c].prod ≤ 2 ^ 31) (X Y : Nat → Nat → Nat → Nat → Fl rnd) (junkI : Nat → Int) (junk : Nat → Fl rnd)
    {z : List (Fl rnd)} (hz : z.length = [n, H.m, W.m, d].prod) :
    ∃ Z : Nat → Nat → Nat → Nat → Fl rnd,
      Kernels.convNhwc (convTrait H W) junkI junk [n, H.m, W.m, d] (tab [n, H.n, W.n, c] (fn4 X))
          (tab [H.k, W.k, c, d] (fn4 Y)) z = .ok (tab [n, H.m, W.m, d] (fn4 Z)).data ∧
      ∀ b i j e,
        |(Z b i j e).val - conv2 H W c (fun p q k => (X b p q k).val) (fun r s k e => (Y r s k e).val) i j e| ≤
          ((1 + u) ^ (H.k * (W.k * c) + 1) - 1) *
            conv2 H W c (fun p q k => |(X b p q k).val|) (fun r s k e => |(Y r s k e).val|) i j e := by
  refine ⟨_, C91_conv_order hH hW hsz X Y junkI junk hz, fun b i j e => ?_⟩
  have key := seqSum_error hu h (H.k * (W.k * c))
    (fun p => window H W (fun a a' => X b a a' (p % (W.k * c) % c)) i j (p / (W.k * c)) (p % (W.k * c) / c))
    (fun p => Y (p / (W.k * c)) (p % (W.k * c) / c) (p % (W.k * c) % c) e)
  have hP : H.k * (W.k * c) = [H.k, W.k, c].prod := by simp
  have hU : ∀ p, unravel [H.k, W.k, c] p = [p / (W.k * c), p % (W.k * c) / c, p % (W.k * c) % c] := by
    intro p; simp [unravel]
  have s1 : ∑ p ∈ range (H.k * (W.k * c)),
        (window H W (fun a a' => X b a a' (p % (W.k * c) % c)) i j (p / (W.k * c)) (p % (W.k * c) / c)).val *
          (Y (p / (W.k * c)) (p % (W.k * c) / c) (p % (W.k * c) % c) e).val =
      conv2 H W c (fun p q k => (X b p q k).val) (fun r s k e => (Y r s k e).val) i j e := by
    have := sum_unravel3 H.k W.k c (fn3 fun r s k =>
      window H W (fun a a' => (X b a a' k).val) i j r s * (Y r s k e).val)
    simp only [hU, fn3_apply] at this
    rw [hP, conv2, ← this]
    exact sum_congr rfl fun p _ => by rw [window_val]
  have s2 : ∑ p ∈ range (H.k * (W.k * c)),
        |(window H W (fun a a' => X b a a' (p % (W.k * c) % c)) i j (p / (W.k * c)) (p % (W.k * c) / c)).val| *
          |(Y (p / (W.k * c)) (p % (W.k * c) / c) (p % (W.k * c) % c) e).val| =
      conv2 H W c (fun p q k => |(X b p q k).val|) (fun r s k e => |(Y r s k e).val|) i j e := by
    have := sum_unravel3 H.k W.k c (fn3 fun r s k =>
      window H W (fun a a' => |(X b a a' k).val|) i j r s * |(Y r s k e).val|)
    simp only [hU, fn3_apply] at this
    rw [hP, conv2, ← this]
    exact sum_congr rfl fun p _ => by rw [window_val, window_abs]
  rw [s1, s2] at key
  exact key

/-- Chopping to 24 significant bits. -/
noncomputable def chop24 (x : ℝ) : ℝ :=
  ⌊x / (2 : ℝ) ^ (Int.log 2 |x| - 23)⌋ * (2 : ℝ) ^ (Int.log 2 |x| - 23)

theorem chop24_err : RelErr (2 ^ (-23 : ℤ)) chop24 := by
  intro x
  by_cases hx : x = 0
  · subst hx; simp [chop24]
  have hx' : 0 < |x| := abs_pos.2 hx
  have hq : (0 : ℝ) < (2 : ℝ) ^ (Int.log 2 |x| - 23) := zpow_pos (by norm_num) _
  have h1 : (2 : ℝ) ^ (Int.log 2 |x|) ≤ |x| := by exact_mod_cast Int.zpow_log_le_self (by norm_num) hx'
  have h2 : (2 : ℝ) ^ (Int.log 2 |x| - 23) = (2 : ℝ) ^ (-23 : ℤ) * (2 : ℝ) ^ (Int.log 2 |x|) := by
    rw [← zpow_add₀ (by norm_num)]; congr 1; ring
  unfold chop24
  have f1 := Int.floor_le (x / (2 : ℝ) ^ (Int.log 2 |x| - 23))
  have f2 := Int.lt_floor_add_one (x / (2 : ℝ) ^ (Int.log 2 |x| - 23))
  rw [le_div_iff₀ hq] at f1
  rw [div_lt_iff₀ hq] at f2
  rw [abs_le]
  have h3 : (2 : ℝ) ^ (Int.log 2 |x| - 23) ≤ 2 ^ (-23 : ℤ) * |x| := by
    rw [h2]; exact mul_le_mul_of_nonneg_left h1 (zpow_nonneg (by norm_num) _)
  rw [add_mul, one_mul] at f2
  have h4 := zpow_nonneg (show (0 : ℝ) ≤ 2 by norm_num) (-23)
  have h5 := mul_nonneg h4 hx'.le
  clear h1 h2
  generalize (2 : ℝ) ^ (-23 : ℤ) * |x| = w at *
  generalize (⌊x / (2 : ℝ) ^ (Int.log 2 |x| - 23)⌋ : ℝ) * (2 : ℝ) ^ (Int.log 2 |x| - 23) = y at *
  generalize (2 : ℝ) ^ (Int.log 2 |x| - 23) = q at *
  constructor <;> linarith

/-- Non-vacuity of C93: chopping to 24 bits, and the padded geometry of the other examples. -/
example : (0 : ℝ) ≤ 2 ^ (-23 : ℤ) ∧ RelErr (2 ^ (-23 : ℤ)) chop24 ∧ AxisOK u32 exH ∧ AxisOK u32 exW ∧
    [exH.n, exW.n, 2].prod ≤ 2 ^ 31 ∧ ([0, 0, 0, 0, 0, 0] : List (Fl chop24)).length = 2 * 3 :=
  ⟨zpow_nonneg (by norm_num) _, chop24_err, exH_ok, exW_ok, by decide, rfl⟩

/-! ## Concrete cases -/

/-- A real number as a float, for the cases below. -/
def exReal (x : ℝ) : Fl chop24 := x
theorem exU : (0 : ℝ) ≤ 2 ^ (-23 : ℤ) := zpow_nonneg (by norm_num) _
theorem exU1 : (2 : ℝ) ^ (-23 : ℤ) < 1 := by norm_num

example := C93_matmul exU chop24_err (m := 2) (l := 3) (n := 2) (fun i k => exReal ((i : ℝ) + k)) (fun k j => exReal ((k : ℝ) / (j + 1)))
  (c := List.replicate 4 (0 : ℝ)) rfl
example := C93_mmt exU chop24_err (m := 2) (l := 3) (n := 2) (fun i k => exReal ((i : ℝ) + k)) (fun k j => exReal ((k : ℝ) / (j + 1)))
  (c := List.replicate 4 (0 : ℝ)) rfl
example := C93_mtm exU chop24_err (m := 2) (l := 3) (n := 2) (fun i k => exReal ((i : ℝ) + k)) (fun k j => exReal ((k : ℝ) / (j + 1)))
  (c := List.replicate 4 (0 : ℝ)) rfl
example := C93_conv exU chop24_err exH_ok exW_ok (n := 2) (c := 2) (d := 3) (by decide)
  (fun b i j k => exReal ((b : ℝ) + i * j - k / 3)) (fun r s k e => exReal ((r : ℝ) - s + k / (e + 1))) (fun _ => 7) (fun _ => (5 : ℝ))
  (z := List.replicate (2 * exH.m * exW.m * 3) (0 : ℝ)) (by simp [-List.length_replicate]; exact List.length_replicate)

end StdNN
