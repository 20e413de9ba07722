import Verif.Props.Rounding
import Verif.Props.Batch
import Verif.Props.PoolPolicy
import Verif.Props.Extras
import Verif.Props.Summary
import Verif.Props.Utility
/-!
# C119, C120: rounding errors of sums, means and layers
-/
namespace StdNN
open IntTy Spec Outcome Finset Models
variable {u : ℝ} {rnd : ℝ → ℝ}

/-- One more rounding. -/
theorem rnd_close (hu : 0 ≤ u) (h : RelErr u rnd) {x y e M : ℝ} (h1 : |x - y| ≤ e * M) (h2 : |y| ≤ M) :
    |rnd x - y| ≤ ((1 + u) * (1 + e) - 1) * M := by
  have hx : |x| ≤ M + e * M := by
    have : x = y + (x - y) := by ring
    rw [this]
    exact (abs_add_le _ _).trans (add_le_add h2 h1)
  have : rnd x - y = (rnd x - x) + (x - y) := by ring
  rw [this]
  refine (abs_add_le _ _).trans ?_
  have := (h x).trans (mul_le_mul_of_nonneg_left hx hu)
  nlinarith

/-- The rounded sum, in the order of the code. -/
theorem sum_error (hu : 0 ≤ u) (h : RelErr u rnd) (n : Nat) (a : Nat → Fl rnd) :
    |(seqSum n a).val - ∑ k ∈ range n, (a k).val| ≤ ((1 + u) ^ n - 1) * ∑ k ∈ range n, |(a k).val| := by
  induction n with
  | zero => simp [seqSum, Fl.val_zero]
  | succ n ih =>
    rw [sum_range_succ, sum_range_succ, seqSum, Fl.val_add]
    have hg : (0 : ℝ) ≤ (1 + u) ^ n - 1 := by
      have := one_le_pow₀ (by linarith : (1 : ℝ) ≤ 1 + u) (n := n)
      linarith
    have := rnd_close hu h (x := (seqSum n a).val + (a n).val) (y := ∑ k ∈ range n, (a k).val + (a n).val)
      (e := (1 + u) ^ n - 1) (M := ∑ k ∈ range n, |(a k).val| + |(a n).val|) (by
        have e : (seqSum n a).val + (a n).val - (∑ k ∈ range n, (a k).val + (a n).val) =
          (seqSum n a).val - ∑ k ∈ range n, (a k).val := by ring
        rw [e]
        refine ih.trans (mul_le_mul_of_nonneg_left ?_ hg)
        linarith [abs_nonneg (a n).val]) ((abs_add_le _ _).trans (add_le_add (abs_sum_le_sum_abs _ _) le_rfl))
    refine this.trans (le_of_eq ?_)
    ring

/-- Inner product plus bias of inputs that are off by at most `D`. -/
theorem affine_error (hu : 0 ≤ u) (h : RelErr u rnd) (n : Nat) (a b : Nat → Fl rnd) (c : Fl rnd) (a' D : Nat → ℝ)
    (hD : ∀ k < n, |(a k).val - a' k| ≤ D k) :
    |((seqSum n fun k => a k * b k) + c).val - (∑ k ∈ range n, a' k * (b k).val + c.val)| ≤
      ((1 + u) ^ (n + 2) - 1) * (∑ k ∈ range n, |(a k).val| * |(b k).val| + |c.val|) +
        ∑ k ∈ range n, D k * |(b k).val| := by
  have hg : (0 : ℝ) ≤ (1 + u) ^ (n + 1) - 1 := by
    have := one_le_pow₀ (by linarith : (1 : ℝ) ≤ 1 + u) (n := n + 1)
    linarith
  have hs := seqSum_error hu h n a b
  have hc := rnd_close hu h (x := (seqSum n fun k => a k * b k).val + c.val) (y := ∑ k ∈ range n, (a k).val * (b k).val + c.val)
    (e := (1 + u) ^ (n + 1) - 1) (M := ∑ k ∈ range n, |(a k).val| * |(b k).val| + |c.val|) (by
      have e : (seqSum n fun k => a k * b k).val + c.val - (∑ k ∈ range n, (a k).val * (b k).val + c.val) =
        (seqSum n fun k => a k * b k).val - ∑ k ∈ range n, (a k).val * (b k).val := by ring
      rw [e]
      refine hs.trans (mul_le_mul_of_nonneg_left ?_ hg)
      linarith [abs_nonneg c.val]) ((abs_add_le _ _).trans (add_le_add ((abs_sum_le_sum_abs _ _).trans (le_of_eq
        (sum_congr rfl fun k _ => abs_mul _ _))) le_rfl))
  have hd : |∑ k ∈ range n, (a k).val * (b k).val - ∑ k ∈ range n, a' k * (b k).val| ≤ ∑ k ∈ range n, D k * |(b k).val| := by
    rw [← sum_sub_distrib]
    refine (abs_sum_le_sum_abs _ _).trans (sum_le_sum fun k hk => ?_)
    rw [← sub_mul, abs_mul]
    exact mul_le_mul_of_nonneg_right (hD k (mem_range.1 hk)) (abs_nonneg _)
  rw [Fl.val_add]
  have e : rnd ((seqSum n fun k => a k * b k).val + c.val) - (∑ k ∈ range n, a' k * (b k).val + c.val) =
      (rnd ((seqSum n fun k => a k * b k).val + c.val) - (∑ k ∈ range n, (a k).val * (b k).val + c.val)) +
        (∑ k ∈ range n, (a k).val * (b k).val - ∑ k ∈ range n, a' k * (b k).val) := by ring
  rw [e]
  refine (abs_add_le _ _).trans (add_le_add (hc.trans (le_of_eq ?_)) hd)
  ring

/-! ## C119 -/

/-- C119: row sums and column sums computed in rounded arithmetic. -/
theorem C119_sums (hu : 0 ≤ u) (h : RelErr u rnd) {m n : Nat} (X : Nat → Nat → Fl rnd) {y z : List (Fl rnd)}
    (hy : y.length = m) (hz : z.length = n) :
    ∃ R C : Nat → Fl rnd, Kernels.innerContraction (tab [m, n] (fn2 X)) y = .ok ((List.range m).map R) ∧
      Kernels.outerContraction (tab [m, n] (fn2 X)) z = .ok ((List.range n).map C) ∧
      (∀ i, |(R i).val - ∑ j ∈ range n, (X i j).val| ≤ ((1 + u) ^ n - 1) * ∑ j ∈ range n, |(X i j).val|) ∧
      ∀ j, |(C j).val - ∑ i ∈ range m, (X i j).val| ≤ ((1 + u) ^ m - 1) * ∑ i ∈ range m, |(X i j).val| := by
  obtain ⟨e1, e2⟩ := C113_contractions X hy hz
  refine ⟨_, _, e1, e2, fun i => ?_, fun j => ?_⟩
  · rw [seqSum_eq_foldl]; exact sum_error hu h n _
  · rw [seqSum_eq_foldl]; exact sum_error hu h m _

/-- Division of a rounded number by a count, with relative error at most `v` (that of converting the count included). -/
def DivErr (v : ℝ) (divn : Fl rnd → Nat → Fl rnd) : Prop :=
  ∀ s n, 0 < n → |(divn s n).val - s.val / n| ≤ v * |s.val / n|

theorem div_close {v : ℝ} (hv : 0 ≤ v) {divn : Fl rnd → Nat → Fl rnd} (hd : DivErr v divn) {n : Nat} (hn : 1 ≤ n) {s : Fl rnd}
    {T M g : ℝ} (hs : |s.val - T| ≤ (g - 1) * M) (hTM : |T| ≤ M) :
    |(divn s n).val - T / n| ≤ ((1 + v) * g - 1) * (M / n) := by
  have hn' : (0 : ℝ) < n := by exact_mod_cast hn
  have h1 : |s.val / n - T / n| ≤ (g - 1) * (M / n) := by
    rw [← sub_div, abs_div, abs_of_pos hn', ← mul_div_assoc]
    exact (div_le_div_iff_of_pos_right hn').2 hs
  have h2 : |T / n| ≤ M / n := by
    rw [abs_div, abs_of_pos hn']
    exact (div_le_div_iff_of_pos_right hn').2 hTM
  have h4 : |s.val / n| ≤ M / n + (g - 1) * (M / n) := by
    have : s.val / n = T / n + (s.val / n - T / n) := by ring
    rw [this]
    exact (abs_add_le _ _).trans (add_le_add h2 h1)
  have e : (divn s n).val - T / n = ((divn s n).val - s.val / n) + (s.val / n - T / n) := by ring
  rw [e]
  refine (abs_add_le _ _).trans ?_
  calc _ ≤ v * (M / n + (g - 1) * (M / n)) + (g - 1) * (M / n) :=
        add_le_add ((hd s n (by omega)).trans (mul_le_mul_of_nonneg_left h4 hv)) h1
    _ = _ := by ring

/-- C119: the means of the rows of a matrix computed in rounded arithmetic. -/
theorem C119_means (hu : 0 ≤ u) (h : RelErr u rnd) {v : ℝ} (hv : 0 ≤ v) {divn : Fl rnd → Nat → Fl rnd} (hd : DivErr v divn)
    {rows n : Nat} (hn : 1 ≤ n) (X : Nat → Nat → Fl rnd) {y : List (Fl rnd)} (hy : y.length = rows) :
    ∃ M : Nat → Fl rnd,
      Ops.mean (Ops.Summaries.mean divn) rows n (tab [rows, n] (fn2 X)).data y = .ok ((List.range rows).map M) ∧
      ∀ i, |(M i).val - (∑ j ∈ range n, (X i j).val) / n| ≤
        ((1 + v) * (1 + u) ^ n - 1) * ((∑ j ∈ range n, |(X i j).val|) / n) :=
  ⟨_, C82_mean divn X hy, fun _ => div_close hv hd hn (sum_error hu h n _) (abs_sum_le_sum_abs _ _)⟩

theorem list_error (hu : 0 ≤ u) (h : RelErr u rnd) (l : List (Fl rnd)) :
    |(l.foldl (· + ·) 0).val - (l.map Fl.val).sum| ≤ ((1 + u) ^ l.length - 1) * (l.map fun x => |x.val|).sum := by
  induction l using List.reverseRecOn with
  | nil => simp [Fl.val_zero]
  | append_singleton l x ih =>
    rw [List.foldl_append, List.map_append, List.sum_append, List.map_append, List.sum_append, List.length_append]
    simp only [List.foldl_cons, List.foldl_nil, List.map_cons, List.map_nil, List.sum_cons, List.sum_nil, add_zero,
      List.length_cons, List.length_nil, Nat.zero_add]
    have hg : (0 : ℝ) ≤ (1 + u) ^ l.length - 1 := by
      have := one_le_pow₀ (by linarith : (1 : ℝ) ≤ 1 + u) (n := l.length)
      linarith
    have hm : |(l.map Fl.val).sum| ≤ (l.map fun x => |x.val|).sum := by
      clear ih hg
      induction l with
      | nil => simp
      | cons a l ih => simpa using (abs_add_le _ _).trans (add_le_add le_rfl ih)
    rw [Fl.val_add]
    refine (rnd_close hu h (e := (1 + u) ^ l.length - 1) (M := (l.map fun x => |x.val|).sum + |x.val|) ?_
      ((abs_add_le _ _).trans (add_le_add hm le_rfl))).trans (le_of_eq (by ring))
    rw [add_sub_add_right_eq_sub]
    refine ih.trans (mul_le_mul_of_nonneg_left ?_ hg)
    linarith [abs_nonneg x.val]

/-- C119: mean pooling layers without padding in front, in rounded arithmetic, both layouts: the error is relative to the mean
of the absolute values under the window. -/
theorem C119_pool (hu : 0 ≤ u) (h : RelErr u rnd) {v : ℝ} (hv : 0 ≤ v) {divn : Fl rnd → Nat → Fl rnd} (hd : DivErr v divn)
    (junk : Nat → Fl rnd) {H W : Axis} (hH : AxisOK u32 H) (hW : AxisOK u32 W) {t : PoolLayer} (ht : PoolHasAxes t H W)
    (lH : H.l = 0) (lW : W.l = 0) (hk : H.k * W.k < 2 ^ 32) {n c : Nat} (X : Nat → Nat → Nat → Nat → Fl rnd) :
    ∃ Z : Nat → Nat → Nat → Nat → Fl rnd,
      Layers.pool .nhwc junk (Acc.mean divn) t (tab [n, H.n, W.n, c] (fn4 X)) = ⟨1, .ok ⟨tab [n, H.m, W.m, c] (fn4 Z), []⟩⟩ ∧
      Layers.pool .nchw junk (Acc.mean divn) t (tab [n, c, H.n, W.n] (fn4 fun b k i j => X b i j k)) =
        ⟨1, .ok ⟨tab [n, c, H.m, W.m] (fn4 fun b k i j => Z b i j k), []⟩⟩ ∧
      ∀ b i j k, (win H W i j).Nonempty →
        |(Z b i j k).val - (∑ p ∈ win H W i j, (X b p.1 p.2 k).val) / (win H W i j).card| ≤
          ((1 + v) * (1 + u) ^ (win H W i j).card - 1) * ((∑ p ∈ win H W i j, |(X b p.1 p.2 k).val|) / (win H W i j).card) := by
  have hl : ∀ b i j k, (pixels H W (fun a a' => X b a a' k) i j).length = (win H W i j).card := fun b i j k =>
    pixels_length hH.fits.r1 hW.fits.r1 _ i j
  have hm : ∀ (f : Fl rnd → ℝ) b i j k, ((pixels H W (fun a a' => X b a a' k) i j).map f).sum =
      ∑ p ∈ win H W i j, f (X b p.1 p.2 k) := fun f b i j k => by
    rw [← pixels_map H W (fun a a' => X b a a' k) f]
    exact pixels_sum hH.fits.r1 hW.fits.r1 _ i j
  obtain ⟨r1, r2⟩ := poolLayer_gen junk (Acc.mean divn) (n := n) (c := c) hH hW ht X (fun b i j k =>
    divn ((pixels H W (fun a a' => X b a a' k) i j).foldl (· + ·) 0) (win H W i j).card) (fun b _ i _ j _ k _ => by
      rw [shifted_self lH, shifted_self lW]
      have hc := win_card_le hH.fits.r1 hW.fits.r1 i j
      rw [mean_run _ _ (by rw [hl]; omega), hl])
  refine ⟨_, r1, r2, fun b i j k hne => ?_⟩
  have := list_error hu h (pixels H W (fun a a' => X b a a' k) i j)
  rw [hl, hm, hm fun x => |x.val|] at this
  exact div_close hv hd hne.card_pos this (abs_sum_le_sum_abs _ _)

/-! ## C120 -/

/-- The rounded activation `f` moves no further away from the exact activation `g` than the input already is. -/
def Keeps (f : Fl rnd → Fl rnd) (g : ℝ → ℝ) : Prop := ∀ a b, |(f a).val - g b| ≤ |a.val - b|

theorem id_keeps : Keeps (id : Fl rnd → Fl rnd) id := fun _ _ => le_rfl

theorem relu_keeps : Keeps (fun a : Fl rnd => if 0 < a then a else 0) (max 0) := fun a b => by
  have e : (if 0 < a then a else 0 : Fl rnd).val = max 0 a.val := by
    by_cases h : 0 < a
    · rw [if_pos h]
      exact (max_eq_right (le_of_lt h : (0 : ℝ) ≤ a.val)).symm
    · rw [if_neg h, Fl.val_zero]
      exact (max_eq_left (le_of_not_gt h : a.val ≤ (0 : ℝ))).symm
  show |(if 0 < a then a else 0 : Fl rnd).val - max 0 b| ≤ _
  rw [e]
  rw [max_comm 0, max_comm 0]
  exact abs_max_sub_max_le_abs _ _ _

/-- On tensors of shape `ds` the layer `f` computes `G` up to the error `E`: if the input differs from `X` by at most `D`, the
output has the shape `es` and differs from `G X` by at most `E X D`, index by index. -/
def Accurate (f : LayerFn (Fl rnd)) (ds es : List Nat) (G : (List Nat → ℝ) → List Nat → ℝ)
    (E : (List Nat → ℝ) → (List Nat → ℝ) → List Nat → ℝ) : Prop :=
  ∀ A : List Nat → Fl rnd, ∃ Y : List Nat → Fl rnd, Gives f (tab ds A) (tab es Y) ∧
    ∀ X D : List Nat → ℝ, (∀ i, Valid ds i → |(A i).val - X i| ≤ D i) → ∀ i, Valid es i → |(Y i).val - G X i| ≤ E X D i

/-- C120 (networks): errors compose along a network. -/
theorem C120_compose {f g : LayerFn (Fl rnd)} {ds es fs : List Nat} {G G' : (List Nat → ℝ) → List Nat → ℝ}
    {E E' : (List Nat → ℝ) → (List Nat → ℝ) → List Nat → ℝ} (hf : Accurate f ds es G E) (hg : Accurate g es fs G' E') :
    Accurate (composed f g) ds fs (fun X => G' (G X)) (fun X D => E' (G X) (E X D)) := fun A => by
  obtain ⟨Y, y1, y2⟩ := hf A
  obtain ⟨Z, z1, z2⟩ := hg Y
  exact ⟨Z, y1.comp z1, fun X D h => z2 _ _ (y2 X D h)⟩

theorem affine_apriori (hu : 0 ≤ u) (h : RelErr u rnd) (n : Nat) (a b : Nat → Fl rnd) (c : Fl rnd) (a' D : Nat → ℝ)
    (hD : ∀ k < n, |(a k).val - a' k| ≤ D k) :
    |((seqSum n fun k => a k * b k) + c).val - (∑ k ∈ range n, a' k * (b k).val + c.val)| ≤
      ((1 + u) ^ (n + 2) - 1) * (∑ k ∈ range n, (|a' k| + D k) * |(b k).val| + |c.val|) +
        ∑ k ∈ range n, D k * |(b k).val| := by
  have hg : (0 : ℝ) ≤ (1 + u) ^ (n + 2) - 1 := by
    have := one_le_pow₀ (by linarith : (1 : ℝ) ≤ 1 + u) (n := n + 2)
    linarith
  refine (affine_error hu h n a b c a' D hD).trans (add_le_add (mul_le_mul_of_nonneg_left (add_le_add
    (sum_le_sum fun k hk => mul_le_mul_of_nonneg_right ?_ (abs_nonneg _)) le_rfl) hg) le_rfl)
  have e : (a k).val = a' k + ((a k).val - a' k) := by ring
  rw [e]
  exact (abs_add_le _ _).trans (add_le_add le_rfl (hD k (mem_range.1 hk)))

/-- C120: a dense layer. -/
theorem C120_dense (hu : 0 ≤ u) (h : RelErr u rnd) (junkW junkY junkB : Nat → Fl rnd) {act : Act (Fl rnd)}
    {f : Fl rnd → Fl rnd} {g : ℝ → ℝ} (hact : ActsAs act f) (hf : Keeps f g) {m k : Nat} (hk : k < 2 ^ 32)
    (W : Nat → Nat → Fl rnd) (B : Nat → Fl rnd) {wInit bInit : Init (Fl rnd)}
    (hw : wInit [m, k] (fresh junkW [m, k].prod) = .ok (tab [m, k] (fn2 W)).data)
    (hb : bInit [k] (fresh junkB [k].prod) = .ok (tab [k] (fn1 B)).data) (n : Nat) :
    Accurate (fun x => Layers.dense junkW junkY junkB act k x wInit bInit) [n, m] [n, k]
      (fun X => fn2 fun i j => g (∑ l ∈ range m, X [i, l] * (W l j).val + (B j).val))
      (fun X D => fn2 fun i j => ((1 + u) ^ (m + 2) - 1) * (∑ l ∈ range m, (|X [i, l]| + D [i, l]) * |(W l j).val| + |(B j).val|) +
        ∑ l ∈ range m, D [i, l] * |(W l j).val|) := fun A => by
  have eA : tab [n, m] A = tab [n, m] (fn2 fun i l => A [i, l]) := tab_congr fun idx hv => by
    match idx, hv with
    | [i, l], _ => rfl
  refine ⟨fn2 fun i j => f ((seqSum m fun l => A [i, l] * W l j) + B j), ?_, fun X D hX idx hv => ?_⟩
  · rw [eA]
    exact Gives.of (C77_dense junkW junkY junkB hact hk _ W B hw hb) rfl rfl
  · match idx, hv with
    | [i, j], hv =>
      exact (hf _ _).trans (affine_apriori hu h m (fun l => A [i, l]) (fun l => W l j) (B j) (fun l => X [i, l])
        (fun l => D [i, l]) fun l hl => hX _ ⟨hv.1, hl, trivial⟩)

theorem conv2_flat {R : Type} [Semiring R] (H W : Axis) (c : Nat) (X : Nat → Nat → Nat → R) (Y : Nat → Nat → Nat → Nat → R)
    (i j e : Nat) :
    ∑ p ∈ range (H.k * (W.k * c)),
        window H W (fun a a' => X a a' (p % (W.k * c) % c)) i j (p / (W.k * c)) (p % (W.k * c) / c) *
          Y (p / (W.k * c)) (p % (W.k * c) / c) (p % (W.k * c) % c) e = conv2 H W c X Y i j e := by
  have := sum_unravel3 H.k W.k c (fn3 fun r s k => window H W (fun a a' => X a a' k) i j r s * Y r s k e)
  have hP : H.k * (W.k * c) = [H.k, W.k, c].prod := by simp
  have hU : ∀ p, unravel [H.k, W.k, c] p = [p / (W.k * c), p % (W.k * c) / c, p % (W.k * c) % c] := by
    intro p; simp [unravel]
  simp only [hU, fn3_apply] at this
  rw [hP, conv2, ← this]

theorem conv2_flat_nchw {R : Type} [Semiring R] (H W : Axis) (c : Nat) (X : Nat → Nat → Nat → R) (Y : Nat → Nat → Nat → Nat → R)
    (i j e : Nat) :
    ∑ p ∈ range (c * (H.k * W.k)),
        window H W (fun a a' => X a a' (p / (H.k * W.k))) i j (p % (H.k * W.k) / W.k) (p % (H.k * W.k) % W.k) *
          Y (p % (H.k * W.k) / W.k) (p % (H.k * W.k) % W.k) (p / (H.k * W.k)) e = conv2 H W c X Y i j e := by
  have := sum_unravel3 c H.k W.k (fn3 fun k r s => window H W (fun a a' => X a a' k) i j r s * Y r s k e)
  have hP : c * (H.k * W.k) = [c, H.k, W.k].prod := by simp
  have hU : ∀ p, unravel [c, H.k, W.k] p = [p / (H.k * W.k), p % (H.k * W.k) / W.k, p % (H.k * W.k) % W.k] := by
    intro p; simp [unravel]
  simp only [hU, fn3_apply] at this
  rw [hP, this, conv2, sum_comm]
  exact sum_congr rfl fun r _ => sum_comm

theorem window_plus (H W : Axis) (X D : Nat → Nat → ℝ) (i j p q : Nat) :
    window H W X i j p q + window H W D i j p q = window H W (fun a b => X a b + D a b) i j p q := by
  rw [window_eq, window_eq, window_eq]
  by_cases c : (H.l ≤ H.pos i p ∧ H.pos i p < H.l + H.n) ∧ (W.l ≤ W.pos j q ∧ W.pos j q < W.l + W.n)
  · rw [if_pos c, if_pos c, if_pos c]
  · rw [if_neg c, if_neg c, if_neg c, add_zero]

/-- The windows of two images that are close. -/
theorem window_close {H W : Axis} {A : Nat → Nat → Fl rnd} {X D : Nat → Nat → ℝ} 
    (h : ∀ a < H.n, ∀ a' < W.n, |(A a a').val - X a a'| ≤ D a a') (i j p q : Nat) :
    |(window H W A i j p q).val - window H W X i j p q| ≤ window H W D i j p q := by
  rw [window_eq, window_eq, window_eq]
  by_cases c : (H.l ≤ H.pos i p ∧ H.pos i p < H.l + H.n) ∧ (W.l ≤ W.pos j q ∧ W.pos j q < W.l + W.n)
  · rw [if_pos c, if_pos c, if_pos c]
    exact h _ (by omega) _ (by omega)
  · rw [if_neg c, if_neg c, if_neg c, Fl.val_zero]
    simp

/-- C120: a convolution layer, `nhwc`. -/
theorem C120_conv_nhwc (hu : 0 ≤ u) (h : RelErr u rnd) (junkW junkY junkB : Nat → Fl rnd) (junkI : Nat → Int)
    (junk : Nat → Fl rnd) {act : Act (Fl rnd)} {f : Fl rnd → Fl rnd} {g : ℝ → ℝ} (hact : ActsAs act f) (hf : Keeps f g)
    {H W : Axis} (hH : AxisOK u32 H) (hW : AxisOK u32 W) {t : ConvLayer} (ht : HasAxes t H W) {c : Nat}
    (hsz : [H.n, W.n, c].prod ≤ 2 ^ 31) (Y : Nat → Nat → Nat → Nat → Fl rnd) (B : Nat → Fl rnd) {wInit bInit : Init (Fl rnd)}
    (hw : wInit [H.k, W.k, c, t.filters] (fresh junkW [H.k, W.k, c, t.filters].prod) =
      .ok (tab [H.k, W.k, c, t.filters] (fn4 Y)).data)
    (hb : bInit [t.filters] (fresh junkB [t.filters].prod) = .ok (tab [t.filters] (fn1 B)).data) (n : Nat) :
    Accurate (fun x => Layers.conv .nhwc .rscd junkW junkY junkB junkI junk act t x wInit bInit)
      [n, H.n, W.n, c] [n, H.m, W.m, t.filters]
      (fun X => fn4 fun b i j e => g (conv2 H W c (fun p q k => X [b, p, q, k]) (fun r s k e => (Y r s k e).val) i j e + (B e).val))
      (fun X D => fn4 fun b i j e => ((1 + u) ^ (H.k * (W.k * c) + 2) - 1) *
          (conv2 H W c (fun p q k => |X [b, p, q, k]| + D [b, p, q, k]) (fun r s k e => |(Y r s k e).val|) i j e + |(B e).val|) +
        conv2 H W c (fun p q k => D [b, p, q, k]) (fun r s k e => |(Y r s k e).val|) i j e) := fun A => by
  have eA : tab [n, H.n, W.n, c] A = tab [n, H.n, W.n, c] (fn4 fun b i j k => A [b, i, j, k]) := tab_congr fun idx hv => by
    match idx, hv with
    | [b, i, j, k], _ => rfl
  refine ⟨fn4 fun b i j e => f ((seqSum (H.k * (W.k * c)) fun p =>
    window H W (fun a a' => A [b, a, a', p % (W.k * c) % c]) i j (p / (W.k * c)) (p % (W.k * c) / c) *
      Y (p / (W.k * c)) (p % (W.k * c) / c) (p % (W.k * c) % c) e) + B e), ?_, fun X D hX idx hv => ?_⟩
  · rw [eA]
    exact Gives.of (conv_layer_nhwc junkW junkY junkB junkI junk hact hH hW ht _ Y _ B
      (fun z hz => C91_conv_order hH hW hsz _ Y junkI junk hz) hw hb) rfl rfl
  · match idx, hv with
    | [b, i, j, e], hv =>
      refine (hf _ _).trans ?_
      have key := affine_apriori hu h (H.k * (W.k * c))
        (fun p => window H W (fun a a' => A [b, a, a', p % (W.k * c) % c]) i j (p / (W.k * c)) (p % (W.k * c) / c))
        (fun p => Y (p / (W.k * c)) (p % (W.k * c) / c) (p % (W.k * c) % c) e) (B e)
        (fun p => window H W (fun a a' => X [b, a, a', p % (W.k * c) % c]) i j (p / (W.k * c)) (p % (W.k * c) / c))
        (fun p => window H W (fun a a' => D [b, a, a', p % (W.k * c) % c]) i j (p / (W.k * c)) (p % (W.k * c) / c))
        (fun p hp => window_close (fun a ha a' ha' => hX [b, a, a', p % (W.k * c) % c] ⟨hv.1, ha, ha', Nat.mod_lt _ (by
          rcases Nat.eq_zero_or_pos c with rfl | hc
          · simp at hp
          · exact hc), trivial⟩) i j _ _)
      simp only [window_abs, window_plus] at key
      rw [conv2_flat H W c (fun p q k => X [b, p, q, k]) (fun r s k e => (Y r s k e).val) i j e,
        conv2_flat H W c (fun p q k => D [b, p, q, k]) (fun r s k e => |(Y r s k e).val|) i j e,
        conv2_flat H W c (fun p q k => |X [b, p, q, k]| + D [b, p, q, k]) (fun r s k e => |(Y r s k e).val|) i j e] at key
      exact key

/-- C120: a convolution layer, `nchw`. -/
theorem C120_conv_nchw (hu : 0 ≤ u) (h : RelErr u rnd) (junkW junkY junkB : Nat → Fl rnd) (junkI : Nat → Int)
    (junk : Nat → Fl rnd) {act : Act (Fl rnd)} {f : Fl rnd → Fl rnd} {g : ℝ → ℝ} (hact : ActsAs act f) (hf : Keeps f g)
    {H W : Axis} (hH : AxisOK u32 H) (hW : AxisOK u32 W) {t : ConvLayer} (ht : HasAxes t H W) {c : Nat}
    (Y : Nat → Nat → Nat → Nat → Fl rnd) (B : Nat → Fl rnd) {wInit bInit : Init (Fl rnd)}
    (hw : wInit [t.filters, c, H.k, W.k] (fresh junkW [t.filters, c, H.k, W.k].prod) =
      .ok (tab [t.filters, c, H.k, W.k] (fn4 Y)).data)
    (hb : bInit [t.filters] (fresh junkB [t.filters].prod) = .ok (tab [t.filters] (fn1 B)).data) (n : Nat) :
    Accurate (fun x => Layers.conv .nchw .dcrs junkW junkY junkB junkI junk act t x wInit bInit)
      [n, c, H.n, W.n] [n, t.filters, H.m, W.m]
      (fun X => fn4 fun b e i j => g (conv2 H W c (fun p q k => X [b, k, p, q]) (fun r s k e => (Y e k r s).val) i j e + (B e).val))
      (fun X D => fn4 fun b e i j => ((1 + u) ^ (c * (H.k * W.k) + 2) - 1) *
          (conv2 H W c (fun p q k => |X [b, k, p, q]| + D [b, k, p, q]) (fun r s k e => |(Y e k r s).val|) i j e + |(B e).val|) +
        conv2 H W c (fun p q k => D [b, k, p, q]) (fun r s k e => |(Y e k r s).val|) i j e) := fun A => by
  have eA : tab [n, c, H.n, W.n] A = tab [n, c, H.n, W.n] (fn4 fun b k i j => A [b, k, i, j]) := tab_congr fun idx hv => by
    match idx, hv with
    | [b, i, j, k], _ => rfl
  refine ⟨fn4 fun b e i j => f ((seqSum (c * (H.k * W.k)) fun p =>
    Y e (p / (H.k * W.k)) (p % (H.k * W.k) / W.k) (p % (H.k * W.k) % W.k) *
    window H W (fun a a' => A [b, p / (H.k * W.k), a, a']) i j (p % (H.k * W.k) / W.k) (p % (H.k * W.k) % W.k)) + B e),
      ?_, fun X D hX idx hv => ?_⟩
  · rw [eA]
    exact Gives.of (conv_layer_nchw junkW junkY junkB junkI junk hact hH hW ht _ Y _ B
      (fun z hz => C91_conv_order_nchw hH hW _ Y junk hz) hw hb) rfl rfl
  · match idx, hv with
    | [b, e, i, j], hv =>
      refine (hf _ _).trans ?_
      have key := affine_apriori hu h (c * (H.k * W.k))
        (fun p => window H W (fun a a' => A [b, p / (H.k * W.k), a, a']) i j (p % (H.k * W.k) / W.k) (p % (H.k * W.k) % W.k))
        (fun p => Y e (p / (H.k * W.k)) (p % (H.k * W.k) / W.k) (p % (H.k * W.k) % W.k)) (B e)
        (fun p => window H W (fun a a' => X [b, p / (H.k * W.k), a, a']) i j (p % (H.k * W.k) / W.k) (p % (H.k * W.k) % W.k))
        (fun p => window H W (fun a a' => D [b, p / (H.k * W.k), a, a']) i j (p % (H.k * W.k) / W.k) (p % (H.k * W.k) % W.k))
        (fun p hp => window_close (fun a ha a' ha' => hX [b, p / (H.k * W.k), a, a'] ⟨hv.1, Nat.div_lt_of_lt_mul (by rwa [Nat.mul_comm] at hp), ha, ha',
          trivial⟩) i j _ _)
      simp only [window_abs, window_plus] at key
      rw [conv2_flat_nchw H W c (fun p q k => X [b, k, p, q]) (fun r s k e => (Y e k r s).val) i j e,
        conv2_flat_nchw H W c (fun p q k => D [b, k, p, q]) (fun r s k e => |(Y e k r s).val|) i j e,
        conv2_flat_nchw H W c (fun p q k => |X [b, k, p, q]| + D [b, k, p, q]) (fun r s k e => |(Y e k r s).val|) i j e] at key
      have comm : ∀ a b : Fl rnd, a * b = b * a := fun a b => congrArg rnd (mul_comm a.val b.val)
      rw [funext fun p => comm (window H W _ i j _ _) (Y e (p / _) _ _)] at key
      exact key

/-- The greatest value at the points of `s`, not below `low`. -/
noncomputable def topOf {ι : Type} (low : ℝ) (s : Finset ι) (f : ι → ℝ) : ℝ := s.fold max low f

theorem topOf_close {ι : Type} (low : ℝ) (s : Finset ι) {f g e : ι → ℝ} (h : ∀ p ∈ s, |f p - g p| ≤ e p) :
    |topOf low s f - topOf low s g| ≤ topOf 0 s e := by
  classical
  unfold topOf
  induction s using Finset.induction_on with
  | empty => simp
  | insert a s ha ih =>
    rw [fold_insert ha, fold_insert ha, fold_insert ha]
    exact (abs_max_sub_max_le_max _ _ _ _).trans (max_le_max (h a (mem_insert_self _ _))
      (ih fun p hp => h p (mem_insert_of_mem hp)))

theorem pixels_top {lowest : Fl rnd} (H W : Axis) (X : Nat → Nat → Fl rnd) (i j : Nat) :
    ((pixels H W X i j).foldl (fun v x => if x > v then x else v) lowest).val =
      topOf lowest.val (win H W i j) fun p => (X p.1 p.2).val := by
  obtain ⟨h1, h2, h3⟩ := fold_max (pixels H W X i j) lowest
  have hw : ∀ a b, Under H W i j a b → (a, b) ∈ win H W i j := fun a b hu => by
    simp only [win, mem_filter, mem_product, mem_range]
    exact ⟨Under_lt hu, hu⟩
  unfold topOf
  apply le_antisymm
  · refine le_fold_max _ |>.2 ?_
    rcases h3 with h3 | h3
    · exact Or.inl (le_of_eq (congrArg Fl.val h3))
    · obtain ⟨a, b, hu, e⟩ := mem_pixels.1 h3
      exact Or.inr ⟨(a, b), hw a b hu, le_of_eq (congrArg Fl.val e)⟩
  · refine fold_max_le _ |>.2 ⟨h1, fun p hp => ?_⟩
    exact h2 _ (mem_pixels.2 ⟨p.1, p.2, (mem_filter.1 hp).2, rfl⟩)

/-- C120: max pooling layers, `nhwc`. No rounding happens; errors of the input do not grow. -/
theorem C120_max_pool_nhwc (junk : Nat → Fl rnd) (lowest : Fl rnd) {H W : Axis} (hH : AxisOK u32 H) (hW : AxisOK u32 W)
    {t : PoolLayer} (ht : PoolHasAxes t H W) (lH : H.l = 0) (lW : W.l = 0) (n c : Nat) :
    Accurate (Layers.pool .nhwc junk (Acc.max lowest) t) [n, H.n, W.n, c] [n, H.m, W.m, c]
      (fun X => fn4 fun b i j k => topOf lowest.val (win H W i j) fun p => X [b, p.1, p.2, k])
      (fun _ D => fn4 fun b i j k => topOf 0 (win H W i j) fun p => D [b, p.1, p.2, k]) := fun A => by
  have eA : tab [n, H.n, W.n, c] A = tab [n, H.n, W.n, c] (fn4 fun b i j k => A [b, i, j, k]) := tab_congr fun idx hv => by
    match idx, hv with
    | [b, i, j, k], _ => rfl
  refine ⟨fn4 fun b i j k => (pixels H W (fun a a' => A [b, a, a', k]) i j).foldl (fun v x => if x > v then x else v) lowest,
    ?_, fun X D hX idx hv => ?_⟩
  · rw [eA]
    exact Gives.of (poolLayer_gen junk (Acc.max lowest) hH hW ht (fun b i j k => A [b, i, j, k]) _ (fun b _ i _ j _ k _ => by
      rw [shifted_self lH, shifted_self lW]; exact max_run lowest _)).1 rfl rfl
  · match idx, hv with
    | [b, i, j, k], hv =>
      simp only [fn4_apply]
      rw [pixels_top]
      refine topOf_close _ _ fun p hp => hX _ ?_
      have := Under_lt (mem_filter.1 hp).2
      exact ⟨hv.1, this.1, this.2, hv.2.2.2.1, trivial⟩

/-- C120: max pooling layers, `nchw`. -/
theorem C120_max_pool_nchw (junk : Nat → Fl rnd) (lowest : Fl rnd) {H W : Axis} (hH : AxisOK u32 H) (hW : AxisOK u32 W)
    {t : PoolLayer} (ht : PoolHasAxes t H W) (lH : H.l = 0) (lW : W.l = 0) (n c : Nat) :
    Accurate (Layers.pool .nchw junk (Acc.max lowest) t) [n, c, H.n, W.n] [n, c, H.m, W.m]
      (fun X => fn4 fun b k i j => topOf lowest.val (win H W i j) fun p => X [b, k, p.1, p.2])
      (fun _ D => fn4 fun b k i j => topOf 0 (win H W i j) fun p => D [b, k, p.1, p.2]) := fun A => by
  have eA : tab [n, c, H.n, W.n] A = tab [n, c, H.n, W.n] (fn4 fun b k i j => A [b, k, i, j]) := tab_congr fun idx hv => by
    match idx, hv with
    | [b, i, j, k], _ => rfl
  refine ⟨fn4 fun b k i j => (pixels H W (fun a a' => A [b, k, a, a']) i j).foldl (fun v x => if x > v then x else v) lowest,
    ?_, fun X D hX idx hv => ?_⟩
  · rw [eA]
    exact Gives.of (poolLayer_gen junk (Acc.max lowest) hH hW ht (fun b i j k => A [b, k, i, j])
      (fun b i j k => (pixels H W (fun a a' => A [b, k, a, a']) i j).foldl (fun v x => if x > v then x else v) lowest)
      (fun b _ i _ j _ k _ => by
        rw [shifted_self lH, shifted_self lW]; exact max_run lowest _)).2 rfl rfl
  · match idx, hv with
    | [b, k, i, j], hv =>
      simp only [fn4_apply]
      rw [pixels_top]
      refine topOf_close _ _ fun p hp => hX _ ?_
      have := Under_lt (mem_filter.1 hp).2
      exact ⟨hv.1, hv.2.1, this.1, this.2, trivial⟩

/-- C120 (decision): if in every row the exact value of class `cls i` exceeds every other one by more than twice the error of
the row, `argmax` of the computed rows is `cls`. -/
theorem C120_argmax (t : IntTy) {rows k : Nat} (X : Nat → Nat → Fl rnd) (X' : Nat → Nat → ℝ) (e : Nat → ℝ)
    (hX : ∀ i < rows, ∀ j < k, |(X i j).val - X' i j| ≤ e i) {cls : Nat → Nat} (hc : ∀ i < rows, cls i < k)
    (hm : ∀ i < rows, ∀ j < k, j ≠ cls i → X' i j + 2 * e i < X' i (cls i)) {y : List Int} (hy : y.length = rows) :
    Kernels.argmax t k (tab [rows, k] (fn2 X)).data y = .ok ((List.range rows).map fun i => t.conv (cls i)) := by
  rcases Nat.eq_zero_or_pos rows with rfl | hr
  · rw [List.length_eq_zero_iff.1 hy]
    rfl
  · have hk : 1 ≤ k := by have := hc 0 hr; omega
    obtain ⟨a, ea, ha⟩ := C57_argmax t hk X hy
    rw [ea]
    refine congrArg Outcome.ok (List.map_congr_left fun i hi => ?_)
    have hi' : i < rows := by simpa using hi
    obtain ⟨h1, h2, -⟩ := ha i hi'
    have : a i = cls i := by
      by_contra hne
      have m := hm i hi' _ h1 hne
      have l := (Fl.val_le _ _).1 (h2 (cls i) (hc i hi'))
      have p := abs_le.1 (hX i hi' _ h1)
      have q := abs_le.1 (hX i hi' _ (hc i hi'))
      linarith [p.1, p.2, q.1, q.2]
    rw [this]

/-! ## Examples -/

/-- Division by a count, rounded. -/
noncomputable def chopDiv (s : Fl chop24) (n : Nat) : Fl chop24 := chop24 (s.val / n)

/-- Non-vacuity of C119: truncation to 24 bits; a 3 × 2 matrix; a pooling layer with 3 × 2 windows on 5 × 3 images. -/
example : (0 : ℝ) ≤ 2 ^ (-23 : ℤ) ∧ RelErr (2 ^ (-23 : ℤ)) chop24 ∧ DivErr (2 ^ (-23 : ℤ)) chopDiv ∧
    ([0, 0, 0] : List (Fl chop24)).length = 3 ∧ ([0, 0] : List (Fl chop24)).length = 2 ∧
    PoolHasAxes (PoolLayer.make (3, 2) (Sample.paddingValid u32) (2, 1)) ⟨3, 2, 1, 0, 0, 5, 2⟩ ⟨2, 1, 1, 0, 0, 3, 2⟩ ∧
    3 * 2 < 2 ^ 32 ∧ (win ⟨3, 2, 1, 0, 0, 5, 2⟩ ⟨2, 1, 1, 0, 0, 3, 2⟩ 1 1).Nonempty :=
  ⟨zpow_nonneg (by norm_num) _, chop24_err, fun _ _ _ => chop24_err _, rfl, rfl,
    (by refine ⟨?_, ?_, ?_, ?_, ?_, ?_⟩ <;> decide), by decide, ⟨(3, 2), by decide⟩⟩

/-- Non-vacuity of C120: a perceptron with four inputs, three hidden units and any weights, computed with 24 bits. The error of
its outputs if the inputs are off by at most `D`. -/
example (W1 W2 : Nat → Nat → Fl chop24) (B1 B2 junk : Nat → Fl chop24) (n : Nat) :
    ∃ G E, Accurate (composed
        (fun x => Layers.dense junk junk junk Layers.reluAct 3 x (fun _ _ => .ok (tab [4, 3] (fn2 W1)).data)
          (fun _ _ => .ok (tab [3] (fn1 B1)).data))
        (fun x => Layers.dense junk junk junk Layers.noopAct 2 x (fun _ _ => .ok (tab [3, 2] (fn2 W2)).data)
          (fun _ _ => .ok (tab [2] (fn1 B2)).data))) [n, 4] [n, 2] G E ∧
      ∀ X i j, G X [i, j] =
        ∑ l ∈ range 3, max 0 (∑ l' ∈ range 4, X [i, l'] * (W1 l' l).val + (B1 l).val) * (W2 l j).val + (B2 j).val :=
  have hu : (0 : ℝ) ≤ 2 ^ (-23 : ℤ) := zpow_nonneg (by norm_num) _
  ⟨_, _, C120_compose (C120_dense hu chop24_err junk junk junk relu_acts relu_keeps (by decide) W1 B1 rfl rfl n)
    (C120_dense hu chop24_err junk junk junk noop_acts id_keeps (by decide) W2 B2 rfl rfl n), fun _ _ _ => rfl⟩

/-- Non-vacuity of C120: a convolution layer (3 × 3, same padding, two filters, relu) on 4 × 4 images, then a max pooling layer
with 2 × 2 windows, any weights. -/
example (Y : Nat → Nat → Nat → Nat → Fl chop24) (B junk : Nat → Fl chop24) (lowest : Fl chop24) (n : Nat) :
    ∃ G E, Accurate (composed
        (fun x => Layers.conv .nhwc .rscd junk junk junk (fun _ => 0) junk Layers.reluAct
          (ConvLayer.makeP 2 (3, 3) (Sample.paddingSame u32)) x (fun _ _ => .ok (tab [3, 3, 1, 2] (fn4 Y)).data)
          (fun _ _ => .ok (tab [2] (fn1 B)).data))
        (Layers.pool .nhwc junk (Acc.max lowest) (PoolLayer.make (2, 2) (Sample.paddingValid u32) (2, 2))))
      [n, 4, 4, 1] [n, 2, 2, 2] G E := by
  have hu : (0 : ℝ) ≤ 2 ^ (-23 : ℤ) := zpow_nonneg (by norm_num) _
  have hA : AxisOK u32 ⟨3, 1, 1, 1, 1, 4, 4⟩ := by
    refine ⟨⟨?_, ?_, ?_, ?_, ?_, ?_, ?_, ?_, ?_, ?_, ?_, ?_, ?_, ?_⟩, ?_⟩ <;> decide
  have hP : AxisOK u32 ⟨2, 2, 1, 0, 0, 4, 2⟩ := by
    refine ⟨⟨?_, ?_, ?_, ?_, ?_, ?_, ?_, ?_, ?_, ?_, ?_, ?_, ?_, ?_⟩, ?_⟩ <;> decide
  have ht : HasAxes (ConvLayer.makeP 2 (3, 3) (Sample.paddingSame u32)) ⟨3, 1, 1, 1, 1, 4, 4⟩ ⟨3, 1, 1, 1, 1, 4, 4⟩ := by
    constructor <;> decide
  have hp : PoolHasAxes (PoolLayer.make (2, 2) (Sample.paddingValid u32) (2, 2)) ⟨2, 2, 1, 0, 0, 4, 2⟩
      ⟨2, 2, 1, 0, 0, 4, 2⟩ := by constructor <;> decide
  exact ⟨_, _, C120_compose
    (C120_conv_nhwc (c := 1) hu chop24_err junk junk junk (fun _ => 0) junk relu_acts relu_keeps hA hA ht (by decide) Y B rfl rfl n)
    (C120_max_pool_nhwc junk lowest hP hP hp rfl rfl n 2)⟩

/-- Two rows of three computed values. -/
noncomputable def exRows (i j : Nat) : Fl chop24 := show ℝ from if j = i + 1 then 7 else j

/-- Non-vacuity of C120: two rows of three classes, each value off by at most 1. -/
example : Kernels.argmax i32 3 (tab [2, 3] (fn2 exRows)).data [0, 0] = .ok [1, 2] := by
  refine (C120_argmax i32 (rows := 2) exRows (fun i j => if j = i + 1 then 6 else j) (fun _ => 1)
    (fun i _ j _ => ?_) (cls := fun i => i + 1) (fun i hi => by omega) (fun i _ j hj hne => ?_) rfl).trans (by decide)
  · show |(if j = i + 1 then (7 : ℝ) else j) - (if j = i + 1 then (6 : ℝ) else j)| ≤ 1
    split <;> norm_num
  · simp only [if_neg hne, if_true]
    have : (j : ℝ) ≤ 2 := by exact_mod_cast Nat.le_of_lt_succ hj
    linarith

/-! ## Concrete cases -/

example := C119_sums exU chop24_err (m := 2) (n := 3) (fun i j => exReal ((i : ℝ) - j / 3)) (y := List.replicate 2 (0 : ℝ))
  (z := List.replicate 3 (0 : ℝ)) rfl rfl
example := C119_means exU chop24_err exU (divn := chopDiv) (fun _ _ _ => chop24_err _) (rows := 2) (n := 3) (by decide)
  (fun i j => exReal ((i : ℝ) - j / 3)) (y := List.replicate 2 (0 : ℝ)) rfl
example := C119_pool exU chop24_err exU (divn := chopDiv) (fun _ _ _ => chop24_err _) (fun _ => (5 : ℝ)) exPoolH_ok exPoolW_ok
  exPool_axes rfl rfl (by decide) (n := 2) (c := 3) (fun b i j k => exReal ((b : ℝ) + i * j - k / 3))
example := C120_conv_nchw exU chop24_err (fun _ => (0 : ℝ)) (fun _ => (1 : ℝ)) (fun _ => (2 : ℝ)) (fun _ => 7) (fun _ => (5 : ℝ))
  relu_acts relu_keeps exL_ok exW_ok exLayer_axes (c := 2) (fun e k r s => exReal ((e : ℝ) - k / 3 + r * s)) (fun e => exReal ((e : ℝ) / 7))
  (wInit := exInit _) (bInit := exInit _) rfl rfl 3
example := C120_max_pool_nchw (rnd := chop24) (fun _ => (5 : ℝ)) (-1000 : ℝ) exPoolH_ok exPoolW_ok exPool_axes rfl rfl 2 3

end StdNN
