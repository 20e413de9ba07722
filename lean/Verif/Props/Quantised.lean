import Verif.Props.Relational
import Verif.Props.Overflow
import Verif.Props.Extras
/-!
# C160: networks with quantised weights on integers

The layers of the library are templates: run on signed integers, with weights that are integers, a network computes
approximately what the network with the real weights computes, the integers times a scale. Here is how far the two may be
apart, and that no integer overflows.
-/
namespace StdNN
open IntTy Spec Outcome Layers Models Finset

namespace Signed
variable {w : Nat}

/-- `a < b` of C++; comparing with an element that has overflowed counts as true if it is the second, so that the `relu` and
the maximum of such an element are such elements. -/
instance : LT (Signed w) := ⟨fun a b => match a.val, b.val with
  | _, none => True
  | none, some _ => False
  | some x, some y => x < y⟩

instance : DecidableLT (Signed w) := fun a b => by
  show Decidable (match a.val, b.val with | _, none => True | none, some _ => False | some x, some y => x < y)
  split <;> infer_instance

/-- `a / n` of C++ for a number `n` of type `int32_t` or `uint32_t` and `w = 64`: rounded towards zero, undefined if `n` is 0. -/
def quot (a : Signed w) (n : Nat) : Signed w := ⟨if n = 0 then none else a.val.map fun z => z.tdiv n⟩

theorem lt_iff {a b : Signed w} {x y : ℤ} (ha : a.val = some x) (hb : b.val = some y) : a < b ↔ x < y := by
  show (match a.val, b.val with | _, none => True | none, some _ => False | some x, some y => x < y) ↔ _
  rw [ha, hb]

theorem eq_of {a : Signed w} {z : ℤ} (h : a.val = some z) (hr : Range w z) : a = of w z := Signed.ext (h.trans (of_pos hr).symm)

end Signed

open Signed
variable {w : Nat}

/-- The integer `a`, which has not overflowed and whose absolute value is at most `M`, times `s` is at most `ε` from `x`. -/
def Stands (w : Nat) (s : ℝ) (M : ℤ) (ε : ℝ) (a : Signed w) (x : ℝ) : Prop :=
  ∃ z : ℤ, a.val = some z ∧ Range w z ∧ |z| ≤ M ∧ |x - s * z| ≤ ε

theorem Stands.zero {s : ℝ} {M : ℤ} {ε : ℝ} (hM : 0 ≤ M) (hε : 0 ≤ ε) : Stands w s M ε 0 0 :=
  ⟨0, rfl, range_zero w, by simpa using hM, by simpa using hε⟩

theorem Stands.mono {s : ℝ} {M M' : ℤ} {ε ε' : ℝ} {a : Signed w} {x : ℝ} (h : Stands w s M ε a x) (hM : M ≤ M') (hε : ε ≤ ε') :
    Stands w s M' ε' a x := by
  obtain ⟨z, h1, h2, h3, h4⟩ := h
  exact ⟨z, h1, h2, h3.trans hM, h4.trans hε⟩

/-- Sums of products: `V` are integer weights, `t` their scale, `U` the real weights. -/
theorem stands_sum {s t : ℝ} {M : ℤ} {ε δ : ℝ} {n : Nat} {a : Nat → Signed w} {x : Nat → ℝ} {V : Nat → ℤ} {U : Nat → ℝ}
    (ha : ∀ k < n, Stands w s M ε (a k) (x k)) (hV : ∀ k < n, Range w (V k)) (hU : ∀ k < n, |U k - t * V k| ≤ δ)
    (hM : M * ∑ k ∈ range n, |V k| < 2 ^ (w - 1)) :
    Stands w (s * t) (M * ∑ k ∈ range n, |V k|) (|t| * ε * ∑ k ∈ range n, |(V k : ℝ)| + n * ((|s| * M + ε) * δ))
      (seqSum n fun k => a k * of w (V k)) (seqSum n fun k => x k * U k) := by
  have hz : ∀ k, ∃ z : ℤ, k < n → (a k).val = some z ∧ Range w z ∧ |z| ≤ M ∧ |x k - s * z| ≤ ε := fun k => by
    by_cases hk : k < n
    · obtain ⟨z, hz⟩ := ha k hk
      exact ⟨z, fun _ => hz⟩
    · exact ⟨0, fun h => absurd h hk⟩
  choose z hz using hz
  have e : (seqSum n fun k => a k * of w (V k)) = seqSum n fun k => of w (z k) * of w (V k) :=
    seqSum_congr fun k hk => by rw [eq_of (hz k hk).1 (hz k hk).2.1]
  have b : ∑ k ∈ range n, |z k * V k| ≤ M * ∑ k ∈ range n, |V k| := by
    rw [mul_sum]
    refine sum_le_sum fun k hk => ?_
    rw [abs_mul]
    exact mul_le_mul_of_nonneg_right (hz k (mem_range.1 hk)).2.2.1 (abs_nonneg _)
  have b' := (abs_sum_le_sum_abs (fun k => z k * V k) (range n)).trans b
  refine ⟨∑ k ∈ range n, z k * V k, ?_, range_of_abs (b'.trans_lt hM), b', ?_⟩
  · rw [e, dot_val (fun k hk => (hz k hk).2.1) hV, if_pos (fit_of_abs (b.trans_lt hM))]
  · rw [seqSum_eq_sum]
    push_cast
    rw [mul_sum, ← sum_sub_distrib, mul_sum]
    have c : (n : ℝ) * ((|s| * M + ε) * δ) = ∑ _k ∈ range n, (|s| * M + ε) * δ := by simp
    rw [c, ← sum_add_distrib]
    refine (abs_sum_le_sum_abs _ _).trans (sum_le_sum fun k hk => ?_)
    obtain ⟨-, -, h1, h2⟩ := hz k (mem_range.1 hk)
    have h3 := hU k (mem_range.1 hk)
    have h1' : |(z k : ℝ)| ≤ M := by exact_mod_cast h1
    have h4 : |x k| ≤ |s| * M + ε := by
      have : x k = s * z k + (x k - s * z k) := by ring
      rw [this]
      refine (abs_add_le _ _).trans (add_le_add ?_ h2)
      rw [abs_mul]
      exact mul_le_mul_of_nonneg_left h1' (abs_nonneg _)
    have : x k * U k - s * t * (z k * V k) = t * V k * (x k - s * z k) + x k * (U k - t * V k) := by ring
    rw [this]
    refine (abs_add_le _ _).trans (add_le_add ?_ ?_)
    · rw [abs_mul, abs_mul, mul_assoc, mul_assoc]
      refine mul_le_mul_of_nonneg_left ?_ (abs_nonneg _)
      rw [mul_comm]
      exact mul_le_mul_of_nonneg_right h2 (abs_nonneg _)
    · rw [abs_mul]
      exact mul_le_mul h4 h3 (abs_nonneg _) ((abs_nonneg _).trans h4)

theorem Signed.mul_comm' (a b : Signed w) : a * b = b * a := by
  apply Signed.ext
  show (do (of w ((← a.val) * (← b.val))).val) = (do (of w ((← b.val) * (← a.val))).val)
  cases a.val <;> cases b.val <;> simp [mul_comm]

theorem stands_add {s : ℝ} {M M' : ℤ} {ε β : ℝ} {a : Signed w} {x y : ℝ} {z : ℤ} (ha : Stands w s M ε a x) (hz : Range w z)
    (hy : |y - s * z| ≤ β) (hM : M + |z| ≤ M') (hM' : M' < 2 ^ (w - 1)) : Stands w s M' (ε + β) (a + of w z) (x + y) := by
  obtain ⟨v, h1, h2, h3, h4⟩ := ha
  have b : |v + z| ≤ M' := (abs_add_le _ _).trans (by omega)
  have r : Range w (v + z) := range_of_abs (b.trans_lt hM')
  refine ⟨v + z, ?_, r, b, ?_⟩
  · rw [eq_of h1 h2, add_of h2 hz, of_pos r]
  · have : x + y - s * ((v + z : ℤ) : ℝ) = (x - s * v) + (y - s * z) := by push_cast; ring
    rw [this]
    exact (abs_add_le _ _).trans (add_le_add h4 hy)

/-! ## Layers -/

section
variable {s t : ℝ} {M M' : ℤ} {ε δ β ε' : ℝ} {ρ : Signed w → ℝ → Prop}
  (junkW junkY junkB : Nat → Signed w) (junkI : Nat → Int) (junk : Nat → Signed w) {act : Act (Signed w)} {f : Signed w → Signed w}
  (junkW' junkY' junkB' : Nat → ℝ) (junkI' : Nat → Int) (junk' : Nat → ℝ) {act' : Act ℝ} {f' : ℝ → ℝ}
  {wInit bInit : Init (Signed w)} {wInit' bInit' : Init ℝ}

/-- C160 (dense layers): the real weights are at most `δ` from `t` times the integer ones, the biases at most `β` from `s * t`
times the integer ones. -/
theorem C160_dense (hact : ActsAs act f) (hact' : ActsAs act' f') {m k : Nat} (hk : k < 2 ^ 32) (V : Nat → Nat → ℤ)
    (U : Nat → Nat → ℝ) (B : Nat → ℤ) (C : Nat → ℝ) (hV : ∀ l < m, ∀ j < k, Range w (V l j)) (hB : ∀ j < k, Range w (B j))
    (hU : ∀ l < m, ∀ j < k, |U l j - t * V l j| ≤ δ) (hC : ∀ j < k, |C j - s * t * B j| ≤ β) (hM' : M' < 2 ^ (w - 1))
    (hM : ∀ j < k, M * ∑ l ∈ range m, |V l j| + |B j| ≤ M')
    (hε : ∀ j < k, |t| * ε * ∑ l ∈ range m, |(V l j : ℝ)| + m * ((|s| * M + ε) * δ) + β ≤ ε')
    (hf : ∀ a x, Stands w (s * t) M' ε' a x → ρ (f a) (f' x))
    (hw : wInit [m, k] (fresh junkW [m, k].prod) = .ok (tab [m, k] (fn2 fun l j => of w (V l j))).data)
    (hb : bInit [k] (fresh junkB [k].prod) = .ok (tab [k] (fn1 fun j => of w (B j))).data)
    (hw' : wInit' [m, k] (fresh junkW' [m, k].prod) = .ok (tab [m, k] (fn2 U)).data)
    (hb' : bInit' [k] (fresh junkB' [k].prod) = .ok (tab [k] (fn1 C)).data) (n : Nat) :
    Carries (Stands w s M ε) ρ (fun x => dense junkW junkY junkB act k x wInit bInit)
      (fun x => dense junkW' junkY' junkB' act' k x wInit' bInit') [n, m] [n, k] := fun X X' h => by
  have e : ∀ {T : Type} [Zero T] (X : List Nat → T), tab [n, m] X = tab [n, m] (fn2 fun i l => X [i, l]) := fun X =>
    tab_congr fun idx hv => by
      match idx, hv with
      | [i, l], _ => rfl
  refine ⟨_, _, .at (e X) (.of (C77_dense junkW junkY junkB hact hk (fun i l => X [i, l]) _ _ hw hb) rfl rfl),
    .at (e X') (.of (C77_dense junkW' junkY' junkB' hact' hk (fun i l => X' [i, l]) U C hw' hb') rfl rfl), fun idx hv => ?_⟩
  match idx, hv with
  | [i, j], hv =>
    have hj := hv.2.1
    refine hf _ _ ((stands_add (stands_sum (fun l hl => h [i, l] ⟨hv.1, hl, trivial⟩) (fun l hl => hV l hl j hj)
      (fun l hl => hU l hl j hj) ?_) (hB j hj) (hC j hj) (hM j hj) hM').mono le_rfl (hε j hj))
    have := hM j hj
    have := abs_nonneg (B j)
    omega

theorem sum3_flat {T : Type} [AddCommMonoid T] (a b c : Nat) (Y : Nat → Nat → Nat → T) :
    ∑ p ∈ range (a * (b * c)), Y (p / (b * c)) (p % (b * c) / c) (p % (b * c) % c) =
      ∑ i ∈ range a, ∑ j ∈ range b, ∑ k ∈ range c, Y i j k := by
  have := sum_unravel3 a b c (fn3 Y)
  have hP : a * (b * c) = [a, b, c].prod := by simp
  have hU : ∀ p, unravel [a, b, c] p = [p / (b * c), p % (b * c) / c, p % (b * c) % c] := by
    intro p; simp [unravel]
  simp only [hU, fn3_apply] at this
  rw [hP, this]

/-- C160 (convolution layers, `nhwc`). -/
theorem C160_conv_nhwc (h0 : 0 ≤ M) (hε0 : 0 ≤ ε) (hact : ActsAs act f) (hact' : ActsAs act' f') {H W : Axis} (hH : AxisOK u32 H)
    (hW : AxisOK u32 W) {l : ConvLayer} (hl : HasAxes l H W) {c : Nat} (hsz : [H.n, W.n, c].prod ≤ 2 ^ 31)
    (V : Nat → Nat → Nat → Nat → ℤ) (U : Nat → Nat → Nat → Nat → ℝ) (B : Nat → ℤ) (C : Nat → ℝ)
    (hV : ∀ p < H.k, ∀ q < W.k, ∀ k < c, ∀ e < l.filters, Range w (V p q k e)) (hB : ∀ e < l.filters, Range w (B e))
    (hU : ∀ p < H.k, ∀ q < W.k, ∀ k < c, ∀ e < l.filters, |U p q k e - t * V p q k e| ≤ δ)
    (hC : ∀ e < l.filters, |C e - s * t * B e| ≤ β) (hM' : M' < 2 ^ (w - 1))
    (hM : ∀ e < l.filters, M * ∑ p ∈ range H.k, ∑ q ∈ range W.k, ∑ k ∈ range c, |V p q k e| + |B e| ≤ M')
    (hε : ∀ e < l.filters, |t| * ε * ∑ p ∈ range H.k, ∑ q ∈ range W.k, ∑ k ∈ range c, |(V p q k e : ℝ)| +
      (H.k * (W.k * c) : Nat) * ((|s| * M + ε) * δ) + β ≤ ε')
    (hf : ∀ a x, Stands w (s * t) M' ε' a x → ρ (f a) (f' x))
    (hw : wInit [H.k, W.k, c, l.filters] (fresh junkW [H.k, W.k, c, l.filters].prod) =
      .ok (tab [H.k, W.k, c, l.filters] (fn4 fun p q k e => of w (V p q k e))).data)
    (hb : bInit [l.filters] (fresh junkB [l.filters].prod) = .ok (tab [l.filters] (fn1 fun e => of w (B e))).data)
    (hw' : wInit' [H.k, W.k, c, l.filters] (fresh junkW' [H.k, W.k, c, l.filters].prod) =
      .ok (tab [H.k, W.k, c, l.filters] (fn4 U)).data)
    (hb' : bInit' [l.filters] (fresh junkB' [l.filters].prod) = .ok (tab [l.filters] (fn1 C)).data) (n : Nat) :
    Carries (Stands w s M ε) ρ (fun x => Layers.conv .nhwc .rscd junkW junkY junkB junkI junk act l x wInit bInit)
      (fun x => Layers.conv .nhwc .rscd junkW' junkY' junkB' junkI' junk' act' l x wInit' bInit')
      [n, H.n, W.n, c] [n, H.m, W.m, l.filters] := fun X X' h => by
  have e : ∀ {T : Type} [Zero T] (X : List Nat → T), tab [n, H.n, W.n, c] X =
      tab [n, H.n, W.n, c] (fn4 fun b i j k => X [b, i, j, k]) := fun X => tab_congr fun idx hv => by
    match idx, hv with
    | [b, i, j, k], _ => rfl
  refine ⟨_, _, .at (e X) (.of (conv_layer_nhwc junkW junkY junkB junkI junk hact hH hW hl (n := n) (fun b i j k => X [b, i, j, k]) _
      _ _ (fun z hz => C91_conv_order hH hW hsz _ _ junkI junk hz) hw hb) rfl rfl),
    .at (e X') (.of (conv_layer_nhwc junkW' junkY' junkB' junkI' junk' hact' hH hW hl (n := n) (fun b i j k => X' [b, i, j, k]) U
      _ C (fun z hz => C91_conv_order hH hW hsz _ U junkI' junk' hz) hw' hb') rfl rfl), fun idx hv => ?_⟩
  match idx, hv with
  | [b, i, j, d], hv =>
    have hd := hv.2.2.2.1
    have in3 : ∀ p < H.k * (W.k * c), p / (W.k * c) < H.k ∧ p % (W.k * c) / c < W.k ∧ p % (W.k * c) % c < c := fun p hp => by
      have hc : 0 < W.k * c := Nat.pos_of_ne_zero fun h => by simp [h] at hp
      have h3 : 0 < c := Nat.pos_of_mul_pos_left hc
      exact ⟨Nat.div_lt_of_lt_mul (by rwa [Nat.mul_comm] at hp),
        Nat.div_lt_of_lt_mul ((Nat.mod_lt p hc).trans_eq (Nat.mul_comm _ _)), Nat.mod_lt _ h3⟩
    have f1 := sum3_flat H.k W.k c fun p q k => |V p q k d|
    have f2 := sum3_flat H.k W.k c fun p q k => |(V p q k d : ℝ)|
    have m1 := hM d hd
    have e1 := hε d hd
    rw [← f1] at m1
    rw [← f2] at e1
    refine hf _ _ ((stands_add (stands_sum (t := t) (δ := δ) (V := fun p => V (p / (W.k * c)) (p % (W.k * c) / c) (p % (W.k * c) % c) d)
      (U := fun p => U (p / (W.k * c)) (p % (W.k * c) / c) (p % (W.k * c) % c) d)
      (fun p hp => window_rel (.zero h0 hε0) (fun a ha a' ha' => h [b, a, a', _] ⟨hv.1, ha, ha', (in3 p hp).2.2, trivial⟩) i j _ _)
      (fun p hp => hV _ (in3 p hp).1 _ (in3 p hp).2.1 _ (in3 p hp).2.2 d hd)
      (fun p hp => hU _ (in3 p hp).1 _ (in3 p hp).2.1 _ (in3 p hp).2.2 d hd) ?_) (hB d hd) (hC d hd) m1 hM').mono le_rfl e1)
    have := abs_nonneg (B d)
    omega

/-- C160 (convolution layers, `nchw`). -/
theorem C160_conv_nchw (h0 : 0 ≤ M) (hε0 : 0 ≤ ε) (hact : ActsAs act f) (hact' : ActsAs act' f') {H W : Axis} (hH : AxisOK u32 H)
    (hW : AxisOK u32 W) {l : ConvLayer} (hl : HasAxes l H W) {c : Nat}
    (V : Nat → Nat → Nat → Nat → ℤ) (U : Nat → Nat → Nat → Nat → ℝ) (B : Nat → ℤ) (C : Nat → ℝ)
    (hV : ∀ e < l.filters, ∀ k < c, ∀ p < H.k, ∀ q < W.k, Range w (V e k p q)) (hB : ∀ e < l.filters, Range w (B e))
    (hU : ∀ e < l.filters, ∀ k < c, ∀ p < H.k, ∀ q < W.k, |U e k p q - t * V e k p q| ≤ δ)
    (hC : ∀ e < l.filters, |C e - s * t * B e| ≤ β) (hM' : M' < 2 ^ (w - 1))
    (hM : ∀ e < l.filters, M * ∑ k ∈ range c, ∑ p ∈ range H.k, ∑ q ∈ range W.k, |V e k p q| + |B e| ≤ M')
    (hε : ∀ e < l.filters, |t| * ε * ∑ k ∈ range c, ∑ p ∈ range H.k, ∑ q ∈ range W.k, |(V e k p q : ℝ)| +
      (c * (H.k * W.k) : Nat) * ((|s| * M + ε) * δ) + β ≤ ε')
    (hf : ∀ a x, Stands w (s * t) M' ε' a x → ρ (f a) (f' x))
    (hw : wInit [l.filters, c, H.k, W.k] (fresh junkW [l.filters, c, H.k, W.k].prod) =
      .ok (tab [l.filters, c, H.k, W.k] (fn4 fun e k p q => of w (V e k p q))).data)
    (hb : bInit [l.filters] (fresh junkB [l.filters].prod) = .ok (tab [l.filters] (fn1 fun e => of w (B e))).data)
    (hw' : wInit' [l.filters, c, H.k, W.k] (fresh junkW' [l.filters, c, H.k, W.k].prod) =
      .ok (tab [l.filters, c, H.k, W.k] (fn4 U)).data)
    (hb' : bInit' [l.filters] (fresh junkB' [l.filters].prod) = .ok (tab [l.filters] (fn1 C)).data) (n : Nat) :
    Carries (Stands w s M ε) ρ (fun x => Layers.conv .nchw .dcrs junkW junkY junkB junkI junk act l x wInit bInit)
      (fun x => Layers.conv .nchw .dcrs junkW' junkY' junkB' junkI' junk' act' l x wInit' bInit')
      [n, c, H.n, W.n] [n, l.filters, H.m, W.m] := fun X X' h => by
  have e : ∀ {T : Type} [Zero T] (X : List Nat → T), tab [n, c, H.n, W.n] X =
      tab [n, c, H.n, W.n] (fn4 fun b i j k => X [b, i, j, k]) := fun X => tab_congr fun idx hv => by
    match idx, hv with
    | [b, i, j, k], _ => rfl
  refine ⟨_, _, .at (e X) (.of (conv_layer_nchw junkW junkY junkB junkI junk hact hH hW hl (n := n) (fun b i j k => X [b, i, j, k]) _
      _ _ (fun z hz => C91_conv_order_nchw hH hW _ _ junk hz) hw hb) rfl rfl),
    .at (e X') (.of (conv_layer_nchw junkW' junkY' junkB' junkI' junk' hact' hH hW hl (n := n) (fun b i j k => X' [b, i, j, k]) U
      _ C (fun z hz => C91_conv_order_nchw hH hW _ U junk' hz) hw' hb') rfl rfl), fun idx hv => ?_⟩
  match idx, hv with
  | [b, d, i, j], hv =>
    have hd := hv.2.1
    have in3 : ∀ p < c * (H.k * W.k), p / (H.k * W.k) < c ∧ p % (H.k * W.k) / W.k < H.k ∧ p % (H.k * W.k) % W.k < W.k := fun p hp => by
      have hc : 0 < H.k * W.k := Nat.pos_of_ne_zero fun h => by simp [h] at hp
      have h3 : 0 < W.k := Nat.pos_of_mul_pos_left hc
      exact ⟨Nat.div_lt_of_lt_mul (by rwa [Nat.mul_comm] at hp),
        Nat.div_lt_of_lt_mul ((Nat.mod_lt p hc).trans_eq (Nat.mul_comm _ _)), Nat.mod_lt _ h3⟩
    have f1 := sum3_flat c H.k W.k fun k p q => |V d k p q|
    have f2 := sum3_flat c H.k W.k fun k p q => |(V d k p q : ℝ)|
    have m1 := hM d hd
    have e1 := hε d hd
    rw [← f1] at m1
    rw [← f2] at e1
    simp only [Signed.mul_comm' (of w _), mul_comm (U _ _ _ _)]
    refine hf _ _ ((stands_add (stands_sum (t := t) (δ := δ) (V := fun p => V d (p / (H.k * W.k)) (p % (H.k * W.k) / W.k) (p % (H.k * W.k) % W.k))
      (U := fun p => U d (p / (H.k * W.k)) (p % (H.k * W.k) / W.k) (p % (H.k * W.k) % W.k))
      (fun p hp => window_rel (.zero h0 hε0) (fun a ha a' ha' => h [b, _, a, a'] ⟨hv.1, (in3 p hp).1, ha, ha', trivial⟩) i j _ _)
      (fun p hp => hV d hd _ (in3 p hp).1 _ (in3 p hp).2.1 _ (in3 p hp).2.2)
      (fun p hp => hU d hd _ (in3 p hp).1 _ (in3 p hp).2.1 _ (in3 p hp).2.2) ?_) (hB d hd) (hC d hd) m1 hM').mono le_rfl e1)
    have := abs_nonneg (B d)
    omega

end

/-! ## Activations, rescaling and pooling -/

theorem stands_max {s : ℝ} (hs : 0 ≤ s) {M : ℤ} {ε : ℝ} {a b : Signed w} {x y : ℝ} (ha : Stands w s M ε a x) (hb : Stands w s M ε b y) :
    Stands w s M ε (if a > b then a else b) (if x > y then x else y) := by
  obtain ⟨u, a1, a2, a3, a4⟩ := ha
  obtain ⟨v, b1, b2, b3, b4⟩ := hb
  have e : ∀ p q : ℝ, (if p > q then p else q) = max p q := fun p q => by
    split
    · next h => exact (max_eq_left h.le).symm
    · next h => exact (max_eq_right (not_lt.1 h)).symm
  have k : |max x y - max (s * u) (s * v)| ≤ ε := (abs_max_sub_max_le_max _ _ _ _).trans (max_le a4 b4)
  rw [e]
  by_cases h : a > b
  · have h' : v < u := (lt_iff b1 a1).1 h
    rw [if_pos h]
    rw [max_eq_left (mul_le_mul_of_nonneg_left (Int.cast_le.2 h'.le) hs)] at k
    exact ⟨u, a1, a2, a3, k⟩
  · have h' : u ≤ v := not_lt.1 fun c => h ((lt_iff b1 a1).2 c)
    rw [if_neg h]
    rw [max_eq_right (mul_le_mul_of_nonneg_left (Int.cast_le.2 h') hs)] at k
    exact ⟨v, b1, b2, b3, k⟩

/-- C160 (`relu`). -/
theorem C160_relu {s : ℝ} (hs : 0 ≤ s) {M : ℤ} {ε : ℝ} {a : Signed w} {x : ℝ} (h : Stands w s M ε a x) :
    Stands w s M ε (if 0 < a then a else 0) (if 0 < x then x else 0) := by
  have h0 : Stands w s M ε 0 0 := by
    obtain ⟨z, -, -, h3, h4⟩ := h
    exact .zero ((abs_nonneg _).trans h3) ((abs_nonneg _).trans h4)
  exact stands_max hs h h0

/-- C160 (rescaling): dividing the integers by `d` multiplies the scale by `d`. -/
theorem C160_rescale {s : ℝ} (hs : 0 ≤ s) {M : ℤ} {ε : ℝ} {a : Signed w} {x : ℝ} {d : Nat} (hd : 0 < d) (h : Stands w s M ε a x) :
    Stands w (s * d) (M / d) (ε + s * (d - 1)) (quot a d) x := by
  obtain ⟨z, h1, h2, h3, h4⟩ := h
  have hd' : (0 : ℤ) < d := by exact_mod_cast hd
  have q1 : |z.tdiv d| = |z| / d := by
    rcases le_total 0 z with hz | hz
    · rw [Int.tdiv_eq_ediv_of_nonneg hz, abs_of_nonneg hz, abs_of_nonneg (Int.ediv_nonneg hz hd'.le)]
    · obtain ⟨y, rfl⟩ : ∃ y, z = -y := ⟨-z, by omega⟩
      have hy : 0 ≤ y := by omega
      rw [Int.neg_tdiv, Int.tdiv_eq_ediv_of_nonneg hy, abs_neg, abs_neg, abs_of_nonneg hy,
        abs_of_nonneg (Int.ediv_nonneg hy hd'.le)]
  have q2 : |z - d * z.tdiv d| ≤ d - 1 := by
    have e : z - d * z.tdiv d = z.tmod d := (Int.tmod_def z d).symm
    have l1 := Int.tmod_lt_of_pos z hd'
    have l2 := Int.lt_tmod_of_pos z hd'
    rw [e]
    exact abs_le.2 ⟨by omega, by omega⟩
  have b : |z.tdiv d| ≤ |z| := by
    rw [q1]
    exact Int.ediv_le_self _ (abs_nonneg _)
  have r : Range w (z.tdiv d) := by
    have hb := abs_le.1 b
    obtain ⟨r1, r2⟩ := h2
    rcases le_total 0 z with hz | hz
    · rw [abs_of_nonneg hz] at hb
      have := Int.tdiv_nonneg hz hd'.le
      exact ⟨le_trans (neg_nonpos.2 (by positivity)) this, by omega⟩
    · rw [abs_of_nonpos hz] at hb
      have : z.tdiv d ≤ 0 := by
        obtain ⟨y, rfl⟩ : ∃ y, z = -y := ⟨-z, by omega⟩
        rw [Int.neg_tdiv]
        have := Int.tdiv_nonneg (by omega : 0 ≤ y) hd'.le
        omega
      exact ⟨by omega, this.trans_lt (by positivity)⟩
  refine ⟨z.tdiv d, ?_, r, ?_, ?_⟩
  · show (if d = 0 then none else a.val.map fun z => z.tdiv d) = _
    rw [if_neg hd.ne', h1]
    rfl
  · rw [q1]
    exact Int.ediv_le_ediv hd' h3
  · have : x - s * d * (z.tdiv d : ℤ) = (x - s * z) + s * ((z - d * z.tdiv d : ℤ) : ℝ) := by push_cast; ring
    rw [this]
    refine (abs_add_le _ _).trans (add_le_add h4 ?_)
    rw [abs_mul, abs_of_nonneg hs]
    refine mul_le_mul_of_nonneg_left ?_ hs
    have : |((z - d * z.tdiv d : ℤ) : ℝ)| ≤ ((d - 1 : ℤ) : ℝ) := by exact_mod_cast q2
    simpa using this

section
variable {s : ℝ} {M : ℤ} {ε : ℝ} (junk : Nat → Signed w) (junk' : Nat → ℝ) {H W : Axis} {l : PoolLayer}

/-- C160 (max pooling layers): every window holds a pixel, and the values the maxima start with are not above any element. -/
theorem C160_max_pool (hs : 0 ≤ s) {lowest : ℤ} {lowest' : ℝ} (hr : Range w lowest) (hl : lowest ≤ -M) (hl' : lowest' ≤ -(s * M + ε))
    (hH : AxisOK u32 H) (hW : AxisOK u32 W) (ht : PoolHasAxes l H W)
    (hu : ∀ i < H.m, ∀ j < W.m, ∃ a b, Under { H with l := 0, q := H.l + H.q } { W with l := 0, q := W.l + W.q } i j a b) (n c : Nat) :
    Carries (Stands w s M ε) (Stands w s M ε) (pool .nhwc junk (Acc.max (of w lowest)) l) (pool .nhwc junk' (Acc.max lowest') l)
      [n, H.n, W.n, c] [n, H.m, W.m, c] ∧
    Carries (Stands w s M ε) (Stands w s M ε) (pool .nchw junk (Acc.max (of w lowest)) l) (pool .nchw junk' (Acc.max lowest') l)
      [n, c, H.n, W.n] [n, c, H.m, W.m] := by
  refine pool_carries junk junk' _ _ hH hW ht _ _ (fun l _ => max_run _ l) (fun l _ => max_run _ l) (E := False)
    (fun i hi j hj => .inl (hu i hi j hj)) (fun l l' _ hne h => ?_) n c
  cases h with
  | nil => simp at hne
  | @cons a x l l' h1 h2 =>
    have step : Stands w s M ε (if a > of w lowest then a else of w lowest) (if x > lowest' then x else lowest') := by
      obtain ⟨z, a1, a2, a3, a4⟩ := h1
      have z1 : lowest ≤ z := hl.trans (abs_le.1 a3).1
      have x1 : lowest' ≤ x := by
        have c1 : (-M : ℝ) ≤ z := by exact_mod_cast (abs_le.1 a3).1
        have c2 := mul_le_mul_of_nonneg_left c1 hs
        have c3 := (abs_le.1 a4).1
        linarith
      have e1 : (if a > of w lowest then a else of w lowest) = a := by
        split
        · rfl
        · next c =>
          have : z = lowest := by
            by_contra hne
            exact c ((lt_iff (of_pos hr) a1).2 (by omega))
          rw [eq_of a1 a2, this]
      have e2 : (if x > lowest' then x else lowest') = x := by
        split
        · rfl
        · next c => exact le_antisymm x1 (not_lt.1 c)
      rw [e1, e2]
      exact ⟨z, a1, a2, a3, a4⟩
    clear * - hs h2 step
    simp only [List.foldl_cons]
    generalize (if a > of w lowest then a else of w lowest) = u at step
    generalize (if x > lowest' then x else lowest') = v at step
    induction h2 generalizing u v with
    | nil => exact step
    | cons h1 _ ih => exact ih _ _ (stands_max hs h1 step)

/-- C160 (mean pooling layers): the mean of integers is rounded towards zero. -/
theorem C160_mean_pool (hs : 0 ≤ s) (hM : M * (H.k * W.k : Nat) < 2 ^ (w - 1)) (hk : H.k * W.k < 2 ^ 32)
    (hH : AxisOK u32 H) (hW : AxisOK u32 W) (ht : PoolHasAxes l H W)
    (hu : ∀ i < H.m, ∀ j < W.m, ∃ a b, Under { H with l := 0, q := H.l + H.q } { W with l := 0, q := W.l + W.q } i j a b) (n c : Nat) :
    Carries (Stands w s M ε) (Stands w s M (ε + s)) (pool .nhwc junk (Acc.mean quot) l) (pool .nhwc junk' (Acc.mean fun x n => x / n) l)
      [n, H.n, W.n, c] [n, H.m, W.m, c] ∧
    Carries (Stands w s M ε) (Stands w s M (ε + s)) (pool .nchw junk (Acc.mean quot) l) (pool .nchw junk' (Acc.mean fun x n => x / n) l)
      [n, c, H.n, W.n] [n, c, H.m, W.m] := by
  refine pool_carries junk junk' _ _ hH hW ht _ _ (fun l hl => mean_run _ l (by omega)) (fun l hl => mean_run _ l (by omega)) (E := False)
    (fun i hi j hj => .inl (hu i hi j hj)) (fun l l' hlen hne h => ?_) n c
  have hn : 0 < l.length := List.length_pos_of_ne_nil (by simpa using hne)
  have hM0 : 0 ≤ M ∧ 0 ≤ ε := by
    cases h with
    | nil => simp at hn
    | cons h1 _ =>
      obtain ⟨z, -, -, h3, h4⟩ := h1
      exact ⟨(abs_nonneg _).trans h3, (abs_nonneg _).trans h4⟩
  have key : ∀ (j : Nat) {a : Signed w} {x : ℝ}, j + l.length ≤ H.k * W.k → Stands w s (M * j) (j * ε) a x →
      Stands w s (M * (j + l.length : Nat)) ((j + l.length : Nat) * ε) (l.foldl (· + ·) a) (l'.foldl (· + ·) x) := by
    clear hn hne hlen
    induction h with
    | nil => exact fun j a x _ h => h
    | @cons b y l l' h1 _ ih =>
      intro j a x hj ha
      obtain ⟨z, b1, b2, b3, b4⟩ := h1
      have c1 : M * ((j + 1 : Nat) : ℤ) < 2 ^ (w - 1) := by
        refine lt_of_le_of_lt (mul_le_mul_of_nonneg_left ?_ hM0.1) hM
        have : j + 1 ≤ H.k * W.k := by simp at hj; omega
        exact_mod_cast this
      have st : Stands w s (M * (j + 1 : Nat)) ((j + 1 : Nat) * ε) (a + b) (x + y) := by
        rw [eq_of b1 b2]
        have e : ((j + 1 : Nat) : ℝ) * ε = j * ε + ε := by push_cast; ring
        rw [e]
        refine stands_add ha b2 b4 ?_ c1
        push_cast
        linarith
      have := ih (j + 1) (by simp at hj; omega) st
      have e : j + (b :: l).length = j + 1 + l.length := by simp; omega
      rw [e]
      exact this
  have k0 := key 0 (by omega) (.zero (by simp) (by simp) : Stands w s (M * (0 : Nat)) ((0 : Nat) * ε) 0 0)
  rw [Nat.zero_add] at k0
  obtain ⟨q, q1, q2, q3, q4⟩ := C160_rescale hs hn k0
  have hn' : (0 : ℝ) < l.length := by exact_mod_cast hn
  refine ⟨q, q1, q2, ?_, ?_⟩
  · rwa [Int.mul_ediv_cancel _ (by exact_mod_cast hn.ne')] at q3
  · rw [← h.length_eq]
    have e : l'.foldl (· + ·) 0 / (l.length : ℝ) - s * q = (l'.foldl (· + ·) 0 - s * l.length * q) / l.length := by
      field_simp
    rw [e, abs_div, abs_of_pos hn', div_le_iff₀ hn']
    refine q4.trans ?_
    nlinarith

end

/-! ## Networks -/

/-- C160 (networks): if every layer keeps the integers within `M i` and the errors within `ε i`, then on integers within `M 0`
whose multiples of `s 0` are within `ε 0` of the inputs nothing overflows, and the multiples of the last scale are within the
last error of the outputs of the real network. -/
theorem C160_network (junk : Nat → Signed w) (junk' : Nat → ℝ) (s : Nat → ℝ) (M : Nat → ℤ) (ε : Nat → ℝ) (ls : List (LayerFn (Signed w)))
    (ls' : List (LayerFn ℝ)) (hl : ls.length = ls'.length) (shapes : Nat → List Nat)
    (h : ∀ i (hi : i < ls.length), Carries (Stands w (s i) (M i) (ε i)) (Stands w (s (i + 1)) (M (i + 1)) (ε (i + 1)))
      ls[i] (ls'[i]'(hl ▸ hi)) (shapes i) (shapes (i + 1)))
    (Z : List Nat → ℤ) (X : List Nat → ℝ) (hr : ∀ i, Valid (shapes 0) i → Range w (Z i)) (hZ : ∀ i, Valid (shapes 0) i → |Z i| ≤ M 0)
    (hX : ∀ i, Valid (shapes 0) i → |X i - s 0 * Z i| ≤ ε 0) :
    ∃ (Q : List Nat → ℤ) (Y : List Nat → ℝ),
      Gives (sequential junk ls) (tab (shapes 0) fun i => of w (Z i)) (tab (shapes ls.length) fun i => of w (Q i)) ∧
      Gives (sequential junk' ls') (tab (shapes 0) X) (tab (shapes ls.length) Y) ∧
      ∀ i, Valid (shapes ls.length) i → Range w (Q i) ∧ |Q i| ≤ M ls.length ∧ |Y i - s ls.length * Q i| ≤ ε ls.length := by
  obtain ⟨A, Y, h1, h2, h3⟩ := C149_sequential junk junk' (fun i => Stands w (s i) (M i) (ε i)) ls ls' hl shapes h (fun i => of w (Z i)) X
    fun i hi => ⟨Z i, of_pos (hr i hi), hr i hi, hZ i hi, hX i hi⟩
  refine ⟨fun i => (A i).val.getD 0, Y, ?_, h2, fun i hi => ?_⟩
  · have e : tab (shapes ls.length) A = tab (shapes ls.length) fun i => of w ((A i).val.getD 0) := tab_congr fun i hi => by
      obtain ⟨z, z1, z2, -⟩ := h3 i hi
      simp only [z1, Option.getD_some]
      exact eq_of z1 z2
    exact e ▸ h1
  · obtain ⟨z, z1, z2, z3, z4⟩ := h3 i hi
    simp only [z1, Option.getD_some]
    exact ⟨z2, z3, z4⟩

/-! ## Classes -/

theorem maxElementFrom_rel {R S : Type} [LT R] [DecidableLT R] [LT S] [DecidableLT S] {ρ : R → S → Prop}
    (hρ : ∀ {a x b y}, ρ a x → ρ b y → (a < b ↔ x < y)) {l : List R} {l' : List S} (h : List.Forall₂ ρ l l') (i best : Nat) {a : R}
    {x : S} (ha : ρ a x) : maxElementFrom i best a l = maxElementFrom i best x l' := by
  induction h generalizing i best a x with
  | nil => rfl
  | @cons b y l l' h1 _ ih =>
    unfold maxElementFrom
    by_cases c : a < b
    · rw [if_pos c, if_pos ((hρ ha h1).1 c)]
      exact ih _ _ h1
    · rw [if_neg c, if_neg fun c' => c ((hρ ha h1).2 c')]
      exact ih _ _ ha

theorem maxElement_rel {R S : Type} [LT R] [DecidableLT R] [LT S] [DecidableLT S] {ρ : R → S → Prop}
    (hρ : ∀ {a x b y}, ρ a x → ρ b y → (a < b ↔ x < y)) {l : List R} {l' : List S} (h : List.Forall₂ ρ l l') :
    maxElement l = maxElement l' := by
  cases h with
  | nil => rfl
  | cons h1 h2 => exact maxElementFrom_rel hρ h2 1 0 h1

theorem argmax_rel {R S : Type} [Zero R] [LT R] [DecidableLT R] [Zero S] [LT S] [DecidableLT S] {ρ : R → S → Prop}
    (hρ : ∀ {a x b y}, ρ a x → ρ b y → (a < b ↔ x < y)) (t : IntTy) {n k : Nat} {Y : Nat → Nat → R} {Y' : Nat → Nat → S}
    (h : ∀ b < n, ∀ j < k, ρ (Y b j) (Y' b j)) {y : List Int} (hy : y.length = n) :
    Kernels.argmax t k (tab [n, k] (fn2 Y)).data y = Kernels.argmax t k (tab [n, k] (fn2 Y')).data y := by
  unfold Kernels.argmax
  refine forRange_congr (fun i hi s => ?_) y
  rw [hy] at hi
  rw [rowOf_tab Y hi, rowOf_tab Y' hi, Outcome.ok_bind, Outcome.ok_bind]
  refine congrArg (fun m : Nat => wr s i (t.conv m)) (maxElement_rel hρ ?_)
  rw [tab1_list, tab1_list, List.forall₂_map_left_iff, List.forall₂_map_right_iff, List.forall₂_same]
  exact fun j hj => h i hi j (List.mem_range.1 hj)

/-- C160 (classes): with exact weights and inputs the integers and the real numbers have the same classes. -/
theorem C160_class_exact {s : ℝ} (hs : 0 < s) {M : ℤ} (t : IntTy) {n k : Nat} {Y : Nat → Nat → Signed w} {Y' : Nat → Nat → ℝ}
    (h : ∀ b < n, ∀ j < k, Stands w s M 0 (Y b j) (Y' b j)) {y : List Int} (hy : y.length = n) :
    Kernels.argmax t k (tab [n, k] (fn2 Y)).data y = Kernels.argmax t k (tab [n, k] (fn2 Y')).data y := by
  refine argmax_rel (ρ := Stands w s M 0) (fun {a x b y} ha hb => ?_) t h hy
  obtain ⟨u, a1, -, -, a4⟩ := ha
  obtain ⟨v, b1, -, -, b4⟩ := hb
  rw [lt_iff a1 b1, sub_eq_zero.1 (abs_nonpos_iff.1 a4), sub_eq_zero.1 (abs_nonpos_iff.1 b4), mul_lt_mul_iff_right₀ hs, Int.cast_lt]

/-- C160 (classes): if in every row one integer is greater than the others by more than the error, the integers and the real
numbers have the same classes. -/
theorem C160_class {s : ℝ} {M : ℤ} {ε : ℝ} (t : IntTy) {n k : Nat} {Z : Nat → Nat → ℤ} {Y : Nat → Nat → Signed w} {Y' : Nat → Nat → ℝ}
    (h : ∀ b < n, ∀ j < k, Stands w s M ε (Y b j) (Y' b j)) (hZ : ∀ b < n, ∀ j < k, (Y b j).val = some (Z b j)) {cls : Nat → Nat}
    (hc : ∀ b < n, cls b < k) (hs : 0 < s) (hsep : ∀ b < n, ∀ j < k, j ≠ cls b → s * Z b j + 2 * ε < s * Z b (cls b))
    {y : List Int} (hy : y.length = n) :
    Kernels.argmax t k (tab [n, k] (fn2 Y)).data y = .ok ((List.range n).map fun b => t.conv (cls b)) ∧
    Kernels.argmax t k (tab [n, k] (fn2 Y')).data y = .ok ((List.range n).map fun b => t.conv (cls b)) := by
  have close : ∀ b < n, ∀ j < k, |Y' b j - s * Z b j| ≤ ε := fun b hb j hj => by
    obtain ⟨z, h1, -, -, h4⟩ := h b hb j hj
    rw [hZ b hb j hj] at h1
    rwa [Option.some.inj h1]
  rcases Nat.eq_zero_or_pos n with rfl | hn
  · rw [List.length_eq_zero_iff.1 hy]
    exact ⟨rfl, rfl⟩
  have hk : 1 ≤ k := by have := hc 0 hn; omega
  rw [argmax_rel (ρ := fun (a : Signed w) z => a.val = some z) (fun ha hb => lt_iff ha hb) t hZ hy]
  obtain ⟨a, ea, ha⟩ := C57_argmax t hk Z hy
  obtain ⟨a', ea', ha'⟩ := C57_argmax t hk Y' hy
  rw [ea, ea']
  constructor <;> refine congrArg Outcome.ok (List.map_congr_left fun b hb => ?_)
  · have hb' : b < n := by simpa using hb
    obtain ⟨a1, a2, -⟩ := ha b hb'
    have : a b = cls b := by
      by_contra hne
      have h1 := hsep b hb' _ a1 hne
      have h2 := (abs_nonneg _).trans (close b hb' _ a1)
      have h3 : (Z b (cls b) : ℝ) ≤ Z b (a b) := by exact_mod_cast a2 _ (hc b hb')
      have := mul_le_mul_of_nonneg_left h3 hs.le
      linarith
    rw [this]
  · have hb' : b < n := by simpa using hb
    obtain ⟨a1, a2, -⟩ := ha' b hb'
    have : a' b = cls b := by
      by_contra hne
      have h1 := hsep b hb' _ a1 hne
      have h2 := (abs_le.1 (close b hb' _ a1)).2
      have h3 := (abs_le.1 (close b hb' _ (hc b hb'))).1
      have h4 := a2 _ (hc b hb')
      linarith
    rw [this]

/-! ## Concrete cases -/

/-- The activation of the example: `relu`, then a division by 4. -/
def exQuotAct : Act (Signed 64) := pointwiseAct fun a => quot (if 0 < a then a else 0) 4

/-- A dense layer with 64-bit integers and weights `l - j`, -/
def exQuantF : LayerFn (Signed 64) := fun x => dense (fun _ => of 64 5) (fun _ => of 64 6) (fun _ => of 64 7) exQuotAct 2 x
  (exInit (fn2 fun l j => of 64 ((l : ℤ) - j))) (exInit (fn1 fun j => of 64 (7 - (j : ℤ))))

/-- and the real layer it stands for, whose weights are not multiples of 1/2. -/
noncomputable def exQuantG : LayerFn ℝ := fun x => dense (fun _ => 5) (fun _ => 6) (fun _ => 7) reluAct 2 x
  (exInit (fn2 fun l j => 1 / 2 * ((l : ℝ) - j) + 1 / 100)) (exInit (fn1 fun j => 1 / 20 * (7 - (j : ℝ))))

theorem exQuantDense : Carries (Stands 64 (1 / 10) 127 (1 / 20)) (Stands 64 (1 / 5) 97 (13 / 20)) exQuantF exQuantG [4, 3] [4, 2] :=
  C160_dense (s := 1 / 10) (t := 1 / 2) (M := 127) (M' := 388) (ε := 1 / 20) (δ := 1 / 100) (β := 0) (ε' := 1 / 2)
    _ _ _ _ _ _ (pointwise_acts _) relu_acts (by decide) (fun l j => (l : ℤ) - j) (fun l j => 1 / 2 * ((l : ℝ) - j) + 1 / 100)
    (fun j => 7 - (j : ℤ)) (fun j => 1 / 20 * (7 - (j : ℝ))) (by decide) (by decide)
    (fun l _ j _ => by push_cast; norm_num) (fun j _ => by push_cast; norm_num) (by decide) (by decide)
    (fun j hj => by
      match j, hj with
      | 0, _ => norm_num [sum_range_succ, abs_of_pos]
      | 1, _ => norm_num [sum_range_succ, abs_of_pos])
    (fun a x h => by
      have := C160_rescale (by norm_num) (by decide : 0 < 4) (C160_relu (by norm_num) h)
      norm_num at this ⊢
      exact this) rfl rfl rfl rfl 4

example := C160_network (fun _ => of 64 1) (fun _ => 2) (fun i => if i = 0 then 1 / 10 else 1 / 5) (fun i => if i = 0 then 127 else 97)
  (fun i => if i = 0 then 1 / 20 else 13 / 20) [exQuantF] [exQuantG] rfl (fun i => [[4, 3], [4, 2]].getD i []) (fun i hi => by
    match i, hi with
    | 0, _ => exact exQuantDense) (fun i => 9 - (i.sum : Nat)) (fun i => 1 / 10 * (9 - ((i.sum : Nat) : ℝ)) + 1 / 30)
  (fun i hi => by
    match i, hi with
    | [a, b], hi =>
      have h1 := hi.1
      have h2 := hi.2.1
      simp only [Range, List.sum_cons, List.sum_nil]
      omega)
  (fun i hi => by
    match i, hi with
    | [a, b], hi =>
      have h1 := hi.1
      have h2 := hi.2.1
      simp only [List.sum_cons, List.sum_nil, if_true, abs_le]
      omega)
  (fun i _ => by simp only [if_true, Int.cast_sub, Int.cast_natCast, Int.cast_ofNat]; ring_nf; norm_num)

example := C160_conv_nhwc (w := 32) (s := 1 / 10) (t := 1 / 2) (M := 127) (M' := 10000) (ε := 0) (δ := 0) (β := 0) (ε' := 0)
  (ρ := Stands 32 (1 / 10 * (1 / 2)) 10000 0) (fun _ => of 32 1) (fun _ => of 32 1) (fun _ => of 32 1) (fun _ => 4) (fun _ => of 32 1)
  (fun _ => 1) (fun _ => 2) (fun _ => 3) (fun _ => 4) (fun _ => 5) (by decide) le_rfl relu_acts relu_acts exL_ok exW_ok exLayer_axes
  (c := 3) (by decide) (fun p q k e => (p : ℤ) - q + k - e) (fun p q k e => 1 / 2 * ((p : ℝ) - q + k - e)) (fun e => 9 * e)
  (fun e => 1 / 20 * (9 * e)) (by decide) (by decide) (fun _ _ _ _ _ _ _ _ => by push_cast; norm_num) (fun _ _ => by push_cast; norm_num)
  (by decide) (by decide) (fun _ _ => by simp) (fun _ _ h => C160_relu (by norm_num) h)
  (wInit := exInit (fn4 fun p q k e => of 32 ((p : ℤ) - q + k - e))) (bInit := exInit (fn1 fun e => of 32 (9 * (e : ℤ))))
  (wInit' := exInit (fn4 fun p q k e => 1 / 2 * ((p : ℝ) - q + k - e))) (bInit' := exInit (fn1 fun e => 1 / 20 * (9 * (e : ℝ)))) rfl rfl rfl rfl 2
example := C160_conv_nchw (w := 32) (s := 1 / 10) (t := 1 / 2) (M := 127) (M' := 10000) (ε := 0) (δ := 0) (β := 0) (ε' := 0)
  (ρ := Stands 32 (1 / 10 * (1 / 2)) 10000 0) (fun _ => of 32 1) (fun _ => of 32 1) (fun _ => of 32 1) (fun _ => 4) (fun _ => of 32 1)
  (fun _ => 1) (fun _ => 2) (fun _ => 3) (fun _ => 4) (fun _ => 5) (by decide) le_rfl relu_acts relu_acts exL_ok exW_ok exLayer_axes
  (c := 3) (fun e k p q => (p : ℤ) - q + k - e) (fun e k p q => 1 / 2 * ((p : ℝ) - q + k - e)) (fun e => 9 * e)
  (fun e => 1 / 20 * (9 * e)) (by decide) (by decide) (fun _ _ _ _ _ _ _ _ => by push_cast; norm_num) (fun _ _ => by push_cast; norm_num)
  (by decide) (by decide) (fun _ _ => by simp) (fun _ _ h => C160_relu (by norm_num) h)
  (wInit := exInit (fn4 fun e k p q => of 32 ((p : ℤ) - q + k - e))) (bInit := exInit (fn1 fun e => of 32 (9 * (e : ℤ))))
  (wInit' := exInit (fn4 fun e k p q => 1 / 2 * ((p : ℝ) - q + k - e))) (bInit' := exInit (fn1 fun e => 1 / 20 * (9 * (e : ℝ)))) rfl rfl rfl rfl 2
example := C160_max_pool (w := 32) (s := 1 / 10) (M := 127) (ε := 1 / 20) (fun _ => of 32 1) (fun _ => 2) (by norm_num) (lowest := -2 ^ 31)
  (lowest' := -1000) (by decide) (by decide) (by norm_num) exPoolH_ok exPoolW_ok exPool_axes (by
    intro i hi j hj
    refine ⟨i, 2 * j, ⟨0, by decide, ?_⟩, 0, by decide, ?_⟩ <;> simp [Axis.Hits, Axis.pos, exPoolH, exPoolW] at * <;> omega) 2 3
example := C160_mean_pool (w := 64) (s := 1 / 10) (M := 127) (ε := 1 / 20) (fun _ => of 64 1) (fun _ => 2) (by norm_num) (by decide)
  (by decide) exPoolH_ok exPoolW_ok exPool_axes (by
    intro i hi j hj
    refine ⟨i, 2 * j, ⟨0, by decide, ?_⟩, 0, by decide, ?_⟩ <;> simp [Axis.Hits, Axis.pos, exPoolH, exPoolW] at * <;> omega) 2 3
/-- Integers and the numbers they stand for. -/
theorem exStands (ε : ℝ) (b : Nat) (hb : b < 2) (j : Nat) (hj : j < 3) :
    Stands 8 (1 / 10) 9 |ε| (of 8 (if j = b then 9 else j)) (1 / 10 * ((if j = b then 9 else j : ℤ) : ℝ) + ε) := by
  refine ⟨if j = b then 9 else j, of_pos ?_, ?_, ?_, by rw [add_sub_cancel_left]⟩ <;> revert b j <;> decide

example := C160_class_exact (w := 8) (s := 1 / 10) (by norm_num) (M := 9) u32 (n := 2) (k := 3)
  (fun b hb j hj => abs_zero (α := ℝ) ▸ exStands 0 b hb j hj) (y := [5, 5]) rfl
example := C160_class (w := 8) u32 (n := 2) (k := 3) (fun b hb j hj => exStands (1 / 30) b hb j hj)
  (Z := fun b j => if j = b then 9 else j) (fun b hb j hj => of_pos (by revert b j; decide)) (cls := id) (fun b hb => by simp; omega)
  (by norm_num) (fun b hb j hj hne => by
    have : ((j : ℕ) : ℝ) ≤ 2 := by exact_mod_cast (by omega : j ≤ 2)
    have e : j ≠ b := hne
    simp only [id, if_neg e, if_true, Int.cast_natCast, Int.cast_ofNat]
    rw [abs_of_pos (by norm_num)]
    linarith) (y := [5, 5]) rfl

end StdNN
