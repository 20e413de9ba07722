import Verif.Props.RoundingLayers
import Verif.Props.Examples
import Mathlib.Analysis.SpecialFunctions.Log.Basic
import Mathlib.Analysis.Complex.ExponentialBounds
/-!
# C127: rounding errors of softmax, cross entropy and batch normalisation
-/
namespace StdNN
open IntTy Spec Outcome Finset Models
variable {u : ℝ} {rnd : ℝ → ℝ}

/-! ## Numbers known up to a factor -/

namespace Spec.Factor
variable {q q' a b c d : ℝ}

theorem mono (h : Factor q a b) (hq : 1 ≤ q) (hq' : q ≤ q') : Factor q' a b := by
  obtain ⟨t, h1, h2, h3⟩ := h
  exact ⟨t, (one_div_le_one_div_of_le (by linarith) hq').trans h1, h2.trans hq', h3⟩

theorem refl (a : ℝ) : Factor 1 a a := ⟨1, by norm_num, le_rfl, by ring⟩

theorem mul (h : Factor q a b) (h' : Factor q' c d) (hq : 1 ≤ q) (hq' : 1 ≤ q') : Factor (q * q') (a * c) (b * d) := by
  obtain ⟨t, h1, h2, rfl⟩ := h
  obtain ⟨s, s1, s2, rfl⟩ := h'
  have p1 : 0 < 1 / q := by positivity
  have p2 : 0 < 1 / q' := by positivity
  refine ⟨t * s, ?_, mul_le_mul h2 s2 (by linarith) (by linarith), by ring⟩
  rw [one_div_mul_one_div_rev (a := q') (b := q) |>.symm]
  rw [mul_comm]
  exact mul_le_mul h1 s1 p2.le (by linarith)

theorem inv (h : Factor q a b) (hq : 1 ≤ q) : Factor q a⁻¹ b⁻¹ := by
  obtain ⟨t, h1, h2, rfl⟩ := h
  have p1 : 0 < 1 / q := by positivity
  have p2 : 0 < t := by linarith
  refine ⟨t⁻¹, ?_, ?_, mul_inv t b⟩
  · rw [← one_div]; exact one_div_le_one_div_of_le p2 h2
  · rw [← one_div, div_le_iff₀ p2]
    rw [div_le_iff₀ (by linarith)] at h1
    linarith

theorem div (h : Factor q a b) (h' : Factor q' c d) (hq : 1 ≤ q) (hq' : 1 ≤ q') : Factor (q * q') (a / c) (b / d) := by
  rw [div_eq_mul_inv, div_eq_mul_inv]
  exact h.mul (h'.inv hq') hq hq'

theorem trans (h : Factor q a b) (h' : Factor q' b c) (hq : 1 ≤ q) (hq' : 1 ≤ q') : Factor (q * q') a c := by
  obtain ⟨t, h1, h2, rfl⟩ := h
  obtain ⟨s, s1, s2, rfl⟩ := h'
  have := mul ⟨t, h1, h2, (mul_one t).symm⟩ ⟨s, s1, s2, rfl⟩ hq hq' (b := 1) (d := c)
  rw [one_mul] at this
  exact this

theorem bounds (h : Factor q a b) (hb : 0 ≤ b) : b / q ≤ a ∧ a ≤ q * b := by
  obtain ⟨t, h1, h2, rfl⟩ := h
  refine ⟨?_, mul_le_mul_of_nonneg_right h2 hb⟩
  have := mul_le_mul_of_nonneg_right h1 hb
  rwa [one_div_mul_eq_div] at this

theorem of_bounds (hb : 0 < b) (h1 : b / q ≤ a) (h2 : a ≤ q * b) : Factor q a b := by
  refine ⟨a / b, ?_, (div_le_iff₀ hb).2 h2, (div_mul_cancel₀ a hb.ne').symm⟩
  rw [le_div_iff₀ hb, one_div_mul_eq_div]
  exact h1

theorem nonneg (h : Factor q a b) (hq : 1 ≤ q) (hb : 0 ≤ b) : 0 ≤ a :=
  le_trans (div_nonneg hb (by linarith)) (h.bounds hb).1

theorem add (h : Factor q a b) (h' : Factor q c d) (hq : 1 ≤ q) (hb : 0 ≤ b) (hd : 0 ≤ d) : Factor q (a + c) (b + d) := by
  rcases eq_or_lt_of_le (add_nonneg hb hd) with e | p
  · have eb : b = 0 := by linarith
    have ed : d = 0 := by linarith
    subst eb ed
    obtain ⟨t, -, -, rfl⟩ := h
    obtain ⟨s, -, -, rfl⟩ := h'
    exact ⟨1, (div_le_one (by linarith)).2 hq, hq, by ring⟩
  · obtain ⟨h1, h2⟩ := h.bounds hb
    obtain ⟨h3, h4⟩ := h'.bounds hd
    exact of_bounds p (by rw [add_div]; linarith) (by rw [mul_add]; linarith)

theorem max (h : Factor q a b) (hq : 1 ≤ q) (hb : 0 < b) {e : ℝ} (he : 0 ≤ e) : Factor q (max e a) (max e b) := by
  obtain ⟨h1, h2⟩ := h.bounds hb.le
  have hq0 : 0 < q := by linarith
  refine of_bounds (lt_max_of_lt_right hb) ?_ ?_
  · rw [div_le_iff₀ hq0, max_mul_of_nonneg _ _ hq0.le]
    exact max_le_max (le_mul_of_one_le_right he hq) ((div_le_iff₀ hq0).1 h1)
  · rw [mul_max_of_nonneg _ _ hq0.le]
    exact max_le_max (le_mul_of_one_le_left he hq) h2

theorem close (h : Factor q a b) (hq : 1 ≤ q) : |a - b| ≤ (q - 1) * |b| := by
  obtain ⟨t, h1, h2, rfl⟩ := h
  have e : t * b - b = (t - 1) * b := by ring
  rw [e, abs_mul]
  refine mul_le_mul_of_nonneg_right (abs_le.2 ⟨?_, by linarith⟩) (abs_nonneg _)
  have : 2 - q ≤ 1 / q := by
    rw [le_div_iff₀ (by linarith)]
    nlinarith [sq_nonneg (q - 1)]
  linarith

/-- A relative error is a factor. -/
theorem of_rel {w : ℝ} (hw : 0 ≤ w) (hw1 : w < 1) (h : |a - b| ≤ w * |b|) : Factor (1 / (1 - w)) a b := by
  rcases eq_or_ne b 0 with rfl | hb
  · simp only [abs_zero, mul_zero] at h
    have : a = 0 := by simpa using abs_nonpos_iff.1 h
    have h1 : (1 : ℝ) ≤ 1 / (1 - w) := by
      rw [le_div_iff₀ (by linarith)]; linarith
    exact ⟨1, (div_le_one (by linarith)).2 h1, h1, by rw [this]; ring⟩
  · have hab : 0 < |b| := abs_pos.2 hb
    have ht : |a / b - 1| ≤ w := by
      have : a / b - 1 = (a - b) / b := by field_simp
      rw [this, abs_div, div_le_iff₀ hab]
      exact h
    have := abs_le.1 ht
    refine ⟨a / b, ?_, ?_, (div_mul_cancel₀ a hb).symm⟩
    · rw [one_div_one_div]; linarith
    · rw [le_div_iff₀ (by linarith)]
      nlinarith

/-- One more rounding. -/
theorem round (h : Factor q a b) (hq : 1 ≤ q) (hu : 0 ≤ u) (hu1 : u < 1) (hr : RelErr u rnd) :
    Factor (q / (1 - u)) (rnd a) b := by
  have h1 : (1 : ℝ) ≤ 1 / (1 - u) := by
    rw [le_div_iff₀ (by linarith)]; linarith
  have := (of_rel hu hu1 (hr a)).trans h h1 hq
  rwa [one_div_mul_eq_div] at this

theorem exp {x y D : ℝ} (h : |x - y| ≤ D) : Factor (Real.exp D) (Real.exp x) (Real.exp y) := by
  have := abs_le.1 h
  refine of_bounds (Real.exp_pos _) ?_ ?_
  · rw [← Real.exp_sub]; exact Real.exp_le_exp.2 (by linarith)
  · rw [← Real.exp_add]; exact Real.exp_le_exp.2 (by linarith)

end Spec.Factor

theorem one_le_div_pow {q : ℝ} (hu : 0 ≤ u) (hu1 : u < 1) (hq : 1 ≤ q) (n : Nat) : 1 ≤ q / (1 - u) ^ n := by
  rw [le_div_iff₀ (pow_pos (by linarith) n)]
  have := pow_le_one₀ (by linarith : (0 : ℝ) ≤ 1 - u) (by linarith) (n := n)
  linarith

/-- The rounded sum of numbers of one sign, each known up to a factor. -/
theorem seqSum_factor {q : ℝ} (hu : 0 ≤ u) (hu1 : u < 1) (hr : RelErr u rnd) (hq : 1 ≤ q) (n : Nat) (a : Nat → Fl rnd)
    (b : Nat → ℝ) (hb : ∀ k < n, 0 ≤ b k) (h : ∀ k < n, Factor q (a k).val (b k)) :
    Factor (q / (1 - u) ^ n) (seqSum n a).val (∑ k ∈ range n, b k) := by
  induction n with
  | zero => exact ⟨1, (div_le_one (by simpa using by linarith)).2 (by simpa using hq), by simpa using hq, by simp [seqSum, Fl.val_zero]⟩
  | succ n ih =>
    rw [sum_range_succ, seqSum, Fl.val_add, pow_succ, ← div_div]
    have h1 := ih (fun k hk => hb k (by omega)) fun k hk => h k (by omega)
    have hq1 := one_le_div_pow hu hu1 hq n
    have h2 : Factor (q / (1 - u) ^ n) (a n).val (b n) := (h n (by omega)).mono hq
      (le_div_self (by linarith) (pow_pos (by linarith) n) (pow_le_one₀ (by linarith) (by linarith)))
    exact (h1.add h2 hq1 (sum_nonneg fun k hk => hb k (by have := mem_range.1 hk; omega)) (hb n (by omega))).round hq1 hu hu1 hr

/-! ## Softmax -/

/-- The exponential of the implementation has relative error at most `e`. -/
def ExpErr (e : ℝ) (fexp : Fl rnd → Fl rnd) : Prop := ∀ x, |(fexp x).val - Real.exp x.val| ≤ e * Real.exp x.val

/-- By what factor a softmax of `n` scores can be off: `u` is the relative error of the arithmetic, `e` that of the
exponential, `η` the error of the scores and `D` their spread. -/
noncomputable def softmaxFactor (u e : ℝ) (n : Nat) (η D : ℝ) : ℝ :=
  Real.exp (2 * η + u * (D + 2 * η)) / ((1 - e) * (1 - u) ^ (n + 1))

theorem softmax_one_div {n i : Nat} (x : Nat → ℝ) : Spec.softmax n x i = 1 / ∑ j ∈ range n, Real.exp (x j - x i) := by
  unfold Spec.softmax
  simp only [Real.exp_sub]
  rw [← sum_div, one_div_div]

theorem one_le_softmaxFactor {e η D : ℝ} (hu : 0 ≤ u) (hu1 : u < 1) (he : 0 ≤ e) (he1 : e < 1) (hη : 0 ≤ η) (hD : 0 ≤ D)
    (n : Nat) : 1 ≤ softmaxFactor u e n η D := by
  unfold softmaxFactor
  rw [← div_div]
  refine one_le_div_pow hu hu1 ?_ _
  rw [le_div_iff₀ (by linarith)]
  have : 1 ≤ Real.exp (2 * η + u * (D + 2 * η)) := Real.one_le_exp (by positivity)
  linarith

theorem softmax_value {e η D : ℝ} (hu : 0 ≤ u) (hu1 : u < 1) (hr : RelErr u rnd) (he : 0 ≤ e) (he1 : e < 1)
    {fexp : Fl rnd → Fl rnd} (hexp : ExpErr e fexp) {eps : Fl rnd} (heps : 0 ≤ eps.val) {n i : Nat} (hi : i < n)
    (A : Nat → Fl rnd) (X : Nat → ℝ) (hη : ∀ j < n, |(A j).val - X j| ≤ η) (hD : ∀ j < n, |X j - X i| ≤ D) :
    Factor (softmaxFactor u e n η D)
      (stdMax eps (1 / seqSum n fun j => fexp (A j - A i)) : Fl rnd).val (max eps.val (Spec.softmax n X i)) := by
  have hη0 : 0 ≤ η := (abs_nonneg _).trans (hη i hi)
  have hD0 : 0 ≤ D := (abs_nonneg _).trans (hD i hi)
  have hE : 1 ≤ Real.exp (2 * η + u * (D + 2 * η)) := Real.one_le_exp (by positivity)
  have h1e : (1 : ℝ) ≤ 1 / (1 - e) := by rw [le_div_iff₀ (by linarith)]; linarith
  have hq : 1 ≤ Real.exp (2 * η + u * (D + 2 * η)) / (1 - e) := by
    rw [le_div_iff₀ (by linarith)]; linarith
  have term : ∀ j < n, Factor (Real.exp (2 * η + u * (D + 2 * η)) / (1 - e)) (fexp (A j - A i)).val (Real.exp (X j - X i)) :=
      fun j hj => by
    have a1 : Factor (1 / (1 - e)) (fexp (A j - A i)).val (Real.exp (A j - A i).val) :=
      Factor.of_rel he he1 (by rw [abs_of_pos (Real.exp_pos _)]; exact hexp _)
    have a2 : |(A j).val - (A i).val - (X j - X i)| ≤ 2 * η := by
      have e1 : (A j).val - (A i).val - (X j - X i) = ((A j).val - X j) - ((A i).val - X i) := by ring
      rw [e1]
      exact (abs_sub _ _).trans (by linarith [hη j hj, hη i hi])
    have a3 : |(A j).val - (A i).val| ≤ D + 2 * η := by
      have e1 : (A j).val - (A i).val = (X j - X i) + ((A j).val - (A i).val - (X j - X i)) := by ring
      rw [e1]
      exact (abs_add_le _ _).trans (add_le_add (hD j hj) a2)
    have a4 : |(A j - A i).val - (X j - X i)| ≤ 2 * η + u * (D + 2 * η) := by
      have e1 : (A j - A i).val - (X j - X i) =
          ((A j).val - (A i).val - (X j - X i)) + (rnd ((A j).val - (A i).val) - ((A j).val - (A i).val)) := by
        rw [Fl.val_sub]; ring
      rw [e1]
      exact (abs_add_le _ _).trans (add_le_add a2 ((hr _).trans (mul_le_mul_of_nonneg_left a3 hu)))
    have := a1.trans (Factor.exp a4) h1e hE
    rwa [one_div_mul_eq_div] at this
  have hsum := seqSum_factor hu hu1 hr hq n (fun j => fexp (A j - A i)) (fun j => Real.exp (X j - X i))
    (fun _ _ => (Real.exp_pos _).le) term
  have hq1 := one_le_div_pow hu hu1 hq n
  have hdiv := ((Factor.refl 1).div hsum le_rfl hq1).round (by rw [one_mul]; exact hq1) hu hu1 hr
  have eq1 : 1 * (Real.exp (2 * η + u * (D + 2 * η)) / (1 - e) / (1 - u) ^ n) / (1 - u) = softmaxFactor u e n η D := by
    unfold softmaxFactor
    rw [one_mul, div_div, div_div, pow_succ]
  rw [eq1, ← softmax_one_div] at hdiv
  have hpos : 0 < Spec.softmax n X i := by
    rw [softmax_one_div]
    exact one_div_pos.2 (sum_pos (fun _ _ => Real.exp_pos _) ⟨i, mem_range.2 hi⟩)
  have key := hdiv.max (one_le_softmaxFactor hu hu1 he he1 hη0 hD0 n) hpos heps
  have em : (stdMax eps (1 / seqSum n fun j => fexp (A j - A i)) : Fl rnd).val =
      max eps.val (rnd (1 / (seqSum n fun j => fexp (A j - A i)).val)) := by
    unfold stdMax
    split
    · next c => exact (max_eq_right (le_of_lt c)).symm
    · next c => exact (max_eq_left (not_lt.1 c)).symm
  rw [em]
  exact key

/-- C127 (softmax): the computed value of every entry is the exact one (not below `eps`) times a factor between `1/q` and `q`,
where `q = softmaxFactor u e n η D`; `η` bounds the error of the scores in its row and `D` their distance to its own. -/
theorem C127_softmax {e : ℝ} (hu : 0 ≤ u) (hu1 : u < 1) (hr : RelErr u rnd) (he : 0 ≤ e) (he1 : e < 1)
    {fexp : Fl rnd → Fl rnd} (hexp : ExpErr e fexp) {eps : Fl rnd} (heps : 0 ≤ eps.val) (ds : List Nat) (n : Nat)
    (A : List Nat → Fl rnd) {z : Nat} {m : List (Fl rnd)} (hz : z + (ds ++ [n]).prod ≤ m.length) :
    ∃ Z : List Nat → Fl rnd,
      Ops.softmax fexp eps (ds ++ [n]) (ds ++ [n]) (.ext (tab (ds ++ [n]) A).data) z m =
        .ok (store m z (tab (ds ++ [n]) Z).data) ∧
      ∀ (X : List Nat → ℝ) (p : List Nat) (i : Nat) (η D : ℝ), i < n →
        (∀ j < n, |(A (p ++ [j])).val - X (p ++ [j])| ≤ η) → (∀ j < n, |X (p ++ [j]) - X (p ++ [i])| ≤ D) →
        Factor (softmaxFactor u e n η D) (Z (p ++ [i])).val (max eps.val (Spec.softmax n (fun j => X (p ++ [j])) i)) := by
  refine ⟨_, C51_order fexp eps ds n A hz, fun X p i η D hi hη hD => ?_⟩
  simp only [List.dropLast_concat, List.getLastD_concat]
  exact softmax_value hu hu1 hr he he1 hexp heps hi (fun j => A (p ++ [j])) (fun j => X (p ++ [j])) hη hD

theorem le_topOf {ι : Type} [DecidableEq ι] {low : ℝ} {s : Finset ι} {f : ι → ℝ} {a : ι} (ha : a ∈ s) :
    f a ≤ topOf low s f := by
  unfold topOf
  rw [Finset.le_fold_max]
  exact .inr ⟨a, ha, le_rfl⟩

/-- C127 (softmax layer): the bound in the form that composes along a network. -/
theorem C127_softmax_layer {e : ℝ} (hu : 0 ≤ u) (hu1 : u < 1) (hr : RelErr u rnd) (he : 0 ≤ e) (he1 : e < 1)
    {fexp : Fl rnd → Fl rnd} (hexp : ExpErr e fexp) {eps : Fl rnd} (heps : 0 ≤ eps.val) (junk : Nat → Fl rnd) (n k : Nat) :
    Accurate (Layers.activation junk fun s x m => Ops.softmax fexp eps s x.dims (.ext x.data) 0 m) [n, k] [n, k]
      (fun X => fn2 fun b i => max eps.val (Spec.softmax k (fun j => X [b, j]) i))
      (fun X D => fn2 fun b i =>
        (softmaxFactor u e k (topOf 0 (range k) fun j => D [b, j]) (topOf 0 (range k) fun j => |X [b, j] - X [b, i]|) - 1) *
          max eps.val (Spec.softmax k (fun j => X [b, j]) i)) := fun A => by
  have hz : 0 + ([n] ++ [k]).prod ≤ (fresh junk [n, k].prod).length := by simp [Layers.fresh_length]
  obtain ⟨Z, h1, h2⟩ := C127_softmax hu hu1 hr he he1 hexp heps [n] k A hz
  refine ⟨Z, ⟨[], ?_⟩, fun X D hX idx hv => ?_⟩
  · rw [store_all (by simp [Layers.fresh_length])] at h1
    have e : Layers.newResult junk (.ok [n, k])
        (fun s m => Ops.softmax fexp eps s [n, k] (.ext (tab [n, k] A).data) 0 m) = _ := Layers.newResult_run h1
    show Alloc.bind _ _ = _
    simp only [Ops.endoShape, tab_dims]
    rw [e]
    rfl
  · match idx, hv with
    | [b, i], hv =>
      have hi : i < k := hv.2.1
      have t1 : ∀ j < k, |(A [b, j]).val - X [b, j]| ≤ topOf 0 (range k) fun j => D [b, j] := fun j hj =>
        (hX [b, j] ⟨hv.1, hj, trivial⟩).trans (le_topOf (f := fun j => D [b, j]) (mem_range.2 hj))
      have t2 : ∀ j < k, |X [b, j] - X [b, i]| ≤ topOf 0 (range k) fun j => |X [b, j] - X [b, i]| := fun j hj =>
        le_topOf (f := fun j => |X [b, j] - X [b, i]|) (mem_range.2 hj)
      have key := (h2 X [b] i _ _ hi t1 t2).close (one_le_softmaxFactor hu hu1 he he1 ((abs_nonneg _).trans (t1 i hi))
        ((abs_nonneg _).trans (t2 i hi)) k)
      rw [abs_of_nonneg (heps.trans (le_max_left _ _))] at key
      exact key

/-- C127 (class): the class read off the computed probabilities is the exact one where its probability is more than `q²` times
that of the others and the bound `eps`. -/
theorem C127_class {e : ℝ} (hu : 0 ≤ u) (hu1 : u < 1) (hr : RelErr u rnd) (he : 0 ≤ e) (he1 : e < 1)
    {fexp : Fl rnd → Fl rnd} (hexp : ExpErr e fexp) {eps : Fl rnd} (heps : 0 ≤ eps.val) (t : IntTy) {n k : Nat}
    (A : Nat → Nat → Fl rnd) (X : Nat → Nat → ℝ) {η D : Nat → ℝ} (hη : ∀ b < n, ∀ j < k, |(A b j).val - X b j| ≤ η b)
    (hD : ∀ b < n, ∀ i < k, ∀ j < k, |X b j - X b i| ≤ D b) {cls : Nat → Nat} (hc : ∀ b < n, cls b < k)
    (hm : ∀ b < n, ∀ j < k, j ≠ cls b →
      softmaxFactor u e k (η b) (D b) ^ 2 * max eps.val (Spec.softmax k (X b) j) < Spec.softmax k (X b) (cls b))
    {m : List (Fl rnd)} (hl : m.length = n * k) {y : List Int} (hy : y.length = n) :
    ∃ p : List (Fl rnd), Ops.softmax fexp eps [n, k] [n, k] (.ext (tab [n, k] (fn2 A)).data) 0 m = .ok p ∧
      Kernels.argmax t k p y = .ok ((List.range n).map fun b => t.conv (cls b)) := by
  obtain ⟨Z, h1, h2⟩ := C127_softmax hu hu1 hr he he1 hexp heps [n] k (fn2 A) (z := 0) (m := m) (by simp [hl])
  rw [store_all (by simp [hl])] at h1
  refine ⟨_, h1, ?_⟩
  have ez : tab ([n] ++ [k]) Z = tab [n, k] (fn2 fun b j => Z [b, j]) := tab_congr fun idx hv => by
    match idx, hv with
    | [b, j], _ => rfl
  rw [ez]
  rcases Nat.eq_zero_or_pos n with rfl | hn
  · rw [List.length_eq_zero_iff.1 hy]
    rfl
  · have hk : 1 ≤ k := by have := hc 0 hn; omega
    obtain ⟨a, ea, ha⟩ := C57_argmax t hk (fun b j => Z [b, j]) hy
    rw [ea]
    refine congrArg Outcome.ok (List.map_congr_left fun b hb => ?_)
    have hb' : b < n := by simpa using hb
    obtain ⟨g1, g2, -⟩ := ha b hb'
    have : a b = cls b := by
      by_contra hne
      have val : ∀ j < k, Factor (softmaxFactor u e k (η b) (D b)) (Z [b, j]).val (max eps.val (Spec.softmax k (X b) j)) :=
        fun j hj => h2 (fn2 X) [b] j (η b) (D b) hj (fun i hi => hη b hb' i hi) (fun i hi => hD b hb' j hj i hi)
      have q1 : 1 ≤ softmaxFactor u e k (η b) (D b) := one_le_softmaxFactor hu hu1 he he1
        ((abs_nonneg _).trans (hη b hb' _ (hc b hb'))) ((abs_nonneg _).trans (hD b hb' _ (hc b hb') _ (hc b hb'))) k
      have v1 := ((val _ g1).bounds (heps.trans (le_max_left _ _))).2
      have v2 := ((val _ (hc b hb')).bounds (heps.trans (le_max_left _ _))).1
      have v3 := hm b hb' _ g1 hne
      have v4 : (Z [b, cls b]).val ≤ (Z [b, a b]).val := g2 _ (hc b hb')
      have v5 := (div_le_iff₀ (by linarith)).1 (v2.trans (v4.trans v1))
      have v6 : Spec.softmax k (X b) (cls b) ≤ max eps.val (Spec.softmax k (X b) (cls b)) := le_max_right _ _
      nlinarith
    rw [this]

/-! ## Cross entropy -/

/-- The logarithm of the implementation has relative error at most `l` (at positive arguments). -/
def LogErr (l : ℝ) (flog : Fl rnd → Fl rnd) : Prop := ∀ x, 0 < x.val → |(flog x).val - Real.log x.val| ≤ l * |Real.log x.val|

/-- C127 (cross entropy): of the predictions and targets that the call is given. -/
theorem C127_xentropy {l : ℝ} (hu : 0 ≤ u) (hr : RelErr u rnd) {flog : Fl rnd → Fl rnd} (hlog : LogErr l flog)
    (ds : List Nat) (n : Nat) (P Q : List Nat → Fl rnd) (hQ : ∀ p, Valid ds p → ∀ j < n, 0 < (Q (p ++ [j])).val)
    {z : List (Fl rnd)} (hz : z.length = ds.prod) :
    ∃ L : List Nat → Fl rnd, Ops.xentropy flog ds (tab (ds ++ [n]) P) (tab (ds ++ [n]) Q) z = .ok (tab ds L).data ∧
      ∀ p, Valid ds p →
        |(L p).val - -∑ j ∈ range n, (P (p ++ [j])).val * Real.log (Q (p ++ [j])).val| ≤
          ((1 + l) * (1 + u) ^ (n + 1) - 1) * ∑ j ∈ range n, |(P (p ++ [j])).val| * |Real.log (Q (p ++ [j])).val| := by
  refine ⟨_, C54_order flog ds n P Q hz, fun p hp => ?_⟩
  have hg : (0 : ℝ) ≤ (1 + u) ^ (n + 1) - 1 := by
    have := one_le_pow₀ (by linarith : (1 : ℝ) ≤ 1 + u) (n := n + 1)
    linarith
  set S := (seqSum n fun j => P (p ++ [j]) * flog (Q (p ++ [j]))) with hS
  have h1 := seqSum_error hu hr n (fun j => P (p ++ [j])) fun j => flog (Q (p ++ [j]))
  rw [← hS] at h1
  have h2 : |∑ j ∈ range n, (P (p ++ [j])).val * (flog (Q (p ++ [j]))).val -
      ∑ j ∈ range n, (P (p ++ [j])).val * Real.log (Q (p ++ [j])).val| ≤
        l * ∑ j ∈ range n, |(P (p ++ [j])).val| * |Real.log (Q (p ++ [j])).val| := by
    rw [← sum_sub_distrib, mul_sum]
    refine (abs_sum_le_sum_abs _ _).trans (sum_le_sum fun j hj => ?_)
    rw [← mul_sub, abs_mul]
    have := mul_le_mul_of_nonneg_left (hlog _ (hQ p hp j (mem_range.1 hj))) (abs_nonneg (P (p ++ [j])).val)
    linarith
  have h3 : ∑ j ∈ range n, |(P (p ++ [j])).val| * |(flog (Q (p ++ [j]))).val| ≤
      (1 + l) * ∑ j ∈ range n, |(P (p ++ [j])).val| * |Real.log (Q (p ++ [j])).val| := by
    rw [mul_sum]
    refine sum_le_sum fun j hj => ?_
    have a1 := hlog _ (hQ p hp j (mem_range.1 hj))
    have a2 : |(flog (Q (p ++ [j]))).val| ≤ (1 + l) * |Real.log (Q (p ++ [j])).val| := by
      have e : (flog (Q (p ++ [j]))).val = Real.log (Q (p ++ [j])).val + ((flog (Q (p ++ [j]))).val - Real.log (Q (p ++ [j])).val) := by
        ring
      rw [e]
      exact (abs_add_le _ _).trans (by linarith)
    have := mul_le_mul_of_nonneg_left a2 (abs_nonneg (P (p ++ [j])).val)
    linarith
  rw [Fl.val_neg, ← abs_neg]
  have e : -(-S.val - -∑ j ∈ range n, (P (p ++ [j])).val * Real.log (Q (p ++ [j])).val) =
      (S.val - ∑ j ∈ range n, (P (p ++ [j])).val * (flog (Q (p ++ [j]))).val) +
        (∑ j ∈ range n, (P (p ++ [j])).val * (flog (Q (p ++ [j]))).val -
          ∑ j ∈ range n, (P (p ++ [j])).val * Real.log (Q (p ++ [j])).val) := by ring
  rw [e]
  refine (abs_add_le _ _).trans ((add_le_add (h1.trans (mul_le_mul_of_nonneg_left h3 hg)) h2).trans (le_of_eq ?_))
  ring

/-! ## Batch normalisation -/

/-- The square root of the implementation has relative error at most `w`. -/
def SqrtErr (w : ℝ) (fsqrt : Fl rnd → Fl rnd) : Prop := ∀ x, 0 ≤ x.val → |(fsqrt x).val - √x.val| ≤ w * √x.val

theorem normalize_error {w : ℝ} (hu : 0 ≤ u) (hu1 : u < 1) (hr : RelErr u rnd) (hw : 0 ≤ w) (hw1 : w < 1)
    {fsqrt : Fl rnd → Fl rnd} (hsqrt : SqrtErr w fsqrt) {eps : Fl rnd} (heps : 0 < eps.val) (a μ v β γ : Fl rnd)
    (hv : 0 ≤ v.val) {x d : ℝ} (hd : |a.val - x| ≤ d) :
    |((a - μ) / (fsqrt v + eps) * γ + β).val - ((x - μ.val) / (√v.val + eps.val) * γ.val + β.val)| ≤
      ((1 + u) / ((1 - w) * (1 - u) ^ 4) - 1) * ((|x - μ.val| + d) / (√v.val + eps.val) * |γ.val| + |β.val|) +
        d / (√v.val + eps.val) * |γ.val| := by
  have hs0 : 0 ≤ √v.val := Real.sqrt_nonneg _
  have hs : 0 < √v.val + eps.val := by linarith
  set s := √v.val + eps.val with hsdef
  have h1u : (1 : ℝ) ≤ 1 / (1 - u) := by rw [le_div_iff₀ (by linarith)]; linarith
  have h1w : (1 : ℝ) ≤ 1 / (1 - w) := by rw [le_div_iff₀ (by linarith)]; linarith
  have f1 : Factor (1 / (1 - u)) (a - μ).val (a.val - μ.val) := Factor.of_rel hu hu1 (hr _)
  have f2 : Factor (1 / (1 - w)) (fsqrt v).val √v.val :=
    Factor.of_rel hw hw1 (by rw [abs_of_nonneg hs0]; exact hsqrt v hv)
  have f3 : Factor (1 / (1 - w) / (1 - u)) (fsqrt v + eps).val s :=
    (f2.add ((Factor.refl eps.val).mono le_rfl h1w) h1w hs0 heps.le).round h1w hu hu1 hr
  have q3 : 1 ≤ 1 / (1 - w) / (1 - u) := by
    have := one_le_div_pow hu hu1 h1w 1
    rwa [pow_one] at this
  have f4 := (f1.div f3 h1u q3).round (one_le_mul_of_one_le_of_one_le h1u q3) hu hu1 hr
  have q4 : 1 ≤ 1 / (1 - u) * (1 / (1 - w) / (1 - u)) / (1 - u) := by
    have := one_le_div_pow hu hu1 (one_le_mul_of_one_le_of_one_le h1u q3) 1
    rwa [pow_one] at this
  have f5 := (f4.mul (Factor.refl γ.val) q4 le_rfl).round (by rw [mul_one]; exact q4) hu hu1 hr
  have p1u : 0 < 1 - u := by linarith
  have p1w : 0 < 1 - w := by linarith
  have eq : 1 / (1 - u) * (1 / (1 - w) / (1 - u)) / (1 - u) * 1 / (1 - u) = 1 / ((1 - w) * (1 - u) ^ 4) := by
    field_simp
  rw [eq] at f5
  have q5 : 1 ≤ 1 / ((1 - w) * (1 - u) ^ 4) := by
    rw [← div_div]
    exact one_le_div_pow hu hu1 h1w 4
  set q := 1 / ((1 - w) * (1 - u) ^ 4) with hq
  have eq2 : (1 + u) / ((1 - w) * (1 - u) ^ 4) = (1 + u) * q := by rw [hq, mul_one_div]
  rw [eq2]
  have hax : |a.val - μ.val| ≤ |x - μ.val| + d := by
    have e : a.val - μ.val = (x - μ.val) + (a.val - x) := by ring
    rw [e]
    exact (abs_add_le _ _).trans (add_le_add le_rfl hd)
  set N := (a.val - μ.val) / s * γ.val with hN
  have hNle : |N| ≤ (|x - μ.val| + d) / s * |γ.val| := by
    rw [hN, abs_mul, abs_div, abs_of_pos hs]
    exact mul_le_mul_of_nonneg_right ((div_le_div_iff_of_pos_right hs).2 hax) (abs_nonneg _)
  have c1 : |((a - μ) / (fsqrt v + eps) * γ).val + β.val - (N + β.val)| ≤
      (q - 1) * ((|x - μ.val| + d) / s * |γ.val| + |β.val|) := by
    have e : ((a - μ) / (fsqrt v + eps) * γ).val + β.val - (N + β.val) = ((a - μ) / (fsqrt v + eps) * γ).val - N := by ring
    rw [e]
    refine (f5.close q5).trans (mul_le_mul_of_nonneg_left ?_ (by linarith))
    linarith [abs_nonneg β.val]
  have c2 := rnd_close hu hr c1 ((abs_add_le _ _).trans (add_le_add hNle le_rfl))
  have c3 : |N + β.val - ((x - μ.val) / s * γ.val + β.val)| ≤ d / s * |γ.val| := by
    have e : N + β.val - ((x - μ.val) / s * γ.val + β.val) = (a.val - x) / s * γ.val := by
      rw [hN]; field_simp; ring
    rw [e, abs_mul, abs_div, abs_of_pos hs]
    exact mul_le_mul_of_nonneg_right ((div_le_div_iff_of_pos_right hs).2 hd) (abs_nonneg _)
  rw [Fl.val_add]
  have e : rnd (((a - μ) / (fsqrt v + eps) * γ).val + β.val) - ((x - μ.val) / s * γ.val + β.val) =
      (rnd (((a - μ) / (fsqrt v + eps) * γ).val + β.val) - (N + β.val)) + (N + β.val - ((x - μ.val) / s * γ.val + β.val)) := by
    ring
  rw [e]
  refine (abs_add_le _ _).trans (add_le_add (c2.trans (le_of_eq ?_)) c3)
  ring

section
variable {w : ℝ} {fsqrt : Fl rnd → Fl rnd} {eps : Fl rnd} (junkM junkV junkB junkG junkY : Nat → Fl rnd) {act : Act (Fl rnd)}
  {f : Fl rnd → Fl rnd} {g : ℝ → ℝ} {c : Nat} (M V β γ : Nat → Fl rnd) {meanInit varInit betaInit gammaInit : Init (Fl rnd)}

/-- C127 (batch normalisation, `nhwc`): in the form that composes along a network. -/
theorem C127_bn_nhwc (hu : 0 ≤ u) (hu1 : u < 1) (hr : RelErr u rnd) (hw : 0 ≤ w) (hw1 : w < 1) (hsqrt : SqrtErr w fsqrt)
    (heps : 0 < eps.val) (hact : ActsAs act f) (hf : Keeps f g) (hV : ∀ k < c, 0 ≤ (V k).val)
    (h1 : meanInit [c] (fresh junkM [c].prod) = .ok (tab [c] (fn1 M)).data)
    (h2 : varInit [c] (fresh junkV [c].prod) = .ok (tab [c] (fn1 V)).data)
    (h3 : betaInit [c] (fresh junkB [c].prod) = .ok (tab [c] (fn1 β)).data)
    (h4 : gammaInit [c] (fresh junkG [c].prod) = .ok (tab [c] (fn1 γ)).data) (n h w' : Nat) :
    Accurate (fun x => Layers.batchNorm fsqrt eps .nhwc junkM junkV junkB junkG junkY act x meanInit varInit betaInit gammaInit)
      [n, h, w', c] [n, h, w', c]
      (fun X => fn4 fun l i j k =>
        g ((X [l, i, j, k] - (M k).val) / (√(V k).val + eps.val) * (γ k).val + (β k).val))
      (fun X D => fn4 fun l i j k => ((1 + u) / ((1 - w) * (1 - u) ^ 4) - 1) *
          ((|X [l, i, j, k] - (M k).val| + D [l, i, j, k]) / (√(V k).val + eps.val) * |(γ k).val| + |(β k).val|) +
        D [l, i, j, k] / (√(V k).val + eps.val) * |(γ k).val|) := fun A => by
  have eA : tab [n, h, w', c] A = tab [n, h, w', c] (fn4 fun l i j k => A [l, i, j, k]) := tab_congr fun idx hv => by
    match idx, hv with
    | [l, i, j, k], _ => rfl
  refine ⟨fn4 fun l i j k => f ((A [l, i, j, k] - M k) / (fsqrt (V k) + eps) * γ k + β k), ?_, fun X D hX idx hv => ?_⟩
  · rw [eA]
    exact Gives.of (C86_bn_nhwc fsqrt eps junkM junkV junkB junkG junkY hact _ M V β γ h1 h2 h3 h4) rfl rfl
  · match idx, hv with
    | [l, i, j, k], hv =>
      exact (hf _ _).trans (normalize_error hu hu1 hr hw hw1 hsqrt heps (A [l, i, j, k]) (M k) (V k) (β k) (γ k)
        (hV k hv.2.2.2.1) (hX _ hv))

/-- C127 (batch normalisation, `nchw`). -/
theorem C127_bn_nchw (hu : 0 ≤ u) (hu1 : u < 1) (hr : RelErr u rnd) (hw : 0 ≤ w) (hw1 : w < 1) (hsqrt : SqrtErr w fsqrt)
    (heps : 0 < eps.val) (hact : ActsAs act f) (hf : Keeps f g) (hV : ∀ k < c, 0 ≤ (V k).val)
    (h1 : meanInit [c] (fresh junkM [c].prod) = .ok (tab [c] (fn1 M)).data)
    (h2 : varInit [c] (fresh junkV [c].prod) = .ok (tab [c] (fn1 V)).data)
    (h3 : betaInit [c] (fresh junkB [c].prod) = .ok (tab [c] (fn1 β)).data)
    (h4 : gammaInit [c] (fresh junkG [c].prod) = .ok (tab [c] (fn1 γ)).data) (n h w' : Nat) :
    Accurate (fun x => Layers.batchNorm fsqrt eps .nchw junkM junkV junkB junkG junkY act x meanInit varInit betaInit gammaInit)
      [n, c, h, w'] [n, c, h, w']
      (fun X => fn4 fun l k i j =>
        g ((X [l, k, i, j] - (M k).val) / (√(V k).val + eps.val) * (γ k).val + (β k).val))
      (fun X D => fn4 fun l k i j => ((1 + u) / ((1 - w) * (1 - u) ^ 4) - 1) *
          ((|X [l, k, i, j] - (M k).val| + D [l, k, i, j]) / (√(V k).val + eps.val) * |(γ k).val| + |(β k).val|) +
        D [l, k, i, j] / (√(V k).val + eps.val) * |(γ k).val|) := fun A => by
  have eA : tab [n, c, h, w'] A = tab [n, c, h, w'] (fn4 fun l k i j => A [l, k, i, j]) := tab_congr fun idx hv => by
    match idx, hv with
    | [l, k, i, j], _ => rfl
  refine ⟨fn4 fun l k i j => f ((A [l, k, i, j] - M k) / (fsqrt (V k) + eps) * γ k + β k), ?_, fun X D hX idx hv => ?_⟩
  · rw [eA]
    exact Gives.of (C86_bn_nchw fsqrt eps junkM junkV junkB junkG junkY hact _ M V β γ h1 h2 h3 h4) rfl rfl
  · match idx, hv with
    | [l, k, i, j], hv =>
      exact (hf _ _).trans (normalize_error hu hu1 hr hw hw1 hsqrt heps (A [l, k, i, j]) (M k) (V k) (β k) (γ k)
        (hV k hv.2.1) (hX _ hv))

end

/-! ## Examples -/

/-- Exponential, logarithm and square root truncated to 24 bits. -/
noncomputable def chopExp (x : Fl chop24) : Fl chop24 := chop24 (Real.exp x.val)
noncomputable def chopLog (x : Fl chop24) : Fl chop24 := chop24 (Real.log x.val)
noncomputable def chopSqrt (x : Fl chop24) : Fl chop24 := chop24 √x.val

theorem chopExp_err : ExpErr (2 ^ (-23 : ℤ)) chopExp := fun x => by
  have := chop24_err (Real.exp x.val)
  rwa [abs_of_pos (Real.exp_pos _)] at this

/-- Non-vacuity of C127: truncation to 24 bits, the bound `10⁻⁶` of the code, predictions 1/2. -/
example : (0 : ℝ) ≤ 2 ^ (-23 : ℤ) ∧ (2 : ℝ) ^ (-23 : ℤ) < 1 ∧ RelErr (2 ^ (-23 : ℤ)) chop24 ∧ ExpErr (2 ^ (-23 : ℤ)) chopExp ∧
    LogErr (2 ^ (-23 : ℤ)) chopLog ∧ SqrtErr (2 ^ (-23 : ℤ)) chopSqrt ∧ 0 < Fl.val (rnd := chop24) (1e-6 : ℝ) ∧
    ∀ p, Valid [3] p → ∀ j < 2, 0 < Fl.val (rnd := chop24) ((fun _ => (1 / 2 : ℝ)) (p ++ [j])) :=
  ⟨by positivity, by norm_num, chop24_err, chopExp_err, fun _ _ => chop24_err _,
    fun x _ => by
      have := chop24_err √x.val
      rwa [abs_of_nonneg (Real.sqrt_nonneg _)] at this, by unfold Fl.val; norm_num, fun _ _ _ _ => by unfold Fl.val; norm_num⟩

/-- Non-vacuity of C127: a network of an affine layer and softmax, any weights; the error of its probabilities. -/
example (W : Nat → Nat → Fl chop24) (B junk : Nat → Fl chop24) (eps : Fl chop24) (heps : 0 ≤ eps.val) (n : Nat) :
    ∃ G E, Accurate (composed
        (fun x => Layers.dense junk junk junk Layers.noopAct 3 x (fun _ _ => .ok (tab [4, 3] (fn2 W)).data)
          (fun _ _ => .ok (tab [3] (fn1 B)).data))
        (Layers.activation junk fun s x m => Ops.softmax chopExp eps s x.dims (.ext x.data) 0 m)) [n, 4] [n, 3] G E ∧
      ∀ X b i, G X [b, i] =
        max eps.val (Spec.softmax 3 (fun j => ∑ l ∈ range 4, X [b, l] * (W l j).val + (B j).val) i) :=
  have hu : (0 : ℝ) ≤ 2 ^ (-23 : ℤ) := zpow_nonneg (by norm_num) _
  ⟨_, _, C120_compose (C120_dense hu chop24_err junk junk junk noop_acts id_keeps (by decide) W B rfl rfl n)
    (C127_softmax_layer hu (by norm_num) chop24_err hu (by norm_num) chopExp_err heps junk n 3), fun _ _ _ => rfl⟩

/-- Non-vacuity of C127: batch normalisation of two channels with variances 1 and 4 and any mean, scale and shift, then relu. -/
example (M β γ junk : Nat → Fl chop24) (n : Nat) :
    ∃ G E, Accurate (fun x => Layers.batchNorm chopSqrt (1e-6 : ℝ) .nhwc junk junk junk junk junk Layers.reluAct x
        (fun _ _ => .ok (tab [2] (fn1 M)).data)
        (fun _ _ => .ok (tab [2] (fn1 fun k => (if k = 0 then 1 else 4 : ℝ))).data)
        (fun _ _ => .ok (tab [2] (fn1 β)).data) (fun _ _ => .ok (tab [2] (fn1 γ)).data)) [n, 4, 4, 2] [n, 4, 4, 2] G E :=
  have hu : (0 : ℝ) ≤ 2 ^ (-23 : ℤ) := zpow_nonneg (by norm_num) _
  ⟨_, _, C127_bn_nhwc junk junk junk junk junk M (fun k => (if k = 0 then 1 else 4 : ℝ)) β γ hu (by norm_num) chop24_err hu
    (by norm_num) (fun x _ => by
      have := chop24_err √x.val
      rwa [abs_of_nonneg (Real.sqrt_nonneg _)] at this) (by unfold Fl.val; norm_num) relu_acts relu_keeps
    (fun k _ => by unfold Fl.val; split <;> norm_num) rfl rfl rfl rfl n 4 4⟩

/-- Non-vacuity of C127 (class): the exact scores 0 and 1 of one example; class 1 is found. -/
example (t : IntTy) : ∃ p : List (Fl chop24),
    Ops.softmax chopExp (1e-6 : ℝ) [1, 2] [1, 2] (.ext (tab [1, 2] (fn2 fun _ j => (if j = 0 then 0 else 1 : ℝ))).data) 0
      [(0 : ℝ), (0 : ℝ)] = .ok p ∧ Kernels.argmax t 2 p [0] = .ok ((List.range 1).map fun _ => t.conv (1 : Nat)) := by
  have hu : (0 : ℝ) ≤ 2 ^ (-23 : ℤ) := zpow_nonneg (by norm_num) _
  refine C127_class (u := 2 ^ (-23 : ℤ)) (e := 2 ^ (-23 : ℤ)) hu (by norm_num) chop24_err hu (by norm_num) chopExp_err
    (by unfold Fl.val; norm_num) t _ (fun _ j => if j = 0 then 0 else 1) (η := fun _ => 0) (D := fun _ => 1)
    (fun _ _ j _ => le_of_eq (by simp [Fl.val])) (fun _ _ i _ j _ => by split <;> split <;> norm_num) (cls := fun _ => 1)
    (fun _ _ => by omega) (fun _ _ j hj hne => ?_) rfl rfl
  have ej : j = 0 := by omega
  subst ej
  have e1 : Real.exp (2 * 0 + (2 : ℝ) ^ (-23 : ℤ) * (1 + 2 * 0)) ≤ 11 / 10 := by
    have h := Real.add_one_le_exp (-(2 * 0 + (2 : ℝ) ^ (-23 : ℤ) * (1 + 2 * 0)))
    rw [Real.exp_neg] at h
    have hp := Real.exp_pos (2 * 0 + (2 : ℝ) ^ (-23 : ℤ) * (1 + 2 * 0))
    have h2 : (10 : ℝ) / 11 ≤ (Real.exp (2 * 0 + (2 : ℝ) ^ (-23 : ℤ) * (1 + 2 * 0)))⁻¹ := by
      refine le_trans ?_ h
      norm_num
    rw [← one_div, le_div_iff₀ hp] at h2
    linarith
  have e2 : softmaxFactor (2 ^ (-23 : ℤ)) (2 ^ (-23 : ℤ)) 2 0 1 ≤ 6 / 5 := by
    unfold softmaxFactor
    rw [div_le_iff₀ (by norm_num)]
    refine e1.trans ?_
    norm_num
  have e3 : (0 : ℝ) ≤ softmaxFactor (2 ^ (-23 : ℤ)) (2 ^ (-23 : ℤ)) 2 0 1 :=
    le_trans zero_le_one (one_le_softmaxFactor hu (by norm_num) hu (by norm_num) le_rfl zero_le_one 2)
  have e4 : softmaxFactor (2 ^ (-23 : ℤ)) (2 ^ (-23 : ℤ)) 2 0 1 ^ 2 ≤ 2 := (pow_le_pow_left₀ e3 e2 2).trans (by norm_num)
  have x1 : (2 : ℝ) ≤ Real.exp 1 := by have := Real.add_one_le_exp (1 : ℝ); linarith
  have x2 : Real.exp 1 < 3 := lt_trans Real.exp_one_lt_d9 (by norm_num)
  have hv : Fl.val (rnd := chop24) (1e-6 : ℝ) = 1e-6 := rfl
  simp only [Spec.softmax, sum_range_succ, range_zero, sum_empty, if_pos, Real.exp_zero, zero_add, one_ne_zero, if_false, hv]
  have x3 : Real.exp 1 > 2.7 := lt_trans (by norm_num) Real.exp_one_gt_d9
  have p3 : (0 : ℝ) < 1 + Real.exp 1 := by linarith
  have hm : max (1e-6 : ℝ) (1 / (1 + Real.exp 1)) = 1 / (1 + Real.exp 1) := max_eq_right (by
    rw [le_div_iff₀ p3]; norm_num; linarith)
  rw [hm, mul_one_div]
  exact (div_lt_div_iff_of_pos_right p3).2 (by linarith)

/-! ## Concrete cases -/

theorem chopSqrt_err : SqrtErr (2 ^ (-23 : ℤ)) chopSqrt := fun x _ => by
  have := chop24_err √x.val
  rwa [abs_of_nonneg (Real.sqrt_nonneg _)] at this

example := C127_softmax exU exU1 chop24_err exU exU1 chopExp_err (eps := (1e-6 : ℝ)) (by unfold Fl.val; norm_num) [2] 3
  (fun p => exReal ((p.headD 0 : Nat) : ℝ)) (z := 1) (m := List.replicate 8 (0 : ℝ)) (by decide)
example := C127_xentropy (l := 2 ^ (-23 : ℤ)) exU chop24_err (flog := chopLog) (fun _ _ => chop24_err _) [2] 3
  (fun p => exReal ((p.headD 0 : Nat) : ℝ)) (fun _ => (1 / 3 : ℝ)) (fun _ _ _ _ => by unfold Fl.val; norm_num)
  (z := List.replicate 2 (0 : ℝ)) rfl
example := C127_bn_nchw (c := 2) (act := Layers.reluAct) (fun _ => (0 : ℝ)) (fun _ => (1 : ℝ)) (fun _ => (2 : ℝ)) (fun _ => (3 : ℝ))
  (fun _ => (4 : ℝ)) (fun k => exReal ((k : ℝ))) (fun k => exReal ((k : ℝ) + 1)) (fun k => exReal ((k : ℝ) / 2)) (fun k => exReal ((3 - (k : ℝ))))
  exU exU1 chop24_err exU exU1 chopSqrt_err (eps := (1e-6 : ℝ)) (by unfold Fl.val; norm_num) relu_acts relu_keeps
  (fun k _ => (by positivity : (0 : ℝ) ≤ (k : ℝ) + 1)) (meanInit := exInit _) (varInit := exInit _) (betaInit := exInit _)
  (gammaInit := exInit _) rfl rfl rfl rfl 3 2 2

end StdNN
