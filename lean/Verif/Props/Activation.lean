import Verif.Props.Gradients
import Verif.Spec.Softmax
import Mathlib.Analysis.SpecialFunctions.ExpDeriv
import Mathlib.Analysis.SpecialFunctions.Log.Deriv
import Mathlib.Analysis.Calculus.Deriv.Inv
import Mathlib.Algebra.BigOperators.Field
import Mathlib.Analysis.SpecialFunctions.Log.NegMulLog
import Mathlib.Analysis.Calculus.FDeriv.Mul
/-!
# C48-C52, C54, C81: softmax, cross-entropy and their gradients
-/
namespace StdNN
open Spec Outcome Finset
variable {R : Type}

/-! ## C51 -/

theorem tab_snoc' [Zero R] (ds : List Nat) (n : Nat) (F : Nat → Nat → R) :
    (tab [ds.prod, n] (fn2 F)).data =
      (tab (ds ++ [n]) fun idx => F (offset ds idx.dropLast) (idx.getLastD 0)).data := by
  rw [tab_snoc]
  refine congrArg Tensor.data (tab_congr fun idx hv => ?_)
  match idx, hv with
  | [r, j], hv =>
    have hr : r < ds.prod := hv.1
    simp only [fn2_apply]
    rw [List.dropLast_concat, offset_unravel hr]
    simp

/-- C51, law-free: what is written for every element, in the order of the operations; any rank, separate output. -/
theorem C51_order [Zero R] [One R] [Add R] [Sub R] [Div R] [LT R] [DecidableLT R] (exp : R → R) (eps : R) (ds : List Nat)
    (n : Nat) (X : List Nat → R) {z : Nat} {m : List R} (hz : z + (ds ++ [n]).prod ≤ m.length) :
    Ops.softmax exp eps (ds ++ [n]) (ds ++ [n]) (.ext (tab (ds ++ [n]) X).data) z m =
      .ok (store m z (tab (ds ++ [n]) fun idx =>
        let x := fun j => X (idx.dropLast ++ [j])
        let i := idx.getLastD 0
        let v := 1 / seqSum n fun j => exp (x j - x i)
        if eps < v then v else eps).data) := by
  unfold Ops.softmax
  rw [rowsOf_snoc, tab_snoc, Kernels.softmax_run exp eps _ (by simpa using hz), tab_snoc']
  refine congrArg (fun t => Outcome.ok (store m z (Tensor.data t))) (tab_congr fun idx hv => ?_)
  obtain ⟨p, i, rfl⟩ : ∃ p i, idx = p ++ [i] := by
    have hne : idx ≠ [] := by
      rintro rfl
      cases ds <;> simp at hv
    exact ⟨_, _, (List.dropLast_append_getLast hne).symm⟩
  have hp : Valid ds p := by
    have hl : ∀ (ds p : List Nat) (n i : Nat), Valid (ds ++ [n]) (p ++ [i]) → Valid ds p := by
      intro ds
      induction ds with
      | nil =>
        intro p n i h
        match p, h with
        | [], _ => trivial
        | a :: p, h =>
          have := h.2
          cases p <;> simp at this
      | cons d ds ih =>
        intro p n i h
        match p, h with
        | [], h => have := h.2; cases ds <;> simp at this
        | a :: p, h => exact ⟨h.1, ih p n i h.2⟩
    exact hl _ _ _ _ hv
  simp only [List.dropLast_concat, unravel_offset hp, stdMax]

/-- `softmax` with clamp `eps` maps the tensor `X` of shape `dims` to `Z`: for every separate output buffer, at any
address, whatever it held. -/
def Softmaxes (eps : ℝ) (dims : List Nat) (X Z : List Nat → ℝ) : Prop :=
  ∀ (z : Nat) (m : List ℝ), z + dims.prod ≤ m.length →
    Ops.softmax Real.exp eps dims dims (.ext (tab dims X).data) z m = .ok (store m z (tab dims Z).data)

/-- C51: over the reals every element becomes `max eps (softmax of its row)`; any rank at least one. -/
theorem C51_value (eps : ℝ) (ds : List Nat) (n : Nat) (X : List Nat → ℝ) :
    Softmaxes eps (ds ++ [n]) X fun idx =>
      max eps (Spec.softmax n (fun j => X (idx.dropLast ++ [j])) (idx.getLastD 0)) := by
  intro z m hz
  rw [C51_order Real.exp eps ds n X hz]
  refine congrArg (fun t => Outcome.ok (store m z (Tensor.data t))) (tab_congr fun idx hv => ?_)
  have e : ∀ (x : Nat → ℝ) (i : Nat), (1 / seqSum n fun j => Real.exp (x j - x i)) = Spec.softmax n x i := by
    intro x i
    rw [seqSum_eq_sum, Spec.softmax]
    simp only [Real.exp_sub]
    rw [← Finset.sum_div, one_div_div]
  simp only [e, max_def]
  by_cases c : eps < Spec.softmax n (fun j => X (idx.dropLast ++ [j])) (idx.getLastD 0)
  · rw [if_pos c, if_pos c.le]
  · rw [if_neg c]
    by_cases c' : eps ≤ Spec.softmax n (fun j => X (idx.dropLast ++ [j])) (idx.getLastD 0)
    · rw [if_pos c']; exact le_antisymm c' (not_lt.1 c)
    · rw [if_neg c']

/-- The output is determined on valid indices. -/
theorem Softmaxes.value {eps : ℝ} {ds : List Nat} {n : Nat} {X Z : List Nat → ℝ} (h : Softmaxes eps (ds ++ [n]) X Z)
    {p : List Nat} {i : Nat} (hp : Valid ds p) (hi : i < n) :
    Z (p ++ [i]) = max eps (Spec.softmax n (fun j => X (p ++ [j])) i) := by
  have h1 := h 0 (List.replicate (ds ++ [n]).prod 0) (by simp)
  rw [C51_value eps ds n X 0 _ (by simp), store_all (by simp), store_all (by simp)] at h1
  have h2 : tab (ds ++ [n]) (fun idx =>
      max eps (Spec.softmax n (fun j => X (idx.dropLast ++ [j])) (idx.getLastD 0))) = tab (ds ++ [n]) Z := by
    injection h1 with h1
    show Tensor.mk _ _ = Tensor.mk _ _
    exact congrArg (Tensor.mk (ds ++ [n])) h1
  have := tab_eq_iff.1 h2 (p ++ [i]) (valid_append hp (v1 hi))
  simp only [List.dropLast_concat] at this
  rw [← this]
  simp

theorem softmax_pos {n i : Nat} (hi : i < n) (x : Nat → ℝ) : 0 < Spec.softmax n x i :=
  div_pos (Real.exp_pos _) (Finset.sum_pos (fun _ _ => Real.exp_pos _) ⟨i, mem_range.2 hi⟩)

theorem softmax_sum {n : Nat} (hn : 1 ≤ n) (x : Nat → ℝ) : ∑ i ∈ range n, Spec.softmax n x i = 1 := by
  unfold Spec.softmax
  rw [← Finset.sum_div]
  refine div_self (ne_of_gt ?_)
  exact Finset.sum_pos (fun _ _ => Real.exp_pos _) ⟨0, mem_range.2 (by omega)⟩

theorem softmax_le_one {n i : Nat} (hi : i < n) (x : Nat → ℝ) : Spec.softmax n x i ≤ 1 := by
  rw [← softmax_sum (n := n) (by omega) x]
  exact Finset.single_le_sum (fun j hj => (softmax_pos (mem_range.1 hj) x).le) (mem_range.2 hi)

/-- C51: every row of the output is a probability vector up to the clamp: entries positive and between `eps` and 1, their
sum between 1 and `1 + n * eps`, and exactly 1 if no softmax value of the row is below `eps`. -/
theorem C51_probability {eps : ℝ} (h0 : 0 ≤ eps) (h1 : eps ≤ 1) {ds : List Nat} {n : Nat} (hn : 1 ≤ n)
    {X Z : List Nat → ℝ} (h : Softmaxes eps (ds ++ [n]) X Z) {p : List Nat} (hp : Valid ds p) :
    (∀ i < n, 0 < Z (p ++ [i]) ∧ eps ≤ Z (p ++ [i]) ∧ Z (p ++ [i]) ≤ 1) ∧
    1 ≤ ∑ i ∈ range n, Z (p ++ [i]) ∧ ∑ i ∈ range n, Z (p ++ [i]) ≤ 1 + n * eps ∧
    ((∀ i < n, eps ≤ Spec.softmax n (fun j => X (p ++ [j])) i) → ∑ i ∈ range n, Z (p ++ [i]) = 1) := by
  let s := Spec.softmax n (fun j => X (p ++ [j]))
  have hZ : ∀ i ∈ range n, Z (p ++ [i]) = max eps (s i) := fun i hi => h.value hp (mem_range.1 hi)
  have hs : ∑ i ∈ range n, s i = 1 := softmax_sum hn _
  rw [Finset.sum_congr rfl hZ]
  refine ⟨fun i hi => ?_, ?_, ?_, fun hc => ?_⟩
  · rw [hZ i (mem_range.2 hi)]
    exact ⟨lt_of_lt_of_le (softmax_pos hi _) (le_max_right _ _), le_max_left _ _, max_le h1 (softmax_le_one hi _)⟩
  · rw [← hs]
    exact Finset.sum_le_sum fun i _ => le_max_right _ _
  · calc ∑ i ∈ range n, max eps (s i) ≤ ∑ i ∈ range n, (s i + eps) :=
          Finset.sum_le_sum fun i hi => max_le (by have := softmax_pos (mem_range.1 hi) (fun j => X (p ++ [j])); linarith)
            (by linarith)
      _ = 1 + n * eps := by rw [Finset.sum_add_distrib, hs]; simp
  · rw [← hs]
    exact Finset.sum_congr rfl fun i hi => max_eq_right (hc i (mem_range.1 hi))

/-- Non-vacuity: a 2 × 2 tensor with different rows, default clamp; row 1 of the output. -/
example : ∃ Z, Softmaxes (1 / 1000000) ([2] ++ [2]) (fn2 fun i j => (i + 2 * j : ℝ)) Z ∧ Valid [2] [1] ∧
    (0 : ℝ) ≤ 1 / 1000000 ∧ (1 : ℝ) / 1000000 ≤ 1 :=
  ⟨_, C51_value _ [2] 2 _, ⟨by norm_num, trivial⟩, by norm_num, by norm_num⟩

/-! ## C52 -/

/-- C52: adding a constant to every row does not change the output. -/
theorem C52_shift {eps : ℝ} {ds : List Nat} {n : Nat} {X Z X' Z' : List Nat → ℝ} (h : Softmaxes eps (ds ++ [n]) X Z)
    (h' : Softmaxes eps (ds ++ [n]) X' Z') {p : List Nat} (hp : Valid ds p) (c : ℝ)
    (hX : ∀ j < n, X' (p ++ [j]) = X (p ++ [j]) + c) {i : Nat} (hi : i < n) : Z' (p ++ [i]) = Z (p ++ [i]) := by
  rw [h.value hp hi, h'.value hp hi]
  congr 1
  unfold Spec.softmax
  beta_reduce
  have : ∑ j ∈ range n, Real.exp (X' (p ++ [j])) = (∑ j ∈ range n, Real.exp (X (p ++ [j]))) * Real.exp c := by
    rw [Finset.sum_mul]
    exact Finset.sum_congr rfl fun j hj => by rw [hX j (mem_range.1 hj), Real.exp_add]
  rw [this, hX i hi, Real.exp_add, mul_div_mul_right _ _ (Real.exp_ne_zero c)]

/-- C52: the order of the entries of a row is preserved. -/
theorem C52_order {eps : ℝ} {ds : List Nat} {n : Nat} {X Z : List Nat → ℝ} (h : Softmaxes eps (ds ++ [n]) X Z)
    {p : List Nat} (hp : Valid ds p) {i j : Nat} (hi : i < n) (hj : j < n) (hX : X (p ++ [i]) ≤ X (p ++ [j])) :
    Z (p ++ [i]) ≤ Z (p ++ [j]) := by
  rw [h.value hp hi, h.value hp hj]
  refine max_le_max le_rfl ?_
  unfold Spec.softmax
  exact div_le_div_of_nonneg_right (Real.exp_le_exp.2 hX) (Finset.sum_nonneg fun _ _ => (Real.exp_pos _).le)

/-- C52: permuting the entries of a row permutes the output; `τ` is the inverse of `σ`. -/
theorem C52_permutation {eps : ℝ} {ds : List Nat} {n : Nat} {X Z X' Z' : List Nat → ℝ}
    (h : Softmaxes eps (ds ++ [n]) X Z) (h' : Softmaxes eps (ds ++ [n]) X' Z') {p : List Nat} (hp : Valid ds p)
    {σ τ : Nat → Nat} (hσ : ∀ j < n, σ j < n ∧ τ (σ j) = j) (hτ : ∀ j < n, τ j < n ∧ σ (τ j) = j)
    (hX : ∀ j < n, X' (p ++ [j]) = X (p ++ [σ j])) {i : Nat} (hi : i < n) : Z' (p ++ [i]) = Z (p ++ [σ i]) := by
  rw [h.value hp (hσ i hi).1, h'.value hp hi]
  congr 1
  unfold Spec.softmax
  beta_reduce
  rw [hX i hi]
  congr 1
  refine Finset.sum_nbij' σ τ (fun j hj => ?_) (fun j hj => ?_) (fun j hj => ?_) (fun j hj => ?_) (fun j hj => ?_)
  · exact mem_range.2 (hσ j (mem_range.1 hj)).1
  · exact mem_range.2 (hτ j (mem_range.1 hj)).1
  · exact (hσ j (mem_range.1 hj)).2
  · exact (hτ j (mem_range.1 hj)).2
  · rw [hX j (mem_range.1 hj)]

/-- C52: an output row depends on the same input row only. -/
theorem C52_rows {eps : ℝ} {ds ds' : List Nat} {n : Nat} {X Z X' Z' : List Nat → ℝ} (h : Softmaxes eps (ds ++ [n]) X Z)
    (h' : Softmaxes eps (ds' ++ [n]) X' Z') {p p' : List Nat} (hp : Valid ds p) (hp' : Valid ds' p')
    (hX : ∀ j < n, X' (p' ++ [j]) = X (p ++ [j])) {i : Nat} (hi : i < n) : Z' (p' ++ [i]) = Z (p ++ [i]) := by
  rw [h.value hp hi, h'.value hp' hi]
  congr 1
  unfold Spec.softmax
  beta_reduce
  rw [hX i hi, Finset.sum_congr rfl fun j hj => by rw [hX j (mem_range.1 hj)]]

/-- Non-vacuity of the hypotheses: a swap of two entries is such a pair `σ`, `τ`; a shifted row. -/
example : (∀ j < 2, (1 - j) < 2 ∧ 1 - (1 - j) = j) ∧
    (∃ Z, Softmaxes 0 ([] ++ [2]) (fn1 fun j => (j : ℝ)) Z) ∧
    ∃ Z, Softmaxes 0 ([] ++ [2]) (fn1 fun j => (j : ℝ) + 5) Z :=
  ⟨by omega, ⟨_, C51_value _ [] 2 _⟩, ⟨_, C51_value _ [] 2 _⟩⟩

/-! ## C81 -/

/-- C81: softmax must not be called with the output being its input: the row (0, 0) then becomes
(1/2, 1/(exp(1/2) + 1)), while with a separate output it becomes (1/2, 1/2). -/
theorem C81_not_in_place :
    Ops.softmax Real.exp 0 [2] [2] (.mem 0) 0 [0, 0] = .ok [1 / 2, 1 / (Real.exp (1 / 2) + 1)] ∧
    Ops.softmax Real.exp 0 [2] [2] (.ext [0, 0]) 0 [0, 0] = .ok [1 / 2, 1 / 2] ∧
    1 / (Real.exp (1 / 2) + 1) < (1 / 2 : ℝ) := by
  have hpos : (0 : ℝ) < 1 / (Real.exp (1 / 2) + 1) := by positivity
  have hlt : 1 / (Real.exp (1 / 2) + 1) < (1 / 2 : ℝ) := by
    apply one_div_lt_one_div_of_lt (by norm_num)
    have := Real.add_one_lt_exp (show (1 / 2 : ℝ) ≠ 0 by norm_num)
    linarith
  have h2 : (0 : ℝ) < 1 / 2 := by norm_num
  refine ⟨?_, ?_, hlt⟩
  · simp [Ops.softmax, rowsOf, Kernels.softmax, Kernels.softmaxRow, forRange, List.range_succ, Src.shift, Src.rd,
      StdNN.rd, wr, stdMax, Outcome.ok_bind, Outcome.pure_eq, one_add_one_eq_two]
    intro h
    linarith [Real.exp_pos (2⁻¹ : ℝ)]
  · simp [Ops.softmax, rowsOf, Kernels.softmax, Kernels.softmaxRow, forRange, List.range_succ, Src.shift, Src.rd,
      StdNN.rd, wr, stdMax, Outcome.ok_bind, Outcome.pure_eq, one_add_one_eq_two]

/-! ## Vectors as functions on `Fin n` -/

/-- A vector extended by zeros. -/
def extend {n : Nat} (x : Fin n → ℝ) (i : Nat) : ℝ := if h : i < n then x ⟨i, h⟩ else 0

theorem extend_apply {n : Nat} (x : Fin n → ℝ) (i : Fin n) : extend x i = x i := by simp [extend]

theorem ofFn_eq_tab {n : Nat} (x : Fin n → ℝ) : List.ofFn x = (tab [n] (fn1 (extend x))).data := by
  refine data_eq_tab (by simp) ?_
  intro idx hv
  match idx, hv with
  | [i], hv =>
    have hi : i < n := hv.1
    have e : offset [n] [i] = i := by simp
    rw [e, List.getElem?_ofFn, dif_pos hi]
    simp [extend, hi]

theorem tab_eq_ofFn {n : Nat} (f : Nat → ℝ) : (tab [n] (fn1 f)).data = List.ofFn fun i : Fin n => f i := by
  rw [ofFn_eq_tab]
  refine congrArg Tensor.data (tab_congr fun idx hv => ?_)
  match idx, hv with
  | [i], hv =>
    have hi : i < n := hv.1
    simp [extend, hi]

theorem tensor_ofFn {n : Nat} (x : Fin n → ℝ) : (⟨[n], List.ofFn x⟩ : Tensor ℝ) = tab [n] (fn1 (extend x)) := by
  rw [ofFn_eq_tab]
  rfl

/-! ## C48 -/

/-- The Jacobian of softmax applied to a row, as computed, is `y_j * (g_j - ∑ g_i y_i)`. -/
theorem jacobian_row [CommRing R] {n j : Nat} (hj : j < n) (G Y : Nat → R) :
    (seqSum n fun i => G i * if i = j then Y i * (1 - Y i) else -Y i * Y j) =
      Y j * (G j - ∑ i ∈ range n, G i * Y i) := by
  rw [seqSum_eq_sum]
  have : ∀ i ∈ range n, (G i * if i = j then Y i * (1 - Y i) else -Y i * Y j) =
      (if i = j then G i * Y i else 0) - Y j * (G i * Y i) := by
    intro i _
    split
    · rename_i e; subst e; ring
    · ring
  rw [Finset.sum_congr rfl this, Finset.sum_sub_distrib, Finset.sum_ite_eq' , if_pos (mem_range.2 hj), ← Finset.mul_sum]
  ring

/-- C48: the gradient of softmax for any `y`, for every row of a batch, whatever the freshly allocated Jacobian held. -/
theorem C48_formula [CommRing R] (junk : Nat → R) {rows n : Nat} (G Y : Nat → Nat → R) {gx : List R}
    (hgx : gx.length = rows * n) :
    Grad.softmax junk [rows, n] rows n (tab [rows, n] (fn2 G)) (tab [rows, n] (fn2 Y)) gx =
      .ok (tab [rows, n] (fn2 fun r j => Y r j * (G r j - ∑ i ∈ range n, G r i * Y r i))).data := by
  rw [Grad.softmax_run junk G Y hgx]
  refine congrArg (fun t => Outcome.ok (Tensor.data t)) (tab_congr fun idx hv => ?_)
  match idx, hv with
  | [r, j], hv =>
    have hj : j < n := hv.2.1
    simp only [fn2_apply]
    exact jacobian_row hj (G r) (Y r)

/-- C48 for vectors. -/
theorem C48_formula_vector [CommRing R] (junk : Nat → R) {n : Nat} (G Y : Nat → R) {gx : List R} (hgx : gx.length = n) :
    Grad.softmaxRow junk [n] n (tab [n] (fn1 G)) (tab [n] (fn1 Y)) gx =
      .ok (tab [n] (fn1 fun j => Y j * (G j - ∑ i ∈ range n, G i * Y i))).data := by
  rw [Grad.softmaxRow_run junk (fn1 G) (fn1 Y) hgx]
  refine congrArg (fun t => Outcome.ok (Tensor.data t)) (tab_congr fun idx hv => ?_)
  match idx, hv with
  | [j], hv =>
    have hj : j < n := hv.1
    simp only [fn1_apply]
    exact jacobian_row hj G Y

/-- Non-vacuity: a 1 × 2 batch of integers. -/
example : Grad.softmax (fun _ => (9 : Int)) [1, 2] 1 2 ⟨[1, 2], [1, 2]⟩ ⟨[1, 2], [3, 4]⟩ [0, 0] =
    .ok [3 * (1 - 11), 4 * (2 - 11)] := by decide

/-- The softmax vector of a vector. -/
noncomputable def smax {n : Nat} (x : Fin n → ℝ) (i : Fin n) : ℝ := Real.exp (x i) / ∑ j, Real.exp (x j)

theorem smax_eq {n : Nat} (x : Fin n → ℝ) (i : Fin n) : Spec.softmax n (extend x) i = smax x i := by
  unfold Spec.softmax smax
  rw [Finset.sum_range, extend_apply]
  simp only [extend_apply]

/-- What `softmax` writes for a vector. -/
theorem softmax_vector (eps : ℝ) {n : Nat} (x : Fin n → ℝ) {m : List ℝ} (hm : m.length = n) :
    Ops.softmax Real.exp eps [n] [n] (.ext (List.ofFn x)) 0 m = .ok (List.ofFn fun i => max eps (smax x i)) := by
  have h := C51_value eps [] n (fn1 (extend x)) 0 m (by simp [hm])
  rw [store_all (by simp [hm])] at h
  rw [ofFn_eq_tab]
  refine h.trans ?_
  rw [ofFn_eq_tab]
  refine congrArg (fun t => Outcome.ok (Tensor.data t)) (tab_congr fun idx hv => ?_)
  match idx, hv with
  | [i], hv =>
    have hi : i < n := hv.1
    have := smax_eq x ⟨i, hi⟩
    simp only [fn1_apply, extend, hi, dif_pos]
    rw [← this]
    rfl

theorem sum_exp_pos {n : Nat} (i : Fin n) (x : Fin n → ℝ) : 0 < ∑ j, Real.exp (x j) :=
  Finset.sum_pos (fun _ _ => Real.exp_pos _) ⟨i, mem_univ i⟩

theorem isGradient_smax {n : Nat} (gy x : Fin n → ℝ) :
    IsGradient (fun x => ∑ i, gy i * smax x i) (fun j => smax x j * (gy j - ∑ i, gy i * smax x i)) x := by
  rcases Nat.eq_zero_or_pos n with rfl | hn
  · unfold IsGradient
    simpa using hasFDerivAt_const (0 : ℝ) x
  have hS := (sum_exp_pos ⟨0, hn⟩ x)
  set S := ∑ j, Real.exp (x j) with hSdef
  have hA : IsGradient (fun x => ∑ i, gy i * Real.exp (x i)) (fun i => gy i * Real.exp (x i)) x :=
    isGradient_sum (fun i t => gy i * Real.exp t) _ x fun i => (Real.hasDerivAt_exp (x i)).const_mul (gy i)
  have hE : IsGradient (fun x => ∑ i, Real.exp (x i)) (fun i => Real.exp (x i)) x :=
    isGradient_sum (fun _ t => Real.exp t) _ x fun i => Real.hasDerivAt_exp (x i)
  have hI := (hasDerivAt_inv hS.ne').comp_hasFDerivAt x hE
  have hM := HasFDerivAt.mul hA hI
  have e : (fun x : Fin n → ℝ => ∑ i, gy i * smax x i) =
      fun x => (∑ i, gy i * Real.exp (x i)) * (∑ i, Real.exp (x i))⁻¹ := by
    funext x
    rw [Finset.sum_mul]
    refine Finset.sum_congr rfl fun i _ => ?_
    unfold smax
    rw [div_eq_mul_inv, mul_assoc]
  have ev := congrFun e x
  unfold IsGradient
  rw [e]
  refine hM.congr_fderiv ?_
  ext d
  simp only [ev]
  simp only [smax, ← hSdef, _root_.add_apply, _root_.smul_apply, _root_.sum_apply,
    ContinuousLinearMap.proj_apply, smul_eq_mul, Function.comp]
  have h2 : ∀ j, Real.exp (x j) / S * (gy j - (∑ i, gy i * Real.exp (x i)) * S⁻¹) * d j =
      S⁻¹ * (gy j * Real.exp (x j) * d j) +
        (∑ i, gy i * Real.exp (x i)) * (-(S ^ 2)⁻¹ * (Real.exp (x j) * d j)) := by
    intro j
    field_simp
    ring
  simp only [h2]
  rw [Finset.sum_add_distrib, ← Finset.mul_sum, ← Finset.mul_sum, ← Finset.mul_sum]
  ring

/-- C48 over the reals: wherever the clamp is inactive, the gradient evaluated at the output of softmax is the gradient of
`x ↦ ⟨gy, softmax x⟩`, where `sm` is what `softmax` computes for any input. -/
theorem C48_gradient (eps : ℝ) (junk : Nat → ℝ) {n : Nat} (gy x : Fin n → ℝ) {gx : List ℝ} (hgx : gx.length = n) :
    ∃ (g : Fin n → ℝ) (sm : (Fin n → ℝ) → Fin n → ℝ),
      (∀ (x' : Fin n → ℝ) (m : List ℝ), m.length = n →
        Ops.softmax Real.exp eps [n] [n] (.ext (List.ofFn x')) 0 m = .ok (List.ofFn (sm x'))) ∧
      Grad.softmaxRow junk [n] n ⟨[n], List.ofFn gy⟩ ⟨[n], List.ofFn (sm x)⟩ gx = .ok (List.ofFn g) ∧
      ((∀ i, eps < sm x i) → IsGradient (fun x => ∑ i, gy i * sm x i) g x) := by
  refine ⟨fun j => max eps (smax x j) * (gy j - ∑ i, gy i * max eps (smax x i)), fun x i => max eps (smax x i),
    fun x' m hm => softmax_vector eps x' hm, ?_, fun hc => ?_⟩
  · rw [tensor_ofFn, tensor_ofFn, C48_formula_vector junk _ _ hgx, tab_eq_ofFn]
    refine congrArg (fun f => Outcome.ok (List.ofFn f)) (funext fun j => ?_)
    rw [Finset.sum_range]
    simp only [extend_apply]
  · have hc' : ∀ i, eps < smax x i := fun i => by
      have := hc i
      simpa using this
    have hm : ∀ i, max eps (smax x i) = smax x i := fun i => max_eq_right (hc' i).le
    simp only [hm]
    refine HasFDerivAt.congr_of_eventuallyEq (isGradient_smax gy x) ?_
    have hcont : ∀ i, Continuous fun x : Fin n → ℝ => smax x i := by
      intro i
      unfold smax
      refine Continuous.div ?_ ?_ fun x => (sum_exp_pos i x).ne'
      · exact Real.continuous_exp.comp (continuous_apply i)
      · exact continuous_finsetSum _ fun j _ => Real.continuous_exp.comp (continuous_apply j)
    have : ∀ᶠ y in nhds x, ∀ i, eps < smax y i :=
      Filter.eventually_all.2 fun i => (hcont i).continuousAt.eventually (lt_mem_nhds (hc' i))
    filter_upwards [this] with y hy
    exact Finset.sum_congr rfl fun i _ => by rw [max_eq_right (hy i).le]

/-- Non-vacuity: with the library's `eps = 1e-6` the clamp is inactive at the origin. -/
example : ∀ i : Fin 2, (1 : ℝ) / 1000000 < max (1 / 1000000) (smax (fun _ : Fin 2 => (0 : ℝ)) i) := by
  intro i
  have : smax (fun _ : Fin 2 => (0 : ℝ)) i = 1 / 2 := by simp [smax]
  rw [this]
  norm_num

/-! ## C49 -/

/-- C49: what the gradient writes for every row of a batch. -/
theorem C49_formula [Field R] {rows n : Nat} (GZ : Nat → R) (X Y : Nat → Nat → R) {gx : List R}
    (hgx : gx.length = rows * n) :
    Grad.xentropy [rows, n] (tab [rows] (fn1 GZ)) (tab [rows, n] (fn2 X)) (tab [rows, n] (fn2 Y)) gx =
      .ok (tab [rows, n] (fn2 fun r i => GZ r * (-X r i / Y r i))).data :=
  Grad.xentropy_run GZ X Y hgx

theorem xentropy_vector {n : Nat} (x y : Fin n → ℝ) (z : ℝ) :
    Ops.xentropy Real.log [] ⟨[n], List.ofFn x⟩ ⟨[n], List.ofFn y⟩ [z] = .ok [-∑ i, x i * Real.log (y i)] := by
  have e : ∀ x : Fin n → ℝ, List.ofFn x = (tab [1, n] (fn2 fun _ => extend x)).data := by
    intro x
    rw [ofFn_eq_tab]
    have := tab_snoc [] n (fn1 (extend x))
    refine Eq.trans this ?_
    refine congrArg Tensor.data (tab_congr fun idx hv => ?_)
    match idx, hv with
    | [r, j], hv => rfl
  have h := Kernels.xentropy_run Real.log (rows := 1) (n := n) (fun _ => extend x) (fun _ => extend y) (z := [z]) rfl
  unfold Ops.xentropy
  simp only [e]
  have r : rowsOf [n] = (1, n) := by simp [rowsOf]
  simp only [r]
  refine h.trans ?_
  rw [seqSum_eq_sum, Finset.sum_range]
  simp only [extend_apply]
  rfl

/-- C49 over the reals: at every prediction with positive entries, the output is the gradient with respect to the
prediction `y` of `y ↦ gz * xent x y`, where `xent` is what `xentropy` computes. -/
theorem C49_gradient {n : Nat} (gz : ℝ) (x y : Fin n → ℝ) (hy : ∀ i, 0 < y i) {gx : List ℝ} (hgx : gx.length = n) :
    ∃ (g : Fin n → ℝ) (xent : (Fin n → ℝ) → ℝ),
      (∀ (y' : Fin n → ℝ) (z : ℝ),
        Ops.xentropy Real.log [] ⟨[n], List.ofFn x⟩ ⟨[n], List.ofFn y'⟩ [z] = .ok [xent y']) ∧
      Grad.xentropyRow n [gz] (List.ofFn x) (List.ofFn y) gx = .ok (List.ofFn g) ∧
      IsGradient (fun y => gz * xent y) g y := by
  refine ⟨fun i => gz * (-x i / y i), fun y => -∑ i, x i * Real.log (y i), fun y' z => xentropy_vector x y' z, ?_, ?_⟩
  · rw [ofFn_eq_tab, ofFn_eq_tab, Grad.xentropyRow_run gz _ _ hgx, tab_eq_ofFn]
    simp only [extend_apply]
  · have := isGradient_sum (fun i t => gz * (-(x i * Real.log t))) (fun i => gz * (-x i / y i)) y fun i => by
      have h := (((Real.hasDerivAt_log (hy i).ne').const_mul (x i)).neg).const_mul gz
      have e : gz * -(x i * (y i)⁻¹) = gz * (-x i / y i) := by ring
      rwa [e] at h
    have e : (fun y : Fin n → ℝ => gz * -∑ i, x i * Real.log (y i)) = fun y => ∑ i, gz * (-(x i * Real.log (y i))) := by
      funext y
      rw [← Finset.sum_neg_distrib, Finset.mul_sum]
    rw [e]
    exact this

/-- Non-vacuity. -/
example : ∀ i, 0 < (![1 / 4, 3 / 4] : Fin 2 → ℝ) i := by
  intro i
  fin_cases i <;> simp

/-! ## C50 -/

/-- C50: the gradient of cross-entropy fed into the gradient of softmax is `gz * (y - t)` for every row, if the targets of
the row sum to one and the predictions are non-zero (softmax outputs are positive, `C51_probability`). -/
theorem C50_chain [Field R] (junk : Nat → R) {rows n : Nat} (GZ : Nat → R) (T Y : Nat → Nat → R)
    (hy : ∀ r < rows, ∀ i < n, Y r i ≠ 0) (ht : ∀ r < rows, ∑ i ∈ range n, T r i = 1) {b gx : List R}
    (hb : b.length = rows * n) (hgx : gx.length = rows * n) :
    (do let gy ← Grad.xentropy [rows, n] (tab [rows] (fn1 GZ)) (tab [rows, n] (fn2 T)) (tab [rows, n] (fn2 Y)) b
        Grad.softmax junk [rows, n] rows n ⟨[rows, n], gy⟩ (tab [rows, n] (fn2 Y)) gx) =
      .ok (tab [rows, n] (fn2 fun r i => GZ r * (Y r i - T r i))).data := by
  rw [C49_formula GZ T Y hb, Outcome.ok_bind]
  refine (C48_formula junk (fun r i => GZ r * (-T r i / Y r i)) Y hgx).trans ?_
  refine congrArg (fun t => Outcome.ok (Tensor.data t)) (tab_congr fun idx hv => ?_)
  match idx, hv with
  | [r, j], hv =>
    have hr : r < rows := hv.1
    have hj : j < n := hv.2.1
    simp only [fn2_apply]
    have : ∑ i ∈ range n, GZ r * (-T r i / Y r i) * Y r i = -GZ r := by
      have : ∀ i ∈ range n, GZ r * (-T r i / Y r i) * Y r i = (-GZ r) * T r i := by
        intro i hi
        have := hy r hr i (mem_range.1 hi)
        field_simp
      rw [Finset.sum_congr rfl this, ← Finset.mul_sum, ht r hr, mul_one]
    rw [this]
    have := hy r hr j hj
    field_simp
    ring

/-- Non-vacuity: one row, targets (1, 0), predictions (1/4, 3/4). -/
example : (∀ r < 1, ∀ i < 2, (fun _ i => if i = 0 then (1 / 4 : ℚ) else 3 / 4) r i ≠ 0) ∧
    ∀ r < 1, ∑ i ∈ range 2, (fun _ i => if i = 0 then (1 : ℚ) else 0) r i = 1 := by
  constructor
  · intro r _ i _; simp only; split <;> norm_num
  · intro r _; simp

/-! ## C54 -/

/-- C54, law-free: the value written per row, in the order of the operations; any rank. -/
theorem C54_order [Zero R] [Add R] [Mul R] [Neg R] (log : R → R) (ds : List Nat) (n : Nat) (X Y : List Nat → R) {z : List R}
    (hz : z.length = ds.prod) :
    Ops.xentropy log ds (tab (ds ++ [n]) X) (tab (ds ++ [n]) Y) z =
      .ok (tab ds fun p => -(seqSum n fun j => X (p ++ [j]) * log (Y (p ++ [j])))).data := by
  unfold Ops.xentropy
  show Kernels.xentropy log ds.prod (rowsOf (ds ++ [n])).2 (rowsOf (ds ++ [n])).2 _ _ z = _
  rw [rowsOf_snoc, tab_snoc, tab_snoc, Kernels.xentropy_run log _ _ hz]
  rfl

/-- C54: over a ring the value is `-∑ x_j log y_j`. -/
theorem C54_value [CommRing R] (log : R → R) (ds : List Nat) (n : Nat) (X Y : List Nat → R) {z : List R}
    (hz : z.length = ds.prod) :
    Ops.xentropy log ds (tab (ds ++ [n]) X) (tab (ds ++ [n]) Y) z =
      .ok (tab ds fun p => -∑ j ∈ range n, X (p ++ [j]) * log (Y (p ++ [j]))).data := by
  rw [C54_order log ds n X Y hz]
  simp only [seqSum_eq_sum]

/-- C54 (Gibbs): for a target that sums to one and a prediction with positive entries that sum to at most one, the value
is at least the value at `y = x`, which is the entropy of `x`; and it is equal only if `y = x` where `x` is positive. -/
theorem C54_gibbs {n : Nat} (x y : Fin n → ℝ) (hx : ∀ i, 0 ≤ x i) (hs : ∑ i, x i = 1) (hy : ∀ i, 0 < y i)
    (ht : ∑ i, y i ≤ 1) (z : ℝ) :
    ∃ v h : ℝ, Ops.xentropy Real.log [] ⟨[n], List.ofFn x⟩ ⟨[n], List.ofFn y⟩ [z] = .ok [v] ∧
      Ops.xentropy Real.log [] ⟨[n], List.ofFn x⟩ ⟨[n], List.ofFn x⟩ [z] = .ok [h] ∧
      h = ∑ i, Real.negMulLog (x i) ∧ 0 ≤ h ∧ h ≤ v ∧ (v = h ↔ y = x) := by
  refine ⟨_, _, xentropy_vector x y z, xentropy_vector x x z, ?_, ?_, ?_⟩
  · rw [← Finset.sum_neg_distrib]
    exact Finset.sum_congr rfl fun i _ => by rw [Real.negMulLog]; ring
  · rw [← Finset.sum_neg_distrib]
    refine Finset.sum_nonneg fun i _ => ?_
    have h1 : x i ≤ 1 := by
      rw [← hs]
      exact Finset.single_le_sum (fun j _ => hx j) (mem_univ i)
    have := Real.log_nonpos (hx i) h1
    nlinarith [hx i]
  · have key : ∀ i, x i * Real.log (y i) - x i * Real.log (x i) ≤ y i - x i := by
      intro i
      rcases (hx i).eq_or_lt with h0 | h0
      · rw [← h0]; simp; exact (hy i).le
      · have := Real.log_le_sub_one_of_pos (div_pos (hy i) h0)
        rw [Real.log_div (hy i).ne' h0.ne'] at this
        have := mul_le_mul_of_nonneg_left this h0.le
        have e : x i * (y i / x i - 1) = y i - x i := by field_simp
        rw [e] at this
        linarith
    have strict : ∀ i, y i ≠ x i → x i * Real.log (y i) - x i * Real.log (x i) < y i - x i := by
      intro i hne
      rcases (hx i).eq_or_lt with h0 | h0
      · rw [← h0]; simp; exact hy i
      · have hd : y i / x i ≠ 1 := by
          intro h
          rw [div_eq_one_iff_eq h0.ne'] at h
          exact hne h
        have := Real.log_lt_sub_one_of_pos (div_pos (hy i) h0) hd
        rw [Real.log_div (hy i).ne' h0.ne'] at this
        have := mul_lt_mul_of_pos_left this h0
        have e : x i * (y i / x i - 1) = y i - x i := by field_simp
        rw [e] at this
        linarith
    have tot : ∑ i, (y i - x i) ≤ 0 := by
      rw [Finset.sum_sub_distrib, hs]
      linarith
    have hd : ∑ i, (x i * Real.log (y i) - x i * Real.log (x i)) =
        ∑ i, x i * Real.log (y i) - ∑ i, x i * Real.log (x i) := Finset.sum_sub_distrib _ _
    refine ⟨?_, ?_, ?_⟩
    · have := Finset.sum_le_sum fun i (_ : i ∈ univ) => key i
      linarith
    · intro h
      by_contra hne
      obtain ⟨i, hi⟩ : ∃ i, y i ≠ x i := by
        by_contra hc
        push Not at hc
        exact hne (funext hc)
      have := Finset.sum_lt_sum (fun i (_ : i ∈ univ) => key i) ⟨i, mem_univ i, strict i hi⟩
      linarith
    · rintro rfl
      rfl

/-- Non-vacuity: a target with a zero entry and a different prediction. -/
example : (∀ i, 0 ≤ (![1, 0] : Fin 2 → ℝ) i) ∧ ∑ i, (![1, 0] : Fin 2 → ℝ) i = 1 ∧
    (∀ i, 0 < (![1 / 4, 3 / 4] : Fin 2 → ℝ) i) ∧ ∑ i, (![1 / 4, 3 / 4] : Fin 2 → ℝ) i ≤ 1 := by
  refine ⟨?_, by simp, ?_, by simp [Fin.sum_univ_two]; norm_num⟩ <;> intro i <;> fin_cases i <;> simp

/-! ## Concrete cases -/

example := C51_order Real.exp (1 / 1000000) [2] 3 (fun p => ((p.headD 0 : Nat) : ℝ)) (z := 1) (m := List.replicate 8 0) (by decide)
example := C51_probability (eps := 1 / 1000000) (by norm_num) (by norm_num) (n := 3) (by decide)
  (C51_value _ [2] 3 fun p => ((p.headD 0 : Nat) : ℝ)) (p := [1]) ⟨by decide, trivial⟩
example := C52_shift (C51_value (1 / 1000000) [2] 3 fun p => ((p.headD 0 : Nat) : ℝ))
  (C51_value (1 / 1000000) [2] 3 fun p => ((p.headD 0 : Nat) : ℝ) + 7) (p := [1]) ⟨by decide, trivial⟩ 7 (fun _ _ => rfl) (i := 2) (by decide)
example := C52_order (C51_value (1 / 1000000) [2] 3 fun p => ((p.getLastD 0 : Nat) : ℝ)) (p := [1]) ⟨by decide, trivial⟩ (i := 1) (j := 2)
  (by decide) (by decide) (by norm_num)
example := C52_permutation (C51_value (1 / 1000000) [] 2 fun p => ((p.headD 0 : Nat) : ℝ))
  (C51_value (1 / 1000000) [] 2 fun p => ((1 - p.headD 0 : Nat) : ℝ)) (p := []) trivial (σ := (1 - ·)) (τ := (1 - ·))
  (by omega) (by omega) (fun _ _ => rfl) (i := 1) (by decide)
example := C52_rows (C51_value (1 / 1000000) [2] 3 fun p => ((p.getLastD 0 : Nat) : ℝ))
  (C51_value (1 / 1000000) [2] 3 fun p => ((p.getLastD 0 : Nat) : ℝ)) (p := [1]) (p' := [0]) ⟨by decide, trivial⟩ ⟨by decide, trivial⟩
  (fun _ _ => rfl) (i := 2) (by decide)
example := C49_gradient (n := 2) 3 ![1, 0] ![1 / 4, 3 / 4] (fun i => by fin_cases i <;> simp) (gx := [7, 7]) rfl
example := C50_chain (R := ℚ) (fun _ => 9) (rows := 1) (n := 2) (fun _ => 5) (fun _ i => if i = 0 then 1 else 0)
  (fun _ i => if i = 0 then 1 / 4 else 3 / 4) (fun _ _ i _ => by split <;> norm_num) (fun r _ => by simp) (b := [7, 7])
  (gx := [8, 8]) rfl rfl
example := C54_gibbs (n := 2) ![1, 0] ![1 / 4, 3 / 4] (fun i => by fin_cases i <;> simp) (by simp)
  (fun i => by fin_cases i <;> simp) (by simp [Fin.sum_univ_two]; norm_num) 9

end StdNN
