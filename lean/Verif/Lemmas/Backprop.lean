import Verif.Spec.Backprop
import Verif.Props.Activation
import Verif.Props.Gradients
import Mathlib.Analysis.Calculus.FDeriv.Comp
/-!
# Lemmas on gradients of functions of vectors
-/
namespace StdNN
open Spec Outcome Finset

theorem isGradient_iff {n : Nat} {f : (Fin n → ℝ) → ℝ} {g x : Fin n → ℝ} :
    IsGradient f g x ↔ HasFDerivAt f (∑ i : Fin n, g i • (ContinuousLinearMap.proj i : (Fin n → ℝ) →L[ℝ] ℝ)) x := Iff.rfl

theorem grad_apply {n : Nat} (g d : Fin n → ℝ) :
    (∑ i : Fin n, g i • (ContinuousLinearMap.proj i : (Fin n → ℝ) →L[ℝ] ℝ)) d = ∑ i, g i * d i := by
  simp [_root_.sum_apply, _root_.smul_apply, ContinuousLinearMap.proj_apply]

/-- A function whose increments are linear. -/
theorem isGradient_affine {n : Nat} {f : (Fin n → ℝ) → ℝ} {g x : Fin n → ℝ}
    (h : ∀ d, f (x + d) = f x + ∑ i, g i * d i) : IsGradient f g x := by
  have e : f = fun y => f x + (∑ i : Fin n, g i • (ContinuousLinearMap.proj i : (Fin n → ℝ) →L[ℝ] ℝ)) (y - x) := by
    funext y
    rw [grad_apply, ← h (y - x)]
    congr 1
    funext i
    simp
  unfold IsGradient
  rw [e]
  refine HasFDerivAt.const_add _ ?_
  exact (ContinuousLinearMap.hasFDerivAt _).comp x ((hasFDerivAt_id x).sub_const x)

/-- The components of a differentiable map. -/
theorem Spec.Reverses.hasFDerivAt {n m : Nat} {f : (Fin n → ℝ) → Fin m → ℝ} {back : (Fin m → ℝ) → Fin n → ℝ} {x : Fin n → ℝ}
    (h : Reverses f back x) :
    HasFDerivAt f (ContinuousLinearMap.pi fun k : Fin m =>
      ∑ i : Fin n, back (Pi.single k 1) i • (ContinuousLinearMap.proj i : (Fin n → ℝ) →L[ℝ] ℝ)) x := by
  rw [hasFDerivAt_pi]
  intro k
  have := h (Pi.single k 1)
  unfold IsGradient at this
  refine this.congr_of_eventuallyEq (Filter.Eventually.of_forall fun y => ?_)
  show f y k = _
  simp [Pi.single_apply]

/-- Transposes are unique. -/
theorem Spec.Reverses.apply {n m : Nat} {f : (Fin n → ℝ) → Fin m → ℝ} {back : (Fin m → ℝ) → Fin n → ℝ} {x : Fin n → ℝ}
    (h : Reverses f back x) (gy : Fin m → ℝ) (d : Fin n → ℝ) :
    ∑ k, gy k * ∑ i, back (Pi.single k 1) i * d i = ∑ i, back gy i * d i := by
  have h1 := h.hasFDerivAt
  have h2 : HasFDerivAt (fun x => ∑ k, gy k * f x k)
      ((∑ k : Fin m, gy k • (ContinuousLinearMap.proj k : (Fin m → ℝ) →L[ℝ] ℝ)).comp
        (ContinuousLinearMap.pi fun k : Fin m =>
          ∑ i : Fin n, back (Pi.single k 1) i • (ContinuousLinearMap.proj i : (Fin n → ℝ) →L[ℝ] ℝ))) x := by
    have := (ContinuousLinearMap.hasFDerivAt
      (∑ k : Fin m, gy k • (ContinuousLinearMap.proj k : (Fin m → ℝ) →L[ℝ] ℝ)) (x := f x)).comp x h1
    refine this.congr_of_eventuallyEq (Filter.Eventually.of_forall fun y => ?_)
    show _ = (∑ k : Fin m, gy k • (ContinuousLinearMap.proj k : (Fin m → ℝ) →L[ℝ] ℝ)) (f y)
    rw [grad_apply]
  have := congrArg (fun L : (Fin n → ℝ) →L[ℝ] ℝ => L d) (h2.unique (h gy))
  simp only [ContinuousLinearMap.comp_apply, grad_apply] at this
  rw [← this]
  refine Finset.sum_congr rfl fun k _ => ?_
  rw [ContinuousLinearMap.pi_apply, grad_apply]

/-- The chain rule for a loss. -/
theorem Spec.Reverses.isGradient {n m : Nat} {f : (Fin n → ℝ) → Fin m → ℝ} {back : (Fin m → ℝ) → Fin n → ℝ} {x : Fin n → ℝ}
    (h : Reverses f back x) {L : (Fin m → ℝ) → ℝ} {gy : Fin m → ℝ} (hL : IsGradient L gy (f x)) :
    IsGradient (fun x => L (f x)) (back gy) x := by
  have h2 := HasFDerivAt.comp x hL h.hasFDerivAt
  unfold IsGradient
  refine h2.congr_fderiv ?_
  ext d
  rw [ContinuousLinearMap.comp_apply, grad_apply, grad_apply, ← h.apply gy d]
  refine Finset.sum_congr rfl fun k _ => ?_
  rw [ContinuousLinearMap.pi_apply, grad_apply]

/-- The chain rule. -/
theorem Spec.Reverses.comp {n m k : Nat} {f : (Fin n → ℝ) → Fin m → ℝ} {f' : (Fin m → ℝ) → Fin k → ℝ}
    {back : (Fin m → ℝ) → Fin n → ℝ} {back' : (Fin k → ℝ) → Fin m → ℝ} {x : Fin n → ℝ} (h : Reverses f back x)
    (h' : Reverses f' back' (f x)) : Reverses (fun x => f' (f x)) (fun gy => back (back' gy)) x :=
  fun gy => h.isGradient (h' gy)

/-! ## Vectors as tensors -/

/-- The elements of a tensor in memory order. -/
def vec (dims : List Nat) (F : List Nat → ℝ) (p : Fin dims.prod) : ℝ := F (unravel dims p)

/-- A vector read as a tensor. -/
def ent (dims : List Nat) (x : Fin dims.prod → ℝ) (idx : List Nat) : ℝ := extend x (offset dims idx)

theorem ofFn_vec (dims : List Nat) (F : List Nat → ℝ) : List.ofFn (vec dims F) = (tab dims F).data := by
  refine List.ext_getElem (by simp) fun i h1 h2 => ?_
  rw [tab_getElem, List.getElem_ofFn]
  rfl

theorem vec_ent (dims : List Nat) (x : Fin dims.prod → ℝ) : vec dims (ent dims x) = x := by
  funext p
  unfold vec ent
  rw [offset_unravel p.2, extend_apply]

theorem ofFn_ent (dims : List Nat) (x : Fin dims.prod → ℝ) : List.ofFn x = (tab dims (ent dims x)).data := by
  rw [← ofFn_vec, vec_ent]

theorem tensor_ent (dims : List Nat) (x : Fin dims.prod → ℝ) :
    (⟨dims, List.ofFn x⟩ : Tensor ℝ) = tab dims (ent dims x) := by
  rw [ofFn_ent]; rfl

theorem ent_add (dims : List Nat) (x d : Fin dims.prod → ℝ) (idx : List Nat) :
    ent dims (x + d) idx = ent dims x idx + ent dims d idx := by
  unfold ent extend
  split <;> simp

theorem ent1 {a : Nat} (x : Fin [a].prod → ℝ) : tab [a] (ent [a] x) = tab [a] (fn1 fun i => ent [a] x [i]) :=
  tab_congr fun idx hv => by
    match idx, hv with
    | [_], _ => rfl

theorem ent2 {a b : Nat} (x : Fin [a, b].prod → ℝ) :
    tab [a, b] (ent [a, b] x) = tab [a, b] (fn2 fun i j => ent [a, b] x [i, j]) :=
  tab_congr fun idx hv => by
    match idx, hv with
    | [_, _], _ => rfl

theorem ent4 {a b c d : Nat} (x : Fin [a, b, c, d].prod → ℝ) :
    tab [a, b, c, d] (ent [a, b, c, d] x) = tab [a, b, c, d] (fn4 fun i j k l => ent [a, b, c, d] x [i, j, k, l]) :=
  tab_congr fun idx hv => by
    match idx, hv with
    | [_, _, _, _], _ => rfl

theorem sum_eq_dot {n : Nat} (a b : Fin n → ℝ) : ∑ i, a i * b i = dot (List.ofFn a) (List.ofFn b) := by
  unfold dot
  rw [zipWith_ofFn, List.sum_ofFn]

/-! ## Functions of the rows of a matrix -/

/-- Row `r` of a matrix. -/
def row {rows n : Nat} (r : Nat) (x : Fin [rows, n].prod → ℝ) (j : Fin n) : ℝ := ent [rows, n] x [r, j]

/-- `row` as a continuous linear map. -/
noncomputable def rowL {rows n : Nat} (r : Nat) : (Fin [rows, n].prod → ℝ) →L[ℝ] (Fin n → ℝ) :=
  ContinuousLinearMap.pi fun j => if h : offset [rows, n] [r, j] < [rows, n].prod then
    ContinuousLinearMap.proj ⟨offset [rows, n] [r, j], h⟩ else 0

theorem rowL_apply {rows n : Nat} (r : Nat) (x : Fin [rows, n].prod → ℝ) : rowL r x = row r x := by
  funext j
  unfold rowL row ent extend
  rw [ContinuousLinearMap.pi_apply]
  split <;> rfl

theorem isGradient_rows {rows n : Nat} (φ : Nat → (Fin n → ℝ) → ℝ) (g : Nat → Fin n → ℝ) (x : Fin [rows, n].prod → ℝ)
    (h : ∀ r < rows, IsGradient (φ r) (g r) (row r x)) :
    IsGradient (fun x => ∑ r ∈ range rows, φ r (row r x)) (vec [rows, n] (fn2 fun r j => extend (g r) j)) x := by
  have h1 : HasFDerivAt (fun x => ∑ r ∈ range rows, φ r (row r x)) (∑ r ∈ range rows,
      (∑ i : Fin n, g r i • (ContinuousLinearMap.proj i : (Fin n → ℝ) →L[ℝ] ℝ)).comp (rowL (rows := rows) r)) x := by
    refine HasFDerivAt.fun_sum fun r hr => ?_
    have := h r (mem_range.1 hr)
    rw [isGradient_iff, ← rowL_apply] at this
    refine (this.comp x (rowL (rows := rows) r).hasFDerivAt).congr_of_eventuallyEq (Filter.Eventually.of_forall fun y => ?_)
    show φ r (row r y) = φ r (rowL r y)
    rw [rowL_apply]
  rw [isGradient_iff]
  refine h1.congr_fderiv ?_
  ext d
  rw [grad_apply, sum_eq_dot, ofFn_vec, ofFn_ent, ent2, dot_tab2, _root_.sum_apply]
  refine Finset.sum_congr rfl fun r _ => ?_
  rw [ContinuousLinearMap.comp_apply, grad_apply, rowL_apply, Finset.sum_range]
  refine Finset.sum_congr rfl fun j _ => ?_
  rw [extend_apply]
  rfl

end StdNN
