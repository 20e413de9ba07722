import Verif.Props.Backprop
import Mathlib.Analysis.Calculus.FDeriv.Prod
import Mathlib.Analysis.Calculus.FDeriv.Mul
/-!
# C151: backpropagation through programs that use values several times

The library has no tape: a program that uses a tensor in several places calls the gradient operators of all of them and adds
up what they return with `ops::add`. Here the tensors of such a program lie one after the other in one memory; an operator
reads any of them and its result is put behind the last.
-/
namespace StdNN
open Spec Outcome IntTy Finset

/-! ## Programs -/

/-- The tensor with `n` elements that starts at position `o`. -/
def piece (o n : Nat) (x : List ℝ) : List ℝ := (x.drop o).take n

/-- An operator with two operands and its two gradient operators, with the conventions of `Stage`. -/
structure Op2 (na nb m : Nat) where
  fwd : List ℝ → List ℝ → List ℝ → Outcome (List ℝ)
  bwd0 : List ℝ → List ℝ → List ℝ → List ℝ → List ℝ → Outcome (List ℝ)
  bwd1 : List ℝ → List ℝ → List ℝ → List ℝ → List ℝ → Outcome (List ℝ)

/-- The operator as a function of its first operand. -/
def Op2.left {na nb m : Nat} (s : Op2 na nb m) (y : List ℝ) : Stage na m where
  fwd x b := s.fwd x y b
  bwd x z gz b := s.bwd0 x y z gz b

/-- The operator as a function of its second operand. -/
def Op2.right {na nb m : Nat} (s : Op2 na nb m) (x : List ℝ) : Stage nb m where
  fwd y b := s.fwd x y b
  bwd y z gz b := s.bwd1 x y z gz b

/-- At `x`, `y` each gradient operator is right on its own, and the operator is differentiable in both operands together. -/
def Op2.Good {na nb m : Nat} (s : Op2 na nb m) (x : Fin na → ℝ) (y : Fin nb → ℝ) : Prop :=
  (s.left (List.ofFn y)).Good x ∧ (s.right (List.ofFn x)).Good y ∧
    ∃ f : (Fin na → ℝ) → (Fin nb → ℝ) → Fin m → ℝ,
      (∀ x' y' b, b.length = m → s.fwd (List.ofFn x') (List.ofFn y') b = .ok (List.ofFn (f x' y'))) ∧
      ∀ k, DifferentiableAt ℝ (fun p : (Fin na → ℝ) × (Fin nb → ℝ) => f p.1 p.2 k) (x, y)

/-- An operator applied to the tensor at `o` of the `n` elements so far. Backwards, the gradient operator writes to a new tensor
(which held `junk`), and `ops::add` adds this to the gradient of the tensor at `o`. -/
def Stage.onTape {na m : Nat} (s : Stage na m) (junk : Nat → ℝ) (n o : Nat) : Stage n (n + m) where
  fwd x b := do
    let z ← s.fwd (piece o na x) (b.drop n)
    return x ++ z
  bwd x y g _ := do
    let t ← s.bwd (piece o na x) (y.drop n) (g.drop n) ((List.range na).map junk)
    Ops.add na (.mem o) (.ext t) o (g.take n)

/-- An operator applied to the tensors at `oa` and `ob`, which may be the same. -/
def Op2.onTape {na nb m : Nat} (s : Op2 na nb m) (junk : Nat → ℝ) (n oa ob : Nat) : Stage n (n + m) where
  fwd x b := do
    let z ← s.fwd (piece oa na x) (piece ob nb x) (b.drop n)
    return x ++ z
  bwd x y g _ := do
    let t ← s.bwd0 (piece oa na x) (piece ob nb x) (y.drop n) (g.drop n) ((List.range na).map junk)
    let g' ← Ops.add na (.mem oa) (.ext t) oa (g.take n)
    let t' ← s.bwd1 (piece oa na x) (piece ob nb x) (y.drop n) (g.drop n) ((List.range nb).map junk)
    Ops.add nb (.mem ob) (.ext t') ob g'

/-! ## Slices -/

/-- The piece of a vector. -/
def sl {n : Nat} (o na : Nat) (x : Fin n → ℝ) (i : Fin na) : ℝ := extend x (o + i)

/-- A vector put at position `o`, zero elsewhere. -/
def scat {na : Nat} (n o : Nat) (v : Fin na → ℝ) (i : Fin n) : ℝ := if o ≤ i then extend v (i - o) else 0

theorem slice_ofFn {n o na : Nat} (h : o + na ≤ n) (x : Fin n → ℝ) : piece o na (List.ofFn x) = List.ofFn (sl o na x) := by
  refine List.ext_getElem (by simp [piece]; omega) fun i h1 h2 => ?_
  have hi : i < na := by simpa using h2
  simp only [piece, List.getElem_take, List.getElem_drop, List.getElem_ofFn, sl, extend]
  rw [dif_pos (by omega)]

theorem sum_scat {n o na : Nat} (h : o + na ≤ n) (v : Fin na → ℝ) (d : Fin n → ℝ) :
    ∑ i, scat n o v i * d i = ∑ j, v j * sl o na d j := by
  symm
  refine Finset.sum_of_injOn (fun j : Fin na => (⟨o + j, by omega⟩ : Fin n)) ?_ (fun _ _ => by simp) (fun i _ hi => ?_) fun j _ => ?_
  · intro a _ b _ e
    have := congrArg Fin.val e
    simp only at this
    exact Fin.ext (by omega)
  · unfold scat extend
    split
    · split
      · next h1 h2 => exact absurd ⟨⟨i - o, h2⟩, by simp, Fin.ext (by simp; omega)⟩ hi
      · simp
    · simp
  · simp only [scat, sl, extend]
    rw [if_pos (by omega), dif_pos (by omega), dif_pos (by omega)]
    congr 2
    exact Fin.ext (by simp)

/-- `sl` as a continuous linear map. -/
noncomputable def slL {n : Nat} (o na : Nat) : (Fin n → ℝ) →L[ℝ] (Fin na → ℝ) :=
  ContinuousLinearMap.pi fun i => if h : o + i < n then ContinuousLinearMap.proj ⟨o + i, h⟩ else 0

theorem slL_apply {n o na : Nat} (x : Fin n → ℝ) : slL o na x = sl o na x := by
  funext i
  unfold slL sl extend
  rw [ContinuousLinearMap.pi_apply]
  split <;> rfl

/-- `ops::add` into a part of the memory. -/
theorem add_at {n o na : Nat} (h : o + na ≤ n) (g : Fin n → ℝ) (v : Fin na → ℝ) :
    Ops.add na (.mem o) (.ext (List.ofFn v)) o (List.ofFn g) = .ok (List.ofFn fun i => g i + scat n o v i) := by
  have hx : (Src.mem o).Holds (List.ofFn g) o (List.ofFn (sl o na g)) := by
    refine ⟨.inl rfl, fun i hi => ?_⟩
    have hi' : i < na := by simpa using hi
    rw [List.getElem?_eq_getElem (by simp; omega), List.getElem?_eq_getElem hi]
    simp only [List.getElem_ofFn, sl, extend]
    rw [dif_pos (by omega)]
  have := C21_add (R := ℝ) hx (ext_holds (List.ofFn v) _ o) (by simp) (by simp; omega)
  rw [List.length_ofFn] at this
  rw [this]
  refine congrArg Outcome.ok (List.ext_getElem? fun p => ?_)
  rw [store_getElem? (by simp; omega), zipWith_ofFn]
  simp only [List.length_ofFn]
  by_cases hp : p < n
  · rw [List.getElem?_eq_getElem (l := List.ofFn fun i => g i + scat n o v i) (by simpa using hp), List.getElem_ofFn]
    by_cases c : o ≤ p ∧ p < o + na
    · rw [if_pos c, List.getElem?_eq_getElem (by simp; omega), List.getElem_ofFn]
      simp only [sl, scat, extend]
      rw [dif_pos (by omega), if_pos c.1, dif_pos (by omega)]
      congr 3
      exact Fin.ext (by simp; omega)
    · rw [if_neg c, List.getElem?_eq_getElem (by simpa using hp), List.getElem_ofFn]
      simp only [scat, extend]
      split
      · rw [dif_neg (by omega), add_zero]
      · rw [add_zero]
  · rw [if_neg (by omega), List.getElem?_eq_none (by simpa using hp), List.getElem?_eq_none (by simpa using hp)]

theorem ofFn_append {n m : Nat} (x : Fin n → ℝ) (z : Fin m → ℝ) : List.ofFn x ++ List.ofFn z = List.ofFn (Fin.append x z) :=
  (List.ofFn_fin_append x z).symm

theorem take_ofFn {n m : Nat} (g : Fin (n + m) → ℝ) : (List.ofFn g).take n = List.ofFn fun i : Fin n => g (Fin.castAdd m i) := by
  refine List.ext_getElem (by simp) fun i h1 h2 => ?_
  simp only [List.getElem_take, List.getElem_ofFn]
  rfl

theorem drop_ofFn {n m : Nat} (g : Fin (n + m) → ℝ) : (List.ofFn g).drop n = List.ofFn fun i : Fin m => g (Fin.natAdd n i) := by
  refine List.ext_getElem (by simp) fun i h1 h2 => ?_
  simp only [List.getElem_drop, List.getElem_ofFn]
  rfl

/-! ## The two rules -/

theorem grad_id {n : Nat} (g x : Fin n → ℝ) : IsGradient (fun x => ∑ i, g i * x i) g x :=
  isGradient_affine fun d => by rw [← Finset.sum_add_distrib]; simp [mul_add]

theorem isGradient_add {n : Nat} {f f' : (Fin n → ℝ) → ℝ} {g g' x : Fin n → ℝ} (h : IsGradient f g x) (h' : IsGradient f' g' x) :
    IsGradient (fun x => f x + f' x) (fun i => g i + g' i) x := by
  rw [isGradient_iff] at *
  refine (h.add h').congr_fderiv ?_
  ext d
  rw [_root_.add_apply, grad_apply, grad_apply, grad_apply, ← Finset.sum_add_distrib]
  exact Finset.sum_congr rfl fun i _ => by ring

/-- A function of a piece. -/
theorem isGradient_slice {n o na : Nat} (ho : o + na ≤ n) {f : (Fin na → ℝ) → ℝ} {g : Fin na → ℝ} {x : Fin n → ℝ}
    (h : IsGradient f g (sl o na x)) : IsGradient (fun x => f (sl o na x)) (scat n o g) x := by
  rw [isGradient_iff] at *
  rw [← slL_apply] at h
  refine ((h.comp x (slL o na).hasFDerivAt).congr_fderiv ?_).congr_of_eventuallyEq (Filter.Eventually.of_forall fun y => ?_)
  · ext d
    rw [ContinuousLinearMap.comp_apply, grad_apply, grad_apply, slL_apply, sum_scat ho]
  · show f (sl o na y) = f (slL o na y)
    rw [slL_apply]

/-- A function of two slices. -/
theorem isGradient_slices {n oa na ob nb : Nat} (ha : oa + na ≤ n) (hb : ob + nb ≤ n) {f : (Fin na → ℝ) → (Fin nb → ℝ) → ℝ}
    {ga : Fin na → ℝ} {gb : Fin nb → ℝ} {x : Fin n → ℝ} (h1 : IsGradient (fun a => f a (sl ob nb x)) ga (sl oa na x))
    (h2 : IsGradient (fun b => f (sl oa na x) b) gb (sl ob nb x))
    (hd : DifferentiableAt ℝ (fun p : (Fin na → ℝ) × (Fin nb → ℝ) => f p.1 p.2) (sl oa na x, sl ob nb x)) :
    IsGradient (fun x => f (sl oa na x) (sl ob nb x)) (fun i => scat n oa ga i + scat n ob gb i) x := by
  obtain ⟨L, hL⟩ := hd
  rw [isGradient_iff] at *
  have k1 : HasFDerivAt (fun a => f a (sl ob nb x)) (L.comp ((ContinuousLinearMap.id ℝ _).prod 0)) (sl oa na x) :=
    HasFDerivAt.comp (g := fun p : (Fin na → ℝ) × (Fin nb → ℝ) => f p.1 p.2) (f := fun a => (a, sl ob nb x)) (sl oa na x) hL
      ((hasFDerivAt_id _).prodMk (hasFDerivAt_const _ _))
  have k2 : HasFDerivAt (fun b => f (sl oa na x) b) (L.comp ((0 : (Fin nb → ℝ) →L[ℝ] (Fin na → ℝ)).prod
      (ContinuousLinearMap.id ℝ _))) (sl ob nb x) :=
    HasFDerivAt.comp (g := fun p : (Fin na → ℝ) × (Fin nb → ℝ) => f p.1 p.2) (f := fun b => (sl oa na x, b)) (sl ob nb x) hL
      ((hasFDerivAt_const _ _).prodMk (hasFDerivAt_id _))
  have e1 := k1.unique h1
  have e2 := k2.unique h2
  have hL' : HasFDerivAt (fun p : (Fin na → ℝ) × (Fin nb → ℝ) => f p.1 p.2) L (slL oa na x, slL ob nb x) := by
    rwa [slL_apply, slL_apply]
  have k3 : HasFDerivAt (fun x => f (slL oa na x) (slL ob nb x)) (L.comp ((slL oa na).prod (slL ob nb))) x :=
    HasFDerivAt.comp (g := fun p : (Fin na → ℝ) × (Fin nb → ℝ) => f p.1 p.2) (f := fun x => (slL oa na x, slL ob nb x)) x hL'
      ((slL oa na).hasFDerivAt.prodMk (slL ob nb).hasFDerivAt)
  refine (k3.congr_fderiv ?_).congr_of_eventuallyEq
    (Filter.Eventually.of_forall fun y => ?_)
  · ext d
    have a1 := congrArg (fun M : (Fin na → ℝ) →L[ℝ] ℝ => M (sl oa na d)) e1
    have a2 := congrArg (fun M : (Fin nb → ℝ) →L[ℝ] ℝ => M (sl ob nb d)) e2
    simp only [ContinuousLinearMap.comp_apply, ContinuousLinearMap.prod_apply, grad_apply, ContinuousLinearMap.id_apply,
      _root_.zero_apply] at a1 a2
    rw [ContinuousLinearMap.comp_apply, ContinuousLinearMap.prod_apply, grad_apply, slL_apply, slL_apply]
    simp only [add_mul, Finset.sum_add_distrib]
    rw [sum_scat ha, sum_scat hb, ← a1, ← a2, ← map_add]
    simp
  · show f (sl oa na y) (sl ob nb y) = f (slL oa na y) (slL ob nb y)
    rw [slL_apply, slL_apply]

/-- C151 (one operand): an operator that reads any earlier tensor. -/
theorem C151_unary {na m : Nat} (s : Stage na m) (junk : Nat → ℝ) {n o : Nat} (ho : o + na ≤ n) (x : Fin n → ℝ)
    (h : s.Good (sl o na x)) : (s.onTape junk n o).Good x := by
  obtain ⟨f, back, hf, hb, hr⟩ := h
  refine ⟨fun x => Fin.append x (f (sl o na x)), fun gy i => gy (Fin.castAdd m i) +
    scat n o (back fun k => gy (Fin.natAdd n k)) i, fun x' b hb' => ?_, fun gy b _ => ?_, fun gy => ?_⟩
  · simp only [Stage.onTape]
    rw [slice_ofFn ho, hf _ _ (by simp [hb']), Outcome.ok_bind, ofFn_append]
    rfl
  · simp only [Stage.onTape]
    rw [slice_ofFn ho, drop_ofFn, drop_ofFn, take_ofFn]
    simp only [Fin.append_right]
    rw [hb _ _ (by simp), Outcome.ok_bind, add_at ho]
  · have e : (fun x : Fin n → ℝ => ∑ i, gy i * Fin.append x (f (sl o na x)) i) = fun x => ∑ i, gy (Fin.castAdd m i) * x i +
        ∑ k, gy (Fin.natAdd n k) * f (sl o na x) k := by
      funext x
      rw [Fin.sum_univ_add]
      simp only [Fin.append_left, Fin.append_right]
    rw [e]
    exact isGradient_add (grad_id _ _) (isGradient_slice ho (f := fun y => ∑ k, gy (Fin.natAdd n k) * f y k) (hr _))

/-- C151 (two operands): an operator that reads any two earlier tensors, or one of them twice. -/
theorem C151_binary {na nb m : Nat} (s : Op2 na nb m) (junk : Nat → ℝ) {n oa ob : Nat} (ha : oa + na ≤ n) (hb : ob + nb ≤ n)
    (x : Fin n → ℝ) (h : s.Good (sl oa na x) (sl ob nb x)) : (s.onTape junk n oa ob).Good x := by
  obtain ⟨⟨f0, back0, hf0, hb0, hr0⟩, ⟨f1, back1, hf1, hb1, hr1⟩, f, hf, hd⟩ := h
  have e0 : ∀ a, f0 a = f a (sl ob nb x) := fun a => by
    have := (hf0 a (List.replicate m 0) (by simp)).symm.trans (hf a (sl ob nb x) _ (by simp))
    exact List.ofFn_injective (Outcome.ok.inj this)
  have e1 : ∀ b, f1 b = f (sl oa na x) b := fun b => by
    have := (hf1 b (List.replicate m 0) (by simp)).symm.trans (hf (sl oa na x) b _ (by simp))
    exact List.ofFn_injective (Outcome.ok.inj this)
  simp only [Op2.left, Op2.right, e0, e1] at hb0 hb1
  refine ⟨fun x => Fin.append x (f (sl oa na x) (sl ob nb x)), fun gy i => gy (Fin.castAdd m i) +
    scat n oa (back0 fun k => gy (Fin.natAdd n k)) i + scat n ob (back1 fun k => gy (Fin.natAdd n k)) i,
    fun x' b hb' => ?_, fun gy b _ => ?_, fun gy => ?_⟩
  · simp only [Op2.onTape]
    rw [slice_ofFn ha, slice_ofFn hb, hf _ _ _ (by simp [hb']), Outcome.ok_bind, ofFn_append]
    rfl
  · simp only [Op2.onTape]
    rw [slice_ofFn ha, slice_ofFn hb, drop_ofFn, drop_ofFn, take_ofFn]
    simp only [Fin.append_right]
    rw [hb0 _ _ (by simp), Outcome.ok_bind, add_at ha, Outcome.ok_bind, hb1 _ _ (by simp), Outcome.ok_bind, add_at hb]
  · have e : (fun x : Fin n → ℝ => ∑ i, gy i * Fin.append x (f (sl oa na x) (sl ob nb x)) i) =
        fun x => ∑ i, gy (Fin.castAdd m i) * x i + ∑ k, gy (Fin.natAdd n k) * f (sl oa na x) (sl ob nb x) k := by
      funext x
      rw [Fin.sum_univ_add]
      simp only [Fin.append_left, Fin.append_right]
    rw [e]
    have h0 := hr0 fun k => gy (Fin.natAdd n k)
    have h1 := hr1 fun k => gy (Fin.natAdd n k)
    simp only [e0] at h0
    simp only [e1] at h1
    have := isGradient_add (grad_id (fun i => gy (Fin.castAdd m i)) x)
      (isGradient_slices ha hb (f := fun a b => ∑ k, gy (Fin.natAdd n k) * f a b k) h0 h1
        (DifferentiableAt.fun_sum fun k _ => (hd k).const_mul _))
    simpa only [add_assoc] using this

/-! ## The operators with two operands -/

theorem diff_extend_fst {na nb : Nat} (k : Nat) (q : (Fin na → ℝ) × (Fin nb → ℝ)) :
    DifferentiableAt ℝ (fun p : (Fin na → ℝ) × (Fin nb → ℝ) => extend p.1 k) q := by
  unfold extend
  split <;> fun_prop

theorem diff_extend_snd {na nb : Nat} (k : Nat) (q : (Fin na → ℝ) × (Fin nb → ℝ)) :
    DifferentiableAt ℝ (fun p : (Fin na → ℝ) × (Fin nb → ℝ) => extend p.2 k) q := by
  unfold extend
  split <;> fun_prop

theorem diff_fn2 {E : Type} [NormedAddCommGroup E] [NormedSpace ℝ E] {G : E → Nat → Nat → ℝ} {q : E}
    (h : ∀ i j, DifferentiableAt ℝ (fun p => G p i j) q) (idx : List Nat) : DifferentiableAt ℝ (fun p => fn2 (G p) idx) q := by
  match idx with
  | [i, j] => exact h i j
  | [] => exact differentiableAt_const _
  | [_] => exact differentiableAt_const _
  | _ :: _ :: _ :: _ => exact differentiableAt_const _

theorem diff_fn4 {E : Type} [NormedAddCommGroup E] [NormedSpace ℝ E] {G : E → Nat → Nat → Nat → Nat → ℝ} {q : E}
    (h : ∀ i j k l, DifferentiableAt ℝ (fun p => G p i j k l) q) (idx : List Nat) :
    DifferentiableAt ℝ (fun p => fn4 (G p) idx) q := by
  match idx with
  | [i, j, k, l] => exact h i j k l
  | [] => exact differentiableAt_const _
  | [_] => exact differentiableAt_const _
  | [_, _] => exact differentiableAt_const _
  | [_, _, _] => exact differentiableAt_const _
  | _ :: _ :: _ :: _ :: _ :: _ => exact differentiableAt_const _

namespace Op2

/-- `ops::matmul`, with `grad::matmul<0>` and `grad::matmul<1>`. -/
def matmul (m l n : Nat) : Op2 [m, l].prod [l, n].prod [m, n].prod where
  fwd x y b := Plain.mm ⟨[m, l], x⟩ ⟨[l, n], y⟩ [m, n] b
  bwd0 _ y _ gz b := Grad.matmul0 [m, l] ⟨[m, n], gz⟩ ⟨[l, n], y⟩ b
  bwd1 x _ _ gz b := Grad.matmul1 [l, n] ⟨[m, n], gz⟩ ⟨[m, l], x⟩ b

/-- `ops::add`, with `grad::add<0>` and `grad::add<1>`. -/
def add (ds : List Nat) : Op2 ds.prod ds.prod ds.prod where
  fwd x y b := Ops.add ds.prod (.ext x) (.ext y) 0 b
  bwd0 _ _ _ gz b := Grad.add ⟨ds, gz⟩ b
  bwd1 _ _ _ gz b := Grad.add ⟨ds, gz⟩ b

/-- `ops::mul`, with `grad::mul<0>` and `grad::mul<1>`. -/
def mul (ds : List Nat) : Op2 ds.prod ds.prod ds.prod where
  fwd x y b := Ops.mul ds.prod (.ext x) (.ext y) 0 b
  bwd0 _ y _ gz b := Grad.mul ⟨ds, gz⟩ ⟨ds, y⟩ b
  bwd1 x _ _ gz b := Grad.mul ⟨ds, gz⟩ ⟨ds, x⟩ b

/-- `ops::add_bias<hw>`, with `grad::add_bias<hw, 0>` and `grad::add_bias<hw, 1>`. -/
def biasHw (h w : Nat) : Op2 [h, w].prod [w].prod [h, w].prod where
  fwd x y b := Ops.applyBias (· + ·) .hw [h, w] [h, w] (.ext x) y 0 b
  bwd0 _ _ _ gz b := Grad.biasX ⟨[h, w], gz⟩ b
  bwd1 _ _ _ gz b := Grad.biasHw ⟨[h, w], gz⟩ b

/-- `ops::add_bias<nhwc>`, with `grad::add_bias<nhwc, 0>` and `grad::add_bias<nhwc, 1>`. -/
def biasNhwc (n h w c : Nat) : Op2 [n, h, w, c].prod [c].prod [n, h, w, c].prod where
  fwd x y b := Ops.applyBias (· + ·) .nhwc [n, h, w, c] [n, h, w, c] (.ext x) y 0 b
  bwd0 _ _ _ gz b := Grad.biasX ⟨[n, h, w, c], gz⟩ b
  bwd1 _ _ _ gz b := Grad.biasNhwc ⟨[n, h, w, c], gz⟩ b

/-- `ops::conv<nhwc>`, with `grad::conv<nhwc, 0>` and `grad::conv<nhwc, 1>`. -/
def conv (H W : Axis) (n c d : Nat) (junkI : Nat → Int) (junk junk' : Nat → ℝ) :
    Op2 [n, H.n, W.n, c].prod [H.k, W.k, c, d].prod [n, H.m, W.m, d].prod where
  fwd x y b := Kernels.convNhwc (convTrait H W) junkI junk [n, H.m, W.m, d] ⟨[n, H.n, W.n, c], x⟩ ⟨[H.k, W.k, c, d], y⟩ b
  bwd0 _ y _ gz b := Kernels.convGradX (convTrait H W) junk' [n, H.n, W.n, c] ⟨[n, H.m, W.m, d], gz⟩ ⟨[H.k, W.k, c, d], y⟩ b
  bwd1 x _ _ gz b := Kernels.convGradY (convTrait H W) junk' [H.k, W.k, c, d] ⟨[n, H.m, W.m, d], gz⟩ ⟨[n, H.n, W.n, c], x⟩ b

end Op2

/-- C151 (`matmul`). -/
theorem C151_matmul (m l n : Nat) (x) (y) : (Op2.matmul m l n).Good x y := by
  refine ⟨?_, ?_, fun x y => vec [m, n] (fn2 fun i j => ∑ q ∈ range l, ent [m, l] x [i, q] * ent [l, n] y [q, j]),
    fun x y b hb => ?_, fun k => diff_fn2 (fun i j => ?_) _⟩
  · have := C124_matmul_left m l n (fun i j => ent [l, n] y [i, j]) x
    simpa only [Op2.left, Op2.matmul, Stage.matmulLeft, tensor_ent, ent2] using this
  · have := C124_matmul_right m l n (fun i j => ent [m, l] x [i, j]) y
    simpa only [Op2.right, Op2.matmul, Stage.matmulRight, tensor_ent, ent2] using this
  · simp only [Op2.matmul]
    rw [tensor_ent, tensor_ent, ent2, ent2, ofFn_vec]
    refine (Plain.mm_run _ _ (by simpa using hb)).trans ?_
    refine congrArg (fun t => Outcome.ok (Tensor.data t)) (tab_congr fun idx hv => ?_)
    match idx, hv with
    | [i, j], _ => exact seqSum_eq_sum _ _
  · exact DifferentiableAt.fun_sum fun q _ => (diff_extend_fst _ _).mul (diff_extend_snd _ _)

/-- C151 (`add`). -/
theorem C151_add (ds : List Nat) (x) (y) : (Op2.add ds).Good x y := by
  have comm : ∀ (a b : Fin ds.prod → ℝ) c, c.length = ds.prod → Ops.add ds.prod (.ext (List.ofFn a)) (.ext (List.ofFn b)) 0 c =
      .ok (List.ofFn fun i => a i + b i) := fun a b c hc => by
    have h := C21_add (R := ℝ) (ext_holds (List.ofFn a) c 0) (ext_holds (List.ofFn b) c 0) (by simp) (by simp [hc])
    rw [List.length_ofFn] at h
    rw [h, store_all (by simp [hc]), zipWith_ofFn]
  refine ⟨?_, ?_, fun x y i => x i + y i, fun x y b hb => comm x y b hb, fun k => by fun_prop⟩
  · have := C124_add ds (ent ds y) x
    simpa only [Op2.left, Op2.add, Stage.addConst, ofFn_ent ds y] using this
  · obtain ⟨f, back, hf, hb, hr⟩ := C124_add ds (ent ds x) y
    simp only [Stage.addConst, ← ofFn_ent] at hf hb
    exact ⟨f, back, fun y' b h => by
      rw [← hf y' b h]
      simp only [Op2.right, Op2.add]
      rw [comm _ _ _ h, comm _ _ _ h]
      simp only [add_comm], hb, hr⟩

/-- C151 (`mul`). -/
theorem C151_mul (ds : List Nat) (x) (y) : (Op2.mul ds).Good x y := by
  have comm : ∀ (a b : Fin ds.prod → ℝ) c, c.length = ds.prod → Ops.mul ds.prod (.ext (List.ofFn a)) (.ext (List.ofFn b)) 0 c =
      .ok (List.ofFn fun i => a i * b i) := fun a b c hc => by
    have h := C21_mul (R := ℝ) (ext_holds (List.ofFn a) c 0) (ext_holds (List.ofFn b) c 0) (by simp) (by simp [hc])
    rw [List.length_ofFn] at h
    rw [h, store_all (by simp [hc]), zipWith_ofFn]
  refine ⟨?_, ?_, fun x y i => x i * y i, fun x y b hb => comm x y b hb, fun k => by fun_prop⟩
  · have := C124_mul ds (ent ds y) x
    simpa only [Op2.left, Op2.mul, Stage.mulConst, tensor_ent ds y, ← ofFn_ent ds y] using this
  · obtain ⟨f, back, hf, hb, hr⟩ := C124_mul ds (ent ds x) y
    simp only [Stage.mulConst, ← ofFn_ent] at hf hb
    rw [← tensor_ent] at hb
    exact ⟨f, back, fun y' b h => by
      rw [← hf y' b h]
      simp only [Op2.right, Op2.mul]
      rw [comm _ _ _ h, comm _ _ _ h]
      simp only [mul_comm], hb, hr⟩

/-- C151 (`add_bias` on matrices). -/
theorem C151_bias_hw (h w : Nat) (x) (y) : (Op2.biasHw h w).Good x y := by
  refine ⟨?_, ?_, fun x y => vec [h, w] (fn2 fun i j => ent [h, w] x [i, j] + ent [w] y [j]), fun x' y' b hb => ?_,
    fun k => diff_fn2 (fun i j => (diff_extend_fst _ _).add (diff_extend_snd _ _)) _⟩
  · have := C124_bias_hw h w (fun j => ent [w] y [j]) x
    simpa only [Op2.left, Op2.biasHw, Stage.biasHw, ofFn_ent [w] y, ent1] using this
  · have := C124_bias_hw_param h w (fun i j => ent [h, w] x [i, j]) y
    simpa only [Op2.right, Op2.biasHw, Stage.biasHwParam, ofFn_ent [h, w] x, ent2] using this
  · simp only [Op2.biasHw]
    rw [ofFn_ent [h, w] x', ent2, ofFn_ent [w] y', ent1, C22_bias_hw _ (m := b) (z := 0) _ _ (ext_holds _ _ _)
      (by rw [hb, Nat.zero_add]), store_all (by simp [hb]), ofFn_vec]

/-- C151 (`add_bias` on images). -/
theorem C151_bias_nhwc (n h w c : Nat) (x) (y) : (Op2.biasNhwc n h w c).Good x y := by
  refine ⟨?_, ?_, fun x y => vec [n, h, w, c] (fn4 fun l i j k => ent [n, h, w, c] x [l, i, j, k] + ent [c] y [k]),
    fun x' y' b hb => ?_, fun k => diff_fn4 (fun _ _ _ _ => (diff_extend_fst _ _).add (diff_extend_snd _ _)) _⟩
  · have := C124_bias_nhwc n h w c (fun j => ent [c] y [j]) x
    simpa only [Op2.left, Op2.biasNhwc, Stage.biasNhwc, ofFn_ent [c] y, ent1] using this
  · have := C124_bias_nhwc_param n h w c (fun l i j k => ent [n, h, w, c] x [l, i, j, k]) y
    simpa only [Op2.right, Op2.biasNhwc, Stage.biasNhwcParam, ofFn_ent [n, h, w, c] x, ent4] using this
  · simp only [Op2.biasNhwc]
    rw [ofFn_ent [n, h, w, c] x', ent4, ofFn_ent [c] y', ent1, C22_bias_nhwc _ (m := b) (z := 0) _ _ (ext_holds _ _ _)
      (by rw [hb, Nat.zero_add]), store_all (by simp [hb]), ofFn_vec]

/-- C151 (`conv`). -/
theorem C151_conv {H W : Axis} (hH : AxisOK u32 H) (hW : AxisOK u32 W) {n c d : Nat} (hsz : [H.n, W.n, c].prod ≤ 2 ^ 31)
    (junkI : Nat → Int) (junk junk' : Nat → ℝ) (x) (y) : (Op2.conv H W n c d junkI junk junk').Good x y := by
  refine ⟨?_, ?_, fun x y => vec [n, H.m, W.m, d] (fn4 fun b i j e => conv2 H W c
    (fun a a' k => ent [n, H.n, W.n, c] x [b, a, a', k]) (fun u v k e => ent [H.k, W.k, c, d] y [u, v, k, e]) i j e),
    fun x' y' b hb => ?_, fun k => diff_fn4 (fun b i j e => ?_) _⟩
  · have := C124_conv_image hH hW (n := n) (d := d) hsz (fun u v k e => ent [H.k, W.k, c, d] y [u, v, k, e]) junkI junk junk' x
    simpa only [Op2.left, Op2.conv, Stage.convImage, tensor_ent, ent4] using this
  · have := C124_conv_filter hH hW (n := n) (d := d) hsz (fun b i j k => ent [n, H.n, W.n, c] x [b, i, j, k]) junkI junk junk' y
    simpa only [Op2.right, Op2.conv, Stage.convFilter, tensor_ent, ent4] using this
  · simp only [Op2.conv]
    rw [tensor_ent, tensor_ent, ent4, ent4, Kernels.convNhwc_run hH hW hsz _ _ junkI junk hb, ofFn_vec]
  · unfold conv2
    refine DifferentiableAt.fun_sum fun u _ => DifferentiableAt.fun_sum fun v _ => DifferentiableAt.fun_sum fun q _ =>
      DifferentiableAt.mul ?_ (diff_extend_snd _ _)
    unfold window padded
    split
    · split
      · exact diff_extend_fst _ _
      · exact differentiableAt_const _
    · exact differentiableAt_const _

/-! ## One tensor of a program -/

/-- The memory `x` with the tensor at `o` replaced by `p`. -/
def put {n na : Nat} (o : Nat) (p : Fin na → ℝ) (x : Fin n → ℝ) (i : Fin n) : ℝ :=
  if o ≤ i ∧ i < o + na then extend p (i - o) else x i

/-- `scat` as a continuous linear map. -/
noncomputable def scatL {na : Nat} (n o : Nat) : (Fin na → ℝ) →L[ℝ] (Fin n → ℝ) :=
  ContinuousLinearMap.pi fun i => if h : o ≤ i ∧ i - o < na then ContinuousLinearMap.proj ⟨i - o, h.2⟩ else 0

theorem scatL_apply {n o na : Nat} (v : Fin na → ℝ) : scatL n o v = scat n o v := by
  funext i
  unfold scatL scat extend
  rw [ContinuousLinearMap.pi_apply]
  by_cases h : o ≤ i
  · by_cases h' : i - o < na
    · rw [dif_pos ⟨h, h'⟩, if_pos h, dif_pos h']
      rfl
    · rw [dif_neg (fun c => h' c.2), if_pos h, dif_neg h']
      rfl
  · rw [dif_neg (fun c => h c.1), if_neg h]
    rfl

theorem put_eq {n o na : Nat} (p : Fin na → ℝ) (x : Fin n → ℝ) : put o p x = put o (0 : Fin na → ℝ) x + scatL n o p := by
  funext i
  rw [scatL_apply, Pi.add_apply]
  unfold put scat extend
  by_cases h : o ≤ i
  · by_cases h' : (i : Nat) < o + na
    · rw [if_pos ⟨h, h'⟩, if_pos ⟨h, h'⟩, if_pos h, dif_pos (by omega), dif_pos (by omega), Pi.zero_apply, zero_add]
    · rw [if_neg (fun c => h' c.2), if_neg (fun c => h' c.2), if_pos h, dif_neg (by omega), add_zero]
  · rw [if_neg (fun c => h c.1), if_neg (fun c => h c.1), if_neg h, add_zero]

theorem put_sl {n o na : Nat} (ho : o + na ≤ n) (x : Fin n → ℝ) : put o (sl o na x) x = x := by
  funext i
  unfold put sl extend
  split
  · rw [dif_pos (by omega)]
    refine (dif_pos (by simp; omega)).trans ?_
    exact congrArg x (Fin.ext (by simp; omega))
  · rfl

theorem scat_list {k oz nz : Nat} (hz : oz + nz ≤ k) (g : Fin nz → ℝ) :
    List.ofFn (scat k oz g) = List.replicate oz 0 ++ List.ofFn g ++ List.replicate (k - (oz + nz)) 0 := by
  refine List.ext_getElem (by simp; omega) fun i h1 h2 => ?_
  have hi : i < k := by simpa using h1
  simp only [List.getElem_ofFn, scat, extend, List.getElem_append, List.length_append, List.length_replicate, List.length_ofFn,
    List.getElem_replicate]
  by_cases h : oz ≤ i
  · by_cases h' : i < oz + nz
    · rw [if_pos h, dif_pos (by omega), dif_pos h', dif_neg (by omega)]
    · rw [if_pos h, dif_neg (by omega), dif_neg h']
  · rw [if_neg h, dif_pos (by omega), dif_pos (by omega)]

/-- C151 (one tensor): a loss of the tensor at `oz` of the final memory, as a function of the tensor at `o` of the initial
memory alone. The backward pass is started with the gradient of the loss at `oz` and zeros elsewhere; what it leaves at `o`
is the gradient of the loss, however often the program uses that tensor. -/
theorem C151_tensor {n k : Nat} (t : Net n k) (x : Fin n → ℝ) (h : t.Good x) {o na oz nz : Nat} (ho : o + na ≤ n)
    (hz : oz + nz ≤ k) :
    ∃ f : (Fin n → ℝ) → Fin k → ℝ,
      (∀ junk i x', t.forward junk i (List.ofFn x') = .ok (List.ofFn (f x'))) ∧
      ∀ (L : (Fin nz → ℝ) → ℝ) (gz : Fin nz → ℝ), IsGradient L gz (sl oz nz (f x)) →
        ∃ g, (∀ junk junk' i, t.gradient junk junk' i (List.ofFn x)
            (List.replicate oz 0 ++ List.ofFn gz ++ List.replicate (k - (oz + nz)) 0) = .ok g) ∧
          ∃ ga : Fin na → ℝ, piece o na g = List.ofFn ga ∧
            IsGradient (fun p => L (sl oz nz (f (put o p x)))) ga (sl o na x) := by
  obtain ⟨f, hf, hL⟩ := C124_loss t x h
  refine ⟨f, hf, fun L gz hg => ?_⟩
  obtain ⟨g, hb, hg'⟩ := hL (fun y => L (sl oz nz y)) (scat k oz gz) (isGradient_slice hz hg)
  refine ⟨List.ofFn g, fun junk junk' i => by rw [← scat_list hz]; exact hb junk junk' i, sl o na g, slice_ofFn ho g, ?_⟩
  rw [isGradient_iff] at *
  have e : put o (sl o na x) x = x := put_sl ho x
  have hp : HasFDerivAt (fun p : Fin na → ℝ => put o p x) (scatL n o) (sl o na x) := by
    have : (fun p : Fin na → ℝ => put o p x) = fun p => put o (0 : Fin na → ℝ) x + scatL n o p := funext fun p => put_eq p x
    rw [this]
    exact (scatL n o).hasFDerivAt.const_add _
  rw [← e] at hg'
  refine (HasFDerivAt.comp (g := fun x => L (sl oz nz (f x))) (f := fun p : Fin na → ℝ => put o p x) (sl o na x) hg'
    hp).congr_fderiv ?_
  ext d
  rw [ContinuousLinearMap.comp_apply, grad_apply, grad_apply, scatL_apply]
  have := sum_scat ho d g
  simp only [mul_comm (scat n o d _), mul_comm (d _)] at this
  exact this

/-! ## Concrete cases -/

/-- A program on a batch `x` of two rows of three, a square matrix `w` and a bias `b`: `y = x w + b`, `z = x + y`, `u = z w`,
`v = u * u`; the matrix is used twice, the batch twice, and `u` is both operands of the last call. -/
def exTape (junk : Nat → ℝ) : Net 18 48 :=
  .cons ((Op2.matmul 2 3 3).onTape junk 18 0 6) (.cons ((Op2.biasHw 2 3).onTape junk 24 18 15)
    (.cons ((Op2.add [2, 3]).onTape junk 30 0 24) (.cons ((Op2.matmul 2 3 3).onTape junk 36 30 6)
      (.cons ((Op2.mul [2, 3]).onTape junk 42 36 36) (.nil _)))))

theorem exTape_good (junk : Nat → ℝ) (x) : (exTape junk).Good x :=
  ⟨C151_binary _ _ (by decide) (by decide) _ (C151_matmul ..), fun _ _ =>
    ⟨C151_binary _ _ (by decide) (by decide) _ (C151_bias_hw ..), fun _ _ =>
      ⟨C151_binary _ _ (by decide) (by decide) _ (C151_add ..), fun _ _ =>
        ⟨C151_binary _ _ (by decide) (by decide) _ (C151_matmul ..), fun _ _ =>
          ⟨C151_binary _ _ (by decide) (by decide) _ (C151_mul ..), fun _ _ => trivial⟩⟩⟩⟩⟩

/-- The gradient for the matrix (at 6, nine elements) of a loss of the last tensor (at 42, six elements). -/
example (junk : Nat → ℝ) (x) := C151_tensor (exTape junk) x (exTape_good junk x) (o := 6) (na := 9) (oz := 42) (nz := 6)
  (by decide) (by decide)

/-- A program on six images (180 elements), filters (32) and a bias (4): a convolution, a bias, and the square of the result. -/
def exTapeConv (junkI : Nat → Int) (junk : Nat → ℝ) : Net 216 864 :=
  .cons ((Op2.conv exH exW 6 2 4 junkI junk junk).onTape junk 216 0 180)
    (.cons ((Op2.biasNhwc 6 3 3 4).onTape junk 432 216 212) (.cons ((Op2.mul [6, 3, 3, 4]).onTape junk 648 432 432) (.nil _)))

/-- The gradient for the filters of a loss of the squares. -/
example (junkI : Nat → Int) (junk : Nat → ℝ) (x) := C151_tensor (exTapeConv junkI junk) x
  ⟨C151_binary _ _ (by decide) (by decide) _ (C151_conv exH_ok exW_ok (by decide) ..), fun _ _ =>
    ⟨C151_binary _ _ (by decide) (by decide) _ (C151_bias_nhwc ..), fun _ _ =>
      ⟨C151_binary _ _ (by decide) (by decide) _ (C151_mul ..), fun _ _ => trivial⟩⟩⟩
  (o := 180) (na := 32) (oz := 648) (nz := 216) (by decide) (by decide)

/-- The relu of the second tensor of a memory with two tensors of two elements. -/
example : ((Stage.relu 2).onTape (fun _ => 9) 4 2).Good ![0, 0, 3, -1] :=
  C151_unary _ _ (by decide) _ (C124_relu _ fun i => by fin_cases i <;> simp [sl, extend])

end StdNN
