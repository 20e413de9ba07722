import Verif.Model.Train
import Verif.Spec.Train
import Verif.Props.Activation
import Verif.Props.Summary
import Verif.Props.Utility
import Verif.Props.Elementwise
import Verif.Props.IO
import Mathlib.Analysis.SpecialFunctions.Log.Deriv
import Mathlib.Analysis.SpecialFunctions.ExpDeriv
/-!
# The training example

C97: what one training step writes, and that it subtracts the gradient of the loss. C98: the accuracy printed. C99: what
is loaded for a batch and which images a training run uses. C100: the data set loader.
-/
namespace StdNN
open Outcome Finset Spec
variable {R : Type}

/-! ## The pieces, without laws of arithmetic -/

theorem mem_holds (m : List R) : (Src.mem 0).Holds m 0 m := ⟨Or.inl rfl, fun i _ => by simp⟩

theorem Slp.forward_run [Zero R] [Add R] [Mul R] {n p k : Nat} (X W : Nat → Nat → R) (B : Nat → R) {ys : List R}
    (hys : ys.length = n * k) :
    Slp.forward [n, k] (tab [n, p] (fn2 X)) (tab [p, k] (fn2 W)) (tab [k] (fn1 B)).data ys =
      .ok (tab [n, k] (fn2 fun i j => (seqSum p fun q => X i q * W q j) + B j)).data := by
  unfold Slp.forward
  rw [Plain.mm_run _ _ hys, Outcome.ok_bind]
  have e : Plain.prod2 p (fn2 X) (fn2 W) = fn2 fun i j => seqSum p fun q => X i q * W q j := rfl
  rw [e, C22_bias_hw (fun a b => a + b) (x := .mem 0) (z := 0) _ B (mem_holds _) (by simp), store_all (by simp)]

theorem Slp.grad_run [Zero R] [Add R] [Mul R] {n p k : Nat} (G X : Nat → Nat → R) {gw gb : List R}
    (hw : gw.length = p * k) (hb : gb.length = k) :
    Slp.grad [p, k] (tab [n, k] (fn2 G)) (tab [n, p] (fn2 X)) gw gb =
      .ok ((tab [p, k] (fn2 fun q j => seqSum n fun i => X i q * G i j)).data,
        (tab [k] (fn1 fun j => seqSum n fun i => G i j)).data) := by
  unfold Slp.grad
  have e1 : forRange k (fun l gb => do
      let tot ← forRange n (fun i tot => do
        let v ← (tab [n, k] (fn2 G)).at_ [i, l]
        return tot + v) 0
      wr gb l tot) gb = .ok (tab [k] (fn1 fun j => seqSum n fun i => G i j)).data := by
    rw [← Plain.run_store1 (val := fun j => seqSum n fun i => G i j) hb]
    refine forRange_congr (fun j hj s => ?_) gb
    rw [forRange_sum (f := fun i => G i j)]
    · rw [Outcome.ok_bind]; simp
    · intro i hi s
      rw [tab_at _ (v2 hi hj)]; rfl
  have e2 : Plain.mtm (tab [n, p] (fn2 X)) (tab [n, k] (fn2 G)) [p, k] gw =
      .ok (tab [p, k] (fn2 fun q j => seqSum n fun i => X i q * G i j)).data := Plain.mtm_run _ _ hw
  simp only [tab_dims]
  rw [e1, Outcome.ok_bind, e2, Outcome.ok_bind]
  rfl

/-- The sizes that `train_slp_model` allocates. -/
structure Slp.Sized (n p k : Nat) (s : Slp.State R) : Prop where
  xs : s.xs.length = n * p
  zs : s.zs.length = n * k
  ys : s.ys.length = n * k
  y_s : s.y_s.length = n * k
  ls : s.ls.length = n
  l : s.l.length = 1
  g_ls : s.g_ls.length = n
  g_ys : s.g_ys.length = n * k
  g_zs : s.g_zs.length = n * k
  g_w : s.g_w.length = p * k
  g_b : s.g_b.length = k

/-! ## C97 -/

theorem prob_pos {eps : ℝ} {k : Nat} {p : Nat} (X W : Nat → Nat → ℝ) (B : Nat → ℝ) (i : Nat) {j : Nat}
    (hj : j < k) : 0 < prob eps p k X W B i j :=
  lt_of_lt_of_le (softmax_pos hj _) (le_max_right _ _)

/-- C97: one training step on a batch `X` with targets `T` whose rows sum to one writes `l`, the mean loss of the old
parameters, and subtracts `c * Xᵀ (P - T)` from `w` and `c` times the column sums of `P - T` from `b`, where `P` are the
predicted probabilities under the old parameters and `c` the entries of `g_ls`. Nothing depends on what the other tensors
held before. -/
theorem C97_step (eps : ℝ) (junk : Nat → ℝ) {n p k : Nat} (c : ℝ) (X T W : Nat → Nat → ℝ) (B : Nat → ℝ)
    (hT : ∀ i < n, ∑ j ∈ range k, T i j = 1) {s : Slp.State ℝ} (hs : Slp.Sized n p k s)
    (hx : s.xs = (tab [n, p] (fn2 X)).data) (ht : s.y_s = (tab [n, k] (fn2 T)).data)
    (hc : s.g_ls = (tab [n] (fn1 fun _ => c)).data) (hw : s.w = (tab [p, k] (fn2 W)).data)
    (hb : s.b = (tab [k] (fn1 B)).data) :
    ∃ s', Slp.step Real.exp Real.log eps (fun x n => x / (n : ℝ)) junk n p k s = .ok s' ∧ Slp.Sized n p k s' ∧
      s'.g_ls = s.g_ls ∧
      s'.l = [meanLoss eps n p k X T W B] ∧
      s'.w = (tab [p, k] (fn2 fun q j =>
        W q j - ∑ i ∈ range n, X i q * (c * (prob eps p k X W B i j - T i j)))).data ∧
      s'.b = (tab [k] (fn1 fun j => B j - ∑ i ∈ range n, c * (prob eps p k X W B i j - T i j))).data := by
  have e1 : Slp.forward [n, k] ⟨[n, p], s.xs⟩ ⟨[p, k], s.w⟩ s.b s.zs =
      .ok (tab [n, k] (fn2 fun i j => logit p X W B i j)).data := by
    rw [hx, hw, hb]
    refine (Slp.forward_run X W B hs.zs).trans ?_
    simp only [logit, seqSum_eq_sum]
  have e2 : Ops.softmax Real.exp eps [n, k] [n, k] (.ext (tab [n, k] (fn2 fun i j => logit p X W B i j)).data) 0 s.ys =
      .ok (tab [n, k] (fn2 fun i j => prob eps p k X W B i j)).data := by
    have h := C51_value eps [n] k (fn2 fun i j => logit p X W B i j) 0 s.ys (by simp [hs.ys])
    rw [store_all (by simp [hs.ys])] at h
    refine h.trans (congrArg (fun t => Outcome.ok (Tensor.data t)) (tab_congr fun idx hv => ?_))
    match idx, hv with
    | [i, j], hv => simp [prob]
  have e3 : Ops.xentropy Real.log [n] ⟨[n, k], s.y_s⟩ ⟨[n, k], (tab [n, k] (fn2 fun i j => prob eps p k X W B i j)).data⟩
      s.ls = .ok (tab [n] (fn1 fun i => -∑ j ∈ range k, T i j * Real.log (prob eps p k X W B i j))).data := by
    rw [ht]
    refine (C54_value Real.log [n] k (fn2 T) (fn2 fun i j => prob eps p k X W B i j) (by simpa using hs.ls)).trans ?_
    refine congrArg (fun t => Outcome.ok (Tensor.data t)) (tab_congr fun idx hv => ?_)
    match idx, hv with
    | [i], hv => simp
  have e4 : Ops.mean (Ops.Summaries.mean fun x n => x / (n : ℝ)) 1 n
      (tab [n] (fn1 fun i => -∑ j ∈ range k, T i j * Real.log (prob eps p k X W B i j))).data s.l =
      .ok [meanLoss eps n p k X T W B] := by
    have h := C82_mean (fun (x : ℝ) n => x / (n : ℝ)) (rows := 1) (n := n)
      (fun _ i => -∑ j ∈ range k, T i j * Real.log (prob eps p k X W B i j)) hs.l
    have e : (tab [1, n] (fn2 fun _ i => -∑ j ∈ range k, T i j * Real.log (prob eps p k X W B i j))).data =
        (tab [n] (fn1 fun i => -∑ j ∈ range k, T i j * Real.log (prob eps p k X W B i j))).data := by
      refine List.ext_getElem? fun q => ?_
      by_cases hq : q < n
      · have h1 := tab_getElem? (fn2 fun _ i => -∑ j ∈ range k, T i j * Real.log (prob eps p k X W B i j))
          (v2 (a0 := 1) (a1 := n) Nat.one_pos hq)
        have h2 := tab_getElem? (fn1 fun i => -∑ j ∈ range k, T i j * Real.log (prob eps p k X W B i j)) (v1 hq)
        simp only [offset, List.prod_cons, List.prod_nil, mul_one, zero_mul, zero_add, add_zero, fn1_apply, fn2_apply] at h1 h2
        rw [h1, h2]
      · rw [List.getElem?_eq_none (by simpa using hq), List.getElem?_eq_none (by simpa using hq)]
    rw [← e, h]
    simp [meanLoss, seqSum_eq_sum]
  have e5 := C50_chain junk (rows := n) (n := k) (fun _ => c) T (fun i j => prob eps p k X W B i j)
    (fun i _ j hj => (prob_pos X W B i hj).ne') hT hs.g_ys hs.g_zs
  obtain ⟨gys, g1, g2⟩ : ∃ gys, Grad.xentropy [n, k] (tab [n] (fn1 fun _ => c)) (tab [n, k] (fn2 T))
      (tab [n, k] (fn2 fun i j => prob eps p k X W B i j)) s.g_ys = .ok gys ∧ gys.length = n * k :=
    ⟨_, C49_formula _ _ _ hs.g_ys, by simp⟩
  rw [g1, Outcome.ok_bind] at e5
  have e6 := Slp.grad_run (n := n) (p := p) (k := k) (fun i j => c * (prob eps p k X W B i j - T i j)) X hs.g_w hs.g_b
  have e7 : ∀ V : Nat → Nat → ℝ, Ops.sub (p * k) (.mem 0) (.ext (tab [p, k] (fn2 V)).data) 0 (tab [p, k] (fn2 W)).data =
      .ok (tab [p, k] (fn2 fun q j => W q j - V q j)).data := by
    intro V
    have h := C21_sub (R := ℝ) (mem_holds (tab [p, k] (fn2 W)).data)
      (ext_holds (tab [p, k] (fn2 V)).data _ 0) (by simp) (by simp)
    rw [zipWith_tab, store_all (by simp)] at h
    simp only [tab_length, List.prod_cons, List.prod_nil, mul_one] at h
    rw [h]
    refine congrArg (fun t => Outcome.ok (Tensor.data t)) (tab_congr fun idx hv => ?_)
    match idx, hv with
    | [i, j], hv => rfl
  have e8 : ∀ V : Nat → ℝ, Ops.sub k (.mem 0) (.ext (tab [k] (fn1 V)).data) 0 (tab [k] (fn1 B)).data =
      .ok (tab [k] (fn1 fun j => B j - V j)).data := by
    intro V
    have h := C21_sub (R := ℝ) (mem_holds (tab [k] (fn1 B)).data)
      (ext_holds (tab [k] (fn1 V)).data _ 0) (by simp) (by simp)
    rw [zipWith_tab, store_all (by simp)] at h
    simp only [tab_length, List.prod_cons, List.prod_nil, mul_one] at h
    rw [h]
    refine congrArg (fun t => Outcome.ok (Tensor.data t)) (tab_congr fun idx hv => ?_)
    match idx, hv with
    | [j], hv => rfl
  refine ⟨?_, ?_, ?_⟩
  rotate_left
  · unfold Slp.step
    rw [e1, Outcome.ok_bind, e2, Outcome.ok_bind, e3, Outcome.ok_bind, e4, Outcome.ok_bind, hc, ht]
    refine (congrArg (fun o => Outcome.bind o _) g1).trans ?_
    refine (congrArg (fun o => Outcome.bind o _) e5).trans ?_
    rw [hx, hw, hb]
    refine (congrArg (fun o => Outcome.bind o _) e6).trans ?_
    refine (congrArg (fun o => Outcome.bind o _) (e7 _)).trans ?_
    refine (congrArg (fun o => Outcome.bind o _) (e8 _)).trans ?_
    rfl
  · refine ⟨⟨?_, ?_, ?_, ?_, ?_, ?_, ?_, ?_, ?_, ?_, ?_⟩, ?_, ?_, ?_, ?_⟩ <;> simp [g2, hc, seqSum_eq_sum]

theorem logit_line (p : Nat) (X W DW : Nat → Nat → ℝ) (B DB : Nat → ℝ) (t : ℝ) (i j : Nat) :
    logit p X (fun q j => W q j + t * DW q j) (fun j => B j + t * DB j) i j =
      logit p X W B i j + t * logit p X DW DB i j := by
  unfold logit
  rw [mul_add, Finset.mul_sum, add_add_add_comm, ← Finset.sum_add_distrib]
  congr 1
  exact Finset.sum_congr rfl fun q _ => by ring

theorem sum_exp_line_deriv (k : Nat) (z d : Nat → ℝ) :
    HasDerivAt (fun t : ℝ => ∑ j ∈ range k, Real.exp (z j + t * d j)) (∑ j ∈ range k, Real.exp (z j) * d j) 0 := by
  refine HasDerivAt.fun_sum fun j _ => ?_
  have h1 : HasDerivAt (fun t : ℝ => z j + t * d j) (d j) 0 := by
    simpa using ((hasDerivAt_id (0 : ℝ)).mul_const (d j)).const_add (z j)
  simpa using h1.exp

theorem row_deriv {eps : ℝ} {k : Nat} {T z : Nat → ℝ} (d : Nat → ℝ) (hT : ∑ j ∈ range k, T j = 1)
    (hc : ∀ j < k, eps < Spec.softmax k z j) :
    HasDerivAt (fun t : ℝ => -∑ j ∈ range k, T j * Real.log (max eps (Spec.softmax k (fun j => z j + t * d j) j)))
      (∑ j ∈ range k, (Spec.softmax k z j - T j) * d j) 0 := by
  have hk : 0 < k := by
    rcases Nat.eq_zero_or_pos k with h | h
    · subst h; simp at hT
    · exact h
  have hS : ∀ y : Nat → ℝ, 0 < ∑ j ∈ range k, Real.exp (y j) := fun y =>
    Finset.sum_pos (fun j _ => Real.exp_pos _) ⟨0, mem_range.2 hk⟩
  have hcont : ∀ j, Continuous fun t : ℝ => Spec.softmax k (fun j => z j + t * d j) j := by
    intro j
    unfold Spec.softmax
    refine Continuous.div (by fun_prop) (by fun_prop) fun t => (hS _).ne'
  have hev : ∀ᶠ t in nhds (0 : ℝ), ∀ j ∈ range k, eps < Spec.softmax k (fun j => z j + t * d j) j := by
    rw [Filter.eventually_all_finset]
    intro j hj
    have h0 : eps < Spec.softmax k (fun j => z j + (0 : ℝ) * d j) j := by simpa using hc j (mem_range.1 hj)
    exact (hcont j).continuousAt.eventually_const_lt h0
  have hd : HasDerivAt (fun t : ℝ => -(∑ j ∈ range k, T j * (z j + t * d j)) +
      Real.log (∑ j ∈ range k, Real.exp (z j + t * d j)))
      (-(∑ j ∈ range k, T j * d j) + (∑ j ∈ range k, Real.exp (z j) * d j) / ∑ j ∈ range k, Real.exp (z j)) 0 := by
    refine HasDerivAt.add (HasDerivAt.neg (HasDerivAt.fun_sum fun j _ => ?_)) ?_
    · have h1 : HasDerivAt (fun t : ℝ => z j + t * d j) (d j) 0 := by
        simpa using ((hasDerivAt_id (0 : ℝ)).mul_const (d j)).const_add (z j)
      exact h1.const_mul (T j)
    · have h := (sum_exp_line_deriv k z d).log (by simpa using (hS z).ne')
      simpa using h
  have e : (∑ j ∈ range k, (Spec.softmax k z j - T j) * d j) =
      -(∑ j ∈ range k, T j * d j) + (∑ j ∈ range k, Real.exp (z j) * d j) / ∑ j ∈ range k, Real.exp (z j) := by
    rw [Finset.sum_div, ← Finset.sum_neg_distrib, ← Finset.sum_add_distrib]
    refine Finset.sum_congr rfl fun j _ => ?_
    unfold Spec.softmax
    ring
  rw [e]
  refine hd.congr_of_eventuallyEq ?_
  filter_upwards [hev] with t ht
  have h1 : ∀ j ∈ range k, T j * Real.log (max eps (Spec.softmax k (fun j => z j + t * d j) j)) =
      T j * (z j + t * d j) - T j * Real.log (∑ j ∈ range k, Real.exp (z j + t * d j)) := by
    intro j hj
    rw [max_eq_right (ht j hj).le, Spec.softmax, Real.log_div (Real.exp_pos _).ne' (hS _).ne', Real.log_exp]
    ring
  rw [Finset.sum_congr rfl h1, Finset.sum_sub_distrib, ← Finset.sum_mul, hT]
  ring

/-- C97: as long as no prediction is clipped at `eps`, the quantities that a step subtracts (`C97_step` with the `c = 1/n`
of the code) form the gradient of the loss it reports: in every direction `(DW, DB)` the loss has the derivative
`⟨g_w, DW⟩ + ⟨g_b, DB⟩`. -/
theorem C97_gradient {eps : ℝ} {n p k : Nat} (X T W : Nat → Nat → ℝ) (B : Nat → ℝ)
    (hT : ∀ i < n, ∑ j ∈ range k, T i j = 1) (hc : ∀ i < n, ∀ j < k, eps < prob eps p k X W B i j)
    (DW : Nat → Nat → ℝ) (DB : Nat → ℝ) :
    HasDerivAt (fun t : ℝ => meanLoss eps n p k X T (fun q j => W q j + t * DW q j) (fun j => B j + t * DB j))
      (∑ q ∈ range p, ∑ j ∈ range k, (∑ i ∈ range n, X i q * (1 / n * (prob eps p k X W B i j - T i j))) * DW q j +
        ∑ j ∈ range k, (∑ i ∈ range n, 1 / n * (prob eps p k X W B i j - T i j)) * DB j) 0 := by
  have hc' : ∀ i < n, ∀ j < k, eps < Spec.softmax k (logit p X W B i) j := fun i hi j hj =>
    (lt_max_iff.1 (hc i hi j hj)).resolve_left (lt_irrefl _)
  have hrow : ∀ i ∈ range n, HasDerivAt (fun t : ℝ => -∑ j ∈ range k, T i j * Real.log (prob eps p k X
      (fun q j => W q j + t * DW q j) (fun j => B j + t * DB j) i j))
      (∑ j ∈ range k, (prob eps p k X W B i j - T i j) * logit p X DW DB i j) 0 := by
    intro i hi
    have h := row_deriv (fun j => logit p X DW DB i j) (hT i (mem_range.1 hi)) (hc' i (mem_range.1 hi))
    have e : ∀ t : ℝ, logit p X (fun q j => W q j + t * DW q j) (fun j => B j + t * DB j) i =
        fun j => logit p X W B i j + t * logit p X DW DB i j := fun t => funext fun j => logit_line ..
    simp only [prob, e]
    have e2 : ∀ j ∈ range k, (max eps (Spec.softmax k (logit p X W B i) j) - T i j) * logit p X DW DB i j =
        (Spec.softmax k (logit p X W B i) j - T i j) * logit p X DW DB i j := fun j hj => by
      rw [max_eq_right (hc' i (mem_range.1 hi) j (mem_range.1 hj)).le]
    rw [Finset.sum_congr rfl e2]
    exact h
  have h := (HasDerivAt.fun_sum hrow).div_const (n : ℝ)
  have e : (∑ q ∈ range p, ∑ j ∈ range k, (∑ i ∈ range n, X i q * (1 / n * (prob eps p k X W B i j - T i j))) * DW q j +
        ∑ j ∈ range k, (∑ i ∈ range n, 1 / n * (prob eps p k X W B i j - T i j)) * DB j) =
      (∑ i ∈ range n, ∑ j ∈ range k, (prob eps p k X W B i j - T i j) * logit p X DW DB i j) / n := by
    generalize prob eps p k X W B = P
    have e1 : ∀ q j, (∑ i ∈ range n, X i q * (1 / n * (P i j - T i j))) * DW q j =
        ∑ i ∈ range n, (P i j - T i j) / n * (X i q * DW q j) := fun q j => by
      rw [Finset.sum_mul]; exact Finset.sum_congr rfl fun i _ => by ring
    have e2 : ∀ j, (∑ i ∈ range n, 1 / n * (P i j - T i j)) * DB j = ∑ i ∈ range n, (P i j - T i j) / n * DB j := fun j => by
      rw [Finset.sum_mul]; exact Finset.sum_congr rfl fun i _ => by ring
    simp only [e1, e2]
    rw [Finset.sum_div]
    have e3 : ∑ q ∈ range p, ∑ j ∈ range k, ∑ i ∈ range n, (P i j - T i j) / n * (X i q * DW q j) =
        ∑ i ∈ range n, ∑ j ∈ range k, (P i j - T i j) / n * ∑ q ∈ range p, X i q * DW q j := by
      calc _ = ∑ q ∈ range p, ∑ i ∈ range n, ∑ j ∈ range k, (P i j - T i j) / n * (X i q * DW q j) :=
            Finset.sum_congr rfl fun q _ => Finset.sum_comm
        _ = ∑ i ∈ range n, ∑ q ∈ range p, ∑ j ∈ range k, (P i j - T i j) / n * (X i q * DW q j) := Finset.sum_comm
        _ = ∑ i ∈ range n, ∑ j ∈ range k, ∑ q ∈ range p, (P i j - T i j) / n * (X i q * DW q j) :=
            Finset.sum_congr rfl fun i _ => Finset.sum_comm
        _ = _ := by simp only [Finset.mul_sum]
    rw [e3, Finset.sum_comm (s := range k), ← Finset.sum_add_distrib]
    refine Finset.sum_congr rfl fun i _ => ?_
    rw [Finset.sum_div, ← Finset.sum_add_distrib]
    refine Finset.sum_congr rfl fun j _ => ?_
    unfold logit
    ring
  rw [e]
  exact h

/-- Non-vacuity: one example with two pixels and two classes, zero parameters: both probabilities are `1/2`, not clipped. -/
example : ∃ s : Slp.State ℝ, Slp.Sized 1 2 2 s ∧ s.xs = (tab [1, 2] (fn2 fun _ q => (q : ℝ) + 1)).data ∧
    s.y_s = (tab [1, 2] (fn2 fun _ j => if j = 0 then 1 else 0)).data ∧
    s.g_ls = (tab [1] (fn1 fun _ => (1 : ℝ))).data ∧ s.w = (tab [2, 2] (fn2 fun _ _ => (0 : ℝ))).data ∧
    s.b = (tab [2] (fn1 fun _ => (0 : ℝ))).data ∧
    (∀ i < 1, ∑ j ∈ range 2, (if j = 0 then (1 : ℝ) else 0) = 1) ∧
    ∀ i < 1, ∀ j < 2, (1 / 4 : ℝ) < prob (1 / 4) 2 2 (fun _ q => (q : ℝ) + 1) (fun _ _ => 0) (fun _ => 0) i j := by
  refine ⟨⟨(tab [1, 2] (fn2 fun _ q => (q : ℝ) + 1)).data, [9, 9], [9, 9],
    (tab [1, 2] (fn2 fun _ j => if j = 0 then 1 else 0)).data, [9], [9], (tab [1] (fn1 fun _ => (1 : ℝ))).data, [9, 9], [9, 9],
    [9, 9, 9, 9], [9, 9], (tab [2, 2] (fn2 fun _ _ => (0 : ℝ))).data, (tab [2] (fn1 fun _ => (0 : ℝ))).data⟩,
    ⟨by simp, rfl, rfl, by simp, rfl, rfl, by simp, rfl, rfl, rfl, rfl⟩, rfl, rfl, rfl, rfl, rfl, by simp, ?_⟩
  intro i _ j _
  refine lt_max_of_lt_right ?_
  simp [Spec.softmax, logit]
  norm_num

/-! ## C98 -/

/-- C98: the accuracy of outputs `Y` against one-hot labels is the fraction of rows whose first greatest output is at the
label, whatever the temporaries held before. -/
theorem C98_accuracy [LinearOrder R] [Zero R] [One R] (h01 : (0 : R) < 1) {Q : Type} [Field Q] [LinearOrder Q]
    [IsStrictOrderedRing Q] (junkI : Nat → Int) (junk : Q) {n k : Nat} (hn : 1 ≤ n) (hk : k < 2 ^ 32)
    (Y : Nat → Nat → R) (label : Nat → Nat) (hl : ∀ i < n, label i < k) :
    Slp.accuracy junkI junk n k (tab [n, k] (fn2 Y)).data
        (tab [n, k] (fn2 fun i j => if label i = j then (1 : R) else 0)).data =
      .ok ((((range n).filter fun i => (∀ j < k, Y i j ≤ Y i (label i)) ∧ ∀ j < label i, Y i j < Y i (label i)).card : Q) /
        (n : Q)) := by
  have hk1 : 1 ≤ k := by have := hl 0 (by omega); omega
  have hlen : ((List.range n).map junkI).length = n := by simp
  obtain ⟨a, ea, ha⟩ := C57_argmax IntTy.u32 hk1 Y hlen
  obtain ⟨a', ea', ha'⟩ := C57_argmax IntTy.u32 hk1 (fun i j => if label i = j then (1 : R) else 0) hlen
  have hlab : ∀ i < n, a' i = label i := by
    intro i hi
    obtain ⟨h1, h2, h3⟩ := ha' i hi
    have h4 := h2 (label i) (hl i hi)
    by_contra hne
    simp only [if_true, if_neg (fun e : label i = a' i => hne e.symm)] at h4
    exact absurd h4 (not_le.2 h01)
  have hu : ∀ v : Nat, v < k → IntTy.u32.conv (v : Int) = v := fun v hv =>
    conv_small (by decide) ⟨by simp [IntTy.lo, IntTy.u32], by simp [IntTy.hi, IntTy.u32]; omega⟩
  have hp : ((List.range n).map fun i => IntTy.u32.conv (a i)) = (List.range n).map fun i => (a i : Int) :=
    List.map_congr_left fun i hi => hu _ (ha i (by simpa using hi)).1
  have hq : ((List.range n).map fun i => IntTy.u32.conv (a' i)) = (List.range n).map fun i => (label i : Int) :=
    List.map_congr_left fun i hi => by
      have hi : i < n := by simpa using hi
      rw [hlab i hi, hu _ (hl i hi)]
  obtain ⟨v, e1, _, e2, _⟩ := C59_similarity (R := Q) (x := (List.range n).map fun i => (a i : Int))
    (y := (List.range n).map fun i => (label i : Int)) (by simp; omega) (by simp) junk
  unfold Slp.accuracy
  rw [ea, Outcome.ok_bind, ea', Outcome.ok_bind, hp, hq, e1, Outcome.ok_bind]
  show Outcome.ok v = _
  congr 1
  rw [e2]
  have hset : ((range n).filter fun i => (∀ j < k, Y i j ≤ Y i (label i)) ∧ ∀ j < label i, Y i j < Y i (label i)) =
      (range n).filter fun i => a i = label i := by
    refine Finset.filter_congr fun i hi => ?_
    obtain ⟨h1, h2, h3⟩ := ha i (mem_range.1 hi)
    have hli := hl i (mem_range.1 hi)
    constructor
    · rintro ⟨b1, b2⟩
      rcases lt_trichotomy (a i) (label i) with h | h | h
      · exact absurd (b2 _ h) (not_lt.2 (h2 _ hli))
      · exact h
      · exact absurd (h3 _ h) (not_lt.2 (b1 _ h1))
    · intro h
      rw [← h]
      exact ⟨h2, h3⟩
  have hcard : ((range n).filter fun i => a i = label i).card + ((range n).filter fun i => ¬ a i = label i).card = n := by
    rw [Finset.card_filter_add_card_filter_not]; simp
  have hset2 : ((range ((List.range n).map fun i => (a i : Int)).length).filter fun i =>
      ((List.range n).map fun i => (a i : Int))[i]? ≠ ((List.range n).map fun i => (label i : Int))[i]?) =
      (range n).filter fun i => ¬ a i = label i := by
    rw [List.length_map, List.length_range]
    refine Finset.filter_congr fun i hi => ?_
    have := mem_range.1 hi
    simp [this]
  rw [hset2, hset]
  have hn' : (n : Q) ≠ 0 := by exact_mod_cast (by omega : n ≠ 0)
  have hc : (((range n).filter fun i => a i = label i).card : Q) + ((range n).filter fun i => ¬ a i = label i).card = n := by
    exact_mod_cast hcard
  simp only [List.length_map, List.length_range]
  field_simp
  linarith

/-- Non-vacuity: three rows, the second one wrong, the third decided by the first of two equal outputs. -/
example : Slp.accuracy (R := Int) (Q := ℚ) (fun _ => 7) 5 3 2 [1, 4, 6, 2, 3, 3] [0, 1, 0, 1, 1, 0] = .ok (2 / 3) := by
  decide +kernel

/-! ## C99 -/

theorem slice_run {S : Type} [Zero S] {n sz i j : Nat} (X : Nat → Nat → S) (hij : i ≤ j) (hj : j ≤ n) :
    Slp.slice sz (tab [n, sz] (fn2 X)).data i j = .ok (tab [j - i, sz] (fn2 fun a b => X (i + a) b)).data := by
  have hjs : j * sz ≤ n * sz := Nat.mul_le_mul_right _ hj
  unfold Slp.slice
  rw [if_pos (by simpa using hjs)]
  congr 1
  refine List.ext_getElem? fun q => ?_
  by_cases hq : q < (j - i) * sz
  · have hsz : 0 < sz := by
      rcases Nat.eq_zero_or_pos sz with h | h
      · subst h; simp at hq
      · exact h
    have hd : q / sz < j - i := (Nat.div_lt_iff_lt_mul hsz).2 hq
    have hm : q % sz < sz := Nat.mod_lt _ hsz
    have h1 := tab_getElem? (fn2 X) (v2 (a0 := n) (a1 := sz) (i0 := i + q / sz) (by omega) hm)
    have h2 := tab_getElem? (fn2 fun a b => X (i + a) b) (v2 (a0 := j - i) hd hm)
    have o1 : offset [n, sz] [i + q / sz, q % sz] = i * sz + q := by
      have := Nat.div_add_mod q sz
      simp only [offset, List.prod_cons, List.prod_nil, mul_one, add_zero]
      nlinarith
    have o2 : offset [j - i, sz] [q / sz, q % sz] = q := by
      have := Nat.div_add_mod q sz
      simp only [offset, List.prod_cons, List.prod_nil, mul_one, add_zero]
      nlinarith
    rw [o1] at h1
    rw [o2] at h2
    rw [List.getElem?_take, if_pos hq, List.getElem?_drop, h1, h2]
    rfl
  · rw [List.getElem?_eq_none, List.getElem?_eq_none]
    · simpa using hq
    · simp; omega

/-- C99: loading a batch normalises exactly the pixels of images `off` to `off + batch - 1` and one-hot encodes exactly their
labels, whatever `xs` and `y_s` held before. -/
theorem C99_load [Zero R] [One R] (norm : Int → R) {n p k off batch : Nat} (hk : k < 256) (hb : off + batch ≤ n)
    (I : Nat → Nat → Int) (label : Nat → Nat) {xs y_s : List R} (hx : xs.length = batch * p)
    (hy : y_s.length = batch * k) :
    Slp.loadData norm ⟨(tab [n, p] (fn2 I)).data, (List.range n).map fun i => (label i : Int)⟩ p k off batch xs y_s =
      .ok ((tab [batch, p] (fn2 fun i q => norm (I (off + i) q))).data,
        (tab [batch, k] (fn2 fun i j => if label (off + i) = j then 1 else 0)).data) := by
  have e1 := slice_run (n := n) (sz := p) I (Nat.le_add_right off batch) hb
  rw [Nat.add_sub_cancel_left] at e1
  have e0 : ((List.range n).map fun i => (label i : Int)) = (tab [n, 1] (fn2 fun i _ => (label i : Int))).data := by
    refine List.ext_getElem? fun q => ?_
    by_cases hq : q < n
    · have h := tab_getElem? (fn2 fun i _ => (label i : Int)) (v2 (a0 := n) (a1 := 1) hq Nat.one_pos)
      simp only [offset, List.prod_cons, List.prod_nil, mul_one, add_zero, fn2_apply] at h
      rw [h]; simp [hq]
    · rw [List.getElem?_eq_none (by simpa using hq), List.getElem?_eq_none (by simpa using hq)]
  have e2 := slice_run (n := n) (sz := 1) (fun i _ => (label i : Int)) (Nat.le_add_right off batch) hb
  rw [Nat.add_sub_cancel_left, ← e0] at e2
  have e3 : Slp.pointwiseTo norm (tab [batch, p] (fn2 fun a b => I (off + a) b)).data xs =
      .ok (tab [batch, p] (fn2 fun i q => norm (I (off + i) q))).data := by
    unfold Slp.pointwiseTo
    have hl : (tab [batch, p] (fn2 fun a b => I (off + a) b)).data.length = batch * p := by simp
    rw [hl, show (tab [batch, p] (fn2 fun i q => norm (I (off + i) q))).data =
      (List.range (batch * p)).map fun q => norm (((tab [batch, p] (fn2 fun a b => I (off + a) b)).data).getD q 0) from ?_,
      ← run_storeFlat (val := fun q => norm (((tab [batch, p] (fn2 fun a b => I (off + a) b)).data).getD q 0)) hx]
    · refine forRange_congr (fun i hi s => ?_) xs
      have hi' : i < (tab [batch, p] (fn2 fun a b => I (off + a) b)).data.length := by rw [hl]; exact hi
      rw [rd, List.getElem?_eq_getElem hi']
      simp only [Outcome.ok_bind]
      rw [List.getD_eq_getElem?_getD, List.getElem?_eq_getElem hi', Option.getD_some]
    · refine List.ext_getElem (by simp) fun q h1 h2 => ?_
      have hq : q < (tab [batch, p] (fn2 fun a b => I (off + a) b)).data.length := by simpa using h1
      rw [List.getElem_map, List.getElem_range, List.getD_eq_getElem?_getD, List.getElem?_eq_getElem hq, Option.getD_some, tab_getElem, tab_getElem]
      have hv := valid_unravel (dims := [batch, p]) (p := q) (by simpa using h1)
      generalize unravel [batch, p] q = idx at hv
      match idx, hv with
      | [i, j], _ => rfl
  have e4 : (tab [batch, 1] (fn2 fun i _ => (label (off + i) : Int))).data =
      (List.range batch).map fun i => (label (off + i) : Int) := by
    refine List.ext_getElem? fun q => ?_
    by_cases hq : q < batch
    · have h := tab_getElem? (fn2 fun i _ => (label (off + i) : Int)) (v2 (a0 := batch) (a1 := 1) hq Nat.one_pos)
      simp only [offset, List.prod_cons, List.prod_nil, mul_one, add_zero, fn2_apply] at h
      rw [h]; simp [hq]
    · rw [List.getElem?_eq_none (by simpa using hq), List.getElem?_eq_none (by simpa using hq)]
  have e5 := C56_onehot (R := R) ⟨false, 8⟩ (by decide) (cols := k)
    ⟨by simp [IntTy.lo], by simp [IntTy.hi]; omega⟩ ((List.range batch).map fun i => (label (off + i) : Int))
    (y := y_s) (by simpa using hy)
  unfold Slp.loadData
  simp only [e1, e2, Outcome.ok_bind, e3, e4, e5]
  simp only [List.length_map, List.length_range]
  refine congrArg (fun t => Outcome.ok ((tab [batch, p] (fn2 fun i q => norm (I (off + i) q))).data, Tensor.data t))
    (tab_congr fun idx hv => ?_)
  match idx, hv with
  | [i, j], hv =>
    have hi : i < batch := hv.1
    simp only [fn2_apply, List.getElem?_map, List.getElem?_range hi, Option.map_some, Option.some.injEq, Nat.cast_inj]

theorem prob_shift (eps : ℝ) (p k : Nat) (X W : Nat → Nat → ℝ) (B : Nat → ℝ) (o i j : Nat) :
    prob eps p k (fun i q => X (o + i) q) W B i j = prob eps p k X W B (o + i) j := rfl

theorem sum_shift (f : Nat → ℝ) (o m : Nat) : ∑ i ∈ Ico o (o + m), f i = ∑ i ∈ range m, f (o + i) := by
  rw [Finset.sum_Ico_eq_sum_range, Nat.add_sub_cancel_left]

/-- C99: a training run over `n` images in batches of `m` is stochastic gradient descent over the batches `0`, ...,
`n / m - 1`, batch `t` being the images `t * m` to `t * m + m - 1`: so the first `n / m * m` images are used once each, in
order, and the others not at all. The outcome does not depend on what the tensors held before, apart from `w` and `b`. -/
theorem C99_run (eps c : ℝ) (junk : Nat → ℝ) (norm : Int → ℝ) {n p k m : Nat} (hm : 1 ≤ m) (hk : k < 256)
    (I : Nat → Nat → Int) (label : Nat → Nat) (hl : ∀ i < n, label i < k) (W : Nat → Nat → ℝ) (B : Nat → ℝ)
    {s : Slp.State ℝ} (hs : Slp.Sized m p k s)
    (hw : s.w = (tab [p, k] (fn2 W)).data) (hb : s.b = (tab [k] (fn1 B)).data) :
    ∃ s', Slp.train Real.exp Real.log eps (fun x n => x / (n : ℝ)) junk norm c
        ⟨(tab [n, p] (fn2 I)).data, (List.range n).map fun i => (label i : Int)⟩ n p k m s = .ok s' ∧
      s'.w = (tab [p, k] (fn2 (sgd eps c m p k (fun i q => norm (I i q)) label W B (n / m)).1)).data ∧
      s'.b = (tab [k] (fn1 (sgd eps c m p k (fun i q => norm (I i q)) label W B (n / m)).2)).data ∧
      ∀ t, n / m = t + 1 → s'.l = [meanLoss eps m p k (fun i q => norm (I (t * m + i) q))
        (fun i j => if label (t * m + i) = j then 1 else 0)
        (sgd eps c m p k (fun i q => norm (I i q)) label W B t).1
        (sgd eps c m p k (fun i q => norm (I i q)) label W B t).2] := by
  unfold Slp.train
  rw [if_neg (by omega)]
  simp only [fillAll, Outcome.ok_bind]
  have hg : (s.g_ls.map fun _ => c) = (tab [m] (fn1 fun _ => c)).data := by
    refine List.ext_getElem (by simp [hs.g_ls]) fun q h1 h2 => ?_
    have hv := valid_unravel (dims := [m]) (p := q) (by simpa using h2)
    rw [List.getElem_map, tab_getElem]
    generalize unravel [m] q = idx at hv
    match idx, hv with
    | [i], _ => rfl
  refine Exists.imp (fun s' h => ⟨h.1, h.2.2.2⟩) (forRange_inv (n := n / m)
    (body := fun t s => do
      let (xs, y_s) ← Slp.loadData norm ⟨(tab [n, p] (fn2 I)).data, (List.range n).map fun i => (label i : Int)⟩ p k
        (t * m) m s.xs s.y_s
      Slp.step Real.exp Real.log eps (fun x n => x / (n : ℝ)) junk m p k { s with xs, y_s })
    (s := { s with g_ls := s.g_ls.map fun _ => c })
    (fun t s => Slp.Sized m p k s ∧ s.g_ls = (tab [m] (fn1 fun _ => c)).data ∧
      s.w = (tab [p, k] (fn2 (sgd eps c m p k (fun i q => norm (I i q)) label W B t).1)).data ∧
      s.b = (tab [k] (fn1 (sgd eps c m p k (fun i q => norm (I i q)) label W B t).2)).data ∧
      ∀ u, t = u + 1 → s.l = [meanLoss eps m p k (fun i q => norm (I (u * m + i) q))
        (fun i j => if label (u * m + i) = j then 1 else 0)
        (sgd eps c m p k (fun i q => norm (I i q)) label W B u).1
        (sgd eps c m p k (fun i q => norm (I i q)) label W B u).2])
    (fun t ht s h => ?_)
    ⟨⟨hs.xs, hs.zs, hs.ys, hs.y_s, hs.ls, hs.l, by simp [hs.g_ls], hs.g_ys, hs.g_zs, hs.g_w, hs.g_b⟩, hg, hw, hb,
      fun u hu => absurd hu (by omega)⟩)
  · obtain ⟨hz, h0, h1, h2, -⟩ := h
    have hin : t * m + m ≤ n := by
      have h5 : (t + 1) * m ≤ n / m * m := Nat.mul_le_mul_right _ ht
      have h6 := Nat.div_mul_le_self n m
      rw [Nat.add_mul, Nat.one_mul] at h5
      omega
    have e1 := C99_load norm hk hin I label hz.xs hz.y_s
    obtain ⟨s', e2, a1, a2, a3, a4, a5⟩ := C97_step eps junk c (fun i q => norm (I (t * m + i) q))
      (fun i j => if label (t * m + i) = j then 1 else 0)
      (sgd eps c m p k (fun i q => norm (I i q)) label W B t).1
      (sgd eps c m p k (fun i q => norm (I i q)) label W B t).2
      (n := m) (p := p) (k := k)
      (fun i hi => by
        have := hl (t * m + i) (by omega)
        simp [this])
      (s := { s with
        xs := (tab [m, p] (fn2 fun i q => norm (I (t * m + i) q))).data
        y_s := (tab [m, k] (fn2 fun i j => if label (t * m + i) = j then 1 else 0)).data })
      ⟨by simp, hz.zs, hz.ys, by simp, hz.ls, hz.l, hz.g_ls, hz.g_ys, hz.g_zs, hz.g_w, hz.g_b⟩ rfl rfl h0 h1 h2
    refine ⟨s', ?_, a1, a2.trans h0, a4.trans ?_, a5.trans ?_, ?_⟩
    · rw [e1, Outcome.ok_bind]; exact e2
    · refine congrArg Tensor.data (tab_congr fun idx hv => ?_)
      match idx, hv with
      | [q, j], hv =>
        simp only [fn2_apply, sgd, sum_shift, Finset.mul_sum]
        refine congrArg _ (Finset.sum_congr rfl fun i _ => ?_)
        rw [prob_shift eps p k (fun i q => norm (I i q))]
        ring
    · refine congrArg Tensor.data (tab_congr fun idx hv => ?_)
      match idx, hv with
      | [j], hv =>
        simp only [fn1_apply, sgd, sum_shift, Finset.mul_sum]
        refine congrArg _ (Finset.sum_congr rfl fun i _ => ?_)
        rw [prob_shift eps p k (fun i q => norm (I i q))]
    · intro u hu
      obtain rfl : u = t := by omega
      exact a3

/-- C99: a batch size of zero divides by zero. -/
theorem C99_zero (eps c : ℝ) (junk : Nat → ℝ) (norm : Int → ℝ) (ds : Slp.DataSet) (n p k : Nat) (s : Slp.State ℝ) :
    Slp.train Real.exp Real.log eps (fun x n => x / (n : ℝ)) junk norm c ds n p k 0 s = .ub := rfl

/-- C98: the accuracy printed for parameters `W`, `B` is the fraction of all images whose first greatest logit is at the
label. -/
theorem C98_test (junk : Nat → ℝ) (junkI : Nat → Int) (junkQ : ℝ) (norm : Int → ℝ) {n p k : Nat} (hn : 1 ≤ n)
    (hk : k < 256) (I : Nat → Nat → Int) (label : Nat → Nat) (hl : ∀ i < n, label i < k) (W : Nat → Nat → ℝ)
    (B : Nat → ℝ) :
    Slp.test junk junkI junkQ norm ⟨(tab [n, p] (fn2 I)).data, (List.range n).map fun i => (label i : Int)⟩ n p k
        (tab [p, k] (fn2 W)).data (tab [k] (fn1 B)).data =
      .ok ((((range n).filter fun i =>
          (∀ j < k, logit p (fun i q => norm (I i q)) W B i j ≤ logit p (fun i q => norm (I i q)) W B i (label i)) ∧
          ∀ j < label i, logit p (fun i q => norm (I i q)) W B i j < logit p (fun i q => norm (I i q)) W B i (label i)).card
        : ℝ) / (n : ℝ)) := by
  unfold Slp.test
  rw [C99_load norm hk (by omega) I label (by simp) (by simp), Outcome.ok_bind]
  simp only [Nat.zero_add]
  have e := Slp.forward_run (n := n) (p := p) (k := k) (fun i q => norm (I i q)) W B (ys := (List.range (n * k)).map junk)
    (by simp)
  refine (congrArg (fun o => Outcome.bind o _) e).trans ?_
  refine Eq.trans ?_ (C98_accuracy (R := ℝ) zero_lt_one junkI junkQ hn (by omega)
    (fun i j => logit p (fun i q => norm (I i q)) W B i j) label hl)
  show Slp.accuracy _ _ _ _ _ _ = _
  congr 1
  refine congrArg Tensor.data (tab_congr fun idx hv => ?_)
  match idx, hv with
  | [i, j], hv => simp only [fn2_apply, logit, seqSum_eq_sum]

/-- Non-vacuity of C99: three images of two pixels, two classes, batches of two: one batch, one image unused. -/
example : ∃ s : Slp.State ℝ, Slp.Sized 2 2 2 s ∧ s.w = (tab [2, 2] (fn2 fun q j => (q : ℝ) - j)).data ∧
    s.b = (tab [2] (fn1 fun j => (j : ℝ))).data ∧ (∀ i < 3, (fun i => i % 2) i < 2) ∧ 3 / 2 = 0 + 1 :=
  ⟨⟨[9, 9, 9, 9], [9, 9, 9, 9], [9, 9, 9, 9], [9, 9, 9, 9], [9, 9], [9], [9, 9], [9, 9, 9, 9], [9, 9, 9, 9], [9, 9, 9, 9],
    [9, 9], (tab [2, 2] (fn2 fun q j => (q : ℝ) - j)).data, (tab [2] (fn1 fun j => (j : ℝ))).data⟩,
    ⟨rfl, rfl, rfl, rfl, rfl, rfl, rfl, rfl, rfl, rfl, rfl⟩, rfl, rfl, fun i _ => Nat.mod_lt _ (by decide), rfl⟩

/-- Non-vacuity of C99: the second and third of three images of one pixel. -/
example : Slp.loadData (R := ℚ) (fun p => (p : ℚ) / 255) ⟨[0, 51, 255], [1, 2, 0]⟩ 1 3 1 2 [7, 7] [7, 7, 7, 7, 7, 7] =
    .ok ([1 / 5, 1], [0, 0, 1, 1, 0, 0]) := by decide +kernel

/-! ## C100 -/

/-- C100: for well formed files of the data set the loader returns exactly the pixels and labels stored in them. -/
theorem C100_load (junk : Nat → Byte) (d : Disk) (dir name : String) {n : Nat}
    (hn : name = "train" ∧ n = 60000 ∨ name = "t10k" ∧ n = 10000) {images labels : List Byte}
    (hi : images.length = n * (28 * 28)) (hl : labels.length = n)
    (hf : d.files (dir ++ "/" ++ name ++ "-images-idx3-ubyte") = some (idxFile 8 [BitVec.ofNat 32 n, 28, 28] images))
    (hg : d.files (dir ++ "/" ++ name ++ "-labels-idx1-ubyte") = some (idxFile 8 [BitVec.ofNat 32 n] labels)) :
    Mnist.load .little junk d dir name = .ok (images, labels) := by
  have hs : Mnist.size name = .ok n := by
    rcases hn with ⟨rfl, rfl⟩ | ⟨rfl, rfl⟩ <;> rfl
  have r1 : Ops.readfile .little (dir ++ "/" ++ name ++ "-images-idx3-ubyte") 8 [BitVec.ofNat 32 n, 28, 28]
      ((List.range (n * 28 * 28)).map junk) d = (images, .ok ⟨⟩) := by
    unfold Ops.readfile Kernels.readfile
    rw [hf]
    dsimp only
    rw [serializerRead_ok (dims := [BitVec.ofNat 32 n, 28, 28]) (is := ⟨_, 0, false⟩) (by simp) rfl (data := images) (by rw [fileHeader_little]; rfl)]
    rw [List.take_of_length_le (by simp; omega), List.drop_eq_nil_of_le (by simp; omega), List.append_nil]
  have r2 : Ops.readfile .little (dir ++ "/" ++ name ++ "-labels-idx1-ubyte") 8 [BitVec.ofNat 32 n]
      ((List.range n).map junk) d = (labels, .ok ⟨⟩) := by
    unfold Ops.readfile Kernels.readfile
    rw [hg]
    dsimp only
    rw [serializerRead_ok (dims := [BitVec.ofNat 32 n]) (is := ⟨_, 0, false⟩) (by simp) rfl (data := labels) (by rw [fileHeader_little]; rfl)]
    rw [List.take_of_length_le (by simp; omega), List.drop_eq_nil_of_le (by simp; omega), List.append_nil]
  unfold Mnist.load
  simp only [hs, Outcome.ok_bind, r1, r2]
  rfl

/-- C100: any other name of a data set is an error. -/
theorem C100_name (e : Endian) (junk : Nat → Byte) (d : Disk) (dir name : String) (h1 : name ≠ "train")
    (h2 : name ≠ "t10k") : Mnist.load e junk d dir name = .throw .runtimeError := by
  unfold Mnist.load Mnist.size
  rw [if_neg h1, if_neg h2]
  rfl

/-- C100: a file that is absent, or complete with a header for another element type or other dimensions, is an error. -/
theorem C100_refused (junk : Nat → Byte) (d : Disk) (dir name : String) {n : Nat}
    (hn : name = "train" ∧ n = 60000 ∨ name = "t10k" ∧ n = 10000)
    (hi : ∀ f, d.files (dir ++ "/" ++ name ++ "-images-idx3-ubyte") = some f → 16 ≤ f.length)
    (hl : ∀ f, d.files (dir ++ "/" ++ name ++ "-labels-idx1-ubyte") = some f → 8 ≤ f.length) :
    (∃ v, Mnist.load .little junk d dir name = .ok v) ∧
        (∃ images labels,
          d.files (dir ++ "/" ++ name ++ "-images-idx3-ubyte") = some (idxFile 8 [BitVec.ofNat 32 n, 28, 28] images) ∧
          d.files (dir ++ "/" ++ name ++ "-labels-idx1-ubyte") = some (idxFile 8 [BitVec.ofNat 32 n] labels)) ∨
      Mnist.load .little junk d dir name = .throw .runtimeError ∧
        ¬ ∃ images labels,
          d.files (dir ++ "/" ++ name ++ "-images-idx3-ubyte") = some (idxFile 8 [BitVec.ofNat 32 n, 28, 28] images) ∧
          d.files (dir ++ "/" ++ name ++ "-labels-idx1-ubyte") = some (idxFile 8 [BitVec.ofNat 32 n] labels) := by
  have hs : Mnist.size name = .ok n := by
    rcases hn with ⟨rfl, rfl⟩ | ⟨rfl, rfl⟩ <;> rfl
  have key : ∀ (file : String) (dims : List (BitVec 32)) (y : List Byte), dims.length < 256 →
      (∀ f, d.files file = some f → 4 + 4 * dims.length ≤ f.length) →
      ((Ops.readfile .little file 8 dims y d).2 = .ok ⟨⟩ ∧ ∃ data, d.files file = some (idxFile 8 dims data)) ∨
      ((Ops.readfile .little file 8 dims y d).2 = .throw .runtimeError ∧ ¬ ∃ data, d.files file = some (idxFile 8 dims data)) := by
    intro file dims y hr hlen
    cases hf : d.files file with
    | none => exact Or.inr ⟨by rw [C69_missing _ _ _ _ _ _ hf], by simp⟩
    | some f =>
      by_cases hp : idxHeader 8 dims <+: f
      · refine Or.inl ⟨(C69_accepts 8 hr y d file hf (hlen f hf)).2 hp, ?_⟩
        obtain ⟨data, hd⟩ := hp
        exact ⟨data, by rw [← hd]; rfl⟩
      · refine Or.inr ⟨by rw [C69_mismatch 8 hr y d file hf (hlen f hf) hp], ?_⟩
        rintro ⟨data, hd⟩
        exact hp ⟨data, (Option.some.inj hd).symm⟩
  have k1 := key (dir ++ "/" ++ name ++ "-images-idx3-ubyte") [BitVec.ofNat 32 n, 28, 28]
    ((List.range (n * 28 * 28)).map junk) (by simp) hi
  have k2 := key (dir ++ "/" ++ name ++ "-labels-idx1-ubyte") [BitVec.ofNat 32 n] ((List.range n).map junk) (by simp) hl
  unfold Mnist.load
  simp only [hs, Outcome.ok_bind]
  rcases k1 with ⟨a1, a2⟩ | ⟨a1, a2⟩
  · rcases k2 with ⟨b1, b2⟩ | ⟨b1, b2⟩
    · left
      refine ⟨⟨_, by rw [a1, b1]; rfl⟩, ?_⟩
      obtain ⟨u, hu⟩ := a2
      obtain ⟨v, hv⟩ := b2
      exact ⟨u, v, hu, hv⟩
    · right
      refine ⟨by rw [a1, b1]; rfl, ?_⟩
      rintro ⟨u, v, _, hv⟩
      exact b2 ⟨v, hv⟩
  · right
    refine ⟨by rw [a1]; rfl, ?_⟩
    rintro ⟨u, v, hu, _⟩
    exact a2 ⟨u, hu⟩

theorem readfile_short (code : Byte) {dims : List (BitVec 32)} (hr : dims.length < 256) (y data : List Byte) (d : Disk)
    (name : String) (hf : d.files name = some (idxFile code dims data)) (hle : data.length ≤ y.length) :
    Ops.readfile .little name code dims y d = (data ++ y.drop data.length, .ok ⟨⟩) := by
  simp only [Ops.readfile, Kernels.readfile, hf]
  rw [serializerRead_ok (data := data) hr rfl (by rw [fileHeader_little]; rfl), List.take_of_length_le hle]

/-- C100: data that ends early (in either file) is not reported: the loader succeeds and the missing pixels and labels are
whatever the new tensors contained. -/
theorem C100_truncated (junk : Nat → Byte) (d : Disk) (dir name : String) {n : Nat}
    (hn : name = "train" ∧ n = 60000 ∨ name = "t10k" ∧ n = 10000) {images labels : List Byte}
    (hf : d.files (dir ++ "/" ++ name ++ "-images-idx3-ubyte") = some (idxFile 8 [BitVec.ofNat 32 n, 28, 28] images))
    (hg : d.files (dir ++ "/" ++ name ++ "-labels-idx1-ubyte") = some (idxFile 8 [BitVec.ofNat 32 n] labels))
    (hi : images.length ≤ n * (28 * 28)) (hl : labels.length ≤ n) :
    ∃ v, Mnist.load .little junk d dir name = .ok v ∧
      (∀ i < n * (28 * 28), v.1[i]? = if i < images.length then images[i]? else some (junk i)) ∧
      ∀ i < n, v.2[i]? = if i < labels.length then labels[i]? else some (junk i) := by
  have hs : Mnist.size name = .ok n := by
    rcases hn with ⟨rfl, rfl⟩ | ⟨rfl, rfl⟩ <;> rfl
  have r1 := readfile_short 8 (by simp : [BitVec.ofNat 32 n, 28, 28].length < 256) ((List.range (n * 28 * 28)).map junk)
    images d _ hf (by simp; omega)
  have r2 := readfile_short 8 (by simp : [BitVec.ofNat 32 n].length < 256) ((List.range n).map junk)
    labels d _ hg (by simp; omega)
  refine ⟨_, by unfold Mnist.load; simp only [hs, Outcome.ok_bind, r1, r2]; rfl, fun i h => ?_, fun i h => ?_⟩
  · have h' : i < n * 28 * 28 := by omega
    simp only [List.getElem?_append]
    split
    · rfl
    · rw [List.getElem?_drop, Nat.add_sub_cancel' (by omega)]; simp [h']
  · simp only [List.getElem?_append]
    split
    · rfl
    · rw [List.getElem?_drop, Nat.add_sub_cancel' (by omega)]; simp [h]

/-- Non-vacuity of C100: a disk with both files of the test set, and one with truncated files. -/
example : ∃ d : Disk, ∃ images labels : List Byte, images.length = 10000 * (28 * 28) ∧ labels.length = 10000 ∧
    d.files "mnist/t10k-images-idx3-ubyte" = some (idxFile 8 [BitVec.ofNat 32 10000, 28, 28] images) ∧
    d.files "mnist/t10k-labels-idx1-ubyte" = some (idxFile 8 [BitVec.ofNat 32 10000] labels) :=
  ⟨⟨fun f => if f = "mnist/t10k-images-idx3-ubyte" then
      some (idxFile 8 [BitVec.ofNat 32 10000, 28, 28] (List.replicate (10000 * (28 * 28)) 3))
    else some (idxFile 8 [BitVec.ofNat 32 10000] (List.replicate 10000 7)), fun _ => true, fun _ => none⟩,
    List.replicate (10000 * (28 * 28)) 3, List.replicate 10000 7, List.length_replicate, List.length_replicate,
    rfl, rfl⟩

/-- C97: the layer accepts exactly an `n × m` input with `m × k` weights and `k` biases; its output is `n × k`. -/
theorem C97_shape {n m m' k k' : Nat} (d : List Nat) :
    Slp.shape [n, m] [m', k] [k'] = .ok d ↔ m = m' ∧ k = k' ∧ d = [n, k] := by
  unfold Slp.shape
  by_cases h1 : m = m' <;> by_cases h2 : k = k' <;> simp [h1, h2, contractAssert, eq_comm]

/-- C97: the loss of predictions `Y` against targets `T` is the mean of the cross-entropies of the rows, whatever the
temporary held. -/
theorem C97_loss (junk : Nat → ℝ) {n k : Nat} (T Y : Nat → Nat → ℝ) {l : List ℝ} (hl : l.length = 1) :
    Slp.loss Real.log (fun x n => x / (n : ℝ)) junk n (tab [n, k] (fn2 Y)) (tab [n, k] (fn2 T)) l =
      .ok [(∑ i ∈ range n, -∑ j ∈ range k, T i j * Real.log (Y i j)) / n] := by
  have e3 := C54_value Real.log [n] k (fn2 T) (fn2 Y) (z := (List.range n).map junk) (by simp)
  have h := C82_mean (fun (x : ℝ) n => x / (n : ℝ)) (rows := 1) (n := n)
      (fun _ i => -∑ j ∈ range k, T i j * Real.log (Y i j)) hl
  have e : (tab [1, n] (fn2 fun _ i => -∑ j ∈ range k, T i j * Real.log (Y i j))).data =
      (tab [n] fun i => -∑ j ∈ range k, fn2 T (i ++ [j]) * Real.log (fn2 Y (i ++ [j]))).data := by
    refine List.ext_getElem? fun q => ?_
    by_cases hq : q < n
    · have h1 := tab_getElem? (fn2 fun _ i => -∑ j ∈ range k, T i j * Real.log (Y i j))
        (v2 (a0 := 1) (a1 := n) Nat.one_pos hq)
      have h2 := tab_getElem? (fun i => -∑ j ∈ range k, fn2 T (i ++ [j]) * Real.log (fn2 Y (i ++ [j]))) (v1 hq)
      simp only [offset, List.prod_cons, List.prod_nil, mul_one, zero_mul, zero_add, add_zero, fn2_apply,
        List.cons_append, List.nil_append] at h1 h2
      rw [h1, h2]
    · rw [List.getElem?_eq_none (by simpa using hq), List.getElem?_eq_none (by simpa using hq)]
  unfold Slp.loss
  refine (congrArg (fun o => Outcome.bind o _) e3).trans ?_
  show Ops.mean _ _ _ _ _ = _
  rw [e] at h
  refine h.trans ?_
  simp [seqSum_eq_sum]

end StdNN
