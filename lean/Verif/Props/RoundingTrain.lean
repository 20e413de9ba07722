import Verif.Props.RoundingSoftmax
import Verif.Props.Train
import Verif.Props.Convergence
/-!
# C145: a training step in rounded arithmetic
-/
namespace StdNN
open Outcome Finset Spec

section
variable {R : Type} [Zero R] [One R] [Add R] [Sub R] [Mul R] [Div R] [Neg R] [LT R] [DecidableLT R]

/-! ## The step without laws of arithmetic -/

/-- C145 (order): what a step writes, in the order of its operations, in any arithmetic: the scores `Z`, the predictions `Y`,
the reported loss, the gradients `G` with respect to the scores, the new weights and the new bias. -/
theorem C145_order (exp log : R → R) (eps : R) (divn : R → Nat → R) (junk : Nat → R) {n p k : Nat} (c : Nat → R)
    (X T W : Nat → Nat → R) (B : Nat → R) {s : Slp.State R} (hs : Slp.Sized n p k s)
    (hx : s.xs = (tab [n, p] (fn2 X)).data) (ht : s.y_s = (tab [n, k] (fn2 T)).data)
    (hc : s.g_ls = (tab [n] (fn1 c)).data) (hw : s.w = (tab [p, k] (fn2 W)).data) (hb : s.b = (tab [k] (fn1 B)).data) :
    ∃ (s' : Slp.State R) (Z Y G : Nat → Nat → R),
      (∀ i j, Z i j = (seqSum p fun q => X i q * W q j) + B j) ∧
      (∀ i j, Y i j = stdMax eps (1 / seqSum k fun l => exp (Z i l - Z i j))) ∧
      (∀ i j, G i j = seqSum k fun l => c i * (-T i l / Y i l) * if l = j then Y i l * (1 - Y i l) else -Y i l * Y i j) ∧
      Slp.step exp log eps divn junk n p k s = .ok s' ∧ Slp.Sized n p k s' ∧
      s'.xs = s.xs ∧ s'.y_s = s.y_s ∧ s'.g_ls = s.g_ls ∧
      s'.l = [divn (seqSum n fun i => -(seqSum k fun j => T i j * log (Y i j))) n] ∧
      s'.w = (tab [p, k] (fn2 fun q j => W q j - seqSum n fun i => X i q * G i j)).data ∧
      s'.b = (tab [k] (fn1 fun j => B j - seqSum n fun i => G i j)).data := by
  let Z : Nat → Nat → R := fun i j => (seqSum p fun q => X i q * W q j) + B j
  let Y : Nat → Nat → R := fun i j => stdMax eps (1 / seqSum k fun l => exp (Z i l - Z i j))
  let G : Nat → Nat → R := fun i j =>
    seqSum k fun l => c i * (-T i l / Y i l) * if l = j then Y i l * (1 - Y i l) else -Y i l * Y i j
  have e1 : Slp.forward [n, k] ⟨[n, p], s.xs⟩ ⟨[p, k], s.w⟩ s.b s.zs = .ok (tab [n, k] (fn2 Z)).data := by
    rw [hx, hw, hb]
    exact Slp.forward_run X W B hs.zs
  have e2 : Ops.softmax exp eps [n, k] [n, k] (.ext (tab [n, k] (fn2 Z)).data) 0 s.ys = .ok (tab [n, k] (fn2 Y)).data := by
    have h := C51_order exp eps [n] k (fn2 Z) (z := 0) (m := s.ys) (by simp [hs.ys])
    rw [store_all (by simp [hs.ys])] at h
    refine h.trans (congrArg (fun t => Outcome.ok (Tensor.data t)) (tab_congr fun idx hv => ?_))
    match idx, hv with
    | [i, j], hv => rfl
  have e3 : Ops.xentropy log [n] ⟨[n, k], s.y_s⟩ ⟨[n, k], (tab [n, k] (fn2 Y)).data⟩ s.ls =
      .ok (tab [n] (fn1 fun i => -(seqSum k fun j => T i j * log (Y i j)))).data := by
    rw [ht]
    refine (C54_order log [n] k (fn2 T) (fn2 Y) (by simpa using hs.ls)).trans ?_
    refine congrArg (fun t => Outcome.ok (Tensor.data t)) (tab_congr fun idx hv => ?_)
    match idx, hv with
    | [i], hv => rfl
  have e4 : Ops.mean (Ops.Summaries.mean divn) 1 n (tab [n] (fn1 fun i => -(seqSum k fun j => T i j * log (Y i j)))).data
      s.l = .ok [divn (seqSum n fun i => -(seqSum k fun j => T i j * log (Y i j))) n] := by
    have h := C82_mean divn (rows := 1) (n := n) (fun _ i => -(seqSum k fun j => T i j * log (Y i j))) hs.l
    have e : (tab [1, n] (fn2 fun _ i => -(seqSum k fun j => T i j * log (Y i j)))).data =
        (tab [n] (fn1 fun i => -(seqSum k fun j => T i j * log (Y i j)))).data := by
      refine List.ext_getElem? fun q => ?_
      by_cases hq : q < n
      · have h1 := tab_getElem? (fn2 fun _ i => -(seqSum k fun j => T i j * log (Y i j)))
          (v2 (a0 := 1) (a1 := n) Nat.one_pos hq)
        have h2 := tab_getElem? (fn1 fun i => -(seqSum k fun j => T i j * log (Y i j))) (v1 hq)
        simp only [offset, List.prod_cons, List.prod_nil, mul_one, zero_mul, zero_add, add_zero, fn1_apply, fn2_apply] at h1 h2
        rw [h1, h2]
      · rw [List.getElem?_eq_none (by simpa using hq), List.getElem?_eq_none (by simpa using hq)]
    rw [← e, h]
    rfl
  have g1 : Grad.xentropy [n, k] (tab [n] (fn1 c)) (tab [n, k] (fn2 T)) (tab [n, k] (fn2 Y)) s.g_ys =
      .ok (tab [n, k] (fn2 fun i l => c i * (-T i l / Y i l))).data := Grad.xentropy_run c T Y hs.g_ys
  have e5 : Grad.softmax junk [n, k] n k (tab [n, k] (fn2 fun i l => c i * (-T i l / Y i l))) (tab [n, k] (fn2 Y)) s.g_zs =
      .ok (tab [n, k] (fn2 G)).data := Grad.softmax_run junk _ Y hs.g_zs
  have e6 := Slp.grad_run (n := n) (p := p) (k := k) G X hs.g_w hs.g_b
  have e7 : ∀ V : Nat → Nat → R, Ops.sub (p * k) (.mem 0) (.ext (tab [p, k] (fn2 V)).data) 0 (tab [p, k] (fn2 W)).data =
      .ok (tab [p, k] (fn2 fun q j => W q j - V q j)).data := by
    intro V
    have h := C21_sub (R := R) (mem_holds (tab [p, k] (fn2 W)).data)
      (ext_holds (tab [p, k] (fn2 V)).data _ 0) (by simp) (by simp)
    rw [zipWith_tab, store_all (by simp)] at h
    simp only [tab_length, List.prod_cons, List.prod_nil, mul_one] at h
    rw [h]
    refine congrArg (fun t => Outcome.ok (Tensor.data t)) (tab_congr fun idx hv => ?_)
    match idx, hv with
    | [i, j], hv => rfl
  have e8 : ∀ V : Nat → R, Ops.sub k (.mem 0) (.ext (tab [k] (fn1 V)).data) 0 (tab [k] (fn1 B)).data =
      .ok (tab [k] (fn1 fun j => B j - V j)).data := by
    intro V
    have h := C21_sub (R := R) (mem_holds (tab [k] (fn1 B)).data)
      (ext_holds (tab [k] (fn1 V)).data _ 0) (by simp) (by simp)
    rw [zipWith_tab, store_all (by simp)] at h
    simp only [tab_length, List.prod_cons, List.prod_nil, mul_one] at h
    rw [h]
    refine congrArg (fun t => Outcome.ok (Tensor.data t)) (tab_congr fun idx hv => ?_)
    match idx, hv with
    | [j], hv => rfl
  refine ⟨?_, Z, Y, G, fun _ _ => rfl, fun _ _ => rfl, fun _ _ => rfl, ?_, ?_⟩
  rotate_left
  · unfold Slp.step
    rw [e1, Outcome.ok_bind, e2, Outcome.ok_bind, e3, Outcome.ok_bind, e4, Outcome.ok_bind, hc, ht]
    refine (congrArg (fun o => Outcome.bind o _) g1).trans ?_
    refine (congrArg (fun o => Outcome.bind o _) e5).trans ?_
    rw [hx, hw, hb]
    refine (congrArg (fun o => Outcome.bind o _) e6).trans ?_
    refine (congrArg (fun o => Outcome.bind o _) (e7 _)).trans ?_
    refine (congrArg (fun o => Outcome.bind o _) (e8 _)).trans ?_
    rfl
  · refine ⟨⟨?_, ?_, ?_, ?_, ?_, ?_, ?_, ?_, ?_, ?_, ?_⟩, ?_, ?_, ?_, ?_, ?_, ?_⟩ <;> simp [hc, hx, ht]

end

variable {u : ℝ} {rnd : ℝ → ℝ}

/-! ## Numbers known up to a relative error -/

theorem rnd_zero (h : RelErr u rnd) : rnd 0 = 0 := by
  have := h 0
  simpa using this

theorem one_le_pow_u (hu : 0 ≤ u) (m : Nat) : (1 : ℝ) ≤ (1 + u) ^ m := one_le_pow₀ (by linarith)

theorem rel_rnd (hu : 0 ≤ u) (h : RelErr u rnd) {a b : ℝ} {m : Nat} (hab : |a - b| ≤ ((1 + u) ^ m - 1) * |b|) :
    |rnd a - b| ≤ ((1 + u) ^ (m + 1) - 1) * |b| := by
  refine (rnd_close hu h hab le_rfl).trans (le_of_eq ?_)
  ring

theorem rel_mul (hu : 0 ≤ u) {a b a' b' : ℝ} {m l : Nat} (h : |a - b| ≤ ((1 + u) ^ m - 1) * |b|)
    (h' : |a' - b'| ≤ ((1 + u) ^ l - 1) * |b'|) : |a * a' - b * b'| ≤ ((1 + u) ^ (m + l) - 1) * |b * b'| := by
  have hm := one_le_pow_u hu m
  have ha : |a| ≤ (1 + u) ^ m * |b| := by
    have e : a = b + (a - b) := by ring
    rw [e]
    exact (abs_add_le _ _).trans (by linarith)
  have e : a * a' - b * b' = a * (a' - b') + (a - b) * b' := by ring
  rw [e, abs_mul b b']
  refine (abs_add_le _ _).trans ?_
  rw [abs_mul, abs_mul, pow_add]
  have h1 := mul_le_mul ha h' (abs_nonneg _) (by positivity)
  have h2 := mul_le_mul_of_nonneg_right h (abs_nonneg b')
  nlinarith

/-! ## The gradient with respect to the scores -/

/-- The gradient of the loss of one row with label `l` with respect to score `j`, from the computed predictions `y`. -/
theorem score_grad (hu : 0 ≤ u) (hr : RelErr u rnd) {k l j : Nat} (hl : l < k) (c : Fl rnd) (y : Nat → Fl rnd)
    (hy : (y l).val ≠ 0) :
    |(seqSum k fun i => c * (-(if l = i then (1 : Fl rnd) else 0) / y i) *
        if i = j then y i * (1 - y i) else -y i * y j).val - c.val * ((y j).val - if l = j then 1 else 0)| ≤
      ((1 + u) ^ (k + 5) - 1) * |c.val * ((y j).val - if l = j then 1 else 0)| := by
  have hz := rnd_zero hr
  have hs := seqSum_error hu hr k (fun i => c * (-(if l = i then (1 : Fl rnd) else 0) / y i))
    fun i => if i = j then y i * (1 - y i) else -y i * y j
  have z : ∀ i ≠ l, (c * (-(if l = i then (1 : Fl rnd) else 0) / y i)).val = 0 := fun i hi => by
    rw [if_neg (Ne.symm hi), Fl.val_mul, Fl.val_div, Fl.val_neg, Fl.val_zero, neg_zero, zero_div, hz, mul_zero, hz]
  rw [sum_eq_single l (fun i _ hi => by rw [z i hi, zero_mul]) (fun h => absurd (mem_range.2 hl) h),
    sum_eq_single l (fun i _ hi => by rw [z i hi, abs_zero, zero_mul]) (fun h => absurd (mem_range.2 hl) h)] at hs
  rw [← abs_mul] at hs
  have r0 : ∀ b : ℝ, |b - b| ≤ ((1 + u) ^ 0 - 1) * |b| := fun b => by simp
  have hG : |(c * (-(if l = l then (1 : Fl rnd) else 0) / y l)).val - c.val * (-1 / (y l).val)| ≤
      ((1 + u) ^ 2 - 1) * |c.val * (-1 / (y l).val)| := by
    rw [if_pos rfl, Fl.val_mul, Fl.val_div, Fl.val_neg, Fl.val_one]
    have a := rel_mul hu (r0 c.val) (rel_rnd hu hr (r0 (-1 / (y l).val)))
    rw [zero_add, zero_add] at a
    exact rel_rnd hu hr a
  have hJ : |(if l = j then y l * (1 - y l) else -y l * y j).val - -((y l).val * ((y j).val - if l = j then 1 else 0))| ≤
      ((1 + u) ^ 2 - 1) * |-((y l).val * ((y j).val - if l = j then 1 else 0))| := by
    by_cases e : l = j
    · subst e
      rw [if_pos rfl, if_pos rfl, Fl.val_mul, Fl.val_sub, Fl.val_one]
      have a := rel_mul hu (r0 (y l).val) (rel_rnd hu hr (r0 (1 - (y l).val)))
      have e2 : -((y l).val * ((y l).val - 1)) = (y l).val * (1 - (y l).val) := by ring
      rw [zero_add, zero_add] at a
      rw [e2]
      exact rel_rnd hu hr a
    · rw [if_neg e, if_neg e, Fl.val_mul, Fl.val_neg, sub_zero]
      have e2 : -(y l).val * (y j).val = -((y l).val * (y j).val) := by ring
      rw [e2]
      refine (rel_rnd hu hr (r0 _)).trans (mul_le_mul_of_nonneg_right ?_ (abs_nonneg _))
      have := one_le_pow_u hu 1
      simp only [zero_add, pow_one, pow_two] at *
      nlinarith
  have hP := rel_mul hu hG hJ
  have ev : c.val * (-1 / (y l).val) * -((y l).val * ((y j).val - if l = j then 1 else 0)) =
      c.val * ((y j).val - if l = j then 1 else 0) := by
    field_simp
  rw [ev, show 2 + 2 = 4 from rfl] at hP
  set P := (c * (-(if l = l then (1 : Fl rnd) else 0) / y l)).val * (if l = j then y l * (1 - y l) else -y l * y j).val
  set v := c.val * ((y j).val - if l = j then 1 else 0)
  set S := (seqSum k fun i => c * (-(if l = i then (1 : Fl rnd) else 0) / y i) *
        if i = j then y i * (1 - y i) else -y i * y j).val
  have hPv : |P| ≤ (1 + u) ^ 4 * |v| := by
    have e : P = v + (P - v) := by ring
    rw [e]
    exact (abs_add_le _ _).trans (by linarith)
  have e : S - v = (S - P) + (P - v) := by ring
  rw [e]
  refine (abs_add_le _ _).trans ((add_le_add (hs.trans (mul_le_mul_of_nonneg_left hPv
    (by linarith [one_le_pow_u hu (k + 1)]))) hP).trans (le_of_eq ?_))
  ring

/-! ## Sums of numbers with known errors -/

theorem dot_close (hu : 0 ≤ u) (hr : RelErr u rnd) (n : Nat) (x g : Nat → Fl rnd) (v M : Nat → ℝ)
    (h : ∀ i < n, |(g i).val - v i| ≤ M i - |v i|) :
    |(seqSum n fun i => x i * g i).val - ∑ i ∈ range n, (x i).val * v i| ≤
      ∑ i ∈ range n, |(x i).val| * ((1 + u) ^ (n + 1) * M i - |v i|) := by
  have h1 := seqSum_error hu hr n x g
  have hg : ∀ i < n, |(g i).val| ≤ M i := fun i hi => by
    have e : (g i).val = v i + ((g i).val - v i) := by ring
    rw [e]
    exact (abs_add_le _ _).trans (by linarith [h i hi])
  have h2 : |∑ i ∈ range n, (x i).val * (g i).val - ∑ i ∈ range n, (x i).val * v i| ≤
      ∑ i ∈ range n, |(x i).val| * (M i - |v i|) := by
    rw [← sum_sub_distrib]
    refine (abs_sum_le_sum_abs _ _).trans (sum_le_sum fun i hi => ?_)
    rw [← mul_sub, abs_mul]
    exact mul_le_mul_of_nonneg_left (h i (mem_range.1 hi)) (abs_nonneg _)
  have h3 : ∑ i ∈ range n, |(x i).val| * |(g i).val| ≤ ∑ i ∈ range n, |(x i).val| * M i :=
    sum_le_sum fun i hi => mul_le_mul_of_nonneg_left (hg i (mem_range.1 hi)) (abs_nonneg _)
  have e : (seqSum n fun i => x i * g i).val - ∑ i ∈ range n, (x i).val * v i =
      ((seqSum n fun i => x i * g i).val - ∑ i ∈ range n, (x i).val * (g i).val) +
        (∑ i ∈ range n, (x i).val * (g i).val - ∑ i ∈ range n, (x i).val * v i) := by ring
  rw [e]
  refine (abs_add_le _ _).trans ((add_le_add (h1.trans (mul_le_mul_of_nonneg_left h3
    (by linarith [one_le_pow_u hu (n + 1)]))) h2).trans (le_of_eq ?_))
  rw [mul_sum, ← sum_add_distrib]
  exact sum_congr rfl fun i _ => by ring

theorem sum_close (hu : 0 ≤ u) (hr : RelErr u rnd) (n : Nat) (g : Nat → Fl rnd) (v M : Nat → ℝ)
    (h : ∀ i < n, |(g i).val - v i| ≤ M i - |v i|) :
    |(seqSum n g).val - ∑ i ∈ range n, v i| ≤ ∑ i ∈ range n, ((1 + u) ^ n * M i - |v i|) := by
  have h1 := sum_error hu hr n g
  have hg : ∀ i < n, |(g i).val| ≤ M i := fun i hi => by
    have e : (g i).val = v i + ((g i).val - v i) := by ring
    rw [e]
    exact (abs_add_le _ _).trans (by linarith [h i hi])
  have h2 : |∑ i ∈ range n, (g i).val - ∑ i ∈ range n, v i| ≤ ∑ i ∈ range n, (M i - |v i|) := by
    rw [← sum_sub_distrib]
    exact (abs_sum_le_sum_abs _ _).trans (sum_le_sum fun i hi => h i (mem_range.1 hi))
  have h3 : ∑ i ∈ range n, |(g i).val| ≤ ∑ i ∈ range n, M i := sum_le_sum fun i hi => hg i (mem_range.1 hi)
  have e : (seqSum n g).val - ∑ i ∈ range n, v i =
      ((seqSum n g).val - ∑ i ∈ range n, (g i).val) + (∑ i ∈ range n, (g i).val - ∑ i ∈ range n, v i) := by ring
  rw [e]
  refine (abs_add_le _ _).trans ((add_le_add (h1.trans (mul_le_mul_of_nonneg_left h3
    (by linarith [one_le_pow_u hu n]))) h2).trans (le_of_eq ?_))
  rw [mul_sum, ← sum_add_distrib]
  exact sum_congr rfl fun i _ => by ring

theorem sub_close (hu : 0 ≤ u) (hr : RelErr u rnd) {w g : Fl rnd} {v E : ℝ} (h : |g.val - v| ≤ E) :
    |(w - g).val - (w.val - v)| ≤ u * |w.val - v| + (1 + u) * E := by
  rw [Fl.val_sub]
  have h1 := hr (w.val - g.val)
  have h2 : |w.val - g.val| ≤ |w.val - v| + E := by
    have e : w.val - g.val = (w.val - v) - (g.val - v) := by ring
    rw [e]
    exact (abs_sub _ _).trans (by linarith)
  have e : rnd (w.val - g.val) - (w.val - v) = (rnd (w.val - g.val) - (w.val - g.val)) - (g.val - v) := by ring
  rw [e]
  refine (abs_sub _ _).trans ?_
  nlinarith [mul_le_mul_of_nonneg_left h2 hu]

/-! ## One step -/

/-- How far a prediction computed for a probability `P` can be from the target `t`, when the prediction is off by a factor of
at most `q` and `m` roundings follow, less the exact distance. -/
noncomputable def stepErr (u : ℝ) (m : Nat) (q P t : ℝ) : ℝ := (1 + u) ^ m * (|P - t| + (q - 1) * P) - |P - t|

section
variable {e : ℝ} {fexp flog : Fl rnd → Fl rnd} {eps : Fl rnd} {n p k : Nat} {X W : Nat → Nat → Fl rnd} {B : Nat → Fl rnd}
  {η D : Nat → ℝ}

/-- The computed predictions of a row. -/
theorem pred_close (hu : 0 ≤ u) (hu1 : u < 1) (hr : RelErr u rnd) (he : 0 ≤ e) (he1 : e < 1) (hexp : ExpErr e fexp)
    (heps : 0 ≤ eps.val) {i j : Nat} {h d : ℝ} (hj : j < k)
    (hη : ∀ j < k, ((1 + u) ^ (p + 2) - 1) * (∑ q ∈ range p, |(X i q).val| * |(W q j).val| + |(B j).val|) ≤ h)
    (hD : ∀ j < k, ∀ l < k, |logit p (fun i q => (X i q).val) (fun q j => (W q j).val) (fun j => (B j).val) i l -
      logit p (fun i q => (X i q).val) (fun q j => (W q j).val) (fun j => (B j).val) i j| ≤ d)
    {Z Y : Nat → Nat → Fl rnd} (hZ : ∀ i j, Z i j = (seqSum p fun q => X i q * W q j) + B j)
    (hY : ∀ i j, Y i j = stdMax eps (1 / seqSum k fun l => fexp (Z i l - Z i j))) :
    Factor (softmaxFactor u e k h d) (Y i j).val
      (prob eps.val p k (fun i q => (X i q).val) (fun q j => (W q j).val) (fun j => (B j).val) i j) := by
  rw [hY]
  refine softmax_value hu hu1 hr he he1 hexp heps hj (Z i) _ (fun l hl => ?_) (fun l hl => hD j hj l hl)
  rw [hZ]
  have := affine_error hu hr p (X i) (fun q => W q l) (B l) (fun q => (X i q).val) (fun _ => 0) (fun q _ => by simp)
  simp only [zero_mul, sum_const_zero, add_zero] at this
  exact this.trans (hη l hl)

/-- C145 (parameters): a step on rows `X` with labels `L` in rounded arithmetic, compared with the exact step from the same
weights and bias. -/
theorem C145_parameters (hu : 0 ≤ u) (hu1 : u < 1) (hr : RelErr u rnd) (he : 0 ≤ e) (he1 : e < 1) (hexp : ExpErr e fexp)
    (heps : 0 ≤ eps.val) (divn : Fl rnd → Nat → Fl rnd) (junk : Nat → Fl rnd) (c : Fl rnd) {L : Nat → Nat}
    (hL : ∀ i < n, L i < k)
    (hη : ∀ i < n, ∀ j < k, ((1 + u) ^ (p + 2) - 1) * (∑ q ∈ range p, |(X i q).val| * |(W q j).val| + |(B j).val|) ≤ η i)
    (hD : ∀ i < n, ∀ j < k, ∀ l < k, |logit p (fun i q => (X i q).val) (fun q j => (W q j).val) (fun j => (B j).val) i l -
      logit p (fun i q => (X i q).val) (fun q j => (W q j).val) (fun j => (B j).val) i j| ≤ D i)
    {s : Slp.State (Fl rnd)} (hs : Slp.Sized n p k s) (hx : s.xs = (tab [n, p] (fn2 X)).data)
    (ht : s.y_s = (tab [n, k] (fn2 fun i j => if L i = j then 1 else 0)).data)
    (hc : s.g_ls = (tab [n] (fn1 fun _ => c)).data) (hw : s.w = (tab [p, k] (fn2 W)).data)
    (hb : s.b = (tab [k] (fn1 B)).data) :
    ∃ (s' : Slp.State (Fl rnd)) (W' : Nat → Nat → Fl rnd) (B' : Nat → Fl rnd),
      Slp.step fexp flog eps divn junk n p k s = .ok s' ∧ Slp.Sized n p k s' ∧
      s'.xs = s.xs ∧ s'.y_s = s.y_s ∧ s'.g_ls = s.g_ls ∧
      s'.w = (tab [p, k] (fn2 W')).data ∧ s'.b = (tab [k] (fn1 B')).data ∧
      ∀ (P : Nat → Nat → ℝ) (t : Nat → Nat → ℝ),
        (∀ i j, P i j = prob eps.val p k (fun i q => (X i q).val) (fun q j => (W q j).val) (fun j => (B j).val) i j) →
        (∀ i j, t i j = if L i = j then 1 else 0) →
        (∀ q < p, ∀ j < k, |(W' q j).val - ((W q j).val - ∑ i ∈ range n, (X i q).val * (c.val * (P i j - t i j)))| ≤
          u * |(W q j).val - ∑ i ∈ range n, (X i q).val * (c.val * (P i j - t i j))| +
            (1 + u) * (|c.val| * ∑ i ∈ range n, |(X i q).val| *
              stepErr u (n + k + 6) (softmaxFactor u e k (η i) (D i)) (P i j) (t i j))) ∧
        ∀ j < k, |(B' j).val - ((B j).val - ∑ i ∈ range n, c.val * (P i j - t i j))| ≤
          u * |(B j).val - ∑ i ∈ range n, c.val * (P i j - t i j)| +
            (1 + u) * (|c.val| * ∑ i ∈ range n,
              stepErr u (n + k + 5) (softmaxFactor u e k (η i) (D i)) (P i j) (t i j)) := by
  obtain ⟨s', Z, Y, G, hZ, hY, hG, h1, h2, h3, h4, h5, -, h7, h8⟩ :=
    C145_order fexp flog eps divn junk (fun _ => c) X (fun i j => if L i = j then 1 else 0) W B hs hx ht hc hw hb
  refine ⟨s', _, _, h1, h2, h3, h4, h5, h7, h8, fun P t hP hT => ?_⟩
  have hF : ∀ i < n, ∀ j < k, Factor (softmaxFactor u e k (η i) (D i)) (Y i j).val (P i j) := fun i hi j hj => by
    rw [hP]
    exact pred_close hu hu1 hr he he1 hexp heps hj (hη i hi) (hD i hi) hZ hY
  have hPpos : ∀ i, ∀ j < k, 0 < P i j := fun i j hj => by rw [hP]; exact prob_pos _ _ _ _ hj
  have hQ : ∀ i < n, ∀ j < k, 1 ≤ softmaxFactor u e k (η i) (D i) := fun i hi j hj => by
    refine one_le_softmaxFactor hu hu1 he he1 (le_trans (mul_nonneg ?_ ?_) (hη i hi j hj))
      ((abs_nonneg _).trans (hD i hi j hj j hj)) k
    · linarith [one_le_pow_u hu (p + 2)]
    · exact add_nonneg (sum_nonneg fun _ _ => mul_nonneg (abs_nonneg _) (abs_nonneg _)) (abs_nonneg _)
  have key : ∀ i < n, ∀ j < k, |(G i j).val - c.val * (P i j - t i j)| ≤
      |c.val| * ((1 + u) ^ (k + 5) * (|P i j - t i j| + (softmaxFactor u e k (η i) (D i) - 1) * P i j)) -
        |c.val * (P i j - t i j)| := fun i hi j hj => by
    have hyl : (Y i (L i)).val ≠ 0 := by
      have hb := ((hF i hi _ (hL i hi)).bounds (hPpos i _ (hL i hi)).le).1
      exact (lt_of_lt_of_le (div_pos (hPpos i _ (hL i hi)) (by linarith [hQ i hi j hj])) hb).ne'
    have hg := score_grad hu hr (j := j) (hL i hi) c (Y i) hyl
    rw [← hG i j, ← hT i j] at hg
    have hq := (hF i hi j hj).close (hQ i hi j hj)
    rw [abs_of_pos (hPpos i j hj)] at hq
    have a1 : |c.val * ((Y i j).val - P i j)| ≤ |c.val| * ((softmaxFactor u e k (η i) (D i) - 1) * P i j) := by
      rw [abs_mul]
      exact mul_le_mul_of_nonneg_left hq (abs_nonneg _)
    have a2 : |c.val * ((Y i j).val - t i j)| ≤
        |c.val| * (|P i j - t i j| + (softmaxFactor u e k (η i) (D i) - 1) * P i j) := by
      have e1 : c.val * ((Y i j).val - t i j) = c.val * (P i j - t i j) + c.val * ((Y i j).val - P i j) := by ring
      rw [e1]
      refine (abs_add_le _ _).trans ?_
      rw [abs_mul c.val (P i j - t i j), mul_add]
      exact add_le_add le_rfl a1
    have e1 : (G i j).val - c.val * (P i j - t i j) =
        ((G i j).val - c.val * ((Y i j).val - t i j)) + c.val * ((Y i j).val - P i j) := by ring
    rw [e1]
    refine (abs_add_le _ _).trans ((add_le_add (hg.trans (mul_le_mul_of_nonneg_left a2
      (by linarith [one_le_pow_u hu (k + 5)]))) a1).trans (le_of_eq ?_))
    rw [abs_mul]
    ring
  constructor
  · intro q hq j hj
    have a := dot_close hu hr n (fun i => X i q) (fun i => G i j) (fun i => c.val * (P i j - t i j)) _
      (fun i hi => key i hi j hj)
    refine (sub_close hu hr a).trans (le_of_eq ?_)
    congr 2
    rw [mul_sum]
    refine sum_congr rfl fun i _ => ?_
    unfold stepErr
    rw [abs_mul]
    ring
  · intro j hj
    have a := sum_close hu hr n (fun i => G i j) (fun i => c.val * (P i j - t i j)) _ (fun i hi => key i hi j hj)
    refine (sub_close hu hr a).trans (le_of_eq ?_)
    congr 2
    rw [mul_sum]
    refine sum_congr rfl fun i _ => ?_
    unfold stepErr
    rw [abs_mul]
    ring

/-- C145 (loss): the loss that the step reports, compared with the exact mean loss of the same weights and bias. -/
theorem C145_loss (hu : 0 ≤ u) (hu1 : u < 1) (hr : RelErr u rnd) (he : 0 ≤ e) (he1 : e < 1) (hexp : ExpErr e fexp)
    (heps : 0 ≤ eps.val) {v a : ℝ} (hv : 0 ≤ v) {divn : Fl rnd → Nat → Fl rnd} (hd : DivErr v divn) (ha : 0 ≤ a)
    (hlog : LogErr a flog) (junk : Nat → Fl rnd) (c : Nat → Fl rnd) {L : Nat → Nat} (hn : 1 ≤ n) (hL : ∀ i < n, L i < k)
    (hη : ∀ i < n, ∀ j < k, ((1 + u) ^ (p + 2) - 1) * (∑ q ∈ range p, |(X i q).val| * |(W q j).val| + |(B j).val|) ≤ η i)
    (hD : ∀ i < n, ∀ j < k, ∀ l < k, |logit p (fun i q => (X i q).val) (fun q j => (W q j).val) (fun j => (B j).val) i l -
      logit p (fun i q => (X i q).val) (fun q j => (W q j).val) (fun j => (B j).val) i j| ≤ D i)
    {s : Slp.State (Fl rnd)} (hs : Slp.Sized n p k s) (hx : s.xs = (tab [n, p] (fn2 X)).data)
    (ht : s.y_s = (tab [n, k] (fn2 fun i j => if L i = j then 1 else 0)).data)
    (hc : s.g_ls = (tab [n] (fn1 c)).data) (hw : s.w = (tab [p, k] (fn2 W)).data)
    (hb : s.b = (tab [k] (fn1 B)).data) :
    ∃ (s' : Slp.State (Fl rnd)) (l : Fl rnd), Slp.step fexp flog eps divn junk n p k s = .ok s' ∧ s'.l = [l] ∧
      |l.val - meanLoss eps.val n p k (fun i q => (X i q).val) (fun i j => if L i = j then 1 else 0)
          (fun q j => (W q j).val) (fun j => (B j).val)| ≤
        (∑ i ∈ range n, ((1 + v) * (1 + a) * (1 + u) ^ (n + k + 1) *
          (|Real.log (prob eps.val p k (fun i q => (X i q).val) (fun q j => (W q j).val) (fun j => (B j).val) i (L i))| +
            Real.log (softmaxFactor u e k (η i) (D i))) -
          |Real.log (prob eps.val p k (fun i q => (X i q).val) (fun q j => (W q j).val) (fun j => (B j).val) i (L i))|)) / n := by
  obtain ⟨s', Z, Y, G, hZ, hY, hG, h1, h2, h3, h4, h5, h6, -, -⟩ :=
    C145_order fexp flog eps divn junk c X (fun i j => if L i = j then 1 else 0) W B hs hx ht hc hw hb
  refine ⟨s', _, h1, h6, ?_⟩
  set P := prob eps.val p k (fun i q => (X i q).val) (fun q j => (W q j).val) (fun j => (B j).val) with hP
  have hF : ∀ i < n, ∀ j < k, Factor (softmaxFactor u e k (η i) (D i)) (Y i j).val (P i j) := fun i hi j hj =>
    pred_close hu hu1 hr he he1 hexp heps hj (hη i hi) (hD i hi) hZ hY
  have hPpos : ∀ i, ∀ j < k, 0 < P i j := fun i j hj => prob_pos _ _ _ _ hj
  have hQ : ∀ i < n, 1 ≤ softmaxFactor u e k (η i) (D i) := fun i hi => by
    have hj := hL i hi
    refine one_le_softmaxFactor hu hu1 he he1 (le_trans (mul_nonneg ?_ ?_) (hη i hi _ hj))
      ((abs_nonneg _).trans (hD i hi _ hj _ hj)) k
    · linarith [one_le_pow_u hu (p + 2)]
    · exact add_nonneg (sum_nonneg fun _ _ => mul_nonneg (abs_nonneg _) (abs_nonneg _)) (abs_nonneg _)
  have hz := rnd_zero hr
  have key : ∀ i < n, |(-(seqSum k fun j => (if L i = j then (1 : Fl rnd) else 0) * flog (Y i j))).val -
      -Real.log (P i (L i))| ≤ (1 + a) * (1 + u) ^ (k + 1) * (|Real.log (P i (L i))| +
        Real.log (softmaxFactor u e k (η i) (D i))) - |-Real.log (P i (L i))| := fun i hi => by
    have hj := hL i hi
    have hp := hPpos i _ hj
    have hs := seqSum_error hu hr k (fun j => if L i = j then (1 : Fl rnd) else 0) fun j => flog (Y i j)
    have z : ∀ j ≠ L i, (if L i = j then (1 : Fl rnd) else 0).val = 0 := fun j hj => by rw [if_neg (Ne.symm hj)]; rfl
    rw [sum_eq_single (L i) (fun j _ hj => by rw [z j hj, zero_mul]) (fun h => absurd (mem_range.2 hj) h),
      sum_eq_single (L i) (fun j _ hj => by rw [z j hj, abs_zero, zero_mul]) (fun h => absurd (mem_range.2 hj) h),
      if_pos rfl, Fl.val_one, one_mul, abs_one, one_mul] at hs
    have b := (hF i hi _ hj).bounds hp.le
    have hy : 0 < (Y i (L i)).val := lt_of_lt_of_le (div_pos hp (by linarith [hQ i hi])) b.1
    have hq0 : 0 < softmaxFactor u e k (η i) (D i) := by linarith [hQ i hi]
    have l1 : |Real.log (Y i (L i)).val - Real.log (P i (L i))| ≤ Real.log (softmaxFactor u e k (η i) (D i)) := by
      rw [abs_le]
      have c1 := Real.log_le_log (div_pos hp hq0) b.1
      have c2 := Real.log_le_log hy b.2
      rw [Real.log_div hp.ne' hq0.ne'] at c1
      rw [Real.log_mul hq0.ne' hp.ne'] at c2
      constructor <;> linarith
    have l2 := hlog _ hy
    set f := (flog (Y i (L i))).val
    set y := Real.log (Y i (L i)).val
    set x := Real.log (P i (L i))
    set q := Real.log (softmaxFactor u e k (η i) (D i))
    set S := (seqSum k fun j => (if L i = j then (1 : Fl rnd) else 0) * flog (Y i j)).val with hSd
    have hyx : |y| ≤ |x| + q := by
      have e : y = x + (y - x) := by ring
      rw [e]
      exact (abs_add_le _ _).trans (add_le_add le_rfl l1)
    have l3 : |f - x| ≤ a * (|x| + q) + q := by
      have e : f - x = (f - y) + (y - x) := by ring
      rw [e]
      exact (abs_add_le _ _).trans (add_le_add (l2.trans (mul_le_mul_of_nonneg_left hyx ha)) l1)
    have l4 : |f| ≤ (1 + a) * (|x| + q) := by
      have e : f = x + (f - x) := by ring
      rw [e]
      exact (abs_add_le _ _).trans (by linarith)
    rw [Fl.val_neg, abs_neg]
    have e : -S - -x = -((S - f) + (f - x)) := by ring
    rw [← hSd, e, abs_neg]
    refine (abs_add_le _ _).trans ((add_le_add (hs.trans (mul_le_mul_of_nonneg_left l4
      (by linarith [one_le_pow_u hu (k + 1)]))) l3).trans (le_of_eq ?_))
    ring
  have hsum := sum_close hu hr n _ (fun i => -Real.log (P i (L i))) _ key
  have em : meanLoss eps.val n p k (fun i q => (X i q).val) (fun i j => if L i = j then 1 else 0)
      (fun q j => (W q j).val) (fun j => (B j).val) = (∑ i ∈ range n, -Real.log (P i (L i))) / n := by
    unfold meanLoss
    refine congrArg (· / (n : ℝ)) (sum_congr rfl fun i hi => ?_)
    dsimp only
    rw [sum_eq_single (L i) (fun j _ hj => by rw [if_neg (Ne.symm hj), zero_mul])
      (fun h => absurd (mem_range.2 (hL i (mem_range.1 hi))) h), if_pos rfl, one_mul]
  rw [em]
  have hn' : (0 : ℝ) < n := by exact_mod_cast hn
  set S := seqSum n fun i => -(seqSum k fun j => (if L i = j then (1 : Fl rnd) else 0) * flog (Y i j))
  set V := ∑ i ∈ range n, -Real.log (P i (L i)) with hV
  set M := ∑ i ∈ range n, ((1 + u) ^ n * ((1 + a) * (1 + u) ^ (k + 1) * (|Real.log (P i (L i))| +
        Real.log (softmaxFactor u e k (η i) (D i))))) with hM
  set A := ∑ i ∈ range n, |Real.log (P i (L i))| with hA
  have hSV : |S.val - V| ≤ M - A := by
    refine hsum.trans (le_of_eq ?_)
    rw [sum_sub_distrib]
    simp only [abs_neg]
    rfl
  have hVA : |V| ≤ A := by
    refine (abs_sum_le_sum_abs _ _).trans (le_of_eq ?_)
    simp only [abs_neg]
    rfl
  have hS : |S.val| ≤ M := by
    have e : S.val = V + (S.val - V) := by ring
    rw [e]
    exact (abs_add_le _ _).trans (by linarith)
  have d1 := hd S n (by omega)
  have e1 : (divn S n).val - V / n = ((divn S n).val - S.val / n) + (S.val - V) / n := by ring
  rw [e1]
  have d2 : |S.val / n| ≤ M / n := by
    rw [abs_div, abs_of_pos hn']
    exact (div_le_div_iff_of_pos_right hn').2 hS
  have d3 : |(S.val - V) / n| ≤ (M - A) / n := by
    rw [abs_div, abs_of_pos hn']
    exact (div_le_div_iff_of_pos_right hn').2 hSV
  refine (abs_add_le _ _).trans ((add_le_add (d1.trans (mul_le_mul_of_nonneg_left d2 hv)) d3).trans (le_of_eq ?_))
  rw [← mul_div_assoc, ← add_div]
  congr 1
  rw [sum_sub_distrib, ← hA, hM, ← add_sub_assoc, mul_sum, ← sum_add_distrib]
  congr 1
  exact sum_congr rfl fun i _ => by ring

theorem sq_le_of_abs {a b : ℝ} (h : |a| ≤ b) : a ^ 2 ≤ b ^ 2 := by
  rw [← sq_abs]
  exact pow_le_pow_left₀ (abs_nonneg _) h 2

/-- A step that misses its aim lowers the loss as long as it misses by less than its length. -/
theorem missed_step {n p k : Nat} {X T : Nat → Nat → ℝ} (hT : ∀ i < n, ∑ j ∈ range k, T i j = 1) {ρ : ℝ}
    (hρ : ∀ i < n, ∑ q ∈ range p, X i q ^ 2 ≤ ρ) {c : ℝ} (hc : 0 < c) (hcn : c * (n * (ρ + 1)) ≤ 1)
    (W W' : Nat → Nat → ℝ) (B B' : Nat → ℝ) :
    lossOn p k X T (range n) W' B' ≤ lossOn p k X T (range n) W B -
      (paramDist p k (fun q j => W q j - c * gradW p k X T (range n) W B q j)
          (fun j => B j - c * gradB p k X T (range n) W B j) W B -
        paramDist p k (fun q j => W q j - c * gradW p k X T (range n) W B q j)
          (fun j => B j - c * gradB p k X T (range n) W B j) W' B') / (2 * c) := by
  have h1 := lossOn_upper (S := range n) (fun i hi => hT i (mem_range.1 hi)) (fun i hi => hρ i (mem_range.1 hi)) W W' B B'
  have h2 := dist_three (p := p) (k := k) (X := X) (T := T) (S := range n) c W W' B B'
  have h3 := dist_step (p := p) (k := k) (X := X) (T := T) (S := range n) c W B
  have h4 : paramDist p k W' B' W B = paramDist p k W B W' B' := by
    unfold paramDist
    congr 1
    · exact sum_congr rfl fun q _ => sum_congr rfl fun j _ => by ring
    · exact sum_congr rfl fun j _ => by ring
  have h5 := paramDist_nonneg (p := p) (k := k) W W' B B'
  rw [h2, h3]
  rw [h4, card_range] at h1
  set d := paramDist p k W B W' B'
  set a := along p k X T (range n) W B (fun q j => W' q j - W q j) (fun j => B' j - B j)
  have e : (c ^ 2 * gradSq p k X T (range n) W B - (d + 2 * c * a + c ^ 2 * gradSq p k X T (range n) W B)) / (2 * c) =
      -(a + d / (2 * c)) := by
    field_simp
    ring
  rw [e]
  have h6 : n * (ρ + 1) / 2 * d ≤ d / (2 * c) := by
    rw [le_div_iff₀ (by linarith)]
    nlinarith
  linarith

/-- C145 (descent): with a rate of at most `1 / (n (ρ + 1))`, `ρ` bounding the squared length of the inputs, the exact loss of
the parameters that the rounded step computes is below that of the old ones by at least the difference of two squares: the
length of the exact step and the length of the bounds of C145 (parameters); predictions not clipped. -/
theorem C145_descent (hu : 0 ≤ u) (hu1 : u < 1) (hr : RelErr u rnd) (he : 0 ≤ e) (he1 : e < 1) (hexp : ExpErr e fexp)
    (heps : 0 ≤ eps.val) (divn : Fl rnd → Nat → Fl rnd) (junk : Nat → Fl rnd) (c : Fl rnd) {L : Nat → Nat} (hn : 1 ≤ n)
    (hL : ∀ i < n, L i < k)
    (hη : ∀ i < n, ∀ j < k, ((1 + u) ^ (p + 2) - 1) * (∑ q ∈ range p, |(X i q).val| * |(W q j).val| + |(B j).val|) ≤ η i)
    (hD : ∀ i < n, ∀ j < k, ∀ l < k, |logit p (fun i q => (X i q).val) (fun q j => (W q j).val) (fun j => (B j).val) i l -
      logit p (fun i q => (X i q).val) (fun q j => (W q j).val) (fun j => (B j).val) i j| ≤ D i)
    {ρ : ℝ} (hρ : ∀ i < n, ∑ q ∈ range p, (X i q).val ^ 2 ≤ ρ) (hc0 : 0 < c.val) (hcn : c.val * (n * (ρ + 1)) ≤ 1)
    (hun : Unclipped eps.val n p k (fun i q => (X i q).val) (fun q j => (W q j).val) (fun j => (B j).val))
    {s : Slp.State (Fl rnd)} (hs : Slp.Sized n p k s) (hx : s.xs = (tab [n, p] (fn2 X)).data)
    (ht : s.y_s = (tab [n, k] (fn2 fun i j => if L i = j then 1 else 0)).data)
    (hc : s.g_ls = (tab [n] (fn1 fun _ => c)).data) (hw : s.w = (tab [p, k] (fn2 W)).data)
    (hb : s.b = (tab [k] (fn1 B)).data) {P t VW bW : Nat → Nat → ℝ} {VB bB : Nat → ℝ}
    (hP : ∀ i j, P i j = prob eps.val p k (fun i q => (X i q).val) (fun q j => (W q j).val) (fun j => (B j).val) i j)
    (hT : ∀ i j, t i j = if L i = j then 1 else 0)
    (hVW : ∀ q j, VW q j = ∑ i ∈ range n, (X i q).val * (c.val * (P i j - t i j)))
    (hVB : ∀ j, VB j = ∑ i ∈ range n, c.val * (P i j - t i j))
    (hbW : ∀ q j, bW q j = u * |(W q j).val - VW q j| + (1 + u) * (|c.val| * ∑ i ∈ range n, |(X i q).val| *
      stepErr u (n + k + 6) (softmaxFactor u e k (η i) (D i)) (P i j) (t i j)))
    (hbB : ∀ j, bB j = u * |(B j).val - VB j| + (1 + u) * (|c.val| * ∑ i ∈ range n,
      stepErr u (n + k + 5) (softmaxFactor u e k (η i) (D i)) (P i j) (t i j))) :
    ∃ (s' : Slp.State (Fl rnd)) (W' : Nat → Nat → Fl rnd) (B' : Nat → Fl rnd),
      Slp.step fexp flog eps divn junk n p k s = .ok s' ∧
      s'.w = (tab [p, k] (fn2 W')).data ∧ s'.b = (tab [k] (fn1 B')).data ∧
      meanLoss eps.val n p k (fun i q => (X i q).val) t (fun q j => (W' q j).val) (fun j => (B' j).val) ≤
        meanLoss eps.val n p k (fun i q => (X i q).val) t (fun q j => (W q j).val) (fun j => (B j).val) -
          ((∑ q ∈ range p, ∑ j ∈ range k, VW q j ^ 2 + ∑ j ∈ range k, VB j ^ 2) -
            (∑ q ∈ range p, ∑ j ∈ range k, bW q j ^ 2 + ∑ j ∈ range k, bB j ^ 2)) / (2 * c.val * n) := by
  obtain ⟨s', W', B', h1, -, -, -, -, h6, h7, h8⟩ := C145_parameters (flog := flog) hu hu1 hr he he1 hexp heps divn junk c hL
    hη hD hs hx ht hc hw hb
  obtain ⟨h9, h10⟩ := h8 P t hP hT
  refine ⟨s', W', B', h1, h6, h7, ?_⟩
  have hn' : (0 : ℝ) < n := by exact_mod_cast hn
  have ht0 : ∀ i < n, ∀ j < k, 0 ≤ t i j := fun i _ j _ => by rw [hT]; split <;> norm_num
  have ht1 : ∀ i < n, ∑ j ∈ range k, t i j = 1 := fun i hi => by
    simp only [hT]
    rw [sum_ite_eq, if_pos (mem_range.2 (hL i hi))]
  have key := missed_step (X := fun i q => (X i q).val) (T := t) ht1 hρ hc0 hcn (fun q j => (W q j).val)
    (fun q j => (W' q j).val) (fun j => (B j).val) (fun j => (B' j).val)
  have ep : ∀ i < n, ∀ j < k, P i j = Spec.softmax k (logit p (fun i q => (X i q).val) (fun q j => (W q j).val)
      (fun j => (B j).val) i) j := fun i hi j hj => by
    rw [hP]
    exact max_eq_right (hun i hi j hj)
  have eW : ∀ q, ∀ j < k, c.val * gradW p k (fun i q => (X i q).val) t (range n) (fun q j => (W q j).val)
      (fun j => (B j).val) q j = VW q j := fun q j hj => by
    rw [hVW]
    unfold gradW errAt
    rw [mul_sum]
    refine sum_congr rfl fun i hi => ?_
    rw [ep i (mem_range.1 hi) j hj]
    ring
  have eB : ∀ j < k, c.val * gradB p k (fun i q => (X i q).val) t (range n) (fun q j => (W q j).val)
      (fun j => (B j).val) j = VB j := fun j hj => by
    rw [hVB]
    unfold gradB errAt
    rw [mul_sum]
    refine sum_congr rfl fun i hi => ?_
    rw [ep i (mem_range.1 hi) j hj]
  have d1 : paramDist p k (fun q j => (W q j).val - c.val * gradW p k (fun i q => (X i q).val) t (range n)
        (fun q j => (W q j).val) (fun j => (B j).val) q j)
      (fun j => (B j).val - c.val * gradB p k (fun i q => (X i q).val) t (range n) (fun q j => (W q j).val)
        (fun j => (B j).val) j) (fun q j => (W q j).val) (fun j => (B j).val) =
      ∑ q ∈ range p, ∑ j ∈ range k, VW q j ^ 2 + ∑ j ∈ range k, VB j ^ 2 := by
    unfold paramDist
    congr 1
    · refine sum_congr rfl fun q _ => sum_congr rfl fun j hj => ?_
      dsimp only
      rw [eW q j (mem_range.1 hj)]
      ring
    · refine sum_congr rfl fun j hj => ?_
      dsimp only
      rw [eB j (mem_range.1 hj)]
      ring
  have d2 : paramDist p k (fun q j => (W q j).val - c.val * gradW p k (fun i q => (X i q).val) t (range n)
        (fun q j => (W q j).val) (fun j => (B j).val) q j)
      (fun j => (B j).val - c.val * gradB p k (fun i q => (X i q).val) t (range n) (fun q j => (W q j).val)
        (fun j => (B j).val) j) (fun q j => (W' q j).val) (fun j => (B' j).val) ≤
      ∑ q ∈ range p, ∑ j ∈ range k, bW q j ^ 2 + ∑ j ∈ range k, bB j ^ 2 := by
    unfold paramDist
    refine add_le_add (sum_le_sum fun q hq => sum_le_sum fun j hj => ?_) (sum_le_sum fun j hj => ?_)
    · dsimp only
      rw [eW q j (mem_range.1 hj), ← neg_sq, neg_sub]
      refine sq_le_of_abs ?_
      have := h9 q (mem_range.1 hq) j (mem_range.1 hj)
      rw [← hVW] at this
      rw [hbW]
      exact this
    · dsimp only
      rw [eB j (mem_range.1 hj), ← neg_sq, neg_sub]
      refine sq_le_of_abs ?_
      have := h10 j (mem_range.1 hj)
      rw [← hVB] at this
      rw [hbB]
      exact this
  refine (meanLoss_le ht0 _ _).trans ?_
  rw [meanLoss_unclipped hun]
  rw [d1] at key
  set A := ∑ q ∈ range p, ∑ j ∈ range k, VW q j ^ 2 + ∑ j ∈ range k, VB j ^ 2
  set E := ∑ q ∈ range p, ∑ j ∈ range k, bW q j ^ 2 + ∑ j ∈ range k, bB j ^ 2
  have d3 : (A - E) / (2 * c.val) ≤ (A - _) / (2 * c.val) := div_le_div_of_nonneg_right (sub_le_sub_left d2 A) (by linarith)
  refine (div_le_div_of_nonneg_right (key.trans (sub_le_sub_left d3 _)) hn'.le).trans (le_of_eq ?_)
  rw [sub_div, div_div]

end

/-! ## Concrete cases: one example with input 1, two classes, zero parameters, the rate 1/4, in 24 bit arithmetic -/

/-- The memory of such a run; what the step overwrites holds 9. -/
noncomputable def exStep : Slp.State (Fl chop24) :=
  ⟨(tab [1, 1] (fn2 fun _ _ => exReal 1)).data, List.replicate 2 (exReal 9), List.replicate 2 (exReal 9),
    (tab [1, 2] (fn2 fun _ j => if 0 = j then (1 : Fl chop24) else 0)).data, [exReal 9], [exReal 9],
    (tab [1] (fn1 fun _ => exReal (1 / 4))).data, List.replicate 2 (exReal 9), List.replicate 2 (exReal 9),
    List.replicate 2 (exReal 9), List.replicate 2 (exReal 9), (tab [1, 2] (fn2 fun _ _ => exReal 0)).data,
    (tab [2] (fn1 fun _ => exReal 0)).data⟩

theorem exStep_sized : Slp.Sized 1 1 2 exStep := ⟨rfl, rfl, rfl, rfl, rfl, rfl, rfl, rfl, rfl, rfl, rfl⟩

theorem exVal (x : ℝ) : (exReal x).val = x := rfl

example := C145_order chopExp chopLog (exReal (1 / 8)) (fun s n => exReal (chop24 (s.val / n))) (fun _ => exReal 9)
  (fun _ => exReal (1 / 4)) (fun _ _ => exReal 1) (fun _ j => if 0 = j then (1 : Fl chop24) else 0) (fun _ _ => exReal 0)
  (fun _ => exReal 0) exStep_sized rfl rfl rfl rfl rfl

example := C145_parameters exU exU1 chop24_err exU exU1 chopExp_err (flog := chopLog) (eps := exReal (1 / 8))
  (by rw [exVal]; norm_num) (fun s n => exReal (chop24 (s.val / n))) (fun _ => exReal 9) (exReal (1 / 4)) (L := fun _ => 0)
  (X := fun _ _ => exReal 1) (W := fun _ _ => exReal 0) (B := fun _ => exReal 0) (η := fun _ => 0) (D := fun _ => 0)
  (fun _ _ => by norm_num) (fun _ _ _ _ => by simp [exVal]) (fun _ _ _ _ _ _ => by simp [exVal, logit]) exStep_sized rfl rfl
  rfl rfl rfl

example := C145_loss exU exU1 chop24_err exU exU1 chopExp_err (flog := chopLog) (eps := exReal (1 / 8))
  (by rw [exVal]; norm_num) exU (divn := fun s n => exReal (chop24 (s.val / n))) (fun _ _ _ => chop24_err _) exU
  (a := 2 ^ (-23 : ℤ)) (fun _ _ => chop24_err _) (fun _ => exReal 9) (fun _ => exReal (1 / 4)) (L := fun _ => 0)
  (X := fun _ _ => exReal 1) (W := fun _ _ => exReal 0) (B := fun _ => exReal 0) (η := fun _ => 0) (D := fun _ => 0) le_rfl
  (fun _ _ => by norm_num) (fun _ _ _ _ => by simp [exVal]) (fun _ _ _ _ _ _ => by simp [exVal, logit]) exStep_sized rfl rfl
  rfl rfl rfl

/-- Non-vacuity of C145 (descent): the rounded step lowers the exact loss by at least 1/20. -/
example : ∃ (s' : Slp.State (Fl chop24)) (W' : Nat → Nat → Fl chop24) (B' : Nat → Fl chop24),
    Slp.step chopExp chopLog (exReal (1 / 8)) (fun s n => exReal (chop24 (s.val / n))) (fun _ => exReal 9) 1 1 2 exStep =
      .ok s' ∧ s'.w = (tab [1, 2] (fn2 W')).data ∧ s'.b = (tab [2] (fn1 B')).data ∧
    meanLoss (1 / 8) 1 1 2 (fun _ _ => 1) (fun _ j => if 0 = j then 1 else 0) (fun q j => (W' q j).val) (fun j => (B' j).val) ≤
      meanLoss (1 / 8) 1 1 2 (fun _ _ => 1) (fun _ j => if 0 = j then 1 else 0) (fun _ _ => 0) (fun _ => 0) - 1 / 20 := by
  have sm : ∀ i j, Spec.softmax 2 (logit 1 (fun _ _ => 1) (fun _ _ => 0) (fun _ => 0) i) j = 1 / 2 := fun i j => by
    simp [Spec.softmax, logit]
  have pr : ∀ i j, prob (1 / 8) 1 2 (fun _ _ => 1) (fun _ _ => 0) (fun _ => 0) i j = 1 / 2 := fun i j => by
    unfold prob
    rw [sm]
    norm_num
  obtain ⟨s', W', B', h1, h2, h3, h4⟩ := C145_descent exU exU1 chop24_err exU exU1 chopExp_err (flog := chopLog)
    (eps := exReal (1 / 8)) (by rw [exVal]; norm_num) (fun s n => exReal (chop24 (s.val / n))) (fun _ => exReal 9)
    (exReal (1 / 4)) (L := fun _ => 0) (X := fun _ _ => exReal 1) (W := fun _ _ => exReal 0) (B := fun _ => exReal 0)
    (η := fun _ => 0) (D := fun _ => 0) le_rfl (fun _ _ => by norm_num) (fun _ _ _ _ => by simp [exVal])
    (fun _ _ _ _ _ _ => by simp [exVal, logit]) (ρ := 1) (fun _ _ => by simp [exVal]) (by rw [exVal]; norm_num)
    (by rw [exVal]; norm_num) (fun i _ j _ => by simp only [exVal]; rw [sm]; norm_num) exStep_sized rfl rfl rfl rfl rfl
    (fun _ _ => rfl) (fun _ _ => rfl) (fun _ _ => rfl) (fun _ => rfl) (fun _ _ => rfl) (fun _ => rfl)
  refine ⟨s', W', B', h1, h2, h3, ?_⟩
  simp only [exVal] at h4
  refine h4.trans (sub_le_sub_left ?_ _)
  have f1 : softmaxFactor (2 ^ (-23 : ℤ)) (2 ^ (-23 : ℤ)) 2 0 0 = 1 / ((1 - 2 ^ (-23 : ℤ)) * (1 - 2 ^ (-23 : ℤ)) ^ 3) := by
    unfold softmaxFactor
    norm_num
  simp only [pr, f1, stepErr, sum_range_succ, sum_range_zero]
  norm_num

end StdNN
