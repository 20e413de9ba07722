import Verif.Props.Utility
/-!
# C60-C62, C82: summaries, initialisers, truncated normal, row means
-/
namespace StdNN
open Spec Outcome Finset
variable {R : Type}

/-! ## C60 -/

theorem foldl_min [LinearOrder R] (t : List R) (a : R) :
    (t.foldl (fun m b => if b < m then b else m) a) ∈ a :: t ∧
      ∀ w ∈ a :: t, (t.foldl (fun m b => if b < m then b else m) a) ≤ w := by
  induction t generalizing a with
  | nil => simp
  | cons b t ih =>
    rw [List.foldl_cons]
    by_cases c : b < a
    · rw [if_pos c]
      refine ⟨List.mem_cons_of_mem _ (ih b).1, fun w hw => ?_⟩
      rcases List.mem_cons.1 hw with rfl | hw
      · exact ((ih b).2 b (by simp)).trans c.le
      · exact (ih b).2 w hw
    · rw [if_neg c]
      refine ⟨?_, fun w hw => ?_⟩
      · rcases List.mem_cons.1 (ih a).1 with h | h
        · rw [h]; simp
        · exact List.mem_cons_of_mem _ (List.mem_cons_of_mem _ h)
      · rcases List.mem_cons.1 hw with rfl | hw
        · exact (ih w).2 w (by simp)
        · rcases List.mem_cons.1 hw with rfl | hw
          · exact ((ih a).2 a (by simp)).trans (not_lt.1 c)
          · exact (ih a).2 w (List.mem_cons_of_mem _ hw)

theorem foldl_max [LinearOrder R] (t : List R) (a : R) :
    (t.foldl (fun m b => if m < b then b else m) a) ∈ a :: t ∧
      ∀ w ∈ a :: t, w ≤ (t.foldl (fun m b => if m < b then b else m) a) :=
  foldl_min (R := Rᵒᵈ) t a

theorem foldl_max_last [LinearOrder R] (t : List R) (a : R) :
    (t.foldl (fun m b => if b < m then m else b) a) = (t.foldl (fun m b => if m < b then b else m) a) := by
  congr 1
  funext m b
  rcases lt_trichotomy m b with h | h | h
  · rw [if_pos h, if_neg (not_lt.2 h.le)]
  · subst h; simp
  · rw [if_pos h, if_neg (not_lt.2 h.le)]

/-- C60: `min` returns an element that is at most every element. -/
theorem C60_min [LinearOrder R] {x : List R} (hx : x ≠ []) :
    ∃ v, Ops.Summaries.min x = .ok v ∧ v ∈ x ∧ ∀ w ∈ x, v ≤ w := by
  match x, hx with
  | a :: t, _ => exact ⟨_, rfl, foldl_min t a⟩

/-- C60: `max` returns an element that is at least every element. -/
theorem C60_max [LinearOrder R] {x : List R} (hx : x ≠ []) :
    ∃ v, Ops.Summaries.max x = .ok v ∧ v ∈ x ∧ ∀ w ∈ x, w ≤ v := by
  match x, hx with
  | a :: t, _ => exact ⟨_, rfl, foldl_max t a⟩

/-- C60: `min`, `max`, `span` and `adj_diff_sum` of an empty tensor are undefined. -/
theorem C60_empty [LinearOrder R] [Zero R] [Add R] [Sub R] (abs : R → R) :
    Ops.Summaries.min ([] : List R) = .ub ∧ Ops.Summaries.max ([] : List R) = .ub ∧
      Ops.Summaries.span ([] : List R) = .ub ∧ Ops.Summaries.adjDiffSum abs ([] : List R) = .ub := ⟨rfl, rfl, rfl, rfl⟩

section field
variable [Field R] [LinearOrder R] [IsStrictOrderedRing R]

/-- C60: `span` is the difference of `max` and `min`, and not negative. -/
theorem C60_span {x : List R} (hx : x ≠ []) :
    ∃ lo hi v, Ops.Summaries.min x = .ok lo ∧ Ops.Summaries.max x = .ok hi ∧ Ops.Summaries.span x = .ok v ∧
      v = hi - lo ∧ 0 ≤ v := by
  match x, hx with
  | a :: t, _ =>
    refine ⟨_, _, _, rfl, rfl, rfl, ?_, ?_⟩
    · rw [foldl_max_last]
    · rw [foldl_max_last, sub_nonneg]
      exact (foldl_min t a).2 _ (foldl_max t a).1

omit [LinearOrder R] [IsStrictOrderedRing R] in
/-- C60: `sum` is the sum of the elements. -/
theorem C60_sum (x : List R) : Ops.Summaries.sum x = .ok x.sum := by
  unfold Ops.Summaries.sum
  rw [List.sum_eq_foldl]

/-- C60: `mean` is the sum divided by the size, and lies between `min` and `max`. -/
theorem C60_mean {x : List R} (hx : x ≠ []) :
    ∃ lo hi v, Ops.Summaries.min x = .ok lo ∧ Ops.Summaries.max x = .ok hi ∧
      Ops.Summaries.mean (fun s n => s / (n : R)) x = .ok v ∧ v = x.sum / (x.length : R) ∧ lo ≤ v ∧ v ≤ hi := by
  obtain ⟨lo, e1, -, h1⟩ := C60_min hx
  obtain ⟨hi, e2, -, h2⟩ := C60_max hx
  have hpos : (0 : R) < (x.length : R) := by
    have : 0 < x.length := List.length_pos_iff.2 hx
    exact_mod_cast this
  refine ⟨lo, hi, _, e1, e2, ?_, rfl, ?_, ?_⟩
  · unfold Ops.Summaries.mean
    rw [C60_sum, Outcome.ok_bind]
    rfl
  · rw [le_div_iff₀ hpos]
    have := List.card_nsmul_le_sum x lo h1
    rw [nsmul_eq_mul] at this
    linarith [mul_comm lo (x.length : R)]
  · rw [div_le_iff₀ hpos]
    have := List.sum_le_card_nsmul x hi h2
    rw [nsmul_eq_mul] at this
    linarith [mul_comm hi (x.length : R)]

omit [LinearOrder R] [IsStrictOrderedRing R] in
theorem foldl_sq (x : List R) (m acc : R) :
    x.foldl (fun acc xi => let d := xi - m; acc + d * d) acc = acc + (x.map fun a => (a - m) ^ 2).sum := by
  induction x generalizing acc with
  | nil => simp
  | cons a t ih =>
    rw [List.foldl_cons, ih, List.map_cons, List.sum_cons]
    ring

/-- C60: the variance is the mean of the squared distances from the mean, equal to the mean of the squares minus the square
of the mean; it is not negative, and zero exactly if all elements equal the mean. -/
theorem C60_variance {x : List R} (hx : x ≠ []) :
    ∃ v μ, Ops.Summaries.variance (fun s n => s / (n : R)) x = .ok v ∧
      Ops.Summaries.mean (fun s n => s / (n : R)) x = .ok μ ∧
      v = (x.map fun a => (a - μ) ^ 2).sum / (x.length : R) ∧
      v = (x.map fun a => a ^ 2).sum / (x.length : R) - μ ^ 2 ∧ 0 ≤ v ∧ (v = 0 ↔ ∀ a ∈ x, a = μ) := by
  obtain ⟨-, -, μ, -, -, e, hμ, -, -⟩ := C60_mean hx
  have hpos : (0 : R) < (x.length : R) := by
    have : 0 < x.length := List.length_pos_iff.2 hx
    exact_mod_cast this
  have hexp : ∀ (l : List R), (l.map fun a => (a - μ) ^ 2).sum =
      (l.map fun a => a ^ 2).sum - 2 * μ * l.sum + (l.length : R) * μ ^ 2 := by
    intro l
    induction l with
    | nil => simp
    | cons a t ih =>
      simp only [List.map_cons, List.sum_cons, ih, List.length_cons]
      push_cast
      ring
  have hnn : ∀ b ∈ x.map fun a => (a - μ) ^ 2, 0 ≤ b := by
    intro b hb
    obtain ⟨a, -, rfl⟩ := List.mem_map.1 hb
    exact sq_nonneg _
  refine ⟨(x.map fun a => (a - μ) ^ 2).sum / (x.length : R), μ, ?_, e, rfl, ?_, ?_, ?_⟩
  · unfold Ops.Summaries.variance
    rw [C60_sum, Outcome.ok_bind]
    simp only [← hμ]
    rw [foldl_sq, zero_add]
    rfl
  · rw [hexp, hμ]
    field_simp
    ring
  · exact div_nonneg (List.sum_nonneg hnn) hpos.le
  · rw [div_eq_zero_iff, or_iff_left hpos.ne']
    constructor
    · intro h0 a ha
      have hz := List.all_zero_of_le_zero_le_of_sum_eq_zero hnn h0 (List.mem_map.2 ⟨a, ha, rfl⟩)
      exact sub_eq_zero.1 (pow_eq_zero_iff (two_ne_zero)|>.1 hz)
    · intro h
      apply List.sum_eq_zero
      intro b hb
      obtain ⟨a, ha, rfl⟩ := List.mem_map.1 hb
      rw [h a ha]
      simp

/-- The sum of the distances of neighbours. -/
def walk : R → List R → R
  | _, [] => 0
  | a, b :: t => |b - a| + walk b t

omit [IsStrictOrderedRing R] in
theorem foldl_walk (t : List R) (a acc : R) :
    (List.zip t (a :: t)).foldl (fun acc p => acc + |p.1 - p.2|) acc = acc + walk a t := by
  induction t generalizing a acc with
  | nil => simp [walk]
  | cons b t ih =>
    rw [List.zip_cons_cons, List.foldl_cons, ih]
    simp only [walk]
    ring

theorem walk_bound (t : List R) (a : R) : ∀ u ∈ a :: t, ∀ w ∈ a :: t, u - w ≤ walk a t := by
  induction t generalizing a with
  | nil =>
    intro u hu w hw
    simp at hu hw
    subst hu hw
    simp [walk]
  | cons b t ih =>
    have hb : ∀ u ∈ b :: t, u - b ≤ walk b t := fun u hu => ih b u hu b (by simp)
    have hb' : ∀ w ∈ b :: t, b - w ≤ walk b t := fun w hw => ih b b (by simp) w hw
    have h1 := le_abs_self (b - a)
    have h2 := neg_abs_le (b - a)
    have h3 := abs_nonneg (b - a)
    intro u hu w hw
    simp only [walk]
    rcases List.mem_cons.1 hu with e1 | hu <;> rcases List.mem_cons.1 hw with e2 | hw
    · have := ih b b (by simp) b (by simp)
      rw [e1, e2]; linarith
    · have := hb' w hw
      rw [e1]; linarith
    · have := hb u hu
      rw [e2]; linarith
    · have := ih b u hu w hw
      linarith

/-- C60: `adj_diff_sum` is the sum of the distances of neighbours, and at least the span. -/
theorem C60_adj_diff_sum (a : R) (t : List R) :
    ∃ v s, Ops.Summaries.adjDiffSum (fun r => |r|) (a :: t) = .ok v ∧ Ops.Summaries.span (a :: t) = .ok s ∧
      v = (List.zipWith (fun p q => |p - q|) t (a :: t)).sum ∧ s ≤ v := by
  refine ⟨walk a t, _, ?_, rfl, ?_, ?_⟩
  · show Outcome.ok ((List.zip t (a :: t)).foldl (fun acc p => acc + |p.1 - p.2|) 0) = _
    rw [foldl_walk, zero_add]
  · induction t generalizing a with
    | nil => simp [walk]
    | cons b t ih => simp only [walk, List.zipWith_cons_cons, List.sum_cons, ih b]
  · rw [foldl_max_last]
    exact walk_bound t a _ (foldl_max t a).1 _ (foldl_min t a).1

end field

/-- C60: the standard deviation is the square root of the variance. -/
theorem C60_std {x : List ℝ} (hx : x ≠ []) :
    ∃ s v, Ops.Summaries.standardDeviation Real.sqrt (fun s n => s / (n : ℝ)) x = .ok s ∧
      Ops.Summaries.variance (fun s n => s / (n : ℝ)) x = .ok v ∧ 0 ≤ s ∧ s ^ 2 = v := by
  obtain ⟨v, μ, e, -, -, -, h0, -⟩ := C60_variance hx
  refine ⟨Real.sqrt v, v, ?_, e, Real.sqrt_nonneg v, Real.sq_sqrt h0⟩
  unfold Ops.Summaries.standardDeviation
  rw [e, Outcome.ok_bind]
  rfl

/-- C60: `scalar_summaries` writes the values of the summaries in the order listed and nothing else. -/
theorem C60_scalar_summaries (ss : List (List R → Outcome R)) (vs : List R) (x y : List R)
    (h : List.Forall₂ (fun s v => s x = .ok v) ss vs) (hy : ss.length ≤ y.length) :
    Ops.scalarSummaries ss x y = .ok (vs ++ y.drop ss.length) := by
  have hl : ss.length = vs.length := h.length_eq
  have hm : (ss.mapM fun s => s x) = .ok vs := by
    clear hy hl
    induction h with
    | nil => rfl
    | cons h1 h2 ih => rw [List.mapM_cons, h1, Outcome.ok_bind, ih, Outcome.ok_bind]; rfl
  unfold Ops.scalarSummaries
  rw [hm, Outcome.ok_bind]
  obtain ⟨s, e, l, h1, h2⟩ := forRange_inv (n := vs.length) (body := fun i y => do
      let v ← rd vs i
      wr y i v) (fun q s => s.length = y.length ∧ (∀ i < q, s[i]? = vs[i]?) ∧ ∀ i, q ≤ i → s[i]? = y[i]?)
    (fun i hi s ⟨l, h1, h2⟩ => by
      have hr : rd vs i = .ok vs[i] := by simp [rd, hi]
      refine ⟨s.set i vs[i], ?_, by simpa using l, fun j hj => ?_, fun j hj => ?_⟩
      · rw [hr, Outcome.ok_bind]
        unfold wr
        rw [if_pos (by omega)]
      · rw [List.getElem?_set]
        by_cases e : i = j
        · subst e
          rw [if_pos rfl, if_pos (by omega), List.getElem?_eq_getElem hi]
        · rw [if_neg e]; exact h1 j (by omega)
      · rw [List.getElem?_set, if_neg (by omega)]
        exact h2 j (by omega)) (s := y) ⟨rfl, fun i h => by omega, fun _ _ => rfl⟩
  rw [e]
  congr 1
  apply List.ext_getElem?
  intro i
  rw [List.getElem?_append]
  by_cases c : i < vs.length
  · rw [if_pos c, h1 i c]
  · rw [if_neg c, h2 i (by omega), List.getElem?_drop]
    congr 1
    omega

/-- Non-vacuity: five summaries of a tensor of rationals. -/
example : List.Forall₂ (fun s v => s [(1 : ℚ), 4, 1] = Outcome.ok v)
    [Ops.Summaries.min, Ops.Summaries.max, Ops.Summaries.span, Ops.Summaries.sum,
      Ops.Summaries.mean (fun s n => s / (n : ℚ)), Ops.Summaries.variance (fun s n => s / (n : ℚ)),
      Ops.Summaries.adjDiffSum (fun r => |r|)] [1, 4, 3, 6, 2, 2, 6] := by
  refine .cons ?_ (.cons ?_ (.cons ?_ (.cons ?_ (.cons ?_ (.cons ?_ (.cons ?_ .nil)))))) <;> decide +kernel

/-! ## C82 -/

/-- C82: `ops::mean` writes the mean of every row; any element type without failing arithmetic. -/
theorem C82_mean [Zero R] [Add R] (divn : R → Nat → R) {rows n : Nat} (X : Nat → Nat → R) {y : List R} (hy : y.length = rows) :
    Ops.mean (Ops.Summaries.mean divn) rows n (tab [rows, n] (fn2 X)).data y =
      .ok ((List.range rows).map fun i => divn (seqSum n fun j => X i j) n) := by
  unfold Ops.mean
  rw [← run_storeFlat (val := fun i => divn (seqSum n fun j => X i j) n) hy]
  refine forRange_congr (fun i hi s => ?_) y
  rw [rowOf_tab X hi, Outcome.ok_bind]
  unfold Ops.Summaries.mean Ops.Summaries.sum
  rw [Outcome.ok_bind]
  have hl : (tab [n] (fn1 (X i))).data.length = n := by simp
  have hf : (tab [n] (fn1 (X i))).data.foldl (· + ·) 0 = seqSum n fun j => X i j := by
    rw [← seqSum_eq_foldl]
    have : (tab [n] (fn1 (X i))).data = (List.range n).map fun j => X i j := by
      apply List.ext_getElem?
      intro j
      by_cases c : j < n
      · have := tab_getElem? (fn1 (X i)) (v1 c)
        have e1 : offset [n] [j] = j := by simp
        rw [e1] at this
        rw [this]
        simp [c]
      · rw [List.getElem?_eq_none (by simp; omega), List.getElem?_eq_none (by simp; omega)]
    rw [this, List.foldl_map]
  rw [hl, hf]
  rfl

/-- C82 is false for `int32_t`: the mean of -3 and -1 is computed as 2147483646, because the size is unsigned. -/
theorem C82_int_negative : Ops.mean Ops.Summaries.meanI32 1 2 [-3, -1] [0] = .ok [2147483646] := by decide

/-- Non-vacuity. -/
example : Ops.mean (Ops.Summaries.mean fun s n => s / (n : ℚ)) 2 2 [1, 2, 3, 5] [0, 0] = .ok [3 / 2, 4] ∧
    Ops.mean Ops.Summaries.meanI32 2 2 [1, 2, 3, 5] [0, 0] = .ok [1, 4] := by
  constructor <;> decide +kernel

/-! ## C61 -/

/-- C61: every element is overwritten with the value. -/
theorem C61_fill [Zero R] [One R] (v : R) (x : List R) :
    Kernels.zeros x = .ok (List.replicate x.length 0) ∧ Kernels.ones x = .ok (List.replicate x.length 1) ∧
      Kernels.constant v x = .ok (List.replicate x.length v) := by
  simp [Kernels.zeros, Kernels.ones, Kernels.constant, fillAll, List.map_const']

/-- C61: `uniform_constant` writes equal elements that sum to one. -/
theorem C61_uniform [Field R] [CharZero R] {x : List R} (hx : x ≠ []) :
    ∃ y, Kernels.uniformConstant x = .ok y ∧ y = List.replicate x.length (1 / (x.length : R)) ∧ y.sum = 1 := by
  refine ⟨_, rfl, ?_, ?_⟩
  · simp [List.map_const']
  · have : (x.length : R) ≠ 0 := by
      have : x.length ≠ 0 := by simpa using hx
      exact_mod_cast this
    rw [List.map_const', List.sum_replicate, nsmul_eq_mul]
    field_simp

/-- Non-vacuity. -/
example : Kernels.uniformConstant [(7 : ℚ), 8] = .ok [1 / 2, 1 / 2] := by decide +kernel

/-! ## C62 -/

section
variable [LinearOrder R]

theorem drawUntil_spec (fabs : R → R) (bound : R) (ds : List R) :
    (∀ v rest, Ops.drawUntil fabs bound ds = some (v, rest) →
      fabs v ≤ bound ∧ ∃ rej, (∀ w ∈ rej, bound < fabs w) ∧ ds = rej ++ v :: rest) ∧
    (Ops.drawUntil fabs bound ds = none → ∀ w ∈ ds, bound < fabs w) := by
  induction ds with
  | nil => simp [Ops.drawUntil]
  | cons a ds ih =>
    unfold Ops.drawUntil
    by_cases c : bound < fabs a
    · rw [if_pos c]
      refine ⟨fun v rest h => ?_, fun h w hw => ?_⟩
      · obtain ⟨h1, rej, h2, h3⟩ := ih.1 v rest h
        refine ⟨h1, a :: rej, fun w hw => ?_, by rw [h3]; rfl⟩
        rcases List.mem_cons.1 hw with rfl | hw
        · exact c
        · exact h2 w hw
      · rcases List.mem_cons.1 hw with rfl | hw
        · exact c
        · exact ih.2 h w hw
    · rw [if_neg c]
      refine ⟨fun v rest h => ?_, fun h => by cases h⟩
      simp only [Option.some.injEq, Prod.mk.injEq] at h
      obtain ⟨rfl, rfl⟩ := h
      exact ⟨not_lt.1 c, [], by simp, rfl⟩

theorem truncatedNormal_succ (fabs : R → R) (bound : R) (n : Nat) (ds : List R) :
    Ops.truncatedNormal fabs bound (n + 1) ds =
      match Ops.drawUntil fabs bound ds with
      | none => none
      | some (v, ds') => match Ops.truncatedNormal fabs bound n ds' with
        | none => none
        | some (vs, rest) => some (v :: vs, rest) := by
  rw [Ops.truncatedNormal]
  cases Ops.drawUntil fabs bound ds with
  | none => rfl
  | some p =>
    obtain ⟨v, ds'⟩ := p
    simp only
    show (Ops.truncatedNormal fabs bound n ds' >>= fun x => some (v :: x.1, x.2)) = _
    cases e : Ops.truncatedNormal fabs bound n ds' <;> rfl

/-- C62: the outputs are the first `n` draws within the bound, in order; exactly the draws up to the last output are used. -/
theorem C62_output (fabs : R → R) (bound : R) (n : Nat) (ds out rest : List R)
    (h : Ops.truncatedNormal fabs bound n ds = some (out, rest)) :
    out.length = n ∧ (∀ v ∈ out, fabs v ≤ bound) ∧
      ∃ used, ds = used ++ rest ∧ out = used.filter (fun v => decide (fabs v ≤ bound)) ∧
        used.getLast? = out.getLast? := by
  induction n generalizing ds out rest with
  | zero =>
    simp only [Ops.truncatedNormal, Option.some.injEq, Prod.mk.injEq] at h
    obtain ⟨rfl, rfl⟩ := h
    exact ⟨rfl, by simp, [], rfl, rfl, rfl⟩
  | succ n ih =>
    rw [truncatedNormal_succ] at h
    split at h
    · cases h
    rename_i v ds' e1
    split at h
    · cases h
    rename_i vs rest' e2
    simp only [Option.some.injEq, Prod.mk.injEq] at h
    obtain ⟨rfl, rfl⟩ := h
    obtain ⟨hv, rej, hrej, hds⟩ := (drawUntil_spec fabs bound ds).1 v ds' e1
    obtain ⟨l1, l2, used, u1, u2, u3⟩ := ih ds' vs rest' e2
    refine ⟨by simp [l1], fun w hw => ?_, rej ++ v :: used, by rw [hds, u1]; simp, ?_, ?_⟩
    · rcases List.mem_cons.1 hw with rfl | hw
      · exact hv
      · exact l2 w hw
    · rw [List.filter_append, List.filter_cons, if_pos (by simpa using hv), ← u2]
      have : rej.filter (fun v => decide (fabs v ≤ bound)) = [] := by
        rw [List.filter_eq_nil_iff]
        intro a ha
        simpa using hrej a ha
      rw [this]
      rfl
    · rw [List.getLast?_append, List.getLast?_cons, List.getLast?_cons, u3]
      rfl

/-- C62: the loop ends as soon as `n` draws within the bound have come, and not before. -/
theorem C62_terminates (fabs : R → R) (bound : R) (n : Nat) (ds : List R) :
    (∃ r, Ops.truncatedNormal fabs bound n ds = some r) ↔ n ≤ (ds.filter fun v => decide (fabs v ≤ bound)).length := by
  induction n generalizing ds with
  | zero => simp [Ops.truncatedNormal]
  | succ n ih =>
    rw [truncatedNormal_succ]
    cases e1 : Ops.drawUntil fabs bound ds with
    | none =>
      have h := (drawUntil_spec fabs bound ds).2 e1
      have : ds.filter (fun v => decide (fabs v ≤ bound)) = [] := by
        rw [List.filter_eq_nil_iff]
        intro a ha
        simpa using h a ha
      rw [this]
      simp
    | some p =>
      obtain ⟨v, ds'⟩ := p
      obtain ⟨hv, rej, hrej, hds⟩ := (drawUntil_spec fabs bound ds).1 v ds' e1
      have hf : ds.filter (fun v => decide (fabs v ≤ bound)) = v :: ds'.filter (fun v => decide (fabs v ≤ bound)) := by
        rw [hds, List.filter_append, List.filter_cons, if_pos (by simpa using hv)]
        have : rej.filter (fun v => decide (fabs v ≤ bound)) = [] := by
          rw [List.filter_eq_nil_iff]
          intro a ha
          simpa using hrej a ha
        rw [this]
        rfl
      rw [hf, List.length_cons, Nat.add_le_add_iff_right, ← ih ds']
      simp only
      cases Ops.truncatedNormal fabs bound n ds' with
      | none => simp
      | some q => simp

/-- C62: with a seed the output does not depend on the random device, whatever the state of the generator before seeding. -/
theorem C62_seed {S : Type} (mk : Nat → S) (seed : S → Nat → S) (next : S → R × S)
    (hseed : ∀ s s' x, seed s x = seed s' x) (fabs : R → R) (bound : R) (rd rd' x n m : Nat) :
    Ops.truncatedNormalSeeded mk seed next fabs bound rd x n m = Ops.truncatedNormalSeeded mk seed next fabs bound rd' x n m := by
  unfold Ops.truncatedNormalSeeded
  simp only [hseed (mk rd) (mk rd')]

omit [LinearOrder R] in
theorem drawsFrom_eq {S : Type} (next : S → R × S) (m : Nat) (s : S) :
    Ops.drawsFrom next m s = (List.range m).map fun k => (next ((fun s => (next s).2)^[k] s)).1 := by
  induction m generalizing s with
  | zero => rfl
  | succ m ih =>
    rw [Ops.drawsFrom, ih, List.range_succ_eq_map, List.map_cons, List.map_map]
    rfl

/-- C62: with a seed the output is the first `n` draws within the bound of the generator with that seed, in order, and the call
ends within `m` draws exactly if there are `n` such draws among them. Draw `k` is what the generator gives after `k` draws. -/
theorem C62_seeded {S : Type} (mk : Nat → S) (seed : S → Nat → S) (next : S → R × S)
    (hseed : ∀ s s' x, seed s x = seed s' x) (fabs : R → R) (bound : R) (rd x n m : Nat) (s : S) {draw : Nat → R}
    (hdraw : ∀ k, draw k = (next ((fun s => (next s).2)^[k] (seed s x))).1) {within : List R}
    (hw : within = ((List.range m).map draw).filter fun v => decide (fabs v ≤ bound)) :
    Ops.truncatedNormalSeeded mk seed next fabs bound rd x n m = if n ≤ within.length then some (within.take n) else none := by
  have e : Ops.drawsFrom next m (seed (mk rd) x) = (List.range m).map draw := by
    rw [drawsFrom_eq, hseed (mk rd) s]
    exact List.map_congr_left fun k _ => (hdraw k).symm
  have t := C62_terminates fabs bound n ((List.range m).map draw)
  rw [← hw] at t
  unfold Ops.truncatedNormalSeeded
  simp only [e]
  cases h : Ops.truncatedNormal fabs bound n ((List.range m).map draw) with
  | none =>
    rw [if_neg fun c => by obtain ⟨r, hr⟩ := t.2 c; rw [h] at hr; cases hr]
    rfl
  | some r =>
    obtain ⟨out, rest⟩ := r
    obtain ⟨l1, -, used, u1, u2, -⟩ := C62_output fabs bound n _ out rest h
    rw [if_pos (t.1 ⟨_, h⟩), hw, u1, List.filter_append, ← u2, List.take_left' l1]
    rfl

end

/-- C62: over an ordered field, the outputs are at most `2 * |stddev|` in absolute value. -/
theorem C62_bound [Field R] [LinearOrder R] [IsStrictOrderedRing R] (stddev : R) (n : Nat) (ds out rest : List R)
    (h : Ops.truncatedNormal (fun v => |v|) (Ops.truncatedBound (fun v => |v|) stddev) n ds = some (out, rest)) :
    ∀ v ∈ out, |v| ≤ 2 * |stddev| := by
  intro v hv
  have := (C62_output _ _ n ds out rest h).2.1 v hv
  unfold Ops.truncatedBound at this
  rw [one_add_one_eq_two] at this
  exact this

/-- Non-vacuity: two values from five draws of which two are rejected. -/
example : Ops.truncatedNormal (fun v : Int => |v|) (Ops.truncatedBound (fun v => |v|) (-1)) 2 [3, 1, -5, -2, 7] =
    some ([1, -2], [7]) := by decide

/-- A generator that goes up by 3 from its seed and gives its state minus 4: of the draws -2, 1, 4, 7 two are within the bound. -/
example : Ops.truncatedNormalSeeded (fun r => (r : Int)) (fun _ x => (x : Int)) (fun s => (s - 4, s + 3)) (fun v : Int => |v|) 2 77 2 2 4 =
    some [-2, 1] := (C62_seeded _ _ _ (fun _ _ _ => rfl) _ _ _ _ _ _ (0 : Int) (fun _ => rfl) rfl).trans (by decide)

/-! ## Concrete cases -/

example := C60_min (x := [(3 : ℚ), -1, 2]) (by decide)
example := C60_max (x := [(3 : ℚ), -1, 2]) (by decide)
example := C60_span (x := [(3 : ℚ), -1, 2]) (by decide)
example := C60_mean (x := [(3 : ℚ), -1, 2]) (by decide)
example := C60_variance (x := [(3 : ℚ), -1, 2]) (by decide)
example := C60_std (x := [3, -1, 2]) (List.cons_ne_nil _ _)
example := C61_uniform (x := [(3 : ℚ), -1, 2]) (by decide)
example := C62_output (fun v : Int => |v|) 2 2 [3, 1, -5, -2, 7] [1, -2] [7] (by decide)
example := C62_seed (S := Nat) (fun _ => 0) (fun _ x => x) (fun s => ((s : Int) - 3, s + 1)) (fun _ _ _ => rfl) (fun v => |v|) 2 5 8 1 2 9
example := C62_bound (R := ℚ) (-1) 2 [3, 1, -5, -2, 7] [1, -2] [7] (by decide +kernel)

end StdNN
