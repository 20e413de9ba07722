import Verif.Props.Activation
import Verif.Props.Pool
import Verif.Props.Elementwise
import Verif.Props.Utility
import Verif.Spec.Float
/-!
# C94-C96: NaN and infinities

The element type is `Ieee A`: NaN, the infinities and the reals under any monotone rounding `A`.
-/
namespace StdNN
open IntTy Spec Outcome Finset Ieee
variable {A : Arith}

/-! ## C94: softmax -/

theorem rnd_nonneg {x : EReal} (h : 0 ≤ x) : 0 ≤ A.rnd x := A.zero ▸ A.mono h
theorem rnd_ge_one {x : EReal} (h : 1 ≤ x) : 1 ≤ A.rnd x := A.one ▸ A.mono h
theorem rnd_le_one {x : EReal} (h : x ≤ 1) : A.rnd x ≤ 1 := A.one ▸ A.mono h
theorem rnd_nonpos {x : EReal} (h : x ≤ 0) : A.rnd x ≤ 0 := A.zero ▸ A.mono h

theorem ne_bot_of_nonneg {x : EReal} (h : 0 ≤ x) : x ≠ ⊥ := fun e => absurd (e ▸ h) (by decide)

theorem add_num_nonneg {a b : EReal} (ha : 0 ≤ a) (hb : 0 ≤ b) :
    (num a + num b : Ieee A) = num (A.rnd (a + b)) :=
  num_add (by
    rintro (⟨_, h⟩ | ⟨h, _⟩)
    · exact ne_bot_of_nonneg hb h
    · exact ne_bot_of_nonneg ha h)

/-- A sum of terms that are NaN or not negative. -/
theorem seqSum_nonneg (n : Nat) (f : Nat → Ieee A) (hf : ∀ k < n, f k = nan ∨ ∃ w, f k = num w ∧ 0 ≤ w) :
    seqSum n f = nan ∨ ∃ t, seqSum n f = num t ∧ 0 ≤ t := by
  induction n with
  | zero => exact Or.inr ⟨0, rfl, le_rfl⟩
  | succ n ih =>
    rcases ih fun k hk => hf k (by omega) with e | ⟨t, e, ht⟩
    · exact Or.inl (by rw [seqSum, e, nan_add])
    · rcases hf n (by omega) with e' | ⟨w, e', hw⟩
      · exact Or.inl (by rw [seqSum, e', add_nan])
      · exact Or.inr ⟨_, by rw [seqSum, e, e', add_num_nonneg ht hw], rnd_nonneg (add_nonneg ht hw)⟩

theorem seqSum_nan {n i : Nat} (hi : i < n) {f : Nat → Ieee A} (h : f i = nan) : seqSum n f = nan := by
  induction n with
  | zero => omega
  | succ n ih =>
    rw [seqSum]
    rcases Nat.lt_succ_iff_lt_or_eq.1 hi with hi | rfl
    · rw [ih hi, nan_add]
    · rw [h, add_nan]

/-- If one of the terms is 1, the sum is NaN or at least 1. -/
theorem seqSum_ge_one {n i : Nat} (hi : i < n) {f : Nat → Ieee A}
    (hf : ∀ k < n, f k = nan ∨ ∃ w, f k = num w ∧ 0 ≤ w) (h1 : ∃ w, f i = num w ∧ 1 ≤ w) :
    seqSum n f = nan ∨ ∃ t, seqSum n f = num t ∧ 1 ≤ t := by
  induction n with
  | zero => omega
  | succ n ih =>
    rw [seqSum]
    by_cases hin : i = n
    · subst hin
      obtain ⟨w, e', hw⟩ := h1
      rcases seqSum_nonneg i f fun k hk => hf k (by omega) with e | ⟨t, e, ht⟩
      · exact Or.inl (by rw [e, nan_add])
      · refine Or.inr ⟨_, by rw [e, e', add_num_nonneg ht (le_trans zero_le_one hw)], rnd_ge_one ?_⟩
        exact le_add_of_nonneg_of_le ht hw
    · rcases ih (by omega) fun k hk => hf k (by omega) with e | ⟨t, e, ht⟩
      · exact Or.inl (by rw [e, nan_add])
      · rcases hf n (by omega) with e' | ⟨w, e', hw⟩
        · exact Or.inl (by rw [e', add_nan])
        · refine Or.inr ⟨_, by rw [e, e', add_num_nonneg (le_trans zero_le_one ht) hw], rnd_ge_one ?_⟩
          exact le_add_of_le_of_nonneg ht hw

theorem seqSum_top {n i : Nat} (hi : i < n) {f : Nat → Ieee A}
    (hf : ∀ k < n, f k = nan ∨ ∃ w, f k = num w ∧ 0 ≤ w) (h1 : f i = num ⊤) :
    seqSum n f = nan ∨ seqSum n f = num ⊤ := by
  induction n with
  | zero => omega
  | succ n ih =>
    rw [seqSum]
    by_cases hin : i = n
    · subst hin
      rcases seqSum_nonneg i f fun k hk => hf k (by omega) with e | ⟨t, e, ht⟩
      · exact Or.inl (by rw [e, nan_add])
      · refine Or.inr ?_
        rw [e, h1, add_num_nonneg ht le_top, EReal.add_top_of_ne_bot (ne_bot_of_nonneg ht), A.top]
    · rcases ih (by omega) fun k hk => hf k (by omega) with e | e
      · exact Or.inl (by rw [e, nan_add])
      · rcases hf n (by omega) with e' | ⟨w, e', hw⟩
        · exact Or.inl (by rw [e', add_nan])
        · refine Or.inr ?_
          rw [e, e', add_num_nonneg le_top hw, EReal.top_add_of_ne_bot (ne_bot_of_nonneg hw), A.top]

theorem one_div_le_one_of_le {t : EReal} (ht : 1 ≤ t) : 1 / t ≤ 1 := by
  induction t with
  | bot => exact absurd ht (by decide)
  | top => rw [EReal.div_top]; exact zero_le_one
  | coe r =>
    have hr : (1 : ℝ) ≤ r := by exact_mod_cast ht
    have : (1 : EReal) / (r : EReal) = ((1 / r : ℝ) : EReal) := by rw [EReal.coe_div]; rfl
    rw [this]
    exact_mod_cast (div_le_one (by linarith)).2 hr

/-- What the code writes for element `i` of a row. -/
noncomputable def softElem (E : EReal → EReal) (e : EReal) (n : Nat) (x : Nat → Ieee A) (i : Nat) : Ieee A :=
  let v := 1 / seqSum n fun j => lift E (x j - x i)
  if num e < v then v else num e

theorem lift_nonneg {E : EReal → EReal} (hE : ∀ x, 0 ≤ E x) (a : Ieee A) :
    lift E a = nan ∨ ∃ w, lift E a = num w ∧ 0 ≤ w := by
  cases a with
  | nan => exact Or.inl rfl
  | num x => exact Or.inr ⟨_, rfl, hE x⟩

theorem softElem_nan {E : EReal → EReal} {e : EReal} {n : Nat} {x : Nat → Ieee A} {i : Nat}
    (h : (seqSum n fun j => lift E (x j - x i)) = nan) : softElem E e n x i = num e := by
  unfold softElem
  dsimp only
  rw [h, div_nan, if_neg (not_lt_nan _)]

theorem softElem_bounds {E : EReal → EReal} (E0 : E 0 = 1) (hE : ∀ x, 0 ≤ E x) {e : EReal} (he : e ≤ 1) {n i : Nat}
    (hi : i < n) (x : Nat → Ieee A) : ∃ v, softElem E e n x i = num v ∧ e ≤ v ∧ v ≤ 1 := by
  have hf : ∀ k < n, lift E (x k - x i) = nan ∨ ∃ w, lift E (x k - x i) = num w ∧ 0 ≤ w := fun k _ => lift_nonneg hE _
  have hself : lift E (x i - x i) = nan ∨ lift E (x i - x i) = num 1 := by
    cases hx : x i with
    | nan => exact Or.inl (by rw [nan_sub]; rfl)
    | num a =>
      rcases num_sub_self (A := A) a with ⟨h, _⟩ | ⟨h, _⟩
      · exact Or.inl (by rw [h]; rfl)
      · exact Or.inr (by rw [h]; show num (E 0) = _; rw [E0])
  have hs : (seqSum n fun j => lift E (x j - x i)) = nan ∨
      ∃ t, (seqSum n fun j => lift E (x j - x i)) = num t ∧ 1 ≤ t := by
    rcases hself with h | h
    · exact Or.inl (seqSum_nan hi h)
    · exact seqSum_ge_one hi hf ⟨1, h, le_rfl⟩
  rcases hs with h | ⟨t, h, ht⟩
  · exact ⟨e, softElem_nan h, le_rfl, he⟩
  · have ht0 : 0 < t := lt_of_lt_of_le zero_lt_one ht
    have e1 : (1 / num t : Ieee A) = num (A.rnd (1 / t)) := by
      rw [one_def]
      refine num_div ht0.ne' ?_
      rintro ⟨h | h, _⟩
      · exact EReal.coe_ne_top 1 h
      · exact EReal.coe_ne_bot 1 h
    have hle : A.rnd (1 / t) ≤ 1 := rnd_le_one (one_div_le_one_of_le ht)
    unfold softElem
    dsimp only
    rw [h, e1]
    by_cases c : (num e : Ieee A) < num (A.rnd (1 / t))
    · rw [if_pos c]; exact ⟨_, rfl, le_of_lt (num_lt.1 c), hle⟩
    · rw [if_neg c]; exact ⟨_, rfl, le_rfl, he⟩

theorem valid_snoc {ds : List Nat} {n : Nat} : ∀ {idx : List Nat}, Valid (ds ++ [n]) idx →
    idx.getLastD 0 < n ∧ Valid ds idx.dropLast ∧ idx = idx.dropLast ++ [idx.getLastD 0] := by
  induction ds with
  | nil =>
    intro idx h
    match idx, h with
    | [i], h => exact ⟨h.1, trivial, rfl⟩
  | cons d ds ih =>
    intro idx h
    match idx, h with
    | i :: is, h =>
      obtain ⟨h1, h2⟩ := h
      obtain ⟨a, b, c⟩ := ih h2
      have hne : is ≠ [] := by rintro rfl; cases ds <;> exact h2
      obtain ⟨j, js, rfl⟩ := List.exists_cons_of_ne_nil hne
      refine ⟨by simpa using a, ⟨h1, b⟩, ?_⟩
      rw [List.dropLast_cons_cons, List.cons_append]
      simpa using c

/-- C94: whatever the inputs (NaN, infinities, numbers of any size), every output of softmax is a number between `eps` and
1; any rank. `E` stands for `std::exp`, `e` for `eps`. -/
theorem C94_softmax_range {E : EReal → EReal} (E0 : E 0 = 1) (hE : ∀ x, 0 ≤ E x) {e : EReal} (he : e ≤ 1)
    (ds : List Nat) (n : Nat) (X : List Nat → Ieee A) {z : Nat} {m : List (Ieee A)}
    (hz : z + (ds ++ [n]).prod ≤ m.length) :
    ∃ Z : List Nat → EReal,
      Ops.softmax (lift E) (num e) (ds ++ [n]) (ds ++ [n]) (.ext (tab (ds ++ [n]) X).data) z m =
        .ok (store m z (tab (ds ++ [n]) fun idx => (num (Z idx) : Ieee A)).data) ∧
      ∀ idx, Valid (ds ++ [n]) idx → e ≤ Z idx ∧ Z idx ≤ 1 := by
  classical
  have key : ∀ idx, ∃ v, Valid (ds ++ [n]) idx →
      softElem E e n (fun j => X (idx.dropLast ++ [j])) (idx.getLastD 0) = num v ∧ e ≤ v ∧ v ≤ 1 := by
    intro idx
    by_cases hv : Valid (ds ++ [n]) idx
    · obtain ⟨v, h⟩ := softElem_bounds (A := A) E0 hE he (valid_snoc hv).1 (fun j => X (idx.dropLast ++ [j]))
      exact ⟨v, fun _ => h⟩
    · exact ⟨0, fun h => absurd h hv⟩
  choose Z hZ using key
  refine ⟨Z, ?_, fun idx hv => (hZ idx hv).2⟩
  rw [C51_order (lift E) (num e) ds n X hz]
  refine congrArg (fun t => Outcome.ok (store m z (Tensor.data t))) (tab_congr fun idx hv => ?_)
  exact (hZ idx hv).1

theorem softElem_of_nan {E : EReal → EReal} {e : EReal} {n i j : Nat} (hj : j < n) {x : Nat → Ieee A}
    (h : x j = nan) : softElem E e n x i = num e :=
  softElem_nan (seqSum_nan hj (by rw [h, nan_sub]; rfl))

theorem softElem_of_top {E : EReal → EReal} (hE : ∀ x, 0 ≤ E x) (Et : E ⊤ = ⊤) {e : EReal} (he : 0 ≤ e)
    {n i j : Nat} (hi : i < n) (hj : j < n) {x : Nat → Ieee A} (h : x j = num ⊤) : softElem E e n x i = num e := by
  have hinf : x i = nan ∨ x i = num ⊤ ∨ x i = num ⊥ ∨ ∃ a, x i = num a ∧ a ≠ ⊤ ∧ a ≠ ⊥ := by
    cases hx : x i with
    | nan => exact Or.inl rfl
    | num a =>
      by_cases h1 : a = ⊤
      · exact Or.inr (Or.inl (by rw [h1]))
      · by_cases h2 : a = ⊥
        · exact Or.inr (Or.inr (Or.inl (by rw [h2])))
        · exact Or.inr (Or.inr (Or.inr ⟨a, rfl, h1, h2⟩))
  have self : ∀ a : EReal, (a = ⊤ ∨ a = ⊥) → x i = num a → softElem E e n x i = num e := by
    intro a ha hx
    refine softElem_nan (seqSum_nan hi ?_)
    rw [hx]
    rcases num_sub_self (A := A) a with ⟨h, _⟩ | ⟨_, h1, h2⟩
    · rw [h]; rfl
    · rcases ha with ha | ha
      · exact absurd ha h1
      · exact absurd ha h2
  rcases hinf with hx | hx | hx | ⟨a, hx, h1, h2⟩
  · exact softElem_of_nan hi hx
  · exact self ⊤ (Or.inl rfl) hx
  · exact self ⊥ (Or.inr rfl) hx
  · have ej : lift E (x j - x i) = num ⊤ := by
      rw [h, hx, num_sub (by simp [h1]), EReal.top_sub h1, A.top]
      show num (E ⊤) = _
      rw [Et]
    rcases seqSum_top (f := fun k => lift E (x k - x i)) hj (fun k _ => lift_nonneg hE _) ej with h' | h'
    · exact softElem_nan h'
    · unfold softElem
      dsimp only
      have e1 : (1 / num ⊤ : Ieee A) = num 0 := by
        rw [one_def, num_div (by decide) ?_, EReal.div_top, A.zero]
        rintro ⟨h | h, _⟩
        · exact EReal.coe_ne_top 1 h
        · exact EReal.coe_ne_bot 1 h
      rw [h', e1, if_neg fun c => absurd (num_lt.1 c) (not_lt.2 he)]

/-- C94: a NaN or a plus infinity anywhere in a row makes every output of that row `eps`: softmax hides it instead of
passing it on. -/
theorem C94_softmax_masks {E : EReal → EReal} (hE : ∀ x, 0 ≤ E x) (Et : E ⊤ = ⊤) {e : EReal} (he : 0 ≤ e)
    (ds : List Nat) (n : Nat) (X : List Nat → Ieee A) {z : Nat} {m : List (Ieee A)}
    (hz : z + (ds ++ [n]).prod ≤ m.length) :
    ∃ Z : List Nat → Ieee A,
      Ops.softmax (lift E) (num e) (ds ++ [n]) (ds ++ [n]) (.ext (tab (ds ++ [n]) X).data) z m =
        .ok (store m z (tab (ds ++ [n]) Z).data) ∧
      ∀ p, Valid ds p → (∃ j < n, X (p ++ [j]) = nan ∨ X (p ++ [j]) = num ⊤) → ∀ i < n, Z (p ++ [i]) = num e := by
  refine ⟨_, C51_order (lift E) (num e) ds n X hz, fun p _ hj i hi => ?_⟩
  obtain ⟨j, hj, h⟩ := hj
  have e1 : (p ++ [i]).dropLast = p := List.dropLast_concat
  have e2 : (p ++ [i]).getLastD 0 = i := by simp
  show softElem E e n (fun j => X ((p ++ [i]).dropLast ++ [j])) ((p ++ [i]).getLastD 0) = num e
  rw [e1, e2]
  rcases h with h | h
  · exact softElem_of_nan hj h
  · exact softElem_of_top hE Et he hi hj h

/-- The exact arithmetic: nothing is rounded, dividing by a zero gives NaN. -/
noncomputable def exactArith : Arith := ⟨id, monotone_id, rfl, rfl, rfl, rfl, fun _ => none⟩

/-- The exponential on the extended reals. -/
noncomputable def expE : EReal → EReal
  | ⊥ => 0
  | ⊤ => ⊤
  | (x : ℝ) => (Real.exp x : ℝ)

/-- Non-vacuity of C94: the exponential meets the hypotheses, and `eps = 10⁻⁶` lies between 0 and 1. -/
example : expE 0 = 1 ∧ (∀ x, 0 ≤ expE x) ∧ expE ⊤ = ⊤ ∧ (0 : EReal) ≤ (1 / 1000000 : ℝ) ∧ ((1 / 1000000 : ℝ) : EReal) ≤ 1 ∧
    0 + ([2] ++ [3]).prod ≤ (List.replicate 6 (nan : Ieee exactArith)).length := by
  refine ⟨?_, fun x => ?_, rfl, ?_, ?_, by decide⟩
  · show ((Real.exp 0 : ℝ) : EReal) = 1
    rw [Real.exp_zero]; rfl
  · induction x with
    | bot => exact le_rfl
    | top => exact le_top
    | coe r => exact EReal.coe_nonneg.2 (Real.exp_pos r).le
  · exact_mod_cast (by norm_num : (0 : ℝ) ≤ 1 / 1000000)
  · exact_mod_cast (by norm_num : (1 / 1000000 : ℝ) ≤ 1)

/-! ## C95: the loss -/

/-- Finite and between `-M` and 0. -/
theorem between_finite {M v : EReal} (hM : M ≠ ⊤) (h1 : -M ≤ v) (h2 : v ≤ 0) : v ≠ ⊤ ∧ v ≠ ⊥ := by
  constructor
  · rintro rfl; exact absurd h2 (by decide)
  · rintro rfl
    rw [le_bot_iff, EReal.neg_eq_bot_iff] at h1
    exact hM h1

/-- The sum of the products of a one-hot row with numbers between `-M` and 0. -/
theorem onehot_sum {M : EReal} (hM0 : 0 ≤ M) (hMt : M ≠ ⊤) (hMr : A.rnd (-M) = -M) {n l : Nat} {L : Nat → EReal}
    (hL : ∀ j < n, -M ≤ L j ∧ L j ≤ 0) :
    ∃ v, (seqSum n fun j => (if j = l then (1 : Ieee A) else 0) * num (L j)) = num v ∧ -M ≤ v ∧ v ≤ 0 ∧
      (n ≤ l → v = 0) := by
  have hM0' : -M ≤ 0 := by rw [EReal.neg_le]; simpa using hM0
  have hr : ∀ x : EReal, -M ≤ x → -M ≤ A.rnd x := fun x hx => hMr ▸ A.mono hx
  induction n with
  | zero => exact ⟨0, rfl, hM0', le_rfl, fun _ => rfl⟩
  | succ n ih =>
    obtain ⟨v, e, h1, h2, h3⟩ := ih fun j hj => hL j (by omega)
    obtain ⟨q1, q2⟩ := hL n (by omega)
    obtain ⟨f1, f2⟩ := between_finite hMt q1 q2
    obtain ⟨g1, g2⟩ := between_finite hMt h1 h2
    rw [seqSum, e]
    by_cases hn : n = l
    · have hv := h3 hn.le
      subst hv
      have e1 : ((1 : Ieee A) * num (L n)) = num (A.rnd (L n)) := by
        rw [one_def, num_mul, one_mul]
        rintro (⟨h, _⟩ | ⟨_, h | h⟩)
        · exact absurd h one_ne_zero
        · exact EReal.coe_ne_top 1 h
        · exact EReal.coe_ne_bot 1 h
      have r1 := hr _ q1
      have r2 : A.rnd (L n) ≤ 0 := rnd_nonpos q2
      rw [if_pos hn, e1, num_add (by simp), zero_add]
      exact ⟨_, rfl, hr _ r1, rnd_nonpos r2, fun h => by omega⟩
    · have e1 : ((0 : Ieee A) * num (L n)) = num 0 := by
        rw [zero_def, num_mul, zero_mul, A.zero]
        rintro (⟨_, h | h⟩ | ⟨_, h | h⟩)
        · exact f1 h
        · exact f2 h
        · exact EReal.coe_ne_top 0 h
        · exact EReal.coe_ne_bot 0 h
      rw [if_neg hn, e1, num_add (by simp), add_zero]
      exact ⟨_, rfl, hr _ h1, rnd_nonpos h2, fun h => by rw [h3 (by omega), A.zero]⟩

/-- C95: the cross-entropy of one-hot labels and the output of softmax is a number between 0 and `M = -log eps` for every
row, whatever the inputs of softmax (NaN, infinities, numbers of any size): never NaN and never infinite. `E` stands for
`std::exp`, `G` for `std::log`; `M` is a number that rounding keeps. -/
theorem C95_loss_finite {E G : EReal → EReal} (E0 : E 0 = 1) (hE : ∀ x, 0 ≤ E x) {e M : EReal} (he : e ≤ 1)
    (hM0 : 0 ≤ M) (hMt : M ≠ ⊤) (hMr : A.rnd (-M) = -M) (hG : ∀ x, e ≤ x → x ≤ 1 → -M ≤ G x ∧ G x ≤ 0)
    (ds : List Nat) (n : Nat) (X : List Nat → Ieee A) (label : List Nat → Nat) {b z : List (Ieee A)}
    (hb : b.length = (ds ++ [n]).prod) (hz : z.length = ds.prod) :
    ∃ V : List Nat → EReal,
      (do let y ← Ops.softmax (lift E) (num e) (ds ++ [n]) (ds ++ [n]) (.ext (tab (ds ++ [n]) X).data) 0 b
          Ops.xentropy (lift G) ds
            (tab (ds ++ [n]) fun idx => if idx.getLastD 0 = label idx.dropLast then (1 : Ieee A) else 0)
            ⟨ds ++ [n], y⟩ z) =
        .ok (tab ds fun p => (num (V p) : Ieee A)).data ∧
      ∀ p, Valid ds p → 0 ≤ V p ∧ V p ≤ M := by
  classical
  obtain ⟨Z, hs, hZ⟩ := C94_softmax_range (A := A) E0 hE he ds n X (z := 0) (m := b) (by omega)
  have key : ∀ p, ∃ v, Valid ds p →
      -(seqSum n fun j => (if j = label p then (1 : Ieee A) else 0) * num (G (Z (p ++ [j])))) = num v ∧ 0 ≤ v ∧ v ≤ M := by
    intro p
    by_cases hp : Valid ds p
    · obtain ⟨v, h, h1, h2, _⟩ := onehot_sum (A := A) hM0 hMt hMr (n := n) (l := label p)
        (L := fun j => G (Z (p ++ [j]))) (fun j hj => by
          obtain ⟨a, c⟩ := hZ (p ++ [j]) (valid_append hp ⟨hj, trivial⟩)
          exact hG _ a c)
      refine ⟨-v, fun _ => ⟨?_, ?_, ?_⟩⟩
      · rw [h, neg_num]
      · rw [EReal.le_neg]; simpa using h2
      · rw [EReal.neg_le]; exact h1
    · exact ⟨0, fun h => absurd h hp⟩
  choose V hV using key
  refine ⟨V, ?_, fun p hp => (hV p hp).2⟩
  rw [hs, Outcome.ok_bind, store_all (by simp [hb])]
  refine (C54_order (lift G) ds n (fun idx => if idx.getLastD 0 = label idx.dropLast then (1 : Ieee A) else 0)
    (fun idx => num (Z idx)) hz).trans ?_
  refine congrArg (fun t => Outcome.ok (Tensor.data t)) (tab_congr fun p hp => ?_)
  rw [← (hV p hp).1]
  simp only [List.dropLast_concat, List.getLastD_concat]
  rfl

/-- Non-vacuity of C95: for `eps = 10⁻⁶` the logarithm is between `-20` and 0. -/
example : (0 : EReal) ≤ (20 : ℝ) ∧ ((20 : ℝ) : EReal) ≠ ⊤ ∧ exactArith.rnd (-(20 : ℝ)) = -((20 : ℝ) : EReal) ∧
    ((1 / 1000000 : ℝ) : EReal) ≤ 1 ∧ ∀ x : EReal, (1 / 1000000 : ℝ) ≤ x → x ≤ 1 →
      -((20 : ℝ) : EReal) ≤ (Real.log x.toReal : ℝ) ∧ ((Real.log x.toReal : ℝ) : EReal) ≤ 0 := by
  refine ⟨by exact_mod_cast (by norm_num : (0 : ℝ) ≤ 20), EReal.coe_ne_top _, rfl,
    by exact_mod_cast (by norm_num : (1 / 1000000 : ℝ) ≤ 1), fun x h1 h2 => ?_⟩
  induction x with
  | bot => exact absurd h1 (by simp)
  | top => exact absurd h2 (by decide)
  | coe r =>
    have r1 : 1 / 1000000 ≤ r := by exact_mod_cast h1
    have r2 : r ≤ 1 := by exact_mod_cast h2
    rw [EReal.toReal_coe]
    have l1 : -20 ≤ Real.log r := by
      rw [Real.le_log_iff_exp_le (by linarith)]
      refine le_trans ?_ r1
      have h := Real.add_one_le_exp (1 : ℝ)
      have : Real.exp (-20) = (Real.exp 1)⁻¹ ^ 20 := by
        rw [← Real.exp_neg, ← Real.exp_nat_mul]; norm_num
      rw [this]
      calc (Real.exp 1)⁻¹ ^ 20 ≤ (2 : ℝ)⁻¹ ^ 20 := by
            apply pow_le_pow_left₀ (by positivity)
            exact inv_anti₀ (by norm_num) (by linarith)
        _ ≤ 1 / 1000000 := by norm_num
    have l2 : Real.log r ≤ 0 := Real.log_nonpos (by linarith) r2
    exact ⟨by exact_mod_cast l1, by exact_mod_cast l2⟩

/-! ## C96: relu, max pooling and argmax -/

/-- C96: relu maps NaN to 0 and every number to the greater of it and 0: its output is never NaN and never negative. -/
theorem C96_relu (x : List (Ieee A)) {b : List (Ieee A)} (hb : b.length = x.length) :
    ∃ r : Ieee A → EReal, Ops.relu x.length (.ext x) 0 b = .ok (x.map fun a => num (r a)) ∧
      r nan = 0 ∧ ∀ a, r (num a) = max a 0 := by
  classical
  refine ⟨fun a => match a with | nan => 0 | num a => max a 0, ?_, rfl, fun a => rfl⟩
  rw [C21_relu (ext_holds x b 0) (by omega), store_all (by simp [hb])]
  refine congrArg Outcome.ok (List.map_congr_left fun a _ => ?_)
  cases a with
  | nan => rw [if_neg (not_lt_nan _)]; rfl
  | num a =>
    show (if (num 0 : Ieee A) < num a then num a else num 0) = num (max a 0)
    by_cases c : (num 0 : Ieee A) < num a
    · rw [if_pos c, max_eq_left (num_lt.1 c).le]
    · rw [if_neg c, max_eq_right (not_lt.1 fun h => c (num_lt.2 h))]

theorem fold_max_nan (l : List (Ieee A)) (s : EReal) :
    ∃ m, l.foldl (fun v x => if x > v then x else v) (num s) = num m ∧ s ≤ m ∧ (∀ x, num x ∈ l → x ≤ m) ∧
      (m = s ∨ num m ∈ l) := by
  induction l generalizing s with
  | nil => exact ⟨s, rfl, le_rfl, by simp, Or.inl rfl⟩
  | cons a l ih =>
    cases a with
    | nan =>
      obtain ⟨m, h1, h2, h3, h4⟩ := ih s
      refine ⟨m, ?_, h2, fun x hx => ?_, ?_⟩
      · rw [List.foldl_cons, if_neg (not_lt_nan _)]; exact h1
      · rcases List.mem_cons.1 hx with h | h
        · cases h
        · exact h3 x h
      · exact h4.imp id (List.mem_cons_of_mem _)
    | num a =>
      by_cases c : s < a
      · obtain ⟨m, h1, h2, h3, h4⟩ := ih a
        refine ⟨m, ?_, le_trans c.le h2, fun x hx => ?_, ?_⟩
        · rw [List.foldl_cons, if_pos (num_lt.2 c)]; exact h1
        · rcases List.mem_cons.1 hx with h | h
          · cases h; exact h2
          · exact h3 x h
        · rcases h4 with rfl | h4
          · exact Or.inr List.mem_cons_self
          · exact Or.inr (List.mem_cons_of_mem _ h4)
      · obtain ⟨m, h1, h2, h3, h4⟩ := ih s
        refine ⟨m, ?_, h2, fun x hx => ?_, ?_⟩
        · rw [List.foldl_cons, if_neg (fun h => c (num_lt.1 h))]; exact h1
        · rcases List.mem_cons.1 hx with h | h
          · cases h; exact le_trans (not_lt.1 c) h2
          · exact h3 x h
        · exact h4.imp id (List.mem_cons_of_mem _)

/-- C96: max pooling ignores NaN pixels: every output is a number, namely the greatest of `lowest` and the pixels of the
window that are numbers. A window all of whose pixels are NaN or minus infinity gives `lowest`. -/
theorem C96_max_pool (lowest : EReal) {H W : Axis} (hH : AxisOK u32 H) (hW : AxisOK u32 W) {c : Nat}
    (X : Nat → Nat → Nat → Ieee A) {y : List (Ieee A)} (hy : y.length = [H.m, W.m, c].prod) :
    ∃ Z : Nat → Nat → Nat → EReal,
      Kernels.poolHwc (Acc.max (num lowest)) (poolTrait H W) [H.m, W.m, c] (tab [H.n, W.n, c] (fn3 X)) y =
        .ok (tab [H.m, W.m, c] (fn3 fun i j k => (num (Z i j k) : Ieee A))).data ∧
      ∀ i j k, lowest ≤ Z i j k ∧ (∀ a b v, Under H W i j a b → X a b k = num v → v ≤ Z i j k) ∧
        (Z i j k = lowest ∨ ∃ a b, Under H W i j a b ∧ X a b k = num (Z i j k)) := by
  choose Z hZ using fun i j k => fold_max_nan (pixels H W (fun a b => X a b k) i j) lowest
  refine ⟨Z, Kernels.poolHwc_run hH hW _ X _ (fun i _ j _ k _ => ?_) hy, fun i j k => ?_⟩
  · rw [max_run, (hZ i j k).1]
  · obtain ⟨_, h2, h3, h4⟩ := hZ i j k
    refine ⟨h2, fun a b v hu hv => h3 v (mem_pixels.2 ⟨a, b, hu, hv.symm⟩), h4.imp id fun h => ?_⟩
    obtain ⟨a, b, hu, e⟩ := mem_pixels.1 h
    exact ⟨a, b, hu, e.symm⟩

/-- C96 (images without channels, the kernel of `nchw`). -/
theorem C96_max_pool_hw (lowest : EReal) {H W : Axis} (hH : AxisOK u32 H) (hW : AxisOK u32 W)
    (X : Nat → Nat → Ieee A) {y : List (Ieee A)} (hy : y.length = [H.m, W.m].prod) :
    ∃ Z : Nat → Nat → EReal,
      Kernels.poolHw (Acc.max (num lowest)) (poolTrait H W) [H.m, W.m] (tab [H.n, W.n] (fn2 X)) y =
        .ok (tab [H.m, W.m] (fn2 fun i j => (num (Z i j) : Ieee A))).data ∧
      ∀ i j, lowest ≤ Z i j ∧ (∀ a b v, Under H W i j a b → X a b = num v → v ≤ Z i j) ∧
        (Z i j = lowest ∨ ∃ a b, Under H W i j a b ∧ X a b = num (Z i j)) := by
  choose Z hZ using fun i j => fold_max_nan (pixels H W X i j) lowest
  refine ⟨Z, Kernels.poolHw_run hH hW _ X _ (fun i _ j _ => ?_) hy, fun i j => ?_⟩
  · rw [max_run, (hZ i j).1]
  · obtain ⟨_, h2, h3, h4⟩ := hZ i j
    refine ⟨h2, fun a b v hu hv => h3 v (mem_pixels.2 ⟨a, b, hu, hv.symm⟩), h4.imp id fun h => ?_⟩
    obtain ⟨a, b, hu, e⟩ := mem_pixels.1 h
    exact ⟨a, b, hu, e.symm⟩

theorem maxElementFrom_nan (t : List (Ieee A)) (i best : Nat) : maxElementFrom i best nan t = best := by
  induction t generalizing i with
  | nil => rfl
  | cons b t ih => rw [maxElementFrom, if_neg (not_nan_lt _), ih]

theorem maxElementFrom_num (t : List (Ieee A)) : ∀ (pre : List (Ieee A)) (best : Nat) (v : EReal),
    pre[best]? = some (num v) → (∀ (j : Nat) w, pre[j]? = some (num w) → w ≤ v) →
    (∀ (j : Nat) w, j < best → pre[j]? = some (num w) → w < v) →
    ∃ v', (pre ++ t)[maxElementFrom pre.length best (num v) t]? = some (num v') ∧
      (∀ (j : Nat) w, (pre ++ t)[j]? = some (num w) → w ≤ v') ∧
      ∀ (j : Nat) w, j < maxElementFrom pre.length best (num v) t → (pre ++ t)[j]? = some (num w) → w < v' := by
  induction t with
  | nil => intro pre best v h1 h2 h3; exact ⟨v, by simpa [maxElementFrom] using h1, by simpa using h2,
      by simpa [maxElementFrom] using h3⟩
  | cons b t ih =>
    intro pre best v hb hle hlt
    have hbl : best < pre.length := (List.getElem?_eq_some_iff.1 hb).1
    have hlast : ∀ (j : Nat) w, (pre ++ [b])[j]? = some w → pre[j]? = some w ∨ (j = pre.length ∧ b = w) := by
      intro j w h
      rw [List.getElem?_append] at h
      split at h
      · exact Or.inl h
      · have hj : j - pre.length = 0 := by
          by_contra hne
          rw [List.getElem?_singleton, if_neg hne] at h
          cases h
        rw [hj] at h
        simp at h
        exact Or.inr ⟨by omega, h⟩
    have e : pre ++ b :: t = pre ++ [b] ++ t := by simp
    have el : pre.length + 1 = (pre ++ [b]).length := by simp
    rw [e, maxElementFrom, el]
    by_cases c : num v < b
    · rw [if_pos c]
      cases b with
      | nan => exact absurd c (not_lt_nan _)
      | num w0 =>
        have c' : v < w0 := num_lt.1 c
        refine ih (pre ++ [num w0]) pre.length w0 (by simp) (fun j w h => ?_) (fun j w hj h => ?_)
        · rcases hlast j _ h with h | ⟨_, h⟩
          · exact (lt_of_le_of_lt (hle j w h) c').le
          · cases h; exact le_rfl
        · rcases hlast j _ h with h | ⟨h1, _⟩
          · exact lt_of_le_of_lt (hle j w h) c'
          · omega
    · rw [if_neg c]
      refine ih (pre ++ [b]) best v (by rw [List.getElem?_append_left hbl]; exact hb) (fun j w h => ?_)
        (fun j w hj h => ?_)
      · rcases hlast j _ h with h | ⟨_, rfl⟩
        · exact hle j w h
        · exact not_lt.1 fun h => c (num_lt.2 h)
      · rcases hlast j _ h with h | ⟨h1, _⟩
        · exact hlt j w hj h
        · omega

/-- C96: a row that begins with a number has its argmax at the first position of the greatest of its numbers (NaN entries
are passed over), but a row that begins with NaN has argmax 0, whatever follows. -/
theorem C96_argmax (t : IntTy) {rows n : Nat} (hn : 1 ≤ n) (X : Nat → Nat → Ieee A) {y : List Int} (hy : y.length = rows) :
    ∃ a : Nat → Nat,
      Kernels.argmax t n (tab [rows, n] (fn2 X)).data y = .ok ((List.range rows).map fun i => t.conv (a i)) ∧
      ∀ i < rows, a i < n ∧ (X i 0 = nan → a i = 0) ∧
        (X i 0 ≠ nan → ∃ v, X i (a i) = num v ∧ ∀ j < n, ∀ w, X i j = num w → w ≤ v ∧ (j < a i → w < v)) := by
  refine ⟨fun i => maxElement (tab [n] (fn1 (X i))).data, ?_, fun i hi => ?_⟩
  · unfold Kernels.argmax
    rw [← run_storeFlat (val := fun i => t.conv (maxElement (tab [n] (fn1 (X i))).data)) hy, hy]
    refine forRange_congr (fun i hi s => ?_) y
    rw [rowOf_tab X hi, Outcome.ok_bind]
  · have hl : (tab [n] (fn1 (X i))).data.length = n := by simp
    have hg : ∀ j < n, (tab [n] (fn1 (X i))).data[j]? = some (X i j) := by
      intro j hj
      have := tab_getElem? (fn1 (X i)) (v1 hj)
      have e1 : offset [n] [j] = j := by simp
      rw [e1] at this
      exact this
    have h0 := hg 0 (by omega)
    dsimp only
    generalize (tab [n] (fn1 (X i))).data = l at hl hg h0 ⊢
    match l, h0 with
    | a :: t, h0 =>
      have ha : a = X i 0 := by simpa using h0
      subst ha
      cases hx : X i 0 with
      | nan =>
        have : maxElement (nan :: t : List (Ieee A)) = 0 := maxElementFrom_nan t 1 0
        rw [this]
        exact ⟨by omega, fun _ => rfl, fun h => absurd rfl h⟩
      | num v0 =>
        rw [hx] at hl hg
        obtain ⟨v, h1, h2, h3⟩ := maxElementFrom_num t [num v0] 0 v0 rfl
          (fun j w h => by
            rw [List.getElem?_singleton] at h
            split at h
            · cases h; exact le_rfl
            · cases h)
          (fun j w h => by omega)
        have e : maxElementFrom [(num v0 : Ieee A)].length 0 (num v0) t = maxElement (num v0 :: t) := rfl
        rw [e] at h1 h3
        have hlt : maxElement (num v0 :: t : List (Ieee A)) < n := by
          rw [← hl]; exact (List.getElem?_eq_some_iff.1 h1).1
        refine ⟨hlt, fun h => (by cases h), fun _ => ⟨v, ?_, fun j hj w hw => ⟨?_, fun hja => ?_⟩⟩⟩
        · have := hg _ hlt
          rw [List.singleton_append] at h1
          rw [h1] at this
          exact (Option.some.inj this).symm
        · exact h2 j w (by rw [List.singleton_append, hg j hj, hw])
        · exact h3 j w hja (by rw [List.singleton_append, hg j hj, hw])

/-- Non-vacuity of C96: a 4 × 3 image and padded windows; a row (NaN, 7) has argmax 0, a row (1, NaN) too. -/
example : AxisOK u32 exP ∧ AxisOK u32 exQ ∧
    maxElement [(nan : Ieee exactArith), num 7] = 0 ∧ maxElement [(num 1 : Ieee exactArith), nan, num 2] = 2 := by
  refine ⟨exP_ok, exQ_ok, maxElementFrom_nan _ 1 0, ?_⟩
  show maxElementFrom 1 0 _ _ = _
  rw [maxElementFrom, if_neg (not_lt_nan _), maxElementFrom, if_pos (num_lt.2 (by norm_num)), maxElementFrom]

/-! ## Concrete cases

The exact arithmetic of the extended reals with NaN, and an image with NaNs. -/

theorem exExp_nonneg (x : EReal) : 0 ≤ expE x := by
  induction x with
  | bot => exact le_rfl
  | top => exact le_top
  | coe r => exact EReal.coe_nonneg.2 (Real.exp_pos r).le
theorem exExp_zero : expE 0 = 1 := by
  show ((Real.exp 0 : ℝ) : EReal) = 1
  rw [Real.exp_zero]; rfl
theorem exEps : (0 : EReal) ≤ (1 / 1000000 : ℝ) ∧ ((1 / 1000000 : ℝ) : EReal) ≤ 1 :=
  ⟨by exact_mod_cast (by norm_num : (0 : ℝ) ≤ 1 / 1000000), by exact_mod_cast (by norm_num : (1 / 1000000 : ℝ) ≤ 1)⟩

example := C94_softmax_range (A := exactArith) exExp_zero exExp_nonneg exEps.2 [2] 3
  (fun i => if i = [0, 1] then nan else num 2) (z := 0) (m := List.replicate 6 nan) (by decide)
example := C94_softmax_masks (A := exactArith) exExp_nonneg rfl exEps.1 [2] 3
  (fun i => if i = [0, 1] then nan else num 2) (z := 0) (m := List.replicate 6 nan) (by decide)
example := C95_loss_finite (A := exactArith) (G := fun _ => 0) exExp_zero exExp_nonneg exEps.2 (M := 0) le_rfl
  EReal.zero_ne_top rfl (fun _ _ _ => ⟨neg_zero.le, le_rfl⟩) [2] 3
  (fun i => if i = [0, 1] then nan else num 2) (fun p => p.headD 0) (b := List.replicate 6 nan) (z := List.replicate 2 nan) rfl rfl
example := C96_max_pool (A := exactArith) ⊥ exP_ok exQ_ok (c := 2) (fun i j _ => if i = j then nan else num 2)
  (y := List.replicate 12 nan) rfl
example := C96_max_pool_hw (A := exactArith) ⊥ exP_ok exQ_ok (fun i j => if i = j then nan else num 2)
  (y := List.replicate 6 nan) rfl
example := C96_argmax (A := exactArith) i32 (rows := 2) (n := 3) (by decide) (fun i j => if i = j then nan else num 2)
  (y := [0, 0]) rfl

end StdNN
