import Verif.Model.Utility
import Verif.Lemmas.Engine
import Verif.Lemmas.Im2col
import Verif.Lemmas.IntTy
import Mathlib.Order.MinMax
import Mathlib.Data.List.Sort
import Mathlib.Data.Prod.Lex
import Mathlib.Algebra.Order.Field.Basic
import Mathlib.Analysis.Real.Sqrt
/-!
# C56-C59: onehot, argmax, top, similarity
-/
namespace StdNN
open Spec Outcome Finset
variable {R : Type}

/-- Conversion keeps representable values, whatever the width of the type. -/
theorem conv_small {t : IntTy} (ht : 1 ≤ t.bits) {v : Int} (h : t.In v) : t.conv v = v := by
  have h2 := IntTy.two_pow_split (n := t.bits) (by omega)
  unfold IntTy.In IntTy.lo IntTy.hi at h
  unfold IntTy.conv
  by_cases hs : t.signed
  · simp only [hs, if_true] at h ⊢
    rw [Int.bmod_eq_of_le]
    · push_cast; omega
    · push_cast; omega
  · simp only [hs] at h ⊢
    exact Int.emod_eq_of_lt h.1 h.2

/-- Conversion never increases a non-negative value. -/
theorem conv_le (t : IntTy) {v : Int} (h : 0 ≤ v) : t.conv v ≤ v := by
  have h1 : ∀ m : Int, 0 ≤ m → v % m ≤ v := fun m hm => by
    have := mul_nonneg hm (Int.ediv_nonneg h hm)
    have := Int.emod_add_mul_ediv v m
    omega
  unfold IntTy.conv
  split
  · have := h1 ((2 ^ t.bits : Nat) : Int) (by positivity)
    unfold Int.bmod
    simp only
    split
    · exact this
    · have : (0 : Int) ≤ ((2 ^ t.bits : Nat) : Int) := by positivity
      omega
  · exact h1 _ (by positivity)

/-! ## C56 -/

/-- What `onehot` writes, for any label type and number of columns: `k` is the number of columns converted to the label
type. -/
theorem C56_effect [Zero R] [One R] (t : IntTy) {cols : Nat} (x : List Int) {y : List R}
    (hy : y.length = x.length * cols) :
    Kernels.onehot t cols x y =
      .ok (tab [x.length, cols] (fn2 fun i j => if x[i]? = some (j : Int) ∧ (j : Int) < t.conv cols then 1 else 0)).data := by
  have hk : t.conv cols ≤ cols := conv_le t (by omega)
  unfold Kernels.onehot fillAll
  rw [Outcome.ok_bind]
  let T : Nat → List R := fun q => (tab [x.length, cols] (fn2 fun i j =>
    if i < q ∧ x[i]? = some (j : Int) ∧ (j : Int) < t.conv cols then 1 else 0)).data
  have h0 : List.map (fun _ => (0 : R)) y = T 0 := by
    refine data_eq_tab (by simp [hy]) fun idx hv => ?_
    match idx, hv with
    | [i, j], hv =>
      have := offset_lt hv
      have hl : offset [x.length, cols] [i, j] < y.length := by simp at this ⊢; omega
      rw [List.getElem?_map, List.getElem?_eq_getElem hl]
      simp
  obtain ⟨s, e, hs⟩ := forRange_inv (n := x.length) (body := fun i y => do
      let j ← rd x i
      if 0 ≤ j ∧ j < t.conv cols then wr y (i * cols + j.toNat) 1 else return y) (fun q s => s = T q)
    (fun i hi s hs => by
      subst hs
      have hrd : rd x i = .ok x[i] := by simp [rd, hi]
      simp only [hrd, Outcome.ok_bind]
      by_cases c : 0 ≤ x[i] ∧ x[i] < t.conv cols
      · rw [if_pos c]
        obtain ⟨j0, hj0⟩ : ∃ j0 : Nat, x[i] = j0 := ⟨x[i].toNat, by omega⟩
        have hj : j0 < cols := by omega
        have hlt := offset_lt (v2 hi hj)
        have eo : offset [x.length, cols] [i, j0] = i * cols + (x[i]).toNat := by simp [hj0]
        rw [← eo]
        refine ⟨(T i).set (offset [x.length, cols] [i, j0]) 1, ?_, ?_⟩
        · unfold wr
          rw [if_pos (by simpa [T] using hlt)]
        · refine data_eq_tab (by simp [T]) fun idx hv => ?_
          match idx, hv with
          | [a, b], hv =>
            rw [List.getElem?_set]
            by_cases e : offset [x.length, cols] [i, j0] = offset [x.length, cols] [a, b]
            · have := offset_inj (v2 hi hj) hv e
              injection this with e1 e2
              injection e2 with e2 _
              subst e1 e2
              have hq : (j0 : Int) < t.conv cols := by omega
              rw [if_pos rfl, if_pos (by simpa [T] using hlt)]
              simp [hi, hj0, hq]
            · rw [if_neg e]
              have := tab_getElem? (fn2 fun i_1 j => if i_1 < i ∧ x[i_1]? = some (j : Int) ∧ (j : Int) < t.conv cols
                then (1 : R) else 0) hv
              rw [show (T i)[offset [x.length, cols] [a, b]]? = _ from this]
              simp only [fn2_apply]
              congr 1
              by_cases ea : a = i
              · subst ea
                have : j0 ≠ b := fun h => e (by rw [h])
                rw [if_neg (by omega), if_neg]
                rintro ⟨_, h1, _⟩
                rw [List.getElem?_eq_getElem hi, hj0] at h1
                simp at h1
                exact this h1
              · have : a < i ↔ a < i + 1 := by omega
                simp only [this]
      · rw [if_neg c]
        refine ⟨T i, rfl, ?_⟩
        refine congrArg Tensor.data (tab_congr fun idx hv => ?_)
        match idx, hv with
        | [a, b], hv =>
          simp only [fn2_apply]
          by_cases ea : a = i
          · subst ea
            rw [if_neg (by omega), if_neg]
            rintro ⟨_, h1, h2⟩
            rw [List.getElem?_eq_getElem hi] at h1
            simp at h1
            omega
          · have : a < i ↔ a < i + 1 := by omega
            simp only [this]) rfl
  rw [h0, e, hs]
  refine congrArg (fun t => Outcome.ok (Tensor.data t)) (tab_congr fun idx hv => ?_)
  match idx, hv with
  | [a, b], hv =>
    have : a < x.length := hv.1
    simp [this]

/-- C56: if the number of columns is representable in the label type, cell `(i, j)` is one exactly if `j` is the label of
row `i`; a row with a label out of range is zero. -/
theorem C56_onehot [Zero R] [One R] (t : IntTy) (ht : 1 ≤ t.bits) {cols : Nat} (hc : t.In cols) (x : List Int) {y : List R}
    (hy : y.length = x.length * cols) :
    Kernels.onehot t cols x y =
      .ok (tab [x.length, cols] (fn2 fun i j => if x[i]? = some (j : Int) then 1 else 0)).data := by
  rw [C56_effect t x hy, conv_small ht hc]
  refine congrArg (fun t => Outcome.ok (Tensor.data t)) (tab_congr fun idx hv => ?_)
  match idx, hv with
  | [a, b], hv =>
    have : b < cols := hv.2.1
    simp [this]

/-- C56 needs the hypothesis: with `uint8_t` labels and 256 classes every row is zero, whatever the labels. -/
theorem C56_narrowing [Zero R] [One R] (x : List Int) {y : List R} (hy : y.length = x.length * 256) :
    Kernels.onehot ⟨false, 8⟩ 256 x y = .ok (List.replicate (x.length * 256) 0) := by
  rw [C56_effect _ x hy]
  have hk : IntTy.conv ⟨false, 8⟩ (256 : Nat) = 0 := by decide
  rw [hk]
  congr 1
  apply List.ext_getElem
  · simp
  · intro p h1 h2
    rw [tab_getElem]
    simp [unravel]
    intro _ h
    omega

/-- Non-vacuity: labels in and out of range. -/
example : Kernels.onehot IntTy.u32 3 [2, 5, -1, 0] (List.replicate 12 (7 : Int)) =
    .ok [0, 0, 1, 0, 0, 0, 0, 0, 0, 1, 0, 0] ∧ IntTy.u32.In 3 := by decide

/-! ## C57 -/

theorem maxElementFrom_spec [LinearOrder R] (t pre : List R) (best : Nat) (v : R) (hb : pre[best]? = some v)
    (hle : ∀ (j : Nat) w, pre[j]? = some w → w ≤ v) (hlt : ∀ (j : Nat) w, j < best → pre[j]? = some w → w < v) :
    ∃ v', (pre ++ t)[maxElementFrom pre.length best v t]? = some v' ∧ (∀ (j : Nat) w, (pre ++ t)[j]? = some w → w ≤ v') ∧
      ∀ (j : Nat) w, j < maxElementFrom pre.length best v t → (pre ++ t)[j]? = some w → w < v' := by
  induction t generalizing pre best v with
  | nil => simpa [maxElementFrom] using ⟨v, hb, hle, hlt⟩
  | cons b t ih =>
    have hlast : ∀ (j : Nat) w, (pre ++ [b])[j]? = some w → pre[j]? = some w ∨ (j = pre.length ∧ w = b) := by
      intro j w h
      rw [List.getElem?_append] at h
      split at h
      · exact .inl h
      · right
        rw [List.getElem?_singleton] at h
        split at h
        · exact ⟨by omega, by simpa using h.symm⟩
        · cases h
    have hbl : best < pre.length := by
      by_contra h
      rw [List.getElem?_eq_none (by omega)] at hb
      cases hb
    have e : pre ++ b :: t = (pre ++ [b]) ++ t := by simp
    have el : pre.length + 1 = (pre ++ [b]).length := by simp
    unfold maxElementFrom
    rw [e, el]
    by_cases c : v < b
    · rw [if_pos c]
      refine ih (pre ++ [b]) pre.length b (by simp) (fun j w h => ?_) (fun j w hj h => ?_)
      · rcases hlast j w h with h | ⟨_, rfl⟩
        · exact (hle j w h).trans c.le
        · exact le_rfl
      · rcases hlast j w h with h | ⟨h1, _⟩
        · exact lt_of_le_of_lt (hle j w h) c
        · omega
    · rw [if_neg c]
      refine ih (pre ++ [b]) best v (by rw [List.getElem?_append_left hbl]; exact hb) (fun j w h => ?_)
        (fun j w hj h => ?_)
      · rcases hlast j w h with h | ⟨_, rfl⟩
        · exact hle j w h
        · exact not_lt.1 c
      · rcases hlast j w h with h | ⟨h1, _⟩
        · exact hlt j w hj h
        · omega

theorem maxElement_spec [LinearOrder R] {x : List R} (hx : x ≠ []) :
    ∃ v, x[maxElement x]? = some v ∧ (∀ (j : Nat) w, x[j]? = some w → w ≤ v) ∧
      ∀ (j : Nat) w, j < maxElement x → x[j]? = some w → w < v := by
  match x, hx with
  | a :: t, _ =>
    have := maxElementFrom_spec t [a] 0 a rfl (fun j w h => ?_) (fun j w h => by omega)
    · simpa [maxElement] using this
    · rw [List.getElem?_singleton] at h
      split at h
      · simp at h; exact h.symm.le
      · cases h

theorem rowOf_tab [Zero R] {rows n i : Nat} (X : Nat → Nat → R) (hi : i < rows) :
    rowOf n (tab [rows, n] (fn2 X)).data i = .ok (tab [n] (fn1 (X i))).data := by
  have hle : i * n + n ≤ rows * n := by
    calc i * n + n = (i + 1) * n := by ring
      _ ≤ rows * n := Nat.mul_le_mul_right n hi
  unfold rowOf
  rw [if_pos (by simpa using hle)]
  congr 1
  refine data_eq_tab (by simp; omega) fun idx hv => ?_
  match idx, hv with
  | [j], hv =>
    have hj : j < n := hv.1
    have := tab_getElem? (fn2 X) (v2 hi hj)
    have e : offset [rows, n] [i, j] = i * n + j := by simp
    rw [e] at this
    have e1 : offset [n] [j] = j := by simp
    rw [e1, List.getElem?_take_of_lt hj, List.getElem?_drop, this]
    rfl

/-- C57: `argmax` writes for every row the first position of its maximum, converted to the type of the output. -/
theorem C57_argmax [LinearOrder R] [Zero R] (t : IntTy) {rows n : Nat} (hn : 1 ≤ n) (X : Nat → Nat → R) {y : List Int}
    (hy : y.length = rows) :
    ∃ a : Nat → Nat, Kernels.argmax t n (tab [rows, n] (fn2 X)).data y = .ok ((List.range rows).map fun i => t.conv (a i)) ∧
      ∀ i < rows, a i < n ∧ (∀ j < n, X i j ≤ X i (a i)) ∧ ∀ j < a i, X i j < X i (a i) := by
  refine ⟨fun i => maxElement (tab [n] (fn1 (X i))).data, ?_, fun i hi => ?_⟩
  · unfold Kernels.argmax
    rw [← run_storeFlat (val := fun i => t.conv (maxElement (tab [n] (fn1 (X i))).data)) hy, hy]
    refine forRange_congr (fun i hi s => ?_) y
    rw [rowOf_tab X hi, Outcome.ok_bind]
  · have hx : (tab [n] (fn1 (X i))).data ≠ [] := by
      intro h
      have := congrArg List.length h
      simp at this
      omega
    have hg : ∀ j < n, (tab [n] (fn1 (X i))).data[j]? = some (X i j) := by
      intro j hj
      have := tab_getElem? (fn1 (X i)) (v1 hj)
      have e1 : offset [n] [j] = j := by simp
      rw [e1] at this
      exact this
    obtain ⟨v, h1, h2, h3⟩ := maxElement_spec hx
    have hlt : maxElement (tab [n] (fn1 (X i))).data < n := by
      have := (List.getElem?_eq_some_iff.1 h1).1
      simpa using this
    rw [hg _ hlt] at h1
    injection h1 with h1
    subst h1
    exact ⟨hlt, fun j hj => h2 j _ (hg j hj), fun j hj => h3 j _ hj (hg j (lt_trans hj hlt))⟩

/-- C57: `argmax` inverts `onehot` on labels in range. -/
theorem C57_inverse [LinearOrder R] [Zero R] [One R] (h01 : (0 : R) < 1) (t : IntTy) (ht : 1 ≤ t.bits) {k : Nat}
    (hk : t.In k) (x : List Int) (hx : ∀ l ∈ x, 0 ≤ l ∧ l < k) {y : List R} (hy : y.length = x.length * k) {z : List Int}
    (hz : z.length = x.length) :
    (do let o ← Kernels.onehot t k x y
        Kernels.argmax t k o z) = .ok x := by
  rw [C56_onehot t ht hk x hy, Outcome.ok_bind]
  rcases x.eq_nil_or_concat with rfl | _
  · simp at hz
    subst hz
    rfl
  have hk1 : 1 ≤ k := by
    rename_i h
    obtain ⟨l, b, rfl⟩ := h
    have := hx b (by simp)
    omega
  obtain ⟨a, ha, hs⟩ := C57_argmax t hk1 (fun i j => if x[i]? = some (j : Int) then (1 : R) else 0) hz
  refine ha.trans (congrArg Outcome.ok ?_)
  apply List.ext_getElem
  · simp
  · intro i h1 h2
    have hr := hx x[i] (List.getElem_mem h2)
    obtain ⟨h3, h4, -⟩ := hs i h2
    have h5 := h4 (x[i]).toNat (by omega)
    have e : (((x[i]).toNat : Nat) : Int) = x[i] := by omega
    simp only [List.getElem?_eq_getElem h2, e, if_true] at h5
    split at h5
    · rename_i h6
      simp at h6
      rw [List.getElem_map, List.getElem_range, ← h6]
      exact conv_small ht (hk.mono hr.1 hr.2.le)
    · exact absurd h5 (not_le.2 h01)

/-- Non-vacuity: the second of two equal maxima is not chosen; three labels in range. -/
example : Kernels.argmax IntTy.u32 3 [1, 5, 5, 2, 1, 0] [9, 9] = .ok [1, 0] ∧
    (∀ l ∈ [(2 : Int), 0, 1], 0 ≤ l ∧ l < (3 : Nat)) ∧ IntTy.u32.In (3 : Nat) := by decide

/-! ## C58 -/

/-- What the C++ standard promises about `std::sort` with `std::greater` on pairs: the result is a rearrangement of the input
in which no element is greater than an earlier one. -/
def IsSort [LinearOrder R] (sort : List (R × Int) → List (R × Int)) : Prop :=
  ∀ l, (sort l).Perm l ∧ (sort l).Pairwise fun a b => Kernels.greater b a = false

/-- Element `a` of `x` comes before element `b`: it is bigger, or equal and further to the right. -/
def Before [LinearOrder R] (x : List R) (a b : Nat) : Prop :=
  ∃ u v, x[a]? = some u ∧ x[b]? = some v ∧ (v < u ∨ v = u ∧ b < a)

theorem greater_iff [LinearOrder R] (a b : R × Int) :
    Kernels.greater a b = true ↔ b.1 < a.1 ∨ b.1 = a.1 ∧ b.2 < a.2 := by
  unfold Kernels.greater
  simp only [Bool.or_eq_true, Bool.and_eq_true, decide_eq_true_eq, Bool.not_eq_true', decide_eq_false_iff_not]
  constructor
  · rintro (h | ⟨h1, h2⟩)
    · exact .inl h
    · rcases lt_or_eq_of_le (not_lt.1 h1) with h | h
      · exact .inl h
      · exact .inr ⟨h, h2⟩
  · rintro (h | ⟨h1, h2⟩)
    · exact .inl h
    · exact .inr ⟨by rw [h1]; exact lt_irrefl _, h2⟩

theorem greater_total [LinearOrder R] {a b : R × Int} (h : Kernels.greater b a = false) (hne : a ≠ b) :
    Kernels.greater a b = true := by
  rw [greater_iff]
  have h' : ¬ (a.1 < b.1 ∨ a.1 = b.1 ∧ a.2 < b.2) := by
    rw [← greater_iff, h]
    simp
  rw [not_or] at h'
  rcases lt_or_eq_of_le (not_lt.1 h'.1) with c | c
  · exact .inl c
  · refine .inr ⟨c, ?_⟩
    have h2 : ¬ a.2 < b.2 := fun q => h'.2 ⟨c.symm, q⟩
    rcases lt_or_eq_of_le (not_lt.1 h2) with d | d
    · exact d
    · exact absurd (Prod.ext c.symm d.symm) hne

/-- There is such a sorting function. -/
theorem isSort_mergeSort [LinearOrder R] : IsSort (R := R) (fun l => l.mergeSort fun a b => !Kernels.greater b a) := by
  intro l
  refine ⟨List.mergeSort_perm l _, ?_⟩
  have := List.pairwise_mergeSort (le := fun a b : R × Int => !Kernels.greater b a) (fun a b c h1 h2 => ?_)
    (fun a b => ?_) l
  · exact this.imp fun h => by simpa using h
  · simp only [Bool.not_eq_true'] at h1 h2 ⊢
    by_contra hc
    rw [Bool.not_eq_false] at hc
    by_cases e : a = b
    · subst e; rw [h2] at hc; cases hc
    · by_cases e' : b = c
      · subst e'; rw [h1] at hc; cases hc
      · have g1 := (greater_iff _ _).1 (greater_total h1 e)
        have g2 := (greater_iff _ _).1 (greater_total h2 e')
        have g3 := (greater_iff _ _).1 hc
        rcases g1 with g1 | ⟨g1, g1'⟩ <;> rcases g2 with g2 | ⟨g2, g2'⟩ <;> rcases g3 with g3 | ⟨g3, g3'⟩
        · exact lt_irrefl _ (g1.trans (g3.trans g2))
        · exact lt_irrefl _ (g1.trans (g3 ▸ g2))
        · rw [g2] at g3; exact lt_irrefl _ (g1.trans g3)
        · rw [← g2, g3] at g1; exact lt_irrefl _ g1
        · rw [g1] at g2; exact lt_irrefl _ (g2.trans g3)
        · rw [g1, g3] at g2; exact lt_irrefl _ g2
        · rw [g2, g1] at g3; exact lt_irrefl _ g3
        · omega
  · by_cases e : a = b
    · subst e
      simp only [Bool.or_self, Bool.not_eq_true']
      by_contra hc
      rw [Bool.not_eq_false] at hc
      rcases (greater_iff _ _).1 hc with h | ⟨_, h⟩
      · exact lt_irrefl _ h
      · omega
    · by_cases h : Kernels.greater b a = false
      · simp [h]
      · rw [Bool.not_eq_false] at h
        have : Kernels.greater a b = false := by
          by_contra hc
          rw [Bool.not_eq_false] at hc
          rcases (greater_iff _ _).1 hc with g1 | ⟨g1, g1'⟩ <;> rcases (greater_iff _ _).1 h with g2 | ⟨g2, g2'⟩
          · exact lt_irrefl _ (g1.trans g2)
          · rw [g2] at g1; exact lt_irrefl _ g1
          · rw [g1] at g2; exact lt_irrefl _ g2
          · omega
        simp [this]

theorem mapM_ok {S T : Type} (f : S → Outcome T) (g : S → T) (l : List S) (h : ∀ a ∈ l, f a = .ok (g a)) :
    l.mapM f = .ok (l.map g) := by
  induction l with
  | nil => rfl
  | cons a l ih =>
    rw [List.mapM_cons, h a (by simp), Outcome.ok_bind, ih (fun b hb => h b (by simp [hb])), Outcome.ok_bind]
    rfl

/-- The loop at the end of `top`. -/
theorem top_store {n : Nat} {v : List (R × Int)} (hv : n ≤ v.length) {y : List R} {z : List Int} (hy : n ≤ y.length)
    (hz : n ≤ z.length) :
    ∃ y' z', forRange n (fun i (s : List R × List Int) => do
        let p ← rd v i
        let y ← wr s.1 i p.1
        let z ← wr s.2 i p.2
        return (y, z)) (y, z) = .ok (y', z') ∧ y'.length = y.length ∧ z'.length = z.length ∧
      (∀ i p, i < n → v[i]? = some p → y'[i]? = some p.1 ∧ z'[i]? = some p.2) ∧
      ∀ i, n ≤ i → y'[i]? = y[i]? ∧ z'[i]? = z[i]? := by
  obtain ⟨⟨y', z'⟩, e, h1, h2, h3, h4⟩ := forRange_inv (n := n) (body := fun i (s : List R × List Int) => do
        let p ← rd v i
        let y ← wr s.1 i p.1
        let z ← wr s.2 i p.2
        return (y, z)) (fun q s => s.1.length = y.length ∧ s.2.length = z.length ∧
          (∀ i p, i < q → v[i]? = some p → s.1[i]? = some p.1 ∧ s.2[i]? = some p.2) ∧
          ∀ i, q ≤ i → s.1[i]? = y[i]? ∧ s.2[i]? = z[i]?)
    (fun i hi s ⟨l1, l2, l3, l4⟩ => by
      have hiv : i < v.length := by omega
      have hr : rd v i = .ok v[i] := by simp [rd, hiv]
      refine ⟨(s.1.set i v[i].1, s.2.set i v[i].2), ?_, ?_, ?_, ?_, ?_⟩
      · rw [hr, Outcome.ok_bind]
        simp only [wr]
        rw [if_pos (by omega), Outcome.ok_bind, if_pos (by omega), Outcome.ok_bind]
        rfl
      · simpa using l1
      · simpa using l2
      · intro j p hj hp
        simp only [List.getElem?_set]
        by_cases e : i = j
        · subst e
          rw [List.getElem?_eq_getElem hiv] at hp
          injection hp with hp
          subst hp
          rw [if_pos rfl, if_pos (by omega), if_pos rfl, if_pos (by omega)]
          exact ⟨rfl, rfl⟩
        · rw [if_neg e, if_neg e]
          exact l3 j p (by omega) hp
      · intro j hj
        simp only [List.getElem?_set]
        rw [if_neg (by omega), if_neg (by omega)]
        exact l4 j (by omega)) (s := (y, z)) ⟨rfl, rfl, fun i p h => by omega, fun i _ => ⟨rfl, rfl⟩⟩
  exact ⟨y', z', e, h1, h2, h3, h4⟩

/-- The pairs built by `top`. -/
def pairs (x : List R) [Inhabited R] : List (R × Int) := (List.range x.length).map fun i => (x.getD i default, (i : Int))

theorem top_eq [Inhabited R] (t : IntTy) (ht : 1 ≤ t.bits) (sort : List (R × Int) → List (R × Int)) {x y : List R}
    {z : List Int} (hn : t.In x.length) (hk : t.In y.length) :
    Kernels.top t sort x y z = forRange (min x.length y.length) (fun i (s : List R × List Int) => do
        let p ← rd (sort (pairs x)) i
        let y ← wr s.1 i p.1
        let z ← wr s.2 i p.2
        return (y, z)) (y, z) := by
  unfold Kernels.top
  rw [conv_small ht hn, conv_small ht hk]
  have e : (min (x.length : Int) (y.length : Int)).toNat = min x.length y.length := by omega
  rw [if_neg (by omega), Int.toNat_natCast, mapM_ok _ (fun i => (x.getD i default, (i : Int)))]
  · simp only [Outcome.ok_bind]
    rw [if_neg (by omega), e]
    rfl
  · intro i hi
    have : i < x.length := by simpa using hi
    simp [rd, this, List.getD]

/-- C58: for every sorting function the library may use, `top` writes the first `min n k` elements of `x` in the order
"bigger first, equal ones from the right", with their indices, and leaves the rest of the outputs as it was: every
written element comes before every later one and before every element not written. -/
theorem C58_top [LinearOrder R] [Inhabited R] (t : IntTy) (ht : 1 ≤ t.bits) {sort : List (R × Int) → List (R × Int)}
    (hs : IsSort sort) {x y : List R} {z : List Int} (hn : t.In x.length) (hk : t.In y.length) (hz : z.length = y.length) :
    ∃ (σ : Nat → Nat) (y' : List R) (z' : List Int), Kernels.top t sort x y z = .ok (y', z') ∧
      y'.length = y.length ∧ z'.length = z.length ∧
      (∀ i < min x.length y.length, σ i < x.length ∧ y'[i]? = x[σ i]? ∧ z'[i]? = some (σ i : Int)) ∧
      (∀ i, min x.length y.length ≤ i → y'[i]? = y[i]? ∧ z'[i]? = z[i]?) ∧
      (∀ i j, i < j → j < min x.length y.length → Before x (σ i) (σ j)) ∧
      ∀ p < x.length, (∀ i < min x.length y.length, σ i ≠ p) → ∀ i < min x.length y.length, Before x (σ i) p := by
  obtain ⟨hp, hw⟩ := hs (pairs x)
  set s := sort (pairs x) with hsdef
  have hlen : s.length = x.length := by rw [hp.length_eq]; simp [pairs]
  have hmem : ∀ (i : Nat) q, s[i]? = some q → ∃ a : Nat, a < x.length ∧ q.2 = a ∧ x[a]? = some q.1 := by
    intro i q h
    have := hp.mem_iff.1 (List.mem_of_getElem? h)
    obtain ⟨a, ha, rfl⟩ := List.mem_map.1 this
    have : a < x.length := by simpa using ha
    exact ⟨a, this, rfl, by simp [this, List.getD]⟩
  have hnd : s.Nodup := by
    rw [hp.nodup_iff]
    refine List.Nodup.map_on (fun a _ b _ h => ?_) List.nodup_range
    injection h with _ h
    exact_mod_cast h
  have hord : ∀ (i j : Nat) p q, i < j → s[i]? = some p → s[j]? = some q → q.1 < p.1 ∨ q.1 = p.1 ∧ q.2 < p.2 := by
    intro i j p q hij hi hj
    obtain ⟨li, rfl⟩ := List.getElem?_eq_some_iff.1 hi
    obtain ⟨lj, rfl⟩ := List.getElem?_eq_some_iff.1 hj
    rw [← greater_iff]
    refine greater_total (List.pairwise_iff_getElem.1 hw i j li lj hij) fun h => ?_
    have := (List.Nodup.getElem_inj_iff hnd).1 h
    omega
  rw [top_eq t ht sort hn hk]
  obtain ⟨y', z', e, l1, l2, h3, h4⟩ := top_store (n := min x.length y.length) (v := s) (by omega) (y := y) (z := z)
    (by omega) (by omega)
  refine ⟨fun i => ((s.getD i default).2).toNat, y', z', e, l1, l2, fun i hi => ?_, h4, fun i j hij hj => ?_,
    fun p hpx hne i hi => ?_⟩
  · have li : i < s.length := by omega
    obtain ⟨a, ha, ea, xa⟩ := hmem i s[i] (List.getElem?_eq_getElem li)
    obtain ⟨g1, g2⟩ := h3 i s[i] hi (List.getElem?_eq_getElem li)
    have eq : (s.getD i default) = s[i] := by simp [List.getD, li]
    simp only [eq, ea, Int.toNat_natCast]
    exact ⟨ha, by rw [g1, xa], by rw [g2, ea]⟩
  · have li : i < s.length := by omega
    have lj : j < s.length := by omega
    obtain ⟨a, ha, ea, xa⟩ := hmem i s[i] (List.getElem?_eq_getElem li)
    obtain ⟨b, hb, eb, xb⟩ := hmem j s[j] (List.getElem?_eq_getElem lj)
    have ei : (s.getD i default) = s[i] := by simp [List.getD, li]
    have ej : (s.getD j default) = s[j] := by simp [List.getD, lj]
    simp only [ei, ej, ea, eb, Int.toNat_natCast]
    refine ⟨_, _, xa, xb, ?_⟩
    rcases hord i j _ _ hij (List.getElem?_eq_getElem li) (List.getElem?_eq_getElem lj) with h | ⟨h, h'⟩
    · exact .inl h
    · rw [ea, eb] at h'
      exact .inr ⟨h, by omega⟩
  · have li : i < s.length := by omega
    obtain ⟨a, ha, ea, xa⟩ := hmem i s[i] (List.getElem?_eq_getElem li)
    have ei : (s.getD i default) = s[i] := by simp [List.getD, li]
    have hin : (x.getD p default, (p : Int)) ∈ s := hp.mem_iff.2 (List.mem_map.2 ⟨p, by simpa using hpx, rfl⟩)
    obtain ⟨q, lq, hq⟩ := List.getElem_of_mem hin
    have hq' : s[q]? = some (x.getD p default, (p : Int)) := by rw [List.getElem?_eq_getElem lq, hq]
    have hxp : x[p]? = some (x.getD p default) := by simp [List.getD, hpx]
    have hqi : min x.length y.length ≤ q := by
      by_contra hc
      refine hne q (by omega) ?_
      have eq : (s.getD q default) = s[q] := by simp [List.getD, lq]
      simp only [eq, hq, Int.toNat_natCast]
    simp only [ei, ea, Int.toNat_natCast]
    refine ⟨_, _, xa, hxp, ?_⟩
    rcases hord i q _ _ (by omega) (List.getElem?_eq_getElem li) hq' with h | ⟨h, h'⟩
    · exact .inl h
    · rw [ea] at h'
      exact .inr ⟨h, by simpa using h'⟩

/-- C58: the result does not depend on the sorting algorithm. -/
theorem C58_deterministic [LinearOrder R] [Inhabited R] (t : IntTy) (ht : 1 ≤ t.bits)
    {sort sort' : List (R × Int) → List (R × Int)} (hs : IsSort sort) (hs' : IsSort sort') {x y : List R} {z : List Int}
    (hn : t.In x.length) (hk : t.In y.length) : Kernels.top t sort x y z = Kernels.top t sort' x y z := by
  have : sort (pairs x) = sort' (pairs x) := by
    refine List.Perm.eq_of_pairwise (fun a b _ _ h1 h2 => ?_) (hs _).2 (hs' _).2 ((hs _).1.trans (hs' _).1.symm)
    by_contra hne
    have := greater_total h1 hne
    rw [h2] at this
    cases this
  rw [top_eq t ht sort hn hk, top_eq t ht sort' hn hk, this]

/-- Non-vacuity: two of four, with a tie; a representable size. -/
example : Kernels.top IntTy.i32 (List.insertionSort fun a b => Kernels.greater b a = false) [3, 7, 7, 1] [0, 0] [0, 0] =
    .ok ([(7 : Int), 7], [2, 1]) ∧ IntTy.i32.In (4 : Nat) := by decide

/-- C58, sizes the index type cannot hold: a number of elements that becomes negative is refused with an exception, a
number of results that becomes negative is undefined. -/
theorem C58_wrapped [Inhabited R] (t : IntTy) (ht : 1 ≤ t.bits) (sort : List (R × Int) → List (R × Int)) (x y : List R)
    (z : List Int) :
    (t.conv x.length < 0 → Kernels.top t sort x y z = .throw .logicError) ∧
    (t.In x.length → t.conv y.length < 0 → Kernels.top t sort x y z = .ub) := by
  constructor
  · intro h
    unfold Kernels.top
    exact if_pos h
  · intro hn hk
    unfold Kernels.top
    rw [conv_small ht hn, if_neg (by omega), Int.toNat_natCast, mapM_ok _ (fun i => (x.getD i default, (i : Int)))]
    · simp only [Outcome.ok_bind]
      exact if_pos (by omega)
    · intro i hi
      have : i < x.length := by simpa using hi
      simp [rd, this, List.getD]

/-- Non-vacuity: 200 results and a signed 8-bit index type. -/
example : (⟨true, 8⟩ : IntTy).In (3 : Nat) ∧ (⟨true, 8⟩ : IntTy).conv (200 : Nat) < 0 := by decide

/-! ## C59 -/

theorem hamming_eq {S : Type} [DecidableEq S] {x y : List S} (h : y.length = x.length) :
    Kernels.hamming x y = .ok ((range x.length).filter fun i => x[i]? ≠ y[i]?).card := by
  unfold Kernels.hamming
  rw [forRange_sum (f := fun i => if x[i]? = y[i]? then 0 else 1), seqSum_eq_sum, Finset.card_filter]
  · congr 1
    exact Finset.sum_congr rfl fun i _ => by split <;> simp_all
  · intro i hi s
    have h1 : rd x i = .ok x[i] := by simp [rd, hi]
    have h2 : rd y i = .ok y[i] := by simp [rd, h, hi]
    rw [h1, Outcome.ok_bind, h2, Outcome.ok_bind, List.getElem?_eq_getElem hi, List.getElem?_eq_getElem (by omega)]
    simp

/-- C59: over an ordered field, similarity is one minus the fraction of positions where the tensors differ; it lies between
zero and one, is one exactly for equal tensors and zero exactly if they differ everywhere, and is symmetric. -/
theorem C59_similarity [Field R] [LinearOrder R] [IsStrictOrderedRing R] {S : Type} [DecidableEq S] {x y : List S}
    (hx : x ≠ []) (h : y.length = x.length) (z : R) :
    ∃ v : R, Kernels.similarity x y [z] = .ok [v] ∧ Kernels.similarity y x [z] = .ok [v] ∧
      v = 1 - (((range x.length).filter fun i => x[i]? ≠ y[i]?).card : R) / (x.length : R) ∧
      0 ≤ v ∧ v ≤ 1 ∧ (v = 1 ↔ x = y) ∧ (v = 0 ↔ ∀ i < x.length, x[i]? ≠ y[i]?) := by
  set d := ((range x.length).filter fun i => x[i]? ≠ y[i]?).card with hd
  have hpos : (0 : R) < (x.length : R) := by
    have : 0 < x.length := List.length_pos_iff.2 hx
    exact_mod_cast this
  have hdle : d ≤ x.length := by
    rw [hd]
    refine (Finset.card_filter_le _ _).trans (by simp)
  have hdle' : (d : R) ≤ (x.length : R) := by exact_mod_cast hdle
  have hsym : ((range y.length).filter fun i => y[i]? ≠ x[i]?).card = d := by
    rw [hd, h]
    refine congrArg Finset.card (Finset.filter_congr fun i _ => ?_)
    exact ⟨Ne.symm, Ne.symm⟩
  refine ⟨1 - (d : R) / (x.length : R), ?_, ?_, rfl, ?_, ?_, ?_, ?_⟩
  · unfold Kernels.similarity
    rw [hamming_eq h, Outcome.ok_bind]
    rfl
  · unfold Kernels.similarity
    rw [hamming_eq h.symm, Outcome.ok_bind, hsym, h]
    rfl
  · rw [sub_nonneg, div_le_one hpos]
    exact hdle'
  · have : 0 ≤ (d : R) / (x.length : R) := by positivity
    linarith
  · rw [sub_eq_self, div_eq_zero_iff, or_iff_left hpos.ne', Nat.cast_eq_zero, hd, Finset.card_eq_zero,
      Finset.filter_eq_empty_iff]
    constructor
    · intro hh
      apply List.ext_getElem?
      intro i
      by_cases c : i < x.length
      · have := hh (mem_range.2 c)
        simpa using this
      · rw [List.getElem?_eq_none (by omega), List.getElem?_eq_none (by omega)]
    · rintro rfl
      simp
  · rw [sub_eq_zero, eq_comm, div_eq_one_iff_eq hpos.ne', Nat.cast_inj, hd]
    constructor
    · intro hh i hi
      have : (range x.length).filter (fun i => x[i]? ≠ y[i]?) = range x.length :=
        Finset.eq_of_subset_of_card_le (Finset.filter_subset _ _) (by rw [hh]; simp)
      have hm := mem_range.2 hi
      rw [← this] at hm
      exact (Finset.mem_filter.1 hm).2
    · intro hh
      rw [Finset.filter_true_of_mem fun i hi => hh i (mem_range.1 hi)]
      simp

/-- C59: tensors of different shapes are rejected. -/
theorem C59_shape (x y : List Nat) : Ops.similarityShape x y = if x = y then .ok [] else .throw .runtimeError := by
  unfold Ops.similarityShape contractAssert
  split <;> simp_all

/-- Non-vacuity. -/
example : Kernels.similarity [1, 2, 3, 4] [1, 0, 3, 5] [(9 : ℚ)] = .ok [1 / 2] := by decide +kernel

/-! ## Concrete cases -/

example := C56_onehot (R := Int) IntTy.u32 (by decide) (cols := 3) (by decide) [2, 5, -1, 0] (y := List.replicate 12 7) rfl
example := C57_argmax (R := Int) IntTy.u32 (rows := 2) (n := 3) (by decide) (fun i j => (j : Int) - i) (y := [9, 9]) rfl
example := C57_inverse (R := Int) (by decide) IntTy.u32 (by decide) (k := 3) (by decide) [2, 0, 1] (by decide)
  (y := List.replicate 9 7) rfl (z := [9, 9, 9]) rfl
example := C59_similarity (R := ℚ) (x := [1, 2, 3, 4]) (y := [1, 0, 3, 5]) (by decide) rfl 9

end StdNN
