import Verif.Model.Elementwise
import Verif.Lemmas.Conv1d
import Verif.Spec.Memory
/-!
# The elementwise kernels on memory
-/
namespace StdNN
open Outcome Spec IntTy
variable {R : Type}

/-- The input `x` holds the values `v`; if it is in the same memory as the output at `z` then it is exactly the output
region or disjoint from it. -/
def Src.Holds (x : Src R) (m : List R) (z : Nat) (v : List R) : Prop :=
  match x with
  | .ext b => ∀ i < v.length, b[i]? = v[i]?
  | .mem p => (p = z ∨ p + v.length ≤ z ∨ z + v.length ≤ p) ∧ ∀ i < v.length, m[p + i]? = v[i]?

theorem forRange_inv' {σ : Type} {n : Nat} {body : Nat → σ → Outcome σ} (I : Nat → σ → Prop) {s : σ} (h0 : I 0 s)
    (step : ∀ i < n, ∀ s, I i s → ∃ s', body i s = .ok s' ∧ I (i + 1) s') :
    ∃ s', forRange n body s = .ok s' ∧ I n s' := forRange_inv I step h0

theorem store_length {m : List R} {z : Nat} {v : List R} (h : z + v.length ≤ m.length) :
    (store m z v).length = m.length := by
  simp [store]; omega

theorem store_getElem? {m : List R} {z : Nat} {v : List R} (h : z + v.length ≤ m.length) (p : Nat) :
    (store m z v)[p]? = if z ≤ p ∧ p < z + v.length then v[p - z]? else m[p]? := by
  unfold store
  have hl : (m.take z).length = z := by simp; omega
  rw [List.append_assoc, List.getElem?_append, hl]
  by_cases c1 : p < z
  · rw [if_pos c1, if_neg (by omega), List.getElem?_take_of_lt c1]
  · rw [if_neg c1, List.getElem?_append]
    by_cases c2 : p < z + v.length
    · rw [if_pos (by omega), if_pos (by omega)]
    · rw [if_neg (by omega), if_neg (by omega), List.getElem?_drop]
      congr 1
      omega

theorem store_all {m v : List R} (h : v.length = m.length) : store m 0 v = v := by
  simp [store, h]

/-- A loop that stores `v` from address `z` on, where each iteration may rely on everything not yet written. -/
theorem run_store {n z : Nat} {m v : List R} {body : Nat → List R → Outcome (List R)} (hv : v.length = n)
    (hz : z + n ≤ m.length)
    (hb : ∀ i < n, ∀ m' : List R, m'.length = m.length → (∀ p, p < z ∨ z + i ≤ p → m'[p]? = m[p]?) →
      ∃ x, v[i]? = some x ∧ body i m' = wr m' (z + i) x) :
    forRange n body m = .ok (store m z v) := by
  have key := forRange_inv' (n := n) (body := body)
    (fun i (m' : List R) => m'.length = m.length ∧
      ∀ p, m'[p]? = if z ≤ p ∧ p < z + i then v[p - z]? else m[p]?) (s := m)
    ⟨rfl, fun p => by rw [if_neg (by omega)]⟩
    (by
      intro i hi m' ⟨hl, hp⟩
      obtain ⟨x, hx, e⟩ := hb i hi m' hl (fun p hp' => by rw [hp, if_neg (by omega)])
      rw [e, wr, if_pos (by omega)]
      refine ⟨_, rfl, by simpa using hl, fun p => ?_⟩
      rw [List.getElem?_set]
      by_cases c : z + i = p
      · subst c
        rw [if_pos rfl, if_pos (by omega), if_pos (by omega), Nat.add_sub_cancel_left, hx]
      · rw [if_neg c, hp]
        by_cases c2 : z ≤ p ∧ p < z + i
        · rw [if_pos c2, if_pos (by omega)]
        · rw [if_neg c2, if_neg (by omega)])
  obtain ⟨m', e, hl, hp⟩ := key
  rw [e]
  congr 1
  apply List.ext_getElem?
  intro p
  rw [hp, store_getElem? (by omega), hv]

theorem Src.Holds.rd {x : Src R} {m m' v : List R} {z i : Nat} (h : x.Holds m z v) (hi : i < v.length)
    (hp : ∀ p, p < z ∨ z + i ≤ p → m'[p]? = m[p]?) : x.rd m' i = .ok v[i] := by
  cases x with
  | ext b =>
    have := h i hi
    simp [Src.rd, StdNN.rd, this, hi]
  | mem p =>
    obtain ⟨ho, hv⟩ := h
    have e : m'[p + i]? = some v[i] := by
      rw [hp _ (by omega), hv i hi, List.getElem?_eq_getElem hi]
    simp [Src.rd, StdNN.rd, e]

theorem valid_getD {dims idx : List Nat} {p k : Nat} (hv : Valid dims idx) (hp : dims[p]? = some k) :
    idx.getD p 0 < k := by
  induction dims generalizing p idx with
  | nil => simp at hp
  | cons d ds ih =>
    match idx, hv with
    | a :: idx, hv =>
      cases p with
      | zero => simp at hp ⊢; have := hv.1; omega
      | succ p => simpa using ih hv.2 (by simpa using hp)

theorem zipWith_tab {S T : Type} (f : R → S → T) (dims : List Nat) (X : List Nat → R) (Y : List Nat → S) :
    List.zipWith f (tab dims X).data (tab dims Y).data = (tab dims fun idx => f (X idx) (Y idx)).data := by
  simp [tab, List.zipWith_map, List.zipWith_self]

theorem map_tab {S : Type} (f : R → S) (dims : List Nat) (X : List Nat → R) :
    (tab dims X).data.map f = (tab dims fun idx => f (X idx)).data := by
  simp [tab]

namespace Kernels

theorem transform1_run {f : R → R} {x : Src R} {z : Nat} {m v : List R} (hx : x.Holds m z v)
    (hz : z + v.length ≤ m.length) : transform1 f v.length x z m = .ok (store m z (v.map f)) := by
  refine run_store (by simp) hz fun i hi m' _ hp => ⟨f v[i], by simp [hi], ?_⟩
  rw [hx.rd hi hp, Outcome.ok_bind]

theorem transform2_run {f : R → R → R} {x y : Src R} {z : Nat} {m v w : List R} (hx : x.Holds m z v)
    (hy : y.Holds m z w) (hvw : v.length = w.length) (hz : z + v.length ≤ m.length) :
    transform2 f v.length x y z m = .ok (store m z (List.zipWith f v w)) := by
  refine run_store (by simp [hvw]) hz fun i hi m' _ hp => ⟨f v[i] w[i], ?_, ?_⟩
  · simp [hi, hvw ▸ hi]
  · rw [hx.rd hi hp, Outcome.ok_bind, hy.rd (hvw ▸ hi) hp, Outcome.ok_bind]

theorem copy_run {x : Src R} {z : Nat} {m v : List R} (hx : x.Holds m z v) (hne : ∀ p, x = .mem p → p ≠ z)
    (hz : z + v.length ≤ m.length) : copy v.length x z m = .ok (store m z v) := by
  have e := transform1_run (f := id) hx hz
  rw [List.map_id] at e
  cases x with
  | ext b => exact e
  | mem p =>
    have := hne p rfl
    have ho := hx.1
    unfold copy
    by_cases c : p ≤ z ∧ z < p + v.length
    · omega
    · simp only [c, if_false]
      exact e

theorem copy_ext {b m : List R} (h : b.length = m.length) : copy b.length (.ext b) 0 m = .ok b := by
  rw [copy_run (x := .ext b) (v := b) (fun i _ => rfl) (by simp) (by omega), store_all h]

/-- Reading a bias vector along axis `p`. -/
theorem applyBias_run [Zero R] {f : R → R → R} {p k : Nat} {dims : List Nat} {x : Src R} {z : Nat} {m : List R}
    {X : List Nat → R} {B : Nat → R} (hp : dims[p]? = some k) (hx : x.Holds m z (tab dims X).data)
    (hz : z + dims.prod ≤ m.length) :
    applyBias f p dims x (tab [k] (fn1 B)).data z m =
      .ok (store m z (tab dims fun idx => f (X idx) (B (idx.getD p 0))).data) := by
  refine run_store (by simp) hz fun i hi m' _ hq =>
    ⟨f (X (unravel dims i)) (B ((unravel dims i).getD p 0)), by simp [tab, hi], ?_⟩
  have hr := hx.rd (i := i) (by simpa using hi) hq
  have hlt : (unravel dims i).getD p 0 < k := valid_getD (valid_unravel hi) hp
  have hy : StdNN.rd (tab [k] (fn1 B)).data ((unravel dims i).getD p 0) = .ok (B ((unravel dims i).getD p 0)) := by
    have := tab_getElem? (fn1 B) (v1 hlt)
    simp only [offset_cons, List.prod_nil, Nat.mul_one, offset_nil, Nat.add_zero] at this
    unfold StdNN.rd
    rw [this]
    rfl
  rw [hr, Outcome.ok_bind, hy, Outcome.ok_bind]
  simp [tab]

theorem Src.Holds.shift {x : Src R} {m v : List R} {z k l : Nat} (h : x.Holds m z v) (hk : k + l ≤ v.length) :
    (x.shift k).Holds m (z + k) ((v.drop k).take l) ∨ l = 0 := by
  by_cases hl : l = 0
  · exact .inr hl
  left
  have e : ∀ i < ((v.drop k).take l).length, ((v.drop k).take l)[i]? = v[k + i]? := by
    intro i hi
    simp at hi
    rw [List.getElem?_take_of_lt (by omega), List.getElem?_drop]
  cases x with
  | ext b =>
    intro i hi
    rw [e i hi, List.getElem?_drop]
    simp at hi
    exact h _ (by omega)
  | mem p =>
    refine ⟨?_, fun i hi => ?_⟩
    · have := h.1
      simp only [List.length_take, List.length_drop]
      omega
    · rw [e i hi]
      simp at hi
      rw [Nat.add_assoc]
      exact h.2 _ (by omega)

/-- The row-wise bias kernel: rows are done one after the other, each in place or from elsewhere. -/
theorem applyBiasRows_run [Zero R] {f : R → R → R} {rows c : Nat} {x : Src R} {z : Nat} {m v : List R}
    {B : Nat → R} (hx : x.Holds m z v) (hv : v.length = rows * c) (hz : z + rows * c ≤ m.length) :
    applyBiasRows f rows c c x (tab [c] (fn1 B)).data z m =
      .ok (store m z (List.zipWith f v ((List.range (rows * c)).map fun p => B (p % c)))) := by
  have flat : ∀ i < rows, ∀ j < c, i * c + j < rows * c := by
    intro i hi j hj
    calc i * c + j < i * c + c := by omega
      _ = (i + 1) * c := by ring
      _ ≤ rows * c := Nat.mul_le_mul_right _ hi
  have key := forRange_inv' (n := rows)
    (body := fun i m => transform2 f c (x.shift (i * c)) (.ext (tab [c] (fn1 B)).data) (z + i * c) m)
    (fun i (m' : List R) => m'.length = m.length ∧ ∀ p, m'[p]? = if z ≤ p ∧ p < z + i * c then
      (List.zipWith f v ((List.range (rows * c)).map fun p => B (p % c)))[p - z]? else m[p]?) (s := m)
    ⟨rfl, fun p => by rw [if_neg (by omega)]⟩
    (by
      intro i hi m' ⟨hl, hp⟩
      have hic : i * c + c ≤ rows * c := by
        calc i * c + c = (i + 1) * c := by ring
          _ ≤ rows * c := Nat.mul_le_mul_right _ hi
      -- the row still holds the input values
      have hx' : x.Holds m' (z + i * c) v ∨ ∃ p, x = .mem p := by
        cases x with
        | ext b => exact .inl hx
        | mem p => exact .inr ⟨p, rfl⟩
      have hrow : c ≠ 0 → (x.shift (i * c)).Holds m' (z + i * c) ((v.drop (i * c)).take c) := by
        intro hc
        have e : ∀ j < ((v.drop (i * c)).take c).length, ((v.drop (i * c)).take c)[j]? = v[i * c + j]? := by
          intro j hj
          simp at hj
          rw [List.getElem?_take_of_lt (by omega), List.getElem?_drop]
        have hlen : ((v.drop (i * c)).take c).length = c := by simp; omega
        cases x with
        | ext b =>
          intro j hj
          rw [e j hj, List.getElem?_drop]
          exact hx _ (by omega)
        | mem p =>
          refine ⟨?_, fun j hj => ?_⟩
          · have := hx.1
            rw [hlen]
            omega
          · rw [e j hj, Nat.add_assoc, hp, if_neg, hx.2 _ (by omega)]
            have := hx.1
            omega
      by_cases hc : c = 0
      · subst hc
        refine ⟨m', rfl, hl, fun p => ?_⟩
        rw [hp]
        simp
      · have hlen : ((v.drop (i * c)).take c).length = c := by simp; omega
        have hB : (tab [c] (fn1 B)).data.length = c := by simp
        have run := transform2_run (f := f) (y := .ext (tab [c] (fn1 B)).data) (w := (tab [c] (fn1 B)).data) (hrow hc)
          (fun j _ => rfl) (by rw [hlen, hB]) (by rw [hlen]; omega)
        rw [hlen] at run
        refine ⟨_, run, by rw [store_length] <;> simp [hlen, hl] ; omega, fun p => ?_⟩
        have hzl : (List.zipWith f ((v.drop (i * c)).take c) (tab [c] (fn1 B)).data).length = c := by
          simp; omega
        rw [store_getElem? (by rw [hzl]; omega), hzl]
        have hsucc : (i + 1) * c = i * c + c := by ring
        by_cases c1 : z + i * c ≤ p ∧ p < z + i * c + c
        · rw [if_pos c1, if_pos (by omega)]
          obtain ⟨j, rfl⟩ : ∃ j, p = z + i * c + j := ⟨p - (z + i * c), by omega⟩
          have hj : j < c := by omega
          have e1 : (tab [c] (fn1 B)).data[j]? = some (B j) := by
            have := tab_getElem? (fn1 B) (v1 hj)
            simpa using this
          have e2 : (i * c + j) % c = j := by rw [Nat.mul_comm, Nat.mul_add_mod, Nat.mod_eq_of_lt hj]
          rw [show z + i * c + j - (z + i * c) = j by omega, show z + i * c + j - z = i * c + j by omega,
            List.getElem?_zipWith, List.getElem?_zipWith, e1, List.getElem?_take_of_lt hj, List.getElem?_drop,
            List.getElem?_map, List.getElem?_range (flat i hi j hj)]
          simp [e2]
        · rw [if_neg c1, hp]
          by_cases c2 : z ≤ p ∧ p < z + i * c
          · rw [if_pos c2, if_pos (by omega)]
          · rw [if_neg c2, if_neg (by omega)])
  obtain ⟨m', e, hl, hp⟩ := key
  have hlen : (List.zipWith f v ((List.range (rows * c)).map fun p => B (p % c))).length = rows * c := by
    simp [hv]
  unfold applyBiasRows
  rw [e]
  congr 1
  apply List.ext_getElem?
  intro p
  rw [hp, store_getElem? (by omega), hlen]

theorem applyBiasNhwc_run [Zero R] {f : R → R → R} {n h w c : Nat} {x : Src R} {z : Nat} {m : List R}
    {X : List Nat → R} {B : Nat → R} (hx : x.Holds m z (tab [n, h, w, c] X).data)
    (hz : z + [n, h, w, c].prod ≤ m.length) :
    applyBiasNhwc f [n, h, w, c] [n, h, w, c] x (tab [c] (fn1 B)).data z m =
      .ok (store m z (tab [n, h, w, c] fun idx => f (X idx) (B (idx.getD 3 0))).data) := by
  have e : [n, h, w, c].prod = [n, h, w].prod * c := by simp [Nat.mul_assoc]
  have := applyBiasRows_run (f := f) (rows := [n, h, w].prod) (c := c) (B := B) hx (by simpa using e)
    (by rw [← e]; exact hz)
  have d : [c].prod = c := by simp
  unfold applyBiasNhwc
  show applyBiasRows f [n, h, w].prod [c].prod [c].prod x _ z m = _
  rw [d, this, ← e]
  congr 2
  simp only [tab, List.zipWith_map, List.zipWith_self]
  apply List.map_congr_left
  intro p _
  congr 2
  have : [n, h, w, c] = [n, h, w] ++ [c] := rfl
  simp only [unravel, List.prod_cons, List.prod_nil, Nat.mul_one, Nat.div_one]
  simp only [List.getD_cons_succ, List.getD_cons_zero]
  rw [Nat.mod_mod_of_dvd, Nat.mod_mod_of_dvd]
  · exact Dvd.intro_left (h * w) (Nat.mul_assoc h w c)
  · exact Dvd.intro_left _ rfl

theorem toFirst_run [Zero R] {S : Type} [Zero S] (f : S → R) {n h w c : Nat} (X : Nat → Nat → Nat → Nat → S)
    {y : List R} (hy : y.length = [n, c, h, w].prod) :
    toFirst f [n, c, h, w] (tab [n, h, w, c] (fn4 X)) y =
      .ok (tab [n, c, h, w] (fn4 fun l k i j => f (X l i j k))).data := by
  rw [← run_store4 (val := fun l k i j => f (X l i j k)) hy]
  simp only [toFirst, tab_dims]
  refine forRange_congr (fun l hl s => forRange_congr (fun k hk s => forRange_congr (fun i hi s =>
    forRange_congr (fun j hj s => ?_) s) s) s) y
  rw [tab_at _ (v4 hl hi hj hk)]
  rfl

theorem toLast_run [Zero R] {S : Type} [Zero S] (f : S → R) {n h w c : Nat} (X : Nat → Nat → Nat → Nat → S)
    {y : List R} (hy : y.length = [n, h, w, c].prod) :
    toLast f [n, h, w, c] (tab [n, c, h, w] (fn4 X)) y =
      .ok (tab [n, h, w, c] (fn4 fun l i j k => f (X l k i j))).data := by
  rw [← run_store4 (val := fun l i j k => f (X l k i j)) hy]
  simp only [toLast, tab_dims]
  refine forRange_congr (fun l hl s => forRange_congr (fun i hi s => forRange_congr (fun j hj s =>
    forRange_congr (fun k hk s => ?_) s) s) s) y
  rw [tab_at _ (v4 hl hk hi hj)]
  rfl

theorem concatNchw_run [Zero R] {n h w c1 c2 : Nat} (X Y : Nat → Nat → Nat → Nat → R) {t : List R}
    (ht : t.length = [n, c1 + c2, h, w].prod) :
    concatNchw [n, c1 + c2, h, w] (tab [n, c1, h, w] (fn4 X)) (tab [n, c2, h, w] (fn4 Y)) t =
      .ok (tab [n, c1 + c2, h, w] (fn4 fun l k i j => if k < c1 then X l k i j else Y l (k - c1) i j)).data := by
  rw [← run_store4 (val := fun l k i j => if k < c1 then X l k i j else Y l (k - c1) i j) ht]
  simp only [concatNchw, tab_dims, getDim, Order.channelPos, List.getElem?_cons_succ, List.getElem?_cons_zero,
    Outcome.ok_bind]
  refine forRange_congr (fun l hl s => forRange_congr (fun k hk s => forRange_congr (fun i hi s =>
    forRange_congr (fun j hj s => ?_) s) s) s) t
  by_cases c : k < c1
  · simp only [if_pos c]
    rw [tab_at _ (v4 hl c hi hj)]
    rfl
  · simp only [if_neg c]
    rw [tab_at _ (v4 hl (show k - c1 < c2 by omega) hi hj)]
    rfl

theorem concatNhwc_run [Zero R] {n h w c1 c2 c3 : Nat} (hc : c1 + c2 < 4294967296)
    (X Y Z : Nat → Nat → Nat → Nat → R) {t : List R} (ht : t.length = [n, h, w, c1 + c2 + c3].prod) :
    concatNhwc [n, h, w, c1 + c2 + c3] (tab [n, h, w, c1] (fn4 X)) (tab [n, h, w, c2] (fn4 Y))
        (tab [n, h, w, c3] (fn4 Z)) t =
      .ok (tab [n, h, w, c1 + c2 + c3] (fn4 fun l i j k => if k < c1 then X l i j k
        else if k < c1 + c2 then Y l i j (k - c1) else Z l i j (k - c1 - c2))).data := by
  rw [← run_store4 (val := fun l i j k => if k < c1 then X l i j k
        else if k < c1 + c2 then Y l i j (k - c1) else Z l i j (k - c1 - c2)) ht]
  have hadd : IntTy.u32.add (c1 : Int) c2 = .ok ((c1 + c2 : Nat) : Int) := by
    rw [add_eq u32_std ⟨by rw [u32_lo]; omega, by rw [u32_hi]; omega⟩ ⟨by rw [u32_lo]; omega, by rw [u32_hi]; omega⟩
      ⟨by rw [u32_lo]; omega, by rw [u32_hi]; omega⟩]
    push_cast
    rfl
  simp only [concatNhwc, tab_dims, getDim, Order.channelPos, List.getElem?_cons_succ, List.getElem?_cons_zero,
    Outcome.ok_bind, hadd]
  refine forRange_congr (fun l hl s => forRange_congr (fun i hi s => forRange_congr (fun j hj s =>
    forRange_congr (fun k hk s => ?_) s) s) s) t
  by_cases c : k < c1
  · simp only [if_pos c]
    rw [tab_at _ (v4 hl hi hj c)]
    rfl
  · by_cases c' : k < c1 + c2
    · have c'' : (k : Int) < ((c1 + c2 : Nat) : Int) := by exact_mod_cast c'
      simp only [if_neg c, if_pos c', if_pos c'']
      rw [tab_at _ (v4 hl hi hj (show k - c1 < c2 by omega))]
      rfl
    · have c'' : ¬ (k : Int) < ((c1 + c2 : Nat) : Int) := by exact_mod_cast c'
      simp only [if_neg c, if_neg c', if_neg c'']
      rw [tab_at _ (v4 hl hi hj (show k - c1 - c2 < c3 by omega))]
      rfl

theorem outerContraction_order [Add R] [Zero R] {rows cols : Nat} (X : Nat → Nat → R) {y : List R}
    (hy : y.length = cols) :
    outerContraction (tab [rows, cols] (fn2 X)) y =
      .ok (tab [cols] (fn1 fun j => seqSum rows fun i => X i j)).data := by
  have flat : ∀ i < rows, ∀ j < cols, (tab [rows, cols] (fn2 X)).data[i * cols + j]? = some (X i j) := by
    intro i hi j hj
    have := tab_getElem? (fn2 X) (v2 hi hj)
    simpa using this
  have key := forRange_inv' (n := rows)
    (body := fun i y => transform2 (· + ·) y.length (.mem 0) (.ext ((tab [rows, cols] (fn2 X)).data.drop (i * cols))) 0 y)
    (fun i (y' : List R) => y' = (tab [cols] (fn1 fun j => seqSum i fun t => X t j)).data)
    (s := y.map fun _ => 0)
    (by
      apply data_eq_tab (by simpa using hy)
      intro idx hv
      match idx, hv with
      | [j], hv =>
        have hj : j < y.length := by rw [hy]; exact hv.1
        simp [hj, seqSum])
    (by
      intro i hi y' e
      have hl : y'.length = cols := by rw [e]; simp
      have hd : (List.take cols ((tab [rows, cols] (fn2 X)).data.drop (i * cols))).length = cols := by
        have : i * cols + cols ≤ rows * cols := by
          calc i * cols + cols = (i + 1) * cols := by ring
            _ ≤ rows * cols := Nat.mul_le_mul_right _ hi
        simp
        omega
      have run := transform2_run (f := (· + ·)) (x := .mem 0) (z := 0) (m := y') (v := y')
        (y := .ext ((tab [rows, cols] (fn2 X)).data.drop (i * cols)))
        (w := List.take cols ((tab [rows, cols] (fn2 X)).data.drop (i * cols)))
        ⟨.inl rfl, fun j _ => by simp⟩
        (fun j hj => by rw [hd] at hj; rw [List.getElem?_take_of_lt hj]) (by rw [hl, hd]) (by omega)
      refine ⟨_, run, ?_⟩
      rw [store_all (by simp [hl, hd])]
      apply data_eq_tab (by simp [hl]; have := hd; simp at this; omega)
      intro idx hv
      match idx, hv with
      | [j], hv =>
        have hj : j < cols := hv.1
        have e1 : y'[j]? = some (seqSum i fun t => X t j) := by
          rw [e]
          have := tab_getElem? (fn1 fun j => seqSum i fun t => X t j) (v1 hj)
          simpa using this
        simp only [offset_cons, List.prod_nil, Nat.mul_one, offset_nil, Nat.add_zero, List.getElem?_zipWith, e1,
          List.getElem?_take_of_lt hj, List.getElem?_drop, flat i hi j hj, fn1_apply, seqSum])
  obtain ⟨y', e, rfl⟩ := key
  simp only [outerContraction, tab_dims, fillAll, Outcome.ok_bind]
  exact e

theorem outerContraction_run [AddCommMonoid R] {rows cols : Nat} (X : Nat → Nat → R) {y : List R}
    (hy : y.length = cols) :
    outerContraction (tab [rows, cols] (fn2 X)) y =
      .ok (tab [cols] (fn1 fun j => ∑ i ∈ Finset.range rows, X i j)).data := by
  simp only [outerContraction_order X hy, seqSum_eq_sum]

theorem innerContraction_order [Add R] [Zero R] {rows cols : Nat} (X : Nat → Nat → R) {y : List R}
    (hy : y.length = rows) :
    innerContraction (tab [rows, cols] (fn2 X)) y =
      .ok (tab [rows] (fn1 fun i => seqSum cols fun j => X i j)).data := by
  rw [← Plain.run_store1 (val := fun i => seqSum cols fun j => X i j) hy]
  simp only [innerContraction, tab_dims]
  refine forRange_congr (fun i hi s => ?_) y
  rw [forRange_sum (f := fun j => X i j)]
  · simp
  · intro j hj s
    rw [tab_at _ (v2 hi hj)]
    rfl

end Kernels
end StdNN
