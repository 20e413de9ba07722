import Verif.Lemmas.Shared
import Verif.Props.Gradients
import Verif.Props.Pool
/-!
C165: operators whose output shares memory with an input.
-/
namespace StdNN
open Spec Outcome Finset IntTy
variable {R : Type}

/-! ## Loops that see what they have written -/

/-- Values computed one after the other, each from the results in front of it and the old values behind it. -/
theorem seen_exists (F : Nat → (Nat → R) → R) (X : Nat → R) :
    ∃ Z : Nat → R, ∀ p, Z p = F p fun q => if q < p then Z q else X q := by
  let step : (p : Nat) → ((q : Nat) → q < p → R) → R := fun p ih => F p fun q => if h : q < p then ih q h else X q
  refine ⟨Nat.lt_wfRel.wf.fix step, fun p => ?_⟩
  rw [WellFounded.fix_eq]
  show F p _ = F p _
  congr 1

theorem run_seen1 {N z : Nat} {mem : List R} (X : Nat → R) (F : Nat → (Nat → R) → R) {val : Nat → List R → Outcome R}
    (hz : z + N ≤ mem.length)
    (hb : ∀ p < N, ∀ (m' : List R) (Z : Nat → R), (∀ q < N, m'[z + q]? = some (if q < p then Z q else X q)) →
      val p m' = .ok (F p fun q => if q < p then Z q else X q)) :
    ∃ Z : Nat → R, (∀ p < N, Z p = F p fun q => if q < p then Z q else X q) ∧
      forRange N (fun p mem => val p mem >>= fun v => wr mem (z + p) v) (store mem z ((List.range N).map X)) =
        .ok (store mem z ((List.range N).map Z)) := by
  obtain ⟨Z, hZ⟩ := seen_exists F X
  have hs : z + ((List.range N).map X).length ≤ mem.length := by simpa using hz
  refine ⟨Z, fun p _ => hZ p, ?_⟩
  rw [run_store_seen (v := (List.range N).map Z) (by simp) (by rw [store_length hs]; exact hz), store_again hs (by simp)]
  intro p hp m' hm
  refine ⟨Z p, by simp [hp], ?_⟩
  rw [hb p hp m' Z ?_, Outcome.ok_bind, ← hZ p]
  intro q hq
  rw [hm]
  by_cases c : q < p
  · rw [if_pos (by omega), if_pos c, Nat.add_sub_cancel_left]
    simp [hq]
  · rw [if_neg (by omega), if_neg c, store_getElem? hs, if_pos (by simp; omega), Nat.add_sub_cancel_left]
    simp [hq]

theorem tab1_flat [Zero R] (n : Nat) (Z : Nat → R) : (tab [n] (fn1 Z)).data = (List.range n).map Z := by
  refine List.ext_getElem? fun p => ?_
  by_cases c : p < n
  · have := tab_getElem? (fn1 Z) (v1 c)
    simp only [offset_cons, List.prod_nil, Nat.mul_one, offset_nil, Nat.add_zero, fn1_apply] at this
    rw [this]
    simp [c]
  · rw [List.getElem?_eq_none (by simp; omega), List.getElem?_eq_none (by simp; omega)]

theorem tab2_flat [Zero R] (m n : Nat) (Z : Nat → R) :
    (tab [m, n] (fn2 fun i j => Z (i * n + j))).data = (List.range (m * n)).map Z := by
  refine List.ext_getElem? fun p => ?_
  by_cases c : p < m * n
  · have hn : 0 < n := by
      rcases Nat.eq_zero_or_pos n with h | h
      · subst h; simp at c
      · exact h
    have hv : Valid [m, n] [p / n, p % n] := v2 (by rwa [Nat.div_lt_iff_lt_mul hn]) (Nat.mod_lt _ hn)
    have := tab_getElem? (fn2 fun i j => Z (i * n + j)) hv
    have e : offset [m, n] [p / n, p % n] = p := by simp [Nat.div_add_mod']
    rw [e] at this
    rw [this]
    simp [c, Nat.div_add_mod']
  · rw [List.getElem?_eq_none (by simp; omega), List.getElem?_eq_none (by simp; omega)]

theorem run_seen2 [Zero R] {m n z : Nat} {mem : List R} (X : Nat → Nat → R) (F : Nat → Nat → (Nat → Nat → R) → R)
    {val : Nat → Nat → List R → Outcome R} (hz : z + m * n ≤ mem.length)
    (hF : ∀ i < m, ∀ j < n, ∀ Y Y' : Nat → Nat → R, (∀ r < m, ∀ s < n, Y r s = Y' r s) → F i j Y = F i j Y')
    (hb : ∀ i < m, ∀ j < n, ∀ (m' : List R) (Z : Nat → Nat → R),
      (∀ r < m, ∀ s < n, m'[z + (r * n + s)]? = some (if r < i ∨ r = i ∧ s < j then Z r s else X r s)) →
      val i j m' = .ok (F i j fun r s => if r < i ∨ r = i ∧ s < j then Z r s else X r s)) :
    ∃ Z : Nat → Nat → R, (∀ i < m, ∀ j < n, Z i j = F i j fun r s => if r < i ∨ r = i ∧ s < j then Z r s else X r s) ∧
      forRange m (fun i mem => forRange n (fun j mem => val i j mem >>= fun v => wr mem (z + (i * n + j)) v) mem)
        (store mem z (tab [m, n] (fn2 X)).data) = .ok (store mem z (tab [m, n] (fn2 Z)).data) := by
  let Xf : Nat → R := fun p => X (p / n) (p % n)
  let Ff : Nat → (Nat → R) → R := fun p g => F (p / n) (p % n) fun r s => g (r * n + s)
  have dm : ∀ i j, j < n → (i * n + j) / n = i ∧ (i * n + j) % n = j := fun i j hj => by
    refine ⟨?_, ?_⟩
    · rw [Nat.mul_comm, Nat.mul_add_div (by omega), Nat.div_eq_of_lt hj, Nat.add_zero]
    · rw [Nat.mul_comm, Nat.mul_add_mod, Nat.mod_eq_of_lt hj]
  have lt : ∀ i j r s, j < n → s < n → (r * n + s < i * n + j ↔ r < i ∨ r = i ∧ s < j) := by
    intro i j r s hj hs
    constructor
    · intro h
      rcases Nat.lt_trichotomy r i with c | c | c
      · exact .inl c
      · subst c; exact .inr ⟨rfl, by omega⟩
      · have : (i + 1) * n ≤ r * n := Nat.mul_le_mul_right _ c
        rw [Nat.add_mul, Nat.one_mul] at this
        omega
    · rintro (h | ⟨rfl, h⟩)
      · have : (r + 1) * n ≤ i * n := Nat.mul_le_mul_right _ h
        rw [Nat.add_mul, Nat.one_mul] at this
        omega
      · omega
  have flat : (tab [m, n] (fn2 X)).data = (List.range (m * n)).map Xf := by
    rw [← tab2_flat]
    refine congrArg Tensor.data (tab_congr fun idx hv => ?_)
    match idx, hv with
    | [i, j], hv =>
      simp only [fn2_apply, Xf, (dm i j hv.2.1).1, (dm i j hv.2.1).2]
  obtain ⟨Z, hZ, run⟩ := run_seen1 (N := m * n) (val := fun p mem => val (p / n) (p % n) mem) Xf Ff hz (by
    intro p hp m' Z hm
    have hn : 0 < n := by
      rcases Nat.eq_zero_or_pos n with h | h
      · subst h; simp at hp
      · exact h
    have hi : p / n < m := by rwa [Nat.div_lt_iff_lt_mul hn]
    have hj : p % n < n := Nat.mod_lt _ hn
    have hpe : p / n * n + p % n = p := Nat.div_add_mod' p n
    have e := hb _ hi _ hj m' (fun r s => Z (r * n + s)) (by
      intro r hr s hs
      have hr1 : (r + 1) * n ≤ m * n := Nat.mul_le_mul_right _ hr
      rw [Nat.add_mul, Nat.one_mul] at hr1
      rw [hm _ (by omega)]
      congr 1
      have := lt (p / n) (p % n) r s hj hs
      rw [hpe] at this
      simp only [this, Xf, (dm r s hs).1, (dm r s hs).2])
    rw [e]
    refine congrArg Outcome.ok (hF _ hi _ hj _ _ ?_)
    intro r hr s hs
    have := lt (p / n) (p % n) r s hj hs
    rw [hpe] at this
    simp only [this, Xf, (dm r s hs).1, (dm r s hs).2])
  refine ⟨fun i j => Z (i * n + j), fun i hi j hj => ?_, ?_⟩
  · have hr1 : (i + 1) * n ≤ m * n := Nat.mul_le_mul_right _ hi
    rw [Nat.add_mul, Nat.one_mul] at hr1
    have := hZ (i * n + j) (by omega)
    simp only [Ff, (dm i j hj).1, (dm i j hj).2] at this
    refine this.trans (hF i hi j hj _ _ fun r hr s hs => ?_)
    simp only [lt i j r s hj hs, Xf, (dm r s hs).1, (dm r s hs).2]
  · rw [flat, tab2_flat, ← run, ← forRange_nest m n]
    refine forRange_congr (fun i hi s => forRange_congr (fun j hj s => ?_) s) _
    simp only [(dm i j hj).1, (dm i j hj).2]

theorem off2 (m n i j : Nat) : offset [m, n] [i, j] = i * n + j := by simp

theorem off1 (n i : Nat) : offset [n] [i] = i := by simp

theorem rd_some {b : List R} {p : Nat} {v : R} (h : b[p]? = some v) : rd b p = .ok v := by simp [rd, h]

theorem ext_at2 [Zero R] {m n i j : Nat} (B : Nat → Nat → R) (hi : i < m) (hj : j < n) (mem : List R) :
    (Src.ext (tab [m, n] (fn2 B)).data).at_ [m, n] [i, j] mem = .ok (B i j) :=
  rd_some (tab_getElem? (fn2 B) (v2 hi hj))

theorem ext_at1 [Zero R] {n i : Nat} (B : Nat → R) (hi : i < n) (mem : List R) :
    (Src.ext (tab [n] (fn1 B)).data).at_ [n] [i] mem = .ok (B i) :=
  rd_some (tab_getElem? (fn1 B) (v1 hi))

theorem mem_at2 {m n i j z : Nat} {mem : List R} {v : R} (h : mem[z + (i * n + j)]? = some v) :
    (Src.mem z).at_ [m, n] [i, j] mem = .ok v := by
  show rd mem (z + offset [m, n] [i, j]) = _
  rw [off2]
  exact rd_some h

theorem mem_at1 {n i z : Nat} {mem : List R} {v : R} (h : mem[z + i]? = some v) :
    (Src.mem z).at_ [n] [i] mem = .ok v := by
  show rd mem (z + offset [n] [i]) = _
  rw [off1]
  exact rd_some h

namespace Shared

section
variable [Add R] [Mul R] [Zero R]

/-- C165 (separate inputs): on separate inputs all five products do to the memory of the output what they do to an output
tensor (C16). -/
theorem C165_separate (m l l' n cm cn : Nat) (a b : List R) (z : Nat) (mem : List R) :
    (z + [cm, cn].prod ≤ mem.length →
      mm [m, l] [l', n] [cm, cn] (.ext a) (.ext b) z mem =
        onSlice z [cm, cn].prod (Plain.mm ⟨[m, l], a⟩ ⟨[l', n], b⟩ [cm, cn]) mem ∧
      mmt [m, l] [n, l'] [cm, cn] (.ext a) (.ext b) z mem =
        onSlice z [cm, cn].prod (Plain.mmt ⟨[m, l], a⟩ ⟨[n, l'], b⟩ [cm, cn]) mem ∧
      mtm [l, m] [l', n] [cm, cn] (.ext a) (.ext b) z mem =
        onSlice z [cm, cn].prod (Plain.mtm ⟨[l, m], a⟩ ⟨[l', n], b⟩ [cm, cn]) mem) ∧
    (z + [cn].prod ≤ mem.length →
      mv [m, n] [l] [cn] (.ext a) (.ext b) z mem = onSlice z [cn].prod (Plain.mv ⟨[m, n], a⟩ ⟨[l], b⟩ [cn]) mem ∧
      vm [l] [m, n] [cn] (.ext a) (.ext b) z mem = onSlice z [cn].prod (Plain.vm ⟨[l], a⟩ ⟨[m, n], b⟩ [cn]) mem) :=
  ⟨fun hz => ⟨(mm_lift hz).eq _ rfl, (mmt_lift hz).eq _ rfl, (mtm_lift hz).eq _ rfl⟩,
    fun hz => ⟨(mv_lift hz).eq _ rfl, (vm_lift hz).eq _ rfl⟩⟩

/-- `a bᵀ` written onto `a`, in any arithmetic: an entry is computed from the results to the left of it and the old entries
from it on. -/
theorem C165_mmt_left {m n : Nat} (A B : Nat → Nat → R) {z : Nat} {mem : List R} (hz : z + m * n ≤ mem.length) :
    ∃ Z : Nat → Nat → R,
      (∀ i < m, ∀ j < n, Z i j = seqSum n fun k => (if k < j then Z i k else A i k) * B j k) ∧
      mmt [m, n] [n, n] [m, n] (.mem z) (.ext (tab [n, n] (fn2 B)).data) z (store mem z (tab [m, n] (fn2 A)).data) =
        .ok (store mem z (tab [m, n] (fn2 Z)).data) := by
  obtain ⟨Z, hZ, run⟩ := run_seen2 (val := fun i j mem => forRange n (fun k tmp => do
      let aa ← (Src.mem z).at_ [m, n] [i, k] mem
      let bb ← (Src.ext (tab [n, n] (fn2 B)).data).at_ [n, n] [j, k] mem
      return tmp + aa * bb) 0) A (fun i j g => seqSum n fun k => g i k * B j k) hz
    (fun i hi j hj Y Y' h => seqSum_congr fun k hk => by rw [h i hi k hk])
    (by
      intro i hi j hj m' Z h
      refine forRange_sum (f := fun k => (if i < i ∨ i = i ∧ k < j then Z i k else A i k) * B j k) fun k hk s => ?_
      rw [mem_at2 (h i hi k hk), ext_at2 B hj hk]
      rfl)
  refine ⟨Z, fun i hi j hj => ?_, ?_⟩
  · rw [hZ i hi j hj]
    simp
  · simp only [mmt, contractAssert_pos, Outcome.ok_bind, off2]
    exact run

/-- `a bᵀ` written onto the square matrix `b`. -/
theorem C165_mmt_right {n : Nat} (A B : Nat → Nat → R) {z : Nat} {mem : List R} (hz : z + n * n ≤ mem.length) :
    ∃ Z : Nat → Nat → R,
      (∀ i < n, ∀ j < n, Z i j = seqSum n fun k => A i k * (if j < i ∨ j = i ∧ k < j then Z j k else B j k)) ∧
      mmt [n, n] [n, n] [n, n] (.ext (tab [n, n] (fn2 A)).data) (.mem z) z (store mem z (tab [n, n] (fn2 B)).data) =
        .ok (store mem z (tab [n, n] (fn2 Z)).data) := by
  obtain ⟨Z, hZ, run⟩ := run_seen2 (val := fun i j mem => forRange n (fun k tmp => do
      let aa ← (Src.ext (tab [n, n] (fn2 A)).data).at_ [n, n] [i, k] mem
      let bb ← (Src.mem z).at_ [n, n] [j, k] mem
      return tmp + aa * bb) 0) B (fun i j g => seqSum n fun k => A i k * g j k) hz
    (fun i hi j hj Y Y' h => seqSum_congr fun k hk => by rw [h j hj k hk])
    (by
      intro i hi j hj m' Z h
      refine forRange_sum (f := fun k => A i k * (if j < i ∨ j = i ∧ k < j then Z j k else B j k)) fun k hk s => ?_
      rw [mem_at2 (h j hj k hk), ext_at2 A hi hk]
      rfl)
  refine ⟨Z, hZ, ?_⟩
  simp only [mmt, contractAssert_pos, Outcome.ok_bind, off2]
  exact run

/-- `aᵀ b` written onto `b`: an entry is computed from the results above it and the old entries from its row on. -/
theorem C165_mtm_right {m n : Nat} (A B : Nat → Nat → R) {z : Nat} {mem : List R} (hz : z + m * n ≤ mem.length) :
    ∃ Z : Nat → Nat → R,
      (∀ i < m, ∀ j < n, Z i j = seqSum m fun k => A k i * (if k < i then Z k j else B k j)) ∧
      mtm [m, m] [m, n] [m, n] (.ext (tab [m, m] (fn2 A)).data) (.mem z) z (store mem z (tab [m, n] (fn2 B)).data) =
        .ok (store mem z (tab [m, n] (fn2 Z)).data) := by
  obtain ⟨Z, hZ, run⟩ := run_seen2 (val := fun i j mem => forRange m (fun k tmp => do
      let aa ← (Src.ext (tab [m, m] (fn2 A)).data).at_ [m, m] [k, i] mem
      let bb ← (Src.mem z).at_ [m, n] [k, j] mem
      return tmp + aa * bb) 0) B (fun i j g => seqSum m fun k => A k i * g k j) hz
    (fun i hi j hj Y Y' h => seqSum_congr fun k hk => by rw [h k hk j hj])
    (by
      intro i hi j hj m' Z h
      refine forRange_sum (f := fun k => A k i * (if k < i ∨ k = i ∧ j < j then Z k j else B k j)) fun k hk s => ?_
      rw [mem_at2 (h k hk j hj), ext_at2 A hk hi]
      rfl)
  refine ⟨Z, fun i hi j hj => ?_, ?_⟩
  · rw [hZ i hi j hj]
    simp
  · simp only [mtm, contractAssert_pos, Outcome.ok_bind, off2]
    exact run

/-- `aᵀ b` written onto the square matrix `a`. -/
theorem C165_mtm_left {n : Nat} (A B : Nat → Nat → R) {z : Nat} {mem : List R} (hz : z + n * n ≤ mem.length) :
    ∃ Z : Nat → Nat → R,
      (∀ i < n, ∀ j < n, Z i j = seqSum n fun k => (if k < i ∨ k = i ∧ i < j then Z k i else A k i) * B k j) ∧
      mtm [n, n] [n, n] [n, n] (.mem z) (.ext (tab [n, n] (fn2 B)).data) z (store mem z (tab [n, n] (fn2 A)).data) =
        .ok (store mem z (tab [n, n] (fn2 Z)).data) := by
  obtain ⟨Z, hZ, run⟩ := run_seen2 (val := fun i j mem => forRange n (fun k tmp => do
      let aa ← (Src.mem z).at_ [n, n] [k, i] mem
      let bb ← (Src.ext (tab [n, n] (fn2 B)).data).at_ [n, n] [k, j] mem
      return tmp + aa * bb) 0) A (fun i j g => seqSum n fun k => g k i * B k j) hz
    (fun i hi j hj Y Y' h => seqSum_congr fun k hk => by rw [h k hk i hi])
    (by
      intro i hi j hj m' Z h
      refine forRange_sum (f := fun k => (if k < i ∨ k = i ∧ i < j then Z k i else A k i) * B k j) fun k hk s => ?_
      rw [mem_at2 (h k hk i hi), ext_at2 B hk hj]
      rfl)
  refine ⟨Z, hZ, ?_⟩
  simp only [mtm, contractAssert_pos, Outcome.ok_bind, off2]
  exact run

/-- A matrix times a vector, and a vector times a matrix, written onto the vector. -/
theorem C165_vector {n : Nat} (A : Nat → Nat → R) (B : Nat → R) {z : Nat} {mem : List R} (hz : z + n ≤ mem.length) :
    (∃ Z : Nat → R, (∀ i < n, Z i = seqSum n fun j => A i j * (if j < i then Z j else B j)) ∧
      mv [n, n] [n] [n] (.ext (tab [n, n] (fn2 A)).data) (.mem z) z (store mem z (tab [n] (fn1 B)).data) =
        .ok (store mem z (tab [n] (fn1 Z)).data)) ∧
    ∃ Z : Nat → R, (∀ i < n, Z i = seqSum n fun j => (if j < i then Z j else B j) * A j i) ∧
      vm [n] [n, n] [n] (.mem z) (.ext (tab [n, n] (fn2 A)).data) z (store mem z (tab [n] (fn1 B)).data) =
        .ok (store mem z (tab [n] (fn1 Z)).data) := by
  constructor
  · obtain ⟨Z, hZ, run⟩ := run_seen1 (val := fun i mem => forRange n (fun j tmp => do
        let aa ← (Src.ext (tab [n, n] (fn2 A)).data).at_ [n, n] [i, j] mem
        let bb ← (Src.mem z).at_ [n] [j] mem
        return tmp + aa * bb) 0) B (fun i g => seqSum n fun j => A i j * g j) hz
      (by
        intro i hi m' Z h
        refine forRange_sum (f := fun j => A i j * (if j < i then Z j else B j)) fun j hj s => ?_
        rw [mem_at1 (h j hj), ext_at2 A hi hj]
        rfl)
    refine ⟨Z, hZ, ?_⟩
    simp only [mv, contractAssert_pos, Outcome.ok_bind, off1, tab1_flat]
    exact run
  · obtain ⟨Z, hZ, run⟩ := run_seen1 (val := fun i mem => forRange n (fun j tmp => do
        let aa ← (Src.mem z).at_ [n] [j] mem
        let bb ← (Src.ext (tab [n, n] (fn2 A)).data).at_ [n, n] [j, i] mem
        return tmp + aa * bb) 0) B (fun i g => seqSum n fun j => g j * A j i) hz
      (by
        intro i hi m' Z h
        refine forRange_sum (f := fun j => (if j < i then Z j else B j) * A j i) fun j hj s => ?_
        rw [mem_at1 (h j hj), ext_at2 A hj hi]
        rfl)
    refine ⟨Z, hZ, ?_⟩
    simp only [vm, contractAssert_pos, Outcome.ok_bind, off1, tab1_flat]
    exact run

end

theorem forRange_same {σ : Type} {n : Nat} {body : Nat → σ → Outcome σ} {s : σ} (h : ∀ i < n, body i s = .ok s) :
    forRange n body s = .ok s := by
  induction n with
  | zero => rfl
  | succ n ih => rw [forRange_succ, ih fun i hi => h i (by omega), Outcome.ok_bind, h n (by omega)]

section
variable [Add R] [Mul R] [Zero R]

omit [Add R] [Mul R] in
/-- Clearing the region at `z`. -/
theorem clear_run {z len : Nat} {mem v : List R} (hv : v.length = len) (hz : z + len ≤ mem.length) :
    onSlice z len (fillAll 0) (store mem z v) = .ok (store mem z (List.replicate len 0)) := by
  have h : z + v.length ≤ mem.length := by omega
  have e : (fillAll 0 (cells z len (store mem z v)) : Outcome (List R)) = .ok (List.replicate len 0) := by
    have : cells z len (store mem z v) = v := by rw [← hv]; exact cells_store h
    rw [this, fillAll, List.map_const', hv]
  rw [onSlice_ok (by rw [store_length h]; exact hz) e (by simp), store_again h (by simp [hv])]

omit [Add R] [Mul R] in
theorem zeros_get {z len q : Nat} {mem : List R} (hz : z + len ≤ mem.length) (hq : q < len) :
    (store mem z (List.replicate len (0 : R)))[z + q]? = some 0 := by
  rw [store_getElem? (by simpa using hz), if_pos (by simp; omega), Nat.add_sub_cancel_left]
  simp [hq]

omit [Add R] [Mul R] in
theorem zeros_upd {z len q : Nat} {mem : List R} (hz : z + len ≤ mem.length) (hq : q < len) {f : R → R} (hf : f 0 = 0) :
    upd (store mem z (List.replicate len 0)) (z + q) f = .ok (store mem z (List.replicate len 0)) := by
  have g := zeros_get hz hq
  have hl : (store mem z (List.replicate len (0 : R))).length = mem.length := store_length (by simpa using hz)
  simp only [upd, rd, g, Outcome.ok_bind, hf, wr]
  rw [if_pos (by omega)]
  refine congrArg Outcome.ok (List.ext_getElem? fun p => ?_)
  rw [List.getElem?_set]
  split
  · rename_i h
    rw [if_pos (by omega), ← h, g]
  · rfl

omit [Add R] [Mul R] in
theorem zeros_tab (m n : Nat) : (tab [m, n] (fn2 fun _ _ => (0 : R))).data = List.replicate (m * n) 0 := by
  rw [tab2_flat m n fun _ => 0]
  simp

/-- `matmul` written onto its left factor: the factor is cleared first, and nothing but zeros comes out, if 0 + 0 b is 0 for
the entries `b` of the other factor (true of all numbers, not of the infinities and NaN). -/
theorem C165_matmul_left {m n : Nat} (A B : Nat → Nat → R) (h0 : ∀ k < n, ∀ j < n, 0 + 0 * B k j = 0) {z : Nat}
    {mem : List R} (hz : z + m * n ≤ mem.length) :
    mm [m, n] [n, n] [m, n] (.mem z) (.ext (tab [n, n] (fn2 B)).data) z (store mem z (tab [m, n] (fn2 A)).data) =
      .ok (store mem z (tab [m, n] (fn2 fun _ _ => 0)).data) := by
  have e : [m, n].prod = m * n := by simp
  simp only [mm, contractAssert_pos, Outcome.ok_bind, e]
  rw [clear_run (by simp) hz, Outcome.ok_bind, zeros_tab]
  refine forRange_same fun i hi => forRange_same fun k hk => ?_
  have hik : i * n + k < m * n := by
    have : (i + 1) * n ≤ m * n := Nat.mul_le_mul_right _ hi
    rw [Nat.add_mul, Nat.one_mul] at this
    omega
  rw [mem_at2 (zeros_get hz hik), Outcome.ok_bind]
  refine forRange_same fun j hj => ?_
  have hij : i * n + j < m * n := by
    have : (i + 1) * n ≤ m * n := Nat.mul_le_mul_right _ hi
    rw [Nat.add_mul, Nat.one_mul] at this
    omega
  rw [ext_at2 B hk hj, Outcome.ok_bind, off2]
  exact zeros_upd hz hij (h0 k hk j hj)

/-- `matmul` written onto its right factor. -/
theorem C165_matmul_right {m n : Nat} (A B : Nat → Nat → R) (h0 : ∀ i < m, ∀ k < m, 0 + A i k * 0 = 0) {z : Nat}
    {mem : List R} (hz : z + m * n ≤ mem.length) :
    mm [m, m] [m, n] [m, n] (.ext (tab [m, m] (fn2 A)).data) (.mem z) z (store mem z (tab [m, n] (fn2 B)).data) =
      .ok (store mem z (tab [m, n] (fn2 fun _ _ => 0)).data) := by
  have e : [m, n].prod = m * n := by simp
  have lt : ∀ i < m, ∀ j < n, i * n + j < m * n := by
    intro i hi j hj
    have : (i + 1) * n ≤ m * n := Nat.mul_le_mul_right _ hi
    rw [Nat.add_mul, Nat.one_mul] at this
    omega
  simp only [mm, contractAssert_pos, Outcome.ok_bind, e]
  rw [clear_run (by simp) hz, Outcome.ok_bind, zeros_tab]
  refine forRange_same fun i hi => forRange_same fun k hk => ?_
  rw [ext_at2 A hi hk, Outcome.ok_bind]
  refine forRange_same fun j hj => ?_
  rw [mem_at2 (zeros_get hz (lt k hk j hj)), Outcome.ok_bind, off2]
  exact zeros_upd hz (lt i hi j hj) (h0 i hi k hk)

end

/-- When values computed in place from a linear rule are the intended ones. -/
theorem seen_right [Ring R] {n : Nat} (X Z P : Nat → R) (c : Nat → Nat → R)
    (hZ : ∀ j < n, Z j = ∑ k ∈ range n, (if k < j then Z k else X k) * c j k)
    (hP : ∀ j < n, P j = ∑ k ∈ range n, X k * c j k) :
    (∀ j < n, Z j = P j) ↔ ∀ j < n, ∑ k ∈ range j, (P k - X k) * c j k = 0 := by
  have diff : ∀ j < n, Z j - P j = ∑ k ∈ range j, (Z k - X k) * c j k := by
    intro j hj
    rw [hZ j hj, hP j hj, ← sum_sub_distrib, ← sum_subset (range_subset_range.2 hj.le)]
    · refine sum_congr rfl fun k hk => ?_
      rw [if_pos (mem_range.1 hk), sub_mul]
    · intro k _ hk
      rw [if_neg fun h => hk (mem_range.2 h), sub_self]
  constructor
  · intro h j hj
    have := diff j hj
    rw [h j hj, sub_self] at this
    rw [this]
    refine sum_congr rfl fun k hk => ?_
    rw [h k (lt_trans (mem_range.1 hk) hj)]
  · intro h j
    induction j using Nat.strong_induction_on with
    | _ j ih =>
      intro hj
      have := diff j hj
      rw [← sub_eq_zero, this, ← h j hj]
      refine sum_congr rfl fun k hk => ?_
      rw [ih k (mem_range.1 hk) (lt_trans (mem_range.1 hk) hj)]

/-- Over a ring: a row of `a bᵀ` written onto `a` is right exactly if every entry `j` of it has
`∑ (k < j), (p k - a k) * b j k = 0`, with `p` the right row; so it always is if `b` has zeros below the diagonal. -/
theorem C165_mmt_when [Ring R] {m n : Nat} (A B : Nat → Nat → R) {z : Nat} {mem : List R} (hz : z + m * n ≤ mem.length) :
    ∃ Z : Nat → Nat → R,
      mmt [m, n] [n, n] [m, n] (.mem z) (.ext (tab [n, n] (fn2 B)).data) z (store mem z (tab [m, n] (fn2 A)).data) =
        .ok (store mem z (tab [m, n] (fn2 Z)).data) ∧
      (∀ i < m, (∀ j < n, Z i j = ∑ k ∈ range n, A i k * B j k) ↔
        ∀ j < n, ∑ k ∈ range j, ((∑ l ∈ range n, A i l * B k l) - A i k) * B j k = 0) ∧
      ((∀ j < n, ∀ k < j, B j k = 0) → ∀ i < m, ∀ j < n, Z i j = ∑ k ∈ range n, A i k * B j k) := by
  obtain ⟨Z, hZ, run⟩ := C165_mmt_left A B hz
  have right : ∀ i < m, (∀ j < n, Z i j = ∑ k ∈ range n, A i k * B j k) ↔
      ∀ j < n, ∑ k ∈ range j, ((∑ l ∈ range n, A i l * B k l) - A i k) * B j k = 0 := fun i hi =>
    seen_right (A i) (Z i) (fun j => ∑ k ∈ range n, A i k * B j k) B
      (fun j hj => by rw [hZ i hi j hj, seqSum_eq_sum]) fun j _ => rfl
  refine ⟨Z, run, right, fun h i hi => (right i hi).2 fun j hj => sum_eq_zero fun k hk => ?_⟩
  rw [h j hj k (mem_range.1 hk), mul_zero]

/-- Over a commutative ring: the same for `aᵀ b` written onto `b`, by columns. -/
theorem C165_mtm_when [CommRing R] {m n : Nat} (A B : Nat → Nat → R) {z : Nat} {mem : List R} (hz : z + m * n ≤ mem.length) :
    ∃ Z : Nat → Nat → R,
      mtm [m, m] [m, n] [m, n] (.ext (tab [m, m] (fn2 A)).data) (.mem z) z (store mem z (tab [m, n] (fn2 B)).data) =
        .ok (store mem z (tab [m, n] (fn2 Z)).data) ∧
      (∀ j < n, (∀ i < m, Z i j = ∑ k ∈ range m, A k i * B k j) ↔
        ∀ i < m, ∑ k ∈ range i, A k i * ((∑ l ∈ range m, A l k * B l j) - B k j) = 0) ∧
      ((∀ i < m, ∀ k < i, A k i = 0) → ∀ i < m, ∀ j < n, Z i j = ∑ k ∈ range m, A k i * B k j) := by
  obtain ⟨Z, hZ, run⟩ := C165_mtm_right A B hz
  have right : ∀ j < n, (∀ i < m, Z i j = ∑ k ∈ range m, A k i * B k j) ↔
      ∀ i < m, ∑ k ∈ range i, A k i * ((∑ l ∈ range m, A l k * B l j) - B k j) = 0 := fun j hj => by
    have := seen_right (n := m) (fun i => B i j) (fun i => Z i j) (fun i => ∑ k ∈ range m, A k i * B k j) (fun i k => A k i)
      (fun i hi => by
        rw [hZ i hi j hj, seqSum_eq_sum]
        exact sum_congr rfl fun k _ => mul_comm _ _)
      fun i _ => sum_congr rfl fun k _ => mul_comm _ _
    rw [this]
    refine forall₂_congr fun i _ => ?_
    rw [sum_congr rfl fun k _ => mul_comm (A k i) _]
  refine ⟨Z, run, right, fun h i hi j hj => (right j hj).2 (fun i hi => sum_eq_zero fun k hk => ?_) i hi⟩
  rw [h i hi k (mem_range.1 hk), zero_mul]

/-! ## Transposes -/

/-- Every example of a batch is an `b` by `a` matrix that is read by columns and written by rows, in place. -/
theorem turn_run [Zero R] (f : R → R) {n a b z : Nat} (X : Nat → Nat → R) {mem : List R} (hz : z + n * (a * b) ≤ mem.length) :
    ∃ Z : Nat → Nat → R,
      (∀ l < n, ∀ x < a, ∀ y < b, Z l (x * b + y) =
        f (if y * a + x < x * b + y then Z l (y * a + x) else X l (y * a + x))) ∧
      forRange n (fun l mem => forRange a (fun x mem => forRange b (fun y mem =>
        rd mem (z + (l * (a * b) + (y * a + x))) >>= fun v => wr mem (z + (l * (a * b) + (x * b + y))) (f v)) mem) mem)
          (store mem z (tab [n, a * b] (fn2 X)).data) = .ok (store mem z (tab [n, a * b] (fn2 Z)).data) := by
  have dm : ∀ x y, y < b → (x * b + y) / b = x ∧ (x * b + y) % b = y := fun x y hy => by
    refine ⟨?_, ?_⟩
    · rw [Nat.mul_comm, Nat.mul_add_div (by omega), Nat.div_eq_of_lt hy, Nat.add_zero]
    · rw [Nat.mul_comm, Nat.mul_add_mod, Nat.mod_eq_of_lt hy]
  have src : ∀ t < a * b, t % b * a + t / b < a * b := by
    intro t ht
    have hb : 0 < b := by
      rcases Nat.eq_zero_or_pos b with h | h
      · subst h; simp at ht
      · exact h
    have h1 : t / b < a := by rwa [Nat.div_lt_iff_lt_mul hb]
    have h2 : (t % b + 1) * a ≤ b * a := Nat.mul_le_mul_right _ (Nat.mod_lt _ hb)
    rw [Nat.add_mul, Nat.one_mul] at h2
    rw [Nat.mul_comm a b]
    omega
  obtain ⟨Z, hZ, run⟩ := run_seen2 (m := n) (n := a * b) (z := z) (mem := mem)
    (val := fun l t mem => rd mem (z + (l * (a * b) + (t % b * a + t / b))) >>= fun v => .ok (f v)) X
    (fun l t g => f (g l (t % b * a + t / b))) hz
    (fun l hl t ht Y Y' h => by rw [h l hl _ (src t ht)])
    (by
      intro l hl t ht m' Z h
      rw [rd_some (h l hl _ (src t ht)), Outcome.ok_bind])
  refine ⟨Z, fun l hl x hx y hy => ?_, ?_⟩
  · have ht : x * b + y < a * b := by
      have : (x + 1) * b ≤ a * b := Nat.mul_le_mul_right _ hx
      rw [Nat.add_mul, Nat.one_mul] at this
      omega
    have := hZ l hl _ ht
    simp only [(dm x y hy).1, (dm x y hy).2] at this
    rw [this]
    simp
  · rw [← run]
    refine forRange_congr (fun l hl s => ?_) _
    rw [← forRange_nest a b]
    refine forRange_congr (fun x hx s => forRange_congr (fun y hy s => ?_) s) s
    simp only [(dm x y hy).1, (dm x y hy).2]
    cases rd s (z + (l * (a * b) + (y * a + x))) <;> rfl

/-- Writing at an address is injective. -/
theorem store_inj {z : Nat} {mem v w : List R} (h : z + v.length ≤ mem.length) (hw : w.length = v.length)
    (e : store mem z v = store mem z w) : v = w := by
  have h1 := cells_store h
  have h2 := cells_store (off := z) (b := mem) (s := w) (by omega)
  rw [← h1, e, ← hw, h2]

/-- It comes out right for all contents exactly if the matrix has one row or one column. -/
theorem turn_when [Zero R] [Nontrivial R] {n a b z : Nat} (hn : 1 ≤ n) (ha : 1 ≤ a) (hb : 1 ≤ b) {mem : List R}
    (hz : z + n * (a * b) ≤ mem.length) :
    (∀ X P : Nat → Nat → R, (∀ l < n, ∀ x < a, ∀ y < b, P l (x * b + y) = X l (y * a + x)) →
      forRange n (fun l mem => forRange a (fun x mem => forRange b (fun y mem =>
        rd mem (z + (l * (a * b) + (y * a + x))) >>= fun v => wr mem (z + (l * (a * b) + (x * b + y))) (id v)) mem) mem)
          (store mem z (tab [n, a * b] (fn2 X)).data) = .ok (store mem z (tab [n, a * b] (fn2 P)).data)) ↔ a = 1 ∨ b = 1 := by
  constructor
  · intro h
    by_contra c
    have ha2 : 2 ≤ a := by omega
    have hb2 : 2 ≤ b := by omega
    obtain ⟨u, v, huv⟩ := exists_pair_ne R
    let X : Nat → Nat → R := fun _ q => if q = 1 then u else v
    let P : Nat → Nat → R := fun l t => X l (t % b * a + t / b)
    have hP : ∀ l < n, ∀ x < a, ∀ y < b, P l (x * b + y) = X l (y * a + x) := by
      intro l _ x _ y hy
      have h1 : (x * b + y) / b = x := by
        rw [Nat.mul_comm, Nat.mul_add_div (by omega), Nat.div_eq_of_lt hy, Nat.add_zero]
      have h2 : (x * b + y) % b = y := by
        rw [Nat.mul_comm, Nat.mul_add_mod, Nat.mod_eq_of_lt hy]
      simp only [P, h1, h2]
    obtain ⟨Z, hZ, run⟩ := turn_run id X hz
    have e := h X P hP
    rw [run] at e
    have e' := store_inj (by simpa using hz) (by simp) (Outcome.ok.inj e)
    have hab : b < a * b := by
      have : 2 * b ≤ a * b := Nat.mul_le_mul_right _ ha2
      omega
    have eq := tab_eq_iff.1 (show tab [n, a * b] (fn2 Z) = tab [n, a * b] (fn2 P) from
      congrArg (Tensor.mk [n, a * b]) e') [0, b] (v2 (by omega) hab)
    simp only [fn2_apply] at eq
    have z1 := hZ 0 (by omega) 0 (by omega) 1 (by omega)
    have zb := hZ 0 (by omega) 1 (by omega) 0 (by omega)
    have pb := hP 0 (by omega) 1 (by omega) 0 (by omega)
    simp only [Nat.zero_mul, Nat.one_mul, Nat.zero_add, Nat.add_zero] at z1 zb pb
    rw [if_neg (by omega)] at z1
    rw [if_pos (by omega), z1] at zb
    rw [zb, pb] at eq
    simp only [X, id] at eq
    rw [if_neg (by omega), if_pos trivial] at eq
    exact huv eq.symm
  · intro hab X P hP
    obtain ⟨Z, hZ, run⟩ := turn_run id X hz
    rw [run]
    refine congrArg (fun t => Outcome.ok (store mem z (Tensor.data t))) (tab_congr fun idx hv => ?_)
    match idx, hv with
    | [l, t], hv =>
      have hl : l < n := hv.1
      have ht : t < a * b := hv.2.1
      simp only [fn2_apply]
      have hx : t / b < a := by rwa [Nat.div_lt_iff_lt_mul (by omega)]
      have hy : t % b < b := Nat.mod_lt _ (by omega)
      have ht' := Nat.div_add_mod' t b
      have e1 := hZ l hl _ hx _ hy
      have e2 := hP l hl _ hx _ hy
      rw [ht'] at e1 e2
      rw [e1, e2, if_neg]
      · rfl
      · rcases hab with h | h
        · subst h
          have h0 : t / b = 0 := Nat.div_eq_of_lt (by omega)
          rw [h0] at ht' ⊢
          omega
        · subst h
          have : t % 1 = 0 := by omega
          rw [this] at ht' ⊢
          omega

/-- The loops of a transpose to channels first onto its input. -/
theorem toFirst_turn (f : R → R) (n h w c z : Nat) (mem : List R) :
    toFirst f [n, h, w, c] [n, c, h, w] (.mem z) z mem =
      forRange n (fun l mem => forRange c (fun x mem => forRange (h * w) (fun y mem =>
        rd mem (z + (l * (c * (h * w)) + (y * c + x))) >>= fun v =>
          wr mem (z + (l * (c * (h * w)) + (x * (h * w) + y))) (f v)) mem) mem) mem := by
  rw [toFirst]
  refine forRange_congr (fun l hl s => forRange_congr (fun k hk s => ?_) s) _
  rw [← forRange_nest h w]
  refine forRange_congr (fun i hi s => forRange_congr (fun j hj s => ?_) s) s
  have e1 : offset [n, h, w, c] [l, i, j, k] = l * (c * (h * w)) + ((i * w + j) * c + k) := by
    simp only [offset_cons, offset_nil, List.prod_cons, List.prod_nil]; ring
  have e2 : offset [n, c, h, w] [l, k, i, j] = l * (c * (h * w)) + (k * (h * w) + (i * w + j)) := by
    simp only [offset_cons, offset_nil, List.prod_cons, List.prod_nil]; ring
  simp only [Src.at_, Src.rd, e1, e2]

/-- The loops of a transpose to channels last onto its input. -/
theorem toLast_turn (f : R → R) (n h w c z : Nat) (mem : List R) :
    toLast f [n, c, h, w] [n, h, w, c] (.mem z) z mem =
      forRange n (fun l mem => forRange (h * w) (fun x mem => forRange c (fun y mem =>
        rd mem (z + (l * (h * w * c) + (y * (h * w) + x))) >>= fun v =>
          wr mem (z + (l * (h * w * c) + (x * c + y))) (f v)) mem) mem) mem := by
  rw [toLast]
  refine forRange_congr (fun l hl s => ?_) _
  rw [← forRange_nest h w (fun x s => forRange c (fun y s =>
    rd s (z + (l * (h * w * c) + (y * (h * w) + x))) >>= fun v => wr s (z + (l * (h * w * c) + (x * c + y))) (f v)) s)]
  refine forRange_congr (fun i hi s => forRange_congr (fun j hj s => forRange_congr (fun k hk s => ?_) s) s) s
  have e1 : offset [n, c, h, w] [l, k, i, j] = l * (h * w * c) + (k * (h * w) + (i * w + j)) := by
    simp only [offset_cons, offset_nil, List.prod_cons, List.prod_nil]; ring
  have e2 : offset [n, h, w, c] [l, i, j, k] = l * (h * w * c) + ((i * w + j) * c + k) := by
    simp only [offset_cons, offset_nil, List.prod_cons, List.prod_nil]; ring
  simp only [Src.at_, Src.rd, e1, e2]

section
variable [Zero R]

/-- Transposing to channels first onto the input: pixel `s` of channel `k` is taken from the results if its place in the
input was already written. -/
theorem C165_to_first (f : R → R) {n h w c z : Nat} (X : Nat → Nat → R) {mem : List R}
    (hz : z + n * (c * (h * w)) ≤ mem.length) :
    ∃ Z : Nat → Nat → R,
      (∀ l < n, ∀ k < c, ∀ s < h * w, Z l (k * (h * w) + s) =
        f (if s * c + k < k * (h * w) + s then Z l (s * c + k) else X l (s * c + k))) ∧
      toFirst f [n, h, w, c] [n, c, h, w] (.mem z) z (store mem z (tab [n, c * (h * w)] (fn2 X)).data) =
        .ok (store mem z (tab [n, c * (h * w)] (fn2 Z)).data) := by
  rw [toFirst_turn]
  exact turn_run f X hz

/-- Transposing to channels last onto the input. -/
theorem C165_to_last (f : R → R) {n h w c z : Nat} (X : Nat → Nat → R) {mem : List R}
    (hz : z + n * (h * w * c) ≤ mem.length) :
    ∃ Z : Nat → Nat → R,
      (∀ l < n, ∀ s < h * w, ∀ k < c, Z l (s * c + k) =
        f (if k * (h * w) + s < s * c + k then Z l (k * (h * w) + s) else X l (k * (h * w) + s))) ∧
      toLast f [n, c, h, w] [n, h, w, c] (.mem z) z (store mem z (tab [n, h * w * c] (fn2 X)).data) =
        .ok (store mem z (tab [n, h * w * c] (fn2 Z)).data) := by
  rw [toLast_turn]
  exact turn_run f X hz

/-- A transpose onto its input is right for all contents exactly for one channel or one pixel. -/
theorem C165_transpose_when [Nontrivial R] {n h w c z : Nat} (hn : 1 ≤ n) (hs : 1 ≤ h * w) (hc : 1 ≤ c) {mem : List R}
    (hz : z + n * (c * (h * w)) ≤ mem.length) :
    ((∀ X P : Nat → Nat → R, (∀ l < n, ∀ k < c, ∀ s < h * w, P l (k * (h * w) + s) = X l (s * c + k)) →
      toFirst id [n, h, w, c] [n, c, h, w] (.mem z) z (store mem z (tab [n, c * (h * w)] (fn2 X)).data) =
        .ok (store mem z (tab [n, c * (h * w)] (fn2 P)).data)) ↔ c = 1 ∨ h * w = 1) ∧
    ((∀ X P : Nat → Nat → R, (∀ l < n, ∀ s < h * w, ∀ k < c, P l (s * c + k) = X l (k * (h * w) + s)) →
      toLast id [n, c, h, w] [n, h, w, c] (.mem z) z (store mem z (tab [n, h * w * c] (fn2 X)).data) =
        .ok (store mem z (tab [n, h * w * c] (fn2 P)).data)) ↔ c = 1 ∨ h * w = 1) := by
  simp only [toFirst_turn, toLast_turn]
  refine ⟨turn_when hn hc hs hz, ?_⟩
  rw [turn_when hn hs hc (by rwa [Nat.mul_comm (h * w) c]), or_comm]
end

/-! ## Concrete cases -/

example := (C165_separate 2 3 3 2 2 2 [1, 2, 3, 4, 5, (6 : Int)] [1, 0, 2, 0, 3, 1] 1 (List.replicate 6 0)).1 (by decide)
/-- A product with a matrix that is not triangular goes wrong in place; the right second entry is 4. -/
example : mmt [1, 2] [2, 2] [1, 2] (.mem 0) (.ext [1, 1, 2, 1]) 0 [1, (2 : Int)] = .ok [3, 8] ∧
    mmt [1, 2] [2, 2] [1, 2] (.ext [1, 2]) (.ext [1, 1, 2, 1]) 0 [1, (2 : Int)] = .ok [3, 4] := by decide
example := C165_mmt_left (m := 1) (n := 2) (fun _ j => (j : Int) + 1) (fun i j => (2 * i + j : Int)) (z := 1)
  (mem := [0, 0, 0]) (by decide)
example := C165_mmt_right (n := 2) (fun _ j => (j : Int) + 1) (fun i j => (2 * i + j : Int)) (z := 1)
  (mem := [0, 0, 0, 0, 0]) (by decide)
example := C165_mtm_left (n := 2) (fun _ j => (j : Int) + 1) (fun i j => (2 * i + j : Int)) (z := 1)
  (mem := [0, 0, 0, 0, 0]) (by decide)
example := C165_mtm_right (m := 2) (n := 1) (fun _ j => (j : Int) + 1) (fun i j => (2 * i + j : Int)) (z := 1)
  (mem := [0, 0, 0]) (by decide)
example := C165_vector (n := 2) (fun i j => (2 * i + j : Int)) (fun j => (j : Int) + 1) (z := 1) (mem := [0, 0, 0]) (by decide)
example := C165_matmul_left (m := 3) (n := 2) (fun _ j => (j : Int) + 1) (fun i j => (2 * i + j : Int)) (by decide) (z := 1)
  (mem := List.replicate 7 4) (by decide)
example := C165_matmul_right (m := 2) (n := 3) (fun _ j => (j : Int) + 1) (fun i j => (2 * i + j : Int)) (by decide) (z := 1)
  (mem := List.replicate 7 4) (by decide)
/-- With a factor that has zeros below the diagonal. -/
example := (C165_mmt_when (m := 2) (n := 2) (fun i j => (i : Int) + j) (fun i j => if i ≤ j then 3 else 0) (z := 1)
  (mem := List.replicate 5 4) (by decide)).imp fun _ h => h.2.2 (by decide)
example := (C165_mtm_when (m := 2) (n := 2) (fun i j => if j ≤ i then 3 else 0) (fun i j => (i : Int) + j) (z := 1)
  (mem := List.replicate 5 4) (by decide)).imp fun _ h => h.2.2 (by decide)
example := C165_to_first (fun v : Int => v + 1) (n := 1) (h := 2) (w := 1) (c := 2) (fun _ q => (q : Int)) (z := 1)
  (mem := List.replicate 5 4) (by decide)
example := C165_to_last (fun v : Int => v + 1) (n := 1) (h := 2) (w := 1) (c := 2) (fun _ q => (q : Int)) (z := 1)
  (mem := List.replicate 5 4) (by decide)
/-- Two pixels of two channels: the entry for pixel 0 of channel 1 is lost. -/
example : toFirst id [1, 2, 1, 2] [1, 2, 2, 1] (.mem 0) 0 [1, 2, 3, (4 : Int)] = .ok [1, 3, 3, 4] ∧
    ¬ ((2 : Nat) = 1 ∨ 2 * 1 = 1) := by decide
example := (C165_transpose_when (R := Int) (n := 2) (h := 2) (w := 2) (c := 1) (z := 1) (by decide) (by decide) (by decide)
  (mem := List.replicate 9 4) (by decide)).1.2 (.inl rfl)

end Shared
end StdNN
