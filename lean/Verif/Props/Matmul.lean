import Verif.Lemmas.Engine
import Mathlib.Algebra.BigOperators.Ring.Finset
import Mathlib.Data.Int.Order.Basic
import Mathlib.Algebra.Ring.Int.Defs
/-!
# C16-C20: matrix products

Flat addresses below are row-major: element `(i, j)` of an `m × n` matrix is cell `i * n + j`.
-/
namespace StdNN
open Outcome Spec
variable {T : Type}

theorem eq_tab2 [Zero T] {a : Tensor T} {m n : Nat} (hd : a.dims = [m, n]) (hl : a.data.length = m * n) :
    a = tab [m, n] (fn2 fun i j => a.data.getD (i * n + j) 0) := by
  obtain ⟨dims, data⟩ := a
  simp only at hd hl
  subst hd
  have : data = (tab [m, n] (fn2 fun i j => data.getD (i * n + j) 0)).data := by
    apply data_eq_tab (by simpa using hl)
    intro idx hv
    match idx, hv with
    | [i, j], hv =>
      have := offset_lt (dims := [m, n]) (idx := [i, j]) hv
      simp at this
      simp [hl, this]
  conv_lhs => rw [this]
  rfl

theorem eq_tab1 [Zero T] {a : Tensor T} {n : Nat} (hd : a.dims = [n]) (hl : a.data.length = n) :
    a = tab [n] (fn1 fun j => a.data.getD j 0) := by
  obtain ⟨dims, data⟩ := a
  simp only at hd hl
  subst hd
  have : data = (tab [n] (fn1 fun j => data.getD j 0)).data := by
    apply data_eq_tab (by simpa using hl)
    intro idx hv
    match idx, hv with
    | [j], hv =>
      have : j < n := hv.1
      simp [hl, this]
  conv_lhs => rw [this]
  rfl

theorem tab2_cell {m n : Nat} (f : List Nat → T) {i j : Nat} (hi : i < m) (hj : j < n) :
    (tab [m, n] f).data[i * n + j]? = some (f [i, j]) := by
  have := tab_getElem? (dims := [m, n]) (idx := [i, j]) f (v2 hi hj)
  simpa using this

theorem tab1_cell {n : Nat} (f : List Nat → T) {j : Nat} (hj : j < n) :
    (tab [n] f).data[j]? = some (f [j]) := by
  have := tab_getElem? (dims := [n]) (idx := [j]) f (v1 hj)
  simpa using this

section exact
variable [Add T] [Mul T] [Zero T]

/-- C16 (`mm`): every cell is the sum of products accumulated in increasing order, whatever the output held before. -/
theorem C16_mm {a b : Tensor T} {m l n : Nat} {c : List T} (ha : a.dims = [m, l]) (hb : b.dims = [l, n])
    (la : a.data.length = m * l) (lb : b.data.length = l * n) (lc : c.length = m * n) :
    ∃ c', Plain.mm a b [m, n] c = .ok c' ∧ c'.length = m * n ∧ ∀ i < m, ∀ j < n,
      c'[i * n + j]? = some (seqSum l fun k => a.data.getD (i * l + k) 0 * b.data.getD (k * n + j) 0) := by
  have ea := eq_tab2 ha la
  have eb := eq_tab2 hb lb
  refine ⟨_, by rw [ea, eb]; exact Plain.mm_run _ _ lc, by simp, fun i hi j hj => ?_⟩
  rw [tab2_cell _ hi hj]
  rfl

/-- C16 (`mmt`). -/
theorem C16_mmt {a b : Tensor T} {m l n : Nat} {c : List T} (ha : a.dims = [m, l]) (hb : b.dims = [n, l])
    (la : a.data.length = m * l) (lb : b.data.length = n * l) (lc : c.length = m * n) :
    ∃ c', Plain.mmt a b [m, n] c = .ok c' ∧ c'.length = m * n ∧ ∀ i < m, ∀ j < n,
      c'[i * n + j]? = some (seqSum l fun k => a.data.getD (i * l + k) 0 * b.data.getD (j * l + k) 0) := by
  have ea := eq_tab2 ha la
  have eb := eq_tab2 hb lb
  refine ⟨_, by rw [ea, eb]; exact Plain.mmt_run _ _ lc, by simp, fun i hi j hj => ?_⟩
  rw [tab2_cell _ hi hj]
  rfl

/-- C16 (`mtm`). -/
theorem C16_mtm {a b : Tensor T} {m l n : Nat} {c : List T} (ha : a.dims = [l, m]) (hb : b.dims = [l, n])
    (la : a.data.length = l * m) (lb : b.data.length = l * n) (lc : c.length = m * n) :
    ∃ c', Plain.mtm a b [m, n] c = .ok c' ∧ c'.length = m * n ∧ ∀ i < m, ∀ j < n,
      c'[i * n + j]? = some (seqSum l fun k => a.data.getD (k * m + i) 0 * b.data.getD (k * n + j) 0) := by
  have ea := eq_tab2 ha la
  have eb := eq_tab2 hb lb
  refine ⟨_, by rw [ea, eb]; exact Plain.mtm_run _ _ lc, by simp, fun i hi j hj => ?_⟩
  rw [tab2_cell _ hi hj]
  rfl

/-- C16 (`mv`). -/
theorem C16_mv {a b : Tensor T} {m n : Nat} {c : List T} (ha : a.dims = [m, n]) (hb : b.dims = [n])
    (la : a.data.length = m * n) (lb : b.data.length = n) (lc : c.length = m) :
    ∃ c', Plain.mv a b [m] c = .ok c' ∧ c'.length = m ∧ ∀ i < m,
      c'[i]? = some (seqSum n fun j => a.data.getD (i * n + j) 0 * b.data.getD j 0) := by
  have ea := eq_tab2 ha la
  have eb := eq_tab1 hb lb
  refine ⟨_, by rw [ea, eb]; exact Plain.mv_run _ _ lc, by simp, fun i hi => ?_⟩
  rw [tab1_cell _ hi]
  rfl

/-- C16 (`vm`). -/
theorem C16_vm {a b : Tensor T} {m n : Nat} {c : List T} (ha : a.dims = [m]) (hb : b.dims = [m, n])
    (la : a.data.length = m) (lb : b.data.length = m * n) (lc : c.length = n) :
    ∃ c', Plain.vm a b [n] c = .ok c' ∧ c'.length = n ∧ ∀ i < n,
      c'[i]? = some (seqSum m fun j => a.data.getD j 0 * b.data.getD (j * n + i) 0) := by
  have ea := eq_tab1 ha la
  have eb := eq_tab2 hb lb
  refine ⟨_, by rw [ea, eb]; exact Plain.vm_run _ _ lc, by simp, fun i hi => ?_⟩
  rw [tab1_cell _ hi]
  rfl

/-- C17 (`mm`): the call throws `std::runtime_error` exactly on non-conforming shapes. -/
theorem C17_mm {a b : Tensor T} {m l l' n cm cn : Nat} {c : List T} (ha : a.dims = [m, l]) (hb : b.dims = [l', n])
    (wa : a.WF) (wb : b.WF) (wc : c.length = cm * cn) :
    Plain.mm a b [cm, cn] c = .throw .runtimeError ↔ ¬ (l' = l ∧ cm = m ∧ cn = n) := by
  by_cases h : l' = l ∧ cm = m ∧ cn = n
  · obtain ⟨rfl, rfl, rfl⟩ := h
    obtain ⟨c', e, -⟩ := C16_mm ha hb (by simpa [Tensor.WF, ha] using wa) (by simpa [Tensor.WF, hb] using wb) wc
    simp [e]
  · simp only [h, not_false_eq_true, iff_true, Plain.mm, ha, hb]
    by_cases h1 : l' = l
    · by_cases h2 : m = cm
      · have h3 : n ≠ cn := by rintro rfl; exact h ⟨h1, h2.symm, rfl⟩
        simp [contractAssert, h1, h2, h3]
      · simp [contractAssert, h1, h2]
    · simp [contractAssert, h1]

/-- C17 (`mmt`). -/
theorem C17_mmt {a b : Tensor T} {m l l' n cm cn : Nat} {c : List T} (ha : a.dims = [m, l]) (hb : b.dims = [n, l'])
    (wa : a.WF) (wb : b.WF) (wc : c.length = cm * cn) :
    Plain.mmt a b [cm, cn] c = .throw .runtimeError ↔ ¬ (l' = l ∧ cm = m ∧ cn = n) := by
  by_cases h : l' = l ∧ cm = m ∧ cn = n
  · obtain ⟨rfl, rfl, rfl⟩ := h
    obtain ⟨c', e, -⟩ := C16_mmt ha hb (by simpa [Tensor.WF, ha] using wa) (by simpa [Tensor.WF, hb] using wb) wc
    simp [e]
  · simp only [h, not_false_eq_true, iff_true, Plain.mmt, ha, hb]
    by_cases h1 : l' = l
    · by_cases h2 : m = cm
      · have h3 : n ≠ cn := by rintro rfl; exact h ⟨h1, h2.symm, rfl⟩
        simp [contractAssert, h1, h2, h3]
      · simp [contractAssert, h1, h2]
    · simp [contractAssert, h1]

/-- C17 (`mtm`). -/
theorem C17_mtm {a b : Tensor T} {m l l' n cm cn : Nat} {c : List T} (ha : a.dims = [l, m]) (hb : b.dims = [l', n])
    (wa : a.WF) (wb : b.WF) (wc : c.length = cm * cn) :
    Plain.mtm a b [cm, cn] c = .throw .runtimeError ↔ ¬ (l' = l ∧ cm = m ∧ cn = n) := by
  by_cases h : l' = l ∧ cm = m ∧ cn = n
  · obtain ⟨rfl, rfl, rfl⟩ := h
    obtain ⟨c', e, -⟩ := C16_mtm ha hb (by simpa [Tensor.WF, ha] using wa) (by simpa [Tensor.WF, hb] using wb) wc
    simp [e]
  · simp only [h, not_false_eq_true, iff_true, Plain.mtm, ha, hb]
    by_cases h1 : l' = l
    · by_cases h2 : m = cm
      · have h3 : n ≠ cn := by rintro rfl; exact h ⟨h1, h2.symm, rfl⟩
        simp [contractAssert, h1, h2, h3]
      · simp [contractAssert, h1, h2]
    · simp [contractAssert, h1]

/-- C17 (`mv`). -/
theorem C17_mv {a b : Tensor T} {m n n' cm : Nat} {c : List T} (ha : a.dims = [m, n]) (hb : b.dims = [n'])
    (wa : a.WF) (wb : b.WF) (wc : c.length = cm) :
    Plain.mv a b [cm] c = .throw .runtimeError ↔ ¬ (n' = n ∧ cm = m) := by
  by_cases h : n' = n ∧ cm = m
  · obtain ⟨rfl, rfl⟩ := h
    obtain ⟨c', e, -⟩ := C16_mv ha hb (by simpa [Tensor.WF, ha] using wa) (by simpa [Tensor.WF, hb] using wb) wc
    simp [e]
  · simp only [h, not_false_eq_true, iff_true, Plain.mv, ha, hb]
    by_cases h1 : n = n'
    · have h3 : m ≠ cm := by rintro rfl; exact h ⟨h1.symm, rfl⟩
      simp [contractAssert, h1, h3]
    · simp [contractAssert, h1]

/-- C17 (`vm`). -/
theorem C17_vm {a b : Tensor T} {m m' n cn : Nat} {c : List T} (ha : a.dims = [m']) (hb : b.dims = [m, n])
    (wa : a.WF) (wb : b.WF) (wc : c.length = cn) :
    Plain.vm a b [cn] c = .throw .runtimeError ↔ ¬ (m' = m ∧ cn = n) := by
  by_cases h : m' = m ∧ cn = n
  · obtain ⟨rfl, rfl⟩ := h
    obtain ⟨c', e, -⟩ := C16_vm ha hb (by simpa [Tensor.WF, ha] using wa) (by simpa [Tensor.WF, hb] using wb) wc
    simp [e]
  · simp only [h, not_false_eq_true, iff_true, Plain.vm, ha, hb]
    by_cases h1 : m = m'
    · have h3 : n ≠ cn := by rintro rfl; exact h ⟨h1.symm, rfl⟩
      simp [contractAssert, h1, h3]
    · simp [contractAssert, h1]

/-- The transposed matrix, as a specification: element `(i, j)` is element `(j, i)` of the argument. -/
def Spec.transposed (A : List Nat → T) : List Nat → T := fn2 fun i j => A [j, i]

/-- C18: `mmt(a, b)` is bit for bit `mm(a, bᵀ)`. -/
theorem C18_mmt {m l n : Nat} (A B : List Nat → T) {c c' : List T} (hc : c.length = m * n) (hc' : c'.length = m * n) :
    Plain.mmt (tab [m, l] A) (tab [n, l] B) [m, n] c =
      Plain.mm (tab [m, l] A) (tab [l, n] (Spec.transposed B)) [m, n] c' := by
  rw [Plain.mmt_run A B hc, Plain.mm_run A _ hc']
  rfl

/-- C18: `mtm(a, b)` is bit for bit `mm(aᵀ, b)`. -/
theorem C18_mtm {m l n : Nat} (A B : List Nat → T) {c c' : List T} (hc : c.length = m * n) (hc' : c'.length = m * n) :
    Plain.mtm (tab [l, m] A) (tab [l, n] B) [m, n] c =
      Plain.mm (tab [m, l] (Spec.transposed A)) (tab [l, n] B) [m, n] c' := by
  rw [Plain.mtm_run A B hc, Plain.mm_run _ B hc']
  rfl

/-- C18: `mv(a, b)` writes the same cells as `mm` with the vector as an `n × 1` matrix. -/
theorem C18_mv {m n : Nat} {a b : Tensor T} {c c' : List T} (ha : a.dims = [m, n]) (hb : b.dims = [n])
    (la : a.data.length = m * n) (lb : b.data.length = n) (hc : c.length = m) (hc' : c'.length = m) :
    Plain.mv a b [m] c = Plain.mm a ⟨[n, 1], b.data⟩ [m, 1] c' := by
  obtain ⟨r, e, lr, hr⟩ := C16_mv ha hb la lb hc
  obtain ⟨r', e', lr', hr'⟩ := C16_mm (b := ⟨[n, 1], b.data⟩) (c := c') ha rfl la (by simpa using lb) (by simpa using hc')
  rw [e, e']
  congr 1
  apply List.ext_getElem?
  intro i
  by_cases hi : i < m
  · have := hr' i hi 0 (by omega)
    simp only [Nat.mul_one, Nat.add_zero] at this
    rw [hr i hi, this]
  · rw [List.getElem?_eq_none (by omega), List.getElem?_eq_none (by omega)]

/-- C18: `vm(a, b)` writes the same cells as `mm` with the vector as a `1 × m` matrix. -/
theorem C18_vm {m n : Nat} {a b : Tensor T} {c c' : List T} (ha : a.dims = [m]) (hb : b.dims = [m, n])
    (la : a.data.length = m) (lb : b.data.length = m * n) (hc : c.length = n) (hc' : c'.length = n) :
    Plain.vm a b [n] c = Plain.mm ⟨[1, m], a.data⟩ b [1, n] c' := by
  obtain ⟨r, e, lr, hr⟩ := C16_vm ha hb la lb hc
  obtain ⟨r', e', lr', hr'⟩ := C16_mm (a := ⟨[1, m], a.data⟩) (c := c') rfl hb (by simpa using la) lb (by simpa using hc')
  rw [e, e']
  congr 1
  apply List.ext_getElem?
  intro i
  by_cases hi : i < n
  · have := hr' 0 (by omega) i hi
    simp only [Nat.zero_mul, Nat.zero_add] at this
    rw [hr i hi, this]
  · rw [List.getElem?_eq_none (by omega), List.getElem?_eq_none (by omega)]

end exact

/-- Non-vacuity of C16-C18: a 2×3 by 3×2 product over `Int` with garbage in the output; and a rejected shape. -/
example : Plain.mm (⟨[2, 3], [1, 2, 3, 4, 5, 6]⟩ : Tensor Int) ⟨[3, 2], [1, 0, 0, 1, 2, 2]⟩ [2, 2] [9, 9, 9, 9] =
      .ok [7, 8, 16, 17] ∧
    Plain.mmt (⟨[2, 3], [1, 2, 3, 4, 5, 6]⟩ : Tensor Int) ⟨[2, 3], [1, 0, 2, 0, 1, 2]⟩ [2, 2] [9, 9, 9, 9] =
      .ok [7, 8, 16, 17] ∧
    Plain.mm (⟨[2, 3], [1, 2, 3, 4, 5, 6]⟩ : Tensor Int) ⟨[2, 2], [1, 0, 0, 1]⟩ [2, 2] [9, 9, 9, 9] =
      .throw .runtimeError := by decide

/-! ## C19 -/

section cblas
theorem i32_conv_nat {n : Nat} (h : n < 2 ^ 31) : IntTy.i32.conv (n : Int) = n :=
  IntTy.conv_eq IntTy.i32_std (IntTy.In.small IntTy.i32_std (by omega) (by omega))

theorem rd_tab2 {m n : Nat} (f : List Nat → T) {i j : Nat} (hi : i < m) (hj : j < n) :
    rd (tab [m, n] f).data (i * n + j) = .ok (f [i, j]) := by
  simp [rd, tab2_cell f hi hj]

theorem rd_tab1 {n : Nat} (f : List Nat → T) {j : Nat} (hj : j < n) :
    rd (tab [n] f).data j = .ok (f [j]) := by
  simp [rd, tab1_cell f hj]

variable [Semiring T] [DecidableEq T]

/-- C19 (`mm`): with netlib's row-major gemm both engines write the same matrix. -/
theorem C19_mm {m l n : Nat} (l1 : 1 ≤ l) (n1 : 1 ≤ n) (hm : m < 2 ^ 31) (hl : l < 2 ^ 31) (hn : n < 2 ^ 31)
    (A B : List Nat → T) {c : List T} (hc : c.length = m * n) :
    Cblas.mm (tab [m, l] A) (tab [l, n] B) [m, n] c = Plain.mm (tab [m, l] A) (tab [l, n] B) [m, n] c := by
  rw [Plain.mm_run A B hc]
  rw [Plain.prod2, ← Plain.run_store2 (val := fun i j => seqSum l fun k => A [i, k] * B [k, j]) hc]
  simp only [Cblas.mm, Cblas.gemm_, Cblas.gemm, Cblas.len, Cblas.wid, tab_dims, List.getD_cons_zero,
    List.getD_cons_succ, i32_conv_nat hm, i32_conv_nat hl, i32_conv_nat hn, Int.toNat_natCast, Bool.false_eq_true, if_false]
  rw [if_neg (by omega)]
  refine forRange_congr (fun i hi s => forRange_congr (fun j hj s => ?_) s) c
  rw [forRange_sum (f := fun k => A [i, k] * B [k, j])]
  · simp
  · intro k hk s
    rw [rd_tab2 A hi hk, rd_tab2 B hk hj]
    rfl

/-- C19 (`mmt`). -/
theorem C19_mmt {m l n : Nat} (l1 : 1 ≤ l) (n1 : 1 ≤ n) (hm : m < 2 ^ 31) (hl : l < 2 ^ 31) (hn : n < 2 ^ 31)
    (A B : List Nat → T) {c : List T} (hc : c.length = m * n) :
    Cblas.mmt (tab [m, l] A) (tab [n, l] B) [m, n] c = Plain.mmt (tab [m, l] A) (tab [n, l] B) [m, n] c := by
  rw [Plain.mmt_run A B hc, ← Plain.run_store2 (val := fun i j => seqSum l fun k => A [i, k] * B [j, k]) hc]
  simp only [Cblas.mmt, Cblas.gemm_, Cblas.gemm, Cblas.len, Cblas.wid, tab_dims, List.getD_cons_zero,
    List.getD_cons_succ, i32_conv_nat hm, i32_conv_nat hl, i32_conv_nat hn, Int.toNat_natCast, if_true, Bool.false_eq_true, if_false]
  rw [if_neg (by omega)]
  refine forRange_congr (fun i hi s => forRange_congr (fun j hj s => ?_) s) c
  rw [forRange_sum (f := fun k => A [i, k] * B [j, k])]
  · simp
  · intro k hk s
    rw [rd_tab2 A hi hk, rd_tab2 B hj hk]
    rfl

/-- C19 (`mtm`). -/
theorem C19_mtm {m l n : Nat} (m1 : 1 ≤ m) (l1 : 1 ≤ l) (n1 : 1 ≤ n) (hm : m < 2 ^ 31) (hl : l < 2 ^ 31) (hn : n < 2 ^ 31)
    (A B : List Nat → T) {c : List T} (hc : c.length = m * n) :
    Cblas.mtm (tab [l, m] A) (tab [l, n] B) [m, n] c = Plain.mtm (tab [l, m] A) (tab [l, n] B) [m, n] c := by
  rw [Plain.mtm_run A B hc, ← Plain.run_store2 (val := fun i j => seqSum l fun k => A [k, i] * B [k, j]) hc]
  simp only [Cblas.mtm, Cblas.gemm_, Cblas.gemm, Cblas.len, Cblas.wid, tab_dims, List.getD_cons_zero,
    List.getD_cons_succ, i32_conv_nat hm, i32_conv_nat hl, i32_conv_nat hn, Int.toNat_natCast, if_true, Bool.false_eq_true, if_false]
  rw [if_neg (by omega)]
  refine forRange_congr (fun i hi s => forRange_congr (fun j hj s => ?_) s) c
  rw [forRange_sum (f := fun k => A [k, i] * B [k, j])]
  · simp
  · intro k hk s
    rw [rd_tab2 A hk hi, rd_tab2 B hk hj]
    rfl

/-- C19 (`mv`). -/
theorem C19_mv {m n : Nat} (n1 : 1 ≤ n) (hm : m < 2 ^ 31) (hn : n < 2 ^ 31)
    (A B : List Nat → T) {c : List T} (hc : c.length = m) :
    Cblas.mv (tab [m, n] A) (tab [n] B) [m] c = Plain.mv (tab [m, n] A) (tab [n] B) [m] c := by
  rw [Plain.mv_run A B hc, ← Plain.run_store1 (val := fun i => seqSum n fun j => A [i, j] * B [j]) hc]
  simp only [Cblas.mv, Cblas.gemv, Cblas.len, Cblas.wid, tab_dims, List.getD_cons_zero,
    List.getD_cons_succ, i32_conv_nat hm, i32_conv_nat hn, Int.toNat_natCast, Bool.false_eq_true, if_false]
  rw [if_neg (by omega)]
  refine forRange_congr (fun i hi s => ?_) c
  rw [forRange_sum (f := fun k => A [i, k] * B [k])]
  · simp
  · intro k hk s
    rw [rd_tab2 A hi hk, rd_tab1 B hk]
    rfl

end cblas

/-- C19 (`vm`): the element type must commute, because gemv multiplies matrix entries from the left. -/
theorem C19_vm [CommSemiring T] [DecidableEq T] {m n : Nat} (n1 : 1 ≤ n) (hm : m < 2 ^ 31) (hn : n < 2 ^ 31)
    (A B : List Nat → T) {c : List T} (hc : c.length = n) :
    Cblas.vm (tab [m] A) (tab [m, n] B) [n] c = Plain.vm (tab [m] A) (tab [m, n] B) [n] c := by
  rw [Plain.vm_run A B hc, ← Plain.run_store1 (val := fun i => seqSum m fun j => A [j] * B [j, i]) hc]
  simp only [Cblas.vm, Cblas.gemv, Cblas.len, Cblas.wid, tab_dims, List.getD_cons_zero,
    List.getD_cons_succ, i32_conv_nat hm, i32_conv_nat hn, Int.toNat_natCast, if_true]
  rw [if_neg (by omega)]
  refine forRange_congr (fun i hi s => ?_) c
  rw [forRange_sum (f := fun k => A [k] * B [k, i])]
  · simp
  · intro k hk s
    rw [rd_tab2 B hk hi, rd_tab1 A hk]
    simp [mul_comm]

/-- Non-vacuity: a non-square product through the cblas engine. -/
example : Cblas.mtm (⟨[3, 2], [1, 4, 2, 5, 3, 6]⟩ : Tensor Int) ⟨[3, 1], [1, 0, 2]⟩ [2, 1] [9, 9] = .ok [7, 16] := by
  decide

/-! ## C20 -/

/-- C20: associativity of `matmul`. -/
theorem C20_assoc [Semiring T] {m k l n : Nat} (X Y Z : List Nat → T) {c1 c2 c3 c4 : List T}
    (h1 : c1.length = m * l) (h2 : c2.length = m * n) (h3 : c3.length = k * n) (h4 : c4.length = m * n) :
    (do let xy ← Ops.matmul [m, l] (tab [m, k] X) (tab [k, l] Y) c1
        Ops.matmul [m, n] ⟨[m, l], xy⟩ (tab [l, n] Z) c2) =
    (do let yz ← Ops.matmul [k, n] (tab [k, l] Y) (tab [l, n] Z) c3
        Ops.matmul [m, n] (tab [m, k] X) ⟨[k, n], yz⟩ c4) := by
  simp only [Ops.matmul]
  rw [Plain.mm_run X Y h1, Plain.mm_run Y Z h3]
  simp only [Outcome.ok_bind]
  have e1 : (⟨[m, l], (tab [m, l] (Plain.prod2 k X Y)).data⟩ : Tensor T) = tab [m, l] (Plain.prod2 k X Y) := rfl
  have e2 : (⟨[k, n], (tab [k, n] (Plain.prod2 l Y Z)).data⟩ : Tensor T) = tab [k, n] (Plain.prod2 l Y Z) := rfl
  rw [e1, e2, Plain.mm_run _ Z h2, Plain.mm_run X _ h4]
  congr 2
  apply tab_congr
  intro idx hv
  match idx, hv with
  | [i, j], _ =>
    simp only [Plain.prod2, fn2_apply, seqSum_eq_sum, Finset.sum_mul, Finset.mul_sum, mul_assoc]
    rw [Finset.sum_comm]

/-- C20: `matmul` distributes over addition on the left and on the right. -/
theorem C20_distrib [Semiring T] {m l n : Nat} (X X' Y Y' : List Nat → T) {c : List T} (hc : c.length = m * n) :
    (∀ i < m, ∀ j < n, ∃ u v w : List T,
      Ops.matmul [m, n] (tab [m, l] fun ix => X ix + X' ix) (tab [l, n] Y) c = .ok u ∧
      Ops.matmul [m, n] (tab [m, l] X) (tab [l, n] Y) c = .ok v ∧
      Ops.matmul [m, n] (tab [m, l] X') (tab [l, n] Y) c = .ok w ∧
      u.getD (i * n + j) 0 = v.getD (i * n + j) 0 + w.getD (i * n + j) 0) ∧
    (∀ i < m, ∀ j < n, ∃ u v w : List T,
      Ops.matmul [m, n] (tab [m, l] X) (tab [l, n] fun ix => Y ix + Y' ix) c = .ok u ∧
      Ops.matmul [m, n] (tab [m, l] X) (tab [l, n] Y) c = .ok v ∧
      Ops.matmul [m, n] (tab [m, l] X) (tab [l, n] Y') c = .ok w ∧
      u.getD (i * n + j) 0 = v.getD (i * n + j) 0 + w.getD (i * n + j) 0) := by
  constructor
  · intro i hi j hj
    refine ⟨_, _, _, Plain.mm_run _ _ hc, Plain.mm_run _ _ hc, Plain.mm_run _ _ hc, ?_⟩
    simp only [List.getD_eq_getElem?_getD, tab2_cell _ hi hj, Option.getD_some, Plain.prod2, fn2_apply, seqSum_eq_sum, add_mul,
      Finset.sum_add_distrib]
  · intro i hi j hj
    refine ⟨_, _, _, Plain.mm_run _ _ hc, Plain.mm_run _ _ hc, Plain.mm_run _ _ hc, ?_⟩
    simp only [List.getD_eq_getElem?_getD, tab2_cell _ hi hj, Option.getD_some, Plain.prod2, fn2_apply, seqSum_eq_sum, mul_add,
      Finset.sum_add_distrib]

/-- Non-vacuity: sizes 2, 3, 1, 2 and buffers of the right length exist. -/
example : ([0, 0] : List Int).length = 2 * 1 ∧ ([0, 0, 0, 0] : List Int).length = 2 * 2 ∧
    ([1, 2, 3, 4, 5, 6] : List Int).length = 3 * 2 := by decide

/-! ## Concrete cases of the theorems above: 2 × 3 and 3 × 2 matrices of integers, with other numbers in the output -/

/-- A 2 × 3 matrix. -/
def exA : Tensor Int := ⟨[2, 3], [1, 2, 3, 4, 5, 6]⟩
/-- A 3 × 2 matrix. -/
def exB : Tensor Int := ⟨[3, 2], [1, 0, 0, -1, 2, 2]⟩
/-- Vectors of 2 and 3 numbers. -/
def exU2 : Tensor Int := ⟨[2], [3, -4]⟩
/-- See `exU2`. -/
def exU3 : Tensor Int := ⟨[3], [3, -4, 5]⟩

example := C16_mm (a := exA) (b := exB) (c := [9, 9, 9, 9]) rfl rfl rfl rfl rfl
example := C16_mmt (a := exA) (b := exA) (c := [9, 9, 9, 9]) rfl rfl rfl rfl rfl
example := C16_mtm (a := exA) (b := exA) (c := List.replicate 9 9) rfl rfl rfl rfl rfl
example := C16_mv (a := exA) (b := exU3) (c := [9, 9]) rfl rfl rfl rfl rfl
example := C16_vm (a := exU3) (b := exB) (c := [9, 9]) rfl rfl rfl rfl rfl
example : Plain.mm exA exA [2, 3] (List.replicate 6 9) = .throw .runtimeError :=
  (C17_mm (cm := 2) (cn := 3) rfl rfl (by unfold Tensor.WF; decide) (by unfold Tensor.WF; decide) rfl).mpr (by decide)
example : Plain.mmt exA exB [2, 3] (List.replicate 6 9) = .throw .runtimeError :=
  (C17_mmt (cm := 2) (cn := 3) rfl rfl (by unfold Tensor.WF; decide) (by unfold Tensor.WF; decide) rfl).mpr (by decide)
example : Plain.mtm exA exA [3, 2] (List.replicate 6 9) = .throw .runtimeError :=
  (C17_mtm (cm := 3) (cn := 2) rfl rfl (by unfold Tensor.WF; decide) (by unfold Tensor.WF; decide) rfl).mpr (by decide)
example : Plain.mv exA exU2 [2] [9, 9] = .throw .runtimeError :=
  (C17_mv (cm := 2) rfl rfl (by unfold Tensor.WF; decide) (by unfold Tensor.WF; decide) rfl).mpr (by decide)
example : Plain.vm exU3 exA [3] [9, 9, 9] = .throw .runtimeError :=
  (C17_vm (cn := 3) rfl rfl (by unfold Tensor.WF; decide) (by unfold Tensor.WF; decide) rfl).mpr (by decide)
example := C18_mv (a := exA) (b := exU3) (c := [9, 9]) (c' := [8, 7]) rfl rfl rfl rfl rfl rfl
example := C18_vm (a := exU3) (b := exB) (c := [9, 9]) (c' := [8, 7]) rfl rfl rfl rfl rfl rfl
example := C19_mm (m := 2) (l := 3) (n := 2) (by decide) (by decide) (by decide) (by decide) (by decide)
  (fun i => (i.sum : Int)) (fun i => (i.sum : Int) - 2) (c := [9, 9, 9, 9]) rfl
example := C19_mmt (m := 2) (l := 3) (n := 2) (by decide) (by decide) (by decide) (by decide) (by decide)
  (fun i => (i.sum : Int)) (fun i => (i.sum : Int) - 2) (c := [9, 9, 9, 9]) rfl
example := C19_mtm (m := 2) (l := 3) (n := 2) (by decide) (by decide) (by decide) (by decide) (by decide) (by decide)
  (fun i => (i.sum : Int)) (fun i => (i.sum : Int) - 2) (c := [9, 9, 9, 9]) rfl
example := C19_mv (m := 2) (n := 3) (by decide) (by decide) (by decide) (fun i => (i.sum : Int))
  (fun i => (i.sum : Int) - 2) (c := [9, 9]) rfl
example := C19_vm (m := 2) (n := 3) (by decide) (by decide) (by decide) (fun i => (i.sum : Int))
  (fun i => (i.sum : Int) - 2) (c := [9, 9, 9]) rfl

end StdNN
