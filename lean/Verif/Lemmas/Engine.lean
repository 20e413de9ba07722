import Verif.Model.Engine
import Verif.Lemmas.Tensor
import Verif.Lemmas.IntTy
import Verif.Spec.Sum
/-!
# The engines on tabulated matrices
-/
namespace StdNN
open Outcome Spec
variable {T : Type}

/-- A loop whose body always returns normally is a fold. -/
theorem forRange_pure {σ : Type} {n : Nat} {body : Nat → σ → Outcome σ} {g : Nat → σ → σ}
    (h : ∀ i < n, ∀ s, body i s = .ok (g i s)) (s : σ) :
    forRange n body s = .ok ((List.range n).foldl (fun s i => g i s) s) := by
  induction n with
  | zero => rfl
  | succ n ih =>
    rw [forRange_succ, ih (fun i hi => h i (by omega)), Outcome.ok_bind, h n (by omega)]
    simp [List.range_succ, List.foldl_append]

theorem forRange_sum [Add T] [Zero T] {n : Nat} {body : Nat → T → Outcome T} {f : Nat → T}
    (h : ∀ i < n, ∀ s, body i s = .ok (s + f i)) : forRange n body 0 = .ok (seqSum n f) := by
  rw [forRange_pure h, seqSum_eq_foldl]

namespace Plain

section
variable [Zero T]
/-- Store loops over a matrix. -/
theorem run_store2 {m n : Nat} {val : Nat → Nat → T} {c : List T} (hc : c.length = m * n) :
    forRange m (fun i c => forRange n (fun j c => wr c (offset [m, n] [i, j]) (val i j)) c) c =
      .ok (tab [m, n] (fn2 fun i j => val i j)).data := by
  refine WS.run_tab (dims := [m, n]) (S := fun p => ∃ i < m, ∃ j < n, p = offset [m, n] [i, j]) ?_ ?_
    (by simpa using hc)
  · exact WS.forRange fun i hi => WS.forRange fun j hj => WS.wr_idx (v2 hi hj) rfl
  · intro idx hv
    match idx, hv with
    | [i, j], hv => exact ⟨i, hv.1, j, hv.2.1, rfl⟩

theorem run_store1 {m : Nat} {val : Nat → T} {c : List T} (hc : c.length = m) :
    forRange m (fun i c => wr c (offset [m] [i]) (val i)) c = .ok (tab [m] (fn1 fun i => val i)).data := by
  refine WS.run_tab (dims := [m]) (S := fun p => ∃ i < m, p = offset [m] [i]) ?_ ?_ (by simpa using hc)
  · exact WS.forRange fun i hi => WS.wr_idx (v1 hi) rfl
  · intro idx hv
    match idx, hv with
    | [i], hv => exact ⟨i, hv.1, rfl⟩
end

variable [Add T] [Mul T] [Zero T]

/-- Matrix product with the summation order of the code. -/
def prod2 (l : Nat) (A B : List Nat → T) : List Nat → T :=
  fn2 fun i j => seqSum l fun k => A [i, k] * B [k, j]

theorem mmt_run {m l n : Nat} (A B : List Nat → T) {c : List T} (hc : c.length = m * n) :
    mmt (tab [m, l] A) (tab [n, l] B) [m, n] c =
      .ok (tab [m, n] (fn2 fun i j => seqSum l fun k => A [i, k] * B [j, k])).data := by
  simp only [mmt, tab_dims, contractAssert_pos, Outcome.ok_bind]
  rw [← run_store2 (val := fun i j => seqSum l fun k => A [i, k] * B [j, k]) hc]
  refine forRange_congr (fun i hi s => forRange_congr (fun j hj s => ?_) s) c
  rw [forRange_sum (f := fun k => A [i, k] * B [j, k])]
  · rfl
  · intro k hk s
    rw [tab_at A (v2 hi hk), tab_at B (v2 hj hk)]
    rfl

theorem mtm_run {m l n : Nat} (A B : List Nat → T) {c : List T} (hc : c.length = m * n) :
    mtm (tab [l, m] A) (tab [l, n] B) [m, n] c =
      .ok (tab [m, n] (fn2 fun i j => seqSum l fun k => A [k, i] * B [k, j])).data := by
  simp only [mtm, tab_dims, contractAssert_pos, Outcome.ok_bind]
  rw [← run_store2 (val := fun i j => seqSum l fun k => A [k, i] * B [k, j]) hc]
  refine forRange_congr (fun i hi s => forRange_congr (fun j hj s => ?_) s) c
  rw [forRange_sum (f := fun k => A [k, i] * B [k, j])]
  · rfl
  · intro k hk s
    rw [tab_at A (v2 hk hi), tab_at B (v2 hk hj)]
    rfl

theorem mv_run {m n : Nat} (A B : List Nat → T) {c : List T} (hc : c.length = m) :
    mv (tab [m, n] A) (tab [n] B) [m] c =
      .ok (tab [m] (fn1 fun i => seqSum n fun j => A [i, j] * B [j])).data := by
  simp only [mv, tab_dims, contractAssert_pos, Outcome.ok_bind]
  rw [← run_store1 (val := fun i => seqSum n fun j => A [i, j] * B [j]) hc]
  refine forRange_congr (fun i hi s => ?_) c
  rw [forRange_sum (f := fun j => A [i, j] * B [j])]
  · rfl
  · intro k hk s
    rw [tab_at A (v2 hi hk), tab_at B (v1 hk)]
    rfl

theorem vm_run {m n : Nat} (A B : List Nat → T) {c : List T} (hc : c.length = n) :
    vm (tab [m] A) (tab [m, n] B) [n] c =
      .ok (tab [n] (fn1 fun i => seqSum m fun j => A [j] * B [j, i])).data := by
  simp only [vm, tab_dims, contractAssert_pos, Outcome.ok_bind]
  rw [← run_store1 (val := fun i => seqSum m fun j => A [j] * B [j, i]) hc]
  refine forRange_congr (fun i hi s => ?_) c
  rw [forRange_sum (f := fun j => A [j] * B [j, i])]
  · rfl
  · intro k hk s
    rw [tab_at A (v1 hk), tab_at B (v2 hk hi)]
    rfl

theorem mm_run {m l n : Nat} (A B : List Nat → T) {c : List T} (hc : c.length = m * n) :
    mm (tab [m, l] A) (tab [l, n] B) [m, n] c = .ok (tab [m, n] (prod2 l A B)).data := by
  simp only [mm, tab_dims, contractAssert_pos, Outcome.ok_bind]
  have key : PW (fun c : List T => fillAll 0 c >>= forRange m (fun i c =>
      forRange l (fun k c => do
        let aa ← (tab [m, l] A).at_ [i, k]
        forRange n (fun j c => do
          let bb ← (tab [l, n] B).at_ [k, j]
          upd c (offset [m, n] [i, j]) (fun x => x + aa * bb)) c) c)) [m, n].prod
      (fun p _ => (List.range m).foldl (fun r i => (List.range l).foldl (fun r k =>
        (List.range n).foldl (fun r j => if p = offset [m, n] [i, j] then r + A [i, k] * B [k, j] else r) r) r) 0) := by
    refine PW.seq (A := fun _ _ => 0) (B := fun p r => (List.range m).foldl (fun r i => (List.range l).foldl (fun r k =>
        (List.range n).foldl (fun r j => if p = offset [m, n] [i, j] then r + A [i, k] * B [k, j] else r) r) r) r)
      (PW.fill _ _) ?_
    refine PW.forRange fun i hi => PW.forRange fun k hk => ?_
    rw [tab_at A (v2 hi hk)]
    simp only [Outcome.ok_bind]
    refine PW.forRange fun j hj => ?_
    rw [tab_at B (v2 hk hj)]
    simp only [Outcome.ok_bind]
    have hv : Valid [m, n] [i, j] := v2 hi hj
    exact PW.upd (offset_lt hv) _
  refine PW.run_tab (dims := [m, n]) key ?_ (by simpa using hc)
  intro idx hv r
  match idx, hv with
  | [i0, j0], hv =>
    have hv' : Valid [m, n] [i0, j0] := hv
    rw [foldl_range_single hv.1, prod2, fn2_apply, ← seqSum_eq_foldl]
    · apply foldl_range_congr
      intro k hk a
      rw [foldl_range_single hv.2.1]
      · simp
      · intro j hj hne a
        rw [if_neg]
        intro e
        have := offset_inj hv' (b := [i0, j]) (v2 hv.1 hj) e
        simp at this
        exact hne this.symm
    · intro i hi hne a
      apply foldl_range_id
      intro k hk a
      apply foldl_range_id
      intro j hj a
      rw [if_neg]
      intro e
      have := offset_inj hv' (b := [i, j]) (v2 hi hj) e
      simp at this
      exact hne this.1.symm

end Plain
end StdNN
