import Verif.Lemmas.EngineOrder
import Verif.Props.Binary
/-!
# C138: matrix products of the cblas engine, whatever the order of summation

The library behind the cblas engine may add up the products of an entry in any order, differently for every entry, with
several accumulators and with fused multiply-adds. In exact arithmetic this has no effect. In `float` and `double` the result
obeys the error bound of the built-in engine; sums of small integers are exact; but the two engines do differ.
-/
namespace StdNN
open Spec Outcome Finset Spec.Format

/-! ## Exact arithmetic -/

theorem SumOrder.val_exact {T : Type} [CommSemiring T] {f g : Nat → T} (t : SumOrder) :
    t.val (fun a b c => a * b + c) f g = (t.leaves.map fun k => f k * g k).sum := by
  induction t with
  | zero => rfl
  | mul p => simp [SumOrder.val, SumOrder.leaves]
  | add s t ihs iht => simp [SumOrder.val, SumOrder.leaves, ihs, iht]
  | fma s p ih =>
    simp only [SumOrder.val, SumOrder.leaves, ih, List.map_append, List.sum_append, List.map_cons, List.map_nil,
      List.sum_cons, List.sum_nil, add_zero]
    exact add_comm _ _

section exact
variable {T : Type} [CommSemiring T] [DecidableEq T] {m l n z : Nat}

omit [DecidableEq T] in
theorem val_sum {t : SumOrder} (h : t.Of n z) (f g : Nat → T) :
    1 * t.val (fun a b c => a * b + c) f g = seqSum n fun k => f k * g k := by
  rw [one_mul, t.val_exact, h.sum, seqSum_eq_sum]

/-- C138: in exact arithmetic both engines write the same matrix, whatever the order of summation. -/
theorem C138_exact_mm (l1 : 1 ≤ l) (n1 : 1 ≤ n) (hm : m < 2 ^ 31) (hl : l < 2 ^ 31) (hn : n < 2 ^ 31)
    {how : Nat → Nat → SumOrder} (ho : ∀ i < m, ∀ j < n, (how i j).Of l z) (A B : Nat → Nat → T) {c : List T}
    (hc : c.length = m * n) :
    Cblas.mmBy (fun a b c => a * b + c) how (tab [m, l] (fn2 A)) (tab [l, n] (fn2 B)) [m, n] c =
      Plain.mm (tab [m, l] (fn2 A)) (tab [l, n] (fn2 B)) [m, n] c := by
  rw [Cblas.mmBy_run l1 n1 hm hl hn ho A B hc, Plain.mm_run _ _ hc]
  exact ok_tab2 fun i hi j hj => val_sum (ho i hi j hj) _ _

/-- C138 with the second factor transposed. -/
theorem C138_exact_mmt (l1 : 1 ≤ l) (n1 : 1 ≤ n) (hm : m < 2 ^ 31) (hl : l < 2 ^ 31) (hn : n < 2 ^ 31)
    {how : Nat → Nat → SumOrder} (ho : ∀ i < m, ∀ j < n, (how i j).Of l z) (A B : Nat → Nat → T) {c : List T}
    (hc : c.length = m * n) :
    Cblas.mmtBy (fun a b c => a * b + c) how (tab [m, l] (fn2 A)) (tab [n, l] (fn2 B)) [m, n] c =
      Plain.mmt (tab [m, l] (fn2 A)) (tab [n, l] (fn2 B)) [m, n] c := by
  rw [Cblas.mmtBy_run l1 n1 hm hl hn ho A B hc, Plain.mmt_run _ _ hc]
  exact ok_tab2 fun i hi j hj => val_sum (ho i hi j hj) _ _

/-- C138 with the first factor transposed. -/
theorem C138_exact_mtm (m1 : 1 ≤ m) (n1 : 1 ≤ n) (hm : m < 2 ^ 31) (hl : l < 2 ^ 31) (hn : n < 2 ^ 31)
    {how : Nat → Nat → SumOrder} (ho : ∀ i < m, ∀ j < n, (how i j).Of l z) (A B : Nat → Nat → T) {c : List T}
    (hc : c.length = m * n) :
    Cblas.mtmBy (fun a b c => a * b + c) how (tab [l, m] (fn2 A)) (tab [l, n] (fn2 B)) [m, n] c =
      Plain.mtm (tab [l, m] (fn2 A)) (tab [l, n] (fn2 B)) [m, n] c := by
  rw [Cblas.mtmBy_run m1 n1 hm hl hn ho A B hc, Plain.mtm_run _ _ hc]
  exact ok_tab2 fun i hi j hj => val_sum (ho i hi j hj) _ _

theorem ok_tab1 {R : Type} [Zero R] {m : Nat} {f g : Nat → R} (h : ∀ i < m, f i = g i) :
    Outcome.ok (tab [m] (fn1 f)).data = .ok (tab [m] (fn1 g)).data := by
  refine congrArg (fun t => Outcome.ok (Tensor.data t)) (tab_congr fun idx hv => ?_)
  match idx, hv with
  | [i], hv => exact h i hv.1

/-- C138: matrix times vector. -/
theorem C138_exact_mv (n1 : 1 ≤ n) (hm : m < 2 ^ 31) (hn : n < 2 ^ 31) {how : Nat → SumOrder} (ho : ∀ i < m, (how i).Of n z)
    (A : Nat → Nat → T) (B : Nat → T) {c : List T} (hc : c.length = m) :
    Cblas.mvBy (fun a b c => a * b + c) how (tab [m, n] (fn2 A)) (tab [n] (fn1 B)) [m] c =
      Plain.mv (tab [m, n] (fn2 A)) (tab [n] (fn1 B)) [m] c := by
  rw [Cblas.mvBy_run n1 hm hn ho A B hc, Plain.mv_run _ _ hc]
  exact ok_tab1 fun i hi => val_sum (ho i hi) _ _

/-- C138: vector times matrix. -/
theorem C138_exact_vm (n1 : 1 ≤ n) (hm : m < 2 ^ 31) (hn : n < 2 ^ 31) {how : Nat → SumOrder} (ho : ∀ j < n, (how j).Of m z)
    (A : Nat → T) (B : Nat → Nat → T) {c : List T} (hc : c.length = n) :
    Cblas.vmBy (fun a b c => a * b + c) how (tab [m] (fn1 A)) (tab [m, n] (fn2 B)) [n] c =
      Plain.vm (tab [m] (fn1 A)) (tab [m, n] (fn2 B)) [n] c := by
  rw [Cblas.vmBy_run n1 hm hn ho A B hc, Plain.vm_run _ _ hc]
  refine ok_tab1 fun i hi => (val_sum (ho i hi) _ _).trans ?_
  rw [seqSum_eq_sum, seqSum_eq_sum]
  exact sum_congr rfl fun k _ => mul_comm _ _

end exact

/-- C138: the model of `Cblas.gemm` and `Cblas.gemv` is the increasing order, for every element type and all arguments. -/
theorem C138_increasing {T : Type} [Add T] [Mul T] [Zero T] [One T] [DecidableEq T] (fma : T → T → T → T) (tA tB : Bool)
    (M N K : Int) (alpha : T) (a : List T) (lda : Int) (b : List T) (ldb : Int) (beta : T) (c : List T) (ldc : Int) :
    Cblas.gemm tA tB M N K alpha a lda b ldb beta c ldc =
        Cblas.gemmBy fma (fun _ _ => .increasing K.toNat) tA tB M N K alpha a lda b ldb beta c ldc ∧
      Cblas.gemv tA M N alpha a lda b beta c =
        Cblas.gemvBy fma (fun _ => .increasing (if tA then M else N).toNat) tA M N alpha a lda b beta c := by
  have key : ∀ (x y : Nat → Outcome T) (n : Nat), forRange n (fun p s => do
      let u ← x p
      let w ← y p
      return s + u * w) 0 = (SumOrder.increasing n).eval fma x y := by
    intro x y n
    induction n with
    | zero => rfl
    | succ n ih =>
      rw [forRange_succ, ih, SumOrder.increasing, SumOrder.eval]
      congr 1
      funext s
      simp only [SumOrder.eval]
      cases x n <;> cases y n <;> rfl
  constructor
  · unfold Cblas.gemm Cblas.gemmBy
    simp only [key]
  · unfold Cblas.gemv Cblas.gemvBy
    simp only [key]

/-! ## IEEE formats -/

variable {F : Format} {bz : EReal → Option EReal}

theorem fin_fma {a b c : ℝ} (h : |F.nearest (a * b + c)| < F.limit) :
    Ieee.fma (fin F bz a) (fin F bz b) (fin F bz c) = fin F bz (F.nearest (a * b + c)) := by
  unfold fin Ieee.fma
  dsimp only
  rw [if_neg, ← EReal.coe_mul, ← EReal.coe_add]
  · exact congrArg _ (F.round_real h)
  · rintro (⟨-, h | h⟩ | ⟨-, h | h⟩ | ⟨-, h⟩ | ⟨-, h⟩)
    · exact EReal.coe_ne_top _ h
    · exact EReal.coe_ne_bot _ h
    · exact EReal.coe_ne_top _ h
    · exact EReal.coe_ne_bot _ h
    · exact EReal.coe_ne_bot _ h
    · exact EReal.coe_ne_top _ h

theorem one_fin {v : ℝ} (m : F.Mem v) (h : |v| < F.limit) : 1 * fin F bz v = fin F bz v := by
  have e : (1 : Ieee (F.arith bz)) = fin F bz 1 := by
    unfold fin
    rw [EReal.coe_one]
    rfl
  have n : F.nearest (1 * v) = v := by rw [one_mul, F.nearest_mem m]
  rw [e, fin_mul (by rw [n]; exact h), n]

theorem join_err {v T q p Ml Mr : ℝ} {n k k' : Nat} (hv : |v - T| ≤ F.err n k Ml) (hT : |T| ≤ Ml)
    (hq : |q - p| ≤ F.err n k' Mr) (hp : |p| ≤ Mr) :
    |F.nearest (v + q) - (T + p)| ≤ F.err (n + 1) (k + k' + 1) (Ml + Mr) := by
  have st := step_err (F := F) hv hT hq
  refine st.trans ?_
  have u0 := F.u_pos
  have e0 := F.eta_pos
  have M0 : 0 ≤ Mr := (abs_nonneg _).trans hp
  have g1 := F.one_le_pow n
  unfold err
  rw [pow_succ]
  generalize (1 + F.u) ^ n = g at *
  push_cast
  have t1 := mul_le_mul_of_nonneg_left hp u0.le
  have t2 : 0 ≤ F.eta * (g - 1) := mul_nonneg e0.le (by linarith)
  have t3 : 0 ≤ F.eta * g * F.u := by positivity
  nlinarith

namespace SumOrder

theorem abs_sum (t : SumOrder) (a b : Nat → ℝ) :
    |(t.leaves.map fun k => a k * b k).sum| ≤ (t.leaves.map fun k => |a k| * |b k|).sum := by
  generalize t.leaves = l
  induction l with
  | nil => simp
  | cons x l ih =>
    simp only [List.map_cons, List.sum_cons]
    exact (abs_add_le _ _).trans (add_le_add (abs_mul _ _).le ih)

theorem size_nonneg (t : SumOrder) (a b : Nat → ℝ) : 0 ≤ (t.leaves.map fun k => |a k| * |b k|).sum :=
  (abs_nonneg _).trans (t.abs_sum a b)

/-- A sum of products in any order: `depth` roundings of every product, `ops` roundings altogether. -/
theorem val_err (t : SumOrder) (a b : Nat → ℝ)
    (h : (t.leaves.map fun k => |a k| * |b k|).sum + F.err t.depth t.ops (t.leaves.map fun k => |a k| * |b k|).sum < F.limit) :
    ∃ v : ℝ, t.val Ieee.fma (fun k => fin F bz (a k)) (fun k => fin F bz (b k)) = fin F bz v ∧ F.Mem v ∧
      |v - (t.leaves.map fun k => a k * b k).sum| ≤ F.err t.depth t.ops (t.leaves.map fun k => |a k| * |b k|).sum := by
  induction t with
  | zero => exact ⟨0, fin_zero.symm, ⟨0, _, by simp, le_rfl, by simp⟩, by simp [err, leaves, depth, ops]⟩
  | mul p =>
    simp only [leaves, depth, ops, List.map_cons, List.map_nil, List.sum_cons, List.sum_nil, add_zero] at h ⊢
    rw [← abs_mul] at h ⊢
    have e : |F.nearest (a p * b p) - a p * b p| ≤ F.err 1 1 |a p * b p| := by
      refine (F.nearest_err _).trans ?_
      unfold err
      push_cast
      have := mul_pos F.u_pos F.eta_pos
      nlinarith
    exact ⟨_, fin_mul (lt_of_le_of_lt (abs_le_of_err e le_rfl) h), F.mem_nearest _, e⟩
  | add s t ihs iht =>
    have s0 := s.size_nonneg a b
    have t0 := t.size_nonneg a b
    have hs := s.abs_sum a b
    have ht := t.abs_sum a b
    simp only [leaves, List.map_append, List.sum_append, depth, ops] at h ⊢
    generalize (s.leaves.map fun k => |a k| * |b k|).sum = Ms at *
    generalize (t.leaves.map fun k => |a k| * |b k|).sum = Mt at *
    generalize (s.leaves.map fun k => a k * b k).sum = S at *
    generalize (t.leaves.map fun k => a k * b k).sum = S' at *
    have m1 := F.err_mono (show s.depth ≤ max s.depth t.depth + 1 by omega) (show s.ops ≤ s.ops + t.ops + 1 by omega) s0
      (show Ms ≤ Ms + Mt by linarith)
    have m2 := F.err_mono (show t.depth ≤ max s.depth t.depth + 1 by omega) (show t.ops ≤ s.ops + t.ops + 1 by omega) t0
      (show Mt ≤ Ms + Mt by linarith)
    obtain ⟨v, e, -, hv⟩ := ihs (by linarith)
    obtain ⟨w, e', -, hw⟩ := iht (by linarith)
    have key := join_err (hv.trans (F.err_mono (le_max_left _ t.depth) le_rfl s0 le_rfl)) hs
      (hw.trans (F.err_mono (le_max_right s.depth _) le_rfl t0 le_rfl)) ht
    refine ⟨F.nearest (v + w), ?_, F.mem_nearest _, key⟩
    rw [val, e, e']
    exact fin_add (lt_of_le_of_lt (abs_le_of_err key ((abs_add_le _ _).trans (add_le_add hs ht))) h)
  | fma s p ih =>
    have s0 := s.size_nonneg a b
    have hs := s.abs_sum a b
    have p0 := abs_nonneg (a p * b p)
    simp only [leaves, List.map_append, List.sum_append, depth, ops, List.map_cons, List.map_nil, List.sum_cons,
      List.sum_nil, add_zero] at h ⊢
    rw [← abs_mul] at h ⊢
    generalize (s.leaves.map fun k => |a k| * |b k|).sum = Ms at *
    generalize (s.leaves.map fun k => a k * b k).sum = S at *
    have m1 := F.err_mono (show s.depth ≤ s.depth + 1 by omega) (show s.ops ≤ s.ops + 1 by omega) s0
      (show Ms ≤ Ms + |a p * b p| by linarith)
    obtain ⟨v, e, -, hv⟩ := ih (by linarith)
    have key := join_err (F := F) hv hs (k' := 0) (q := a p * b p) (p := a p * b p) (Mr := |a p * b p|)
      (by rw [sub_self, abs_zero]; exact F.err_nonneg _ _ p0) le_rfl
    rw [add_zero] at key
    refine ⟨F.nearest (a p * b p + v), ?_, F.mem_nearest _, by rw [add_comm (a p * b p)]; exact key⟩
    rw [val, e]
    refine fin_fma (lt_of_le_of_lt ?_ h)
    rw [add_comm (a p * b p)]
    exact abs_le_of_err key ((abs_add_le _ _).trans (add_le_add hs le_rfl))

/-- An entry of the result of the cblas engine. -/
theorem entry_err {n z : Nat} {t : SumOrder} (ht : t.Of n z) (a b : Nat → ℝ)
    (h : ∑ k ∈ range n, |a k| * |b k| + F.err (n + z) (2 * n + z - 1) (∑ k ∈ range n, |a k| * |b k|) < F.limit) :
    ∃ v : ℝ, 1 * t.val Ieee.fma (fun k => fin F bz (a k)) (fun k => fin F bz (b k)) = fin F bz v ∧
      |v - ∑ k ∈ range n, a k * b k| ≤ F.err (n + z) (2 * n + z - 1) (∑ k ∈ range n, |a k| * |b k|) := by
  obtain ⟨c1, c2⟩ := ht.counts
  have M0 : 0 ≤ ∑ k ∈ range n, |a k| * |b k| := sum_nonneg fun _ _ => mul_nonneg (abs_nonneg _) (abs_nonneg _)
  have mono := F.err_mono c1 c2 M0 le_rfl
  have hT := t.abs_sum a b
  have := val_err (F := F) (bz := bz) t a b
  rw [ht.sum, ht.sum] at this hT
  obtain ⟨v, e, m, hv⟩ := this (by linarith)
  have hl : |v| < F.limit := lt_of_le_of_lt (abs_le_of_err hv hT) (by linarith)
  exact ⟨v, by rw [e, one_fin m hl], hv.trans mono⟩

end SumOrder

open Classical in
noncomputable instance : DecidableEq (Ieee (F.arith bz)) := fun _ _ => inferInstance

variable {m l n z : Nat}

/-- C138: a matrix product of the cblas engine in a format of IEEE 754. If the products' absolute values plus the error bound
stay below the overflow limit, all entries are finite and within the error bound of the exact ones, whatever the order of
summation; with one accumulator per entry (`z ≤ 1`) the bound is that of the built-in engine (C135). -/
theorem C138_mm (l1 : 1 ≤ l) (n1 : 1 ≤ n) (hm : m < 2 ^ 31) (hl : l < 2 ^ 31) (hn : n < 2 ^ 31)
    {how : Nat → Nat → SumOrder} (ho : ∀ i < m, ∀ j < n, (how i j).Of l z) (A B : Nat → Nat → ℝ)
    {c : List (Ieee (F.arith bz))} (hc : c.length = m * n)
    (h : ∀ i < m, ∀ j < n, ∑ k ∈ range l, |A i k| * |B k j| +
      F.err (l + z) (2 * l + z - 1) (∑ k ∈ range l, |A i k| * |B k j|) < F.limit) :
    ∃ C : Nat → Nat → ℝ,
      Cblas.mmBy Ieee.fma how (tab [m, l] (fn2 fun i k => fin F bz (A i k))) (tab [l, n] (fn2 fun k j => fin F bz (B k j)))
        [m, n] c = .ok (tab [m, n] (fn2 fun i j => fin F bz (C i j))).data ∧
      ∀ i < m, ∀ j < n, |C i j - ∑ k ∈ range l, A i k * B k j| ≤
        F.err (l + z) (2 * l + z - 1) (∑ k ∈ range l, |A i k| * |B k j|) := by
  obtain ⟨C, hC⟩ := choose2 fun i hi j hj =>
    SumOrder.entry_err (bz := bz) (ho i hi j hj) (fun k => A i k) (fun k => B k j) (h i hi j hj)
  refine ⟨C, (Cblas.mmBy_run l1 n1 hm hl hn ho _ _ hc).trans ?_, fun i hi j hj => (hC i hi j hj).2⟩
  exact ok_tab2 fun i hi j hj => (hC i hi j hj).1

/-- C138 with the second factor transposed. -/
theorem C138_mmt (l1 : 1 ≤ l) (n1 : 1 ≤ n) (hm : m < 2 ^ 31) (hl : l < 2 ^ 31) (hn : n < 2 ^ 31)
    {how : Nat → Nat → SumOrder} (ho : ∀ i < m, ∀ j < n, (how i j).Of l z) (A B : Nat → Nat → ℝ)
    {c : List (Ieee (F.arith bz))} (hc : c.length = m * n)
    (h : ∀ i < m, ∀ j < n, ∑ k ∈ range l, |A i k| * |B j k| +
      F.err (l + z) (2 * l + z - 1) (∑ k ∈ range l, |A i k| * |B j k|) < F.limit) :
    ∃ C : Nat → Nat → ℝ,
      Cblas.mmtBy Ieee.fma how (tab [m, l] (fn2 fun i k => fin F bz (A i k))) (tab [n, l] (fn2 fun j k => fin F bz (B j k)))
        [m, n] c = .ok (tab [m, n] (fn2 fun i j => fin F bz (C i j))).data ∧
      ∀ i < m, ∀ j < n, |C i j - ∑ k ∈ range l, A i k * B j k| ≤
        F.err (l + z) (2 * l + z - 1) (∑ k ∈ range l, |A i k| * |B j k|) := by
  obtain ⟨C, hC⟩ := choose2 fun i hi j hj =>
    SumOrder.entry_err (bz := bz) (ho i hi j hj) (fun k => A i k) (fun k => B j k) (h i hi j hj)
  refine ⟨C, (Cblas.mmtBy_run l1 n1 hm hl hn ho _ _ hc).trans ?_, fun i hi j hj => (hC i hi j hj).2⟩
  exact ok_tab2 fun i hi j hj => (hC i hi j hj).1

/-- C138 with the first factor transposed. -/
theorem C138_mtm (m1 : 1 ≤ m) (n1 : 1 ≤ n) (hm : m < 2 ^ 31) (hl : l < 2 ^ 31) (hn : n < 2 ^ 31)
    {how : Nat → Nat → SumOrder} (ho : ∀ i < m, ∀ j < n, (how i j).Of l z) (A B : Nat → Nat → ℝ)
    {c : List (Ieee (F.arith bz))} (hc : c.length = m * n)
    (h : ∀ i < m, ∀ j < n, ∑ k ∈ range l, |A k i| * |B k j| +
      F.err (l + z) (2 * l + z - 1) (∑ k ∈ range l, |A k i| * |B k j|) < F.limit) :
    ∃ C : Nat → Nat → ℝ,
      Cblas.mtmBy Ieee.fma how (tab [l, m] (fn2 fun k i => fin F bz (A k i))) (tab [l, n] (fn2 fun k j => fin F bz (B k j)))
        [m, n] c = .ok (tab [m, n] (fn2 fun i j => fin F bz (C i j))).data ∧
      ∀ i < m, ∀ j < n, |C i j - ∑ k ∈ range l, A k i * B k j| ≤
        F.err (l + z) (2 * l + z - 1) (∑ k ∈ range l, |A k i| * |B k j|) := by
  obtain ⟨C, hC⟩ := choose2 fun i hi j hj =>
    SumOrder.entry_err (bz := bz) (ho i hi j hj) (fun k => A k i) (fun k => B k j) (h i hi j hj)
  refine ⟨C, (Cblas.mtmBy_run m1 n1 hm hl hn ho _ _ hc).trans ?_, fun i hi j hj => (hC i hi j hj).2⟩
  exact ok_tab2 fun i hi j hj => (hC i hi j hj).1

/-- C138: matrix times vector. -/
theorem C138_mv (n1 : 1 ≤ n) (hm : m < 2 ^ 31) (hn : n < 2 ^ 31) {how : Nat → SumOrder} (ho : ∀ i < m, (how i).Of n z)
    (A : Nat → Nat → ℝ) (B : Nat → ℝ) {c : List (Ieee (F.arith bz))} (hc : c.length = m)
    (h : ∀ i < m, ∑ k ∈ range n, |A i k| * |B k| +
      F.err (n + z) (2 * n + z - 1) (∑ k ∈ range n, |A i k| * |B k|) < F.limit) :
    ∃ C : Nat → ℝ,
      Cblas.mvBy Ieee.fma how (tab [m, n] (fn2 fun i k => fin F bz (A i k))) (tab [n] (fn1 fun k => fin F bz (B k))) [m] c =
        .ok (tab [m] (fn1 fun i => fin F bz (C i))).data ∧
      ∀ i < m, |C i - ∑ k ∈ range n, A i k * B k| ≤ F.err (n + z) (2 * n + z - 1) (∑ k ∈ range n, |A i k| * |B k|) := by
  obtain ⟨C, hC⟩ := choose1 fun i hi => SumOrder.entry_err (bz := bz) (ho i hi) (fun k => A i k) B (h i hi)
  refine ⟨C, (Cblas.mvBy_run n1 hm hn ho _ _ hc).trans ?_, fun i hi => (hC i hi).2⟩
  exact ok_tab1 fun i hi => (hC i hi).1

/-- C138: vector times matrix. -/
theorem C138_vm (n1 : 1 ≤ n) (hm : m < 2 ^ 31) (hn : n < 2 ^ 31) {how : Nat → SumOrder} (ho : ∀ j < n, (how j).Of m z)
    (A : Nat → ℝ) (B : Nat → Nat → ℝ) {c : List (Ieee (F.arith bz))} (hc : c.length = n)
    (h : ∀ j < n, ∑ k ∈ range m, |B k j| * |A k| +
      F.err (m + z) (2 * m + z - 1) (∑ k ∈ range m, |B k j| * |A k|) < F.limit) :
    ∃ C : Nat → ℝ,
      Cblas.vmBy Ieee.fma how (tab [m] (fn1 fun k => fin F bz (A k))) (tab [m, n] (fn2 fun k j => fin F bz (B k j))) [n] c =
        .ok (tab [n] (fn1 fun j => fin F bz (C j))).data ∧
      ∀ j < n, |C j - ∑ k ∈ range m, B k j * A k| ≤ F.err (m + z) (2 * m + z - 1) (∑ k ∈ range m, |B k j| * |A k|) := by
  obtain ⟨C, hC⟩ := choose1 fun j hj => SumOrder.entry_err (bz := bz) (ho j hj) (fun k => B k j) A (h j hj)
  refine ⟨C, (Cblas.vmBy_run n1 hm hn ho _ _ hc).trans ?_, fun i hi => (hC i hi).2⟩
  exact ok_tab1 fun i hi => (hC i hi).1

/-- C138: the two engines, or two libraries behind the cblas engine, differ by at most the sum of their error bounds. -/
theorem C138_engines (l1 : 1 ≤ l) (n1 : 1 ≤ n) (hm : m < 2 ^ 31) (hl : l < 2 ^ 31) (hn : n < 2 ^ 31)
    {how : Nat → Nat → SumOrder} (ho : ∀ i < m, ∀ j < n, (how i j).Of l 1) (A B : Nat → Nat → ℝ)
    {c c' : List (Ieee (F.arith bz))} (hc : c.length = m * n) (hc' : c'.length = m * n)
    (h : ∀ i < m, ∀ j < n, ∑ k ∈ range l, |A i k| * |B k j| +
      F.err (l + 1) (2 * l) (∑ k ∈ range l, |A i k| * |B k j|) < F.limit) :
    ∃ C C' : Nat → Nat → ℝ,
      Cblas.mmBy Ieee.fma how (tab [m, l] (fn2 fun i k => fin F bz (A i k))) (tab [l, n] (fn2 fun k j => fin F bz (B k j)))
        [m, n] c = .ok (tab [m, n] (fn2 fun i j => fin F bz (C i j))).data ∧
      Plain.mm (tab [m, l] (fn2 fun i k => fin F bz (A i k))) (tab [l, n] (fn2 fun k j => fin F bz (B k j)))
        [m, n] c' = .ok (tab [m, n] (fn2 fun i j => fin F bz (C' i j))).data ∧
      ∀ i < m, ∀ j < n, |C i j - C' i j| ≤ 2 * F.err (l + 1) (2 * l) (∑ k ∈ range l, |A i k| * |B k j|) := by
  obtain ⟨C, e, hC⟩ := C138_mm l1 n1 hm hl hn ho A B hc h
  obtain ⟨C', e', hC'⟩ := C135_mm A B hc' h
  refine ⟨C, C', e, e', fun i hi j hj => ?_⟩
  have a := abs_le.1 (hC i hi j hj)
  have b := abs_le.1 (hC' i hi j hj)
  simp only [show 2 * l + 1 - 1 = 2 * l from rfl] at a
  exact abs_le.2 ⟨by linarith [a.1, b.2], by linarith [a.2, b.1]⟩

/-! ## Small integers -/

theorem nearest_int {k : ℤ} (hk : |k| ≤ 2 ^ F.p) : F.nearest k = k := by
  rcases lt_or_eq_of_le hk with h | h
  · exact F.nearest_mem (F.mem_int h)
  · have m : F.nearest (2 ^ (F.p : ℤ)) = 2 ^ (F.p : ℤ) := F.nearest_mem (F.mem_two_pow (by have := F.min0; have := F.p1; omega))
    rw [zpow_natCast] at m
    have e : k = 2 ^ F.p ∨ k = -2 ^ F.p := by
      rcases abs_choice k with c | c <;> omega
    rcases e with rfl | rfl
    · push_cast; exact m
    · push_cast; rw [nearest_neg, m]

theorem SumOrder.val_int (hF : (F.p : ℤ) ≤ F.emax) (t : SumOrder) (a b : Nat → ℤ)
    (h : (t.leaves.map fun k => |a k| * |b k|).sum ≤ 2 ^ F.p) :
    t.val Ieee.fma (fun k => fin F bz (a k)) (fun k => fin F bz (b k)) =
      fin F bz ((t.leaves.map fun k => a k * b k).sum : ℤ) := by
  have abs_le : ∀ l : List Nat, |(l.map fun k => a k * b k).sum| ≤ (l.map fun k => |a k| * |b k|).sum := by
    intro l
    induction l with
    | nil => simp
    | cons x l ih =>
      simp only [List.map_cons, List.sum_cons]
      exact (abs_add_le _ _).trans (add_le_add (abs_mul _ _).le ih)
  have pos : ∀ l : List Nat, 0 ≤ (l.map fun k => |a k| * |b k|).sum := fun l => (abs_nonneg _).trans (abs_le l)
  have small : ∀ k : ℤ, |k| ≤ 2 ^ F.p → |F.nearest k| < F.limit := by
    intro k hk
    rw [nearest_int hk]
    have h1 : |(k : ℝ)| ≤ 2 ^ F.p := by exact_mod_cast hk
    refine lt_of_le_of_lt h1 ?_
    rw [← zpow_natCast]
    exact zpow_lt_zpow_right₀ (by norm_num) (by omega)
  induction t with
  | zero =>
    simp only [val, leaves, List.map_nil, List.sum_nil, Int.cast_zero]
    exact fin_zero.symm
  | mul p =>
    have hp : |a p * b p| ≤ 2 ^ F.p := by rw [abs_mul]; simpa [leaves] using h
    have e : ((a p : ℝ) * b p) = ((a p * b p : ℤ) : ℝ) := by push_cast; rfl
    simp only [val, leaves, List.map_cons, List.map_nil, List.sum_cons, List.sum_nil, add_zero]
    rw [fin_mul (by rw [e]; exact small _ hp), e, nearest_int hp]
  | add s t ihs iht =>
    simp only [leaves, List.map_append, List.sum_append] at h ⊢
    have p1 := pos s.leaves
    have p2 := pos t.leaves
    have hs : |(s.leaves.map fun k => a k * b k).sum + (t.leaves.map fun k => a k * b k).sum| ≤ 2 ^ F.p :=
      ((abs_add_le _ _).trans (add_le_add (abs_le _) (abs_le _))).trans h
    rw [val, ihs (by linarith), iht (by linarith)]
    have e : ∀ x y : ℤ, (x : ℝ) + y = ((x + y : ℤ) : ℝ) := fun x y => by push_cast; rfl
    rw [fin_add (by rw [e]; exact small _ hs), e, nearest_int hs]
  | fma s p ih =>
    simp only [leaves, List.map_append, List.sum_append, List.map_cons, List.map_nil, List.sum_cons, List.sum_nil,
      add_zero] at h ⊢
    have p1 := pos s.leaves
    have p2 : 0 ≤ |a p| * |b p| := mul_nonneg (abs_nonneg _) (abs_nonneg _)
    have hs : |a p * b p + (s.leaves.map fun k => a k * b k).sum| ≤ 2 ^ F.p := by
      refine ((abs_add_le _ _).trans (add_le_add (abs_mul _ _).le (abs_le _))).trans ?_
      linarith
    rw [val, ih (by linarith)]
    have e : ∀ x y w : ℤ, (x : ℝ) * y + w = ((x * y + w : ℤ) : ℝ) := fun x y w => by push_cast; rfl
    rw [fin_fma (by rw [e]; exact small _ hs), e, nearest_int hs, add_comm (a p * b p)]

/-- C138: if the entries are integers and the sums of the products' absolute values at most `2^p` (`2^24` for `float`, `2^53`
for `double`), the cblas engine gives the exact integers, whatever the order of summation: the numbers of the built-in
engine. -/
theorem C138_integers (hF : (F.p : ℤ) ≤ F.emax) (l1 : 1 ≤ l) (n1 : 1 ≤ n) (hm : m < 2 ^ 31) (hl : l < 2 ^ 31) (hn : n < 2 ^ 31)
    {how : Nat → Nat → SumOrder} (ho : ∀ i < m, ∀ j < n, (how i j).Of l z) (A B : Nat → Nat → ℤ)
    {c c' : List (Ieee (F.arith bz))} (hc : c.length = m * n) (hc' : c'.length = m * n)
    (h : ∀ i < m, ∀ j < n, ∑ k ∈ range l, |A i k| * |B k j| ≤ 2 ^ F.p) :
    Cblas.mmBy Ieee.fma how (tab [m, l] (fn2 fun i k => fin F bz (A i k))) (tab [l, n] (fn2 fun k j => fin F bz (B k j)))
        [m, n] c = .ok (tab [m, n] (fn2 fun i j => fin F bz (∑ k ∈ range l, A i k * B k j : ℤ))).data ∧
      Plain.mm (tab [m, l] (fn2 fun i k => fin F bz (A i k))) (tab [l, n] (fn2 fun k j => fin F bz (B k j)))
        [m, n] c' = .ok (tab [m, n] (fn2 fun i j => fin F bz (∑ k ∈ range l, A i k * B k j : ℤ))).data := by
  have key : ∀ z (t : SumOrder), t.Of l z → ∀ i < m, ∀ j < n,
      t.val Ieee.fma (fun k => fin F bz (A i k)) (fun k => fin F bz (B k j)) =
        fin F bz (∑ k ∈ range l, A i k * B k j : ℤ) := by
    intro z t ht i hi j hj
    have := t.val_int (bz := bz) hF (fun k => A i k) (fun k => B k j) (by rw [ht.sum]; exact h i hi j hj)
    rwa [ht.sum] at this
  constructor
  · refine (Cblas.mmBy_run l1 n1 hm hl hn ho _ _ hc).trans (ok_tab2 fun i hi j hj => ?_)
    rw [key z _ (ho i hi j hj) i hi j hj]
    have hs : |∑ k ∈ range l, A i k * B k j| ≤ 2 ^ F.p := by
      refine (abs_sum_le_sum_abs _ _).trans (le_trans (le_of_eq ?_) (h i hi j hj))
      exact sum_congr rfl fun k _ => abs_mul _ _
    refine one_fin (by rw [← nearest_int hs]; exact F.mem_nearest _) ?_
    have h1 : |((∑ k ∈ range l, A i k * B k j : ℤ) : ℝ)| ≤ 2 ^ F.p := by exact_mod_cast hs
    refine lt_of_le_of_lt h1 ?_
    rw [← zpow_natCast]
    exact zpow_lt_zpow_right₀ (by norm_num) (by omega)
  · refine (Plain.mm_run _ _ hc').trans (ok_tab2 fun i hi j hj => ?_)
    refine Eq.trans ?_ (key 1 _ (SumOrder.increasing_of l) i hi j hj)
    exact (SumOrder.increasing_val _ _ _ l).symm

/-! ## The engines do differ -/

/-- `1 + u` lies halfway between 1 and the next number and is rounded to 1. -/
theorem nearest_tie : F.nearest (1 + F.u) = 1 := by
  have p1 := F.p1
  have u0 := F.u_pos
  have u1 : F.u < 1 := by
    unfold u
    exact zpow_lt_one_of_neg₀ (by norm_num) (by omega)
  have lg : Int.log 2 |1 + F.u| = 0 := by
    rw [abs_of_pos (by linarith)]
    have a : (0 : ℤ) ≤ Int.log 2 (1 + F.u) := by
      rw [← Int.zpow_le_iff_le_log (by norm_num) (by linarith)]
      simp [u0.le]
    have b : Int.log 2 (1 + F.u) < 1 := by
      rw [← Int.lt_zpow_iff_log_lt (by norm_num) (by linarith)]
      norm_num
      linarith
    omega
  have pl : F.place (1 + F.u) = 1 - F.p := by
    unfold place
    rw [lg, max_eq_left F.min0]
    ring
  have q : (1 + F.u) / 2 ^ (1 - (F.p : ℤ)) = ((2 ^ (F.p - 1) : ℤ) : ℝ) + 1 / 2 := by
    rw [div_eq_iff (two_pos _).ne', add_mul]
    congr 1
    · push_cast
      rw [← zpow_natCast, ← zpow_add₀ (by norm_num)]
      rw [show ((F.p - 1 : ℕ) : ℤ) + (1 - F.p) = 0 by omega]
      norm_num
    · unfold u
      rw [sub_eq_add_neg, zpow_add₀ (by norm_num), zpow_one]
      ring
  have r : roundEven (((2 ^ (F.p - 1) : ℤ) : ℝ) + 1 / 2) = 2 ^ (F.p - 1) := by
    have fl : ⌊((2 ^ (F.p - 1) : ℤ) : ℝ) + 1 / 2⌋ = 2 ^ (F.p - 1) := by
      rw [Int.floor_intCast_add]
      norm_num
    have fr : Int.fract (((2 ^ (F.p - 1) : ℤ) : ℝ) + 1 / 2) = 1 / 2 := by
      rw [Int.fract_intCast_add, Int.fract_eq_self]
      norm_num
    unfold roundEven
    rw [fr, fl, if_neg (lt_irrefl _), if_neg (lt_irrefl _), if_pos]
    exact (Int.even_pow' (by omega)).2 (by decide)
  unfold nearest
  rw [pl, q, r]
  push_cast
  rw [← zpow_natCast, ← zpow_add₀ (by norm_num), show ((F.p - 1 : ℕ) : ℤ) + (1 - F.p) = 0 by omega]
  norm_num

/-- The last two products are added up first. -/
def pairFirst : SumOrder := .add (.mul 0) (.add (.mul 1) (.mul 2))

theorem pairFirst_of : pairFirst.Of 3 1 := by
  refine ⟨?_, by decide⟩
  show [0, 1, 2].Perm [0, 1, 2]
  exact List.Perm.refl _

/-- C138: the engines do differ: the row `(1, u, u)` times a column of ones is 1 with the built-in engine, but `1 + 2u` with a
library that adds the last two products first. -/
theorem C138_differ (hmin : F.emin ≤ -1) {c : List (Ieee (F.arith bz))} (hc : c.length = 1 * 1) :
    Plain.mm (tab [1, 3] (fn2 fun _ k => fin F bz (if k = 0 then 1 else F.u))) (tab [3, 1] (fn2 fun _ _ => fin F bz 1))
        [1, 1] c = .ok [fin F bz 1] ∧
      Cblas.mmBy Ieee.fma (fun _ _ => pairFirst) (tab [1, 3] (fn2 fun _ k => fin F bz (if k = 0 then 1 else F.u)))
        (tab [3, 1] (fn2 fun _ _ => fin F bz 1)) [1, 1] c = .ok [fin F bz (1 + 2 * F.u)] ∧
      fin F bz 1 ≠ fin F bz (1 + 2 * F.u) := by
  have p1 := F.p1
  have u0 := F.u_pos
  have u1 : F.u ≤ 1 / 4 := by
    unfold u
    have : (2 : ℝ) ^ (-(F.p : ℤ)) ≤ 2 ^ (-2 : ℤ) := two_le (by omega)
    norm_num at this ⊢
    linarith
  have l2 : 2 ≤ F.limit := by
    unfold limit
    have : (2 : ℝ) ^ (1 : ℤ) ≤ 2 ^ (F.emax + 1) := two_le (by have := F.max0; omega)
    simpa using this
  have nu : F.nearest F.u = F.u := F.nearest_mem (F.mem_two_pow (by omega))
  have e2 : 2 * F.u = 2 ^ (1 - (F.p : ℤ)) := by
    unfold u
    rw [sub_eq_add_neg, zpow_add₀ (by norm_num)]
    norm_num
  have n2 : F.nearest (F.u + F.u) = 2 * F.u := by
    rw [← two_mul, e2]
    exact F.nearest_mem (F.mem_two_pow (by omega))
  have m3 : F.Mem (1 + 2 * F.u) := by
    refine ⟨2 ^ (F.p - 1) + 1, 1 - F.p, ?_, by omega, ?_⟩
    · have : (2 : ℤ) ^ F.p = 2 ^ (F.p - 1) * 2 := by rw [← pow_succ]; congr 1; omega
      have h2 : (2 : ℤ) ≤ 2 ^ (F.p - 1) := by
        calc (2 : ℤ) = 2 ^ 1 := by norm_num
          _ ≤ 2 ^ (F.p - 1) := pow_le_pow_right₀ (by norm_num) (by omega)
      rw [abs_of_pos (by linarith)]
      linarith
    · push_cast
      rw [add_mul, ← zpow_natCast, ← zpow_add₀ (by norm_num), show ((F.p - 1 : ℕ) : ℤ) + (1 - F.p) = 0 by omega, e2]
      norm_num
  have n3 := F.nearest_mem m3
  have one : fin F bz 1 * fin F bz 1 = fin F bz 1 := by
    rw [fin_mul (by rw [mul_one, nearest_one, abs_one]; linarith), mul_one, nearest_one]
  have small : fin F bz F.u * fin F bz 1 = fin F bz F.u := by
    rw [fin_mul (by rw [mul_one, nu, abs_of_pos u0]; linarith), mul_one, nu]
  refine ⟨(Plain.mm_run _ _ hc).trans ?_, (Cblas.mmBy_run (z := 1) (by norm_num) (by norm_num) (by norm_num) (by norm_num)
    (by norm_num) (fun _ _ _ _ => pairFirst_of) _ _ hc).trans ?_, ?_⟩
  · have e : (seqSum 3 fun k => fin F bz (if k = 0 then 1 else F.u) * fin F bz 1) = fin F bz 1 := by
      show ((0 + fin F bz (if 0 = 0 then 1 else F.u) * fin F bz 1) + fin F bz (if 1 = 0 then 1 else F.u) * fin F bz 1) +
        fin F bz (if 2 = 0 then 1 else F.u) * fin F bz 1 = _
      rw [if_pos rfl, if_neg (by decide), if_neg (by decide), one, small, ← fin_zero (F := F) (bz := bz),
        fin_add (by rw [zero_add, nearest_one, abs_one]; linarith), zero_add, nearest_one,
        fin_add (by rw [nearest_tie, abs_one]; linarith), nearest_tie,
        fin_add (by rw [nearest_tie, abs_one]; linarith), nearest_tie]
    show Outcome.ok [_] = _
    exact congrArg (fun x => Outcome.ok [x]) e
  · have e : 1 * pairFirst.val Ieee.fma (fun k => fin F bz (if k = 0 then 1 else F.u)) (fun _ => fin F bz 1) =
        fin F bz (1 + 2 * F.u) := by
      have a : |1 + 2 * F.u| < F.limit := by rw [abs_of_pos (by linarith)]; linarith
      show 1 * (fin F bz (if 0 = 0 then 1 else F.u) * fin F bz 1 + (fin F bz (if 1 = 0 then 1 else F.u) * fin F bz 1 +
        fin F bz (if 2 = 0 then 1 else F.u) * fin F bz 1)) = _
      rw [if_pos rfl, if_neg (by decide), if_neg (by decide), one, small,
        fin_add (by rw [n2, abs_of_pos (by linarith)]; linarith), n2, fin_add (by rw [n3]; exact a), n3, one_fin m3 a]
    show Outcome.ok [_] = _
    exact congrArg (fun x => Outcome.ok [x]) e
  · intro h
    have := EReal.coe_eq_coe_iff.1 (Ieee.num.inj h)
    linarith

/-! ## The hypotheses are met -/

/-- Two accumulators, one for the even and one for the odd products, with fused operations. -/
example : (SumOrder.add (.fma (.fma .zero 0) 2) (.fma (.fma .zero 1) 3)).Of 4 2 := by
  refine ⟨?_, by decide⟩
  show [0, 2, 1, 3].Perm [0, 1, 2, 3]
  decide

/-- Products of 3×5 and 5×2 matrices of `float`s up to 1000, with one accumulator per entry. -/
example (A B : Nat → Nat → ℝ) (hA : ∀ i k, |A i k| ≤ 1000) (hB : ∀ i k, |B i k| ≤ 1000) : ∀ i < 3, ∀ j < 2,
    ∑ k ∈ range 5, |A i k| * |B k j| + Format.binary32.err (5 + 1) (2 * 5 + 1 - 1) (∑ k ∈ range 5, |A i k| * |B k j|) <
      Format.binary32.limit := by
  intro i _ j _
  refine (C135_float (by norm_num) (by norm_num) (sum_nonneg fun _ _ => mul_nonneg (abs_nonneg _) (abs_nonneg _)) ?_).2
  calc ∑ k ∈ range 5, |A i k| * |B k j| ≤ ∑ _k ∈ range 5, (1000 * 1000 : ℝ) :=
        sum_le_sum fun k _ => mul_le_mul (hA i k) (hB k j) (abs_nonneg _) (by norm_num)
    _ = 5000000 := by rw [sum_const, card_range]; norm_num
    _ ≤ 2 ^ 126 := by norm_num

example : (Format.binary32.p : ℤ) ≤ Format.binary32.emax ∧ (Format.binary64.p : ℤ) ≤ Format.binary64.emax ∧
    Format.binary32.emin ≤ -1 := by decide

/-- The engine run on integers, backwards. -/
example : Cblas.mmBy (fun a b c => a * b + c) (fun _ _ => .fma (.fma (.mul 2) 1) 0) (⟨[1, 3], [1, 2, 3]⟩ : Tensor Int)
    ⟨[3, 1], [4, 5, 6]⟩ [1, 1] [9] = .ok [32] := by decide

/-! ## Concrete cases

An order of three products that begins with the last one and adds one zero, and matrices of integers or
of one constant. -/

def exHow : SumOrder := .add (.fma (.fma .zero 2) 0) (.mul 1)

theorem exHow_of : exHow.Of 3 1 := by
  refine ⟨?_, by decide⟩
  show [2, 0, 1].Perm [0, 1, 2]
  decide

theorem exHow_fits {s : ℝ} (h : s = 3 * (1000 * 1000)) :
    s + Format.binary32.err (3 + 1) (2 * 3 + 1 - 1) s < Format.binary32.limit :=
  (C135_float (by norm_num) (by norm_num) (by rw [h]; norm_num) (by rw [h]; norm_num)).2

theorem exHow_sum : ∑ _k ∈ range 3, |(1000 : ℝ)| * |(-1000 : ℝ)| = 3 * (1000 * 1000) := by
  rw [sum_const, card_range]; norm_num

example := C138_exact_mm (T := Int) (m := 2) (l := 3) (n := 2) (by decide) (by decide) (by decide) (by decide) (by decide)
  (how := fun _ _ => exHow) (fun _ _ _ _ => exHow_of) (fun i k => i - 4 * k) (fun k j => k + j)
  (c := List.replicate 4 9) rfl
example := C138_exact_mmt (T := Int) (m := 2) (l := 3) (n := 2) (by decide) (by decide) (by decide) (by decide) (by decide)
  (how := fun _ _ => exHow) (fun _ _ _ _ => exHow_of) (fun i k => i - 4 * k) (fun j k => k + j)
  (c := List.replicate 4 9) rfl
example := C138_exact_mtm (T := Int) (m := 2) (l := 3) (n := 2) (by decide) (by decide) (by decide) (by decide) (by decide)
  (how := fun _ _ => exHow) (fun _ _ _ _ => exHow_of) (fun k i => i - 4 * k) (fun k j => k + j)
  (c := List.replicate 4 9) rfl
example := C138_exact_mv (T := Int) (m := 2) (n := 3) (by decide) (by decide) (by decide)
  (how := fun _ => exHow) (fun _ _ => exHow_of) (fun i k => i - 4 * k) (fun k => k + 7) (c := List.replicate 2 9) rfl
example := C138_exact_vm (T := Int) (m := 3) (n := 2) (by decide) (by decide) (by decide)
  (how := fun _ => exHow) (fun _ _ => exHow_of) (fun k => k + 7) (fun k j => k - 4 * j) (c := List.replicate 2 9) rfl
example (x : Ieee (Format.binary32.arith bz)) := C138_mm (m := 2) (l := 3) (n := 2) (by decide) (by decide) (by decide) (by decide) (by decide)
  (how := fun _ _ => exHow) (fun _ _ _ _ => exHow_of) (fun _ _ => 1000) (fun _ _ => -1000)
  (c := List.replicate 4 x) rfl (fun _ _ _ _ => exHow_fits exHow_sum)
example (x : Ieee (Format.binary32.arith bz)) := C138_mmt (m := 2) (l := 3) (n := 2) (by decide) (by decide) (by decide) (by decide) (by decide)
  (how := fun _ _ => exHow) (fun _ _ _ _ => exHow_of) (fun _ _ => 1000) (fun _ _ => -1000)
  (c := List.replicate 4 x) rfl (fun _ _ _ _ => exHow_fits exHow_sum)
example (x : Ieee (Format.binary32.arith bz)) := C138_mtm (m := 2) (l := 3) (n := 2) (by decide) (by decide) (by decide) (by decide) (by decide)
  (how := fun _ _ => exHow) (fun _ _ _ _ => exHow_of) (fun _ _ => 1000) (fun _ _ => -1000)
  (c := List.replicate 4 x) rfl (fun _ _ _ _ => exHow_fits exHow_sum)
example (x : Ieee (Format.binary32.arith bz)) := C138_mv (m := 2) (n := 3) (by decide) (by decide) (by decide)
  (how := fun _ => exHow) (fun _ _ => exHow_of) (fun _ _ => 1000) (fun _ => -1000)
  (c := List.replicate 2 x) rfl (fun _ _ => exHow_fits exHow_sum)
example (x : Ieee (Format.binary32.arith bz)) := C138_vm (m := 3) (n := 2) (by decide) (by decide) (by decide)
  (how := fun _ => exHow) (fun _ _ => exHow_of) (fun _ => -1000) (fun _ _ => 1000)
  (c := List.replicate 2 x) rfl (fun _ _ => exHow_fits exHow_sum)
example (x : Ieee (Format.binary32.arith bz)) := C138_engines (m := 2) (l := 3) (n := 2) (by decide) (by decide) (by decide) (by decide) (by decide)
  (how := fun _ _ => exHow) (fun _ _ _ _ => exHow_of) (fun _ _ => 1000) (fun _ _ => -1000)
  (c := List.replicate 4 x) (c' := List.replicate 4 x) rfl rfl (fun _ _ _ _ => exHow_fits exHow_sum)
example (x : Ieee (Format.binary32.arith bz)) := C138_integers (by decide) (m := 2) (l := 3) (n := 2) (by decide) (by decide) (by decide) (by decide) (by decide)
  (how := fun _ _ => exHow) (fun _ _ _ _ => exHow_of) (fun i k => 1000 * i - k) (fun k j => 5 * k - j)
  (c := List.replicate 4 x) (c' := List.replicate 4 x) rfl rfl (by decide +kernel)
example (x : Ieee (Format.binary32.arith bz)) := C138_differ (F := Format.binary32) (by decide) (c := [x]) rfl

end StdNN
