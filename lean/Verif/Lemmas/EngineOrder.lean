import Verif.Spec.Order
import Verif.Props.Matmul
/-!
# What the cblas engine computes for every order of summation
-/
namespace StdNN
open Outcome Spec
variable {T : Type} [Add T] [Mul T] [Zero T]

namespace SumOrder

/-- The value of the sum of the products `f p * g p`. -/
def val (fma : T → T → T → T) (f g : Nat → T) : SumOrder → T
  | zero => 0
  | mul p => f p * g p
  | add s t => s.val fma f g + t.val fma f g
  | .fma s p => fma (f p) (g p) (s.val fma f g)

theorem eval_val {fma : T → T → T → T} {x y : Nat → Outcome T} {f g : Nat → T} {t : SumOrder}
    (h : ∀ p ∈ t.leaves, x p = .ok (f p) ∧ y p = .ok (g p)) : t.eval fma x y = .ok (t.val fma f g) := by
  induction t with
  | zero => rfl
  | mul p =>
    obtain ⟨a, b⟩ := h p (by simp [leaves])
    simp only [eval, val, a, b, ok_bind]
    rfl
  | add s t ihs iht =>
    simp only [eval, val, ihs fun p hp => h p (by simp [leaves, hp]), iht fun p hp => h p (by simp [leaves, hp]), ok_bind]
    rfl
  | fma s p ih =>
    obtain ⟨a, b⟩ := h p (by simp [leaves])
    simp only [eval, val, ih fun p hp => h p (by simp [leaves, hp]), a, b, ok_bind]
    rfl

theorem Of.lt {n z : Nat} {t : SumOrder} (h : t.Of n z) {p : Nat} (hp : p ∈ t.leaves) : p < n :=
  List.mem_range.1 ((h.1.mem_iff).1 hp)

theorem Of.sum {M : Type} [AddCommMonoid M] {n z : Nat} {t : SumOrder} (h : t.Of n z) (f : Nat → M) :
    (t.leaves.map f).sum = ∑ k ∈ Finset.range n, f k := by
  rw [(h.1.map f).sum_eq]
  rfl

theorem depth_le (t : SumOrder) : t.depth ≤ t.leaves.length + t.zeros ∧ 1 ≤ t.leaves.length + t.zeros ∧
    t.ops + 1 ≤ 2 * t.leaves.length + t.zeros := by
  induction t with
  | zero => simp [depth, leaves, zeros, ops]
  | mul p => simp [depth, leaves, zeros, ops]
  | add s t ihs iht => simp only [depth, leaves, zeros, ops, List.length_append]; omega
  | fma s p ih => simp only [depth, leaves, zeros, ops, List.length_append, List.length_singleton]; omega

theorem Of.counts {n z : Nat} {t : SumOrder} (h : t.Of n z) : t.depth ≤ n + z ∧ t.ops ≤ 2 * n + z - 1 := by
  have l : t.leaves.length = n := by rw [h.1.length_eq, List.length_range]
  have := t.depth_le
  have := h.2
  omega

theorem increasing_of (n : Nat) : (increasing n).Of n 1 := by
  have l : ∀ n, (increasing n).leaves = List.range n := by
    intro n
    induction n with
    | zero => rfl
    | succ n ih => rw [increasing, leaves, ih, leaves, List.range_succ]
  have z : ∀ n, (increasing n).zeros = 1 := by
    intro n
    induction n with
    | zero => rfl
    | succ n ih => rw [increasing, zeros, ih, zeros]
  exact ⟨by rw [l], (z n).le⟩

theorem increasing_val (fma : T → T → T → T) (f g : Nat → T) (n : Nat) :
    (increasing n).val fma f g = seqSum n fun k => f k * g k := by
  induction n with
  | zero => rfl
  | succ n ih =>
    show (increasing n).val fma f g + f n * g n = _
    rw [ih]
    rfl

end SumOrder

namespace Cblas
variable [One T] [DecidableEq T] {fma : T → T → T → T}

theorem mmBy_run {m l n z : Nat} (l1 : 1 ≤ l) (n1 : 1 ≤ n) (hm : m < 2 ^ 31) (hl : l < 2 ^ 31) (hn : n < 2 ^ 31)
    {how : Nat → Nat → SumOrder} (ho : ∀ i < m, ∀ j < n, (how i j).Of l z)
    (A B : Nat → Nat → T) {c : List T} (hc : c.length = m * n) :
    mmBy fma how (tab [m, l] (fn2 A)) (tab [l, n] (fn2 B)) [m, n] c =
      .ok (tab [m, n] (fn2 fun i j => 1 * (how i j).val fma (fun k => A i k) (fun k => B k j))).data := by
  rw [← Plain.run_store2 (val := fun i j => 1 * (how i j).val fma (fun k => A i k) (fun k => B k j)) hc]
  simp only [mmBy, gemmBy_, gemmBy, len, wid, tab_dims, List.getD_cons_zero,
    List.getD_cons_succ, i32_conv_nat hm, i32_conv_nat hl, i32_conv_nat hn, Int.toNat_natCast, Bool.false_eq_true, if_false]
  rw [if_neg (by omega)]
  refine forRange_congr (fun i hi s => forRange_congr (fun j hj s => ?_) s) c
  rw [SumOrder.eval_val (f := fun k => A i k) (g := fun k => B k j) fun p hp =>
    ⟨rd_tab2 _ hi ((ho i hi j hj).lt hp), rd_tab2 _ ((ho i hi j hj).lt hp) hj⟩]
  simp

theorem mmtBy_run {m l n z : Nat} (l1 : 1 ≤ l) (n1 : 1 ≤ n) (hm : m < 2 ^ 31) (hl : l < 2 ^ 31) (hn : n < 2 ^ 31)
    {how : Nat → Nat → SumOrder} (ho : ∀ i < m, ∀ j < n, (how i j).Of l z)
    (A B : Nat → Nat → T) {c : List T} (hc : c.length = m * n) :
    mmtBy fma how (tab [m, l] (fn2 A)) (tab [n, l] (fn2 B)) [m, n] c =
      .ok (tab [m, n] (fn2 fun i j => 1 * (how i j).val fma (fun k => A i k) (fun k => B j k))).data := by
  rw [← Plain.run_store2 (val := fun i j => 1 * (how i j).val fma (fun k => A i k) (fun k => B j k)) hc]
  simp only [mmtBy, gemmBy_, gemmBy, len, wid, tab_dims, List.getD_cons_zero,
    List.getD_cons_succ, i32_conv_nat hm, i32_conv_nat hl, i32_conv_nat hn, Int.toNat_natCast, if_true, Bool.false_eq_true,
    if_false]
  rw [if_neg (by omega)]
  refine forRange_congr (fun i hi s => forRange_congr (fun j hj s => ?_) s) c
  rw [SumOrder.eval_val (f := fun k => A i k) (g := fun k => B j k) fun p hp =>
    ⟨rd_tab2 _ hi ((ho i hi j hj).lt hp), rd_tab2 _ hj ((ho i hi j hj).lt hp)⟩]
  simp

theorem mtmBy_run {m l n z : Nat} (m1 : 1 ≤ m) (n1 : 1 ≤ n) (hm : m < 2 ^ 31) (hl : l < 2 ^ 31) (hn : n < 2 ^ 31)
    {how : Nat → Nat → SumOrder} (ho : ∀ i < m, ∀ j < n, (how i j).Of l z)
    (A B : Nat → Nat → T) {c : List T} (hc : c.length = m * n) :
    mtmBy fma how (tab [l, m] (fn2 A)) (tab [l, n] (fn2 B)) [m, n] c =
      .ok (tab [m, n] (fn2 fun i j => 1 * (how i j).val fma (fun k => A k i) (fun k => B k j))).data := by
  rw [← Plain.run_store2 (val := fun i j => 1 * (how i j).val fma (fun k => A k i) (fun k => B k j)) hc]
  simp only [mtmBy, gemmBy_, gemmBy, len, wid, tab_dims, List.getD_cons_zero,
    List.getD_cons_succ, i32_conv_nat hm, i32_conv_nat hl, i32_conv_nat hn, Int.toNat_natCast, if_true, Bool.false_eq_true,
    if_false]
  rw [if_neg (by omega)]
  refine forRange_congr (fun i hi s => forRange_congr (fun j hj s => ?_) s) c
  rw [SumOrder.eval_val (f := fun k => A k i) (g := fun k => B k j) fun p hp =>
    ⟨rd_tab2 _ ((ho i hi j hj).lt hp) hi, rd_tab2 _ ((ho i hi j hj).lt hp) hj⟩]
  simp

theorem mvBy_run {m n z : Nat} (n1 : 1 ≤ n) (hm : m < 2 ^ 31) (hn : n < 2 ^ 31)
    {how : Nat → SumOrder} (ho : ∀ i < m, (how i).Of n z)
    (A : Nat → Nat → T) (B : Nat → T) {c : List T} (hc : c.length = m) :
    mvBy fma how (tab [m, n] (fn2 A)) (tab [n] (fn1 B)) [m] c =
      .ok (tab [m] (fn1 fun i => 1 * (how i).val fma (fun k => A i k) B)).data := by
  rw [← Plain.run_store1 (val := fun i => 1 * (how i).val fma (fun k => A i k) B) hc]
  simp only [mvBy, gemvBy, len, wid, tab_dims, List.getD_cons_zero,
    List.getD_cons_succ, i32_conv_nat hm, i32_conv_nat hn, Int.toNat_natCast, Bool.false_eq_true, if_false]
  rw [if_neg (by omega)]
  refine forRange_congr (fun i hi s => ?_) c
  rw [SumOrder.eval_val (f := fun k => A i k) (g := B) fun p hp =>
    ⟨rd_tab2 _ hi ((ho i hi).lt hp), rd_tab1 _ ((ho i hi).lt hp)⟩]
  simp

theorem vmBy_run {m n z : Nat} (n1 : 1 ≤ n) (hm : m < 2 ^ 31) (hn : n < 2 ^ 31)
    {how : Nat → SumOrder} (ho : ∀ j < n, (how j).Of m z)
    (A : Nat → T) (B : Nat → Nat → T) {c : List T} (hc : c.length = n) :
    vmBy fma how (tab [m] (fn1 A)) (tab [m, n] (fn2 B)) [n] c =
      .ok (tab [n] (fn1 fun j => 1 * (how j).val fma (fun k => B k j) A)).data := by
  rw [← Plain.run_store1 (val := fun j => 1 * (how j).val fma (fun k => B k j) A) hc]
  simp only [vmBy, gemvBy, len, wid, tab_dims, List.getD_cons_zero,
    List.getD_cons_succ, i32_conv_nat hm, i32_conv_nat hn, Int.toNat_natCast, if_true]
  rw [if_neg (by omega)]
  refine forRange_congr (fun i hi s => ?_) c
  rw [SumOrder.eval_val (f := fun k => B k i) (g := A) fun p hp =>
    ⟨rd_tab2 _ ((ho i hi).lt hp) hi, rd_tab1 _ ((ho i hi).lt hp)⟩]
  simp

end Cblas
end StdNN
