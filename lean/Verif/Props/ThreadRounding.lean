import Verif.Props.ThreadTrain
import Verif.Props.RoundingSoftmax
import Verif.Props.RoundingLayers
/-!
# C174: gradients that threads compute on shares of the batch, added up in rounded arithmetic
-/
namespace StdNN
open Outcome Spec IntTy
variable {R : Type}
namespace Prog

/-! ## Specification -/

/-- The calls by which a caller adds up buffers of `len` numbers: `add(sum, sum, buffer)` (ops/elementary.hpp:94-105) for every
buffer, in the order of the list. The repository has no such loop; it is the caller's part in dividing a batch. -/
def addAll [Zero R] [Add R] (len acc : Nat) : List Nat → List R → Outcome (List R)
  | [], m => .ok m
  | p :: ps, m => do
    let m ← Ops.add len (.mem acc) (.mem p) acc m
    addAll len acc ps m

/-- The `len` cells of the sum at `acc` are none of those that the threads write. -/
def SumOff {ι : Type} (p : Regr R) (N : Nat) (gw gb : ι → Nat) (acc len : Nat) : Prop :=
  (∀ o ∈ p.outs N, Net.Sep (acc, len) o) ∧ ∀ i, ∀ o ∈ p.own (gw i) (gb i), Net.Sep (acc, len) o

/-! ## Adding up buffers -/

/-- `addAll` for any kernel of two inputs. -/
def accum [Zero R] (f : R → R → R) (len acc : Nat) : List Nat → List R → Outcome (List R)
  | [], m => .ok m
  | p :: ps, m => do
    let m ← Kernels.transform2 f len (.mem acc) (.mem p) acc m
    accum f len acc ps m

/-- What calls of a kernel of two inputs make of a buffer. -/
theorem accum_run [Zero R] (f : R → R → R) {len acc : Nat} (ps : List Nat) {m : List R} (ha : acc + len ≤ m.length)
    (hp : ∀ p ∈ ps, p + len ≤ m.length ∧ Net.Sep (acc, len) (p, len)) :
    ∃ m', accum f len acc ps m = .ok m' ∧ m'.length = m.length ∧
      (∀ q < len, m'[acc + q]? = some ((ps.map fun p => cell m (p + q)).foldl f (cell m (acc + q)))) ∧
      ∀ q, q < acc ∨ acc + len ≤ q → m'[q]? = m[q]? := by
  induction ps generalizing m with
  | nil =>
    refine ⟨m, rfl, rfl, fun q hq => ?_, fun _ _ => rfl⟩
    simp [cell, show acc + q < m.length by omega]
  | cons p ps ih =>
    obtain ⟨h1, h2⟩ := hp p (.head _)
    simp only [Net.Sep] at h2
    have hl : ∀ a, a + len ≤ m.length → (cells a len m).length = len := fun a h => cells_length h
    have hg : ∀ a, a + len ≤ m.length → ∀ i < len, (cells a len m)[i]? = some (cell m (a + i)) := by
      intro a h i hi
      have : a + i < m.length := by omega
      simp [cells, hi, cell, this]
    have run := Kernels.transform2_run (f := f) (x := .mem acc) (y := .mem p) (z := acc) (m := m) (v := cells acc len m) (w := cells p len m)
      ⟨.inl rfl, fun i hi => by
        rw [hl acc ha] at hi
        rw [hg acc ha i hi]
        simp [cell, show acc + i < m.length by omega]⟩
      ⟨by rw [hl p h1]; omega, fun i hi => by
        rw [hl p h1] at hi
        rw [hg p h1 i hi]
        simp [cell, show p + i < m.length by omega]⟩
      (by rw [hl acc ha, hl p h1]) (by rw [hl acc ha]; exact ha)
    rw [hl acc ha] at run
    have zl : (List.zipWith f (cells acc len m) (cells p len m)).length = len := by
      simp [hl acc ha, hl p h1]
    have hs : acc + (List.zipWith f (cells acc len m) (cells p len m)).length ≤ m.length := by omega
    have sl := store_length hs
    have off : ∀ q, q < acc ∨ acc + len ≤ q →
        (store m acc (List.zipWith f (cells acc len m) (cells p len m)))[q]? = m[q]? := by
      intro q hq
      rw [store_getElem? hs, if_neg (by omega)]
    obtain ⟨m', e, l', v, k⟩ := ih (m := store m acc (List.zipWith f (cells acc len m) (cells p len m)))
      (by omega) (fun p' hp' => by rw [sl]; exact hp p' (.tail _ hp'))
    refine ⟨m', ?_, by omega, fun q hq => ?_, fun q hq => by rw [k q hq, off q hq]⟩
    · rw [accum, run, Outcome.ok_bind, e]
    · rw [v q hq, List.map_cons, List.foldl_cons]
      congr 2
      · rw [cell, store_getElem? hs, if_pos (by omega), Nat.add_sub_cancel_left, List.getElem?_zipWith, hg acc ha q hq, hg p h1 q hq]
        rfl
      · refine List.map_congr_left fun p' hp' => ?_
        have s := (hp p' (.tail _ hp')).2
        simp only [Net.Sep] at s
        rw [cell, cell, off _ (by omega)]

/-- **C174.** Adding up buffers, in any arithmetic: every number of the sum is what was there plus the numbers of the buffers,
added one by one in the order of the list; all else keeps its value. -/
theorem C174_added [Zero R] [Add R] {len acc : Nat} (ps : List Nat) {m : List R} (ha : acc + len ≤ m.length)
    (hp : ∀ p ∈ ps, p + len ≤ m.length ∧ Net.Sep (acc, len) (p, len)) :
    ∃ m', addAll len acc ps m = .ok m' ∧ m'.length = m.length ∧
      (∀ q < len, m'[acc + q]? = some ((ps.map fun p => cell m (p + q)).foldl (fun a b => a + b) (cell m (acc + q)))) ∧
      ∀ q, q < acc ∨ acc + len ≤ q → m'[q]? = m[q]? := by
  have e : ∀ m : List R, addAll len acc ps m = accum (fun a b => a + b) len acc ps m := by
    clear hp
    induction ps with
    | nil => exact fun _ => rfl
    | cons p ps ih =>
      intro m
      rw [addAll, accum]
      simp only [ih]
      rfl
  rw [e]
  exact accum_run (fun a b => a + b) ps ha hp

section
variable [Zero R] [One R] [Add R] [Sub R] [Mul R] [Neg R] [Div R] [LT R] [DecidableLT R] {ι : Type} [DecidableEq ι]

/-- The threads keep the length of the memory. -/
theorem regr_length {p : Regr R} {N : Nat} {mem : List R} {gw gb lo cnt : ι → Nat} (laid : p.Laid N mem.length gw gb)
    (shares : Shares N lo cnt) (turns : List ι) {c : (ι → Prog R Unit) × List R}
    (hc : c = play turns (fun i => (p.calls (lo i) (cnt i) (gw i) (gb i)).prog, mem)) : c.2.length = mem.length := by
  choose M a1 _ using fun i => regr_effect laid i (shares.inside i)
  exact (C168_threads (fun i c hc => (regr_fits laid i (shares.inside i) c hc).1) (regr_apart laid shares) a1 turns hc).2.2.2.1

/-- The threads leave the cells of the sum alone. -/
theorem regr_keeps {p : Regr R} {N : Nat} {mem : List R} {gw gb lo cnt : ι → Nat} (laid : p.Laid N mem.length gw gb)
    (shares : Shares N lo cnt) (turns : List ι) {c : (ι → Prog R Unit) × List R}
    (hc : c = play turns (fun i => (p.calls (lo i) (cnt i) (gw i) (gb i)).prog, mem)) {acc len : Nat}
    (own : SumOff p N gw gb acc len) (q : Nat) (hq : q < len) : c.2[acc + q]? = mem[acc + q]? := by
  choose M a1 _ using fun i => regr_effect laid i (shares.inside i)
  refine (C168_threads (fun i c hc => (regr_fits laid i (shares.inside i) c hc).1) (regr_apart laid shares) a1 turns hc).2.2.2.2 _
    fun i h => ?_
  obtain ⟨o, ho, hb⟩ := regr_writes h
  have hb : o.1 ≤ acc + q ∧ acc + q < o.1 + o.2 := hb
  simp only [Regr.mine, List.mem_append, List.mem_map] at ho
  rcases ho with ⟨a, ha, rfl⟩ | ho
  · have := own.1 (a, N * p.n) (List.mem_map_of_mem ha)
    have := share_le (shares.inside i) p.n
    simp only [Net.Sep] at *
    omega
  · have := own.2 i o ho
    simp only [Net.Sep] at this
    omega

end

/-! ## Rounded sums -/

section
variable {rnd : ℝ → ℝ} {u : ℝ}

/-- Numbers near `e`, added one by one in rounded arithmetic. -/
theorem foldl_error (hu : 0 ≤ u) (h : RelErr u rnd) {α : Type} {A : ℝ} (hA : 1 ≤ A) (x : α → Fl rnd) (e B : α → ℝ)
    (L : List α) (hx : ∀ i ∈ L, |(x i).val - e i| ≤ (A - 1) * B i) (hB : ∀ i ∈ L, |e i| ≤ B i) (j : Nat) (s : Fl rnd) {t T : ℝ}
    (hs : |s.val - t| ≤ (A * (1 + u) ^ j - 1) * T) (ht : |t| ≤ T) :
    |((L.map x).foldl (fun a b => a + b) s).val - (t + (L.map e).sum)| ≤
      (A * (1 + u) ^ (j + L.length) - 1) * (T + (L.map B).sum) := by
  induction L generalizing j s t T with
  | nil => simpa using hs
  | cons i L ih =>
    have hxi := hx i (.head _)
    have hBi := hB i (.head _)
    have hB0 : 0 ≤ B i := (abs_nonneg _).trans hBi
    have hp : 1 ≤ (1 + u) ^ j := one_le_pow₀ (by linarith)
    have hAp : A ≤ A * (1 + u) ^ j := le_mul_of_one_le_right (by linarith) hp
    have r := h (s.val + (x i).val)
    have near : |s.val + (x i).val - (t + e i)| ≤ (A * (1 + u) ^ j - 1) * (T + B i) := by
      have a : |s.val + (x i).val - (t + e i)| ≤ |s.val - t| + |(x i).val - e i| := by
        rw [show s.val + (x i).val - (t + e i) = (s.val - t) + ((x i).val - e i) by ring]
        exact abs_add_le _ _
      have b : (A - 1) * B i ≤ (A * (1 + u) ^ j - 1) * B i := mul_le_mul_of_nonneg_right (by linarith) hB0
      nlinarith
    have size : |s.val + (x i).val| ≤ |s.val + (x i).val - (t + e i)| + (T + B i) := by
      have a : |s.val + (x i).val| ≤ |s.val + (x i).val - (t + e i)| + |t + e i| := by
        have := abs_add_le (s.val + (x i).val - (t + e i)) (t + e i)
        rwa [sub_add_cancel] at this
      have b := abs_add_le t (e i)
      linarith
    have step : |(s + x i).val - (t + e i)| ≤ (A * (1 + u) ^ (j + 1) - 1) * (T + B i) := by
      rw [Fl.val_add]
      have a : |rnd (s.val + (x i).val) - (t + e i)| ≤ |rnd (s.val + (x i).val) - (s.val + (x i).val)| + |s.val + (x i).val - (t + e i)| :=
        abs_sub_le _ _ _
      have b : u * |s.val + (x i).val| ≤ u * (|s.val + (x i).val - (t + e i)| + (T + B i)) := mul_le_mul_of_nonneg_left size hu
      have c : (1 + u) * |s.val + (x i).val - (t + e i)| ≤ (1 + u) * ((A * (1 + u) ^ j - 1) * (T + B i)) :=
        mul_le_mul_of_nonneg_left near (by linarith)
      have d : (A * (1 + u) ^ (j + 1) - 1) * (T + B i) = (1 + u) * ((A * (1 + u) ^ j - 1) * (T + B i)) + u * (T + B i) := by ring
      linarith
    have := ih (fun k hk => hx k (.tail _ hk)) (fun k hk => hB k (.tail _ hk)) (j + 1) (s + x i) step
      ((abs_add_le _ _).trans (add_le_add ht hBi))
    simp only [List.map_cons, List.foldl_cons, List.sum_cons, List.length_cons]
    rw [show j + (L.length + 1) = j + 1 + L.length by ring, ← add_assoc, ← add_assoc]
    exact this

variable {ι : Type} [Fintype ι] [DecidableEq ι]

theorem order_sum {order : List ι} (nodup : order.Nodup) (all : ∀ i, i ∈ order) (f : ι → ℝ) : (order.map f).sum = ∑ i, f i := by
  rw [← List.sum_toFinset f nodup]
  congr 1
  ext i
  simp [all i]

/-- Sums of shares, each with an error, added in any order. -/
theorem shares_error (hu : 0 ≤ u) (h : RelErr u rnd) {N K : Nat} {lo cnt : ι → Nat} (shares : Shares N lo cnt)
    {order : List ι} (nodup : order.Nodup) (all : ∀ i, i ∈ order) (x : ι → Fl rnd) (f g : Nat → ℝ) (fg : ∀ v, |f v| ≤ g v)
    (hx : ∀ i, |(x i).val - ∑ v ∈ Finset.range (cnt i), f (lo i + v)| ≤
      ((1 + u) ^ K - 1) * ∑ v ∈ Finset.range (cnt i), g (lo i + v)) :
    |((order.map x).foldl (fun a b => a + b) 0).val - ∑ v ∈ Finset.range N, f v| ≤
      ((1 + u) ^ (K + order.length) - 1) * ∑ v ∈ Finset.range N, g v := by
  have := foldl_error hu h (A := (1 + u) ^ K) (one_le_pow₀ (by linarith)) x (fun i => ∑ v ∈ Finset.range (cnt i), f (lo i + v))
    (fun i => ∑ v ∈ Finset.range (cnt i), g (lo i + v)) order (fun i _ => hx i)
    (fun i _ => (Finset.abs_sum_le_sum_abs _ _).trans (Finset.sum_le_sum fun v _ => fg _)) 0 0 (t := 0) (T := 0)
    (by simp [Fl.val_zero]) (by simp)
  rwa [order_sum nodup all, order_sum nodup all, shares_sum shares, shares_sum shares g, zero_add, zero_add, zero_add, ← pow_add] at this

/-! ## Theorems -/

/-- **C174.** Threads compute the gradients of their shares of a batch in rounded arithmetic, in any interleaving, and then the
buffers are added up, in any order. The sum differs from the exact sum over the batch of the products of inputs and gradients by
scores, which are computed as if there were no threads, by a relative error that counts only the examples of the largest share
and the threads. -/
theorem C174_weights (hu : 0 ≤ u) (h : RelErr u rnd) {p : Regr (Fl rnd)} {N K : Nat} {mem : List (Fl rnd)} {gw gb lo cnt : ι → Nat}
    (laid : p.Laid N mem.length gw gb) (shares : Shares N lo cnt) (hK : ∀ i, cnt i ≤ K) (turns : List ι)
    (ended : ∀ i, p.accesses (cnt i) ≤ turns.count i) {order : List ι} (nodup : order.Nodup) (all : ∀ i, i ∈ order)
    {c : (ι → Prog (Fl rnd) Unit) × List (Fl rnd)} (hc : c = play turns (fun i => (p.calls (lo i) (cnt i) (gw i) (gb i)).prog, mem))
    {acc : Nat} (room : acc + p.l * p.n ≤ mem.length)
    (own : SumOff p N gw gb acc (p.l * p.n)) (zero : ∀ q < p.l * p.n, mem[acc + q]? = some 0) :
    ∃ m, addAll (p.l * p.n) acc (order.map gw) c.2 = .ok m ∧ ∀ q < p.l, ∀ j < p.n, ∃ s, m[acc + (q * p.n + j)]? = some s ∧
      |s.val - ∑ v ∈ Finset.range N, (p.input mem v q).val * (p.delta mem v j).val| ≤
        ((1 + u) ^ (K + 1 + order.length) - 1) * ∑ v ∈ Finset.range N, |(p.input mem v q).val| * |(p.delta mem v j).val| := by
  have hl := regr_length laid shares turns hc
  obtain ⟨m, e, -, v, -⟩ := C174_added (order.map gw) (hl ▸ room) (fun a ha => by
    obtain ⟨i, -, rfl⟩ := List.mem_map.1 ha
    exact ⟨hl ▸ laid.own i _ (.head _), own.2 i _ (.head _)⟩)
  refine ⟨m, e, fun q hq j hj => ?_⟩
  have hqj : q * p.n + j < p.l * p.n := by
    have := Shared.row_le (n := p.n) hq
    omega
  refine ⟨_, v _ hqj, ?_⟩
  have z : cell c.2 (acc + (q * p.n + j)) = 0 := by rw [cell, regr_keeps laid shares turns hc own _ hqj, zero _ hqj]; rfl
  rw [z, List.map_map]
  refine shares_error hu h shares nodup all _ (fun v => (p.input mem v q).val * (p.delta mem v j).val) _
    (fun v => (abs_mul _ _).le) fun i => ?_
  have g := ((C172_shares laid shares turns hc).2.2 i (by rw [(C172_turns laid shares turns i).1]; exact ended i)).2.2.1 q hq j hj
  show |(cell c.2 (gw i + (q * p.n + j))).val - _| ≤ _
  rw [cell, g, Option.getD_some]
  refine (seqSum_error hu h (cnt i) (fun v => p.input mem (lo i + v) q) (fun v => p.delta mem (lo i + v) j)).trans ?_
  refine mul_le_mul_of_nonneg_right ?_ (Finset.sum_nonneg fun _ _ => by positivity)
  exact sub_le_sub_right (pow_le_pow_right₀ (by linarith) (Nat.succ_le_succ (hK i))) _

/-- **C174.** The same for the bias, where nothing is multiplied. -/
theorem C174_bias (hu : 0 ≤ u) (h : RelErr u rnd) {p : Regr (Fl rnd)} {N K : Nat} {mem : List (Fl rnd)} {gw gb lo cnt : ι → Nat}
    (laid : p.Laid N mem.length gw gb) (shares : Shares N lo cnt) (hK : ∀ i, cnt i ≤ K) (turns : List ι)
    (ended : ∀ i, p.accesses (cnt i) ≤ turns.count i) {order : List ι} (nodup : order.Nodup) (all : ∀ i, i ∈ order)
    {c : (ι → Prog (Fl rnd) Unit) × List (Fl rnd)} (hc : c = play turns (fun i => (p.calls (lo i) (cnt i) (gw i) (gb i)).prog, mem))
    {acc : Nat} (room : acc + p.n ≤ mem.length)
    (own : SumOff p N gw gb acc p.n) (zero : ∀ j < p.n, mem[acc + j]? = some 0) :
    ∃ m, addAll p.n acc (order.map gb) c.2 = .ok m ∧ ∀ j < p.n, ∃ s, m[acc + j]? = some s ∧
      |s.val - ∑ v ∈ Finset.range N, (p.delta mem v j).val| ≤
        ((1 + u) ^ (K + order.length) - 1) * ∑ v ∈ Finset.range N, |(p.delta mem v j).val| := by
  have hl := regr_length laid shares turns hc
  obtain ⟨m, e, -, v, -⟩ := C174_added (order.map gb) (hl ▸ room) (fun a ha => by
    obtain ⟨i, -, rfl⟩ := List.mem_map.1 ha
    exact ⟨hl ▸ laid.own i _ (.tail _ (.head _)), own.2 i _ (.tail _ (.head _))⟩)
  refine ⟨m, e, fun j hj => ⟨_, v _ hj, ?_⟩⟩
  have z : cell c.2 (acc + j) = 0 := by rw [cell, regr_keeps laid shares turns hc own _ hj, zero _ hj]; rfl
  rw [z, List.map_map]
  refine shares_error hu h shares nodup all _ (fun v => (p.delta mem v j).val) _ (fun v => le_rfl) fun i => ?_
  have g := ((C172_shares laid shares turns hc).2.2 i (by rw [(C172_turns laid shares turns i).1]; exact ended i)).2.2.2 j hj
  show |(cell c.2 (gb i + j)).val - _| ≤ _
  rw [cell, g, Option.getD_some]
  refine (sum_error hu h (cnt i) (fun v => p.delta mem (lo i + v) j)).trans ?_
  refine mul_le_mul_of_nonneg_right ?_ (Finset.sum_nonneg fun _ _ => by positivity)
  exact sub_le_sub_right (pow_le_pow_right₀ (by linarith) (hK i)) _

/-- **C174.** Two ways of dividing one batch: what the sums of the threads' gradients by the weights differ in. With one thread for
all examples as one of them, this compares threads with no threads. -/
theorem C174_divisions (hu : 0 ≤ u) (h : RelErr u rnd) {ι' : Type} [Fintype ι'] [DecidableEq ι'] {p : Regr (Fl rnd)} {N K K' : Nat}
    {mem : List (Fl rnd)} {gw gb lo cnt : ι → Nat} {gw' gb' lo' cnt' : ι' → Nat}
    (laid : p.Laid N mem.length gw gb) (shares : Shares N lo cnt) (hK : ∀ i, cnt i ≤ K)
    (laid' : p.Laid N mem.length gw' gb') (shares' : Shares N lo' cnt') (hK' : ∀ i, cnt' i ≤ K')
    (turns : List ι) (ended : ∀ i, p.accesses (cnt i) ≤ turns.count i) {order : List ι} (nodup : order.Nodup) (all : ∀ i, i ∈ order)
    (turns' : List ι') (ended' : ∀ i, p.accesses (cnt' i) ≤ turns'.count i) {order' : List ι'} (nodup' : order'.Nodup)
    (all' : ∀ i, i ∈ order') {acc : Nat} (room : acc + p.l * p.n ≤ mem.length)
    (own : SumOff p N gw gb acc (p.l * p.n)) (own' : SumOff p N gw' gb' acc (p.l * p.n))
    (zero : ∀ q < p.l * p.n, mem[acc + q]? = some 0) :
    ∃ m m',
      addAll (p.l * p.n) acc (order.map gw) (play turns (fun i => (p.calls (lo i) (cnt i) (gw i) (gb i)).prog, mem)).2 = .ok m ∧
      addAll (p.l * p.n) acc (order'.map gw') (play turns' (fun i => (p.calls (lo' i) (cnt' i) (gw' i) (gb' i)).prog, mem)).2 = .ok m' ∧
      ∀ q < p.l, ∀ j < p.n, ∃ s s', m[acc + (q * p.n + j)]? = some s ∧ m'[acc + (q * p.n + j)]? = some s' ∧
        |s.val - s'.val| ≤ ((1 + u) ^ (K + 1 + order.length) + (1 + u) ^ (K' + 1 + order'.length) - 2) *
          ∑ v ∈ Finset.range N, |(p.input mem v q).val| * |(p.delta mem v j).val| := by
  obtain ⟨m, e, v⟩ := C174_weights hu h laid shares hK turns ended nodup all rfl room own zero
  obtain ⟨m', e', v'⟩ := C174_weights hu h laid' shares' hK' turns' ended' nodup' all' rfl room own' zero
  refine ⟨m, m', e, e', fun q hq j hj => ?_⟩
  obtain ⟨s, hs, b⟩ := v q hq j hj
  obtain ⟨s', hs', b'⟩ := v' q hq j hj
  refine ⟨s, s', hs, hs', ?_⟩
  have t := abs_sub_le s.val (∑ v ∈ Finset.range N, (p.input mem v q).val * (p.delta mem v j).val) s'.val
  rw [abs_sub_comm (∑ v ∈ Finset.range N, (p.input mem v q).val * (p.delta mem v j).val) s'.val] at t
  linarith

end

/-! ## An example -/

/-- The layout of `exRegr`, in rounded arithmetic, with cells 34 and 35 for the sum of the gradients by the weights and 36 and 37
for that by the bias. -/
noncomputable def exFlRegr : Regr (Fl chop24) :=
  ⟨1, 2, 0, 2, 6, 8, 10, 14, 18, 22, chopExp, exReal (1 / 8), exReal (1 / 2), fun _ => exReal 9⟩

/-- The memory of the example. -/
noncomputable def exFlMem : List (Fl chop24) :=
  [exReal 3, exReal (-4), exReal 1, 0, 0, exReal 1, 0, 0, 0, 0] ++ List.replicate 24 (exReal 7) ++ List.replicate 4 0

theorem exFl_laid : exFlRegr.Laid 2 exFlMem.length (fun i : Fin 2 => if i = 0 then 26 else 30) (fun i => if i = 0 then 28 else 32) := by
  have e : exFlMem.length = 38 := rfl
  rw [e]
  constructor <;> simp [Regr.inputs, Regr.outs, Regr.own, exFlRegr, Net.Sep, Fin.forall_fin_two]

theorem exFl_off (a : Nat) (ha : 34 ≤ a) :
    SumOff exFlRegr 2 (fun i : Fin 2 => if i = 0 then 26 else 30) (fun i => if i = 0 then 28 else 32) a 2 := by
  constructor <;> simp [Regr.outs, Regr.own, exFlRegr, Net.Sep, Fin.forall_fin_two] <;> omega

theorem exFl_ended (i : Fin 2) : exFlRegr.accesses 1 ≤ ((List.replicate 60 [(0 : Fin 2), 1]).flatten).count i := by
  have : exFlRegr.accesses 1 = 55 := rfl
  rw [this]
  revert i
  decide

example := C174_weights exU chop24_err exFl_laid exRegr_shares (fun _ => le_rfl) (List.replicate 60 [(0 : Fin 2), 1]).flatten exFl_ended
  (order := [1, 0]) (by decide) (by decide) rfl (acc := 34) (by show 34 + 1 * 2 ≤ 38; omega) (exFl_off 34 le_rfl)
  (fun q (hq : q < 2) => by interval_cases q <;> rfl)

example := C174_bias exU chop24_err exFl_laid exRegr_shares (fun _ => le_rfl) (List.replicate 60 [(0 : Fin 2), 1]).flatten exFl_ended
  (order := [0, 1]) (by decide) (by decide) rfl (acc := 36) (by show 36 + 2 ≤ 38; omega) (exFl_off 36 (by omega))
  (fun q (hq : q < 2) => by interval_cases q <;> rfl)

/-- One thread for both examples, as another division of the same batch. -/
example := C174_divisions exU chop24_err exFl_laid exRegr_shares (fun _ => le_rfl)
  (gw' := fun _ : Unit => 26) (gb' := fun _ => 28) (lo' := fun _ => 0) (cnt' := fun _ => 2)
  (by
    have e : exFlMem.length = 38 := rfl
    rw [e]
    constructor <;> simp [Regr.inputs, Regr.outs, Regr.own, exFlRegr, Net.Sep])
  ⟨by decide, by decide, by decide⟩ (fun _ => le_rfl) (List.replicate 60 [(0 : Fin 2), 1]).flatten exFl_ended
  (order := [1, 0]) (by decide) (by decide) (List.replicate 200 ())
  (fun i => by
    have : exFlRegr.accesses 2 = 106 := rfl
    rw [this, List.count_replicate_self]
    omega)
  (order' := [()]) (by decide) (by decide) (acc := 34) (by show 34 + 1 * 2 ≤ 38; omega) (exFl_off 34 le_rfl)
  (by constructor <;> simp [Regr.outs, Regr.own, exFlRegr, Net.Sep])
  (fun q (hq : q < 2) => by interval_cases q <;> rfl)

example : ∃ m', addAll 2 0 [2, 4, 2] [10, 20, 1, 2, 3, 4, 9] = .ok m' ∧ m'.length = 7 ∧
    (∀ q < 2, m'[0 + q]? = some (([2, 4, 2].map fun p => cell [(10 : Int), 20, 1, 2, 3, 4, 9] (p + q)).foldl (fun a b => a + b)
      (cell [10, 20, 1, 2, 3, 4, 9] (0 + q)))) ∧ ∀ q, q < 0 ∨ 0 + 2 ≤ q → m'[q]? = [(10 : Int), 20, 1, 2, 3, 4, 9][q]? :=
  C174_added [2, 4, 2] (by decide) (by intro p hp; simp at hp; rcases hp with rfl | rfl | rfl <;> simp [Net.Sep])

example : addAll 2 0 [2, 4, 2] [(10 : Int), 20, 1, 2, 3, 4, 9] = .ok [15, 28, 1, 2, 3, 4, 9] := by decide

end Prog
end StdNN
