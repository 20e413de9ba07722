import Verif.Props.ThreadRounding
/-!
# C175: training with threads that share every batch
-/
namespace StdNN
open Outcome Spec IntTy
variable {R : Type}
namespace Prog

/-! ## Specification -/

/-- The calls by which a caller subtracts buffers of `len` numbers: `sub(w, w, buffer)` (ops/elementary.hpp:107-118) for every
buffer, in the order of the list. -/
def subAll [Zero R] [Sub R] (len w : Nat) : List Nat → List R → Outcome (List R)
  | [], m => .ok m
  | p :: ps, m => do
    let m ← Ops.sub len (.mem w) (.mem p) w m
    subAll len w ps m

section
variable [Zero R] [One R] [Add R] [Sub R] [Mul R] [Neg R] [Div R] [LT R] [DecidableLT R] {ι : Type} [DecidableEq ι]

/-- The step of examples/example_train_mnist_slp.cpp:127-148 (without the loss) with the batch divided among threads: they take
`turns`, then the caller subtracts their gradients from weights and bias in the given order. -/
def Regr.step (p : Regr R) (turns order : List ι) (lo cnt gw gb : ι → Nat) (mem : List R) : Outcome (List R) := do
  let m ← subAll (p.l * p.n) p.w (order.map gw) (play turns (fun i => (p.calls (lo i) (cnt i) (gw i) (gb i)).prog, mem)).2
  subAll p.n p.b (order.map gb) m

end

/-- The batch `X` with targets `T` put in its place. -/
def Regr.load [Zero R] (p : Regr R) (N : Nat) (X T : Nat → Nat → R) (mem : List R) : List R :=
  store (store mem p.x (tab [N, p.l] (fn2 X)).data) p.t (tab [N, p.n] (fn2 T)).data

/-- The tensors of the example and the memory of the threads hold the same weights and bias. -/
structure Regr.Same (p : Regr ℝ) (s : Slp.State ℝ) (mem : List ℝ) : Prop where
  w : s.w = (tab [p.l, p.n] (fn2 fun q j => cell mem (p.w + (q * p.n + j)))).data
  b : s.b = (tab [p.n] (fn1 fun j => cell mem (p.b + j))).data

/-! ## Lemmas -/

/-- **C175.** Subtracting buffers, in any arithmetic: every number has the numbers of the buffers subtracted one by one; all else
keeps its value. -/
theorem C175_subtracted [Zero R] [Sub R] {len w : Nat} (ps : List Nat) {m : List R} (hw : w + len ≤ m.length)
    (hp : ∀ p ∈ ps, p + len ≤ m.length ∧ Net.Sep (w, len) (p, len)) :
    ∃ m', subAll len w ps m = .ok m' ∧ m'.length = m.length ∧
      (∀ q < len, m'[w + q]? = some ((ps.map fun p => cell m (p + q)).foldl (fun a b => a - b) (cell m (w + q)))) ∧
      ∀ q, q < w ∨ w + len ≤ q → m'[q]? = m[q]? := by
  have e : ∀ m : List R, subAll len w ps m = accum (fun a b => a - b) len w ps m := by
    clear hp
    induction ps with
    | nil => exact fun _ => rfl
    | cons p ps ih =>
      intro m
      rw [subAll, accum]
      simp only [ih]
      rfl
  rw [e]
  exact accum_run (fun a b => a - b) ps hw hp

theorem foldl_sub_sum (l : List ℝ) (a : ℝ) : l.foldl (fun a b => a - b) a = a - l.sum := by
  induction l generalizing a with
  | nil => simp
  | cons b l ih => rw [List.foldl_cons, ih, List.sum_cons]; ring

theorem tab2_congr [Zero R] {a b : Nat} {F G : Nat → Nat → R} (h : ∀ i < a, ∀ j < b, F i j = G i j) :
    (tab [a, b] (fn2 F)).data = (tab [a, b] (fn2 G)).data := by
  refine congrArg Tensor.data (tab_congr fun idx hv => ?_)
  match idx, hv with
  | [i, j], hv =>
    simp only [Valid] at hv
    exact h i (by tauto) j (by tauto)

theorem tab1_congr [Zero R] {a : Nat} {F G : Nat → R} (h : ∀ i < a, F i = G i) :
    (tab [a] (fn1 F)).data = (tab [a] (fn1 G)).data := by
  refine congrArg Tensor.data (tab_congr fun idx hv => ?_)
  match idx, hv with
  | [i], hv =>
    simp only [Valid] at hv
    exact h i (by tauto)

/-! ## Theorems -/

section
variable {ι : Type} [DecidableEq ι] [Fintype ι]

/-- **C175.** One step in exact arithmetic, whatever the division of the batch, the interleaving and the order in which gradients
are subtracted: no call fails, and weights and bias have the gradients of the whole batch subtracted; the batch keeps its values. -/
theorem C175_step {p : Regr ℝ} (he : p.exp = Real.exp) {N : Nat} {mem : List ℝ} {gw gb lo cnt : ι → Nat}
    (laid : p.Laid N mem.length gw gb) (apart : (p.inputs N).Pairwise Net.Sep) (shares : Shares N lo cnt) {turns : List ι}
    (ended : ∀ i, p.accesses (cnt i) ≤ turns.count i) {order : List ι} (nodup : order.Nodup) (all : ∀ i, i ∈ order)
    {X T W : Nat → Nat → ℝ} {B : Nat → ℝ} (hX : X = p.input mem) (hT : T = p.target mem)
    (hW : W = fun q j => cell mem (p.w + (q * p.n + j))) (hB : B = fun j => cell mem (p.b + j))
    (one : ∀ v < N, ∑ j ∈ Finset.range p.n, T v j = 1) :
    ∃ m, p.step turns order lo cnt gw gb mem = .ok m ∧ m.length = mem.length ∧
      (∀ q < p.l, ∀ j < p.n, m[p.w + (q * p.n + j)]? =
        some (W q j - ∑ v ∈ Finset.range N, X v q * (p.c * (prob p.eps p.l p.n X W B v j - T v j)))) ∧
      (∀ j < p.n, m[p.b + j]? = some (B j - ∑ v ∈ Finset.range N, p.c * (prob p.eps p.l p.n X W B v j - T v j))) ∧
      (∀ q < N * p.l, m[p.x + q]? = mem[p.x + q]?) ∧ ∀ q < N * p.n, m[p.t + q]? = mem[p.t + q]? := by
  obtain ⟨gradW, gradB, -⟩ := C172_gradient he laid shares ended rfl hX hT hW hB one
  have len := regr_length laid shares turns rfl
  have keep : ∀ a k, (a, k) ∈ p.inputs N → ∀ q < k,
      (play turns (fun i => (p.calls (lo i) (cnt i) (gw i) (gb i)).prog, mem)).2[a + q]? = mem[a + q]? := fun a k h q hq =>
    regr_keeps laid shares turns rfl (acc := a) (len := k)
      ⟨fun o ho => (laid.outsInputs o ho _ h).symm, fun i o ho => (laid.ownInputs i o ho _ h).symm⟩ q hq
  generalize hc : (play turns (fun i => (p.calls (lo i) (cnt i) (gw i) (gb i)).prog, mem)).2 = c at *
  simp only [Regr.inputs, List.pairwise_cons, List.mem_cons, List.not_mem_nil, or_false, forall_eq_or_imp, forall_eq, Net.Sep] at apart
  obtain ⟨⟨-, xw, xb⟩, ⟨tw, tb⟩, wb, -⟩ := apart
  have iw := laid.inputs (p.w, p.l * p.n) (by simp [Regr.inputs])
  have ib := laid.inputs (p.b, p.n) (by simp [Regr.inputs])
  simp only at iw ib
  obtain ⟨m1, e1, l1, v1, k1⟩ := C175_subtracted (len := p.l * p.n) (w := p.w) (order.map gw) (m := c) (by omega) (fun a ha => by
    obtain ⟨i, -, rfl⟩ := List.mem_map.1 ha
    exact ⟨len ▸ laid.own i _ (.head _), (laid.ownInputs i _ (.head _) _ (by simp [Regr.inputs])).symm⟩)
  obtain ⟨m2, e2, l2, v2, k2⟩ := C175_subtracted (len := p.n) (w := p.b) (order.map gb) (m := m1) (by omega) (fun a ha => by
    obtain ⟨i, -, rfl⟩ := List.mem_map.1 ha
    exact ⟨(l1.trans len) ▸ laid.own i _ (.tail _ (.head _)),
      (laid.ownInputs i _ (.tail _ (.head _)) _ (by simp [Regr.inputs])).symm⟩)
  refine ⟨m2, ?_, by omega, fun q hq j hj => ?_, fun j hj => ?_, fun q hq => ?_, fun q hq => ?_⟩
  · rw [Regr.step, hc, e1, Outcome.ok_bind, e2]
  · have hqj : q * p.n + j < p.l * p.n := by
      have := Shared.row_le (n := p.n) hq
      omega
    have old : cell c (p.w + (q * p.n + j)) = W q j := by
      rw [hW, cell, keep p.w (p.l * p.n) (by simp [Regr.inputs]) _ hqj]
      rfl
    rw [k2 _ (by omega), v1 _ hqj, foldl_sub_sum, List.map_map, ← gradW q hq j hj, old,
      ← order_sum nodup all fun i => cell c (gw i + (q * p.n + j))]
    rfl
  · have old : cell m1 (p.b + j) = B j := by
      rw [hB, cell, k1 _ (by omega), keep p.b p.n (by simp [Regr.inputs]) _ hj]
      rfl
    have sum : (order.map ((fun a => cell m1 (a + j)) ∘ gb)).sum = ∑ i, cell c (gb i + j) := by
      rw [← order_sum nodup all fun i => cell c (gb i + j)]
      congr 1
      refine List.map_congr_left fun i _ => ?_
      have := laid.ownInputs i (gb i, p.n) (.tail _ (.head _)) (p.w, p.l * p.n) (by simp [Regr.inputs])
      simp only [Net.Sep] at this
      show cell m1 (gb i + j) = cell c (gb i + j)
      rw [cell, cell, k1 _ (by omega)]
    rw [v2 j hj, foldl_sub_sum, List.map_map, ← gradB j hj, old, sum]
  · rw [k2 _ (by omega), k1 _ (by omega), keep p.x (N * p.l) (by simp [Regr.inputs]) _ hq]
  · rw [k2 _ (by omega), k1 _ (by omega), keep p.t (N * p.n) (by simp [Regr.inputs]) _ hq]

/-- **C175.** A training run in exact arithmetic: step `k` loads a batch and divides it among threads in a way of its own, with an
interleaving and an order of subtracting of its own. After any number of steps, weights and bias are those of the example's
sequential steps on the same batches. -/
theorem C175_run {p : Regr ℝ} (he : p.exp = Real.exp) (junk : Nat → ℝ) {N : Nat} {mem : List ℝ} {gw gb : ι → Nat}
    (laid : p.Laid N mem.length gw gb) (apart : (p.inputs N).Pairwise Net.Sep) {lo cnt : Nat → ι → Nat}
    (shares : ∀ k, Shares N (lo k) (cnt k)) {turns order : Nat → List ι} (ended : ∀ k i, p.accesses (cnt k i) ≤ (turns k).count i)
    (nodup : ∀ k, (order k).Nodup) (all : ∀ k i, i ∈ order k) (X T : Nat → Nat → Nat → ℝ)
    {steps : Nat} (one : ∀ k < steps, ∀ v < N, ∑ j ∈ Finset.range p.n, T k v j = 1) {s : Slp.State ℝ} (sized : Slp.Sized N p.l p.n s)
    (hc : s.g_ls = (tab [N] (fn1 fun _ => p.c)).data) (same : p.Same s mem) :
    ∃ m s', forRange steps (fun k m => p.step (turns k) (order k) (lo k) (cnt k) gw gb (p.load N (X k) (T k) m)) mem = .ok m ∧
      forRange steps (fun k s => Slp.step Real.exp Real.log p.eps (fun x n => x / (n : ℝ)) junk N p.l p.n
        { s with xs := (tab [N, p.l] (fn2 (X k))).data, y_s := (tab [N, p.n] (fn2 (T k))).data }) s = .ok s' ∧
      m.length = mem.length ∧ Slp.Sized N p.l p.n s' ∧ s'.g_ls = s.g_ls ∧ p.Same s' m := by
  induction steps with
  | zero => exact ⟨mem, s, rfl, rfl, rfl, sized, rfl, same⟩
  | succ k ih =>
    obtain ⟨m, s', e, e', hl, sz, gl, sm⟩ := ih fun k hk => one k (Nat.lt_succ_of_lt hk)
    have lX : (tab [N, p.l] (fn2 (X k))).data.length = N * p.l := by simp
    have lT : (tab [N, p.n] (fn2 (T k))).data.length = N * p.n := by simp
    have ap := apart
    simp only [Regr.inputs, List.pairwise_cons, List.mem_cons, List.not_mem_nil, or_false, forall_eq_or_imp, forall_eq, Net.Sep] at ap
    obtain ⟨⟨xt, xw, xb⟩, ⟨tw, tb⟩, wb, -⟩ := ap
    have ix := laid.inputs (p.x, N * p.l) (by simp [Regr.inputs])
    have it := laid.inputs (p.t, N * p.n) (by simp [Regr.inputs])
    simp only at ix it
    have h1 : p.x + (tab [N, p.l] (fn2 (X k))).data.length ≤ m.length := by omega
    have l1 := store_length h1
    have h2 : p.t + (tab [N, p.n] (fn2 (T k))).data.length ≤ (store m p.x (tab [N, p.l] (fn2 (X k))).data).length := by omega
    have l2 := store_length h2
    have at_ : ∀ q, (p.load N (X k) (T k) m)[q]? = if p.t ≤ q ∧ q < p.t + N * p.n then (tab [N, p.n] (fn2 (T k))).data[q - p.t]?
        else if p.x ≤ q ∧ q < p.x + N * p.l then (tab [N, p.l] (fn2 (X k))).data[q - p.x]? else m[q]? := by
      intro q
      rw [Regr.load, store_getElem? h2, store_getElem? h1, lX, lT]
    have lm : (p.load N (X k) (T k) m).length = mem.length := by rw [Regr.load]; omega
    have inX : ∀ v < N, ∀ q < p.l, p.input (p.load N (X k) (T k) m) v q = X k v q := by
      intro v hv q hq
      have := Shared.row_le (n := p.l) hv
      rw [Regr.input, cell, at_, if_neg (by omega), if_pos (by omega), Nat.add_sub_cancel_left, take_tab_get (X k) hv hq]
      rfl
    have inT : ∀ v < N, ∀ j < p.n, p.target (p.load N (X k) (T k) m) v j = T k v j := by
      intro v hv j hj
      have := Shared.row_le (n := p.n) hv
      rw [Regr.target, cell, at_, if_pos (by omega), Nat.add_sub_cancel_left, take_tab_get (T k) hv hj]
      rfl
    have inW : ∀ q < p.l, ∀ j < p.n, cell (p.load N (X k) (T k) m) (p.w + (q * p.n + j)) = cell m (p.w + (q * p.n + j)) := by
      intro q hq j hj
      have := Shared.row_le (n := p.n) hq
      rw [cell, cell, at_, if_neg (by omega), if_neg (by omega)]
    have inB : ∀ j < p.n, cell (p.load N (X k) (T k) m) (p.b + j) = cell m (p.b + j) := by
      intro j hj
      rw [cell, cell, at_, if_neg (by omega), if_neg (by omega)]
    have one' : ∀ v < N, ∑ j ∈ Finset.range p.n, p.target (p.load N (X k) (T k) m) v j = 1 := by
      intro v hv
      rw [← one k (Nat.lt_succ_self k) v hv]
      exact Finset.sum_congr rfl fun j hj => inT v hv j (Finset.mem_range.1 hj)
    obtain ⟨m', r1, r2, r3, r4, -⟩ := C175_step he (by rw [lm]; exact laid) apart (shares k) (ended k) (nodup k) (all k) rfl rfl rfl rfl one'
    obtain ⟨t, t1, t2, t3, -, t4, t5⟩ := C97_step p.eps junk p.c (p.input (p.load N (X k) (T k) m)) (p.target (p.load N (X k) (T k) m))
      (fun q j => cell (p.load N (X k) (T k) m) (p.w + (q * p.n + j))) (fun j => cell (p.load N (X k) (T k) m) (p.b + j)) one'
      (s := { s' with xs := (tab [N, p.l] (fn2 (X k))).data, y_s := (tab [N, p.n] (fn2 (T k))).data })
      ⟨lX, sz.zs, sz.ys, lT, sz.ls, sz.l, sz.g_ls, sz.g_ys, sz.g_zs, sz.g_w, sz.g_b⟩ (tab2_congr fun v hv q hq => (inX v hv q hq).symm)
      (tab2_congr fun v hv j hj => (inT v hv j hj).symm) (gl.trans hc) (sm.w.trans (tab2_congr fun q hq j hj => (inW q hq j hj).symm))
      (sm.b.trans (tab1_congr fun j hj => (inB j hj).symm))
    refine ⟨m', t, by rw [forRange_succ, e, Outcome.ok_bind, r1], by rw [forRange_succ, e', Outcome.ok_bind, t1], r2.trans lm, t2,
      t3.trans gl, ?_, ?_⟩
    · rw [t4]
      exact tab2_congr fun q hq j hj => (congrArg (fun o => o.getD 0) (r3 q hq j hj)).symm
    · rw [t5]
      exact tab1_congr fun j hj => (congrArg (fun o => o.getD 0) (r4 j hj)).symm

/-- **C175.** `train_slp_model` with the batches divided among threads: the weights and the bias are those that the example's
sequential program leaves, for every data set whose labels are classes. -/
theorem C175_train {p : Regr ℝ} (he : p.exp = Real.exp) (junk : Nat → ℝ) (norm : Int → ℝ) {N : Nat} (hN : 1 ≤ N) (hn : p.n < 256)
    {mem : List ℝ} {gw gb : ι → Nat} (laid : p.Laid N mem.length gw gb) (apart : (p.inputs N).Pairwise Net.Sep) {lo cnt : Nat → ι → Nat}
    (shares : ∀ k, Shares N (lo k) (cnt k)) {turns order : Nat → List ι} (ended : ∀ k i, p.accesses (cnt k i) ≤ (turns k).count i)
    (nodup : ∀ k, (order k).Nodup) (all : ∀ k i, i ∈ order k) {n : Nat} (I : Nat → Nat → Int) (label : Nat → Nat)
    (hl : ∀ i < n, label i < p.n) {s : Slp.State ℝ} (sized : Slp.Sized N p.l p.n s) (same : p.Same s mem) :
    ∃ m s', forRange (n / N) (fun k m => p.step (turns k) (order k) (lo k) (cnt k) gw gb
        (p.load N (fun v q => norm (I (k * N + v) q)) (fun v j => if label (k * N + v) = j then 1 else 0) m)) mem = .ok m ∧
      Slp.train Real.exp Real.log p.eps (fun x n => x / (n : ℝ)) junk norm p.c
        ⟨(tab [n, p.l] (fn2 I)).data, (List.range n).map fun i => (label i : Int)⟩ n p.l p.n N s = .ok s' ∧
      m.length = mem.length ∧ p.Same s' m := by
  have inside : ∀ k < n / N, ∀ v < N, k * N + v < n := by
    intro k hk v hv
    have h1 := Nat.mul_le_mul_right N (Nat.succ_le_of_lt hk)
    have h2 := Nat.div_mul_le_self n N
    rw [Nat.succ_mul] at h1
    omega
  have hg : (s.g_ls.map fun _ => p.c) = (tab [N] (fn1 fun _ => p.c)).data := by
    refine List.ext_getElem (by simp [sized.g_ls]) fun q h1 h2 => ?_
    have hv := valid_unravel (dims := [N]) (p := q) (by simpa using h2)
    rw [List.getElem_map, tab_getElem]
    generalize unravel [N] q = idx at hv
    match idx, hv with
    | [i], _ => rfl
  have run := fun (steps : Nat) (hs : steps ≤ n / N) => C175_run he junk laid apart shares ended nodup all
    (fun k v q => norm (I (k * N + v) q)) (fun k v j => if label (k * N + v) = j then 1 else 0) (steps := steps)
    (fun k hk v hv => by
      rw [Finset.sum_ite_eq]
      exact if_pos (Finset.mem_range.2 (hl _ (inside k (by omega) v hv))))
    (s := { s with g_ls := s.g_ls.map fun _ => p.c })
    ⟨sized.xs, sized.zs, sized.ys, sized.y_s, sized.ls, sized.l, by simp [sized.g_ls], sized.g_ys, sized.g_zs, sized.g_w, sized.g_b⟩ hg
    ⟨same.w, same.b⟩
  have eq : ∀ steps ≤ n / N, forRange steps (fun t s => do
        let (xs, y_s) ← Slp.loadData norm ⟨(tab [n, p.l] (fn2 I)).data, (List.range n).map fun i => (label i : Int)⟩ p.l p.n (t * N) N s.xs s.y_s
        Slp.step Real.exp Real.log p.eps (fun x n => x / (n : ℝ)) junk N p.l p.n { s with xs, y_s }) { s with g_ls := s.g_ls.map fun _ => p.c } =
      forRange steps (fun k s => Slp.step Real.exp Real.log p.eps (fun x n => x / (n : ℝ)) junk N p.l p.n
        { s with xs := (tab [N, p.l] (fn2 fun v q => norm (I (k * N + v) q))).data,
                 y_s := (tab [N, p.n] (fn2 fun v j => if label (k * N + v) = j then (1 : ℝ) else 0)).data })
        { s with g_ls := s.g_ls.map fun _ => p.c } := by
    intro steps
    induction steps with
    | zero => exact fun _ => rfl
    | succ k ih =>
      intro hk
      obtain ⟨-, t, -, e, -, sz, -⟩ := run k (by omega)
      rw [forRange_succ, forRange_succ, ih (by omega), e, Outcome.ok_bind, Outcome.ok_bind,
        C99_load norm hn (by
          have := inside k (by omega) (N - 1) (by omega)
          omega) I label sz.xs sz.y_s, Outcome.ok_bind]
  obtain ⟨m, s', e, e', l, -, -, sm⟩ := run (n / N) le_rfl
  refine ⟨m, s', e, ?_, l, sm⟩
  unfold Slp.train
  rw [if_neg (by omega)]
  simp only [fillAll, Outcome.ok_bind]
  exact (eq _ le_rfl).trans e'

/-- **C175.** One step in rounded arithmetic, whatever the division of the batch, the interleaving and the order in which gradients
are subtracted: weights and bias are near what exact sums of the same inputs and gradients by scores would make of them. -/
theorem C175_rounded {rnd : ℝ → ℝ} {u : ℝ} (hu : 0 ≤ u) (h : RelErr u rnd) {p : Regr (Fl rnd)} {N K : Nat} {mem : List (Fl rnd)}
    {gw gb lo cnt : ι → Nat} (laid : p.Laid N mem.length gw gb) (apart : Net.Sep (p.w, p.l * p.n) (p.b, p.n))
    (shares : Shares N lo cnt) (hK : ∀ i, cnt i ≤ K) {turns : List ι} (ended : ∀ i, p.accesses (cnt i) ≤ turns.count i)
    {order : List ι} (nodup : order.Nodup) (all : ∀ i, i ∈ order) :
    ∃ m, p.step turns order lo cnt gw gb mem = .ok m ∧ m.length = mem.length ∧
      (∀ q < p.l, ∀ j < p.n, ∃ a s, mem[p.w + (q * p.n + j)]? = some a ∧ m[p.w + (q * p.n + j)]? = some s ∧
        |s.val - (a.val - ∑ v ∈ Finset.range N, (p.input mem v q).val * (p.delta mem v j).val)| ≤
          ((1 + u) ^ (K + 1 + order.length) - 1) *
            (|a.val| + ∑ v ∈ Finset.range N, |(p.input mem v q).val| * |(p.delta mem v j).val|)) ∧
      ∀ j < p.n, ∃ a s, mem[p.b + j]? = some a ∧ m[p.b + j]? = some s ∧
        |s.val - (a.val - ∑ v ∈ Finset.range N, (p.delta mem v j).val)| ≤
          ((1 + u) ^ (K + order.length) - 1) * (|a.val| + ∑ v ∈ Finset.range N, |(p.delta mem v j).val|) := by
  have get := fun i => (C172_shares laid shares turns rfl).2.2 i (by rw [(C172_turns laid shares turns i).1]; exact ended i)
  have len := regr_length laid shares turns rfl
  have keep : ∀ a k, (a, k) ∈ p.inputs N → ∀ q < k,
      (play turns (fun i => (p.calls (lo i) (cnt i) (gw i) (gb i)).prog, mem)).2[a + q]? = mem[a + q]? := fun a k h q hq =>
    regr_keeps laid shares turns rfl (acc := a) (len := k)
      ⟨fun o ho => (laid.outsInputs o ho _ h).symm, fun i o ho => (laid.ownInputs i o ho _ h).symm⟩ q hq
  generalize hc : (play turns (fun i => (p.calls (lo i) (cnt i) (gw i) (gb i)).prog, mem)).2 = c at *
  simp only [Net.Sep] at apart
  have iw := laid.inputs (p.w, p.l * p.n) (by simp [Regr.inputs])
  have ib := laid.inputs (p.b, p.n) (by simp [Regr.inputs])
  simp only at iw ib
  obtain ⟨m1, e1, l1, v1, k1⟩ := C175_subtracted (len := p.l * p.n) (w := p.w) (order.map gw) (m := c) (by omega) (fun a ha => by
    obtain ⟨i, -, rfl⟩ := List.mem_map.1 ha
    exact ⟨len ▸ laid.own i _ (.head _), (laid.ownInputs i _ (.head _) _ (by simp [Regr.inputs])).symm⟩)
  obtain ⟨m2, e2, l2, v2, k2⟩ := C175_subtracted (len := p.n) (w := p.b) (order.map gb) (m := m1) (by omega) (fun a ha => by
    obtain ⟨i, -, rfl⟩ := List.mem_map.1 ha
    exact ⟨(l1.trans len) ▸ laid.own i _ (.tail _ (.head _)),
      (laid.ownInputs i _ (.tail _ (.head _)) _ (by simp [Regr.inputs])).symm⟩)
  -- subtracting is adding the negatives
  have neg : ∀ (L : List (Fl rnd)) (a : Fl rnd), L.foldl (fun a b => a - b) a = (L.map fun x => -x).foldl (fun a b => a + b) a := by
    intro L
    induction L with
    | nil => exact fun _ => rfl
    | cons x L ih =>
      intro a
      rw [List.map_cons, List.foldl_cons, List.foldl_cons, ih]
      congr 1
  have total : ∀ (M : Nat) (x : ι → Fl rnd) (f g : Nat → ℝ) (a : Fl rnd), (∀ v, |f v| ≤ g v) →
      (∀ i, |(x i).val - ∑ v ∈ Finset.range (cnt i), f (lo i + v)| ≤ ((1 + u) ^ M - 1) * ∑ v ∈ Finset.range (cnt i), g (lo i + v)) →
      |((order.map x).foldl (fun a b => a - b) a).val - (a.val - ∑ v ∈ Finset.range N, f v)| ≤
        ((1 + u) ^ (M + order.length) - 1) * (|a.val| + ∑ v ∈ Finset.range N, g v) := by
    intro M x f g a fg hx
    have := foldl_error hu h (A := (1 + u) ^ M) (one_le_pow₀ (by linarith)) (fun i => -x i)
      (fun i => -∑ v ∈ Finset.range (cnt i), f (lo i + v)) (fun i => ∑ v ∈ Finset.range (cnt i), g (lo i + v)) order
      (fun i _ => by
        rw [Fl.val_neg, neg_sub_neg, abs_sub_comm]
        exact hx i)
      (fun i _ => by
        rw [abs_neg]
        exact (Finset.abs_sum_le_sum_abs _ _).trans (Finset.sum_le_sum fun v _ => fg _)) 0 a (t := a.val) (T := |a.val|)
      (by
        rw [sub_self, abs_zero]
        refine mul_nonneg (sub_nonneg.2 ?_) (abs_nonneg _)
        rw [pow_zero, mul_one]
        exact one_le_pow₀ (by linarith)) le_rfl
    rw [order_sum nodup all, order_sum nodup all, Finset.sum_neg_distrib, shares_sum shares, shares_sum shares g, zero_add, ← pow_add,
      ← sub_eq_add_neg] at this
    rw [neg, List.map_map]
    exact this
  refine ⟨m2, by rw [Regr.step, hc, e1, Outcome.ok_bind, e2], by omega, fun q hq j hj => ?_, fun j hj => ?_⟩
  · have hqj : q * p.n + j < p.l * p.n := by
      have := Shared.row_le (n := p.n) hq
      omega
    have old : mem[p.w + (q * p.n + j)]? = some (cell c (p.w + (q * p.n + j))) := by
      rw [cell, keep p.w (p.l * p.n) (by simp [Regr.inputs]) _ hqj]
      simp [show p.w + (q * p.n + j) < mem.length by omega]
    refine ⟨_, _, old, (k2 _ (by omega)).trans (v1 _ hqj), ?_⟩
    rw [List.map_map]
    refine total (K + 1) _ (fun v => (p.input mem v q).val * (p.delta mem v j).val) _ _ (fun v => (abs_mul _ _).le) fun i => ?_
    show |(cell c (gw i + (q * p.n + j))).val - _| ≤ _
    rw [cell, (get i).2.2.1 q hq j hj, Option.getD_some]
    refine (seqSum_error hu h (cnt i) (fun v => p.input mem (lo i + v) q) (fun v => p.delta mem (lo i + v) j)).trans ?_
    refine mul_le_mul_of_nonneg_right ?_ (Finset.sum_nonneg fun _ _ => by positivity)
    exact sub_le_sub_right (pow_le_pow_right₀ (by linarith) (Nat.succ_le_succ (hK i))) _
  · have old : mem[p.b + j]? = some (cell m1 (p.b + j)) := by
      rw [cell, k1 _ (by omega), keep p.b p.n (by simp [Regr.inputs]) _ hj]
      simp [show p.b + j < mem.length by omega]
    refine ⟨_, _, old, v2 j hj, ?_⟩
    rw [List.map_map]
    refine total K _ (fun v => (p.delta mem v j).val) _ _ (fun v => le_rfl) fun i => ?_
    have := laid.ownInputs i (gb i, p.n) (.tail _ (.head _)) (p.w, p.l * p.n) (by simp [Regr.inputs])
    simp only [Net.Sep] at this
    show |(cell m1 (gb i + j)).val - _| ≤ _
    rw [cell, k1 _ (by omega), (get i).2.2.2 j hj, Option.getD_some]
    refine (sum_error hu h (cnt i) (fun v => p.delta mem (lo i + v) j)).trans ?_
    refine mul_le_mul_of_nonneg_right ?_ (Finset.sum_nonneg fun _ _ => by positivity)
    exact sub_le_sub_right (pow_le_pow_right₀ (by linarith) (hK i)) _

end

/-! ## Determinism -/

section
variable [Zero R] [One R] [Add R] [Sub R] [Mul R] [Neg R] [Div R] [LT R] [DecidableLT R] {ι : Type} [DecidableEq ι]

/-- Once all threads have ended, the whole memory is the same for all interleavings. -/
theorem regr_deterministic {p : Regr R} {N : Nat} {mem : List R} {gw gb lo cnt : ι → Nat} (laid : p.Laid N mem.length gw gb)
    (shares : Shares N lo cnt) {turns turns' : List ι} (ended : ∀ i, p.accesses (cnt i) ≤ turns.count i)
    (ended' : ∀ i, p.accesses (cnt i) ≤ turns'.count i) :
    (play turns (fun i => (p.calls (lo i) (cnt i) (gw i) (gb i)).prog, mem)).2 =
      (play turns' (fun i => (p.calls (lo i) (cnt i) (gw i) (gb i)).prog, mem)).2 := by
  choose M a1 _ using fun i => regr_effect laid i (shares.inside i)
  have C := fun turns => C168_threads (fun i c hc => (regr_fits laid i (shares.inside i) c hc).1) (regr_apart laid shares) a1 turns rfl
  refine List.ext_getElem? fun q => ?_
  by_cases h : ∃ i, (p.calls (lo i) (cnt i) (gw i) (gb i)).writes q
  · obtain ⟨i, hi⟩ := h
    rw [((C turns).2.2.1 i (by rw [(C172_turns laid shares turns i).1]; exact ended i)).2 q hi,
      ((C turns').2.2.1 i (by rw [(C172_turns laid shares turns' i).1]; exact ended' i)).2 q hi]
  · rw [(C turns).2.2.2.2 q fun i hi => h ⟨i, hi⟩, (C turns').2.2.2.2 q fun i hi => h ⟨i, hi⟩]

/-- **C175.** Training with threads is deterministic, in any arithmetic: for given divisions and orders of subtracting, and whatever
is loaded between the steps, no call of a run of any number of steps fails, and the whole memory is the same, bit for bit, for
all interleavings. -/
theorem C175_deterministic {p : Regr R} {N : Nat} {mem : List R} {gw gb : ι → Nat} (laid : p.Laid N mem.length gw gb)
    {lo cnt : Nat → ι → Nat} (shares : ∀ k, Shares N (lo k) (cnt k)) {turns turns' : Nat → List ι} (order : Nat → List ι)
    (ended : ∀ k i, p.accesses (cnt k i) ≤ (turns k).count i) (ended' : ∀ k i, p.accesses (cnt k i) ≤ (turns' k).count i)
    (load : Nat → List R → List R) (keeps : ∀ k m, (load k m).length = m.length) (steps : Nat) :
    ∃ m, forRange steps (fun k m => p.step (turns k) (order k) (lo k) (cnt k) gw gb (load k m)) mem = .ok m ∧
      forRange steps (fun k m => p.step (turns' k) (order k) (lo k) (cnt k) gw gb (load k m)) mem = .ok m ∧
      m.length = mem.length := by
  induction steps with
  | zero => exact ⟨mem, rfl, rfl, rfl⟩
  | succ k ih =>
    obtain ⟨m, e, e', hl⟩ := ih
    have lm : (load k m).length = mem.length := (keeps k m).trans hl
    have laid' : p.Laid N (load k m).length gw gb := by rw [lm]; exact laid
    have len := regr_length laid' (shares k) (turns k) rfl
    have same := regr_deterministic laid' (shares k) (ended k) (ended' k)
    generalize hc : (play (turns k) (fun i => (p.calls (lo k i) (cnt k i) (gw i) (gb i)).prog, load k m)).2 = c at *
    have iw := laid.inputs (p.w, p.l * p.n) (by simp [Regr.inputs])
    have ib := laid.inputs (p.b, p.n) (by simp [Regr.inputs])
    simp only at iw ib
    obtain ⟨m1, e1, l1, -⟩ := C175_subtracted (len := p.l * p.n) (w := p.w) ((order k).map gw) (m := c) (by omega) (fun a ha => by
      obtain ⟨i, -, rfl⟩ := List.mem_map.1 ha
      exact ⟨len ▸ laid'.own i _ (.head _), (laid.ownInputs i _ (.head _) _ (by simp [Regr.inputs])).symm⟩)
    obtain ⟨m2, e2, l2, -⟩ := C175_subtracted (len := p.n) (w := p.b) ((order k).map gb) (m := m1) (by omega) (fun a ha => by
      obtain ⟨i, -, rfl⟩ := List.mem_map.1 ha
      exact ⟨(l1.trans len) ▸ laid'.own i _ (.tail _ (.head _)),
        (laid.ownInputs i _ (.tail _ (.head _)) _ (by simp [Regr.inputs])).symm⟩)
    refine ⟨m2, ?_, ?_, by omega⟩
    · rw [forRange_succ, e, Outcome.ok_bind, Regr.step, hc, e1, Outcome.ok_bind, e2]
    · rw [forRange_succ, e', Outcome.ok_bind, Regr.step, ← same, e1, Outcome.ok_bind, e2]

end

/-! ## An example -/

theorem exRegr_apart : (exRegr.inputs 2).Pairwise Net.Sep := by simp [Regr.inputs, exRegr, Net.Sep]

theorem exRegr_ended (i : Fin 2) : exRegr.accesses 1 ≤ ((List.replicate 60 [(0 : Fin 2), 1]).flatten).count i := by
  have : exRegr.accesses 1 = 55 := rfl
  rw [this]
  revert i
  decide

example := C175_step (p := exRegr) rfl exRegr_laid exRegr_apart exRegr_shares exRegr_ended (order := [1, 0]) (by decide) (by decide)
  rfl rfl rfl rfl (fun v hv => by
    have : exRegr.n = 2 := rfl
    rw [this, Finset.sum_range_succ, Finset.sum_range_one]
    interval_cases v <;> simp [Regr.target, exRegr, exRegrMem, cell])

example := C175_rounded exU chop24_err exFl_laid (by simp [exFlRegr, Net.Sep]) exRegr_shares (fun _ => le_rfl) exFl_ended
  (order := [1, 0]) (by decide) (by decide)

/-- Turn about, and one thread after the other, in rounded arithmetic. -/
example (steps : Nat) := C175_deterministic exFl_laid (lo := fun _ i => if i = 0 then 1 else 0) (cnt := fun _ _ => 1) (fun _ => exRegr_shares)
  (turns := fun _ => (List.replicate 60 [(0 : Fin 2), 1]).flatten) (turns' := fun _ => List.replicate 60 1 ++ List.replicate 60 0)
  (fun k => if k % 2 = 0 then [1, 0] else [0, 1]) (fun _ i => exFl_ended i)
  (fun _ i => by
    have : exFlRegr.accesses 1 = 55 := rfl
    rw [this]
    revert i
    decide)
  (fun k m => m.set 0 (exReal k)) (fun k m => by simp) steps

/-- The tensors of the example for batches of two inputs of width 1 and two classes, with weights and bias of zeros. -/
noncomputable def exRunState : Slp.State ℝ :=
  ⟨[7, 7], [7, 7, 7, 7], [7, 7, 7, 7], [7, 7, 7, 7], [7, 7], [7], (tab [2] (fn1 fun _ => exRegr.c)).data, [7, 7, 7, 7], [7, 7, 7, 7], [7, 7],
    [7, 7], [0, 0], [0, 0]⟩

/-- Batches that differ from step to step; in odd steps the threads change places. -/
example (steps : Nat) := C175_run (p := exRegr) rfl (fun _ => 9) exRegr_laid exRegr_apart
  (lo := fun k i => if (k + i.val) % 2 = 0 then 1 else 0) (cnt := fun _ _ => 1)
  (fun k => by
    rcases Nat.mod_two_eq_zero_or_one k with h | h
    all_goals
      refine ⟨?_, ?_, ?_⟩
      · intro i
        split <;> omega
      · simp only [Fin.forall_fin_two, Fin.val_zero, Fin.val_one]
        refine ⟨⟨fun h => absurd rfl h, fun _ => ?_⟩, fun _ => ?_, fun h => absurd rfl h⟩ <;> (split <;> split <;> omega)
      · intro u hu
        simp only [Fin.exists_fin_two, Fin.val_zero, Fin.val_one]
        split <;> split <;> omega)
  (turns := fun _ => (List.replicate 60 [(0 : Fin 2), 1]).flatten) (order := fun _ => [1, 0]) (fun _ i => exRegr_ended i)
  (fun _ => by decide) (fun _ => by decide) (fun k v q => (k : ℝ) - 3 * v + q) (fun k v j => if (k + v) % 2 = j then 1 else 0)
  (steps := steps) (fun k _ v _ => by
    have : exRegr.n = 2 := rfl
    rw [this, Finset.sum_ite_eq]
    exact if_pos (Finset.mem_range.2 (Nat.mod_lt _ (by omega))))
  (s := exRunState) ⟨rfl, rfl, rfl, rfl, rfl, rfl, rfl, rfl, rfl, rfl, rfl⟩ rfl ⟨rfl, rfl⟩

/-- A data set of five images of one pixel: two steps, and one image left over. -/
example := C175_train (p := exRegr) rfl (fun _ => 9) (fun i => (i : ℝ) / 255) (by decide) (by decide : 2 < 256) exRegr_laid exRegr_apart
  (lo := fun _ i => if i = 0 then 1 else 0) (cnt := fun _ _ => 1) (fun _ => exRegr_shares)
  (turns := fun _ => (List.replicate 60 [(0 : Fin 2), 1]).flatten) (order := fun _ => [1, 0]) (fun _ i => exRegr_ended i)
  (fun _ => by decide) (fun _ => by decide) (n := 5) (fun i _ => 50 * i) (fun i => i % 2) (fun i _ => Nat.mod_lt i (by decide : 0 < 2))
  (s := exRunState) ⟨rfl, rfl, rfl, rfl, rfl, rfl, rfl, rfl, rfl, rfl, rfl⟩ ⟨rfl, rfl⟩

example : ∃ m', subAll 2 0 [2, 4, 2] [(10 : Int), 20, 1, 2, 3, 4, 9] = .ok m' ∧ m'.length = 7 ∧
    (∀ q < 2, m'[0 + q]? = some (([2, 4, 2].map fun p => cell [(10 : Int), 20, 1, 2, 3, 4, 9] (p + q)).foldl (fun a b => a - b)
      (cell [10, 20, 1, 2, 3, 4, 9] (0 + q)))) ∧ ∀ q, q < 0 ∨ 0 + 2 ≤ q → m'[q]? = [(10 : Int), 20, 1, 2, 3, 4, 9][q]? :=
  C175_subtracted [2, 4, 2] (by decide) (by intro p hp; simp at hp; rcases hp with rfl | rfl | rfl <;> simp [Net.Sep])

example : subAll 2 0 [2, 4, 2] [(10 : Int), 20, 1, 2, 3, 4, 9] = .ok [5, 12, 1, 2, 3, 4, 9] := by decide

end Prog
end StdNN
