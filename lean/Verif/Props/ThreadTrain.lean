import Verif.Props.ThreadNet
import Verif.Props.Train
import Verif.Props.SharedOps
/-!
# Threads that share the work of a training step

Softmax regression as in examples/example_train_mnist_slp.cpp: every thread computes the predictions for its share of the
examples, the gradients of `xentropy` and `softmax`, and the gradients by weights and bias of its share, to buffers of its own.
-/
namespace StdNN
open Outcome Spec IntTy
variable {R : Type}
namespace Prog

/-! ## Specification -/

/-- Softmax regression in one memory: `l` inputs and `n` classes, where the inputs `x`, the targets `t`, the weights `w` and the
bias `b` begin, where the scores `s`, the predictions `y` and the gradients by predictions `g` and by scores `d` go, and the
gradient `c` of every example's loss. -/
structure Regr (R : Type) where
  (l n x t w b s y g d : Nat)
  exp : R → R
  (eps c : R)
  junk : Nat → R

namespace Regr

/-- The layers. -/
def net (p : Regr R) : Net R := [.dense p.n p.w p.b none p.s, .softmax p.exp p.eps p.y]

/-- The calls for `cnt` examples from example `lo` on; the gradients by weights and bias go to `gw` and `gb`. -/
def calls [Zero R] [Add R] (p : Regr R) (lo cnt gw gb : Nat) : Thread R :=
  Net.calls lo cnt p.x p.l p.net ++
    [.xentropyGrad cnt p.n (tab [cnt] (fn1 fun _ => p.c)).data (.mem (p.t + lo * p.n)) (.mem (p.y + lo * p.n)) (p.g + lo * p.n),
      .softmaxGrad p.junk cnt p.n (.mem (p.g + lo * p.n)) (.mem (p.y + lo * p.n)) (p.d + lo * p.n),
      .mtm [cnt, p.l] [cnt, p.n] [p.l, p.n] (.mem (p.x + lo * p.l)) (.mem (p.d + lo * p.n)) gw,
      .sumRows cnt p.n (.mem (p.d + lo * p.n)) gb]

/-- What all threads read. -/
def inputs (p : Regr R) (N : Nat) : List (Nat × Nat) := [(p.x, N * p.l), (p.t, N * p.n), (p.w, p.l * p.n), (p.b, p.n)]

/-- Where results for every example go. -/
def outs (p : Regr R) (N : Nat) : List (Nat × Nat) := [p.s, p.y, p.g, p.d].map fun o => (o, N * p.n)

/-- The buffers of one thread. -/
def own (p : Regr R) (gw gb : Nat) : List (Nat × Nat) := [(gw, p.l * p.n), (gb, p.n)]

/-- Everything is in the memory of `L` cells, and results have cells of their own. -/
structure Laid {ι : Type} (p : Regr R) (N L : Nat) (gw gb : ι → Nat) : Prop where
  inputs : ∀ o ∈ p.inputs N, o.1 + o.2 ≤ L
  outs : ∀ o ∈ p.outs N, o.1 + o.2 ≤ L
  own : ∀ i, ∀ o ∈ p.own (gw i) (gb i), o.1 + o.2 ≤ L
  outsInputs : ∀ o ∈ p.outs N, ∀ o' ∈ p.inputs N, Net.Sep o o'
  outsApart : (p.outs N).Pairwise Net.Sep
  ownInputs : ∀ i, ∀ o ∈ p.own (gw i) (gb i), ∀ o' ∈ p.inputs N, Net.Sep o o'
  ownOuts : ∀ i, ∀ o ∈ p.own (gw i) (gb i), ∀ o' ∈ p.outs N, Net.Sep o o'
  ownApart : ∀ i j, i ≠ j → ∀ o ∈ p.own (gw i) (gb i), ∀ o' ∈ p.own (gw j) (gb j), Net.Sep o o'
  pair : ∀ i, Net.Sep (gw i, p.l * p.n) (gb i, p.n)

section
variable [Zero R] [One R] [Add R] [Sub R] [Mul R] [Neg R] [Div R] [LT R] [DecidableLT R]

/-- Input `q` of example `u`. -/
def input (p : Regr R) (mem : List R) (u q : Nat) : R := cell mem (p.x + (u * p.l + q))

/-- The target of class `j` for example `u`. -/
def target (p : Regr R) (mem : List R) (u j : Nat) : R := cell mem (p.t + (u * p.n + j))

/-- The prediction of class `j` for example `u`. -/
def pred (p : Regr R) (mem : List R) (u j : Nat) : R :=
  let z := fun j => (seqSum p.l fun q => p.input mem u q * cell mem (p.w + (q * p.n + j))) + cell mem (p.b + j)
  stdMax p.eps (1 / seqSum p.n fun k => p.exp (z k - z j))

/-- The gradient by the score of class `j` for example `u`, as computed. -/
def delta (p : Regr R) (mem : List R) (u j : Nat) : R :=
  seqSum p.n fun k => p.c * (-p.target mem u k / p.pred mem u k) *
    if k = j then p.pred mem u k * (1 - p.pred mem u k) else -p.pred mem u k * p.pred mem u j
end
end Regr

/-! ## Calls whose inputs lie in the memory of the output -/

section
variable [Zero R] [One R] [Add R] [Sub R] [Mul R] [Neg R]

theorem softmaxGrad_inside (junk : Nat → R) {rows n a b z : Nat} {G Y : Nat → Nat → R} {m : List R}
    (hg : ∀ i < rows, ∀ j < n, m[a + (i * n + j)]? = some (G i j)) (hy : ∀ i < rows, ∀ j < n, m[b + (i * n + j)]? = some (Y i j))
    (ha : a + rows * n ≤ z ∨ z + rows * n ≤ a) (hb : b + rows * n ≤ z ∨ z + rows * n ≤ b) (hz : z + rows * n ≤ m.length) :
    Shared.softmaxGrad junk rows n (.mem a) (.mem b) z m =
      .ok (store m z (tab [rows, n] (fn2 fun r j => seqSum n fun i => G r i *
        if i = j then Y r i * (1 - Y r i) else -Y r i * Y r j)).data) := by
  refine Shared.run_blocks (by simp) hz fun r hr m' hl hm => ?_
  have hr' := Shared.row_le (n := n) hr
  have e1 : ∀ (m'' : List R), (∀ p, p < z ∨ z + rows * n ≤ p → m''[p]? = m[p]?) → ∀ i < n,
      ((Src.mem a).shift (r * n)).rd m'' i = .ok (G r i) := by
    intro m'' h i hi
    rw [Shared.shift_rd]
    show StdNN.rd m'' (a + (r * n + i)) = _
    rw [StdNN.rd, h _ (by omega), hg r hr i hi]
  rw [Shared.softmaxGradRow_vm junk (Y r) (fun i hi => ?_), Shared.rows_cells _ hr]
  · simp only [Shared.vm, contractAssert_pos, Outcome.ok_bind]
    refine run_store (by simp) (by omega) fun j hj m'' _ hp => ?_
    refine ⟨seqSum n fun i => G r i * if i = j then Y r i * (1 - Y r i) else -Y r i * Y r j, ?_, ?_⟩
    · have := tab_getElem? (fn1 fun j => seqSum n fun i => G r i * if i = j then Y r i * (1 - Y r i) else -Y r i * Y r j) (v1 hj)
      simpa using this
    · rw [forRange_sum (f := fun i => G r i * if i = j then Y r i * (1 - Y r i) else -Y r i * Y r j), Outcome.ok_bind]
      · simp
      · intro k hk s
        have o : offset [n] [k] = k := by simp
        rw [Src.at_, o, e1 m'' (fun p h => by rw [hp p (by omega), hm p (by omega)]) k hk, Outcome.ok_bind,
          ext_at2 _ hk hj, Outcome.ok_bind]
        rfl
  · rw [Shared.shift_rd]
    show StdNN.rd m' (b + (r * n + i)) = _
    rw [StdNN.rd, hm _ (by omega), hy r hr i hi]

omit [One R] [Sub R] [Neg R] in
theorem mtm_inside {r l n a b z : Nat} {A B : Nat → Nat → R} {m : List R}
    (hA : ∀ i < r, ∀ j < l, m[a + (i * l + j)]? = some (A i j)) (hB : ∀ i < r, ∀ j < n, m[b + (i * n + j)]? = some (B i j))
    (ha : a + r * l ≤ z ∨ z + l * n ≤ a) (hb : b + r * n ≤ z ∨ z + l * n ≤ b) (hz : z + l * n ≤ m.length) :
    Shared.mtm [r, l] [r, n] [l, n] (.mem a) (.mem b) z m =
      .ok (store m z (tab [l, n] (fn2 fun i j => seqSum r fun k => A k i * B k j)).data) := by
  simp only [Shared.mtm, contractAssert_pos, Outcome.ok_bind]
  refine rows_store hz fun i hi j hj m' hm => ?_
  have hi' := row_in (n := n) hi
  rw [forRange_sum (f := fun k => A k i * B k j), Outcome.ok_bind]
  · simp
  · intro k hk s
    have o1 : offset [r, l] [k, i] = k * l + i := by simp
    have o2 : offset [r, n] [k, j] = k * n + j := by simp
    have h1 := Shared.row_le (n := l) hk
    have h2 := Shared.row_le (n := n) hk
    have e1 : (Src.mem a).at_ [r, l] [k, i] m' = .ok (A k i) := by
      rw [Src.at_, o1]
      show StdNN.rd m' (a + (k * l + i)) = _
      rw [StdNN.rd, hm _ (by omega), hA k hk i hi]
    have e2 : (Src.mem b).at_ [r, n] [k, j] m' = .ok (B k j) := by
      rw [Src.at_, o2]
      show StdNN.rd m' (b + (k * n + j)) = _
      rw [StdNN.rd, hm _ (by omega), hB k hk j hj]
    rw [e1, Outcome.ok_bind, e2, Outcome.ok_bind]
    rfl
end

/-! ## One thread -/

theorem sep_sub {A a B b A' a' B' b' : Nat} (h : Net.Sep (A, a) (B, b)) (h1 : A ≤ A') (h2 : A' + a' ≤ A + a) (h3 : B ≤ B')
    (h4 : B' + b' ≤ B + b) : Net.Sep (A', a') (B', b') := by
  simp only [Net.Sep] at h ⊢
  omega

theorem keep_store [Zero R] {m v : List R} {z A a q : Nat} (hz : z + v.length ≤ m.length) (h : Net.Sep (z, v.length) (A, a))
    (hq : A ≤ q ∧ q < A + a) : (store m z v)[q]? = m[q]? := by
  simp only [Net.Sep] at h
  rw [store_getElem? hz, if_neg (by omega)]

theorem share_le {lo cnt N : Nat} (h : lo + cnt ≤ N) (k : Nat) : lo * k + cnt * k ≤ N * k := by
  rw [← Nat.add_mul]
  exact Nat.mul_le_mul_right _ h

theorem share_at {A lo k i j : Nat} : A + lo * k + (i * k + j) = A + ((lo + i) * k + j) := by
  rw [Nat.add_mul]
  omega

section
variable [Zero R] [One R] [Add R] [Sub R] [Mul R] [Neg R] [Div R] [LT R] [DecidableLT R] {ι : Type}

omit [One R] [Add R] [Sub R] [Mul R] [Neg R] [Div R] [LT R] [DecidableLT R] [Zero R] in
theorem regr_laid {p : Regr R} {N L : Nat} {gw gb : ι → Nat} (laid : p.Laid N L gw gb) : Net.Laid N L p.x p.l p.net := by
  have mi : ∀ o ∈ Net.outs N p.l p.net, o ∈ p.outs N := by
    intro o ho
    simp only [Regr.net, Net.outs, Stage.dst, Stage.width, List.mem_cons, List.not_mem_nil, or_false] at ho
    rcases ho with rfl | rfl <;> simp [Regr.outs]
  have mp : ∀ o ∈ Net.params p.l p.net, o ∈ p.inputs N := by
    intro o ho
    simp only [Regr.net, Net.params, Stage.params, List.mem_append, List.mem_cons, List.not_mem_nil, or_false] at ho
    rcases ho with rfl | rfl <;> simp [Regr.inputs]
  have hx : (p.x, N * p.l) ∈ p.inputs N := by simp [Regr.inputs]
  refine ⟨laid.inputs _ hx, fun o ho => laid.inputs o (mp o ho), fun o ho => laid.outs o (mi o ho),
    fun o ho => laid.outsInputs o (mi o ho) _ hx, fun o ho o' ho' => laid.outsInputs o (mi o ho) o' (mp o' ho'), ?_⟩
  have := laid.outsApart
  simp only [Regr.outs, List.map_cons, List.map_nil, List.pairwise_cons, List.mem_cons, List.not_mem_nil, or_false,
    forall_eq_or_imp, forall_eq] at this
  simpa [Regr.net, Net.outs, Stage.dst, Stage.width] using this.1.1

/-- What a thread does alone. -/
theorem regr_effect {p : Regr R} {N lo cnt : Nat} {mem : List R} {gw gb : ι → Nat} (laid : p.Laid N mem.length gw gb) (i : ι)
    (hN : lo + cnt ≤ N) :
    ∃ m', (p.calls lo cnt (gw i) (gb i)).effect mem = .ok m' ∧
      (∀ u < cnt, ∀ j < p.n, m'[p.y + lo * p.n + (u * p.n + j)]? = some (p.pred mem (lo + u) j)) ∧
      (∀ u < cnt, ∀ j < p.n, m'[p.d + lo * p.n + (u * p.n + j)]? = some (p.delta mem (lo + u) j)) ∧
      (∀ q < p.l, ∀ j < p.n, m'[gw i + (q * p.n + j)]? =
        some (seqSum cnt fun u => p.input mem (lo + u) q * p.delta mem (lo + u) j)) ∧
      ∀ j < p.n, m'[gb i + j]? = some (seqSum cnt fun u => p.delta mem (lo + u) j) := by
  have nl := share_le hN p.l
  have nn := share_le hN p.n
  have ix := laid.inputs (p.x, N * p.l) (by simp [Regr.inputs])
  have it := laid.inputs (p.t, N * p.n) (by simp [Regr.inputs])
  have iy := laid.outs (p.y, N * p.n) (by simp [Regr.outs])
  have ig := laid.outs (p.g, N * p.n) (by simp [Regr.outs])
  have id' := laid.outs (p.d, N * p.n) (by simp [Regr.outs])
  have iw := laid.own i (gw i, p.l * p.n) (by simp [Regr.own])
  have ib := laid.own i (gb i, p.n) (by simp [Regr.own])
  simp only at ix it iy ig id' iw ib
  have pw := laid.outsApart
  simp only [Regr.outs, List.map_cons, List.map_nil, List.pairwise_cons, List.mem_cons, List.not_mem_nil, or_false,
    forall_eq_or_imp, forall_eq] at pw
  obtain ⟨⟨-, sg, sd⟩, ⟨yg, yd⟩, gd, -⟩ := pw
  -- the layers
  obtain ⟨m1, e1, l1, w1, o1⟩ := net_effect (net := p.net) (m := mem) (X := p.input mem) rfl hN (regr_laid laid)
    (fun _ _ _ _ => rfl) (fun u _ hu j hj => by
      have := row_in (n := p.l) (show u < N by omega)
      exact cell_some (by omega))
  have kept : ∀ A a, Net.Sep (p.s, N * p.n) (A, a) → Net.Sep (p.y, N * p.n) (A, a) → ∀ q, A ≤ q ∧ q < A + a → m1[q]? = mem[q]? := by
    intro A a hs hy q hq
    refine o1 q fun v hv hb => ?_
    simp only [Regr.net, Net.values, Stage.dst, Stage.width, List.mem_cons, List.not_mem_nil, or_false] at hv
    have hb : v.1 + lo * v.2.1 ≤ q ∧ q < v.1 + lo * v.2.1 + cnt * v.2.1 := hb
    simp only [Net.Sep] at hs hy
    rcases hv with rfl | rfl <;> · simp only at hb; omega
  have y1 : ∀ u < cnt, ∀ j < p.n, m1[p.y + lo * p.n + (u * p.n + j)]? = some (p.pred mem (lo + u) j) := by
    intro u hu j hj
    rw [share_at]
    exact w1 (p.y, p.n, fun u => p.pred mem u) (by simp only [Regr.net, Net.values, List.mem_cons]; exact .inr (.inl rfl))
      (lo + u) (by omega) (by omega) j hj
  have t1 : ∀ u < cnt, ∀ j < p.n, m1[p.t + lo * p.n + (u * p.n + j)]? = some (p.target mem (lo + u) j) := by
    intro u hu j hj
    have := Shared.row_le (n := p.n) hu
    rw [kept p.t (N * p.n) (laid.outsInputs _ (by simp [Regr.outs]) _ (by simp [Regr.inputs]))
      (laid.outsInputs _ (by simp [Regr.outs]) _ (by simp [Regr.inputs])) _ (by omega), share_at]
    rw [Regr.target, cell_some (by rw [← share_at]; omega)]
  have x1 : ∀ u < cnt, ∀ j < p.l, m1[p.x + lo * p.l + (u * p.l + j)]? = some (p.input mem (lo + u) j) := by
    intro u hu j hj
    have := Shared.row_le (n := p.l) hu
    rw [kept p.x (N * p.l) (laid.outsInputs _ (by simp [Regr.outs]) _ (by simp [Regr.inputs]))
      (laid.outsInputs _ (by simp [Regr.outs]) _ (by simp [Regr.inputs])) _ (by omega), share_at]
    rw [Regr.input, cell_some (by rw [← share_at]; omega)]
  -- the gradient by the predictions
  let G : Nat → Nat → R := fun u j => p.c * (-p.target mem (lo + u) j / p.pred mem (lo + u) j)
  have holds : ∀ (a z : Nat) (m : List R) (F : Nat → Nat → R), Net.Sep (a, cnt * p.n) (z, cnt * p.n) →
      (∀ u < cnt, ∀ j < p.n, m[a + (u * p.n + j)]? = some (F u j)) → a + cnt * p.n ≤ m.length →
      (Src.mem a).Holds m z (tab [cnt, p.n] (fn2 F)).data := by
    intro a z m F hs h hl
    have hd := take_tab hl h
    have len : (tab [cnt, p.n] (fn2 F)).data.length = cnt * p.n := by simp
    simp only [Net.Sep] at hs
    refine ⟨by rw [len]; omega, fun k hk => ?_⟩
    rw [len] at hk
    rw [← hd, List.getElem?_take_of_lt hk, List.getElem?_drop]
  have tg := laid.outsInputs (p.g, N * p.n) (by simp [Regr.outs]) (p.t, N * p.n) (by simp [Regr.inputs])
  have e2 := Shared.C166_xentropy (rows := cnt) (n := p.n) (fun _ => p.c) (fun u => p.target mem (lo + u)) (fun u => p.pred mem (lo + u))
    (x := .mem (p.t + lo * p.n)) (y := .mem (p.y + lo * p.n)) (gx := p.g + lo * p.n) (mem := m1)
    (holds _ _ _ _ (sep_sub tg.symm (by omega) (by omega) (by omega) (by omega)) t1 (by omega))
    (holds _ _ _ _ (sep_sub yg (by omega) (by omega) (by omega) (by omega)) y1 (by omega)) (by omega)
  have lG : (tab [cnt, p.n] (fn2 G)).data.length = cnt * p.n := by simp
  let m2 := store m1 (p.g + lo * p.n) (tab [cnt, p.n] (fn2 G)).data
  have z2 : p.g + lo * p.n + (tab [cnt, p.n] (fn2 G)).data.length ≤ m1.length := by rw [lG]; omega
  have l2 : m2.length = mem.length := by rw [← l1]; exact store_length z2
  have k2 : ∀ A a, Net.Sep (p.g, N * p.n) (A, a) → ∀ q, A ≤ q ∧ q < A + a → m2[q]? = m1[q]? := fun A a h q hq =>
    keep_store z2 (sep_sub h (by omega) (by rw [lG]; omega) le_rfl le_rfl) hq
  have g2 : ∀ u < cnt, ∀ j < p.n, m2[p.g + lo * p.n + (u * p.n + j)]? = some (G u j) := by
    intro u hu j hj
    have := Shared.row_le (n := p.n) hu
    rw [store_getElem? z2, if_pos (by rw [lG]; omega), Nat.add_sub_cancel_left, take_tab_get G hu hj]
  have y2 : ∀ u < cnt, ∀ j < p.n, m2[p.y + lo * p.n + (u * p.n + j)]? = some (p.pred mem (lo + u) j) := by
    intro u hu j hj
    have := Shared.row_le (n := p.n) hu
    rw [k2 p.y (N * p.n) yg.symm _ (by omega), y1 u hu j hj]
  -- the gradient by the scores
  have e3 := softmaxGrad_inside p.junk (rows := cnt) (n := p.n) (a := p.g + lo * p.n) (b := p.y + lo * p.n) (z := p.d + lo * p.n)
    g2 y2 (sep_sub gd (by omega) (by omega) (by omega) (by omega)) (sep_sub yd (by omega) (by omega) (by omega) (by omega)) (by omega)
  let D : Nat → Nat → R := fun u => p.delta mem (lo + u)
  have e3 : Shared.softmaxGrad p.junk cnt p.n (.mem (p.g + lo * p.n)) (.mem (p.y + lo * p.n)) (p.d + lo * p.n) m2 =
    .ok (store m2 (p.d + lo * p.n) (tab [cnt, p.n] (fn2 D)).data) := e3
  have lD : (tab [cnt, p.n] (fn2 D)).data.length = cnt * p.n := by simp
  let m3 := store m2 (p.d + lo * p.n) (tab [cnt, p.n] (fn2 D)).data
  have z3 : p.d + lo * p.n + (tab [cnt, p.n] (fn2 D)).data.length ≤ m2.length := by rw [lD]; omega
  have l3 : m3.length = mem.length := by rw [← l2]; exact store_length z3
  have k3 : ∀ A a, Net.Sep (p.d, N * p.n) (A, a) → ∀ q, A ≤ q ∧ q < A + a → m3[q]? = m2[q]? := fun A a h q hq =>
    keep_store z3 (sep_sub h (by omega) (by rw [lD]; omega) le_rfl le_rfl) hq
  have d3 : ∀ u < cnt, ∀ j < p.n, m3[p.d + lo * p.n + (u * p.n + j)]? = some (D u j) := by
    intro u hu j hj
    have := Shared.row_le (n := p.n) hu
    rw [store_getElem? z3, if_pos (by rw [lD]; omega), Nat.add_sub_cancel_left, take_tab_get D hu hj]
  have y3 : ∀ u < cnt, ∀ j < p.n, m3[p.y + lo * p.n + (u * p.n + j)]? = some (p.pred mem (lo + u) j) := by
    intro u hu j hj
    have := Shared.row_le (n := p.n) hu
    rw [k3 p.y (N * p.n) yd.symm _ (by omega), y2 u hu j hj]
  have x3 : ∀ u < cnt, ∀ j < p.l, m3[p.x + lo * p.l + (u * p.l + j)]? = some (p.input mem (lo + u) j) := by
    intro u hu j hj
    have := Shared.row_le (n := p.l) hu
    rw [k3 p.x (N * p.l) (laid.outsInputs _ (by simp [Regr.outs]) _ (by simp [Regr.inputs])) _ (by omega),
      k2 p.x (N * p.l) (laid.outsInputs _ (by simp [Regr.outs]) _ (by simp [Regr.inputs])) _ (by omega), x1 u hu j hj]
  -- the gradient by the weights
  have wx := laid.ownInputs i (gw i, p.l * p.n) (by simp [Regr.own]) (p.x, N * p.l) (by simp [Regr.inputs])
  have wd := laid.ownOuts i (gw i, p.l * p.n) (by simp [Regr.own]) (p.d, N * p.n) (by simp [Regr.outs])
  have wy := laid.ownOuts i (gw i, p.l * p.n) (by simp [Regr.own]) (p.y, N * p.n) (by simp [Regr.outs])
  have bd := laid.ownOuts i (gb i, p.n) (by simp [Regr.own]) (p.d, N * p.n) (by simp [Regr.outs])
  have by' := laid.ownOuts i (gb i, p.n) (by simp [Regr.own]) (p.y, N * p.n) (by simp [Regr.outs])
  have wb := laid.pair i
  let W : Nat → Nat → R := fun q j => seqSum cnt fun u => p.input mem (lo + u) q * D u j
  have e4 : Shared.mtm [cnt, p.l] [cnt, p.n] [p.l, p.n] (.mem (p.x + lo * p.l)) (.mem (p.d + lo * p.n)) (gw i) m3 =
      .ok (store m3 (gw i) (tab [p.l, p.n] (fn2 W)).data) :=
    mtm_inside x3 d3 (sep_sub wx.symm (by omega) (by omega) (by omega) (by omega))
      (sep_sub wd.symm (by omega) (by omega) (by omega) (by omega)) (by omega)
  have lW : (tab [p.l, p.n] (fn2 W)).data.length = p.l * p.n := by simp
  let m4 := store m3 (gw i) (tab [p.l, p.n] (fn2 W)).data
  have z4 : gw i + (tab [p.l, p.n] (fn2 W)).data.length ≤ m3.length := by rw [lW]; omega
  have l4 : m4.length = mem.length := by rw [← l3]; exact store_length z4
  have k4 : ∀ A a, Net.Sep (gw i, p.l * p.n) (A, a) → ∀ q, A ≤ q ∧ q < A + a → m4[q]? = m3[q]? := fun A a h q hq =>
    keep_store z4 (by rw [lW]; exact h) hq
  -- the gradient by the bias
  let B : Nat → R := fun j => seqSum cnt fun u => D u j
  have e5 : Shared.sumRows cnt p.n (.mem (p.d + lo * p.n)) (gb i) m4 = .ok (store m4 (gb i) (tab [p.n] (fn1 B)).data) := by
    refine Shared.C166_sum_rows D (fun m' hm' u hu j hj => ?_) (by omega)
    have := Shared.row_le (n := p.n) hu
    simp only [Net.Sep] at bd
    show StdNN.rd m' (p.d + lo * p.n + (u * p.n + j)) = _
    rw [StdNN.rd, hm' _ (by omega), k4 p.d (N * p.n) wd _ (by omega), d3 u hu j hj]
  have lB : (tab [p.n] (fn1 B)).data.length = p.n := by simp
  have z5 : gb i + (tab [p.n] (fn1 B)).data.length ≤ m4.length := by rw [lB]; omega
  have k5 : ∀ A a, Net.Sep (gb i, p.n) (A, a) → ∀ q, A ≤ q ∧ q < A + a →
      (store m4 (gb i) (tab [p.n] (fn1 B)).data)[q]? = m4[q]? := fun A a h q hq =>
    keep_store z5 (by rw [lB]; exact h) hq
  refine ⟨store m4 (gb i) (tab [p.n] (fn1 B)).data, ?_, fun u hu j hj => ?_, fun u hu j hj => ?_, fun q hq j hj => ?_, fun j hj => ?_⟩
  · rw [Regr.calls, effect_append, e1, Outcome.ok_bind]
    show (Shared.xentropyGrad cnt p.n (tab [cnt] (fn1 fun _ => p.c)).data (.mem (p.t + lo * p.n)) (.mem (p.y + lo * p.n))
      (p.g + lo * p.n) m1 >>= fun m => Shared.softmaxGrad p.junk cnt p.n (.mem (p.g + lo * p.n)) (.mem (p.y + lo * p.n))
      (p.d + lo * p.n) m >>= fun m => Shared.mtm [cnt, p.l] [cnt, p.n] [p.l, p.n] (.mem (p.x + lo * p.l))
      (.mem (p.d + lo * p.n)) (gw i) m >>= fun m => Shared.sumRows cnt p.n (.mem (p.d + lo * p.n)) (gb i) m >>= fun m =>
      .ok m) = _
    rw [e2, Outcome.ok_bind]
    refine (congrArg (· >>= _) e3).trans ?_
    rw [Outcome.ok_bind, e4, Outcome.ok_bind, e5, Outcome.ok_bind]
  · have := Shared.row_le (n := p.n) hu
    rw [k5 p.y (N * p.n) by' _ (by omega), k4 p.y (N * p.n) wy _ (by omega), y3 u hu j hj]
  · have := Shared.row_le (n := p.n) hu
    rw [k5 p.d (N * p.n) bd _ (by omega), k4 p.d (N * p.n) wd _ (by omega), d3 u hu j hj]
  · have := Shared.row_le (n := p.n) hq
    rw [k5 (gw i) (p.l * p.n) wb.symm _ (by omega), store_getElem? z4, if_pos (by rw [lW]; omega), Nat.add_sub_cancel_left,
      take_tab_get W hq hj]
  · have h := tab_getElem? (fn1 B) (v1 hj)
    rw [store_getElem? z5, if_pos (by rw [lB]; omega), Nat.add_sub_cancel_left]
    simpa using h

/-! ## Several threads -/

/-- The cells a thread writes. -/
def Regr.mine (p : Regr R) (lo cnt gw gb : Nat) : List (Nat × Nat) :=
  [p.s, p.y, p.g, p.d].map (fun o => (o + lo * p.n, cnt * p.n)) ++ p.own gw gb

/-- The cells a thread reads. -/
def Regr.theirs (p : Regr R) (lo cnt : Nat) : List (Nat × Nat) :=
  [(p.x + lo * p.l, cnt * p.l), (p.t + lo * p.n, cnt * p.n), (p.w, p.l * p.n), (p.b, p.n)] ++
    [p.s, p.y, p.g, p.d].map fun o => (o + lo * p.n, cnt * p.n)

omit [Neg R] in
theorem regr_writes {p : Regr R} {lo cnt gw gb q : Nat} (h : (p.calls lo cnt gw gb).writes q) :
    ∃ o ∈ p.mine lo cnt gw gb, block o.1 o.2 q := by
  rw [Regr.calls, Thread.writes_append, net_writes [] p.net _ _ _ _ _ fun _ _ => 0] at h
  simp only [Regr.net, Net.values, Stage.dst, Stage.width, List.mem_cons, List.not_mem_nil, or_false, exists_eq_or_imp,
    exists_eq_left, Thread.writes, Call.writes, Call.out] at h
  simp only [Regr.mine, Regr.own, List.map_cons, List.map_nil, List.mem_append, List.mem_cons, List.not_mem_nil, or_false,
    or_assoc, exists_eq_or_imp, exists_eq_left]
  have e : [p.l, p.n].prod = p.l * p.n := by simp
  rw [e] at h
  tauto

omit [Neg R] in
theorem regr_reads {p : Regr R} {lo cnt gw gb q : Nat} (h : (p.calls lo cnt gw gb).reads q) :
    ∃ o ∈ p.theirs lo cnt, block o.1 o.2 q := by
  rw [Regr.calls, Thread.reads_append] at h
  simp only [Regr.theirs, List.map_cons, List.map_nil, List.mem_append, List.mem_cons, List.not_mem_nil, or_false,
    or_assoc, exists_eq_or_imp, exists_eq_left]
  have e1 : [cnt, p.l].prod = cnt * p.l := by simp
  have e2 : [cnt, p.n].prod = cnt * p.n := by simp
  rcases h with h | h
  · have h := net_reads [] (fun _ _ => 0) h
    simp only [Regr.net, Net.values, Net.params, Stage.params, Stage.dst, Stage.width, List.mem_append, List.mem_cons,
      List.not_mem_nil, or_false, exists_eq_or_imp, exists_eq_left] at h
    tauto
  · simp only [Thread.reads, List.mem_cons, List.not_mem_nil, or_false, exists_eq_or_imp, exists_eq_left, Call.reads,
      Src.uses, e1, e2] at h
    tauto

omit [Neg R] in
theorem regr_apart {p : Regr R} {N L : Nat} {gw gb lo cnt : ι → Nat} (laid : p.Laid N L gw gb) (shares : Shares N lo cnt) :
    Apart fun i => p.calls (lo i) (cnt i) (gw i) (gb i) := by
  have key : ∀ i j, i ≠ j → ∀ o ∈ p.mine (lo i) (cnt i) (gw i) (gb i),
      ∀ o' ∈ p.theirs (lo j) (cnt j) ++ p.mine (lo j) (cnt j) (gw j) (gb j), Net.Sep o o' := by
    intro i j hij o ho o' ho'
    -- where an input or result of thread `j` lies
    have whole : ∀ a b, (a, N * b) ∈ p.inputs N ++ p.outs N → ∀ A, Net.Sep A (a, N * b) →
        Net.Sep A (a + lo j * b, cnt j * b) := by
      intro a b _ A h
      have := share_le (shares.inside j) b
      exact sep_sub h le_rfl le_rfl (by omega) (by omega)
    have cases' : (∃ a ∈ [p.s, p.y, p.g, p.d], o' = (a + lo j * p.n, cnt j * p.n)) ∨ o' ∈ p.own (gw j) (gb j) ∨
        ∃ w ∈ p.inputs N, ∀ A, Net.Sep A w → Net.Sep A o' := by
      simp only [Regr.theirs, Regr.mine, List.mem_append, List.mem_map] at ho'
      rcases ho' with (h | ⟨a, ha, rfl⟩) | ⟨a, ha, rfl⟩ | h
      · right; right
        simp only [List.mem_cons, List.not_mem_nil, or_false] at h
        rcases h with rfl | rfl | rfl | rfl
        · exact ⟨(p.x, N * p.l), by simp [Regr.inputs], whole p.x p.l (by simp [Regr.inputs])⟩
        · exact ⟨(p.t, N * p.n), by simp [Regr.inputs], whole p.t p.n (by simp [Regr.inputs])⟩
        · exact ⟨(p.w, p.l * p.n), by simp [Regr.inputs], fun A h => h⟩
        · exact ⟨(p.b, p.n), by simp [Regr.inputs], fun A h => h⟩
      · exact .inl ⟨a, ha, rfl⟩
      · exact .inl ⟨a, ha, rfl⟩
      · exact .inr (.inl h)
    have si := share_le (shares.inside i) p.n
    have sj := share_le (shares.inside j) p.n
    simp only [Regr.mine, List.mem_append, List.mem_map] at ho
    rcases ho with ⟨a, ha, rfl⟩ | ho
    · have ha' : (a, N * p.n) ∈ p.outs N := List.mem_map_of_mem ha
      have shrink : ∀ A, Net.Sep (a, N * p.n) A → Net.Sep (a + lo i * p.n, cnt i * p.n) A := fun A h =>
        sep_sub h (by omega) (by omega) le_rfl le_rfl
      rcases cases' with ⟨b, hb, rfl⟩ | h | ⟨w, hw, h⟩
      · by_cases e : a = b
        · subst e
          simp only [Net.Sep]
          rcases shares.apart i j hij with h | h
          · have := Nat.mul_le_mul_right p.n h
            rw [Nat.add_mul] at this
            omega
          · have := Nat.mul_le_mul_right p.n h
            rw [Nat.add_mul] at this
            omega
        · have hb' : (b, N * p.n) ∈ p.outs N := List.mem_map_of_mem hb
          have : Std.Symm Net.Sep := ⟨fun _ _ h => h.symm⟩
          have h := laid.outsApart.forall ha' hb' (fun c => e (Prod.mk.inj c).1)
          exact sep_sub h (by omega) (by omega) (by omega) (by omega)
      · exact shrink _ (laid.ownOuts j o' h _ ha').symm
      · exact shrink _ (h _ (laid.outsInputs _ ha' w hw))
    · rcases cases' with ⟨b, hb, rfl⟩ | h | ⟨w, hw, h⟩
      · exact sep_sub (laid.ownOuts i o ho (b, N * p.n) (List.mem_map_of_mem hb)) le_rfl le_rfl (by omega) (by omega)
      · exact laid.ownApart i j hij o ho o' h
      · exact h _ (laid.ownInputs i o ho w hw)
  have off : ∀ {a b : Nat × Nat} {q : Nat}, Net.Sep a b → block a.1 a.2 q → ¬ block b.1 b.2 q := by
    intro a b q h h1 h2
    have h1 : a.1 ≤ q ∧ q < a.1 + a.2 := h1
    have h2 : b.1 ≤ q ∧ q < b.1 + b.2 := h2
    simp only [Net.Sep] at h
    omega
  intro i j hij q hq
  obtain ⟨o, ho, hb⟩ := regr_writes hq
  refine ⟨fun h => ?_, fun h => ?_⟩
  · obtain ⟨o', ho', hb'⟩ := regr_reads h
    exact off (key i j hij o ho o' (List.mem_append_left _ ho')) hb hb'
  · obtain ⟨o', ho', hb'⟩ := regr_writes h
    exact off (key i j hij o ho o' (List.mem_append_right _ ho')) hb hb'

omit [One R] [Sub R] [Mul R] [Neg R] [Div R] [LT R] [DecidableLT R] in
theorem regr_fits {p : Regr R} {N L : Nat} {gw gb : ι → Nat} {lo cnt : Nat} (laid : p.Laid N L gw gb) (i : ι)
    (hN : lo + cnt ≤ N) : ∀ c ∈ p.calls lo cnt (gw i) (gb i), c.Fits L := by
  intro c hc
  have nl := share_le hN p.l
  have nn := share_le hN p.n
  have ix := laid.inputs (p.x, N * p.l) (by simp [Regr.inputs])
  have it := laid.inputs (p.t, N * p.n) (by simp [Regr.inputs])
  have iy := laid.outs (p.y, N * p.n) (by simp [Regr.outs])
  have ig := laid.outs (p.g, N * p.n) (by simp [Regr.outs])
  have id' := laid.outs (p.d, N * p.n) (by simp [Regr.outs])
  have iw := laid.own i (gw i, p.l * p.n) (by simp [Regr.own])
  have ib := laid.own i (gb i, p.n) (by simp [Regr.own])
  have e1 : [cnt, p.l].prod = cnt * p.l := by simp
  have e2 : [cnt, p.n].prod = cnt * p.n := by simp
  have e3 : [p.l, p.n].prod = p.l * p.n := by simp
  simp only at ix it iy ig id' iw ib
  rcases List.mem_append.mp hc with hc | hc
  · exact (net_fits hN (regr_laid laid)).1 c hc
  · simp only [List.mem_cons, List.not_mem_nil, or_false] at hc
    rcases hc with rfl | rfl | rfl | rfl
    · refine ⟨⟨?_, trivial⟩, by simp, ?_, ?_⟩
      · show p.g + lo * p.n + cnt * p.n ≤ L
        omega
      · show p.t + lo * p.n + cnt * p.n ≤ L
        omega
      · show p.y + lo * p.n + cnt * p.n ≤ L
        omega
    · refine ⟨⟨?_, trivial⟩, ?_, ?_⟩
      · show p.d + lo * p.n + cnt * p.n ≤ L
        omega
      · show p.g + lo * p.n + cnt * p.n ≤ L
        omega
      · show p.y + lo * p.n + cnt * p.n ≤ L
        omega
    · refine ⟨⟨?_, trivial⟩, ?_, ?_, p.l, cnt, p.n, rfl, rfl, rfl⟩
      · show gw i + [p.l, p.n].prod ≤ L
        omega
      · show p.x + lo * p.l + [cnt, p.l].prod ≤ L
        omega
      · show p.d + lo * p.n + [cnt, p.n].prod ≤ L
        omega
    · refine ⟨⟨?_, trivial⟩, ?_⟩
      · show gb i + p.n ≤ L
        omega
      · show p.d + lo * p.n + cnt * p.n ≤ L
        omega

variable [DecidableEq ι]

/-- **C172.** Threads that make a training step's predictions and gradients, each for its share of the examples: no race, none
ends but by returning; once all have ended, the predictions of all examples are there, and the buffers of every thread hold the
gradients by weights and bias of its share, in any arithmetic. -/
theorem C172_shares {p : Regr R} {N : Nat} {mem : List R} {gw gb lo cnt : ι → Nat} (laid : p.Laid N mem.length gw gb)
    (shares : Shares N lo cnt) (turns : List ι) {c : (ι → Prog R Unit) × List R}
    (hc : c = play turns (fun i => (p.calls (lo i) (cnt i) (gw i) (gb i)).prog, mem)) :
    (∀ i j, i ≠ j → ∀ q w w', (c.1 i).access = some (q, w) → (c.1 j).access = some (q, w') → w = false ∧ w' = false) ∧
    (∀ i o, c.1 i = .halt o → o = .ok ()) ∧
    ∀ i, (p.calls (lo i) (cnt i) (gw i) (gb i)).prog.cost mem ≤ turns.count i →
      c.1 i = .halt (.ok ()) ∧
      (∀ u, lo i ≤ u → u < lo i + cnt i → ∀ j < p.n, c.2[p.y + (u * p.n + j)]? = some (p.pred mem u j)) ∧
      (∀ q < p.l, ∀ j < p.n, c.2[gw i + (q * p.n + j)]? =
        some (seqSum (cnt i) fun u => p.input mem (lo i + u) q * p.delta mem (lo i + u) j)) ∧
      ∀ j < p.n, c.2[gb i + j]? = some (seqSum (cnt i) fun u => p.delta mem (lo i + u) j) := by
  have alone := fun i => regr_effect laid i (shares.inside i)
  choose M a1 a2 a3 a4 a5 using alone
  obtain ⟨h1, h2, h3, -, -⟩ := C168_threads (fun i c hc => (regr_fits laid i (shares.inside i) c hc).1) (regr_apart laid shares) a1
    turns hc
  refine ⟨h1, h2, fun i hi => ?_⟩
  obtain ⟨e, w⟩ := h3 i hi
  have wr : ∀ call ∈ p.calls (lo i) (cnt i) (gw i) (gb i), ∀ q, block call.out.1 call.out.2 q → c.2[q]? = (M i)[q]? :=
    fun call hcall q hq => w q ⟨call, hcall, hq⟩
  refine ⟨e, fun u h4 h5 j hj => ?_, fun q hq j hj => ?_, fun j hj => ?_⟩
  · obtain ⟨d, rfl⟩ := Nat.exists_eq_add_of_le h4
    have := Shared.row_le (n := p.n) (show d < cnt i by omega)
    rw [← share_at, wr (.softmax p.exp p.eps (cnt i) p.n (.mem (p.s + lo i * p.n)) (p.y + lo i * p.n)) ?_ _ ?_,
      a2 i d (by omega) j hj]
    · simp [Regr.calls, Regr.net, Net.calls, Stage.calls, Stage.dst, Stage.width]
    · show p.y + lo i * p.n ≤ _ ∧ _ < p.y + lo i * p.n + cnt i * p.n
      omega
  · have := Shared.row_le (n := p.n) hq
    rw [wr (.mtm [cnt i, p.l] [cnt i, p.n] [p.l, p.n] (.mem (p.x + lo i * p.l)) (.mem (p.d + lo i * p.n)) (gw i)) ?_ _ ?_,
      a4 i q hq j hj]
    · simp [Regr.calls]
    · have e : [p.l, p.n].prod = p.l * p.n := by simp
      show gw i ≤ _ ∧ _ < gw i + [p.l, p.n].prod
      omega
  · rw [wr (.sumRows (cnt i) p.n (.mem (p.d + lo i * p.n)) (gb i)) ?_ _ ?_, a5 i j hj]
    · simp [Regr.calls]
    · show gb i ≤ _ ∧ _ < gb i + p.n
      omega

/-- How many elements a thread reads and writes for `cnt` examples. -/
def Regr.accesses (p : Regr R) (cnt : Nat) : Nat :=
  cnt * (p.n * (12 + 4 * p.n + 5 * p.l) + p.l) + p.l * p.n + p.n

/-- **C172.** A thread has ended as soon as it has had as many turns as it has elements to read and write: a number per example
and, once, the sizes of weights and bias. -/
theorem C172_turns {p : Regr R} {N : Nat} {mem : List R} {gw gb lo cnt : ι → Nat} (laid : p.Laid N mem.length gw gb)
    (shares : Shares N lo cnt) (turns : List ι) (i : ι) :
    (p.calls (lo i) (cnt i) (gw i) (gb i)).prog.cost mem = p.accesses (cnt i) ∧
    ((play turns (fun i => (p.calls (lo i) (cnt i) (gw i) (gb i)).prog, mem)).1 i = .halt (.ok ()) ↔
      p.accesses (cnt i) ≤ turns.count i) := by
  have F := fun i => regr_fits laid i (shares.inside i)
  have len : (Thread.accesses (p.calls (lo i) (cnt i) (gw i) (gb i))).length = p.accesses (cnt i) := by
    have h := (net_fits (shares.inside i) (regr_laid laid)).2
    have C := fun {m l n x y z} => C169_counts (R := R) (m := m) (l := l) (n := n) (x := x) (y := y) (z := z)
    rw [Regr.calls]
    simp only [Thread.accesses, List.flatMap_append, List.length_append, List.flatMap_cons, List.flatMap_nil, List.append_nil] at h ⊢
    rw [h, (C (l := 0)).2.2.2.2.2.2.1, (C (l := 0)).2.2.2.2.2.2.2.1, C.2.2.2.2.2.2.2.2.2.2.2.1, (C (l := 0) (y := 0)).2.2.2.2.2.1]
    simp only [Regr.net, Net.accesses, Stage.accesses, Stage.width, Option.isSome_none, Bool.false_eq_true, if_false, Regr.accesses]
    ring
  refine ⟨by rw [(C169_accesses (F i) rfl).2.1, len], ?_⟩
  have := (C169_races F turns rfl i).2.2.1
  rwa [len] at this

end

/-! ## Exact arithmetic -/

section
variable {ι : Type}

theorem shares_sum [Fintype ι] {N : Nat} {lo cnt : ι → Nat} (shares : Shares N lo cnt) (f : Nat → ℝ) :
    ∑ i, ∑ u ∈ Finset.range (cnt i), f (lo i + u) = ∑ u ∈ Finset.range N, f u := by
  have e : Finset.range N = Finset.univ.biUnion fun i => Finset.Ico (lo i) (lo i + cnt i) := by
    ext u
    simp only [Finset.mem_range, Finset.mem_biUnion, Finset.mem_univ, true_and, Finset.mem_Ico]
    refine ⟨shares.all u, fun ⟨i, hi⟩ => ?_⟩
    have := shares.inside i
    omega
  rw [e, Finset.sum_biUnion]
  · refine Finset.sum_congr rfl fun i _ => ?_
    rw [Finset.sum_Ico_eq_sum_range, Nat.add_sub_cancel_left]
  · intro i _ j _ hij
    refine Finset.disjoint_left.2 fun u hu hv => ?_
    rw [Finset.mem_Ico] at hu hv
    have := shares.apart i j hij
    omega

theorem regr_pred {p : Regr ℝ} (he : p.exp = Real.exp) (mem : List ℝ) (u j : Nat) :
    p.pred mem u j = prob p.eps p.l p.n (p.input mem) (fun q j => cell mem (p.w + (q * p.n + j))) (fun j => cell mem (p.b + j)) u j := by
  have e : ∀ z : Nat → ℝ, 1 / (∑ k ∈ Finset.range p.n, Real.exp (z k - z j)) = Spec.softmax p.n z j := by
    intro z
    simp only [Spec.softmax, Real.exp_sub, ← Finset.sum_div, one_div_div]
  have m : ∀ a b : ℝ, stdMax a b = max a b := by
    intro a b
    unfold stdMax
    split
    · rw [max_eq_right (le_of_lt ‹_›)]
    · rw [max_eq_left (not_lt.mp ‹_›)]
  simp only [Regr.pred, prob, he, seqSum_eq_sum, m]
  rw [e]
  rfl

theorem regr_delta {p : Regr ℝ} (he : p.exp = Real.exp) {mem : List ℝ} {u : Nat}
    (hT : ∑ j ∈ Finset.range p.n, p.target mem u j = 1) {j : Nat} (hj : j < p.n) :
    p.delta mem u j = p.c * (p.pred mem u j - p.target mem u j) := by
  have pos : ∀ k < p.n, p.pred mem u k ≠ 0 := fun k hk => by
    rw [regr_pred he]
    exact (prob_pos _ _ _ _ hk).ne'
  have t : ∀ k ∈ Finset.range p.n, p.c * (-p.target mem u k / p.pred mem u k) *
      (if k = j then p.pred mem u k * (1 - p.pred mem u k) else -p.pred mem u k * p.pred mem u j) =
      p.c * p.pred mem u j * p.target mem u k - if k = j then p.c * p.target mem u k else 0 := by
    intro k hk
    have := pos k (Finset.mem_range.1 hk)
    by_cases c : k = j
    · subst c
      rw [if_pos rfl, if_pos rfl]
      field_simp
      ring
    · rw [if_neg c, if_neg c]
      field_simp
      ring
  rw [Regr.delta, seqSum_eq_sum, Finset.sum_congr rfl t, Finset.sum_sub_distrib, ← Finset.mul_sum, hT,
    Finset.sum_ite_eq' (Finset.range p.n) j, if_pos (Finset.mem_range.2 hj)]
  ring

/-- **C172.** In exact arithmetic, for targets that sum to 1: added up over the threads, the buffers are the gradients of the
whole batch; with `1 / N` for every example and no prediction clipped they are the derivative of the mean loss. -/
theorem C172_gradient [DecidableEq ι] [Fintype ι] {p : Regr ℝ} (he : p.exp = Real.exp) {N : Nat} {mem : List ℝ}
    {gw gb lo cnt : ι → Nat} (laid : p.Laid N mem.length gw gb) (shares : Shares N lo cnt) {turns : List ι}
    (done : ∀ i, p.accesses (cnt i) ≤ turns.count i) {m : List ℝ}
    (hm : m = (play turns (fun i => (p.calls (lo i) (cnt i) (gw i) (gb i)).prog, mem)).2)
    {X T W : Nat → Nat → ℝ} {B : Nat → ℝ} (hX : X = p.input mem) (hT : T = p.target mem)
    (hW : W = fun q j => cell mem (p.w + (q * p.n + j))) (hB : B = fun j => cell mem (p.b + j))
    (one : ∀ u < N, ∑ j ∈ Finset.range p.n, T u j = 1) :
    (∀ q < p.l, ∀ j < p.n, ∑ i, cell m (gw i + (q * p.n + j)) =
      ∑ u ∈ Finset.range N, X u q * (p.c * (prob p.eps p.l p.n X W B u j - T u j))) ∧
    (∀ j < p.n, ∑ i, cell m (gb i + j) = ∑ u ∈ Finset.range N, p.c * (prob p.eps p.l p.n X W B u j - T u j)) ∧
    (p.c = 1 / N → (∀ u < N, ∀ j < p.n, p.eps < prob p.eps p.l p.n X W B u j) → ∀ (DW : Nat → Nat → ℝ) (DB : Nat → ℝ),
      HasDerivAt (fun t : ℝ => meanLoss p.eps N p.l p.n X T (fun q j => W q j + t * DW q j) (fun j => B j + t * DB j))
        (∑ q ∈ Finset.range p.l, ∑ j ∈ Finset.range p.n, (∑ i, cell m (gw i + (q * p.n + j))) * DW q j +
          ∑ j ∈ Finset.range p.n, (∑ i, cell m (gb i + j)) * DB j) 0) := by
  subst hX hT hW hB hm
  obtain ⟨-, -, h3⟩ := C172_shares laid shares turns rfl
  have get := fun i => h3 i (by rw [(C172_turns laid shares turns i).1]; exact done i)
  have delta : ∀ u < N, ∀ j < p.n, p.delta mem u j = p.c * (prob p.eps p.l p.n (p.input mem)
      (fun q j => cell mem (p.w + (q * p.n + j))) (fun j => cell mem (p.b + j)) u j - p.target mem u j) := by
    intro u hu j hj
    rw [regr_delta he (one u hu) hj, regr_pred he]
  have w : ∀ q < p.l, ∀ j < p.n,
      ∑ i, cell (play turns (fun i => (p.calls (lo i) (cnt i) (gw i) (gb i)).prog, mem)).2 (gw i + (q * p.n + j)) =
        ∑ u ∈ Finset.range N, p.input mem u q * (p.c * (prob p.eps p.l p.n (p.input mem)
      (fun q j => cell mem (p.w + (q * p.n + j))) (fun j => cell mem (p.b + j)) u j - p.target mem u j)) := by
    intro q hq j hj
    rw [← shares_sum shares]
    refine Finset.sum_congr rfl fun i _ => ?_
    rw [cell, (get i).2.2.1 q hq j hj, Option.getD_some, seqSum_eq_sum]
    refine Finset.sum_congr rfl fun u hu => ?_
    rw [delta _ (by have := shares.inside i; have := Finset.mem_range.1 hu; omega) j hj]
  have b : ∀ j < p.n,
      ∑ i, cell (play turns (fun i => (p.calls (lo i) (cnt i) (gw i) (gb i)).prog, mem)).2 (gb i + j) =
        ∑ u ∈ Finset.range N, p.c * (prob p.eps p.l p.n (p.input mem)
      (fun q j => cell mem (p.w + (q * p.n + j))) (fun j => cell mem (p.b + j)) u j - p.target mem u j) := by
    intro j hj
    rw [← shares_sum shares]
    refine Finset.sum_congr rfl fun i _ => ?_
    rw [cell, (get i).2.2.2 j hj, Option.getD_some, seqSum_eq_sum]
    refine Finset.sum_congr rfl fun u hu => ?_
    rw [delta _ (by have := shares.inside i; have := Finset.mem_range.1 hu; omega) j hj]
  refine ⟨w, b, fun hc clip DW DB => ?_⟩
  have d := C97_gradient (p.input mem) (p.target mem) (fun q j => cell mem (p.w + (q * p.n + j))) (fun j => cell mem (p.b + j))
    one clip DW DB
  refine d.congr_deriv ?_
  congr 1
  · refine Finset.sum_congr rfl fun q hq => Finset.sum_congr rfl fun j hj => ?_
    rw [w q (Finset.mem_range.1 hq) j (Finset.mem_range.1 hj), hc]
  · refine Finset.sum_congr rfl fun j hj => ?_
    rw [b j (Finset.mem_range.1 hj), hc]

end

/-! ## An example -/

/-- Two inputs of width 1, two classes: inputs in cells 0 and 1, targets in 2 to 5, weights in 6 and 7, bias in 8 and 9, scores,
predictions and gradients in 10 to 25; two threads, with buffers in 26 to 29 and 30 to 33. -/
noncomputable def exRegr : Regr ℝ := ⟨1, 2, 0, 2, 6, 8, 10, 14, 18, 22, Real.exp, 1 / 8, 1 / (2 : Nat), fun _ => 9⟩

/-- The memory of the example. -/
noncomputable def exRegrMem : List ℝ := [3, -4, 1, 0, 0, 1, 0, 0, 0, 0] ++ List.replicate 24 7

theorem exRegr_laid : exRegr.Laid 2 exRegrMem.length (fun i : Fin 2 => if i = 0 then 26 else 30) (fun i => if i = 0 then 28 else 32) := by
  have e : exRegrMem.length = 34 := rfl
  rw [e]
  constructor <;> simp [Regr.inputs, Regr.outs, Regr.own, exRegr, Net.Sep, Fin.forall_fin_two]

theorem exRegr_shares : Shares 2 (fun i : Fin 2 => if i = 0 then 1 else 0) (fun _ => 1) := ⟨by decide, by decide, by decide⟩

example : exRegr.exp = Real.exp ∧ exRegr.Laid 2 exRegrMem.length (fun i : Fin 2 => if i = 0 then 26 else 30) (fun i => if i = 0 then 28 else 32) ∧
    Shares 2 (fun i : Fin 2 => if i = 0 then 1 else 0) (fun _ => 1) ∧
    (∀ i : Fin 2, exRegr.accesses 1 ≤ ((List.replicate 60 [(0 : Fin 2), 1]).flatten).count i) ∧
    (∀ u < 2, ∑ j ∈ Finset.range exRegr.n, exRegr.target exRegrMem u j = 1) ∧ exRegr.c = 1 / (2 : Nat) ∧
    ∀ u < 2, ∀ j < exRegr.n, exRegr.eps < prob exRegr.eps exRegr.l exRegr.n (exRegr.input exRegrMem)
      (fun q j => cell exRegrMem (exRegr.w + (q * exRegr.n + j))) (fun j => cell exRegrMem (exRegr.b + j)) u j := by
  refine ⟨rfl, exRegr_laid, exRegr_shares, ?_, ?_, rfl, ?_⟩
  · have : exRegr.accesses 1 = 55 := rfl
    rw [this]
    decide
  · intro u hu
    have : exRegr.n = 2 := rfl
    rw [this, Finset.sum_range_succ, Finset.sum_range_one]
    interval_cases u <;> simp [Regr.target, exRegr, exRegrMem, cell]
  · intro u hu j hj
    have hj : j < 2 := hj
    refine lt_max_iff.2 (.inr ?_)
    have z : ∀ k < 2, logit exRegr.l (exRegr.input exRegrMem) (fun q j => cell exRegrMem (exRegr.w + (q * exRegr.n + j)))
        (fun j => cell exRegrMem (exRegr.b + j)) u k = 0 := by
      intro k hk
      interval_cases k <;> simp [logit, exRegr, exRegrMem, cell]
    have e : Finset.range exRegr.n = Finset.range 2 := rfl
    rw [Spec.softmax, e, Finset.sum_range_succ, Finset.sum_range_one, z j hj, z 0 (by omega), z 1 (by omega), Real.exp_zero]
    show (1 / 8 : ℝ) < _
    norm_num

end Prog
end StdNN
