import Verif.Props.Access
/-!
# A network evaluated by several threads, each on its share of the examples

The examples of a batch are the rows of a matrix. Dense layers (a product, a bias and an activation in place, as
layers/dense.hpp does) and `softmax` are applied one after another, each from one buffer to the next. A thread makes the same
calls as one thread would, on its own rows only.
-/
namespace StdNN
open Outcome Spec IntTy
variable {R : Type}
namespace Prog

/-! ## Specification -/

/-- The number in a cell of the memory. -/
def cell [Zero R] (mem : List R) (q : Nat) : R := (mem[q]?).getD 0

/-- A step of a network: where its weights and its bias begin, its width, its activation, and where its results go. -/
inductive Stage (R : Type) where
  | dense (n w b : Nat) (act : Option (R → R)) (z : Nat)
  | softmax (exp : R → R) (eps : R) (z : Nat)

namespace Stage

/-- How many results an example has after the step, if it has `l` before. -/
def width (l : Nat) : Stage R → Nat
  | dense n _ _ _ _ => n
  | softmax _ _ _ => l

/-- Where the results begin. -/
def dst : Stage R → Nat
  | dense _ _ _ _ z => z
  | softmax _ _ z => z

/-- Where the parameters begin and how many there are. -/
def params (l : Nat) : Stage R → List (Nat × Nat)
  | dense n w b _ _ => [(w, l * n), (b, n)]
  | softmax _ _ _ => []

/-- The calls of the step for `cnt` examples from example `lo` on; the inputs of example 0 begin at `x`. -/
def calls [Add R] (lo cnt x l : Nat) : Stage R → Thread R
  | dense n w b act z =>
    [.mm [cnt, l] [l, n] [cnt, n] (.mem (x + lo * l)) (.mem w) (z + lo * n),
      .biasAt (· + ·) 1 [cnt, n] (.mem (z + lo * n)) (.mem b) (z + lo * n)] ++
      match act with
      | none => []
      | some f => [.unary f (cnt * n) (.mem (z + lo * n)) (z + lo * n)]
  | softmax exp eps z => [.softmax exp eps cnt l (.mem (x + lo * l)) (z + lo * l)]

/-- What the step makes of one example. -/
def row [Zero R] [One R] [Add R] [Sub R] [Mul R] [Div R] [LT R] [DecidableLT R] (mem : List R) (l : Nat) :
    Stage R → (Nat → R) → Nat → R
  | dense n w b act _, v, j => (act.getD id) ((seqSum l fun q => v q * cell mem (w + (q * n + j))) + cell mem (b + j))
  | softmax exp eps _, v, j => stdMax eps (1 / seqSum l fun k => exp (v k - v j))

/-- How many elements are read and written by the step for `cnt` examples. -/
def accesses (cnt l : Nat) : Stage R → Nat
  | dense n _ _ act _ => cnt * n + cnt * l + 3 * (cnt * l * n) + 3 * (cnt * n) + if act.isSome then 2 * (cnt * n) else 0
  | softmax _ _ _ => cnt * l * (l + 2)

end Stage

/-- A network: steps, each applied to the results of the one before. -/
abbrev Net (R : Type) := List (Stage R)

namespace Net

/-- How many results an example has in the end. -/
def width (l : Nat) (net : Net R) : Nat := net.foldl (fun l s => s.width l) l

/-- Where the results of the last step begin. -/
def dst (x : Nat) (net : Net R) : Nat := net.foldl (fun _ s => s.dst) x

/-- The calls for `cnt` examples from example `lo` on. -/
def calls [Add R] (lo cnt : Nat) : Nat → Nat → Net R → Thread R
  | _, _, [] => []
  | x, l, s :: net => s.calls lo cnt x l ++ calls lo cnt s.dst (s.width l) net

/-- Where the results of the steps go, for `N` examples. -/
def outs (N : Nat) : Nat → Net R → List (Nat × Nat)
  | _, [] => []
  | l, s :: net => (s.dst, N * s.width l) :: outs N (s.width l) net

/-- Where the parameters are. -/
def params : Nat → Net R → List (Nat × Nat)
  | _, [] => []
  | l, s :: net => s.params l ++ params (s.width l) net

/-- How many elements are read and written for `cnt` examples. -/
def accesses (cnt : Nat) : Nat → Net R → Nat
  | _, [] => 0
  | l, s :: net => s.accesses cnt l + accesses cnt (s.width l) net

/-- What the network makes of one example. -/
def row [Zero R] [One R] [Add R] [Sub R] [Mul R] [Div R] [LT R] [DecidableLT R] (mem : List R) :
    Nat → Net R → (Nat → R) → Nat → R
  | _, [], v => v
  | l, s :: net, v => row mem (s.width l) net (s.row mem l v)

/-- Two stretches of memory have no cell in common. -/
def Sep (a b : Nat × Nat) : Prop := a.1 + a.2 ≤ b.1 ∨ b.1 + b.2 ≤ a.1

/-- The network is laid out for `N` examples in a memory of `L` cells: everything is in the memory, and the results of every
step have cells of their own. -/
structure Laid (N L x l : Nat) (net : Net R) : Prop where
  input : x + N * l ≤ L
  parameters : ∀ p ∈ params l net, p.1 + p.2 ≤ L
  results : ∀ o ∈ outs N l net, o.1 + o.2 ≤ L
  offInput : ∀ o ∈ outs N l net, Sep o (x, N * l)
  offParams : ∀ o ∈ outs N l net, ∀ p ∈ params l net, Sep o p
  offResults : (outs N l net).Pairwise Sep

end Net

/-! ## Calls whose inputs lie in the memory of the output -/

/-- Stores row by row, where each may rely on everything not yet written. -/
theorem rows_store [Zero R] {rows n z : Nat} {val : Nat → Nat → R} {m : List R} (hz : z + rows * n ≤ m.length)
    {body : Nat → Nat → List R → Outcome (List R)}
    (hb : ∀ i < rows, ∀ j < n, ∀ m' : List R, (∀ p, p < z ∨ z + (i * n + j) ≤ p → m'[p]? = m[p]?) →
      body i j m' = StdNN.wr m' (z + (i * n + j)) (val i j)) :
    forRange rows (fun i m => forRange n (fun j m => body i j m) m) m = .ok (store m z (tab [rows, n] (fn2 val)).data) := by
  have e : forRange rows (fun i m => forRange n (fun j m => body i j m) m) m =
      forRange rows (fun i m => forRange n (fun j m => (fun p m => body (p / n) (p % n) m) (i * n + j) m) m) m := by
    refine forRange_congr (fun i hi s => forRange_congr (fun j hj s => ?_) s) m
    have h1 : (i * n + j) / n = i := by
      rw [Nat.mul_comm, Nat.mul_add_div (by omega), Nat.div_eq_of_lt hj, Nat.add_zero]
    have h2 : (i * n + j) % n = j := by
      rw [Nat.mul_comm, Nat.mul_add_mod, Nat.mod_eq_of_lt hj]
    simp only [h1, h2]
  rw [e, forRange_nest rows n (fun p m => body (p / n) (p % n) m)]
  refine run_store (by simp) hz fun p hp m' _ hm => ?_
  have hn : 0 < n := by
    rcases Nat.eq_zero_or_pos n with h | h
    · subst h; simp at hp
    · exact h
  have hi : p / n < rows := by rwa [Nat.div_lt_iff_lt_mul hn]
  have hd := Nat.div_add_mod' p n
  refine ⟨val (p / n) (p % n), ?_, ?_⟩
  · have := tab_getElem? (fn2 val) (v2 hi (Nat.mod_lt p hn))
    have e : offset [rows, n] [p / n, p % n] = p := by simp [Nat.div_add_mod']
    rwa [e] at this
  · rw [hb _ hi _ (Nat.mod_lt p hn) m' (by rw [hd]; exact hm), hd]

theorem applyBias_inside [Zero R] {f : R → R → R} {p k b z : Nat} {dims : List Nat} {x : Src R} {m : List R}
    {X : List Nat → R} {B : Nat → R} (hp : dims[p]? = some k) (hx : x.Holds m z (tab dims X).data)
    (hy : ∀ j < k, m[b + j]? = some (B j)) (hb : b + k ≤ z ∨ z + dims.prod ≤ b) (hz : z + dims.prod ≤ m.length) :
    Shared.applyBias f p dims x (.mem b) z m = .ok (store m z (tab dims fun idx => f (X idx) (B (idx.getD p 0))).data) := by
  refine run_store (by simp) hz fun i hi m' _ hq =>
    ⟨f (X (unravel dims i)) (B ((unravel dims i).getD p 0)), by simp [tab, hi], ?_⟩
  have hlt : (unravel dims i).getD p 0 < k := valid_getD (valid_unravel hi) hp
  have e : (Src.mem b).rd m' ((unravel dims i).getD p 0) = .ok (B ((unravel dims i).getD p 0)) := by
    show StdNN.rd m' (b + (unravel dims i).getD p 0) = _
    rw [StdNN.rd, hq _ (by omega), hy _ hlt]
  rw [hx.rd (i := i) (by simpa using hi) hq, Outcome.ok_bind, e, Outcome.ok_bind]
  simp [tab]

theorem softmax_inside [Zero R] [One R] [Add R] [Sub R] [Div R] [LT R] [DecidableLT R] (exp : R → R) (eps : R)
    {rows n a z : Nat} {X : Nat → Nat → R} {m : List R} (hx : ∀ i < rows, ∀ j < n, m[a + (i * n + j)]? = some (X i j))
    (ha : a + rows * n ≤ z ∨ z + rows * n ≤ a) (hz : z + rows * n ≤ m.length) :
    Kernels.softmax exp eps n rows n (.mem a) z m =
      .ok (store m z (tab [rows, n] (fn2 fun i j => stdMax eps (1 / seqSum n fun k => exp (X i k - X i j)))).data) := by
  unfold Kernels.softmax Kernels.softmaxRow
  refine rows_store hz fun i hi j hj m' hm => ?_
  have rd : ∀ k < n, ((Src.mem a).shift (i * n)).rd m' k = .ok (X i k) := by
    intro k hk
    show StdNN.rd m' (a + i * n + k) = _
    have h1 := row_in (n := n) hi
    rw [StdNN.rd, hm _ (by omega), Nat.add_assoc, hx i hi k hk]
  rw [rd j hj, Outcome.ok_bind, forRange_sum (f := fun k => exp (X i k - X i j)), Outcome.ok_bind]
  · rw [Nat.add_assoc]
  · intro k hk s
    rw [rd k hk, Outcome.ok_bind]
    rfl

theorem take_tab [Zero R] {m : List R} {a r n : Nat} {X : Nat → Nat → R} (ha : a + r * n ≤ m.length)
    (h : ∀ i < r, ∀ j < n, m[a + (i * n + j)]? = some (X i j)) : (m.drop a).take (r * n) = (tab [r, n] (fn2 X)).data := by
  refine data_eq_tab (by simp; omega) fun idx hv => ?_
  match idx, hv with
  | [i, j], hv =>
    have hi := hv.1
    have hj := hv.2.1
    have e : offset [r, n] [i, j] = i * n + j := by simp
    have := row_in (n := n) hi
    rw [e, List.getElem?_take_of_lt (by omega), List.getElem?_drop, h i hi j hj]
    rfl

theorem take_tab_get [Zero R] {r n i j : Nat} (X : Nat → Nat → R) (hi : i < r) (hj : j < n) :
    (tab [r, n] (fn2 X)).data[i * n + j]? = some (X i j) := by
  have := tab_getElem? (fn2 X) (v2 hi hj)
  rwa [show offset [r, n] [i, j] = i * n + j by simp] at this

/-! ## One thread -/

theorem cell_some [Zero R] {mem : List R} {q : Nat} (h : q < mem.length) : mem[q]? = some (cell mem q) := by
  rw [cell, List.getElem?_eq_getElem h]
  rfl

section
variable [Add R]

omit [Add R] in
theorem Thread.writes_append {s t : Thread R} {q : Nat} : (s ++ t).writes q ↔ s.writes q ∨ t.writes q := by
  simp only [Thread.writes, List.mem_append, or_and_right, exists_or]

omit [Add R] in
theorem Thread.reads_append {s t : Thread R} {q : Nat} : (s ++ t).reads q ↔ s.reads q ∨ t.reads q := by
  simp only [Thread.reads, List.mem_append, or_and_right, exists_or]

theorem stage_writes (s : Stage R) (lo cnt x l q : Nat) :
    (s.calls lo cnt x l).writes q ↔ block (s.dst + lo * s.width l) (cnt * s.width l) q := by
  cases s with
  | softmax exp eps z => simp [Stage.calls, Thread.writes, Call.writes, Call.out, Stage.dst, Stage.width]
  | dense n w b act z => cases act <;> simp [Stage.calls, Thread.writes, Call.writes, Call.out, Stage.dst, Stage.width]

theorem stage_reads {s : Stage R} {lo cnt x l q : Nat} (h : (s.calls lo cnt x l).reads q) :
    block (x + lo * l) (cnt * l) q ∨ (∃ p ∈ s.params l, block p.1 p.2 q) ∨
      block (s.dst + lo * s.width l) (cnt * s.width l) q := by
  cases s with
  | softmax exp eps z =>
    left
    simpa [Stage.calls, Thread.reads, Call.reads, Src.uses, block] using h
  | dense n w b act z =>
    have h : (block (x + lo * l) (cnt * l) q ∨ block w (l * n) q) ∨
        block (z + lo * n) (cnt * n) q ∨ block b n q := by
      cases act with
      | none => simpa [Stage.calls, Thread.reads, Call.reads, Src.uses, block] using h
      | some f =>
        have h : (block (x + lo * l) (cnt * l) q ∨ block w (l * n) q) ∨
            (block (z + lo * n) (cnt * n) q ∨ block b n q) ∨ block (z + lo * n) (cnt * n) q := by
          simpa [Stage.calls, Thread.reads, Call.reads, Src.uses, block] using h
        rcases h with h | h | h
        · exact .inl h
        · exact .inr h
        · exact .inr (.inl h)
    rcases h with (h | h) | h | h
    · exact .inl h
    · exact .inr (.inl ⟨(w, l * n), by simp [Stage.params], h⟩)
    · exact .inr (.inr h)
    · exact .inr (.inl ⟨(b, n), by simp [Stage.params], h⟩)

theorem stage_ok {s : Stage R} {lo cnt x l L : Nat} (h : s.dst + lo * s.width l + cnt * s.width l ≤ L) :
    ∀ c ∈ s.calls lo cnt x l, c.OK L := by
  intro c hc
  cases s with
  | softmax exp eps z =>
    have : c = .softmax exp eps cnt l (.mem (x + lo * l)) (z + lo * l) := by simpa [Stage.calls] using hc
    subst this
    exact ⟨h, trivial⟩
  | dense n w b act z =>
    have e : [cnt, n].prod = cnt * n := by simp
    have h : z + lo * n + cnt * n ≤ L := h
    rcases List.mem_append.mp hc with hc | hc
    · simp only [List.mem_cons, List.not_mem_nil, or_false] at hc
      rcases hc with rfl | rfl
      · exact ⟨by simpa [Call.out] using h, trivial⟩
      · exact ⟨by simpa [Call.out] using h, by simp⟩
    · cases act with
      | none => simp at hc
      | some f =>
        have : c = .unary f (cnt * n) (.mem (z + lo * n)) (z + lo * n) := by simpa using hc
        subst this
        exact ⟨h, trivial⟩

end

section
variable [Zero R] [One R] [Add R] [Sub R] [Mul R] [Neg R] [Div R] [LT R] [DecidableLT R]

theorem effect_append (s t : Thread R) (m : List R) : (s ++ t).effect m = s.effect m >>= t.effect := by
  simp only [Thread.effect, List.foldlM_append]
  rfl

/-- A step for some examples stores what it makes of them. -/
theorem stage_effect {s : Stage R} {lo cnt N x l : Nat} {m mem : List R} {X : Nat → Nat → R} (hm : m.length = mem.length)
    (hN : lo + cnt ≤ N) (hx : x + N * l ≤ mem.length) (hp : ∀ p ∈ s.params l, p.1 + p.2 ≤ mem.length)
    (hq : ∀ p ∈ s.params l, ∀ q, block p.1 p.2 q → m[q]? = mem[q]?)
    (hX : ∀ u, lo ≤ u → u < lo + cnt → ∀ j < l, m[x + (u * l + j)]? = some (X u j))
    (hz : s.dst + N * s.width l ≤ mem.length) (offx : Net.Sep (s.dst, N * s.width l) (x, N * l))
    (offp : ∀ p ∈ s.params l, Net.Sep (s.dst, N * s.width l) p) :
    (s.calls lo cnt x l).effect m =
      .ok (store m (s.dst + lo * s.width l) (tab [cnt, s.width l] (fn2 fun u => s.row mem l (X (lo + u)))).data) := by
  have bl : lo * l + cnt * l ≤ N * l := by rw [← Nat.add_mul]; exact Nat.mul_le_mul_right _ hN
  have hX' : ∀ i < cnt, ∀ j < l, m[x + lo * l + (i * l + j)]? = some (X (lo + i) j) := by
    intro i hi j hj
    have := hX (lo + i) (by omega) (by omega) j hj
    rw [Nat.add_mul] at this
    rw [← this]
    congr 1
    omega
  cases s with
  | softmax exp eps z =>
    simp only [Stage.dst, Stage.width, Net.Sep] at hz offx ⊢
    have h := softmax_inside exp eps (z := z + lo * l) hX' (by omega) (by omega)
    show (Kernels.softmax exp eps l cnt l (.mem (x + lo * l)) (z + lo * l) m >>= fun m => .ok m) = _
    rw [h]
    rfl
  | dense n w b act z =>
    simp only [Stage.dst, Stage.width, Stage.params, Net.Sep, List.mem_cons, List.not_mem_nil, or_false, forall_eq_or_imp,
      forall_eq] at hz offx offp hp hq ⊢
    have bn : lo * n + cnt * n ≤ N * n := by rw [← Nat.add_mul]; exact Nat.mul_le_mul_right _ hN
    have hA := take_tab (a := x + lo * l) (by omega) hX'
    have hB : (m.drop w).take (l * n) = (tab [l, n] (fn2 fun q j => cell mem (w + (q * n + j)))).data := by
      refine take_tab (by omega) fun i hi j hj => ?_
      have := row_in (n := n) hi
      rw [hq.1 _ ⟨by omega, by omega⟩, cell_some (by omega)]
    have h1 := mm_inside hA hB (z := z + lo * n) (by omega) (by omega) (by omega)
    let P : Nat → Nat → R := fun u j => seqSum l fun q => X (lo + u) q * cell mem (w + (q * n + j))
    have e1 : (tab [cnt, n] (Plain.prod2 l (fn2 fun u => X (lo + u)) (fn2 fun q j => cell mem (w + (q * n + j))))).data =
        (tab [cnt, n] (fn2 P)).data := by
      refine congrArg Tensor.data (tab_congr fun idx hv => ?_)
      match idx, hv with
      | [i, j], _ => rfl
    rw [e1] at h1
    let m1 := store m (z + lo * n) (tab [cnt, n] (fn2 P)).data
    have hl : (tab [cnt, n] (fn2 P)).data.length = cnt * n := by simp
    have l1 : m1.length = mem.length := by rw [← hm]; exact store_length (by rw [hl]; omega)
    have h2 := applyBias_inside (f := (· + ·)) (p := 1) (k := n) (b := b) (z := z + lo * n) (dims := [cnt, n])
      (x := .mem (z + lo * n)) (m := m1) (X := fn2 P) (B := fun j => cell mem (b + j)) rfl
      ⟨.inl rfl, fun i hi => by
        rw [store_getElem? (by rw [hl]; omega), if_pos (by omega), Nat.add_sub_cancel_left]⟩
      (fun j hj => by
        rw [store_getElem? (by rw [hl]; omega), hl, if_neg (by omega), hq.2 _ ⟨by omega, by omega⟩, cell_some (by omega)])
      (by simp; omega) (by simp; omega)
    let Q : Nat → Nat → R := fun u j => P u j + cell mem (b + j)
    have e2 : (tab [cnt, n] fun idx => fn2 P idx + cell mem (b + idx.getD 1 0)).data = (tab [cnt, n] (fn2 Q)).data := by
      refine congrArg Tensor.data (tab_congr fun idx hv => ?_)
      match idx, hv with
      | [i, j], _ => rfl
    have hl2 : (tab [cnt, n] (fn2 Q)).data.length = cnt * n := by simp
    rw [e2, store_again (by rw [hl]; omega) (by rw [hl, hl2])] at h2
    let m2 := store m (z + lo * n) (tab [cnt, n] (fn2 Q)).data
    have l2 : m2.length = mem.length := by rw [← hm]; exact store_length (by rw [hl2]; omega)
    have step : ∀ t : Thread R, Thread.effect ([.mm [cnt, l] [l, n] [cnt, n] (.mem (x + lo * l)) (.mem w) (z + lo * n),
        .biasAt (· + ·) 1 [cnt, n] (.mem (z + lo * n)) (.mem b) (z + lo * n)] ++ t) m = t.effect m2 := by
      intro t
      rw [effect_append]
      show ((Shared.mm [cnt, l] [l, n] [cnt, n] (.mem (x + lo * l)) (.mem w) (z + lo * n) m) >>= fun m =>
        (Shared.applyBias (· + ·) 1 [cnt, n] (.mem (z + lo * n)) (.mem b) (z + lo * n) m) >>= fun m => .ok m) >>= _ = _
      rw [h1, Outcome.ok_bind]
      show ((Shared.applyBias (· + ·) 1 [cnt, n] (.mem (z + lo * n)) (.mem b) (z + lo * n) m1) >>= fun m => .ok m) >>= _ = _
      rw [h2, Outcome.ok_bind, Outcome.ok_bind]
    refine (step _).trans ?_
    cases act with
    | none => rfl
    | some f =>
      have h3 := Kernels.transform1_run (f := f) (x := .mem (z + lo * n)) (z := z + lo * n) (m := m2)
        (v := (tab [cnt, n] (fn2 Q)).data) ⟨.inl rfl, fun i hi => by
          rw [store_getElem? (by rw [hl2]; omega), if_pos (by omega), Nat.add_sub_cancel_left]⟩ (by rw [hl2]; omega)
      rw [hl2, map_tab, store_again (by rw [hl2]; omega) (by simp)] at h3
      show (Kernels.transform1 f (cnt * n) (.mem (z + lo * n)) (z + lo * n) m2 >>= fun m => .ok m) = _
      rw [h3, Outcome.ok_bind]
      refine congrArg (fun t => Outcome.ok (store m (z + lo * n) (Tensor.data t))) (tab_congr fun idx hv => ?_)
      match idx, hv with
      | [i, j], _ => rfl

/-- The results of the steps for the examples from `lo` on: where they begin, how wide they are, and what they are. -/
def Net.values (mem : List R) : Nat → Net R → (Nat → Nat → R) → List (Nat × Nat × (Nat → Nat → R))
  | _, [], _ => []
  | l, s :: net, X => (s.dst, s.width l, fun u => s.row mem l (X u)) :: values mem (s.width l) net fun u => s.row mem l (X u)

omit [Neg R] in
theorem Net.values_outs (mem : List R) (N l : Nat) (net : Net R) (X : Nat → Nat → R) :
    Net.outs N l net = (Net.values mem l net X).map fun v => (v.1, N * v.2.1) := by
  induction net generalizing l X with
  | nil => rfl
  | cons s net ih => rw [Net.outs, Net.values, List.map_cons, ← ih]

/-- What one thread does: it stores the results of its examples and nothing else. -/
theorem net_effect {net : Net R} {lo cnt N x l : Nat} {m mem : List R} {X : Nat → Nat → R} (hm : m.length = mem.length)
    (hN : lo + cnt ≤ N) (laid : Net.Laid N mem.length x l net)
    (hq : ∀ p ∈ Net.params l net, ∀ q, block p.1 p.2 q → m[q]? = mem[q]?)
    (hX : ∀ u, lo ≤ u → u < lo + cnt → ∀ j < l, m[x + (u * l + j)]? = some (X u j)) :
    ∃ m', (Net.calls lo cnt x l net).effect m = .ok m' ∧ m'.length = mem.length ∧
      (∀ v ∈ Net.values mem l net X, ∀ u, lo ≤ u → u < lo + cnt → ∀ j < v.2.1, m'[v.1 + (u * v.2.1 + j)]? = some (v.2.2 u j)) ∧
      ∀ q, (∀ v ∈ Net.values mem l net X, ¬ block (v.1 + lo * v.2.1) (cnt * v.2.1) q) → m'[q]? = m[q]? := by
  induction net generalizing x l m X with
  | nil => exact ⟨m, rfl, hm, by simp [Net.values], fun _ _ => rfl⟩
  | cons s net ih =>
    have hz := laid.results (s.dst, N * s.width l) (by simp [Net.outs])
    simp only at hz
    have h1 := stage_effect hm hN laid.input (fun p hp => laid.parameters p (by simp [Net.params, hp]))
      (fun p hp => hq p (by simp [Net.params, hp])) hX hz (laid.offInput _ (by simp [Net.outs]))
      (fun p hp => laid.offParams _ (by simp [Net.outs]) p (by simp [Net.params, hp]))
    have bn : lo * s.width l + cnt * s.width l ≤ N * s.width l := by rw [← Nat.add_mul]; exact Nat.mul_le_mul_right _ hN
    have hl : (tab [cnt, s.width l] (fn2 fun u => s.row mem l (X (lo + u)))).data.length = cnt * s.width l := by simp
    have hs : s.dst + lo * s.width l + (tab [cnt, s.width l] (fn2 fun u => s.row mem l (X (lo + u)))).data.length ≤ m.length := by
      rw [hl]; omega
    have laid' : Net.Laid N mem.length s.dst (s.width l) net := by
      refine ⟨hz, fun p hp => laid.parameters p (by simp [Net.params, hp]), fun o ho => laid.results o (by simp [Net.outs, ho]),
        fun o ho => ?_, fun o ho p hp => laid.offParams o (by simp [Net.outs, ho]) p (by simp [Net.params, hp]),
        (List.pairwise_cons.mp laid.offResults).2⟩
      exact ((List.pairwise_cons.mp laid.offResults).1 o ho).symm
    have inside : ∀ u, lo ≤ u → u < lo + cnt → ∀ j < s.width l, s.dst + lo * s.width l ≤ s.dst + (u * s.width l + j) ∧
        s.dst + (u * s.width l + j) < s.dst + lo * s.width l + cnt * s.width l ∧
        s.dst + (u * s.width l + j) - (s.dst + lo * s.width l) = (u - lo) * s.width l + j := by
      intro u h1 h2 j hj
      obtain ⟨d, rfl⟩ := Nat.exists_eq_add_of_le h1
      have := row_in (n := s.width l) (show d < cnt by omega)
      rw [Nat.add_mul, Nat.add_sub_cancel_left]
      omega
    have hY : ∀ u, lo ≤ u → u < lo + cnt → ∀ j < s.width l,
        (store m (s.dst + lo * s.width l) (tab [cnt, s.width l] (fn2 fun u => s.row mem l (X (lo + u)))).data)[s.dst +
          (u * s.width l + j)]? = some (s.row mem l (X u) j) := by
      intro u h1 h2 j hj
      obtain ⟨i1, i2, i3⟩ := inside u h1 h2 j hj
      rw [store_getElem? hs, hl, if_pos ⟨i1, i2⟩, i3, take_tab_get _ (by omega) hj, Nat.add_sub_cancel' h1]
    obtain ⟨m', e, l', v', o'⟩ := ih (x := s.dst) (l := s.width l) (X := fun u => s.row mem l (X u))
      (m := store m (s.dst + lo * s.width l) (tab [cnt, s.width l] (fn2 fun u => s.row mem l (X (lo + u)))).data)
      (by rw [store_length hs]; exact hm) laid'
      (fun p hp q hq' => by
        have := laid.offParams (s.dst, N * s.width l) (by simp [Net.outs]) p (by simp [Net.params, hp])
        simp only [Net.Sep] at this
        have hb : p.1 ≤ q ∧ q < p.1 + p.2 := hq'
        rw [store_getElem? hs, hl, if_neg (by omega)]
        exact hq p (by simp [Net.params, hp]) q hq') hY
    refine ⟨m', by rw [Net.calls, effect_append, h1]; exact e, l', fun v hv => ?_, fun q hq' => ?_⟩
    · rcases List.mem_cons.mp hv with rfl | hv
      · intro u h1 h2 j hj
        obtain ⟨i1, i2, i3⟩ := inside u h1 h2 j hj
        rw [o' _ fun v hv hb => ?_, hY u h1 h2 j hj]
        have hv' : (v.1, N * v.2.1) ∈ Net.outs N (s.width l) net := by
          rw [Net.values_outs mem N (s.width l) net fun u => s.row mem l (X u)]
          exact List.mem_map_of_mem hv
        have := (List.pairwise_cons.mp laid.offResults).1 _ hv'
        simp only [Net.Sep] at this
        have hb : v.1 + lo * v.2.1 ≤ s.dst + (u * s.width l + j) ∧
          s.dst + (u * s.width l + j) < v.1 + lo * v.2.1 + cnt * v.2.1 := hb
        have bv : lo * v.2.1 + cnt * v.2.1 ≤ N * v.2.1 := by rw [← Nat.add_mul]; exact Nat.mul_le_mul_right _ hN
        omega
      · exact v' v hv
    · rw [o' q fun v hv => hq' v (by simp [Net.values, hv]), store_getElem? hs, hl, if_neg]
      exact hq' _ (by simp only [Net.values]; exact List.mem_cons_self)

omit [Neg R] in
theorem net_writes (mem : List R) (net : Net R) (lo cnt x l q : Nat) (X : Nat → Nat → R) :
    (Net.calls lo cnt x l net).writes q ↔ ∃ v ∈ Net.values mem l net X, block (v.1 + lo * v.2.1) (cnt * v.2.1) q := by
  induction net generalizing x l X with
  | nil => simp [Net.calls, Net.values, Thread.writes]
  | cons s net ih =>
    rw [Net.calls, Thread.writes_append, stage_writes, ih _ _ fun u => s.row mem l (X u), Net.values]
    simp

omit [Neg R] in
theorem net_reads (mem : List R) {net : Net R} {lo cnt x l q : Nat} (X : Nat → Nat → R)
    (h : (Net.calls lo cnt x l net).reads q) :
    block (x + lo * l) (cnt * l) q ∨ (∃ p ∈ Net.params l net, block p.1 p.2 q) ∨
      ∃ v ∈ Net.values mem l net X, block (v.1 + lo * v.2.1) (cnt * v.2.1) q := by
  induction net generalizing x l X with
  | nil => simp [Net.calls, Thread.reads] at h
  | cons s net ih =>
    rw [Net.calls, Thread.reads_append] at h
    have head : block (s.dst + lo * s.width l) (cnt * s.width l) q →
        ∃ v ∈ Net.values mem l (s :: net) X, block (v.1 + lo * v.2.1) (cnt * v.2.1) q :=
      fun h => ⟨_, List.mem_cons_self, h⟩
    rcases h with h | h
    · rcases stage_reads h with h | ⟨p, hp, h⟩ | h
      · exact .inl h
      · exact .inr (.inl ⟨p, by simp [Net.params, hp], h⟩)
      · exact .inr (.inr (head h))
    · rcases ih (fun u => s.row mem l (X u)) h with h | ⟨p, hp, h⟩ | ⟨v, hv, h⟩
      · exact .inr (.inr (head h))
      · exact .inr (.inl ⟨p, by simp [Net.params, hp], h⟩)
      · exact .inr (.inr ⟨v, by simp [Net.values, hv], h⟩)

omit [Zero R] [One R] [Sub R] [Mul R] [Neg R] [Div R] [LT R] [DecidableLT R] in
theorem net_ok {net : Net R} {lo cnt N x l L : Nat} (hN : lo + cnt ≤ N) (h : ∀ o ∈ Net.outs N l net, o.1 + o.2 ≤ L) :
    ∀ c ∈ Net.calls lo cnt x l net, c.OK L := by
  induction net generalizing x l with
  | nil => simp [Net.calls]
  | cons s net ih =>
    intro c hc
    rcases List.mem_append.mp hc with hc | hc
    · have h1 := h (s.dst, N * s.width l) (by simp [Net.outs])
      simp only at h1
      have bn : lo * s.width l + cnt * s.width l ≤ N * s.width l := by rw [← Nat.add_mul]; exact Nat.mul_le_mul_right _ hN
      exact stage_ok (by omega) c hc
    · exact ih (fun o ho => h o (by simp [Net.outs, ho])) c hc

omit [Neg R] in
theorem values_last {mem : List R} {net : Net R} {l x : Nat} {X : Nat → Nat → R} (hne : net ≠ []) :
    (Net.dst x net, Net.width l net, fun u => Net.row mem l net (X u)) ∈ Net.values mem l net X := by
  induction net generalizing l x X with
  | nil => exact (hne rfl).elim
  | cons s net ih =>
    rw [Net.values]
    by_cases c : net = []
    · subst c
      exact List.mem_cons_self
    · exact List.mem_cons_of_mem _ (ih (x := s.dst) (l := s.width l) (X := fun u => s.row mem l (X u)) c)

/-! ## Several threads -/

variable {ι : Type} [DecidableEq ι]

/-- The examples are divided among the threads: thread `i` has `cnt i` of them from `lo i` on. -/
structure Shares (N : Nat) (lo cnt : ι → Nat) : Prop where
  inside : ∀ i, lo i + cnt i ≤ N
  apart : ∀ i j, i ≠ j → lo i + cnt i ≤ lo j ∨ lo j + cnt j ≤ lo i
  all : ∀ u < N, ∃ i, lo i ≤ u ∧ u < lo i + cnt i

omit [Neg R] [DecidableEq ι] in
theorem net_apart {net : Net R} {N x l L : Nat} {lo cnt : ι → Nat} (laid : Net.Laid N L x l net) (shares : Shares N lo cnt) :
    Apart fun i => Net.calls (lo i) (cnt i) x l net := by
  intro i j hij q hw
  let X : Nat → Nat → R := fun _ _ => 0
  rw [net_writes [] net _ _ _ _ _ X] at hw
  obtain ⟨v, hv, hb⟩ := hw
  have mem : ∀ v ∈ Net.values [] l net X, (v.1, N * v.2.1) ∈ Net.outs N l net := fun v hv => by
    rw [Net.values_outs [] N l net X]
    exact List.mem_map_of_mem hv
  have hb : v.1 + lo i * v.2.1 ≤ q ∧ q < v.1 + lo i * v.2.1 + cnt i * v.2.1 := hb
  have sub : ∀ i w, lo i * w + cnt i * w ≤ N * w := fun i w => by
    rw [← Nat.add_mul]; exact Nat.mul_le_mul_right _ (shares.inside i)
  have si := sub i v.2.1
  have key : ¬ ∃ v ∈ Net.values [] l net X, block (v.1 + lo j * v.2.1) (cnt j * v.2.1) q := by
    rintro ⟨v', hv', hb'⟩
    have hb' : v'.1 + lo j * v'.2.1 ≤ q ∧ q < v'.1 + lo j * v'.2.1 + cnt j * v'.2.1 := hb'
    have sj := sub j v'.2.1
    by_cases e : (v.1, N * v.2.1) = (v'.1, N * v'.2.1)
    · obtain ⟨e1, e2⟩ := Prod.mk.inj e
      have hN : 0 < N := by
        rcases Nat.eq_zero_or_pos N with h | h
        · subst h; omega
        · exact h
      have e3 : v.2.1 = v'.2.1 := Nat.eq_of_mul_eq_mul_left hN e2
      rw [← e1, ← e3] at hb'
      rcases shares.apart i j hij with h | h
      · have := Nat.mul_le_mul_right v.2.1 h
        rw [Nat.add_mul] at this
        omega
      · have := Nat.mul_le_mul_right v.2.1 h
        rw [Nat.add_mul] at this
        omega
    · have : Std.Symm Net.Sep := ⟨fun _ _ h => h.symm⟩
      have := laid.offResults.forall (mem v hv) (mem v' hv') e
      simp only [Net.Sep] at this
      omega
  refine ⟨fun h => ?_, fun h => ?_⟩
  · rcases net_reads [] X h with h | ⟨p, hp, h⟩ | h
    · have h : x + lo j * l ≤ q ∧ q < x + lo j * l + cnt j * l := h
      have := laid.offInput _ (mem v hv)
      simp only [Net.Sep] at this
      have := sub j l
      omega
    · have h : p.1 ≤ q ∧ q < p.1 + p.2 := h
      have := laid.offParams _ (mem v hv) p hp
      simp only [Net.Sep] at this
      omega
    · exact key h
  · rw [net_writes [] net _ _ _ _ _ X] at h
    exact key h

/-- **C171.** Threads that evaluate a network on their shares of the examples: no two of them ever are about to access one cell
of which one writes, and none ends but by returning; once all have ended, the memory is, bit for bit, the one that one thread
leaves that evaluates all examples, and the results of every example are those of the network. -/
theorem C171_network {net : Net R} {N x l : Nat} {mem : List R} {lo cnt : ι → Nat} (laid : Net.Laid N mem.length x l net)
    (shares : Shares N lo cnt) (turns : List ι) {c : (ι → Prog R Unit) × List R}
    (hc : c = play turns (fun i => (Net.calls (lo i) (cnt i) x l net).prog, mem)) :
    (∀ i j, i ≠ j → ∀ q w w', (c.1 i).access = some (q, w) → (c.1 j).access = some (q, w') → w = false ∧ w' = false) ∧
    (∀ i o, c.1 i = .halt o → o = .ok ()) ∧
    ((∀ i, (Net.calls (lo i) (cnt i) x l net).prog.cost mem ≤ turns.count i) →
      (Net.calls 0 N x l net).effect mem = .ok c.2 ∧
      (net ≠ [] → ∀ u < N, ∀ j < Net.width l net, c.2[Net.dst x net + (u * Net.width l net + j)]? =
        some (Net.row mem l net (fun q => cell mem (x + (u * l + q))) j))) := by
  let X : Nat → Nat → R := fun u q => cell mem (x + (u * l + q))
  have hX : ∀ u < N, ∀ j < l, mem[x + (u * l + j)]? = some (X u j) := by
    intro u hu j hj
    have := row_in (n := l) hu
    have := laid.input
    exact cell_some (by omega)
  have alone := fun i => net_effect (net := net) rfl (shares.inside i) laid (fun _ _ _ _ => rfl)
    (fun u _ hu => hX u (by have := shares.inside i; omega))
  choose M a1 a2 a3 a4 using alone
  obtain ⟨M0, b1, b2, b3, b4⟩ := net_effect (net := net) (m := mem) (lo := 0) (cnt := N) rfl (by omega) laid (fun _ _ _ _ => rfl)
    (fun u _ hu => hX u (by omega))
  obtain ⟨h1, h2, h3, h4, h5⟩ := C168_threads (fun i => net_ok (shares.inside i) laid.results) (net_apart laid shares) a1 turns hc
  refine ⟨h1, h2, fun done => ?_⟩
  have own : ∀ v ∈ Net.values mem l net X, ∀ u < N, ∀ j < v.2.1, c.2[v.1 + (u * v.2.1 + j)]? = some (v.2.2 u j) := by
    intro v hv u hu j hj
    obtain ⟨i, hi1, hi2⟩ := shares.all u hu
    rw [(h3 i (done i)).2 _ ?_, a3 i v hv u hi1 hi2 j hj]
    rw [net_writes mem net _ _ _ _ _ X]
    refine ⟨v, hv, ?_⟩
    show v.1 + lo i * v.2.1 ≤ v.1 + (u * v.2.1 + j) ∧ v.1 + (u * v.2.1 + j) < v.1 + lo i * v.2.1 + cnt i * v.2.1
    obtain ⟨d, rfl⟩ := Nat.exists_eq_add_of_le hi1
    have := row_in (n := v.2.1) (show d < cnt i by omega)
    rw [Nat.add_mul]
    omega
  have eq : c.2 = M0 := by
    refine List.ext_getElem? fun q => ?_
    by_cases h : ∃ v ∈ Net.values mem l net X, block (v.1 + 0 * v.2.1) (N * v.2.1) q
    · obtain ⟨v, hv, hb⟩ := h
      have hb : v.1 + 0 * v.2.1 ≤ q ∧ q < v.1 + 0 * v.2.1 + N * v.2.1 := hb
      rw [Nat.zero_mul, Nat.add_zero] at hb
      obtain ⟨d, rfl⟩ := Nat.exists_eq_add_of_le hb.1
      have hw : 0 < v.2.1 := by
        rcases Nat.eq_zero_or_pos v.2.1 with h | h
        · rw [h] at hb; omega
        · exact h
      have hu : d / v.2.1 < N := by rw [Nat.div_lt_iff_lt_mul hw]; omega
      rw [← Nat.div_add_mod' d v.2.1, own v hv _ hu _ (Nat.mod_lt _ hw), b3 v hv _ (Nat.zero_le _) (by omega) _ (Nat.mod_lt _ hw)]
    · rw [b4 q fun v hv hb => h ⟨v, hv, hb⟩, h5 q fun i hw => ?_]
      rw [net_writes mem net _ _ _ _ _ X] at hw
      obtain ⟨v, hv, hb⟩ := hw
      refine h ⟨v, hv, ?_⟩
      have hb : v.1 + lo i * v.2.1 ≤ q ∧ q < v.1 + lo i * v.2.1 + cnt i * v.2.1 := hb
      show v.1 + 0 * v.2.1 ≤ q ∧ q < v.1 + 0 * v.2.1 + N * v.2.1
      have := Nat.mul_le_mul_right v.2.1 (shares.inside i)
      rw [Nat.add_mul] at this
      omega
  exact ⟨by rw [eq]; exact b1, fun hne u hu j hj => own _ (values_last (x := x) hne) u hu j hj⟩

omit [Zero R] [One R] [Sub R] [Mul R] [Neg R] [Div R] [LT R] [DecidableLT R] [DecidableEq ι] in
theorem net_fits {net : Net R} {lo cnt N x l L : Nat} (hN : lo + cnt ≤ N) (laid : Net.Laid N L x l net) :
    (∀ c ∈ Net.calls lo cnt x l net, c.Fits L) ∧
      (Thread.accesses (Net.calls lo cnt x l net)).length = Net.accesses cnt l net := by
  induction net generalizing x l with
  | nil => exact ⟨by simp [Net.calls], rfl⟩
  | cons s net ih =>
    have hz := laid.results (s.dst, N * s.width l) (by simp [Net.outs])
    have ih := ih (x := s.dst) (l := s.width l) ⟨hz, fun p hp => laid.parameters p (by simp [Net.params, hp]),
      fun o ho => laid.results o (by simp [Net.outs, ho]), fun o ho => ((List.pairwise_cons.mp laid.offResults).1 o ho).symm,
      fun o ho p hp => laid.offParams o (by simp [Net.outs, ho]) p (by simp [Net.params, hp]),
      (List.pairwise_cons.mp laid.offResults).2⟩
    simp only at hz
    have sub : ∀ w, lo * w + cnt * w ≤ N * w := fun w => by rw [← Nat.add_mul]; exact Nat.mul_le_mul_right _ hN
    have bn := sub (s.width l)
    have bl := sub l
    have hx := laid.input
    have ok := stage_ok (s := s) (lo := lo) (cnt := cnt) (x := x) (l := l) (L := L) (by omega)
    have hp := fun p hp => laid.parameters p (List.mem_append_left _ hp)
    rw [Net.calls, Net.accesses]
    refine ⟨fun c hc => (List.mem_append.mp hc).elim (fun hc => ⟨ok c hc, ?_⟩) (ih.1 c), ?_⟩
    · cases s with
      | softmax exp eps z =>
        have : c = .softmax exp eps cnt l (.mem (x + lo * l)) (z + lo * l) := by simpa [Stage.calls] using hc
        subst this
        show x + lo * l + cnt * l ≤ L
        omega
      | dense n w b act z =>
        have hz : z + N * n ≤ L := hz
        have bn : lo * n + cnt * n ≤ N * n := bn
        have h1 : w + l * n ≤ L := hp (w, l * n) (by simp [Stage.params])
        have h2 : b + n ≤ L := hp (b, n) (by simp [Stage.params])
        rcases List.mem_append.mp hc with hc | hc
        · simp only [List.mem_cons, List.not_mem_nil, or_false] at hc
          rcases hc with rfl | rfl
          · refine ⟨?_, ?_, cnt, l, n, rfl, rfl, rfl⟩
            · show x + lo * l + [cnt, l].prod ≤ L
              simp only [List.prod_cons, List.prod_nil, Nat.mul_one]
              omega
            · show w + [l, n].prod ≤ L
              simpa using h1
          · refine ⟨?_, h2⟩
            show z + lo * n + [cnt, n].prod ≤ L
            simp only [List.prod_cons, List.prod_nil, Nat.mul_one]
            omega
        · cases act with
          | none => simp at hc
          | some f =>
            have : c = .unary f (cnt * n) (.mem (z + lo * n)) (z + lo * n) := by simpa using hc
            subst this
            show z + lo * n + cnt * n ≤ L
            omega
    · have e : Thread.accesses (s.calls lo cnt x l ++ Net.calls lo cnt s.dst (s.width l) net) =
        Thread.accesses (s.calls lo cnt x l) ++ Thread.accesses (Net.calls lo cnt s.dst (s.width l) net) := List.flatMap_append
      rw [e, List.length_append, ih.2]
      congr 1
      cases s with
      | softmax exp eps z =>
        rw [Stage.calls, Thread.accesses, List.flatMap_singleton, Stage.accesses]
        exact (C169_counts (l := l) (y := 0)).2.2.2.2.2.2.2.2.1 exp eps
      | dense n w b act z =>
        have c1 := (C169_counts (R := R) (m := cnt) (l := l) (n := n) (x := x + lo * l) (y := w) (z := z + lo * n)).2.2.2.2.2.2.2.2.2.1
        have c2 := (C169_counts (R := R) (m := cnt) (l := l) (n := n) (x := z + lo * n) (y := b) (z := z + lo * n)).2.2.2.1
          (· + ·) 1 [cnt, n]
        have c3 := fun f => (C169_counts (R := R) (m := cnt) (l := l) (n := cnt * n) (x := z + lo * n) (y := b) (z := z + lo * n)).1 f
        have e2 : [cnt, n].prod = cnt * n := by simp
        rw [e2] at c2
        cases act with
        | none =>
          simp only [Stage.calls, Thread.accesses, List.append_nil, List.flatMap_cons, List.flatMap_nil, List.length_append, c1, c2,
            Stage.accesses, Option.isSome_none, Bool.false_eq_true, if_false]
          omega
        | some f =>
          simp only [Stage.calls, Thread.accesses, List.cons_append, List.nil_append, List.flatMap_cons, List.flatMap_nil,
            List.append_nil, List.length_append, c1, c2, c3, Stage.accesses, Option.isSome_some, if_true]
          omega

/-- **C171.** A thread has ended as soon as it has had as many turns as its share has elements to read and write; for given
layers that is a number of examples times a number of accesses per example. -/
theorem C171_turns {net : Net R} {N x l : Nat} {mem : List R} {lo cnt : ι → Nat} (laid : Net.Laid N mem.length x l net)
    (shares : Shares N lo cnt) (turns : List ι) (i : ι) :
    (Net.calls (lo i) (cnt i) x l net).prog.cost mem = Net.accesses (cnt i) l net ∧
    Net.accesses (cnt i) l net = cnt i * Net.accesses 1 l net ∧
    ((play turns (fun i => (Net.calls (lo i) (cnt i) x l net).prog, mem)).1 i = .halt (.ok ()) ↔
      Net.accesses (cnt i) l net ≤ turns.count i) := by
  have F := fun i => net_fits (shares.inside i) laid
  refine ⟨?_, ?_, ?_⟩
  · rw [(C169_accesses (F i).1 rfl).2.1, (F i).2]
  · clear F laid
    generalize cnt i = k
    induction net generalizing l with
    | nil => rfl
    | cons s net ih =>
      rw [Net.accesses, Net.accesses, ih, Nat.mul_add]
      congr 1
      cases s with
      | softmax exp eps z => simp [Stage.accesses, Nat.mul_assoc]
      | dense n w b act z =>
        simp only [Stage.accesses, Nat.one_mul]
        split <;> ring
  · have := (C169_races (fun i => (F i).1) turns rfl i).2.2.1
    rw [(F i).2] at this
    exact this

end

/-! ## An example -/

/-- Two dense layers, from 2 to 2 with `relu` and from 2 to 1; the memory has 3 examples in cells 0 to 5, the first layer's
parameters in 6 to 11 and its results in 12 to 17, the second layer's parameters in 18 to 20 and its results in 21 to 23. -/
def exNet : Net Int := [.dense 2 6 10 (some fun v => if v > 0 then v else 0) 12, .dense 1 18 20 none 21]

/-- The memory of the example. -/
def exNetMem : List Int := [1, 2, 3, 4, 5, 6, 1, -1, 2, 1, 10, -3, 7, 7, 7, 7, 7, 7, 3, -1, 100, 7, 7, 7]

theorem exNet_laid : Net.Laid 3 exNetMem.length 0 2 exNet := by
  refine ⟨by decide, by decide, by decide, ?_, ?_, ?_⟩
  · simp [Net.outs, exNet, Net.Sep, Stage.dst, Stage.width]
  · simp [Net.outs, Net.params, exNet, Net.Sep, Stage.dst, Stage.width, Stage.params]
  · simp [Net.outs, exNet, Net.Sep, Stage.dst, Stage.width]

/-- Thread 0 has two examples, thread 1 the third. -/
theorem exNet_shares : Shares 3 (fun i : Fin 2 => if i = 0 then 0 else 2) (fun i => if i = 0 then 2 else 1) :=
  ⟨by decide, by decide, by decide⟩

set_option maxRecDepth 20000 in
example : Net.Laid 3 exNetMem.length 0 2 exNet ∧
    Shares 3 (fun i : Fin 2 => if i = 0 then 0 else 2) (fun i => if i = 0 then 2 else 1) ∧ exNet ≠ [] ∧
    (∀ i : Fin 2, Net.accesses (if i = 0 then 2 else 1) 2 exNet ≤ ((List.replicate 80 [(0 : Fin 2), 1]).flatten).count i) ∧
    (Net.calls 0 3 0 2 exNet).effect exNetMem =
      .ok [1, 2, 3, 4, 5, 6, 1, -1, 2, 1, 10, -3, 15, 0, 21, 0, 27, 0, 3, -1, 100, 145, 163, 181] :=
  ⟨exNet_laid, exNet_shares, by simp [exNet], by decide, by rfl⟩

end Prog
end StdNN
