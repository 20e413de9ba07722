import Verif.Props.Activation
import Verif.Props.LayerMemory

/-!
C81, C85: what softmax computes when its output is its input, for every row.
-/

namespace StdNN
open Spec Outcome Finset
variable {R : Type}

/-- A loop that stores `v` from address `z` on, where each iteration may rely on what was written before. -/
theorem run_store_seen {n z : Nat} {m v : List R} {body : Nat → List R → Outcome (List R)} (hv : v.length = n)
    (hz : z + n ≤ m.length)
    (hb : ∀ i < n, ∀ m' : List R, (∀ p, m'[p]? = if z ≤ p ∧ p < z + i then v[p - z]? else m[p]?) →
      ∃ x, v[i]? = some x ∧ body i m' = wr m' (z + i) x) :
    forRange n body m = .ok (store m z v) := by
  obtain ⟨m', e, hl, hp⟩ := forRange_inv' (n := n) (body := body)
    (fun i (m' : List R) => m'.length = m.length ∧
      ∀ p, m'[p]? = if z ≤ p ∧ p < z + i then v[p - z]? else m[p]?) (s := m)
    ⟨rfl, fun p => by rw [if_neg (by omega)]⟩
    (by
      intro i hi m' ⟨hl, hp⟩
      obtain ⟨x, hx, e⟩ := hb i hi m' hp
      rw [e, wr, if_pos (by omega)]
      refine ⟨_, rfl, by simpa using hl, fun p => ?_⟩
      rw [List.getElem?_set]
      by_cases c : z + i = p
      · subst c
        rw [if_pos rfl, if_pos (by omega), if_pos (by omega), Nat.add_sub_cancel_left, hx]
      · rw [if_neg c, hp]
        by_cases c2 : z ≤ p ∧ p < z + i
        · rw [if_pos c2, if_pos (by omega)]
        · rw [if_neg c2, if_neg (by omega)])
  rw [e]
  refine congrArg Outcome.ok (List.ext_getElem? fun p => ?_)
  rw [hp, store_getElem? (by omega), hv]

/-- The first `i` values of a row after a softmax in place: the values in front of the one being computed are results
already. -/
def inPlaceList [Zero R] [One R] [Add R] [Sub R] [Div R] [LT R] [DecidableLT R] (exp : R → R) (eps : R) (n : Nat)
    (x : Nat → R) : Nat → List R
  | 0 => []
  | i + 1 =>
    let l := inPlaceList exp eps n x i
    l ++ [stdMax eps (1 / seqSum n fun j => exp ((if j < i then l.getD j 0 else x j) - x i))]

section
variable [Zero R] [One R] [Add R] [Sub R] [Div R] [LT R] [DecidableLT R] (exp : R → R) (eps : R) (n : Nat)

theorem inPlaceList_length (x : Nat → R) (i : Nat) : (inPlaceList exp eps n x i).length = i := by
  induction i with
  | zero => rfl
  | succ i ih => simp [inPlaceList, ih]

theorem inPlaceList_getD (x : Nat → R) {i j : Nat} (h : j < i) :
    (inPlaceList exp eps n x i).getD j 0 = (inPlaceList exp eps n x (j + 1)).getD j 0 := by
  induction i with
  | zero => omega
  | succ i ih =>
    by_cases c : j = i
    · rw [c]
    · have hj : j < i := by omega
      rw [← ih hj]
      conv_lhs => unfold inPlaceList
      simp only [List.getD_eq_getElem?_getD]
      rw [List.getElem?_append_left (by rw [inPlaceList_length]; exact hj)]

/-- The row satisfies its recursion. -/
theorem inPlace_rec (x : Nat → R) (i : Nat) :
    (inPlaceList exp eps n x (i + 1)).getD i 0 =
      stdMax eps (1 / seqSum n fun j =>
        exp ((if j < i then (inPlaceList exp eps n x (j + 1)).getD j 0 else x j) - x i)) := by
  conv_lhs => unfold inPlaceList
  simp only [List.getD_eq_getElem?_getD]
  rw [List.getElem?_append_right (by rw [inPlaceList_length]), inPlaceList_length]
  simp only [Nat.sub_self, List.getElem?_cons_zero, Option.getD_some]
  congr 3
  funext j
  by_cases c : j < i
  · rw [if_pos c, if_pos c, ← List.getD_eq_getElem?_getD, ← List.getD_eq_getElem?_getD, inPlaceList_getD exp eps n x c]
  · rw [if_neg c, if_neg c]

/-- The rows of a matrix at address `z`, in place. -/
theorem softmax_in_place {rows z : Nat} (X Z : Nat → Nat → R)
    (hZ : ∀ r i, Z r i = stdMax eps (1 / seqSum n fun j => exp ((if j < i then Z r j else X r j) - X r i))) {m : List R}
    (hm : z + rows * n ≤ m.length) (hx : ∀ r < rows, ∀ j < n, m[z + (r * n + j)]? = some (X r j)) :
    Kernels.softmax exp eps n rows n (.mem z) z m = .ok (store m z (tab [rows, n] (fn2 Z)).data) := by
  unfold Kernels.softmax Kernels.softmaxRow
  simp only [Src.shift, Src.rd]
  let f : Nat → List R → Outcome (List R) := fun p m => do
    let xi ← rd m (z + p / n * n + p % n)
    let tot ← forRange n (fun j acc => do
      let xj ← rd m (z + p / n * n + j)
      return acc + exp (xj - xi)) 0
    wr m (z + p) (stdMax eps (1 / tot))
  have e : forRange rows (fun i m => forRange n (fun i' m => do
      let xi ← rd m (z + i * n + i')
      let tot ← forRange n (fun j acc => do
        let xj ← rd m (z + i * n + j)
        return acc + exp (xj - xi)) 0
      wr m (z + i * n + i') (stdMax eps (1 / tot))) m) m =
      forRange rows (fun i m => forRange n (fun j m => f (i * n + j) m) m) m := by
    refine forRange_congr (fun i hi s => forRange_congr (fun j hj s => ?_) s) m
    have h1 : (i * n + j) / n = i := by
      rw [Nat.mul_comm, Nat.mul_add_div (by omega), Nat.div_eq_of_lt hj, Nat.add_zero]
    have h2 : (i * n + j) % n = j := by
      rw [Nat.mul_comm, Nat.mul_add_mod, Nat.mod_eq_of_lt hj]
    simp only [f, h1, h2, Nat.add_assoc]
  rw [e, forRange_nest rows n f]
  have zr : ∀ p, p < rows * n → (tab [rows, n] (fn2 Z)).data[p]? = some (Z (p / n) (p % n)) := fun p hp => by
    have hn : 0 < n := by
      rcases Nat.eq_zero_or_pos n with h | h
      · subst h; simp at hp
      · exact h
    have hv : Valid [rows, n] [p / n, p % n] := v2 (by rwa [Nat.div_lt_iff_lt_mul hn]) (Nat.mod_lt _ hn)
    have := tab_getElem? (fn2 Z) hv
    have e : offset [rows, n] [p / n, p % n] = p := by
      simp [Nat.div_add_mod']
    rwa [e] at this
  refine run_store_seen (by simp) hm fun p hp m' hm' => ⟨_, zr p hp, ?_⟩
  have hn : 0 < n := by
    rcases Nat.eq_zero_or_pos n with h | h
    · subst h; simp at hp
    · exact h
  have hr : p / n < rows := by rwa [Nat.div_lt_iff_lt_mul hn]
  have hi : p % n < n := Nat.mod_lt _ hn
  have hpe : p / n * n + p % n = p := Nat.div_add_mod' p n
  have read : ∀ j < n, rd m' (z + p / n * n + j) = .ok (if j < p % n then Z (p / n) j else X (p / n) j) := by
    intro j hj
    have hr1 : (p / n + 1) * n ≤ rows * n := Nat.mul_le_mul_right _ hr
    rw [Nat.add_mul, Nat.one_mul] at hr1
    unfold StdNN.rd
    rw [hm', Nat.add_assoc]
    by_cases c : j < p % n
    · rw [if_pos (by omega), if_pos c, Nat.add_sub_cancel_left, zr _ (by omega)]
      have h1 : (p / n * n + j) / n = p / n := by
        rw [Nat.mul_comm, Nat.mul_add_div (by omega), Nat.div_eq_of_lt hj, Nat.add_zero]
      have h2 : (p / n * n + j) % n = j := by
        rw [Nat.mul_comm, Nat.mul_add_mod, Nat.mod_eq_of_lt hj]
      rw [h1, h2]
    · rw [if_neg (by omega), if_neg c, hx _ hr _ hj]
  simp only [f]
  rw [read _ hi, if_neg (by omega), Outcome.ok_bind,
    forRange_sum (f := fun j => exp ((if j < p % n then Z (p / n) j else X (p / n) j) - X (p / n) (p % n))),
    Outcome.ok_bind, ← hZ]
  intro j hj s
  rw [read _ hj, Outcome.ok_bind]
  rfl

end

/-- C81: softmax called with its output being its input, any rank, any arithmetic: entry `i` of a row is computed from the
*results* for the entries in front of it and from the inputs for the others. -/
theorem C81_effect [Zero R] [One R] [Add R] [Sub R] [Div R] [LT R] [DecidableLT R] (exp : R → R) (eps : R) (ds : List Nat)
    (n : Nat) (X : List Nat → R) {z : Nat} {m : List R} (hz : z + (ds ++ [n]).prod ≤ m.length) :
    ∃ Z : List Nat → R,
      (∀ r, Valid ds r → ∀ i < n, Z (r ++ [i]) =
        let v := 1 / seqSum n fun j => exp ((if j < i then Z (r ++ [j]) else X (r ++ [j])) - X (r ++ [i]))
        if eps < v then v else eps) ∧
      Ops.softmax exp eps (ds ++ [n]) (ds ++ [n]) (.mem z) z (store m z (tab (ds ++ [n]) X).data) =
        .ok (store m z (tab (ds ++ [n]) Z).data) := by
  let x : Nat → Nat → R := fun r j => X (unravel ds r ++ [j])
  let Zf : Nat → Nat → R := fun r i => (inPlaceList exp eps n (x r) (i + 1)).getD i 0
  have hZ : ∀ r i, Zf r i = stdMax eps (1 / seqSum n fun j => exp ((if j < i then Zf r j else x r j) - x r i)) :=
    fun r i => inPlace_rec exp eps n (x r) i
  have pr : (ds ++ [n]).prod = ds.prod * n := by simp
  have hs : z + (tab (ds ++ [n]) X).data.length ≤ m.length := by simpa using hz
  refine ⟨fun idx => Zf (offset ds idx.dropLast) (idx.getLastD 0), fun r hv i hi => ?_, ?_⟩
  · have := hZ (offset ds r) i
    simp only [x, unravel_offset hv] at this
    simpa [stdMax] using this
  · unfold Ops.softmax
    rw [rowsOf_snoc, softmax_in_place exp eps n x Zf hZ, tab_snoc']
    · refine congrArg Outcome.ok (List.ext_getElem? fun p => ?_)
      rw [store_getElem? (by rw [store_length hs]; simpa using hz), store_getElem? hs, store_getElem? (by simpa using hz)]
      simp only [tab_length]
      split <;> rfl
    · rw [store_length hs]
      rw [pr] at hz
      exact hz
    · intro r hr j hj
      have hr1 : (r + 1) * n ≤ ds.prod * n := Nat.mul_le_mul_right _ hr
      rw [Nat.add_mul, Nat.one_mul] at hr1
      rw [store_getElem? hs, if_pos (by simp [pr]; omega), Nat.add_sub_cancel_left, tab_snoc]
      have := tab_getElem? (fn2 x) (v2 hr hj)
      have e : offset [ds.prod, n] [r, j] = r * n + j := by simp
      rw [e] at this
      exact this

/-- Over the reals, without clamp: an entry of the recursion is `exp (x i)` over the sum of the exponentials of what the row
holds when it is computed. -/
theorem in_place_value {n : Nat} (x Z : Nat → ℝ)
    (hZ : ∀ i < n, Z i =
      let v := 1 / seqSum n fun j => Real.exp ((if j < i then Z j else x j) - x i)
      if 0 < v then v else 0) {i : Nat} (hi : i < n) :
    Z i = Real.exp (x i) / ∑ j ∈ range n, Real.exp (if j < i then Z j else x j) := by
  have e : (1 / seqSum n fun j => Real.exp ((if j < i then Z j else x j) - x i)) =
      Real.exp (x i) / ∑ j ∈ range n, Real.exp (if j < i then Z j else x j) := by
    rw [seqSum_eq_sum]
    have : ∀ j, Real.exp ((if j < i then Z j else x j) - x i) =
        Real.exp (if j < i then Z j else x j) / Real.exp (x i) := fun j => Real.exp_sub _ _
    simp only [this]
    rw [← Finset.sum_div, one_div_div]
  have pos : 0 < Real.exp (x i) / ∑ j ∈ range n, Real.exp (if j < i then Z j else x j) := by
    refine div_pos (Real.exp_pos _) (Finset.sum_pos (fun j _ => Real.exp_pos _) ⟨i, mem_range.2 hi⟩)
  rw [hZ i hi]
  simp only [e]
  rw [if_pos pos]

/-- C81: over the reals, without clamp, the first entry of every row is right; and a row comes out right as a whole exactly
if every entry but the last already was its own softmax before the call. -/
theorem C81_when_right (ds : List Nat) (n : Nat) (X : List Nat → ℝ) {z : Nat} {m : List ℝ}
    (hz : z + (ds ++ [n]).prod ≤ m.length) :
    ∃ Z : List Nat → ℝ,
      Ops.softmax Real.exp 0 (ds ++ [n]) (ds ++ [n]) (.mem z) z (store m z (tab (ds ++ [n]) X).data) =
        .ok (store m z (tab (ds ++ [n]) Z).data) ∧
      ∀ r, Valid ds r →
        (1 ≤ n → Z (r ++ [0]) = Spec.softmax n (fun j => X (r ++ [j])) 0) ∧
        ((∀ i < n, Z (r ++ [i]) = Spec.softmax n (fun j => X (r ++ [j])) i) ↔
          ∀ i, i + 1 < n → Spec.softmax n (fun j => X (r ++ [j])) i = X (r ++ [i])) := by
  obtain ⟨Z, hZ, run⟩ := C81_effect Real.exp 0 ds n X hz
  refine ⟨Z, run, fun r hr => ?_⟩
  let x : Nat → ℝ := fun j => X (r ++ [j])
  let y : Nat → ℝ := fun j => Z (r ++ [j])
  have val : ∀ i, i < n → y i = Real.exp (x i) / ∑ j ∈ range n, Real.exp (if j < i then y j else x j) := fun i hi =>
    in_place_value x y (fun i hi => hZ r hr i hi) hi
  have pos : ∀ w : Nat → ℝ, 0 < n → 0 < ∑ j ∈ range n, Real.exp (w j) := fun w hn =>
    Finset.sum_pos (fun j _ => Real.exp_pos _) ⟨0, mem_range.2 hn⟩
  have right : ∀ i < n, (y i = Spec.softmax n x i ↔
      ∑ j ∈ range n, Real.exp (if j < i then y j else x j) = ∑ j ∈ range n, Real.exp (x j)) := by
    intro i hi
    rw [val i hi, Spec.softmax, div_eq_div_iff (pos _ (by omega)).ne' (pos _ (by omega)).ne']
    constructor
    · intro h
      exact (mul_left_cancel₀ (Real.exp_pos (x i)).ne' h).symm
    · intro h
      rw [h]
  constructor
  · intro hn
    refine (right 0 (by omega)).2 (sum_congr rfl fun j _ => ?_)
    rw [if_neg (by omega)]
  · constructor
    · intro all i hi
      have a0 := (right i (by omega)).1 (all i (by omega))
      have a1 := (right (i + 1) hi).1 (all (i + 1) hi)
      have d : ∑ j ∈ range n, (Real.exp (if j < i + 1 then y j else x j) - Real.exp (if j < i then y j else x j)) =
          Real.exp (y i) - Real.exp (x i) := by
        rw [Finset.sum_eq_single_of_mem i (mem_range.2 (by omega))]
        · rw [if_pos (by omega), if_neg (by omega)]
        · intro j _ hj
          by_cases c : j < i
          · rw [if_pos (by omega), if_pos c, sub_self]
          · rw [if_neg (by omega), if_neg c, sub_self]
      rw [Finset.sum_sub_distrib, a0, a1, sub_self] at d
      have : y i = x i := Real.exp_injective (by linarith)
      rw [← all i (by omega)]
      exact this
    · intro fixed i
      induction i using Nat.strong_induction_on with
      | _ i ih =>
        intro hi
        refine (right i hi).2 (sum_congr rfl fun j _ => ?_)
        by_cases c : j < i
        · rw [if_pos c]
          have : y j = x j := (ih j c (by omega)).trans (fixed j (by omega))
          rw [this]
        · rw [if_neg c]

/-- Non-vacuity: both sides of the equivalence occur. In a row (s, t) with `s = e^s / (e^s + e^t)` the first entry is its own
softmax; in the row (0, 0) it is not. -/
example : (∃ t : ℝ, Spec.softmax 2 (fun j => if j = 0 then 1 / 2 else t) 0 = 1 / 2) ∧
    Spec.softmax 2 (fun _ => 0) 0 ≠ 0 := by
  refine ⟨⟨1 / 2, ?_⟩, ?_⟩
  · have := (Real.exp_pos (1 / 2)).ne'
    simp only [Spec.softmax, sum_range_succ, range_zero, sum_empty, zero_add, ite_self]
    field_simp
    norm_num
  · simp [Spec.softmax]

namespace Layers

/-- C85: what a dense layer with softmax as its activation argument returns, in any arithmetic: entry `j` of a row is
computed from the results in front of it and the scores behind it. -/
theorem C85_softmax_effect [Zero R] [One R] [Add R] [Sub R] [Mul R] [Div R] [LT R] [DecidableLT R] (exp : R → R) (eps : R)
    (junkW junkY junkB : Nat → R) {n m k : Nat} (hk : k < 2 ^ 32) (X W : Nat → Nat → R) (B : Nat → R) {wInit bInit : Init R}
    (hw : wInit [m, k] (fresh junkW [m, k].prod) = .ok (tab [m, k] (fn2 W)).data)
    (hb : bInit [k] (fresh junkB [k].prod) = .ok (tab [k] (fn1 B)).data) :
    ∃ Z : Nat → Nat → R,
      (∀ i < n, ∀ j < k,
        let S := fun l => (seqSum m fun q => X i q * W q l) + B l
        let v := 1 / seqSum k fun l => exp ((if l < j then Z i l else S l) - S j)
        Z i j = if eps < v then v else eps) ∧
      dense junkW junkY junkB (softmaxAct exp eps) k (tab [n, m] (fn2 X)) wInit bInit =
        ⟨3, .ok ⟨tab [n, k] (fn2 Z), [tab [m, k] (fn2 W), tab [k] (fn1 B)]⟩⟩ := by
  let S : Nat → Nat → R := fun i l => (seqSum m fun q => X i q * W q l) + B l
  obtain ⟨Z, hZ, run⟩ := C81_effect exp eps [n] k (fn2 S) (z := 0) (m := (tab [n, k] (fn2 S)).data) (by simp)
  refine ⟨fun i j => Z [i, j], fun i hi j hj => ?_, ?_⟩
  · exact hZ [i] (v1 hi) j hj
  · rw [dense_act, C77_dense junkW junkY junkB noop_acts hk X W B hw hb, Alloc.ok_bind]
    have s : softmaxAct exp eps [n, k] (tab [n, k] (fn2 S)).data = .ok (tab [n, k] (fn2 fun i j => Z [i, j])).data := by
      have e1 : store (tab [n, k] (fn2 S)).data 0 (tab [n, k] (fn2 S)).data = (tab [n, k] (fn2 S)).data := store_all rfl
      have e2 : store (tab [n, k] (fn2 S)).data 0 (tab [n, k] Z).data = (tab [n, k] Z).data := store_all (by simp)
      have : Ops.softmax exp eps [n, k] [n, k] (.mem 0) 0 (tab [n, k] (fn2 S)).data = .ok (tab [n, k] Z).data := by
        have := run
        simp only [List.cons_append, List.nil_append] at this
        rwa [e1, e2] at this
      unfold softmaxAct
      rw [this]
      refine congrArg (fun t => Outcome.ok (Tensor.data t)) (tab_congr fun idx hv => ?_)
      match idx, hv with
      | [i, j], _ => rfl
    have s' : softmaxAct exp eps (tab [n, k] (fn2 fun i j => id (S i j))).dims
        (tab [n, k] (fn2 fun i j => id (S i j))).data = .ok (tab [n, k] (fn2 fun i j => Z [i, j])).data := s
    simp only [S] at s'
    rw [s']
    rfl

/-- Non-vacuity: initialisers that fill a 1 × 2 weight and a bias, as in `C85_softmax`. -/
example (junkW junkB : Nat → ℝ) : ∃ wInit bInit : Init ℝ,
    wInit [1, 2] (fresh junkW [1, 2].prod) = .ok (tab [1, 2] (fn2 fun _ j => (j : ℝ))).data ∧
    bInit [2] (fresh junkB [2].prod) = .ok (tab [2] (fn1 fun j => (3 : ℝ) * j)).data :=
  ⟨fun _ _ => .ok _, fun _ _ => .ok _, rfl, rfl⟩

end Layers

/-! ## Concrete cases -/

example := C81_effect Real.exp (1 / 1000000) [2] 3 (fun p => ((p.headD 0 : Nat) : ℝ)) (z := 1) (m := List.replicate 8 0) (by decide)
example := C81_when_right [2] 3 (fun p => ((p.headD 0 : Nat) : ℝ)) (z := 1) (m := List.replicate 8 0) (by decide)
example := Layers.C85_softmax_effect Real.exp (1 / 1000000) (fun _ => 0) (fun _ => 1) (fun _ => 2) (n := 2) (m := 1) (k := 2) (by decide)
  (fun i j => (i : ℝ) - j) (fun _ j => (j : ℝ)) (fun j => (3 : ℝ) * j) (wInit := fun _ _ => .ok _) (bInit := fun _ _ => .ok _) rfl rfl

end StdNN
