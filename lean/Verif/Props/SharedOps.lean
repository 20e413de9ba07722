import Verif.Props.Shared
import Verif.Props.Elementwise
import Verif.Props.PoolPolicy
/-!
# Gradients, convolution and pooling that share memory with their inputs
-/
namespace StdNN
open Outcome Spec IntTy
variable {R : Type}
namespace Shared

/-- Calls that write consecutive blocks, each right if the memory from its own block on is still as it was. -/
theorem run_blocks {rows len z : Nat} {mem v : List R} {body : Nat → List R → Outcome (List R)} (hv : v.length = rows * len)
    (hz : z + rows * len ≤ mem.length)
    (hb : ∀ i < rows, ∀ m' : List R, m'.length = mem.length → (∀ p, p < z ∨ z + i * len ≤ p → m'[p]? = mem[p]?) →
      body i m' = .ok (store m' (z + i * len) (cells (i * len) len v))) :
    forRange rows body mem = .ok (store mem z v) := by
  obtain ⟨m', e, hl, hp⟩ := forRange_inv' (n := rows) (body := body)
    (fun i (m' : List R) => m'.length = mem.length ∧
      ∀ p, m'[p]? = if z ≤ p ∧ p < z + i * len then v[p - z]? else mem[p]?) (s := mem)
    ⟨rfl, fun p => by rw [if_neg (by omega)]⟩
    (by
      intro i hi m' ⟨hl, hp⟩
      have hi' : i * len + len ≤ rows * len := by
        have : (i + 1) * len ≤ rows * len := Nat.mul_le_mul_right _ hi
        rwa [Nat.add_mul, Nat.one_mul] at this
      have hc : (cells (i * len) len v).length = len := cells_length (by omega)
      refine ⟨_, hb i hi m' hl fun p h => by rw [hp, if_neg (by omega)], ?_, fun p => ?_⟩
      · rw [store_length (by omega), hl]
      · rw [store_getElem? (by omega), hc, hp, Nat.add_mul, Nat.one_mul]
        by_cases c : z + i * len ≤ p ∧ p < z + i * len + len
        · rw [if_pos c, if_pos (by omega), cells_getElem? (by omega)]
          congr 1
          omega
        · rw [if_neg c]
          by_cases c' : z ≤ p ∧ p < z + i * len
          · rw [if_pos c', if_pos (by omega)]
          · rw [if_neg c', if_neg (by omega)])
  rw [e]
  refine congrArg Outcome.ok (List.ext_getElem? fun p => ?_)
  rw [hp, store_getElem? (by omega), hv]

/-! ## Gradients -/

/-- The gradients of `mul` may be written onto either argument. -/
theorem C166_mul_grad [Zero R] [Mul R] {gz other : Src R} {g : Nat} {mem v w : List R} (hg : gz.Holds mem g v)
    (ho : other.Holds mem g w) (hvw : v.length = w.length) (hz : g + v.length ≤ mem.length) :
    mulGrad v.length gz other g mem = .ok (store mem g (List.zipWith (fun a b => a * b) v w)) :=
  C21_mul hg ho hvw hz

/-- The gradients that are copies (of `add`, of a bias, of a reshape) and `copy_flatten` itself must not be written onto their
argument: that is a `std::copy` of a range onto itself, which is undefined. Onto the memory right behind the argument, or
anywhere before it, it is fine. -/
theorem C166_copy [Zero R] {n p z : Nat} {mem v : List R} (hv : v.length = n) (hm : ∀ i < n, mem[p + i]? = v[i]?)
    (hz : z + n ≤ mem.length) :
    (p ≤ z ∧ z < p + n → copyGrad n (.mem p) z mem = .ub) ∧
    (z < p ∨ p + n ≤ z → copyGrad n (.mem p) z mem = .ok (store mem z v)) := by
  refine ⟨fun h => by simp only [copyGrad, Kernels.copy, if_pos h], fun h => ?_⟩
  rw [copyGrad, Kernels.copy, if_neg (by omega), Kernels.transform1]
  refine run_store hv hz fun i hi m' _ hp => ?_
  refine ⟨v[i]'(by omega), by simp, ?_⟩
  have e : m'[p + i]? = some (v[i]'(by omega)) := by
    rw [hp _ (by omega), hm i hi, List.getElem?_eq_getElem]
  simp only [Src.rd, StdNN.rd, e, Outcome.ok_bind]
  rfl

/-- The gradient of a bias, from a matrix anywhere outside the result: the sums of the columns, added from the top. -/
theorem C166_sum_rows [Zero R] [Add R] {rows cols z : Nat} {x : Src R} (X : Nat → Nat → R) {mem : List R}
    (hx : ∀ m' : List R, (∀ p, p < z ∨ z + cols ≤ p → m'[p]? = mem[p]?) →
      ∀ i < rows, ∀ j < cols, x.rd m' (i * cols + j) = .ok (X i j)) (hz : z + cols ≤ mem.length) :
    sumRows rows cols x z mem = .ok (store mem z (tab [cols] (fn1 fun j => seqSum rows fun i => X i j)).data) := by
  have len : ∀ g : Nat → R, (tab [cols] (fn1 g)).data.length = cols := fun g => by simp
  have get : ∀ (g : Nat → R) {j : Nat}, j < cols → (tab [cols] (fn1 g)).data[j]? = some (g j) := by
    intro g j hj
    simpa using tab_getElem? (fn1 g) (v1 hj)
  have e0 : onSlice z cols (fillAll (0 : R)) mem =
      .ok (store mem z (tab [cols] (fn1 fun j => seqSum 0 fun i => X i j)).data) := by
    refine onSlice_ok hz ?_ (len _)
    have hl : (cells z cols mem).length = cols := cells_length hz
    refine congrArg Outcome.ok (data_eq_tab (by simp [hl]) fun idx hv => ?_)
    match idx, hv with
    | [j], hv =>
      have hj : j < cols := hv.1
      simp [seqSum, hl, hj]
  rw [sumRows, e0, Outcome.ok_bind]
  have key := forRange_inv' (n := rows) (body := fun i mem => Kernels.transform2 (· + ·) cols (.mem z) (x.shift (i * cols)) z mem)
    (fun i (m' : List R) => m' = store mem z (tab [cols] (fn1 fun j => seqSum i fun t => X t j)).data)
    (s := store mem z (tab [cols] (fn1 fun j => seqSum 0 fun i => X i j)).data) rfl
    (by
      intro i hi m' e
      subst e
      refine ⟨_, ?_, rfl⟩
      have hl := store_length (m := mem) (z := z) (v := (tab [cols] (fn1 fun j => seqSum i fun t => X t j)).data) (by rw [len]; omega)
      have := run_store (n := cols) (z := z) (m := store mem z (tab [cols] (fn1 fun j => seqSum i fun t => X t j)).data)
        (v := (tab [cols] (fn1 fun j => seqSum (i + 1) fun t => X t j)).data)
        (body := fun j mem => (Src.mem z).rd mem j >>= fun a => (x.shift (i * cols)).rd mem j >>= fun b => StdNN.wr mem (z + j) (a + b))
        (len _) (by rw [hl]; exact hz) (by
          intro j hj m' _ hp
          refine ⟨_, get _ hj, ?_⟩
          have r1 : (Src.mem z : Src R).rd m' j = .ok (seqSum i fun t => X t j) := by
            simp only [Src.rd, StdNN.rd, hp (z + j) (by omega)]
            rw [store_getElem? (by rw [len]; omega), if_pos (by rw [len]; omega), Nat.add_sub_cancel_left, get _ hj]
          have r2 : (x.shift (i * cols)).rd m' j = .ok (X i j) := by
            have : (x.shift (i * cols)).rd m' j = x.rd m' (i * cols + j) := by
              cases x with
              | ext b => simp [Src.shift, Src.rd, StdNN.rd]
              | mem p => simp [Src.shift, Src.rd, StdNN.rd, Nat.add_assoc]
            rw [this]
            refine hx m' (fun p h => ?_) i hi j hj
            rw [hp p (by omega), store_getElem? (by rw [len]; omega), if_neg (by rw [len]; omega)]
          simp only [r1, r2, Outcome.ok_bind, seqSum])
      refine Eq.trans this ?_
      rw [store_again (by rw [len]; exact hz) (by rw [len, len])])
  obtain ⟨m', e, rfl⟩ := key
  exact e

/-- A bias that lies in the same memory, outside the result: the kernel for any layout of the channels. -/
theorem C166_bias [Zero R] {f : R → R → R} {p z : Nat} {dims : List Nat} {x y : Src R} (X : List Nat → R) (B : Nat → R)
    {mem : List R} (hx : x.Holds mem z (tab dims X).data)
    (hy : ∀ m' : List R, (∀ q, q < z ∨ z + dims.prod ≤ q → m'[q]? = mem[q]?) →
      ∀ idx, Valid dims idx → y.rd m' (idx.getD p 0) = .ok (B (idx.getD p 0)))
    (hz : z + dims.prod ≤ mem.length) :
    applyBias f p dims x y z mem = .ok (store mem z (tab dims fun idx => f (X idx) (B (idx.getD p 0))).data) := by
  refine run_store (by simp) hz fun i hi m' _ hp => ?_
  have hv := valid_unravel hi
  have ho := offset_unravel hi
  refine ⟨f (X (unravel dims i)) (B ((unravel dims i).getD p 0)), ?_, ?_⟩
  · have := tab_getElem? (fun idx => f (X idx) (B (idx.getD p 0))) hv
    rwa [ho] at this
  · have r1 : x.rd m' i = .ok (X (unravel dims i)) := by
      rw [hx.rd (by simpa using hi) hp]
      have := tab_getElem? X hv
      rw [ho, List.getElem?_eq_getElem (by simpa using hi)] at this
      rw [Option.some.inj this]
    rw [r1, Outcome.ok_bind, hy m' (fun q h => hp q (by omega)) _ hv, Outcome.ok_bind]

example : sumRows 2 2 (.mem 0) 4 [1, 2, 3, 4, 7, 7, 7] = .ok [1, 2, 3, 4, (4 : Int), 6, 7] ∧
    applyBias (fun a b : Int => a + b) 1 [1, 2, 2] (.mem 0) (.mem 4) 0 [1, 2, 3, 4, 10, 20] = .ok [11, 12, 23, 24, 10, 20] := by
  constructor <;> decide

/-- The gradient of `xentropy` may be written onto the labels or onto the predictions. -/
theorem C166_xentropy [Zero R] [Mul R] [Neg R] [Div R] {rows n : Nat} (GZ : Nat → R) (X Y : Nat → Nat → R) {x y : Src R}
    {gx : Nat} {mem : List R} (hx : x.Holds mem gx (tab [rows, n] (fn2 X)).data)
    (hy : y.Holds mem gx (tab [rows, n] (fn2 Y)).data) (hz : gx + rows * n ≤ mem.length) :
    xentropyGrad rows n (tab [rows] (fn1 GZ)).data x y gx mem =
      .ok (store mem gx (tab [rows, n] (fn2 fun r i => GZ r * (-X r i / Y r i))).data) := by
  have sh : ∀ (s : Src R) (o : Nat) (m : List R) (j : Nat), (s.shift o).rd m j = s.rd m (o + j) := by
    intro s o m j
    cases s with
    | ext b => simp [Src.shift, Src.rd, StdNN.rd]
    | mem p => simp [Src.shift, Src.rd, StdNN.rd, Nat.add_assoc]
  have e : xentropyGrad rows n (tab [rows] (fn1 GZ)).data x y gx mem =
      forRange (rows * n) (fun p mem => do
        let a ← x.rd mem p
        let b ← y.rd mem p
        wr mem (gx + p) (GZ (p / n) * (-a / b))) mem := by
    rw [← forRange_nest, xentropyGrad]
    refine forRange_congr (fun i hi s => forRange_congr (fun j hj s => ?_) s) _
    have h1 : (i * n + j) / n = i := by
      rw [Nat.mul_comm, Nat.mul_add_div (by omega), Nat.div_eq_of_lt hj, Nat.add_zero]
    have h2 : rd (tab [rows] (fn1 GZ)).data i = .ok (GZ i) := by
      have := tab_getElem? (fn1 GZ) (v1 hi)
      have o : offset [rows] [i] = i := by simp
      rw [o] at this
      simp [rd, this]
    simp only [h1, h2, sh, Outcome.ok_bind, Nat.add_assoc]
  rw [e]
  refine run_store (by simp) hz fun p hp m' _ hm => ?_
  have hn : 0 < n := by
    rcases Nat.eq_zero_or_pos n with h | h
    · subst h; simp at hp
    · exact h
  have hi : p / n < rows := by rwa [Nat.div_lt_iff_lt_mul hn]
  have hj : p % n < n := Nat.mod_lt _ hn
  have o : offset [rows, n] [p / n, p % n] = p := by
    simp [Nat.div_add_mod']
  have g : ∀ F : Nat → Nat → R, (tab [rows, n] (fn2 F)).data[p]? = some (F (p / n) (p % n)) := by
    intro F
    have := tab_getElem? (fn2 F) (v2 hi hj)
    rwa [o] at this
  have gg : ∀ (F : Nat → Nat → R) (h : p < (tab [rows, n] (fn2 F)).data.length),
      (tab [rows, n] (fn2 F)).data[p] = F (p / n) (p % n) := by
    intro F h
    have := g F
    rw [List.getElem?_eq_getElem h] at this
    exact Option.some.inj this
  refine ⟨_, g _, ?_⟩
  rw [hx.rd (by simpa using hp) hm, Outcome.ok_bind, hy.rd (by simpa using hp) hm, Outcome.ok_bind, gg, gg]

section
variable [Zero R] [One R] [Add R] [Sub R] [Mul R] [Neg R]

/-- The matrix of one row of the `softmax` gradient is computed before anything is written. -/
theorem softmaxGradRow_vm (junk : Nat → R) {n : Nat} (Y : Nat → R) {gy y : Src R} {gx : Nat} {mem : List R}
    (hy : ∀ i < n, y.rd mem i = .ok (Y i)) :
    softmaxGradRow junk n gy y gx mem = vm [n] [n, n] [n] gy
      (.ext (tab [n, n] (fn2 fun i j => if i = j then Y i * (1 - Y i) else -Y i * Y j)).data) gx mem := by
  have ya : ∀ i < n, y.at_ [n] [i] mem = .ok (Y i) := fun i hi => by
    have o : offset [n] [i] = i := by simp
    rw [Src.at_, o, hy i hi]
  have h := Plain.run_store2 (m := n) (n := n) (c := (List.range (n * n)).map junk)
    (val := fun i j => if i = j then Y i * (1 - Y i) else -Y i * Y j) (by simp)
  rw [softmaxGradRow]
  have e : forRange n (fun i g => forRange n (fun j g => do
      if i = j then
        let v ← y.at_ [n] [i] mem
        wr g (offset [n, n] [i, j]) (v * (1 - v))
      else
        let a ← y.at_ [n] [i] mem
        let b ← y.at_ [n] [j] mem
        wr g (offset [n, n] [i, j]) (-a * b)) g) ((List.range (n * n)).map junk) =
      .ok (tab [n, n] (fn2 fun i j => if i = j then Y i * (1 - Y i) else -Y i * Y j)).data := by
    rw [← h]
    refine forRange_congr (fun i hi s => forRange_congr (fun j hj s => ?_) s) _
    by_cases c : i = j
    · rw [if_pos c, if_pos c, ya i hi, Outcome.ok_bind]
    · rw [if_neg c, if_neg c, ya i hi, Outcome.ok_bind, ya j hj, Outcome.ok_bind]
  rw [e, Outcome.ok_bind]

omit [Zero R] [One R] [Add R] [Sub R] [Mul R] [Neg R] in
theorem shift_rd (s : Src R) (o : Nat) (m : List R) (j : Nat) : (s.shift o).rd m j = s.rd m (o + j) := by
  cases s with
  | ext b => simp [Src.shift, Src.rd, StdNN.rd]
  | mem p => simp [Src.shift, Src.rd, StdNN.rd, Nat.add_assoc]

omit [One R] [Add R] [Sub R] [Mul R] [Neg R] in
theorem rows_cells {rows n i : Nat} (F : Nat → Nat → R) (hi : i < rows) :
    cells (i * n) n (tab [rows, n] (fn2 F)).data = (tab [n] (fn1 (F i))).data := by
  have h := congrArg Tensor.data (tab_sub (d := rows) (ds := [n]) (fn2 F) hi)
  simp only [Tensor.sub, tab_dims, List.tail_cons, List.prod_cons, List.prod_nil, Nat.mul_one] at h
  rw [cells, h]
  refine congrArg Tensor.data (tab_congr fun idx hv => ?_)
  match idx, hv with
  | [j], _ => simp

omit [One R] [Add R] [Sub R] [Mul R] [Neg R] in
theorem rows_get {rows n i j : Nat} (F : Nat → Nat → R) (hi : i < rows) (hj : j < n) :
    (tab [rows, n] (fn2 F)).data[i * n + j]? = some (F i j) := by
  have := tab_getElem? (fn2 F) (v2 hi hj)
  have e : offset [rows, n] [i, j] = i * n + j := by simp
  rwa [e] at this

omit [Zero R] [One R] [Add R] [Sub R] [Mul R] [Neg R] in
theorem row_le {rows n i : Nat} (hi : i < rows) : i * n + n ≤ rows * n := by
  have : (i + 1) * n ≤ rows * n := Nat.mul_le_mul_right _ hi
  rwa [Nat.add_mul, Nat.one_mul] at this

/-- The gradient of `softmax` may be written onto the output of `softmax` (or any other memory that does not hold the
incoming gradient). -/
theorem C166_softmax_onto_output (junk : Nat → R) {rows n : Nat} (G Y : Nat → Nat → R) {y : Src R} {gx : Nat} {mem : List R}
    (hy : y.Holds mem gx (tab [rows, n] (fn2 Y)).data) (hz : gx + rows * n ≤ mem.length) :
    softmaxGrad junk rows n (.ext (tab [rows, n] (fn2 G)).data) y gx mem =
      .ok (store mem gx (tab [rows, n] (fn2 fun r j => seqSum n fun i => G r i *
        if i = j then Y r i * (1 - Y r i) else -Y r i * Y r j)).data) := by
  refine run_blocks (by simp) hz fun r hr m' hl hm => ?_
  have hr' := row_le (n := n) hr
  have len : (tab [rows, n] (fn2 Y)).data.length = rows * n := by simp
  rw [softmaxGradRow_vm junk (Y r) (fun i hi => ?_), rows_cells _ hr]
  · have e : (Src.ext (tab [rows, n] (fn2 G)).data).shift (r * n) = .ext ((tab [rows, n] (fn2 G)).data.drop (r * n)) := rfl
    have hz' : gx + r * n + [n].prod ≤ m'.length := by simp; omega
    rw [e, show [n] = [n] from rfl]
    have L := (vm_lift (m := n) (n := n) (l := n) (a := (tab [rows, n] (fn2 G)).data.drop (r * n))
      (b := (tab [n, n] (fn2 fun i j => if i = j then Y r i * (1 - Y r i) else -Y r i * Y r j)).data) hz').eq m' rfl
    rw [L]
    refine onSlice_ok hz' ?_ (by simp)
    simp only [Plain.vm, contractAssert_pos, Outcome.ok_bind]
    rw [← Plain.run_store1 (val := fun j => seqSum n fun i => G r i *
        if i = j then Y r i * (1 - Y r i) else -Y r i * Y r j) (by simpa using cells_length hz')]
    have hp : [n].prod = n := by simp
    rw [hp]
    refine forRange_congr (fun i hi s => ?_) _
    rw [forRange_sum (f := fun k => G r k * if k = i then Y r k * (1 - Y r k) else -Y r k * Y r i)]
    · rfl
    · intro k hk s
      have g1 : Tensor.at_ ⟨[n], (tab [rows, n] (fn2 G)).data.drop (r * n)⟩ [k] = .ok (G r k) := by
        have o : offset [n] [k] = k := by simp
        simp only [Tensor.at_, o]
        exact rd_row G hr hk
      have g2 := tab_at (fn2 fun i j => if i = j then Y r i * (1 - Y r i) else -Y r i * Y r j) (v2 hk hi)
      have g2' : Tensor.at_ ⟨[n, n], (tab [n, n] (fn2 fun i j =>
        if i = j then Y r i * (1 - Y r i) else -Y r i * Y r j)).data⟩ [k, i] = _ := g2
      rw [g1, Outcome.ok_bind, g2', Outcome.ok_bind]
      rfl
  · rw [shift_rd]
    have g := rows_get Y hr hi
    cases y with
    | ext b =>
      have := hy (r * n + i) (by omega)
      rw [g] at this
      simp [Src.rd, rd, this]
    | mem p =>
      have := hy.2 (r * n + i) (by omega)
      have o := hy.1
      rw [g] at this
      rw [Src.rd, rd, hm _ (by omega), this]

/-- Written onto the incoming gradient, every entry is computed from the results to the left of it. -/
theorem C166_softmax_onto_gradient (junk : Nat → R) {rows n : Nat} (G Y : Nat → Nat → R) {gx : Nat} {mem : List R}
    (hz : gx + rows * n ≤ mem.length) :
    ∃ Z : Nat → Nat → R,
      (∀ r < rows, ∀ j < n, Z r j = seqSum n fun i => (if i < j then Z r i else G r i) *
        if i = j then Y r i * (1 - Y r i) else -Y r i * Y r j) ∧
      softmaxGrad junk rows n (.mem gx) (.ext (tab [rows, n] (fn2 Y)).data) gx (store mem gx (tab [rows, n] (fn2 G)).data) =
        .ok (store mem gx (tab [rows, n] (fn2 Z)).data) := by
  have hs : gx + (tab [rows, n] (fn2 G)).data.length ≤ mem.length := by simpa using hz
  have ex : ∀ r, ∃ Z : Nat → R, ∀ j, Z j = seqSum n fun i => (if i < j then Z i else G r i) *
      if i = j then Y r i * (1 - Y r i) else -Y r i * Y r j :=
    fun r => seen_exists (fun j g => seqSum n fun i => g i * if i = j then Y r i * (1 - Y r i) else -Y r i * Y r j) (G r)
  choose Z hZ using ex
  refine ⟨Z, fun r _ j _ => hZ r j, ?_⟩
  rw [softmaxGrad, run_blocks (len := n) (v := (tab [rows, n] (fn2 Z)).data) (by simp) (by rw [store_length hs]; exact hz),
    store_again hs (by simp)]
  intro r hr m' hl hm
  rw [store_length hs] at hl
  have hr' := row_le (n := n) hr
  rw [softmaxGradRow_vm junk (Y r) (fun i hi => by rw [shift_rd, Src.rd, rd, rows_get Y hr hi]), rows_cells _ hr]
  have hm' : m' = store m' (gx + r * n) (tab [n] (fn1 (G r))).data := by
    rw [← rows_cells G hr]
    refine List.ext_getElem? fun p => ?_
    have hc : (cells (r * n) n (tab [rows, n] (fn2 G)).data).length = n := cells_length (by simpa using hr')
    rw [store_getElem? (by omega), hc]
    split
    · rename_i c
      rw [hm p (by omega), store_getElem? hs, if_pos (by simp; omega), cells_getElem? (by omega)]
      congr 1
      omega
    · rfl
  obtain ⟨Z', hZ', run⟩ := (C165_vector (n := n) (z := gx + r * n) (mem := m')
    (fun i j => if i = j then Y r i * (1 - Y r i) else -Y r i * Y r j) (G r) (by omega)).2
  have e : (Src.mem gx : Src R).shift (r * n) = .mem (gx + r * n) := rfl
  rw [e]
  rw [← hm'] at run
  rw [run]
  have eZ : ∀ j < n, Z' j = Z r j := by
    intro j
    induction j using Nat.strong_induction_on with
    | _ j ih =>
      intro hj
      rw [hZ' j hj, hZ r j]
      refine seqSum_congr fun i hi => ?_
      by_cases c : i < j
      · rw [if_pos c, if_pos c, ih i c hi]
      · rw [if_neg c, if_neg c]
  refine congrArg (fun t => Outcome.ok (store m' (gx + r * n) (Tensor.data t))) (tab_congr fun idx hv => ?_)
  match idx, hv with
  | [j], hv => simpa using eZ j hv.1
end

/-! ## Convolution -/

theorem convGradX_lift [Zero R] [Add R] [Mul R] (t : ConvTrait) (junk : Nat → R) (gxd gzd yd : List Nat) (gz y : Src R)
    {gx : Nat} {mem : List R} (hz : gx + gxd.prod ≤ mem.length) :
    convGradX t junk gxd gzd yd gz y gx mem =
      onSlice gx gxd.prod (Kernels.convGradX t junk gxd (gz.now gzd mem) (y.now yd mem)) mem := by
  have d1 : (gz.now gzd mem).dims = gzd := by cases gz <;> rfl
  have d2 : (y.now yd mem).dims = yd := by cases y <;> rfl
  unfold convGradX Kernels.convGradX
  simp only [d1, d2]
  rw [onSlice_bind hz]
  congr 1
  funext rs
  rw [onSlice_bind hz]
  congr 1
  funext hs
  rw [onSlice_bind hz]
  congr 1
  funext ws
  rw [onSlice_bind hz]
  congr 1
  funext upper
  rw [onSlice_bind hz]

/-- In any arithmetic, an `nhwc` convolution onto memory that overlaps its image, the gradient by the image onto memory that
overlaps the incoming gradient or the filter, and an `nchw` convolution onto its own image whose examples do not get larger
have the effect of the same call on separate copies of the arguments. -/
theorem C166_conv_any [Zero R] [Add R] [Mul R] (t : ConvTrait) (junkI : Nat → Int) (junk : Nat → R) (zd xd yd : List Nat)
    (y : List R) (p q z : Nat) (mem : List R) :
    (z + zd.prod ≤ mem.length → convNhwc t junkI junk zd xd yd (.mem p) (.ext y) z mem =
      onSlice z zd.prod (Kernels.convNhwc t junkI junk zd ⟨xd, (mem.drop p).take xd.prod⟩ ⟨yd, y⟩) mem) ∧
    (z + xd.prod ≤ mem.length → convGradX t junk xd zd yd (.mem p) (.mem q) z mem =
      onSlice z xd.prod (Kernels.convGradX t junk xd ⟨zd, (mem.drop p).take zd.prod⟩ ⟨yd, (mem.drop q).take yd.prod⟩) mem) ∧
    (∀ n, z + (n :: zd).prod ≤ mem.length → zd.prod ≤ xd.prod →
      convNchw t junk (n :: zd) (n :: xd) yd (.mem z) (.ext y) z mem =
        onSlice z (n :: zd).prod (Kernels.convNchw t junk (n :: zd) ⟨n :: xd, (mem.drop z).take (n :: xd).prod⟩ ⟨yd, y⟩) mem) :=
  ⟨fun h => convNhwc_lift t junkI junk zd xd yd (.mem p) y h, fun h => convGradX_lift t junk xd zd yd (.mem p) (.mem q) h,
    fun n h hp => convNchw_lift t junk n zd xd yd y h hp⟩

section
variable [CommSemiring R]

/-- `nhwc` convolution: the output may overlap the image in any way, since all of the image is copied before anything is
written. -/
theorem C166_conv {H W : Axis} (hH : AxisOK u32 H) (hW : AxisOK u32 W) {n c d : Nat}
    (hsz : [H.n, W.n, c].prod ≤ 2 ^ 31) (X Y : Nat → Nat → Nat → Nat → R) (junkI : Nat → Int) (junk : Nat → R) {p z : Nat}
    {mem : List R} (hx : (mem.drop p).take (n * H.n * W.n * c) = (tab [n, H.n, W.n, c] (fn4 X)).data)
    (hz : z + n * H.m * W.m * d ≤ mem.length) :
    convNhwc (convTrait H W) junkI junk [n, H.m, W.m, d] [n, H.n, W.n, c] [H.k, W.k, c, d] (.mem p)
        (.ext (tab [H.k, W.k, c, d] (fn4 Y)).data) z mem =
      .ok (store mem z (tab [n, H.m, W.m, d] (fn4 fun b i j e => conv2 H W c (X b) Y i j e)).data) := by
  have hz' : z + [n, H.m, W.m, d].prod ≤ mem.length := by simpa [Nat.mul_assoc] using hz
  have e : (Src.mem p).now [n, H.n, W.n, c] mem = tab [n, H.n, W.n, c] (fn4 X) := by
    have : [n, H.n, W.n, c].prod = n * H.n * W.n * c := by simp [Nat.mul_assoc]
    rw [Src.now, this, hx]
    rfl
  rw [convNhwc_lift _ _ _ _ _ _ _ _ hz', e]
  exact onSlice_ok hz' (Kernels.convNhwc_run hH hW hsz X Y junkI junk (cells_length hz')) (by simp)

/-- `nchw` convolution onto its image: right if an example of the output is not larger than one of the input, since then no
example is overwritten before it is used. -/
theorem C166_conv_nchw {H W : Axis} (hH : AxisOK u32 H) (hW : AxisOK u32 W) {n c d : Nat}
    (X Y : Nat → Nat → Nat → Nat → R) (junk : Nat → R) {z : Nat} (hp : d * H.m * W.m ≤ c * H.n * W.n)
    {mem : List R} (hx : (mem.drop z).take (n * c * H.n * W.n) = (tab [n, c, H.n, W.n] (fn4 X)).data)
    (hz : z + n * d * H.m * W.m ≤ mem.length) :
    convNchw (convTrait H W) junk [n, d, H.m, W.m] [n, c, H.n, W.n] [d, c, H.k, W.k] (.mem z)
        (.ext (tab [d, c, H.k, W.k] (fn4 Y)).data) z mem =
      .ok (store mem z (tab [n, d, H.m, W.m] (fn4 fun b e i j =>
        conv2 H W c (fun a a' k => X b k a a') (fun u v k e => Y e k u v) i j e)).data) := by
  have hz' : z + [n, d, H.m, W.m].prod ≤ mem.length := by simpa [Nat.mul_assoc] using hz
  have e : (⟨[n, c, H.n, W.n], cells z [n, c, H.n, W.n].prod mem⟩ : Tensor R) = tab [n, c, H.n, W.n] (fn4 X) := by
    have : [n, c, H.n, W.n].prod = n * c * H.n * W.n := by simp [Nat.mul_assoc]
    rw [this, cells, hx]
    rfl
  rw [convNchw_lift _ _ _ _ _ _ _ hz' (by simpa [Nat.mul_assoc] using hp), e]
  exact onSlice_ok hz' (Kernels.convNchw_run hH hW X Y junk (cells_length hz')) (by simp)

/-- The gradient of the `nhwc` convolution by its image may be written onto the incoming gradient, onto the filter, or
anywhere else. -/
theorem C166_conv_grad {H W : Axis} (hH : AxisOK u32 H) (hW : AxisOK u32 W) {n c d : Nat}
    (G Y : Nat → Nat → Nat → Nat → R) (junk : Nat → R) {p q gx : Nat} {mem : List R}
    (hg : (mem.drop p).take (n * H.m * W.m * d) = (tab [n, H.m, W.m, d] (fn4 G)).data)
    (hy : (mem.drop q).take (H.k * W.k * c * d) = (tab [H.k, W.k, c, d] (fn4 Y)).data)
    (hz : gx + n * H.n * W.n * c ≤ mem.length) :
    convGradX (convTrait H W) junk [n, H.n, W.n, c] [n, H.m, W.m, d] [H.k, W.k, c, d] (.mem p) (.mem q) gx mem =
      .ok (store mem gx (tab [n, H.n, W.n, c] (fn4 fun e a b k =>
        ∑ i ∈ Finset.range H.m, ∑ j ∈ Finset.range W.m, ∑ u ∈ Finset.range H.k, ∑ v ∈ Finset.range W.k,
          if H.Hits i u a ∧ W.Hits j v b then ∑ o ∈ Finset.range d, G e i j o * Y u v k o else 0)).data) := by
  have hz' : gx + [n, H.n, W.n, c].prod ≤ mem.length := by simpa [Nat.mul_assoc] using hz
  have e1 : (Src.mem p).now [n, H.m, W.m, d] mem = tab [n, H.m, W.m, d] (fn4 G) := by
    have : [n, H.m, W.m, d].prod = n * H.m * W.m * d := by simp [Nat.mul_assoc]
    rw [Src.now, this, hg]
    rfl
  have e2 : (Src.mem q).now [H.k, W.k, c, d] mem = tab [H.k, W.k, c, d] (fn4 Y) := by
    have : [H.k, W.k, c, d].prod = H.k * W.k * c * d := by simp [Nat.mul_assoc]
    rw [Src.now, this, hy]
    rfl
  rw [convGradX_lift _ _ _ _ _ _ _ hz', e1, e2]
  exact onSlice_ok hz' (Kernels.convGradX_run hH hW G Y junk (cells_length hz')) (by simp)
end

/-! ## Pooling -/

/-- The accumulation over one window when only the pixels from `(i, j)` on can still be read. -/
theorem pool_window_ahead {H W : Axis} (hH : AxisOK u32 H) (hW : AxisOK u32 W) (lH : H.l = 0) (lW : W.l = 0)
    (X : Nat → Nat → R) (acc : Acc R) {i j : Nat} (hi : i < H.m) (hj : j < W.m) (get : Nat → Nat → Outcome R)
    (hg : ∀ a < H.n, ∀ b < W.n, i ≤ a → j ≤ b → get a b = .ok (X a b)) (s : acc.S) :
    forRange H.k (fun u st => forRange W.k (fun v st => do
        let o ← Kernels.locate H.sample W.sample H.n W.n i j u v
        match o with
        | some (a, b) => do
          let xv ← get a b
          acc.step st xv
        | none => .ok st) st) s = (pixels H W X i j).foldlM acc.step s := by
  unfold pixels
  rw [← forRange_flatMap]
  refine forRange_congr (fun u hu st => ?_) s
  rw [← forRange_filterMap]
  refine forRange_congr (fun v hv st => ?_) st
  rw [locate_run hH hW hi hj hu hv, Outcome.ok_bind]
  unfold loc
  by_cases c : (H.l ≤ H.pos i u ∧ H.pos i u < H.l + H.n) ∧ W.l ≤ W.pos j v ∧ W.pos j v < W.l + W.n
  · simp only [if_pos c]
    have g1 : i ≤ H.pos i u - H.l := by
      have := Nat.mul_le_mul_left i hH.fits.s1
      simp only [Axis.pos, lH, Nat.mul_one] at this ⊢
      omega
    have g2 : j ≤ W.pos j v - W.l := by
      have := Nat.mul_le_mul_left j hW.fits.s1
      simp only [Axis.pos, lW, Nat.mul_one] at this ⊢
      omega
    rw [hg _ (by omega) _ (by omega) g1 g2]
    rfl
  · simp only [if_neg c]

/-- Pooling an image onto itself, or to memory that begins before it: right if nothing is padded before the axes and rows do
not get longer, since every window begins at or behind the entry it yields. -/
theorem C166_pool [Zero R] {H W : Axis} (hH : AxisOK u32 H) (hW : AxisOK u32 W) (lH : H.l = 0) (lW : W.l = 0)
    (hW' : W.m ≤ W.n) (acc : Acc R) (X Z : Nat → Nat → R)
    (hZ : ∀ i < H.m, ∀ j < W.m, acc.run (pixels H W X i j) = .ok (Z i j)) {p z : Nat} (hpz : z ≤ p) {mem : List R}
    (hx : ∀ a < H.n, ∀ b < W.n, mem[p + (a * W.n + b)]? = some (X a b)) (hz : z + H.m * W.m ≤ mem.length) :
    poolHw acc (poolTrait H W) [H.m, W.m] [H.n, W.n] (.mem p) z mem = .ok (store mem z (tab [H.m, W.m] (fn2 Z)).data) := by
  have e : poolHw acc (poolTrait H W) [H.m, W.m] [H.n, W.n] (.mem p) z mem =
      forRange (H.m * W.m) (fun t mem => do
        let st ← forRange H.k (fun u st => forRange W.k (fun v st => do
          let o ← Kernels.locate H.sample W.sample H.n W.n (t / W.m : Nat) (t % W.m : Nat) u v
          match o with
          | some (a, b) => do
            let xv ← (Src.mem p).at_ [H.n, W.n] [a, b] mem
            acc.step st xv
          | none => .ok st) st) acc.init
        let v ← acc.result st
        wr mem (z + t) v) mem := by
    rw [← forRange_nest, poolHw]
    refine forRange_congr (fun i hi s => forRange_congr (fun j hj s => ?_) s) _
    have h1 : (i * W.m + j) / W.m = i := by
      rw [Nat.mul_comm, Nat.mul_add_div (by omega), Nat.div_eq_of_lt hj, Nat.add_zero]
    have h2 : (i * W.m + j) % W.m = j := by
      rw [Nat.mul_comm, Nat.mul_add_mod, Nat.mod_eq_of_lt hj]
    have o : offset [H.m, W.m] [i, j] = i * W.m + j := by simp
    rw [h1, h2, o]
    rfl
  rw [e]
  refine run_store (by simp) hz fun t ht m' _ hm => ?_
  have hn : 0 < W.m := by
    rcases Nat.eq_zero_or_pos W.m with h | h
    · rw [h] at ht; simp at ht
    · exact h
  have hi : t / W.m < H.m := by rwa [Nat.div_lt_iff_lt_mul hn]
  have hj : t % W.m < W.m := Nat.mod_lt _ hn
  have ht' := Nat.div_add_mod' t W.m
  have gz := rows_get Z hi hj
  rw [ht'] at gz
  refine ⟨_, gz, ?_⟩
  have win := pool_window_ahead hH hW lH lW X acc hi hj (fun a b => (Src.mem p).at_ [H.n, W.n] [a, b] m')
    (by
      intro a ha b hb h1 h2
      have o : offset [H.n, W.n] [a, b] = a * W.n + b := by simp
      have le : t / W.m * W.m ≤ a * W.n := Nat.mul_le_mul h1 hW'
      have : m'[p + (a * W.n + b)]? = some (X a b) := by rw [hm _ (by omega), hx a ha b hb]
      simp only [Src.at_, Src.rd, o, rd, this]) acc.init
  have hz := hZ _ hi _ hj
  unfold Acc.run at hz
  rw [← win] at hz
  obtain ⟨st, h1, h2⟩ := Outcome.bind_eq_ok.1 hz
  refine (congrArg (fun o => o >>= fun st => acc.result st >>= fun v => wr m' (z + t) v) h1).trans ?_
  simp only [Outcome.ok_bind, h2]

/-- The same for batches of images with channels first: right if rows and images do not get larger. The operators on batches
move all padding behind the axes (`shifted`, C70). -/
theorem C166_pool_nchw [Zero R] {H W : Axis} (hH : AxisOK u32 H) (hW : AxisOK u32 W) (rH : H.r = 1) (rW : W.r = 1)
    (hW' : W.m ≤ W.n) (hHW : H.m * W.m ≤ H.n * W.n) (acc : Acc R) {n c : Nat} (X Z : Nat → Nat → Nat → Nat → R)
    (hZ : ∀ b < n, ∀ k < c, ∀ i < H.m, ∀ j < W.m,
      acc.run (pixels (shifted H) (shifted W) (X b k) i j) = .ok (Z b k i j)) {p z : Nat} (hpz : z ≤ p) {mem : List R}
    (hx : (mem.drop p).take (n * c * H.n * W.n) = (tab [n, c, H.n, W.n] (fn4 X)).data)
    (hz : z + n * c * H.m * W.m ≤ mem.length) :
    poolNchw acc (poolTrait H W) [n, c, H.m, W.m] [n, c, H.n, W.n] (.mem p) z mem =
      .ok (store mem z (tab [n, c, H.m, W.m] (fn4 Z)).data) := by
  have px : [n, c, H.n, W.n].prod = n * c * H.n * W.n := by simp [Nat.mul_assoc]
  unfold poolNchw
  rw [makeKS_run hH hW rH rW, Outcome.ok_bind]
  simp only [List.tail_cons]
  have e : ∀ m, forRange n (fun i m => forRange c (fun j m =>
      poolHw acc ⟨⟨⟨H.k, H.s, H.r⟩, ⟨0, 0⟩⟩, ⟨⟨W.k, W.s, W.r⟩, ⟨0, 0⟩⟩⟩ [H.m, W.m] [H.n, W.n]
        ((Src.mem p).shift (i * [c, H.n, W.n].prod + j * [H.n, W.n].prod))
        (z + i * [c, H.m, W.m].prod + j * [H.m, W.m].prod) m) m) m =
      forRange (n * c) (fun q m => poolHw acc (poolTrait (shifted H) (shifted W)) [H.m, W.m] [H.n, W.n]
        (.mem (p + q * (H.n * W.n))) (z + q * (H.m * W.m)) m) m := by
    intro m
    rw [← forRange_nest]
    refine forRange_congr (fun i hi s => forRange_congr (fun j hj s => ?_) s) m
    have e1 : i * [c, H.n, W.n].prod + j * [H.n, W.n].prod = (i * c + j) * (H.n * W.n) := by simp; ring
    have e2 : z + i * [c, H.m, W.m].prod + j * [H.m, W.m].prod = z + (i * c + j) * (H.m * W.m) := by simp; ring
    rw [e1, e2]
    rfl
  rw [e mem]
  refine run_blocks (len := H.m * W.m) (by simp [Nat.mul_assoc]) (by simpa [Nat.mul_assoc] using hz)
    fun q hq m' hl hm => ?_
  have hc : 0 < c := by
    rcases Nat.eq_zero_or_pos c with h | h
    · subst h; simp at hq
    · exact h
  have hb : q / c < n := by rwa [Nat.div_lt_iff_lt_mul hc]
  have hk : q % c < c := Nat.mod_lt _ hc
  have hq' := Nat.div_add_mod' q c
  have hqr := row_le (n := H.m * W.m) hq
  have hcell : cells (q * (H.m * W.m)) (H.m * W.m) (tab [n, c, H.m, W.m] (fn4 Z)).data =
      (tab [H.m, W.m] (fn2 (Z (q / c) (q % c)))).data := by
    refine List.ext_getElem? fun t => ?_
    by_cases ht : t < H.m * W.m
    · have hn : 0 < W.m := by
        rcases Nat.eq_zero_or_pos W.m with h | h
        · rw [h] at ht; simp at ht
        · exact h
      have hi : t / W.m < H.m := by rwa [Nat.div_lt_iff_lt_mul hn]
      have hj : t % W.m < W.m := Nat.mod_lt _ hn
      have ht' := Nat.div_add_mod' t W.m
      rw [cells_getElem? ht]
      have g := rows_get (Z (q / c) (q % c)) hi hj
      rw [ht'] at g
      rw [g]
      have g4 := tab_getElem? (fn4 Z) (v4 hb hk hi hj)
      have o : offset [n, c, H.m, W.m] [q / c, q % c, t / W.m, t % W.m] = q * (H.m * W.m) + t := by
        have : offset [n, c, H.m, W.m] [q / c, q % c, t / W.m, t % W.m] =
            (q / c * c + q % c) * (H.m * W.m) + (t / W.m * W.m + t % W.m) := by
          simp only [offset_cons, offset_nil, List.prod_cons, List.prod_nil]; ring
        rw [this, hq', ht']
      rw [o] at g4
      exact g4
    · rw [List.getElem?_eq_none (by rw [cells_length (by simp [Nat.mul_assoc] at hqr ⊢; omega)]; omega),
        List.getElem?_eq_none (by simpa using ht)]
  rw [hcell]
  refine C166_pool (shifted_ok hH) (shifted_ok hW) rfl rfl hW' acc (X (q / c) (q % c)) (Z (q / c) (q % c))
    (hZ _ hb _ hk) (Nat.add_le_add hpz (Nat.mul_le_mul_left _ hHW)) ?_ ?_
  swap
  · have e3 : n * c * H.m * W.m = n * c * (H.m * W.m) := Nat.mul_assoc _ _ _
    show z + q * (H.m * W.m) + H.m * W.m ≤ m'.length
    omega
  intro a ha b hb'
  have ha' : a < H.n := ha
  have hb'' : b < W.n := hb'
  have g4 := tab_getElem? (fn4 X) (v4 hb hk ha' hb'')
  have o : offset [n, c, H.n, W.n] [q / c, q % c, a, b] = q * (H.n * W.n) + (a * W.n + b) := by
    have : offset [n, c, H.n, W.n] [q / c, q % c, a, b] = (q / c * c + q % c) * (H.n * W.n) + (a * W.n + b) := by
      simp only [offset_cons, offset_nil, List.prod_cons, List.prod_nil]; ring
    rw [this, hq']
  have lt := offset_lt (v4 hb hk ha' hb'')
  rw [o, ← hx, List.getElem?_take_of_lt (by rw [← px, ← o]; exact lt), List.getElem?_drop] at g4
  have le : q * (H.m * W.m) ≤ q * (H.n * W.n) := Nat.mul_le_mul_left _ hHW
  have ga : p + q * (H.n * W.n) + (a * W.n + b) = p + (q * (H.n * W.n) + (a * W.n + b)) := Nat.add_assoc _ _ _
  show m'[p + q * (H.n * W.n) + (a * W.n + b)]? = _
  rw [ga, hm _ (by omega), g4]
  rfl

/-- Pooling of images with channels last, which goes through the image channel by channel: the output may begin a whole number
of pixels before the image, or where it does. -/
theorem C166_pool_hwc [Zero R] {H W : Axis} (hH : AxisOK u32 H) (hW : AxisOK u32 W) (lH : H.l = 0) (lW : W.l = 0)
    (hW' : W.m ≤ W.n) (acc : Acc R) {c : Nat} (X Z : Nat → Nat → Nat → R)
    (hZ : ∀ i < H.m, ∀ j < W.m, ∀ k < c, acc.run (pixels H W (fun a b => X a b k) i j) = .ok (Z i j k)) {e z : Nat}
    {mem : List R}
    (hx : ∀ a < H.n, ∀ b < W.n, ∀ k < c, mem[z + e * c + ((a * W.n + b) * c + k)]? = some (X a b k))
    (hz : z + H.m * W.m * c ≤ mem.length) :
    poolHwc acc (poolTrait H W) [H.m, W.m, c] [H.n, W.n, c] (.mem (z + e * c)) z mem =
      .ok (store mem z (tab [H.m, W.m, c] (fn3 Z)).data) := by
  have hlen : (tab [H.m, W.m, c] (fn3 Z)).data.length = H.m * W.m * c := by simp [Nat.mul_assoc]
  simp only [poolHwc, contractAssert_pos, Outcome.ok_bind]
  have flat : ∀ k s, forRange H.m (fun i mem => forRange W.m (fun j mem => do
      let st ← forRange (poolTrait H W).ksize.1 (fun u st => forRange (poolTrait H W).ksize.2 (fun v st => do
        let o ← Kernels.locate (poolTrait H W).h (poolTrait H W).w H.n W.n i j u v
        match o with
        | some (a, b) => do
          let xv ← (Src.mem (z + e * c)).at_ [H.n, W.n, c] [a, b, k] mem
          acc.step st xv
        | none => .ok st) st) acc.init
      let v ← acc.result st
      wr mem (z + offset [H.m, W.m, c] [i, j, k]) v) mem) s =
      forRange (H.m * W.m) (fun t mem => do
        let st ← forRange H.k (fun u st => forRange W.k (fun v st => do
          let o ← Kernels.locate H.sample W.sample H.n W.n (t / W.m : Nat) (t % W.m : Nat) u v
          match o with
          | some (a, b) => do
            let xv ← (Src.mem (z + e * c)).at_ [H.n, W.n, c] [a, b, k] mem
            acc.step st xv
          | none => .ok st) st) acc.init
        let v ← acc.result st
        wr mem (z + (t * c + k)) v) s := by
    intro k s
    rw [← forRange_nest]
    refine forRange_congr (fun i hi s => forRange_congr (fun j hj s => ?_) s) s
    have h1 : (i * W.m + j) / W.m = i := by
      rw [Nat.mul_comm, Nat.mul_add_div (by omega), Nat.div_eq_of_lt hj, Nat.add_zero]
    have h2 : (i * W.m + j) % W.m = j := by
      rw [Nat.mul_comm, Nat.mul_add_mod, Nat.mod_eq_of_lt hj]
    have o : offset [H.m, W.m, c] [i, j, k] = (i * W.m + j) * c + k := by
      simp only [offset_cons, offset_nil, List.prod_cons, List.prod_nil]; ring
    rw [h1, h2, o]
    rfl
  obtain ⟨m', run, hl, hp⟩ := forRange_inv' (n := c) (s := mem)
    (body := fun k mem => forRange H.m (fun i mem => forRange W.m (fun j mem => do
      let st ← forRange (poolTrait H W).ksize.1 (fun u st => forRange (poolTrait H W).ksize.2 (fun v st => do
        let o ← Kernels.locate (poolTrait H W).h (poolTrait H W).w H.n W.n i j u v
        match o with
        | some (a, b) => do
          let xv ← (Src.mem (z + e * c)).at_ [H.n, W.n, c] [a, b, k] mem
          acc.step st xv
        | none => .ok st) st) acc.init
      let v ← acc.result st
      wr mem (z + offset [H.m, W.m, c] [i, j, k]) v) mem) mem)
    (fun k (m' : List R) => m'.length = mem.length ∧
      ∀ q, m'[q]? = if z ≤ q ∧ q < z + H.m * W.m * c ∧ (q - z) % c < k
        then (tab [H.m, W.m, c] (fn3 Z)).data[q - z]? else mem[q]?)
    ⟨rfl, fun q => by rw [if_neg (by omega)]⟩
    (by
      intro k hk m0 ⟨hl0, hp0⟩
      rw [flat k m0]
      obtain ⟨m', run, hl, hp⟩ := forRange_inv' (n := H.m * W.m) (s := m0)
        (body := fun t mem => do
          let st ← forRange H.k (fun u st => forRange W.k (fun v st => do
            let o ← Kernels.locate H.sample W.sample H.n W.n (t / W.m : Nat) (t % W.m : Nat) u v
            match o with
            | some (a, b) => do
              let xv ← (Src.mem (z + e * c)).at_ [H.n, W.n, c] [a, b, k] mem
              acc.step st xv
            | none => .ok st) st) acc.init
          let v ← acc.result st
          wr mem (z + (t * c + k)) v)
        (fun t (m' : List R) => m'.length = mem.length ∧
          ∀ q, m'[q]? = if z ≤ q ∧ q < z + H.m * W.m * c ∧ ((q - z) % c < k ∨ (q - z) % c = k ∧ (q - z) / c < t)
            then (tab [H.m, W.m, c] (fn3 Z)).data[q - z]? else mem[q]?)
        ⟨hl0, fun q => by rw [hp0]; simp only [Nat.not_lt_zero, and_false, or_false]⟩
        (by
          intro t ht m' ⟨hl', hm⟩
          have hn : 0 < W.m := by
            rcases Nat.eq_zero_or_pos W.m with h | h
            · rw [h] at ht; simp at ht
            · exact h
          have hc : 0 < c := by omega
          have hi : t / W.m < H.m := by rwa [Nat.div_lt_iff_lt_mul hn]
          have hj : t % W.m < W.m := Nat.mod_lt _ hn
          have ht' := Nat.div_add_mod' t W.m
          have htc : t * c + c ≤ H.m * W.m * c := row_le ht
          have win := pool_window_ahead hH hW lH lW (fun a b => X a b k) acc hi hj
            (fun a b => (Src.mem (z + e * c)).at_ [H.n, W.n, c] [a, b, k] m')
            (by
              intro a ha b hb h1 h2
              have o : offset [H.n, W.n, c] [a, b, k] = (a * W.n + b) * c + k := by
                simp only [offset_cons, offset_nil, List.prod_cons, List.prod_nil]; ring
              have le : t / W.m * W.m ≤ a * W.n := Nat.mul_le_mul h1 hW'
              have ad : z + e * c + ((a * W.n + b) * c + k) - z = c * (e + (a * W.n + b)) + k := by
                have : z + e * c + ((a * W.n + b) * c + k) = z + (c * (e + (a * W.n + b)) + k) := by ring
                omega
              have : m'[z + e * c + ((a * W.n + b) * c + k)]? = some (X a b k) := by
                rw [hm, ad, Nat.mul_add_mod, Nat.mod_eq_of_lt hk, Nat.mul_add_div hc, Nat.div_eq_of_lt hk, if_neg (by omega),
                  hx a ha b hb k hk]
              simp only [Src.at_, Src.rd, o, rd, this]) acc.init
          have hz' := hZ _ hi _ hj k hk
          unfold Acc.run at hz'
          rw [← win] at hz'
          obtain ⟨st, h1, h2⟩ := Outcome.bind_eq_ok.1 hz'
          have hlt : z + (t * c + k) < m'.length := by omega
          refine ⟨m'.set (z + (t * c + k)) (Z (t / W.m) (t % W.m) k), ?_, by simpa using hl', fun q => ?_⟩
          · refine (congrArg (fun o => o >>= fun st => acc.result st >>= fun v => wr m' (z + (t * c + k)) v) h1).trans ?_
            simp only [Outcome.ok_bind, h2, wr, hlt, if_true]
          · rw [List.getElem?_set]
            by_cases hq : z + (t * c + k) = q
            · subst hq
              have ad : z + (t * c + k) - z = c * t + k := by rw [Nat.add_sub_cancel_left, Nat.mul_comm]
              have g := tab_getElem? (fn3 Z) (v3 hi hj hk)
              have o : offset [H.m, W.m, c] [t / W.m, t % W.m, k] = c * t + k := by
                have : offset [H.m, W.m, c] [t / W.m, t % W.m, k] = (t / W.m * W.m + t % W.m) * c + k := by
                  simp only [offset_cons, offset_nil, List.prod_cons, List.prod_nil]; ring
                rw [this, ht', Nat.mul_comm]
              rw [if_pos rfl, if_pos hlt, ad, Nat.mul_add_mod, Nat.mod_eq_of_lt hk, Nat.mul_add_div hc, Nat.div_eq_of_lt hk,
                if_pos (by omega), ← o, g]
              rfl
            · rw [if_neg hq, hm]
              refine if_congr ?_ rfl rfl
              refine and_congr_right fun hzq => and_congr_right fun _ => or_congr_right (and_congr_right fun hmod => ?_)
              have dm := Nat.div_add_mod' (q - z) c
              rw [hmod] at dm
              have : (q - z) / c ≠ t := fun h => by rw [h] at dm; omega
              omega)
      refine ⟨m', run, hl, fun q => ?_⟩
      rw [hp]
      refine if_congr (and_congr_right fun hzq => and_congr_right fun hq => ?_) rfl rfl
      have hc : 0 < c := by omega
      have : (q - z) / c < H.m * W.m := by rw [Nat.div_lt_iff_lt_mul hc]; omega
      omega)
  refine Eq.trans run (congrArg Outcome.ok (List.ext_getElem? fun q => ?_))
  rw [hp, store_getElem? (by omega), hlen]
  refine if_congr (and_congr_right fun hzq => ⟨fun h => h.1, fun h => ⟨h, Nat.mod_lt _ ?_⟩⟩) rfl rfl
  rcases Nat.eq_zero_or_pos c with h0 | h0
  · rw [h0] at h; simp at h; omega
  · exact h0

/-- The same for batches of images with channels last. -/
theorem C166_pool_nhwc [Zero R] {H W : Axis} (hH : AxisOK u32 H) (hW : AxisOK u32 W) (rH : H.r = 1) (rW : W.r = 1)
    (hW' : W.m ≤ W.n) (hHW : H.m * W.m ≤ H.n * W.n) (acc : Acc R) {n c : Nat} (X Z : Nat → Nat → Nat → Nat → R)
    (hZ : ∀ b < n, ∀ i < H.m, ∀ j < W.m, ∀ k < c,
      acc.run (pixels (shifted H) (shifted W) (fun a a' => X b a a' k) i j) = .ok (Z b i j k)) {e z : Nat} {mem : List R}
    (hx : (mem.drop (z + e * c)).take (n * H.n * W.n * c) = (tab [n, H.n, W.n, c] (fn4 X)).data)
    (hz : z + n * H.m * W.m * c ≤ mem.length) :
    poolNhwc acc (poolTrait H W) [n, H.m, W.m, c] [n, H.n, W.n, c] (.mem (z + e * c)) z mem =
      .ok (store mem z (tab [n, H.m, W.m, c] (fn4 Z)).data) := by
  have px : [n, H.n, W.n, c].prod = n * H.n * W.n * c := by simp [Nat.mul_assoc]
  have e3 : n * H.m * W.m * c = n * (H.m * W.m * c) := by ring
  unfold poolNhwc
  rw [makeKS_run hH hW rH rW, Outcome.ok_bind]
  simp only [List.tail_cons]
  have py : [H.m, W.m, c].prod = H.m * W.m * c := by simp [Nat.mul_assoc]
  rw [py]
  refine run_blocks (len := H.m * W.m * c) (by simp [Nat.mul_assoc]) (by rw [← e3]; exact hz) fun q hq m' hl hm => ?_
  have hqr := row_le (n := H.m * W.m * c) hq
  have hcell : cells (q * (H.m * W.m * c)) (H.m * W.m * c) (tab [n, H.m, W.m, c] (fn4 Z)).data =
      (tab [H.m, W.m, c] (fn3 (Z q))).data := by
    have hs : (tab [n, H.m, W.m, c] (fn4 Z)).sub q = tab [H.m, W.m, c] (fun idx => fn4 Z (q :: idx)) := tab_sub _ hq
    have := congrArg Tensor.data hs
    rw [show (tab [H.m, W.m, c] (fun idx => fn4 Z (q :: idx))) = tab [H.m, W.m, c] (fn3 (Z q)) from
      tab_congr fun idx hv => by match idx, hv with | [i, j, k], _ => rfl] at this
    rw [← this, ← py]
    rfl
  rw [hcell]
  obtain ⟨d, hd⟩ := Nat.exists_eq_add_of_le hHW
  have ad : ((Src.mem (z + e * c)).shift (q * [H.n, W.n, c].prod) : Src R) =
      .mem (z + q * (H.m * W.m * c) + (e + q * d) * c) := by
    have : [H.n, W.n, c].prod = H.n * W.n * c := by simp [Nat.mul_assoc]
    rw [this, hd]
    show Src.mem _ = Src.mem _
    congr 1
    ring
  rw [ad]
  refine C166_pool_hwc (shifted_ok hH) (shifted_ok hW) rfl rfl hW' acc (X q) (Z q) (hZ q hq) ?_ ?_
  swap
  · show z + q * (H.m * W.m * c) + H.m * W.m * c ≤ m'.length
    omega
  intro a ha b hb k hk
  have ha' : a < H.n := ha
  have hb' : b < W.n := hb
  have g4 := tab_getElem? (fn4 X) (v4 hq ha' hb' hk)
  have o : offset [n, H.n, W.n, c] [q, a, b, k] = q * (H.n * W.n * c) + ((a * W.n + b) * c + k) := by
    simp only [offset_cons, offset_nil, List.prod_cons, List.prod_nil]; ring
  have lt := offset_lt (v4 hq ha' hb' hk)
  rw [o, ← hx, List.getElem?_take_of_lt (by rw [← px, ← o]; exact lt), List.getElem?_drop] at g4
  have ga : z + q * (H.m * W.m * c) + (e + q * d) * c + ((a * W.n + b) * c + k) =
      z + e * c + (q * (H.n * W.n * c) + ((a * W.n + b) * c + k)) := by rw [hd]; ring
  have le : q * (H.m * W.m * c) ≤ q * (H.n * W.n * c) := Nat.mul_le_mul_left _ (Nat.mul_le_mul_right _ hHW)
  show m'[z + q * (H.m * W.m * c) + (e + q * d) * c + ((a * W.n + b) * c + k)]? = _
  rw [ga, hm _ (by omega), g4]
  rfl

/-- An output that begins one cell before the image instead of a whole pixel is wrong: two channels, max pooling of one pixel
at a time, which should copy the image. The first call shares memory, the second does not. -/
theorem C166_pool_between :
    poolHwc (Acc.max (-1000 : Int)) (poolTrait ⟨1, 1, 1, 0, 0, 1, 1⟩ ⟨1, 1, 1, 0, 0, 2, 2⟩) [1, 2, 2] [1, 2, 2] (.mem 1) 0
        [0, 1, 2, 3, 4] = .ok [1, 3, 3, 4, 4] ∧
      poolHwc (Acc.max (-1000 : Int)) (poolTrait ⟨1, 1, 1, 0, 0, 1, 1⟩ ⟨1, 1, 1, 0, 0, 2, 2⟩) [1, 2, 2] [1, 2, 2]
        (.ext [1, 2, 3, 4]) 0 [0, 1, 2, 3, 4] = .ok [1, 2, 3, 4, 4] := by
  refine ⟨?_, ?_⟩ <;> decide

/-- The conditions are needed. Max pooling onto an image that is padded in front reads what it has written, so does an `nchw`
convolution onto images whose examples get larger, and so does the gradient of `softmax` onto the incoming gradient: in each
line the first call shares memory, the second does not. -/
theorem C166_wrong :
    (poolHw (Acc.max (-1000 : Int)) (poolTrait ⟨1, 1, 1, 0, 0, 1, 1⟩ ⟨3, 1, 1, 1, 1, 4, 4⟩) [1, 4] [1, 4] (.mem 0) 0
        [1, 5, 2, 0] = .ok [5, 5, 5, 5] ∧
      poolHw (Acc.max (-1000 : Int)) (poolTrait ⟨1, 1, 1, 0, 0, 1, 1⟩ ⟨3, 1, 1, 1, 1, 4, 4⟩) [1, 4] [1, 4]
        (.ext [1, 5, 2, 0]) 0 [1, 5, 2, 0] = .ok [5, 5, 5, 2]) ∧
    (convNchw (convTrait ⟨1, 1, 1, 0, 0, 1, 1⟩ ⟨1, 1, 1, 0, 0, 1, 1⟩) (fun _ => (0 : Int)) [2, 2, 1, 1] [2, 1, 1, 1]
        [2, 1, 1, 1] (.mem 0) (.ext [1, 10]) 0 [3, 4, 0, 0] = .ok [3, 30, 30, 300] ∧
      convNchw (convTrait ⟨1, 1, 1, 0, 0, 1, 1⟩ ⟨1, 1, 1, 0, 0, 1, 1⟩) (fun _ => (0 : Int)) [2, 2, 1, 1] [2, 1, 1, 1]
        [2, 1, 1, 1] (.ext [3, 4]) (.ext [1, 10]) 0 [3, 4, 0, 0] = .ok [3, 30, 4, 40]) ∧
    (softmaxGrad (fun _ => (0 : Int)) 1 2 (.mem 0) (.ext [2, 3]) 0 [1, 1] = .ok [-8, 42] ∧
      softmaxGrad (fun _ => (0 : Int)) 1 2 (.ext [1, 1]) (.ext [2, 3]) 0 [1, 1] = .ok [-8, -12]) := by
  refine ⟨⟨?_, ?_⟩, ⟨?_, ?_⟩, ?_, ?_⟩ <;> decide

/-! ## Concrete cases -/

/-- Three gradients at addresses 1 to 3 and three factors at 4 to 6, the result onto the factors. -/
example : mulGrad 3 (.mem 1) (.mem 4) 4 [0, 2, 3, 4, 5, 6, 7, (9 : Int)] = .ok [0, 2, 3, 4, 10, 18, 28, 9] :=
  C166_mul_grad (gz := .mem 1) (other := .mem 4) (g := 4) (mem := [0, 2, 3, 4, 5, 6, 7, (9 : Int)]) (v := [2, 3, 4]) (w := [5, 6, 7])
    ⟨by decide, by decide⟩ ⟨by decide, by decide⟩ rfl (by decide)
example : copyGrad 3 (.mem 1) 1 [0, 2, 3, (4 : Int)] = .ub ∧ copyGrad 3 (.mem 1) 0 [0, 2, 3, (4 : Int)] = .ok [2, 3, 4, 4] :=
  ⟨(C166_copy (v := [2, 3, 4]) rfl (by decide) (by decide)).1 (by decide),
    (C166_copy (v := [2, 3, 4]) rfl (by decide) (by decide)).2 (by decide)⟩
example := C166_xentropy (rows := 2) (n := 2) (fun i => (i : Int) + 1) (fun i j => (i : Int) + j) (fun _ j => (j : Int) + 2)
  (x := .mem 1) (y := .mem 5) (gx := 5) (mem := [9, 0, 1, 1, 2, 2, 3, 2, 3, 7])
  ⟨by decide, by decide⟩ ⟨by decide, by decide⟩ (by decide)
example := C166_softmax_onto_output (R := Int) (fun _ => 7) (rows := 2) (n := 2) (fun i j => (i : Int) - j) (fun _ j => (j : Int) + 2)
  (y := .mem 1) (gx := 1) (mem := [9, 2, 3, 2, 3, 7]) ⟨by decide, by decide⟩ (by decide)
example := C166_softmax_onto_gradient (R := Int) (fun _ => 7) (rows := 2) (n := 2) (fun i j => (i : Int) - j)
  (fun _ j => (j : Int) + 2) (gx := 1) (mem := [9, 2, 3, 2, 3, 7]) (by decide)
example := (C166_conv_any (convTrait exPadH exPadW) (fun _ => 0) (fun _ => (0 : Int)) [2, 4, 3, 2] [2, 3, 4, 1] [2, 2, 1, 2]
  [1, 2, 3, 4, 5, 6, 7, 8] 7 0 2 (List.replicate 60 1)).1 (by decide)
/-- A filter with two channels out, from image cells 3, 4, ... to cells 0, 1, ... -/
example := C166_conv exPoolH_ok exPoolW_ok (n := 2) (c := 1) (d := 2) (by decide) (fun b i j _ => (b + 3 * i - j : ℤ))
  (fun u v _ e => (u + v * e : ℤ)) (fun _ => 0) (fun _ => 5) (p := 3) (z := 0)
  (mem := 8 :: 8 :: 8 :: (tab [2, 3, 4, 1] (fn4 fun b i j _ => (b + 3 * i - j : ℤ))).data) (by decide) (by decide)
example := C166_conv_nchw exPoolH_ok exPoolW_ok (n := 2) (c := 1) (d := 2) (fun b _ i j => (b + 3 * i - j : ℤ))
  (fun e _ u v => (u + v * e : ℤ)) (fun _ => 5) (z := 1) (by decide)
  (mem := 8 :: (tab [2, 1, 3, 4] (fn4 fun b _ i j => (b + 3 * i - j : ℤ))).data) (by decide) (by decide)
/-- The gradient onto the incoming one and the filter at once. -/
example := C166_conv_grad exPoolH_ok exPoolW_ok (n := 1) (c := 1) (d := 2) (fun b i j _ => (b + 3 * i - j : ℤ))
  (fun u v _ e => (u + v * e : ℤ)) (fun _ => 5) (p := 0) (q := 8) (gx := 1)
  (mem := (tab [1, 2, 2, 2] (fn4 fun b i j _ => (b + 3 * i - j : ℤ))).data ++
    (tab [2, 2, 1, 2] (fn4 fun u v _ e => (u + v * e : ℤ))).data) (by decide) (by decide) (by decide)
example := C166_pool exPoolH_ok exPoolW_ok rfl rfl (by decide) (Acc.max (-1000 : Int)) (fun i j => (i : Int) * 7 - j)
  (fun i j => (i : Int) * 7 + 7 - 2 * j) (p := 1) (z := 0) (by decide) (by decide)
  (mem := 9 :: (tab [3, 4] (fn2 fun i j => (i : Int) * 7 - j)).data) (by decide) (by decide)
example := C166_pool_nchw exPoolH_ok exPoolW_ok rfl rfl (by decide) (by decide) (Acc.max (-1000 : Int)) (n := 2) (c := 2)
  (fun b k i j => (i : Int) * 7 - j + b + k) (fun b k i j => (i : Int) * 7 + 7 - 2 * j + b + k) (by decide)
  (p := 0) (z := 0) (by decide) (mem := (tab [2, 2, 3, 4] (fn4 fun b k i j => (i : Int) * 7 - j + b + k)).data)
  (by decide) (by decide)
example := C166_pool_hwc exPoolH_ok exPoolW_ok rfl rfl (by decide) (Acc.max (-1000 : Int)) (c := 2)
  (fun i j k => (i : Int) * 7 - j + k) (fun i j k => (i : Int) * 7 + 7 - 2 * j + k) (by decide) (e := 1) (z := 0)
  (mem := 9 :: 9 :: (tab [3, 4, 2] (fn3 fun i j k => (i : Int) * 7 - j + k)).data) (by decide) (by decide)
example := C166_pool_nhwc exPoolH_ok exPoolW_ok rfl rfl (by decide) (by decide) (Acc.max (-1000 : Int)) (n := 2) (c := 2)
  (fun b i j k => (i : Int) * 7 - j + b + k) (fun b i j k => (i : Int) * 7 + 7 - 2 * j + b + k) (by decide)
  (e := 0) (z := 0) (mem := (tab [2, 3, 4, 2] (fn4 fun b i j k => (i : Int) * 7 - j + b + k)).data)
  (by decide) (by decide)

end Shared
end StdNN
