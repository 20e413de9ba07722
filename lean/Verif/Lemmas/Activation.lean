import Verif.Model.Activation
import Verif.Lemmas.Elementwise
/-!
# The softmax, cross-entropy and normalisation kernels on tabulated tensors
-/
namespace StdNN
open Outcome Spec
variable {R : Type}

/-- Two nested loops over a row-major matrix are one loop over its cells. -/
theorem forRange_nest {σ : Type} (a b : Nat) (f : Nat → σ → Outcome σ) (s : σ) :
    forRange a (fun i s => forRange b (fun j s => f (i * b + j) s) s) s = forRange (a * b) f s := by
  have add : ∀ (m n : Nat) (s : σ), forRange (m + n) f s = (forRange m f s >>= forRange n (fun j => f (m + j))) := by
    intro m n
    induction n with
    | zero =>
      intro s
      simp only [Nat.add_zero]
      cases forRange m f s <;> rfl
    | succ n ih =>
      intro s
      rw [← Nat.add_assoc, forRange_succ, ih]
      cases h : forRange m f s with
      | ok t => simp only [Outcome.ok_bind, forRange_succ]
      | throw e => rfl
      | ub => rfl
  induction a with
  | zero => simp [forRange_zero]
  | succ a ih =>
    rw [forRange_succ, ih, Nat.succ_mul, add]

/-- A tensor of any rank seen as a matrix of rows. -/
theorem tab_snoc [Zero R] (ds : List Nat) (n : Nat) (X : List Nat → R) :
    (tab (ds ++ [n]) X).data = (tab [ds.prod, n] (fn2 fun r j => X (unravel ds r ++ [j]))).data := by
  refine data_eq_tab (by simp) ?_
  intro idx hv
  match idx, hv with
  | [r, j], hv =>
    have hr : r < ds.prod := hv.1
    have hj : j < n := hv.2.1
    have e : offset [ds.prod, n] [r, j] = offset (ds ++ [n]) (unravel ds r ++ [j]) := by
      rw [offset_append _ _ (valid_unravel hr), offset_unravel hr]
      simp
    rw [e, tab_getElem? _ (valid_append (valid_unravel hr) (v1 hj))]
    rfl

theorem rowsOf_snoc (ds : List Nat) (n : Nat) : rowsOf (ds ++ [n]) = (ds.prod, n) := by
  simp [rowsOf]

theorem rd_row [Zero R] {rows n i j : Nat} (X : Nat → Nat → R) (hi : i < rows) (hj : j < n) :
    rd ((tab [rows, n] (fn2 X)).data.drop (i * n)) j = .ok (X i j) := by
  have := tab_getElem? (fn2 X) (v2 hi hj)
  have e : offset [rows, n] [i, j] = i * n + j := by simp
  rw [e] at this
  unfold StdNN.rd
  rw [List.getElem?_drop, this]
  rfl

namespace Kernels

/-- Row-wise stores into a matrix at address `z`. -/
theorem run_storeRows {rows n z : Nat} {val : Nat → Nat → R} [Zero R] {m : List R} (hz : z + rows * n ≤ m.length)
    {body : Nat → Nat → List R → Outcome (List R)}
    (hb : ∀ i < rows, ∀ j < n, ∀ m' : List R, body i j m' = wr m' (z + (i * n + j)) (val i j)) :
    forRange rows (fun i m => forRange n (fun j m => body i j m) m) m =
      .ok (store m z (tab [rows, n] (fn2 val)).data) := by
  have e : forRange rows (fun i m => forRange n (fun j m => body i j m) m) m =
      forRange rows (fun i m => forRange n (fun j m =>
        (fun p m => wr m (z + p) (val (p / n) (p % n))) (i * n + j) m) m) m := by
    refine forRange_congr (fun i hi s => forRange_congr (fun j hj s => ?_) s) m
    rw [hb i hi j hj]
    have h1 : (i * n + j) / n = i := by
      rw [Nat.mul_comm, Nat.mul_add_div (by omega), Nat.div_eq_of_lt hj, Nat.add_zero]
    have h2 : (i * n + j) % n = j := by
      rw [Nat.mul_comm, Nat.mul_add_mod, Nat.mod_eq_of_lt hj]
    simp only [h1, h2]
  rw [e, forRange_nest rows n (fun p m => wr m (z + p) (val (p / n) (p % n)))]
  refine run_store (by simp) hz fun p hp m' _ _ => ⟨val (p / n) (p % n), ?_, rfl⟩
  have hn : 0 < n := by
    rcases Nat.eq_zero_or_pos n with h | h
    · subst h; simp at hp
    · exact h
  have hv : Valid [rows, n] [p / n, p % n] := v2 (by rwa [Nat.div_lt_iff_lt_mul hn]) (Nat.mod_lt _ hn)
  have := tab_getElem? (fn2 val) hv
  have e : offset [rows, n] [p / n, p % n] = p := by
    simp [Nat.div_add_mod']
  rwa [e] at this

section
variable [Zero R] [One R] [Add R] [Sub R] [Div R] [LT R] [DecidableLT R]

theorem softmax_run (exp : R → R) (eps : R) {rows n z : Nat} (X : Nat → Nat → R) {m : List R}
    (hz : z + rows * n ≤ m.length) :
    softmax exp eps n rows n (.ext (tab [rows, n] (fn2 X)).data) z m =
      .ok (store m z (tab [rows, n] (fn2 fun i j =>
        stdMax eps (1 / seqSum n fun k => exp (X i k - X i j)))).data) := by
  unfold softmax softmaxRow
  refine run_storeRows hz fun i hi j hj m' => ?_
  simp only [Src.shift, Src.rd]
  rw [rd_row X hi hj, Outcome.ok_bind, forRange_sum (f := fun k => exp (X i k - X i j)), Outcome.ok_bind]
  · rw [Nat.add_assoc]
  · intro k hk s
    rw [rd_row X hi hk, Outcome.ok_bind]
    rfl

end

theorem xentropy_run [Zero R] [Add R] [Mul R] [Neg R] (log : R → R) {rows n : Nat} (X Y : Nat → Nat → R) {z : List R}
    (hz : z.length = rows) :
    xentropy log rows n n (tab [rows, n] (fn2 X)).data (tab [rows, n] (fn2 Y)).data z =
      .ok ((List.range rows).map fun i => -(seqSum n fun j => X i j * log (Y i j))) := by
  rw [← run_storeFlat hz]
  unfold xentropy xentropyRow
  refine forRange_congr (fun i hi s => ?_) z
  rw [forRange_sum (f := fun j => X i j * log (Y i j)), Outcome.ok_bind]
  intro j hj s
  rw [rd_row X hi hj, Outcome.ok_bind, rd_row Y hi hj, Outcome.ok_bind]
  rfl

/-- Four nested loops over a row-major tensor are one loop over its cells. -/
theorem forRange_nest4 {σ : Type} (a b c d : Nat) (f : Nat → σ → Outcome σ) (s : σ) :
    forRange a (fun i s => forRange b (fun j s => forRange c (fun k s => forRange d (fun l s =>
      f (offset [a, b, c, d] [i, j, k, l]) s) s) s) s) s = forRange [a, b, c, d].prod f s := by
  have e : ∀ i j k l, offset [a, b, c, d] [i, j, k, l] = i * (b * (c * d)) + (j * (c * d) + (k * d + l)) := by
    intro i j k l; simp
  simp only [e]
  have h1 : ∀ i j s, forRange c (fun k s => forRange d (fun l s =>
      f (i * (b * (c * d)) + (j * (c * d) + (k * d + l))) s) s) s =
      forRange (c * d) (fun p s => f (i * (b * (c * d)) + (j * (c * d) + p)) s) s := fun i j s =>
    forRange_nest c d (fun p s => f (i * (b * (c * d)) + (j * (c * d) + p)) s) s
  simp only [h1]
  have h2 : ∀ i s, forRange b (fun j s => forRange (c * d) (fun p s => f (i * (b * (c * d)) + (j * (c * d) + p)) s) s) s =
      forRange (b * (c * d)) (fun p s => f (i * (b * (c * d)) + p) s) s := fun i s =>
    forRange_nest b (c * d) (fun p s => f (i * (b * (c * d)) + p) s) s
  simp only [h2]
  rw [forRange_nest]
  simp

/-- A loop over four indices that stores a function of the element of `x` at the same place. -/
theorem run_store4_at [Zero R] {a b c d : Nat} {x : Src R} {z : Nat} {m : List R} {X : Nat → Nat → Nat → Nat → R}
    {val : Nat → Nat → Nat → Nat → R → R} (hx : x.Holds m z (tab [a, b, c, d] (fn4 X)).data)
    (hz : z + [a, b, c, d].prod ≤ m.length) {body : Nat → Nat → Nat → Nat → List R → Outcome (List R)}
    (hb : ∀ i < a, ∀ j < b, ∀ k < c, ∀ l < d, ∀ m', body i j k l m' =
      (x.rd m' (offset [a, b, c, d] [i, j, k, l]) >>= fun v =>
        wr m' (z + offset [a, b, c, d] [i, j, k, l]) (val i j k l v))) :
    forRange a (fun i m => forRange b (fun j m => forRange c (fun k m => forRange d (fun l m =>
      body i j k l m) m) m) m) m =
      .ok (store m z (tab [a, b, c, d] (fn4 fun i j k l => val i j k l (X i j k l))).data) := by
  let f : Nat → List R → Outcome (List R) := fun p m' => x.rd m' p >>= fun v =>
    wr m' (z + p) (match unravel [a, b, c, d] p with
      | [i, j, k, l] => val i j k l v
      | _ => v)
  have e : forRange a (fun i m => forRange b (fun j m => forRange c (fun k m => forRange d (fun l m =>
      body i j k l m) m) m) m) m = forRange [a, b, c, d].prod f m := by
    rw [← forRange_nest4]
    refine forRange_congr (fun i hi s => forRange_congr (fun j hj s => forRange_congr (fun k hk s =>
      forRange_congr (fun l hl s => ?_) s) s) s) m
    rw [hb i hi j hj k hk l hl]
    simp only [f, unravel_offset (v4 hi hj hk hl)]
  rw [e]
  refine run_store (by simp) hz fun p hp m' _ hq => ?_
  obtain ⟨idx, hv, rfl⟩ := exists_offset hp
  match idx, hv with
  | [i, j, k, l], hv =>
    refine ⟨val i j k l (X i j k l), tab_getElem? _ hv, ?_⟩
    have hr := hx.rd (i := offset [a, b, c, d] [i, j, k, l]) (by simpa using hp) hq
    have e2 : (tab [a, b, c, d] (fn4 X)).data[offset [a, b, c, d] [i, j, k, l]]'(by simpa using hp) = X i j k l := by
      rw [tab_getElem, unravel_offset hv]
      rfl
    rw [e2] at hr
    simp only [f, hr, Outcome.ok_bind, unravel_offset hv]

theorem rd_vec [Zero R] {n k : Nat} (B : Nat → R) (hk : k < n) : rd (tab [n] (fn1 B)).data k = .ok (B k) := by
  have := tab_getElem? (fn1 B) (v1 hk)
  have e : offset [n] [k] = k := by simp
  rw [e] at this
  unfold StdNN.rd
  rw [this]
  rfl

section
variable [Zero R] [Add R] [Sub R] [Div R]

theorem batchNormNhwc_run (sqrt : R → R) (eps : R) {n h w c : Nat} {x : Src R} {z : Nat} {m : List R}
    {X : Nat → Nat → Nat → Nat → R} {M V : Nat → R} (hx : x.Holds m z (tab [n, h, w, c] (fn4 X)).data)
    (hz : z + [n, h, w, c].prod ≤ m.length) :
    batchNormNhwc sqrt eps [n, h, w, c] [n, h, w, c] x (tab [c] (fn1 M)).data (tab [c] (fn1 V)).data z m =
      .ok (store m z (tab [n, h, w, c] (fn4 fun l i j k => normalize sqrt eps (X l i j k) (M k) (V k))).data) := by
  unfold batchNormNhwc
  refine run_store4_at (val := fun l i j k v => normalize sqrt eps v (M k) (V k)) hx hz
    fun l hl i hi j hj k hk m' => ?_
  rw [rd_vec M hk, rd_vec V hk]
  rfl

theorem batchNormNchw_run (sqrt : R → R) (eps : R) {n c h w : Nat} {x : Src R} {z : Nat} {m : List R}
    {X : Nat → Nat → Nat → Nat → R} {M V : Nat → R} (hx : x.Holds m z (tab [n, c, h, w] (fn4 X)).data)
    (hz : z + [n, c, h, w].prod ≤ m.length) :
    batchNormNchw sqrt eps [n, c, h, w] [n, c, h, w] x (tab [c] (fn1 M)).data (tab [c] (fn1 V)).data z m =
      .ok (store m z (tab [n, c, h, w] (fn4 fun l k i j => normalize sqrt eps (X l k i j) (M k) (V k))).data) := by
  unfold batchNormNchw
  refine run_store4_at (val := fun l k i j v => normalize sqrt eps v (M k) (V k)) hx hz
    fun l hl k hk i hi j hj m' => ?_
  rw [rd_vec M hk, rd_vec V hk]
  rfl

end
end Kernels

namespace Grad
variable [Zero R]

theorem softmaxRow_run [One R] [Add R] [Sub R] [Mul R] [Neg R] (junk : Nat → R) {n : Nat} (G Y : List Nat → R)
    {gx : List R} (hgx : gx.length = n) :
    softmaxRow junk [n] n (tab [n] G) (tab [n] Y) gx =
      .ok (tab [n] (fn1 fun j => seqSum n fun i => G [i] *
        if i = j then Y [i] * (1 - Y [i]) else -Y [i] * Y [j])).data := by
  unfold softmaxRow
  have h := Plain.run_store2 (m := n) (n := n) (c := (List.range (n * n)).map junk)
    (val := fun i j => if i = j then Y [i] * (1 - Y [i]) else -Y [i] * Y [j]) (by simp)
  have e : forRange n (fun i g => forRange n (fun j g => do
      if i = j then
        let v ← (tab [n] Y).at_ [i]
        wr g (offset [n, n] [i, j]) (v * (1 - v))
      else
        let a ← (tab [n] Y).at_ [i]
        let b ← (tab [n] Y).at_ [j]
        wr g (offset [n, n] [i, j]) (-a * b)) g) ((List.range (n * n)).map junk) =
      .ok (tab [n, n] (fn2 fun i j => if i = j then Y [i] * (1 - Y [i]) else -Y [i] * Y [j])).data := by
    rw [← h]
    refine forRange_congr (fun i hi s => forRange_congr (fun j hj s => ?_) s) _
    by_cases c : i = j
    · rw [if_pos c, if_pos c, tab_at _ (v1 hi), Outcome.ok_bind]
    · rw [if_neg c, if_neg c, tab_at _ (v1 hi), Outcome.ok_bind, tab_at _ (v1 hj), Outcome.ok_bind]
  rw [e, Outcome.ok_bind]
  exact Plain.vm_run G (fn2 fun i j => if i = j then Y [i] * (1 - Y [i]) else -Y [i] * Y [j]) hgx

theorem softmax_run [One R] [Add R] [Sub R] [Mul R] [Neg R] (junk : Nat → R) {rows n : Nat} (G Y : Nat → Nat → R)
    {gx : List R} (hgx : gx.length = rows * n) :
    softmax junk [rows, n] rows n (tab [rows, n] (fn2 G)) (tab [rows, n] (fn2 Y)) gx =
      .ok (tab [rows, n] (fn2 fun r j => seqSum n fun i => G r i *
        if i = j then Y r i * (1 - Y r i) else -Y r i * Y r j)).data := by
  have h := run_slices (n := rows) (sub := [n])
    (g := fun i => softmaxRow junk [n] n ((tab [rows, n] (fn2 G)).sub i) ((tab [rows, n] (fn2 Y)).sub i))
    (F := fun r => fn1 fun j => seqSum n fun i => G r i * if i = j then Y r i * (1 - Y r i) else -Y r i * Y r j)
    (y := gx) (fun i hi s hs => by
      rw [tab_sub _ hi, tab_sub _ hi]
      exact softmaxRow_run junk (fun idx => fn2 G (i :: idx)) (fun idx => fn2 Y (i :: idx)) (by simpa using hs))
    (by simpa using hgx)
  refine h.trans ?_
  refine congrArg (fun t => Outcome.ok (Tensor.data t)) (tab_congr fun idx hv => ?_)
  match idx, hv with
  | [a, b], hv => rfl

theorem xentropyRow_run [Mul R] [Neg R] [Div R] {n : Nat} (gz : R) (X Y : Nat → R) {gx : List R} (hgx : gx.length = n) :
    xentropyRow n [gz] (tab [n] (fn1 X)).data (tab [n] (fn1 Y)).data gx =
      .ok (tab [n] (fn1 fun i => gz * (-X i / Y i))).data := by
  rw [← Plain.run_store1 hgx]
  unfold xentropyRow
  refine forRange_congr (fun i hi s => ?_) gx
  rw [Kernels.rd_vec X hi, Kernels.rd_vec Y hi]
  simp [StdNN.rd, Outcome.ok_bind]

theorem xentropy_run [Mul R] [Neg R] [Div R] {rows n : Nat} (GZ : Nat → R) (X Y : Nat → Nat → R) {gx : List R}
    (hgx : gx.length = rows * n) :
    xentropy [rows, n] (tab [rows] (fn1 GZ)) (tab [rows, n] (fn2 X)) (tab [rows, n] (fn2 Y)) gx =
      .ok (tab [rows, n] (fn2 fun r i => GZ r * (-X r i / Y r i))).data := by
  have h := run_slices (n := rows) (sub := [n])
    (g := fun i => xentropyRow n ((tab [rows] (fn1 GZ)).sub i).data ((tab [rows, n] (fn2 X)).sub i).data
      ((tab [rows, n] (fn2 Y)).sub i).data)
    (F := fun r => fn1 fun j => GZ r * (-X r j / Y r j))
    (y := gx) (fun i hi s hs => by
      rw [tab_sub _ hi, tab_sub _ hi, tab_sub _ hi]
      exact xentropyRow_run (GZ i) (X i) (Y i) (by simpa using hs))
    (by simpa using hgx)
  refine Eq.trans ?_ (h.trans ?_)
  · rfl
  refine congrArg (fun t => Outcome.ok (Tensor.data t)) (tab_congr fun idx hv => ?_)
  match idx, hv with
  | [a, b], hv => rfl

end Grad
end StdNN
