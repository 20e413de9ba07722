import Verif.Lemmas.Elementwise
import Mathlib.Data.Int.Order.Basic
import Mathlib.Algebra.Ring.Int.Defs
/-!
# C21-C25: elementwise operators, bias, layout transposes, concatenation

The output of an operator is the region `[z, z + n)` of the memory `m`; `store m z v` is `m` with that region overwritten
by `v`. `x.Holds m z v`: the input `x` contains the values `v`, and it either does not overlap the output region or is
exactly that region (in place).
-/
namespace StdNN
open IntTy Spec Outcome
variable {R : Type}

/-! ## C21 -/

/-- C21 (`pointwise`, `relu` and every unary map): exactly `f (x i)` in every output element, nothing else changed. -/
theorem C21_pointwise (f : R → R) [Zero R] {x : Src R} {z : Nat} {m v : List R} (hx : x.Holds m z v)
    (hz : z + v.length ≤ m.length) : Ops.pointwise f v.length x z m = .ok (store m z (v.map f)) :=
  Kernels.transform1_run hx hz

/-- C21 (`relu`). -/
theorem C21_relu [Zero R] [LT R] [DecidableLT R] {x : Src R} {z : Nat} {m v : List R} (hx : x.Holds m z v)
    (hz : z + v.length ≤ m.length) :
    Ops.relu v.length x z m = .ok (store m z (v.map fun a => if 0 < a then a else 0)) :=
  Kernels.transform1_run hx hz

/-- C21 (`add`). -/
theorem C21_add [Zero R] [Add R] {x y : Src R} {z : Nat} {m v w : List R} (hx : x.Holds m z v) (hy : y.Holds m z w)
    (hvw : v.length = w.length) (hz : z + v.length ≤ m.length) :
    Ops.add v.length x y z m = .ok (store m z (List.zipWith (fun a b => a + b) v w)) :=
  Kernels.transform2_run hx hy hvw hz

/-- C21 (`sub`). -/
theorem C21_sub [Zero R] [Sub R] {x y : Src R} {z : Nat} {m v w : List R} (hx : x.Holds m z v) (hy : y.Holds m z w)
    (hvw : v.length = w.length) (hz : z + v.length ≤ m.length) :
    Ops.sub v.length x y z m = .ok (store m z (List.zipWith (fun a b => a - b) v w)) :=
  Kernels.transform2_run hx hy hvw hz

/-- C21 (`mul`). -/
theorem C21_mul [Zero R] [Mul R] {x y : Src R} {z : Nat} {m v w : List R} (hx : x.Holds m z v) (hy : y.Holds m z w)
    (hvw : v.length = w.length) (hz : z + v.length ≤ m.length) :
    Ops.mul v.length x y z m = .ok (store m z (List.zipWith (fun a b => a * b) v w)) :=
  Kernels.transform2_run hx hy hvw hz

/-- C21 (`axpy`). -/
theorem C21_axpy [Zero R] [Add R] [Mul R] (a : R) {x y : Src R} {z : Nat} {m v w : List R} (hx : x.Holds m z v)
    (hy : y.Holds m z w) (hvw : v.length = w.length) (hz : z + v.length ≤ m.length) :
    Ops.axpy v.length a x y z m = .ok (store m z (List.zipWith (fun p q => a * p + q) v w)) :=
  Kernels.transform2_run hx hy hvw hz

/-- C21 (`identity`): copies; the input must not be the output itself (`std::copy` onto itself is undefined). -/
theorem C21_identity [Zero R] {x : Src R} {z : Nat} {m v : List R} (hx : x.Holds m z v) (hne : ∀ p, x = .mem p → p ≠ z)
    (hz : z + v.length ≤ m.length) : Ops.identity v.length x z m = .ok (store m z v) :=
  Kernels.copy_run hx hne hz

/-- C21 (effect of `store`): what the theorems above say about memory, cell by cell. -/
theorem C21_store_cells {m : List R} {z : Nat} {v : List R} (h : z + v.length ≤ m.length) :
    (store m z v).length = m.length ∧ (∀ i < v.length, (store m z v)[z + i]? = v[i]?) ∧
      ∀ p, p < z ∨ z + v.length ≤ p → (store m z v)[p]? = m[p]? := by
  refine ⟨store_length h, fun i hi => ?_, fun p hp => ?_⟩
  · rw [store_getElem? h, if_pos (by omega), Nat.add_sub_cancel_left]
  · rw [store_getElem? h, if_neg (by omega)]

/-- Non-vacuity, in place: `x += y` inside a bigger memory, the first operand is the output region. -/
example : (Src.mem 1).Holds [9, 1, 2, 3, 9] 1 [(1 : Int), 2, 3] ∧
    (Src.ext [10, 20, 30]).Holds [9, 1, 2, 3, 9] 1 [(10 : Int), 20, 30] ∧
    Ops.add 3 (.mem 1) (.ext [10, 20, 30]) 1 [9, 1, 2, 3, 9] = .ok [(9 : Int), 11, 22, 33, 9] := by
  refine ⟨⟨.inl rfl, ?_⟩, ?_, by decide⟩
  · intro i hi
    match i, hi with
    | 0, _ => rfl
    | 1, _ => rfl
    | 2, _ => rfl
  · intro i _; rfl

/-- The overlap hypothesis is needed: shifting a vector onto itself by one cell propagates the first element. -/
example : Ops.pointwise (fun a => a) 3 (.mem 0) 1 [(1 : Int), 2, 3, 4] = .ok [1, 1, 1, 1] := by decide

/-! ## C22 -/
section bias
variable [Zero R]

/-- C22 (`hw`): the bias runs along the columns. -/
theorem C22_bias_hw (f : R → R → R) {h w : Nat} {x : Src R} {z : Nat} {m : List R} (X : Nat → Nat → R) (B : Nat → R)
    (hx : x.Holds m z (tab [h, w] (fn2 X)).data) (hz : z + [h, w].prod ≤ m.length) :
    Ops.applyBias f .hw [h, w] [h, w] x (tab [w] (fn1 B)).data z m =
      .ok (store m z (tab [h, w] (fn2 fun i j => f (X i j) (B j))).data) := by
  refine (Kernels.applyBias_run (p := 1) (by rfl) hx hz).trans ?_
  refine congrArg (fun t => Outcome.ok (store m z (Tensor.data t))) (tab_congr fun idx hv => ?_)
  match idx, hv with
  | [i, j], _ => rfl

/-- C22 (`nhwc`). -/
theorem C22_bias_nhwc (f : R → R → R) {n h w c : Nat} {x : Src R} {z : Nat} {m : List R}
    (X : Nat → Nat → Nat → Nat → R) (B : Nat → R) (hx : x.Holds m z (tab [n, h, w, c] (fn4 X)).data)
    (hz : z + [n, h, w, c].prod ≤ m.length) :
    Ops.applyBias f .nhwc [n, h, w, c] [n, h, w, c] x (tab [c] (fn1 B)).data z m =
      .ok (store m z (tab [n, h, w, c] (fn4 fun l i j k => f (X l i j k) (B k))).data) := by
  refine (Kernels.applyBiasNhwc_run hx hz).trans ?_
  refine congrArg (fun t => Outcome.ok (store m z (Tensor.data t))) (tab_congr fun idx hv => ?_)
  match idx, hv with
  | [l, i, j, k], _ => rfl

/-- C22 (`nchw`). -/
theorem C22_bias_nchw (f : R → R → R) {n c h w : Nat} {x : Src R} {z : Nat} {m : List R}
    (X : Nat → Nat → Nat → Nat → R) (B : Nat → R) (hx : x.Holds m z (tab [n, c, h, w] (fn4 X)).data)
    (hz : z + [n, c, h, w].prod ≤ m.length) :
    Ops.applyBias f .nchw [n, c, h, w] [n, c, h, w] x (tab [c] (fn1 B)).data z m =
      .ok (store m z (tab [n, c, h, w] (fn4 fun l k i j => f (X l k i j) (B k))).data) := by
  refine (Kernels.applyBias_run (p := 1) (by rfl) hx hz).trans ?_
  refine congrArg (fun t => Outcome.ok (store m z (Tensor.data t))) (tab_congr fun idx hv => ?_)
  match idx, hv with
  | [l, k, i, j], _ => rfl

/-- C22 (shape): the shape function returns the input shape if the bias length is the channel dimension and throws
otherwise. -/
theorem C22_shape (a b c d k : Nat) :
    Ops.biasShape .hw [a, b] [k] = (if b = k then .ok [a, b] else .throw .runtimeError) ∧
    Ops.biasShape .nhwc [a, b, c, d] [k] = (if d = k then .ok [a, b, c, d] else .throw .runtimeError) ∧
    Ops.biasShape .nchw [a, b, c, d] [k] = (if b = k then .ok [a, b, c, d] else .throw .runtimeError) := by
  refine ⟨?_, ?_, ?_⟩ <;> simp only [Ops.biasShape, Order.rankOf, Order.biasPos, Order.channelPos, getDim,
    contractAssert] <;> simp <;> split <;> simp

end bias

/-- Non-vacuity: bias on a 2 × 3 matrix, in place. -/
example : Ops.applyBias (fun a b : Int => a + b) .hw [2, 3] [2, 3] (.mem 0) [10, 20, 30] 0 [1, 2, 3, 4, 5, 6] =
    .ok [11, 22, 33, 14, 25, 36] ∧
    Ops.applyBias (fun a b : Int => a + b) .nhwc [1, 1, 2, 2] [1, 1, 2, 2] (.mem 0) [10, 20] 0 [1, 2, 3, 4] =
      .ok [11, 22, 13, 24] ∧
    Ops.applyBias (fun a b : Int => a + b) .nchw [1, 2, 1, 2] [1, 2, 1, 2] (.mem 0) [10, 20] 0 [1, 2, 3, 4] =
      .ok [11, 12, 23, 24] := by
  refine ⟨?_, ?_, ?_⟩ <;> decide

example : (Src.mem 0).Holds (tab [2, 3] (fn2 fun i j => (3 * i + j : Int))).data 0
    (tab [2, 3] (fn2 fun i j => (3 * i + j : Int))).data := ⟨.inl rfl, fun i _ => by simp⟩

/-! ## C23, C24 -/
section layout
variable [Zero R]

theorem ext_holds (b m : List R) (z : Nat) : (Src.ext b).Holds m z b := fun _ _ => rfl

/-- C23: bias in `nhwc`, then transposing to `nchw`, equals transposing first and applying the bias in `nchw`; whatever the
buffers held before. -/
theorem C23_bias_layout (f : R → R → R) {n h w c : Nat} (X : Nat → Nat → Nat → Nat → R) (B : Nat → R)
    {b1 b2 b3 b4 : List R} (h1 : b1.length = [n, h, w, c].prod) (h2 : b2.length = [n, c, h, w].prod)
    (h3 : b3.length = [n, c, h, w].prod) (h4 : b4.length = [n, c, h, w].prod) :
    (do let z ← Ops.applyBias f .nhwc [n, h, w, c] [n, h, w, c] (.ext (tab [n, h, w, c] (fn4 X)).data)
          (tab [c] (fn1 B)).data 0 b1
        Kernels.toFirst id [n, c, h, w] ⟨[n, h, w, c], z⟩ b2) =
      (do let t ← Kernels.toFirst id [n, c, h, w] (tab [n, h, w, c] (fn4 X)) b3
          Ops.applyBias f .nchw [n, c, h, w] [n, c, h, w] (.ext t) (tab [c] (fn1 B)).data 0 b4) := by
  rw [C22_bias_nhwc f X B (ext_holds _ _ _) (by omega), store_all (by simp [h1]), Outcome.ok_bind]
  refine (Kernels.toFirst_run id (fun l i j k => f (X l i j k) (B k)) h2).trans ?_
  rw [Kernels.toFirst_run id X h3, Outcome.ok_bind]
  symm
  refine (C22_bias_nchw f (fun l k i j => id (X l i j k)) B (ext_holds _ _ _) (by omega)).trans ?_
  rw [store_all (by simp [h4])]
  rfl

/-- C24: element `(n, h, w, c)` moves to `(n, c, h, w)`, with the scalar map applied. -/
theorem C24_to_channels_first {S : Type} [Zero S] (f : S → R) {n h w c : Nat} (X : Nat → Nat → Nat → Nat → S)
    {y : List R} (hy : y.length = [n, c, h, w].prod) :
    Kernels.toFirst f [n, c, h, w] (tab [n, h, w, c] (fn4 X)) y =
      .ok (tab [n, c, h, w] (fn4 fun l k i j => f (X l i j k))).data := Kernels.toFirst_run f X hy

/-- C24: element `(n, c, h, w)` moves to `(n, h, w, c)`. -/
theorem C24_to_channels_last {S : Type} [Zero S] (f : S → R) {n h w c : Nat} (X : Nat → Nat → Nat → Nat → S)
    {y : List R} (hy : y.length = [n, h, w, c].prod) :
    Kernels.toLast f [n, h, w, c] (tab [n, c, h, w] (fn4 X)) y =
      .ok (tab [n, h, w, c] (fn4 fun l i j k => f (X l k i j))).data := Kernels.toLast_run f X hy

/-- C24: the two transposes are inverse to each other on every tensor, and so are their shape functions. -/
theorem C24_inverse {n h w c : Nat} {x y z y' z' : List R} (hx : x.length = [n, h, w, c].prod)
    (hy : y.length = [n, c, h, w].prod) (hz : z.length = [n, h, w, c].prod) (hx' : y'.length = [n, c, h, w].prod)
    (hz' : z'.length = [n, h, w, c].prod) :
    (do let t ← Kernels.toFirst id [n, c, h, w] ⟨[n, h, w, c], x⟩ y
        Kernels.toLast id [n, h, w, c] ⟨[n, c, h, w], t⟩ z) = .ok x ∧
    (do let t ← Kernels.toLast id [n, h, w, c] ⟨[n, c, h, w], y'⟩ z'
        Kernels.toFirst id [n, c, h, w] ⟨[n, h, w, c], t⟩ y) = .ok y' ∧
    (do let s ← Ops.toFirstShape [n, h, w, c]; Ops.toLastShape s) = .ok [n, h, w, c] := by
  have as4 : ∀ {a b c d : Nat} {v : List R}, v.length = [a, b, c, d].prod →
      ∃ X : Nat → Nat → Nat → Nat → R, (⟨[a, b, c, d], v⟩ : Tensor R) = tab [a, b, c, d] (fn4 X) := by
    intro a b c d v hv
    haveI : Inhabited R := ⟨0⟩
    obtain ⟨f, e⟩ := Tensor.WF.exists_tab (t := (⟨[a, b, c, d], v⟩ : Tensor R)) hv
    refine ⟨fun i j k l => f [i, j, k, l], e.trans (tab_congr fun idx hv => ?_)⟩
    match idx, hv with
    | [i, j, k, l], _ => rfl
  refine ⟨?_, ?_, rfl⟩
  · obtain ⟨X, e⟩ := as4 hx
    have ex : x = (tab [n, h, w, c] (fn4 X)).data := congrArg Tensor.data e
    rw [e, Kernels.toFirst_run id X hy, Outcome.ok_bind, ex]
    exact Kernels.toLast_run id (fun l k i j => id (X l i j k)) hz
  · obtain ⟨X, e⟩ := as4 hx'
    have ex : y' = (tab [n, c, h, w] (fn4 X)).data := congrArg Tensor.data e
    rw [e, Kernels.toLast_run id X hz', Outcome.ok_bind, ex]
    exact Kernels.toFirst_run id (fun l i j k => id (X l k i j)) hy

end layout

/-- Non-vacuity: a 1 × 1 × 2 × 3 image; the transpose is not the identity on the buffer. -/
example : Kernels.toFirst id [1, 3, 1, 2] ⟨[1, 1, 2, 3], [(1 : Int), 2, 3, 4, 5, 6]⟩ [0, 0, 0, 0, 0, 0] =
    .ok [1, 4, 2, 5, 3, 6] ∧ ([1, 2, 3, 4, 5, 6] : List Int).length = [1, 1, 2, 3].prod := by
  refine ⟨?_, ?_⟩ <;> decide

/-! ## C25 -/
section concat
variable [Zero R]

/-- C25 (`nchw`, two operands). -/
theorem C25_concat_nchw {n h w c1 c2 : Nat} (X Y : Nat → Nat → Nat → Nat → R) {t : List R}
    (ht : t.length = [n, c1 + c2, h, w].prod) :
    ∃ t', Kernels.concatNchw [n, c1 + c2, h, w] (tab [n, c1, h, w] (fn4 X)) (tab [n, c2, h, w] (fn4 Y)) t = .ok t' ∧
      t'.length = t.length ∧
      ∀ l < n, ∀ i < h, ∀ j < w,
        (∀ k < c1, t'[offset [n, c1 + c2, h, w] [l, k, i, j]]? = some (X l k i j)) ∧
        (∀ k < c2, t'[offset [n, c1 + c2, h, w] [l, c1 + k, i, j]]? = some (Y l k i j)) := by
  refine ⟨_, Kernels.concatNchw_run X Y ht, by simp [ht], fun l hl i hi j hj => ⟨fun k hk => ?_, fun k hk => ?_⟩⟩
  · rw [tab_getElem? _ (v4 hl (by omega) hi hj)]
    simp [hk]
  · rw [tab_getElem? _ (v4 hl (by omega) hi hj)]
    simp

/-- C25 (`nhwc`, three operands). -/
theorem C25_concat_nhwc {n h w c1 c2 c3 : Nat} (hc : c1 + c2 < 2 ^ 32) (X Y Z : Nat → Nat → Nat → Nat → R)
    {t : List R} (ht : t.length = [n, h, w, c1 + c2 + c3].prod) :
    ∃ t', Kernels.concatNhwc [n, h, w, c1 + c2 + c3] (tab [n, h, w, c1] (fn4 X)) (tab [n, h, w, c2] (fn4 Y))
        (tab [n, h, w, c3] (fn4 Z)) t = .ok t' ∧ t'.length = t.length ∧
      ∀ l < n, ∀ i < h, ∀ j < w,
        (∀ k < c1, t'[offset [n, h, w, c1 + c2 + c3] [l, i, j, k]]? = some (X l i j k)) ∧
        (∀ k < c2, t'[offset [n, h, w, c1 + c2 + c3] [l, i, j, c1 + k]]? = some (Y l i j k)) ∧
        (∀ k < c3, t'[offset [n, h, w, c1 + c2 + c3] [l, i, j, c1 + c2 + k]]? = some (Z l i j k)) := by
  refine ⟨_, Kernels.concatNhwc_run (by omega) X Y Z ht, by simp [ht],
    fun l hl i hi j hj => ⟨fun k hk => ?_, fun k hk => ?_, fun k hk => ?_⟩⟩
  · rw [tab_getElem? _ (v4 hl hi hj (by omega))]
    simp [hk]
  · rw [tab_getElem? _ (v4 hl hi hj (by omega))]
    simp [hk]
  · rw [tab_getElem? _ (v4 hl hi hj (by omega))]
    have e1 : ¬ c1 + c2 + k < c1 := by omega
    have e2 : c1 + c2 + k - c1 - c2 = k := by omega
    simp [e1, e2]

end concat

/-- Non-vacuity. -/
example : Kernels.concatNchw [1, 3, 1, 2] ⟨[1, 1, 1, 2], [(1 : Int), 2]⟩ ⟨[1, 2, 1, 2], [3, 4, 5, 6]⟩
    [0, 0, 0, 0, 0, 0] = .ok [1, 2, 3, 4, 5, 6] := by decide

example : Kernels.concatNhwc [1, 1, 2, 4] ⟨[1, 1, 2, 1], [(1 : Int), 2]⟩ ⟨[1, 1, 2, 2], [3, 4, 5, 6]⟩
    ⟨[1, 1, 2, 1], [7, 8]⟩ [0, 0, 0, 0, 0, 0, 0, 0] = .ok [1, 3, 4, 7, 2, 5, 6, 8] := by decide

/-! ## Concrete cases of the theorems above: three cells of a memory of five, read in place, and a tensor elsewhere -/

theorem exHolds : (Src.mem 1).Holds [9, -1, 2, 3, 9] 1 [(-1 : Int), 2, 3] := by
  refine ⟨.inl rfl, ?_⟩
  intro i hi
  match i, hi with
  | 0, _ => rfl
  | 1, _ => rfl
  | 2, _ => rfl

theorem exHolds' : (Src.ext [10, 20, 30]).Holds [9, -1, 2, 3, 9] 1 [(10 : Int), 20, 30] := fun _ _ => rfl

example := C21_pointwise (fun a : Int => a * a) exHolds (by decide)
example : Ops.relu 3 (.mem 1) 1 [9, -1, 2, 3, 9] = .ok [(9 : Int), 0, 2, 3, 9] := C21_relu exHolds (by decide)
example : Ops.add 3 (.mem 1) (.ext [10, 20, 30]) 1 [9, -1, 2, 3, 9] = .ok [(9 : Int), 9, 22, 33, 9] :=
  C21_add exHolds exHolds' rfl (by decide)
example := C21_sub exHolds exHolds' rfl (by decide)
example := C21_mul exHolds exHolds' rfl (by decide)
example := C21_axpy (7 : Int) exHolds exHolds' rfl (by decide)
example := C21_identity exHolds' (fun p h => by cases h) (by decide)
example := C21_store_cells (m := [9, 1, 2, 3, 9]) (z := 1) (v := [(10 : Int), 20, 30]) (by decide)

theorem exHoldsTab (ds : List Nat) (F : List Nat → Int) : (Src.ext (tab ds F).data).Holds (List.replicate (ds.prod + 2) 0) 1
    (tab ds F).data := fun _ _ => rfl

example := C22_bias_hw (fun a b : Int => a + b) (h := 2) (w := 3) (fun i j => 3 * i + j) (fun j => 10 * j) (exHoldsTab _ _)
  (by decide)
example := C22_bias_nhwc (fun a b : Int => a + b) (n := 2) (h := 2) (w := 3) (c := 2) (fun n i j k => 30 * n + 3 * i + j - k)
  (fun j => 10 * j) (exHoldsTab _ _) (by decide)
example := C22_bias_nchw (fun a b : Int => a + b) (n := 2) (c := 2) (h := 2) (w := 3) (fun n k i j => 30 * n + 3 * i + j - k)
  (fun j => 10 * j) (exHoldsTab _ _) (by decide)
example := C25_concat_nhwc (n := 2) (h := 1) (w := 2) (c1 := 1) (c2 := 2) (c3 := 1) (by decide)
  (fun n i j k => (30 * n + 3 * i + j - k : Int)) (fun _ _ _ k => k) (fun n _ _ _ => n) (t := List.replicate 16 9) (by decide)

end StdNN
