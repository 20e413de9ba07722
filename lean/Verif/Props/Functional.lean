import Verif.Model.Functional
import Verif.Props.Safety
import Verif.Props.Elementwise
import Verif.Props.Layers
import Verif.Lemmas.Elementwise
/-!
# C104-C106: the concatenation layer, `invoke`, the bias kernel with several vectors
-/
namespace StdNN
open Spec Outcome IntTy
variable {R : Type}

/-! ## C104 -/
section concat
variable [Zero R]

/-- C104 (`nchw`, two operands): the layer owns one tensor, whose channels are those of the first operand followed by those
of the second. -/
theorem C104_nchw (junk : Nat → R) {n h w c1 c2 : Nat} (hc : c1 + c2 < 2 ^ 32) (X Y : Nat → Nat → Nat → Nat → R) :
    ∃ y : Tensor R, Layers.concatChannel .nchw junk [tab [n, c1, h, w] (fn4 X), tab [n, c2, h, w] (fn4 Y)] =
        ⟨1, .ok ⟨y, []⟩⟩ ∧ y.WF ∧ y.dims = [n, c1 + c2, h, w] ∧
      ∀ l < n, ∀ i < h, ∀ j < w, (∀ k < c1, y.at_ [l, k, i, j] = .ok (X l k i j)) ∧
        ∀ k < c2, y.at_ [l, c1 + k, i, j] = .ok (Y l k i j) := by
  have hs : Ops.concatChannelShape .nchw [[n, c1, h, w], [n, c2, h, w]] = .ok [n, c1 + c2, h, w] := by
    have := (C14_channel n h w (cs := [c1, c2]) (by simp) (by simpa using hc)).1
    simpa using this
  refine ⟨tab [n, c1 + c2, h, w] (fn4 fun l k i j => if k < c1 then X l k i j else Y l (k - c1) i j), ?_, by
    simp [Tensor.WF], rfl, fun l hl i hi j hj => ⟨fun k hk => ?_, fun k hk => ?_⟩⟩
  · unfold Layers.concatChannel
    simp only [List.map_cons, List.map_nil, tab_dims, hs, Layers.newResult, Ops.concatChannel]
    rw [Kernels.concatNchw_run X Y (by simp [Layers.fresh_length])]
    rfl
  · rw [tab_at _ (v4 hl (by omega) hi hj)]
    simp [fn4, hk]
  · rw [tab_at _ (v4 hl (by omega) hi hj)]
    simp [fn4]

/-- C104 (`nhwc`, three operands). -/
theorem C104_nhwc (junk : Nat → R) {n h w c1 c2 c3 : Nat} (hc : c1 + c2 + c3 < 2 ^ 32)
    (X Y Z : Nat → Nat → Nat → Nat → R) :
    ∃ y : Tensor R, Layers.concatChannel .nhwc junk [tab [n, h, w, c1] (fn4 X), tab [n, h, w, c2] (fn4 Y),
        tab [n, h, w, c3] (fn4 Z)] = ⟨1, .ok ⟨y, []⟩⟩ ∧ y.WF ∧ y.dims = [n, h, w, c1 + c2 + c3] ∧
      ∀ l < n, ∀ i < h, ∀ j < w, (∀ k < c1, y.at_ [l, i, j, k] = .ok (X l i j k)) ∧
        (∀ k < c2, y.at_ [l, i, j, c1 + k] = .ok (Y l i j k)) ∧
        ∀ k < c3, y.at_ [l, i, j, c1 + c2 + k] = .ok (Z l i j k) := by
  have hs : Ops.concatChannelShape .nhwc [[n, h, w, c1], [n, h, w, c2], [n, h, w, c3]] = .ok [n, h, w, c1 + c2 + c3] := by
    have := (C14_channel n h w (cs := [c1, c2, c3]) (by simp) (by simp; omega)).2
    simpa [Nat.add_assoc] using this
  refine ⟨tab [n, h, w, c1 + c2 + c3] (fn4 fun l i j k => if k < c1 then X l i j k
        else if k < c1 + c2 then Y l i j (k - c1) else Z l i j (k - c1 - c2)), ?_, by
    simp [Tensor.WF], rfl, fun l hl i hi j hj => ⟨fun k hk => ?_, fun k hk => ?_, fun k hk => ?_⟩⟩
  · unfold Layers.concatChannel
    simp only [List.map_cons, List.map_nil, tab_dims, hs, Layers.newResult, Ops.concatChannel]
    rw [Kernels.concatNhwc_run (by omega) X Y Z (by simp [Layers.fresh_length])]
    rfl
  · rw [tab_at _ (v4 hl hi hj (by omega))]
    simp [fn4, hk]
  · rw [tab_at _ (v4 hl hi hj (by omega))]
    simp [fn4, hk]
  · rw [tab_at _ (v4 hl hi hj (by omega))]
    have e1 : ¬ c1 + c2 + k < c1 := by omega
    have e2 : c1 + c2 + k - c1 - c2 = k := by omega
    simp [fn4, e1, e2]

omit [Zero R] in
/-- C104: operands that disagree on an axis other than the channel axis are rejected, and nothing stays allocated. -/
theorem C104_rejects (junk : Nat → R) {o : Order} {p : Nat} (hp : o.channelPos = some p) {xs : List (Tensor R)}
    (hl : ∀ x ∈ xs, x.dims.length = 4) {x y : Tensor R} (hx : x ∈ xs) (hy : y ∈ xs) {j : Nat} (hj : j ≠ p)
    (hd : x.dims[j]? ≠ y.dims[j]?) : Layers.concatChannel o junk xs = ⟨0, .throw .runtimeError⟩ := by
  have h : Ops.concatChannelShape o (xs.map Tensor.dims) = .throw .runtimeError := by
    unfold Ops.concatChannelShape
    rw [hp]
    refine (C14_rejects (n := 4) ?_ ?_).2 ⟨_, List.mem_map_of_mem hx, _, List.mem_map_of_mem hy, j, hj, hd⟩
    · simpa using List.ne_nil_of_mem hx
    · simpa using hl
  unfold Layers.concatChannel
  rw [h]
  rfl

end concat

/-- Non-vacuity: three one-pixel images with 1, 2 and 1 channels; a mismatch. -/
example : Layers.concatChannel .nhwc (fun _ => (0 : Int)) [⟨[1, 1, 1, 1], [5]⟩, ⟨[1, 1, 1, 2], [6, 7]⟩, ⟨[1, 1, 1, 1], [8]⟩] =
      ⟨1, .ok ⟨⟨[1, 1, 1, 4], [5, 6, 7, 8]⟩, []⟩⟩ ∧
    Layers.concatChannel .nchw (fun _ => (0 : Int)) [⟨[1, 1, 1, 1], [5]⟩, ⟨[1, 1, 1, 2], [6, 7]⟩] =
      ⟨0, .throw .runtimeError⟩ := by
  decide +kernel

/-! ## C105 -/

/-- C105: when `invoke` returns, exactly the returned tensor is allocated; when it does not, nothing is. -/
theorem C105_owned (junk : Nat → R) (shape : Outcome (List Nat)) (op : List Nat → List R → Outcome (List R)) :
    (∀ y, (invoke junk shape op).out = .ok y → (invoke junk shape op).live = 1) ∧
    ∀ e, (invoke junk shape op).out = .throw e → (invoke junk shape op).live = 0 := by
  unfold invoke
  cases shape with
  | ok s =>
    simp only
    generalize op s (fresh junk s.prod) = r
    cases r <;> simp
  | throw e => simp
  | ub => simp

/-- C105: an operator that satisfies C80, on arguments its shape function accepts, gives a tensor of the inferred shape
filled by the operator, whatever the fresh memory held; on arguments it rejects, `invoke` passes the exception on. -/
theorem C105_runs {shape : Outcome (List Nat)} {op : List Nat → List R → Outcome (List R)} (h : Safe shape op) :
    (∀ s, shape = .ok s → ∃ d, d.length = s.prod ∧ (∀ y, y.length = s.prod → op s y = .ok d) ∧
      ∀ junk, invoke junk shape op = ⟨1, .ok ⟨s, d⟩⟩) ∧
    ∀ e, shape = .throw e → ∀ junk, invoke junk shape op = ⟨0, .throw e⟩ := by
  refine ⟨fun s hs => ?_, fun e he junk => ?_⟩
  · obtain ⟨d, hl, e⟩ := h s hs
    refine ⟨d, hl, e, fun junk => ?_⟩
    unfold invoke
    rw [hs]
    simp only [e (fresh junk s.prod) (by simp [Layers.fresh_length])]
  · unfold invoke
    rw [he]

/-- C105: for instance `invoke(add(), x, y)`. -/
theorem C105_add [Zero R] [Add R] (junk : Nat → R) (dx dy : List Nat) (x y : List R) (hr : dx.length = dy.length)
    (hx : x.length = dx.prod) (hy : y.length = dy.prod) :
    invoke junk (Ops.binaryEndoShape dx dy) (fun s m => Ops.add s.prod (.ext x) (.ext y) 0 m) =
      if dx = dy then ⟨1, .ok ⟨dx, List.zipWith (· + ·) x y⟩⟩ else ⟨0, .throw .invalidArgument⟩ := by
  by_cases c : dx = dy
  · subst c
    have e : Ops.add dx.prod (.ext x) (.ext y) 0 (fresh junk dx.prod) = .ok (List.zipWith (· + ·) x y) := by
      have := C21_add (x := .ext x) (y := .ext y) (z := 0) (m := fresh junk dx.prod) (ext_holds x _ 0) (ext_holds y _ 0)
        (by omega) (by simp [Layers.fresh_length, hx])
      rw [hx] at this
      rw [this, store_all (by simp [hx, hy, Layers.fresh_length])]
    simp [invoke, Ops.binaryEndoShape, e]
  · simp [invoke, Ops.binaryEndoShape, c, hr]

/-- Non-vacuity. -/
example : invoke (fun _ => (0 : Int)) (Ops.binaryEndoShape [2] [2]) (fun s m => Ops.add s.prod (.ext [1, 2]) (.ext [3, 4]) 0 m) =
      ⟨1, .ok ⟨[2], [4, 6]⟩⟩ ∧
    invoke (fun _ => (0 : Int)) (Ops.binaryEndoShape [2] [1]) (fun s m => Ops.add s.prod (.ext [1, 2]) (.ext [3]) 0 m) =
      ⟨0, .throw .invalidArgument⟩ := by decide +kernel

/-! ## C106 -/
section biases
variable [Zero R]

theorem rdAll_run {k j : Nat} (hj : j < k) (Bs : List (Nat → R)) :
    Kernels.rdAll (Bs.map fun B => (tab [k] (fn1 B)).data) j = .ok (Bs.map fun B => B j) := by
  induction Bs with
  | nil => rfl
  | cons B Bs ih =>
    have hy : StdNN.rd (tab [k] (fn1 B)).data j = .ok (B j) := by
      have := tab_getElem? (fn1 B) (v1 hj)
      simp only [offset_cons, List.prod_nil, Nat.mul_one, offset_nil, Nat.add_zero] at this
      unfold StdNN.rd
      rw [this]
      rfl
    simp only [List.map_cons, Kernels.rdAll, hy, ih, Outcome.ok_bind]
    rfl

theorem applyBiases_run {f : R → List R → R} {p k : Nat} {dims : List Nat} {x : Src R} {z : Nat} {m : List R}
    {X : List Nat → R} (Bs : List (Nat → R)) (hp : dims[p]? = some k) (hx : x.Holds m z (tab dims X).data)
    (hz : z + dims.prod ≤ m.length) :
    Kernels.applyBiases f p dims x (Bs.map fun B => (tab [k] (fn1 B)).data) z m =
      .ok (store m z (tab dims fun idx => f (X idx) (Bs.map fun B => B (idx.getD p 0))).data) := by
  refine run_store (by simp) hz fun i hi m' _ hq =>
    ⟨f (X (unravel dims i)) (Bs.map fun B => B ((unravel dims i).getD p 0)), by simp [tab, hi], ?_⟩
  have hr := hx.rd (i := i) (by simpa using hi) hq
  have hlt : (unravel dims i).getD p 0 < k := valid_getD (valid_unravel hi) hp
  rw [hr, Outcome.ok_bind, rdAll_run hlt, Outcome.ok_bind]
  simp [tab]

/-- C106 (`nchw`): with any number of vectors, element `(l, k, i, j)` becomes the function of the element and of entry `k`
of every vector; in place or not. -/
theorem C106_nchw (f : R → List R → R) {n c h w : Nat} {x : Src R} {z : Nat} {m : List R}
    (X : Nat → Nat → Nat → Nat → R) (Bs : List (Nat → R)) (hx : x.Holds m z (tab [n, c, h, w] (fn4 X)).data)
    (hz : z + [n, c, h, w].prod ≤ m.length) :
    Kernels.applyBiases f 1 [n, c, h, w] x (Bs.map fun B => (tab [c] (fn1 B)).data) z m =
      .ok (store m z (tab [n, c, h, w] (fn4 fun l k i j => f (X l k i j) (Bs.map fun B => B k))).data) := by
  refine (applyBiases_run (p := 1) Bs (by rfl) hx hz).trans ?_
  refine congrArg (fun t => Outcome.ok (store m z (Tensor.data t))) (tab_congr fun idx hv => ?_)
  match idx, hv with
  | [l, k, i, j], _ => rfl

/-- C106 (`hw`): the vectors run along the columns. -/
theorem C106_hw (f : R → List R → R) {h w : Nat} {x : Src R} {z : Nat} {m : List R}
    (X : Nat → Nat → R) (Bs : List (Nat → R)) (hx : x.Holds m z (tab [h, w] (fn2 X)).data)
    (hz : z + [h, w].prod ≤ m.length) :
    Kernels.applyBiases f 1 [h, w] x (Bs.map fun B => (tab [w] (fn1 B)).data) z m =
      .ok (store m z (tab [h, w] (fn2 fun i j => f (X i j) (Bs.map fun B => B j))).data) := by
  refine (applyBiases_run (p := 1) Bs (by rfl) hx hz).trans ?_
  refine congrArg (fun t => Outcome.ok (store m z (Tensor.data t))) (tab_congr fun idx hv => ?_)
  match idx, hv with
  | [i, j], _ => rfl

/-- C106: one call with two vectors is two calls with one vector each, the second in place. -/
theorem C106_twice (f g : R → R → R) {n c h w : Nat} (X : Nat → Nat → Nat → Nat → R) (A B : Nat → R) {m : List R}
    (hm : m.length = [n, c, h, w].prod) :
    Kernels.applyBiases (fun a bs => match bs with | [b, b'] => g (f a b) b' | _ => a) 1 [n, c, h, w]
        (.ext (tab [n, c, h, w] (fn4 X)).data) [(tab [c] (fn1 A)).data, (tab [c] (fn1 B)).data] 0 m =
      (do let m ← Ops.applyBias f .nchw [n, c, h, w] [n, c, h, w] (.ext (tab [n, c, h, w] (fn4 X)).data)
            (tab [c] (fn1 A)).data 0 m
          Ops.applyBias g .nchw [n, c, h, w] [n, c, h, w] (.mem 0) (tab [c] (fn1 B)).data 0 m) := by
  have e1 := C106_nchw (fun a bs => match bs with | [b, b'] => g (f a b) b' | _ => a) X [A, B]
    (ext_holds (tab [n, c, h, w] (fn4 X)).data m 0) (by omega)
  have e2 := C22_bias_nchw f X A (ext_holds (tab [n, c, h, w] (fn4 X)).data m 0) (by omega)
  rw [store_all (by simp [hm])] at e1 e2
  rw [e2, Outcome.ok_bind]
  have e3 := C22_bias_nchw g (fun l k i j => f (X l k i j) (A k)) B
    (mem_holds_all (tab [n, c, h, w] (fn4 fun l k i j => f (X l k i j) (A k))).data) (by simp)
  rw [store_all (by simp)] at e3
  rw [e3]
  exact e1

end biases

/-- Non-vacuity: scale and shift of two channels with one pixel pair each, in place. -/
example : Kernels.applyBiases (fun (a : Int) bs => match bs with | [s, t] => a * s + t | _ => a) 1 [1, 2, 1, 2] (.mem 0)
    [[2, 3], [10, 20]] 0 [1, 2, 3, 4] = .ok [12, 14, 29, 32] := by decide +kernel

/-! ## Concrete cases -/

example := C104_nchw (fun _ => (9 : Int)) (n := 2) (h := 2) (w := 3) (c1 := 1) (c2 := 2) (by decide)
  (fun l i j k => l + i - j * k) (fun l i j k => l * i + j - k)
example := C104_nhwc (fun _ => (9 : Int)) (n := 2) (h := 2) (w := 3) (c1 := 1) (c2 := 2) (c3 := 1) (by decide)
  (fun l i j k => l + i - j * k) (fun l i j k => l * i + j - k) (fun l i j k => l * i * j * k)
example := C104_rejects (fun _ => (9 : Int)) (o := .nhwc) (p := 3) (by decide)
  (xs := [⟨[1, 1, 1, 2], [1, 2]⟩, ⟨[1, 1, 2, 1], [3, 4]⟩, ⟨[1, 1, 1, 1], [5]⟩]) (by decide)
  (x := ⟨[1, 1, 1, 2], [1, 2]⟩) (y := ⟨[1, 1, 2, 1], [3, 4]⟩) (by decide) (by decide) (j := 2) (by decide) (by decide)
example := C106_nchw (fun (a : Int) bs => bs.foldl (· + ·) a) (n := 2) (c := 2) (h := 2) (w := 3) (x := .ext _) (z := 0)
  (m := List.replicate 24 9) (fun l i j k => l + i - j * k) [fun k => 2 * k, fun k => 5 - k] (fun _ _ => rfl) (by decide)
example := C106_hw (fun (a : Int) bs => bs.foldl (· + ·) a) (h := 2) (w := 3) (x := .ext _) (z := 0)
  (m := List.replicate 6 9) (fun i j => i - j) [fun k => 2 * k, fun k => 5 - k] (fun _ _ => rfl) (by decide)
example := C105_runs (C80_matmul (R := Int) (x := ⟨[2, 3], [1, 2, 3, 4, 5, 6]⟩) (y := ⟨[3, 1], [1, 10, 100]⟩) rfl rfl)

end StdNN
