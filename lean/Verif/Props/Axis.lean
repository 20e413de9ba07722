import Verif.Model.UtilityOps
import Verif.Props.Utility
import Verif.Props.Summary
import Verif.Props.Activation
import Verif.Props.Safety
/-!
# C137: reductions along the last axis of tensors of any rank
-/
namespace StdNN
open Outcome Finset Spec
variable {R : Type}

/-- The data of a tensor in the order of the flat index. -/
theorem tab_flat {S : Type} (ds : List Nat) (f : Nat → S) :
    (List.range ds.prod).map f = (tab ds fun i => f (offset ds i)).data := by
  unfold tab
  refine List.map_congr_left fun i hi => ?_
  exact congrArg f (offset_unravel (List.mem_range.1 hi)).symm

/-- C137: `argmax` of a tensor of any rank: at every index of the leading axes the position of the first maximum along the
last axis. -/
theorem C137_argmax [LinearOrder R] [Zero R] (t : IntTy) (ds : List Nat) {n : Nat} (hn : 1 ≤ n) (X : List Nat → R)
    {y : List Int} (hy : y.length = ds.prod) :
    ∃ a : List Nat → Nat, Ops.argmax t (tab (ds ++ [n]) X) y = .ok (tab ds fun i => t.conv (a i)).data ∧
      ∀ i, Valid ds i → a i < n ∧ (∀ j < n, X (i ++ [j]) ≤ X (i ++ [a i])) ∧ ∀ j < a i, X (i ++ [j]) < X (i ++ [a i]) := by
  obtain ⟨a, e, h⟩ := C57_argmax t hn (fun r j => X (unravel ds r ++ [j])) hy
  refine ⟨fun i => a (offset ds i), ?_, fun i hi => ?_⟩
  · show Kernels.argmax t (rowsOf (ds ++ [n])).2 _ y = _
    rw [rowsOf_snoc, tab_snoc]
    exact e.trans (congrArg Outcome.ok (tab_flat ds fun r => t.conv (a r)))
  · have := h _ (offset_lt hi)
    rwa [unravel_offset hi] at this

/-- C137: `onehot` of a tensor of labels of any rank. -/
theorem C137_onehot [Zero R] [One R] (t : IntTy) (ht : 1 ≤ t.bits) (ds : List Nat) {k : Nat} (hk : t.In k)
    (L : List Nat → Int) {y : List R} (hy : y.length = (ds ++ [k]).prod) :
    Ops.onehot t (ds ++ [k]) (tab ds L) y =
      .ok (tab (ds ++ [k]) fun i => if L i.dropLast = (i.getLastD 0 : Nat) then 1 else 0).data := by
  have hl : (tab ds L).data.length = ds.prod := tab_length _ _
  show Kernels.onehot t (rowsOf (ds ++ [k])).2 _ y = _
  rw [rowsOf_snoc, C56_onehot t ht hk _ (by rw [hy, hl]; simp), hl, tab_snoc]
  refine congrArg (fun t => Outcome.ok (Tensor.data t)) (tab_congr fun idx hv => ?_)
  match idx, hv with
  | [r, j], hv =>
    have hr : r < ds.prod := hv.1
    have e : (tab ds L).data[r]? = some (L (unravel ds r)) := by
      unfold tab
      simp [hr]
    simp [e]

/-- C137: `argmax` of `onehot` gives back labels of any rank. -/
theorem C137_inverse [LinearOrder R] [Zero R] [One R] (h01 : (0 : R) < 1) (t : IntTy) (ht : 1 ≤ t.bits) (ds : List Nat)
    {k : Nat} (hk : t.In k) (L : List Nat → Int) (hL : ∀ i, Valid ds i → 0 ≤ L i ∧ L i < k) {y : List R}
    (hy : y.length = (ds ++ [k]).prod) {z : List Int} (hz : z.length = ds.prod) :
    (do let o ← Ops.onehot t (ds ++ [k]) (tab ds L) y
        Ops.argmax t ⟨ds ++ [k], o⟩ z) = .ok (tab ds L).data := by
  have hl : (tab ds L).data.length = ds.prod := tab_length _ _
  have := C57_inverse h01 t ht hk (tab ds L).data (fun l hm => by
    unfold tab at hm
    obtain ⟨p, hp, rfl⟩ := List.mem_map.1 hm
    exact hL _ (valid_unravel (List.mem_range.1 hp))) (y := y) (by rw [hy, hl]; simp) (z := z) (by rw [hz, hl])
  unfold Ops.onehot Ops.argmax
  simp only [rowsOf_snoc]
  exact this

/-- C137: `mean` along the last axis of a tensor of any rank; `divn` divides by a count. -/
theorem C137_mean [Zero R] [Add R] (divn : R → Nat → R) (ds : List Nat) (n : Nat) (X : List Nat → R) {y : List R}
    (hy : y.length = ds.prod) :
    Ops.meanOp (Ops.Summaries.mean divn) (tab (ds ++ [n]) X) y =
      .ok (tab ds fun i => divn (seqSum n fun j => X (i ++ [j])) n).data := by
  show Ops.mean _ (rowsOf (ds ++ [n])).1 (rowsOf (ds ++ [n])).2 _ y = _
  rw [rowsOf_snoc, tab_snoc, C82_mean divn _ hy, tab_flat ds]
  refine congrArg (fun t => Outcome.ok (Tensor.data t)) (tab_congr fun i hi => ?_)
  rw [unravel_offset hi]

/-- C137: over a field the mean of the elements. -/
theorem C137_mean_exact [Field R] (ds : List Nat) (n : Nat) (X : List Nat → R) {y : List R} (hy : y.length = ds.prod) :
    Ops.meanOp (Ops.Summaries.mean fun (s : R) n => s / n) (tab (ds ++ [n]) X) y =
      .ok (tab ds fun i => (∑ j ∈ range n, X (i ++ [j])) / n).data := by
  rw [C137_mean _ ds n X hy]
  refine congrArg (fun t => Outcome.ok (Tensor.data t)) (tab_congr fun i hi => ?_)
  rw [seqSum_eq_sum]

/-- C137: `similarity` of two tensors of any rank: the share of the indices at which they agree. -/
theorem C137_similarity [Field R] [LinearOrder R] [IsStrictOrderedRing R] {S : Type} [DecidableEq S] {ds : List Nat}
    (hd : 0 < ds.prod) (X Y : List Nat → S) (z : R) :
    Ops.similarity (tab ds X) (tab ds Y) [z] =
      .ok [(((range ds.prod).filter fun p => X (unravel ds p) = Y (unravel ds p)).card : R) / ds.prod] := by
  have hx : (tab ds X).data.length = ds.prod := by simp [tab]
  have hy : (tab ds Y).data.length = ds.prod := by simp [tab]
  obtain ⟨v, e, -, hv, -⟩ := C59_similarity (R := R) (x := (tab ds X).data) (y := (tab ds Y).data)
    (by intro h; rw [h] at hx; simp at hx; omega) (by rw [hx, hy]) z
  refine e.trans (congrArg (fun v => Outcome.ok [v]) ?_)
  have hd' : (ds.prod : R) ≠ 0 := by exact_mod_cast hd.ne'
  have c : ((range ds.prod).filter fun p => (tab ds X).data[p]? ≠ (tab ds Y).data[p]?).card =
      ((range ds.prod).filter fun p => ¬ X (unravel ds p) = Y (unravel ds p)).card := by
    congr 1
    refine filter_congr fun p hp => ?_
    have hp := mem_range.1 hp
    simp [tab, hp]
  have s := card_filter_add_card_filter_not (s := range ds.prod) (fun p => X (unravel ds p) = Y (unravel ds p))
  rw [card_range] at s
  rw [hv, hx, c, eq_div_iff hd', sub_mul, div_mul_cancel₀ _ hd', one_mul, sub_eq_iff_eq_add]
  exact_mod_cast s.symm

/-- C137: the shapes: `onehot(k)` appends an axis, `argmax` and `mean` remove the last one. -/
theorem C137_shapes (ds : List Nat) (k : Nat) :
    Ops.vectorizeShape k ds = .ok (ds ++ [k]) ∧ Ops.reduceShape (ds ++ [k]) = .ok ds := by
  refine ⟨rfl, ?_⟩
  unfold Ops.reduceShape
  rw [if_neg (by simp), List.dropLast_concat]

/-! ## The hypotheses are met -/

/-- A 2 × 2 tensor of labels of 3 classes. -/
example : Ops.onehot (R := Int) IntTy.i32 [2, 2, 3] ⟨[2, 2], [0, 2, 1, 5]⟩ (List.replicate 12 7) =
    .ok [1, 0, 0, 0, 0, 1, 0, 1, 0, 0, 0, 0] := by decide +kernel
example : Ops.argmax IntTy.i32 ⟨[2, 2, 3], [1, 5, 5, 9, 0, 1, 0, 1, 0, 0, 0, 0]⟩ [9, 9, 9, 9] = .ok [1, 0, 1, 0] := by
  decide +kernel
example : (12 = ([2, 2] ++ [3]).prod) ∧ (IntTy.i32.In (3 : Nat)) ∧ 0 < [2, 2].prod := by decide

/-! ## Concrete cases -/

example := C137_argmax (R := Int) IntTy.i32 [2, 2] (n := 3) (by decide) (fun i => 5 - (i.headD 0 : Int)) (y := [9, 9, 9, 9]) rfl
example := C137_onehot (R := Int) IntTy.i32 (by decide) [2, 2] (k := 3) (by decide) (fun i => (i.headD 0 : Int))
  (y := List.replicate 12 7) rfl
example := C137_inverse (R := Int) (by decide) IntTy.i32 (by decide) [2] (k := 3) (by decide) (fun i => ((i.headD 0 % 3 : Nat) : Int))
  (fun i _ => ⟨Int.natCast_nonneg _, by exact_mod_cast Nat.mod_lt _ (by decide)⟩) (y := List.replicate 6 7) rfl (z := [9, 9]) rfl
example := C137_similarity (R := ℚ) (ds := [2, 3]) (by decide) (fun i => i.headD 0) (fun i => i.getLastD 0) 7

end StdNN
