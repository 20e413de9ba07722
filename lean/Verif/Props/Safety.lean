import Verif.Props.Matmul
import Verif.Props.ConvLaws
import Verif.Lemmas.Scatter
import Verif.Props.Pool
import Verif.Props.Norm
import Verif.Props.Activation
import Verif.Props.Gradients
import Verif.Props.Shapes
import Verif.Props.Summary
import Verif.Props.Utility
/-!
# C80: an operator runs on an output of the inferred shape
-/
namespace StdNN
open Spec Outcome IntTy
variable {R : Type}

/-- If shape inference accepts the arguments, then running the operator on any output buffer of the inferred shape neither
throws nor is undefined, leaves the size of the buffer unchanged, and gives the same result whatever the buffer held before. -/
def Safe (shape : Outcome (List Nat)) (run : List Nat → List R → Outcome (List R)) : Prop :=
  ∀ s, shape = .ok s → ∃ y', y'.length = s.prod ∧ ∀ y, y.length = s.prod → run s y = .ok y'

theorem all_stored {n : Nat} {run : List R → Outcome (List R)} {v : List R} (hv : v.length = n)
    (h : ∀ y : List R, y.length = n → run y = .ok (store y 0 v)) :
    ∃ y' : List R, y'.length = n ∧ ∀ y : List R, y.length = n → run y = .ok y' :=
  ⟨v, hv, fun y hy => by rw [h y hy, store_all (by omega)]⟩

theorem as_tab [Zero R] {t : Tensor R} {d : List Nat} (h : t.WF) (hd : t.dims = d) : ∃ f, t = tab d f := by
  haveI : Inhabited R := ⟨0⟩
  subst hd
  exact h.exists_tab

theorem as1 [Zero R] {t : Tensor R} {a : Nat} (h : t.WF) (hd : t.dims = [a]) : ∃ f, t = tab [a] (fn1 f) := by
  obtain ⟨f, e⟩ := as_tab h hd
  refine ⟨fun i => f [i], e.trans (tab_congr fun idx hv => ?_)⟩
  match idx, hv with
  | [_], _ => rfl

theorem as2 [Zero R] {t : Tensor R} {a b : Nat} (h : t.WF) (hd : t.dims = [a, b]) : ∃ f, t = tab [a, b] (fn2 f) := by
  obtain ⟨f, e⟩ := as_tab h hd
  refine ⟨fun i j => f [i, j], e.trans (tab_congr fun idx hv => ?_)⟩
  match idx, hv with
  | [_, _], _ => rfl

theorem as3 [Zero R] {t : Tensor R} {a b c : Nat} (h : t.WF) (hd : t.dims = [a, b, c]) :
    ∃ f, t = tab [a, b, c] (fn3 f) := by
  obtain ⟨f, e⟩ := as_tab h hd
  refine ⟨fun i j k => f [i, j, k], e.trans (tab_congr fun idx hv => ?_)⟩
  match idx, hv with
  | [_, _, _], _ => rfl

theorem as4 [Zero R] {t : Tensor R} {a b c d : Nat} (h : t.WF) (hd : t.dims = [a, b, c, d]) :
    ∃ f, t = tab [a, b, c, d] (fn4 f) := by
  obtain ⟨f, e⟩ := as_tab h hd
  refine ⟨fun i j k l => f [i, j, k, l], e.trans (tab_congr fun idx hv => ?_)⟩
  match idx, hv with
  | [_, _, _, _], _ => rfl

theorem as5 [Zero R] {t : Tensor R} {a b c d e : Nat} (h : t.WF) (hd : t.dims = [a, b, c, d, e]) :
    ∃ f, t = tab [a, b, c, d, e] (fn5 f) := by
  obtain ⟨f, e'⟩ := as_tab h hd
  refine ⟨fun i j k l m => f [i, j, k, l, m], e'.trans (tab_congr fun idx hv => ?_)⟩
  match idx, hv with
  | [_, _, _, _, _], _ => rfl

/-! ## Matrices, element-wise operators, bias, normalisation -/

/-- C80 (`matmul`). -/
theorem C80_matmul [Zero R] [Add R] [Mul R] {x y : Tensor R} (wx : x.WF) (wy : y.WF) :
    Safe (Ops.matmulShape x.dims y.dims) fun s z => Ops.matmul s x y z := by
  intro s hs
  unfold Ops.matmulShape at hs
  split at hs
  · rename_i n m m' k ex ey
    by_cases h : m = m'
    · subst h
      simp only [contractAssert_pos, Outcome.ok_bind, Outcome.pure_eq, Outcome.ok.injEq] at hs
      subst hs
      obtain ⟨X, rfl⟩ := as2 wx ex
      obtain ⟨Y, rfl⟩ := as2 wy ey
      exact ⟨_, by rw [tab_length], fun z hz => Plain.mm_run (fn2 X) (fn2 Y) (by simpa using hz)⟩
    · rw [contractAssert_neg h] at hs
      exact absurd hs (by simp)
  · exact absurd hs (by simp)

section
variable [Zero R]

/-- C80 (`identity`, `pointwise`, `relu`). -/
theorem C80_unary [LT R] [DecidableLT R] (f : R → R) {x : Tensor R} (wx : x.WF) :
    Safe (Ops.endoShape x.dims) (fun _ z => Ops.identity x.data.length (.ext x.data) 0 z) ∧
    Safe (Ops.endoShape x.dims) (fun _ z => Ops.pointwise f x.data.length (.ext x.data) 0 z) ∧
    Safe (Ops.endoShape x.dims) (fun _ z => Ops.relu x.data.length (.ext x.data) 0 z) := by
  have wx' : x.data.length = x.dims.prod := wx
  refine ⟨?_, ?_, ?_⟩ <;> intro s hs <;> injection hs with hs <;> subst hs
  · exact all_stored wx' fun z hz => C21_identity (ext_holds _ _ _) (fun p h => by simp at h) (by omega)
  · exact all_stored (by simpa using wx') fun z hz => C21_pointwise f (ext_holds _ _ _) (by omega)
  · exact all_stored (by simpa using wx') fun z hz => C21_relu (ext_holds _ _ _) (by omega)

theorem binaryEndo_ok {x y s : List Nat} (h : Ops.binaryEndoShape x y = .ok s) : x = y ∧ s = x := by
  unfold Ops.binaryEndoShape at h
  split at h
  · exact absurd h (by simp)
  · split at h
    · exact absurd h (by simp)
    · rename_i hne
      injection h with h
      exact ⟨not_not.1 hne, h.symm⟩

/-- C80 (`add`, `sub`, `mul`, `axpy`). -/
theorem C80_binary [Add R] [Sub R] [Mul R] (a : R) {x y : Tensor R} (wx : x.WF) (wy : y.WF) :
    Safe (Ops.binaryEndoShape x.dims y.dims) (fun _ z => Ops.add x.data.length (.ext x.data) (.ext y.data) 0 z) ∧
    Safe (Ops.binaryEndoShape x.dims y.dims) (fun _ z => Ops.sub x.data.length (.ext x.data) (.ext y.data) 0 z) ∧
    Safe (Ops.binaryEndoShape x.dims y.dims) (fun _ z => Ops.mul x.data.length (.ext x.data) (.ext y.data) 0 z) ∧
    Safe (Ops.axpyShape x.dims y.dims) (fun _ z => Ops.axpy x.data.length a (.ext x.data) (.ext y.data) 0 z) := by
  have wx' : x.data.length = x.dims.prod := wx
  have wy' : y.data.length = y.dims.prod := wy
  have key : ∀ (f : R → R → R) (s : List Nat), x.dims = y.dims → s = x.dims → ∃ z' : List R, z'.length = s.prod ∧
      ∀ z : List R, z.length = s.prod → Kernels.transform2 f x.data.length (.ext x.data) (.ext y.data) 0 z = .ok z' := by
    intro f s e1 e2
    subst e2
    exact all_stored (by rw [List.length_zipWith, wx', wy', e1, min_self]) fun z hz =>
      Kernels.transform2_run (ext_holds _ _ _) (ext_holds _ _ _) (by rw [wx', wy', e1]) (by simp only [wx'] at hz ⊢; omega)
  refine ⟨?_, ?_, ?_, ?_⟩ <;> intro s hs
  · exact key _ s (binaryEndo_ok hs).1 (binaryEndo_ok hs).2
  · exact key _ s (binaryEndo_ok hs).1 (binaryEndo_ok hs).2
  · exact key _ s (binaryEndo_ok hs).1 (binaryEndo_ok hs).2
  · unfold Ops.axpyShape at hs
    split at hs
    · exact absurd hs (by simp)
    · by_cases e : x.dims = y.dims
      · rw [contractAssert_pos e] at hs
        simp only [Outcome.ok_bind, Outcome.pure_eq, Outcome.ok.injEq] at hs
        exact key _ s e hs.symm
      · rw [contractAssert_neg e] at hs
        exact absurd hs (by simp)

/-- C80 (`softmax`), any rank but 0. -/
theorem C80_softmax [One R] [Add R] [Sub R] [Div R] [LT R] [DecidableLT R] (exp : R → R) (eps : R) {x : Tensor R}
    (wx : x.WF) (hr : x.dims ≠ []) :
    Safe (Ops.endoShape x.dims) fun s z => Ops.softmax exp eps s x.dims (.ext x.data) 0 z := by
  intro s hs
  injection hs with hs
  subst hs
  obtain ⟨ds, n, e⟩ : ∃ ds n, x.dims = ds ++ [n] := ⟨_, _, (List.dropLast_append_getLast hr).symm⟩
  obtain ⟨f, rfl⟩ := as_tab wx e
  rw [tab_dims]
  exact all_stored (by simp) fun z hz => C51_order exp eps ds n f (by omega)

/-- C80 (`xentropy`). -/
theorem C80_xentropy [Add R] [Mul R] [Neg R] (log : R → R) {x y : Tensor R} (wx : x.WF) (wy : y.WF) :
    Safe (Ops.binaryReduceShape x.dims y.dims) fun s z => Ops.xentropy log s x y z := by
  intro s hs
  unfold Ops.binaryReduceShape at hs
  split at hs
  · exact absurd hs (by simp)
  · rename_i h1
    split at hs
    · exact absurd hs (by simp)
    · rename_i h2
      injection hs with hs
      have h2 := not_not.1 h2
      have hr : x.dims ≠ [] := fun h => h1 (.inr h)
      obtain ⟨ds, n, e⟩ : ∃ ds n, x.dims = ds ++ [n] := ⟨_, _, (List.dropLast_append_getLast hr).symm⟩
      obtain ⟨f, rfl⟩ := as_tab wx e
      obtain ⟨g, rfl⟩ := as_tab wy (h2.symm.trans e)
      rw [tab_dims, List.dropLast_concat] at hs
      subst hs
      exact ⟨_, by simp, fun z hz => C54_order log ds n f g hz⟩

theorem ite_ok {p : Prop} [Decidable p] {a s : List Nat} {e : Err} (h : (if p then .ok a else .throw e) = Outcome.ok s) :
    p ∧ s = a := by
  split at h
  · injection h with h
    exact ⟨‹p›, h.symm⟩
  · exact absurd h (by simp)

/-- C80 (`apply_bias`). -/
theorem C80_bias (f : R → R → R) {x b : Tensor R} {k : Nat} (wx : x.WF) (wb : b.WF) (eb : b.dims = [k]) :
    (∀ h w, x.dims = [h, w] →
      Safe (Ops.biasShape .hw x.dims b.dims) fun s z => Ops.applyBias f .hw s x.dims (.ext x.data) b.data 0 z) ∧
    (∀ n h w c, x.dims = [n, h, w, c] →
      Safe (Ops.biasShape .nhwc x.dims b.dims) fun s z => Ops.applyBias f .nhwc s x.dims (.ext x.data) b.data 0 z) ∧
    (∀ n c h w, x.dims = [n, c, h, w] →
      Safe (Ops.biasShape .nchw x.dims b.dims) fun s z => Ops.applyBias f .nchw s x.dims (.ext x.data) b.data 0 z) := by
  obtain ⟨B, rfl⟩ := as1 wb eb
  refine ⟨fun h w ex s hs => ?_, fun n h w c ex s hs => ?_, fun n c h w ex s hs => ?_⟩ <;>
    rw [ex, tab_dims] at hs
  · obtain ⟨X, rfl⟩ := as2 wx ex
    obtain ⟨rfl, rfl⟩ := ite_ok ((C22_shape h w 0 0 k).1.symm.trans hs)
    exact all_stored (by simp) fun z hz => C22_bias_hw f X B (ext_holds _ _ _) (by omega)
  · obtain ⟨X, rfl⟩ := as4 wx ex
    obtain ⟨rfl, rfl⟩ := ite_ok ((C22_shape n h w c k).2.1.symm.trans hs)
    exact all_stored (by simp) fun z hz => C22_bias_nhwc f X B (ext_holds _ _ _) (by omega)
  · obtain ⟨X, rfl⟩ := as4 wx ex
    obtain ⟨rfl, rfl⟩ := ite_ok ((C22_shape n c h w k).2.2.symm.trans hs)
    exact all_stored (by simp) fun z hz => C22_bias_nchw f X B (ext_holds _ _ _) (by omega)

/-- C80 (`batch_norm`). -/
theorem C80_batch_norm [Add R] [Sub R] [Div R] (sqrt : R → R) (eps : R) {x μ v : Tensor R} {k1 k2 : Nat} (wx : x.WF)
    (w1 : μ.WF) (w2 : v.WF) (e1 : μ.dims = [k1]) (e2 : v.dims = [k2]) :
    (∀ n h w c, x.dims = [n, h, w, c] → Safe (Ops.batchNormShape .nhwc x.dims μ.dims v.dims)
      fun s z => Ops.batchNorm sqrt eps .nhwc s x.dims (.ext x.data) μ.data v.data 0 z) ∧
    (∀ n c h w, x.dims = [n, c, h, w] → Safe (Ops.batchNormShape .nchw x.dims μ.dims v.dims)
      fun s z => Ops.batchNorm sqrt eps .nchw s x.dims (.ext x.data) μ.data v.data 0 z) := by
  obtain ⟨M, rfl⟩ := as1 w1 e1
  obtain ⟨V, rfl⟩ := as1 w2 e2
  refine ⟨fun n h w c ex s hs => ?_, fun n c h w ex s hs => ?_⟩ <;> rw [ex, tab_dims, tab_dims] at hs <;>
    obtain ⟨X, rfl⟩ := as4 wx ex
  · obtain ⟨⟨rfl, rfl⟩, rfl⟩ := ite_ok ((C55_shape n h w c k1 k2 0 0).1.symm.trans hs)
    exact all_stored (by simp) fun z hz => C55_nhwc sqrt eps X M V (ext_holds _ _ _) (by omega)
  · obtain ⟨⟨rfl, rfl⟩, rfl⟩ := ite_ok ((C55_shape n c h w k1 k2 0 0).2.1.symm.trans hs)
    exact all_stored (by simp) fun z hz => C55_nchw sqrt eps X M V (ext_holds _ _ _) (by omega)

/-- C80 (`batch_norm_with_bias`). -/
theorem C80_batch_norm_with_bias [Add R] [Sub R] [Mul R] [Div R] (sqrt : R → R) (eps : R) {x μ v β γ : Tensor R}
    {k1 k2 k3 k4 : Nat} (wx : x.WF) (w1 : μ.WF) (w2 : v.WF) (w3 : β.WF) (w4 : γ.WF) (e1 : μ.dims = [k1])
    (e2 : v.dims = [k2]) (e3 : β.dims = [k3]) (e4 : γ.dims = [k4]) :
    (∀ n h w c, x.dims = [n, h, w, c] →
      Safe (Ops.batchNormWithBiasShape .nhwc x.dims μ.dims v.dims β.dims γ.dims) fun s z =>
        Ops.batchNormWithBias sqrt eps .nhwc s x.dims (.ext x.data) μ.data v.data β.data γ.data 0 z) ∧
    (∀ n c h w, x.dims = [n, c, h, w] →
      Safe (Ops.batchNormWithBiasShape .nchw x.dims μ.dims v.dims β.dims γ.dims) fun s z =>
        Ops.batchNormWithBias sqrt eps .nchw s x.dims (.ext x.data) μ.data v.data β.data γ.data 0 z) := by
  obtain ⟨M, rfl⟩ := as1 w1 e1
  obtain ⟨V, rfl⟩ := as1 w2 e2
  obtain ⟨B, rfl⟩ := as1 w3 e3
  obtain ⟨G, rfl⟩ := as1 w4 e4
  refine ⟨fun n h w c ex s hs => ?_, fun n c h w ex s hs => ?_⟩ <;>
    simp only [ex, tab_dims] at hs <;> obtain ⟨X, rfl⟩ := as4 wx ex
  · obtain ⟨⟨rfl, rfl, rfl, rfl⟩, rfl⟩ := ite_ok ((C55_shape n h w c k1 k2 k3 k4).2.2.1.symm.trans hs)
    exact all_stored (by simp) fun z hz => C55_bias_nhwc sqrt eps X M V B G (ext_holds _ _ _) (by omega)
  · obtain ⟨⟨rfl, rfl, rfl, rfl⟩, rfl⟩ := ite_ok ((C55_shape n c h w k1 k2 k3 k4).2.2.2.symm.trans hs)
    exact all_stored (by simp) fun z hz => C55_bias_nchw sqrt eps X M V B G (ext_holds _ _ _) (by omega)

/-! ## Layout -/

/-- C80 (`transpose`). -/
theorem C80_transpose {x : Tensor R} (wx : x.WF) :
    Safe (Ops.toFirstShape x.dims) (fun s z => Kernels.toFirst id s x z) ∧
    Safe (Ops.toLastShape x.dims) (fun s z => Kernels.toLast id s x z) := by
  refine ⟨fun s hs => ?_, fun s hs => ?_⟩
  · unfold Ops.toFirstShape at hs
    split at hs
    · rename_i ex
      injection hs with hs
      subst hs
      obtain ⟨X, rfl⟩ := as4 wx ex
      exact ⟨_, by rw [tab_length], fun z hz => C24_to_channels_first id X hz⟩
    · exact absurd hs (by simp)
  · unfold Ops.toLastShape at hs
    split at hs
    · rename_i ex
      injection hs with hs
      subst hs
      obtain ⟨X, rfl⟩ := as4 wx ex
      exact ⟨_, by rw [tab_length], fun z hz => C24_to_channels_last id X hz⟩
    · exact absurd hs (by simp)

theorem flattenShape_prod : ∀ {rs d s : List Nat}, Ops.flattenShape rs d = .ok s → s.prod = d.prod := by
  intro rs
  induction rs with
  | nil =>
    intro d s h
    cases d with
    | nil => injection h with h; subst h; rfl
    | cons => exact absurd h (by simp [Ops.flattenShape])
  | cons r rs ih =>
    intro d s h
    unfold Ops.flattenShape at h
    split at h
    · exact absurd h (by simp)
    · obtain ⟨rest, e, h⟩ := Outcome.bind_eq_ok.1 h
      injection h with h
      rw [← h, List.prod_cons, ih e, List.prod_take_mul_prod_drop]

/-- C80 (`copy_flatten`). -/
theorem C80_copy_flatten (rs : List Nat) {x : Tensor R} (wx : x.WF) :
    Safe (Ops.flattenShape rs x.dims) fun _ z => Ops.copyFlatten x z := by
  intro s hs
  have wx' : x.data.length = x.dims.prod := wx
  have := flattenShape_prod hs
  exact ⟨_, by omega, fun z hz => (C15_copy_flatten x (by omega)).1⟩

/-- C80 (`concat_channel4d`): the sum of the channel counts must be below `2 ^ 32`. -/
theorem C80_concat {x y z : Tensor R} {c1 c2 c3 : Nat} (wx : x.WF) (wy : y.WF) (wz : z.WF)
    (hc : c1 + c2 + c3 < 2 ^ 32) :
    (∀ n h w n' h' w', x.dims = [n, c1, h, w] → y.dims = [n', c2, h', w'] →
      Safe (Ops.concatChannelShape .nchw [x.dims, y.dims]) fun s t => Kernels.concatNchw s x y t) ∧
    (∀ n h w n' h' w' n'' h'' w'', x.dims = [n, h, w, c1] → y.dims = [n', h', w', c2] → z.dims = [n'', h'', w'', c3] →
      Safe (Ops.concatChannelShape .nhwc [x.dims, y.dims, z.dims]) fun s t => Kernels.concatNhwc s x y z t) := by
  refine ⟨fun n h w n' h' w' ex ey s hs => ?_, fun n h w n' h' w' n'' h'' w'' ex ey ez s hs => ?_⟩
  · rw [ex, ey] at hs
    have same : n' = n ∧ h' = h ∧ w' = w := by
      rcases concatShape_total 1 4 [[n, c1, h, w], [n', c2, h', w']] (by simp) (by simp) with ⟨r, -, -, q⟩ | ⟨e, -⟩
      · have q1 := q _ (List.mem_cons_self ..)
        have q2 := q [n', c2, h', w'] (by simp)
        have a0 := (q2 0 (by decide)).trans (q1 0 (by decide)).symm
        have a2 := (q2 2 (by decide)).trans (q1 2 (by decide)).symm
        have a3 := (q2 3 (by decide)).trans (q1 3 (by decide)).symm
        simp only [List.getElem?_cons_zero, List.getElem?_cons_succ, Option.some.injEq] at a0 a2 a3
        exact ⟨a0, a2, a3⟩
      · exact absurd (e.symm.trans hs) (by simp)
    obtain ⟨rfl, rfl, rfl⟩ := same
    have := (C14_channel n' h' w' (cs := [c1, c2]) (by simp) (by simp; omega)).1
    rw [List.map_cons, List.map_cons, List.map_nil, hs] at this
    injection this with this
    simp only [List.sum_cons, List.sum_nil, add_zero] at this
    subst this
    obtain ⟨X, rfl⟩ := as4 wx ex
    obtain ⟨Y, rfl⟩ := as4 wy ey
    exact ⟨_, by rw [tab_length], fun t ht => Kernels.concatNchw_run X Y ht⟩
  · rw [ex, ey, ez] at hs
    have same : (n' = n ∧ h' = h ∧ w' = w) ∧ n'' = n ∧ h'' = h ∧ w'' = w := by
      rcases concatShape_total 3 4 [[n, h, w, c1], [n', h', w', c2], [n'', h'', w'', c3]] (by simp) (by simp) with
        ⟨r, -, -, q⟩ | ⟨e, -⟩
      · have q1 := q _ (List.mem_cons_self ..)
        have q2 := q [n', h', w', c2] (by simp)
        have q3 := q [n'', h'', w'', c3] (by simp)
        have a0 := (q2 0 (by decide)).trans (q1 0 (by decide)).symm
        have a1 := (q2 1 (by decide)).trans (q1 1 (by decide)).symm
        have a2 := (q2 2 (by decide)).trans (q1 2 (by decide)).symm
        have b0 := (q3 0 (by decide)).trans (q1 0 (by decide)).symm
        have b1 := (q3 1 (by decide)).trans (q1 1 (by decide)).symm
        have b2 := (q3 2 (by decide)).trans (q1 2 (by decide)).symm
        simp only [List.getElem?_cons_zero, List.getElem?_cons_succ, Option.some.injEq] at a0 a1 a2 b0 b1 b2
        exact ⟨⟨a0, a1, a2⟩, b0, b1, b2⟩
      · exact absurd (e.symm.trans hs) (by simp)
    obtain ⟨⟨rfl, rfl, rfl⟩, rfl, rfl, rfl⟩ := same
    have := (C14_channel n'' h'' w'' (cs := [c1, c2, c3]) (by simp) (by simp; omega)).2
    rw [List.map_cons, List.map_cons, List.map_cons, List.map_nil, hs] at this
    injection this with this
    simp only [List.sum_cons, List.sum_nil, add_zero, ← add_assoc] at this
    subst this
    obtain ⟨X, rfl⟩ := as4 wx ex
    obtain ⟨Y, rfl⟩ := as4 wy ey
    obtain ⟨Z, rfl⟩ := as4 wz ez
    exact ⟨_, by rw [tab_length], fun t ht => Kernels.concatNhwc_run (by omega) X Y Z ht⟩

/-! ## Reductions -/

/-- C80 (`mean`), for a type with total arithmetic. -/
theorem C80_mean [Add R] (divn : R → Nat → R) {x : Tensor R} {ds : List Nat} {n : Nat} (wx : x.WF)
    (ex : x.dims = ds ++ [n]) :
    Safe (Ops.reduceShape x.dims) fun s y => Ops.mean (Ops.Summaries.mean divn) s.prod n x.data y := by
  intro s hs
  rw [ex] at hs
  unfold Ops.reduceShape at hs
  rw [if_neg (by simp), List.dropLast_concat] at hs
  injection hs with hs
  subst hs
  obtain ⟨X, e⟩ := as2 (t := ⟨[ds.prod, n], x.data⟩) (a := ds.prod) (b := n)
    (by have : x.data.length = x.dims.prod := wx; simp [Tensor.WF, this, ex]) rfl
  have e' : x.data = (tab [ds.prod, n] (fn2 X)).data := by
    have := congrArg (fun t : Tensor _ => t.data) e
    exact this
  rw [e']
  exact ⟨_, by simp, fun y hy => C82_mean divn X hy⟩

/-- C80 (`argmax`). -/
theorem C80_argmax {F : Type} [LT F] [DecidableLT F] [Zero F] (t : IntTy) {x : Tensor F} {ds : List Nat} {n : Nat}
    (wx : x.WF) (ex : x.dims = ds ++ [n]) :
    Safe (Ops.reduceShape x.dims) fun _ y => Kernels.argmax t n x.data y := by
  intro s hs
  rw [ex] at hs
  unfold Ops.reduceShape at hs
  rw [if_neg (by simp), List.dropLast_concat] at hs
  injection hs with hs
  subst hs
  obtain ⟨X, e⟩ := as2 (t := ⟨[ds.prod, n], x.data⟩) (a := ds.prod) (b := n)
    (by have : x.data.length = x.dims.prod := wx; simp [Tensor.WF, this, ex]) rfl
  have e' : x.data = (tab [ds.prod, n] (fn2 X)).data := by
    have := congrArg (fun t : Tensor _ => t.data) e
    exact this
  rw [e']
  refine ⟨(List.range ds.prod).map fun i => t.conv (maxElement (tab [n] (fn1 (X i))).data), by simp, fun y hy => ?_⟩
  show Kernels.argmax _ _ _ _ = _
  unfold Kernels.argmax
  rw [← run_storeFlat (val := fun i => t.conv (maxElement (tab [n] (fn1 (X i))).data)) hy, hy]
  refine forRange_congr (fun i hi s => ?_) y
  rw [rowOf_tab X hi, Outcome.ok_bind]

/-- C80 (`onehot`). -/
theorem C80_onehot [One R] (t : IntTy) (k : Nat) {x : Tensor Int} (wx : x.WF) :
    Safe (R := R) (Ops.vectorizeShape k x.dims) fun _ y => Kernels.onehot t k x.data y := by
  intro s hs
  injection hs with hs
  subst hs
  have wx' : x.data.length = x.dims.prod := wx
  exact ⟨_, by rw [tab_length, List.prod_append, ← wx']; simp, fun y hy =>
    C56_effect t x.data (by rw [hy, wx']; simp)⟩

/-- C80 (`similarity`). -/
theorem C80_similarity {F S : Type} [One F] [Sub F] [Div F] [NatCast F] [DecidableEq S] {x y : Tensor S} (wx : x.WF)
    (wy : y.WF) : Safe (R := F) (Ops.similarityShape x.dims y.dims) fun _ z => Kernels.similarity x.data y.data z := by
  intro s hs
  obtain ⟨e, rfl⟩ := ite_ok ((C59_shape _ _).symm.trans hs)
  have wx' : x.data.length = x.dims.prod := wx
  have wy' : y.data.length = y.dims.prod := wy
  refine ⟨[1 - (((Finset.range x.data.length).filter fun i => x.data[i]? ≠ y.data[i]?).card : F) / (x.data.length : F)], rfl,
    fun z hz => ?_⟩
  obtain ⟨a, rfl⟩ : ∃ a, z = [a] := List.length_eq_one_iff.1 (by simpa using hz)
  show Kernels.similarity _ _ _ = _
  unfold Kernels.similarity
  rw [hamming_eq (by rw [wy', wx', e]), Outcome.ok_bind]
  rfl

/-! ## Sampling operators -/

/-- An axis is sampled or not; the field `m` of the axis plays no role in the question. -/
theorem sampled_or {N : IntTy} {a : Axis} (h : Fits N N a.k a.s a.r a.l a.q a.n) :
    (∃ m, AxisOK N { a with m := m }) ∨ ∀ m, ¬ OutLen a.k a.s a.r a.l a.q a.n m := by
  by_cases c : ∃ m, OutLen a.k a.s a.r a.l a.q a.n m
  · exact .inl ⟨c.choose, ⟨h, c.choose_spec⟩⟩
  · exact .inr fun m hm => c ⟨m, hm⟩

theorem outSize_or {N : IntTy} {a : Axis} (f : Fits N N a.k a.s a.r a.l a.q a.n) :
    (∃ m, AxisOK N { a with m := m }) ∨ a.sample.outSize N a.n = .throw .invalidArgument := by
  have h1 := f.k1; have h2 := f.s1; have h3 := f.r1
  rcases C01_total f with ⟨m, hm, -⟩ | ⟨-, e⟩
  · exact .inl ⟨m, ⟨f, hm⟩⟩
  · unfold sampleCall at e
    rw [Filter.make_ok f.hN f.hk f.hs f.hr (by omega) (by omega) (by omega), Outcome.ok_bind] at e
    exact .inr e

theorem AxisOK.m_in {N : IntTy} {a : Axis} (h : AxisOK N a) : N.In (a.m : Int) := by
  obtain ⟨m1, e⟩ := h.covers
  have s1 := h.fits.s1
  have : (a.m - 1) * 1 ≤ (a.m - 1) * a.s := Nat.mul_le_mul_left _ s1
  refine h.fits.padded.mono (by omega) ?_
  unfold patch at e
  omega

section conv
variable {H W : Axis} (hH : Fits u32 u32 H.k H.s H.r H.l H.q H.n) (hW : Fits u32 u32 W.k W.s W.r W.l W.q W.n)
include hH hW

theorem conv_sampled {io : Order} {fo : FOrder} (ho : SameFamily io fo) {n c c' d : Nat} {xs s : List Nat}
    (hx : batchedImageShape io n (H.n, W.n) c = .ok xs)
    (h : (convTrait H W).infer io fo xs (convFilterShape fo c' (H.k, W.k) d) = .ok s) :
    c' = c ∧ ∃ m m', AxisOK u32 { H with m := m } ∧ AxisOK u32 { W with m := m' } ∧
      batchedImageShape io n (m, m') d = .ok s := by
  by_cases hc : c' = c
  · subst hc
    refine ⟨rfl, ?_⟩
    rcases sampled_or hH with ⟨m, om⟩ | no
    · rcases sampled_or hW with ⟨m', om'⟩ | no
      · exact ⟨m, m', om, om', (C09_conv_shape ho om om' hx).symm.trans h⟩
      · exact absurd (h.symm.trans (C09_not_sampled ho hH hW (.inr no) hx)) (by simp)
    · exact absurd (h.symm.trans (C09_not_sampled ho hH hW (.inl no) hx)) (by simp)
  · exact absurd (h.symm.trans (C09_channel_mismatch ho hc hx)) (by simp)

/-- C80 (`conv<nhwc, rscd>`): one image has at most `2 ^ 31` elements. -/
theorem C80_conv_nhwc {S : Type} [Zero S] [Add S] [Mul S] {x y : Tensor S} {n c c' d : Nat} (wx : x.WF) (wy : y.WF)
    (ex : x.dims = [n, H.n, W.n, c]) (ey : y.dims = [H.k, W.k, c', d]) (hsz : [H.n, W.n, c].prod ≤ 2 ^ 31)
    (junkI : Nat → Int) (junk : Nat → S) :
    Safe ((convTrait H W).infer .nhwc .rscd x.dims y.dims) fun s z => Kernels.convNhwc (convTrait H W) junkI junk s x y z := by
  intro s hs
  rw [ex, ey] at hs
  obtain ⟨rfl, m, m', om, om', e⟩ := conv_sampled hH hW (io := .nhwc) (fo := .rscd) (.inl ⟨rfl, rfl⟩) rfl hs
  injection e with e
  subst e
  obtain ⟨X, rfl⟩ := as4 wx ex
  obtain ⟨Y, rfl⟩ := as4 wy ey
  exact ⟨_, by rw [tab_length], fun z hz => C91_conv_order om om' hsz X Y junkI junk hz⟩

/-- C80 (`conv<nchw, dcrs>`). -/
theorem C80_conv_nchw {S : Type} [Zero S] [Add S] [Mul S] {x y : Tensor S} {n c c' d : Nat} (wx : x.WF) (wy : y.WF)
    (ex : x.dims = [n, c, H.n, W.n]) (ey : y.dims = [d, c', H.k, W.k]) (junk : Nat → S) :
    Safe ((convTrait H W).infer .nchw .dcrs x.dims y.dims) fun s z => Kernels.convNchw (convTrait H W) junk s x y z := by
  intro s hs
  rw [ex, ey] at hs
  obtain ⟨rfl, m, m', om, om', e⟩ := conv_sampled hH hW (io := .nchw) (fo := .dcrs) (.inr ⟨rfl, rfl⟩) rfl hs
  injection e with e
  subst e
  obtain ⟨X, rfl⟩ := as4 wx ex
  obtain ⟨Y, rfl⟩ := as4 wy ey
  exact ⟨_, by rw [tab_length], fun z hz => C91_conv_order_nchw om om' X Y junk hz⟩

/-- C80 (`pool<hw>`), for every accumulator that cannot fail. -/
theorem C80_pool_hw (acc : Acc R) (hacc : ∀ l, ∃ r, acc.run l = .ok r) {x : Tensor R} (wx : x.WF)
    (ex : x.dims = [H.n, W.n]) :
    Safe (do let s ← (poolTrait H W).outShape (H.n, W.n); return [s.1, s.2])
      fun s z => Kernels.poolHw acc (poolTrait H W) s x z := by
  intro s hs
  rcases sampled_or hH with ⟨m, om⟩ | no
  · rcases sampled_or hW with ⟨m', om'⟩ | no
    · have := pool_outShape om om'
      change (poolTrait H W).outShape (H.n, W.n) = .ok (m, m') at this
      rw [this] at hs
      injection hs with hs
      subst hs
      obtain ⟨X, rfl⟩ := as2 wx ex
      choose r hr using hacc
      exact ⟨_, by rw [tab_length], fun z hz => Kernels.poolHw_run om om' acc X _ (fun i _ j _ => hr _) hz⟩
    · rw [(C10_rejects hH hW (.inr no) (o := .nhwc) (n := 0) (c := 0) rfl).2] at hs
      exact absurd hs (by simp)
  · rw [(C10_rejects hH hW (.inl no) (o := .nhwc) (n := 0) (c := 0) rfl).2] at hs
    exact absurd hs (by simp)

theorem pool_sampled (rH : H.r = 1) (rW : W.r = 1) {o : Order} {n c : Nat} {xs s : List Nat}
    (hx : batchedImageShape o n (H.n, W.n) c = .ok xs) (h : Ops.pooledShape o (poolTrait H W) xs = .ok s) :
    ∃ m m', AxisOK u32 { H with m := m } ∧ AxisOK u32 { W with m := m' } ∧ batchedImageShape o n (m, m') c = .ok s := by
  rcases sampled_or hH with ⟨m, om⟩ | no
  · rcases sampled_or hW with ⟨m', om'⟩ | no
    · have := (C10_pool_shape om om' rH rW hx).1
      rw [pool_make om om' rH rW, Outcome.ok_bind] at this
      exact ⟨m, m', om, om', this.symm.trans h⟩
    · exact absurd (h.symm.trans (C10_rejects hH hW (.inr no) hx).1) (by simp)
  · exact absurd (h.symm.trans (C10_rejects hH hW (.inl no) hx).1) (by simp)

/-- C80 (`pool<nhwc>` and `pool<nchw>`). -/
theorem C80_pool (acc : Acc R) (hacc : ∀ l, ∃ r, acc.run l = .ok r) (rH : H.r = 1) (rW : W.r = 1) {x : Tensor R}
    (wx : x.WF) {n c : Nat} :
    (x.dims = [n, H.n, W.n, c] →
      Safe (Ops.pooledShape .nhwc (poolTrait H W) x.dims) fun s z => Ops.poolNhwc acc (poolTrait H W) s x z) ∧
    (x.dims = [n, c, H.n, W.n] →
      Safe (Ops.pooledShape .nchw (poolTrait H W) x.dims) fun s z => Ops.poolNchw acc (poolTrait H W) s x z) := by
  choose r hr using hacc
  refine ⟨fun ex s hs => ?_, fun ex s hs => ?_⟩ <;> rw [ex] at hs
  · obtain ⟨m, m', om, om', e⟩ := pool_sampled hH hW rH rW (o := .nhwc) rfl hs
    injection e with e
    subst e
    obtain ⟨X, rfl⟩ := as4 wx ex
    exact ⟨_, by rw [tab_length], fun z hz => Ops.poolNhwc_run om om' rH rW acc X _ (fun b _ i _ j _ k _ => hr _) hz⟩
  · obtain ⟨m, m', om, om', e⟩ := pool_sampled hH hW rH rW (o := .nchw) rfl hs
    injection e with e
    subst e
    obtain ⟨X, rfl⟩ := as4 wx ex
    exact ⟨_, by rw [tab_length], fun z hz => Ops.poolNchw_run om om' rH rW acc X _ (fun b _ k _ i _ j _ => hr _) hz⟩

theorem im2col_sampled {s : List Nat} {g : List Nat → Outcome (List Nat)}
    (h : (Ops.outShapeU32 [H.sample, W.sample] [H.n, W.n] >>= g) = .ok s) :
    ∃ m m', AxisOK u32 { H with m := m } ∧ AxisOK u32 { W with m := m' } ∧ g [m, m'] = .ok s := by
  rcases outSize_or hH with ⟨m, om⟩ | no
  · rcases outSize_or hW with ⟨m', om'⟩ | no
    · have := outShape_run om om'
      change Ops.outShapeU32 [H.sample, W.sample] [H.n, W.n] = .ok [m, m'] at this
      rw [this, Outcome.ok_bind] at h
      exact ⟨m, m', om, om', h⟩
    · have := sample_outSize om
      change H.sample.outSize u32 H.n = .ok (m : Int) at this
      simp [Ops.outShapeU32, MultiSample.outShape, this, no] at h
  · simp [Ops.outShapeU32, MultiSample.outShape, no] at h

/-- C80 (`im2col`, two-dimensional layouts). -/
theorem C80_im2col {x : Tensor R} (wx : x.WF) (ex : x.dims = [H.n, W.n]) :
    Safe (Ops.im2colHwrsShape [H.sample, W.sample] x.dims) (fun s z => Kernels.im2colHwrs [H.sample, W.sample] s x z) ∧
    Safe (Ops.im2colRshwShape [H.sample, W.sample] x.dims) (fun s z => Kernels.im2colRshw [H.sample, W.sample] s x z) := by
  refine ⟨fun s hs => ?_, fun s hs => ?_⟩ <;> rw [ex] at hs <;>
    obtain ⟨m, m', om, om', e⟩ := im2col_sampled hH hW hs <;> rw [ksize_run] at e <;> injection e with e <;> subst e <;>
    obtain ⟨X, rfl⟩ := as2 wx ex
  · exact ⟨_, by rw [tab_length]; rfl, fun z hz => C26_im2col_hwrs om om' X hz⟩
  · exact ⟨_, by rw [tab_length]; rfl, fun z hz => C26_im2col_rshw om om' X hz⟩

/-- C80 (`im2col<hwc, hwrsc>`). -/
theorem C80_im2col_hwrsc {x : Tensor R} {c : Nat} (wx : x.WF) (ex : x.dims = [H.n, W.n, c]) :
    Safe (Ops.im2colHwrscShape [H.sample, W.sample] x.dims)
      (fun s z => Kernels.im2colHwrsc [H.sample, W.sample] s x z) := by
  intro s hs
  rw [ex] at hs
  obtain ⟨m, m', om, om', e⟩ := im2col_sampled hH hW hs
  rw [ksize_run] at e
  injection e with e
  subst e
  obtain ⟨X, rfl⟩ := as3 wx ex
  exact ⟨_, by rw [tab_length]; rfl, fun z hz => C26_im2col_hwrsc om om' X hz⟩

/-- C80 (`im2col<nhwc, nhwrsc>`): one image has at most `2 ^ 31` elements. -/
theorem C80_im2col_nhwrsc {x : Tensor R} {n c : Nat} (wx : x.WF) (ex : x.dims = [n, H.n, W.n, c])
    (hsz : [H.n, W.n, c].prod ≤ 2 ^ 31) (junk : Nat → Int) :
    Safe (Ops.batchedShape (Ops.im2colHwrscShape [H.sample, W.sample]) x.dims)
      (fun s z => Kernels.im2colNhwrsc [H.sample, W.sample] junk s x z) := by
  intro s hs
  rw [ex] at hs
  obtain ⟨s', hs', e'⟩ := Outcome.bind_eq_ok.1 hs
  injection e' with e'
  obtain ⟨m, m', om, om', e⟩ := im2col_sampled hH hW hs'
  rw [ksize_run] at e
  injection e with e
  subst e
  subst e'
  obtain ⟨X, rfl⟩ := as4 wx ex
  exact ⟨_, by rw [tab_length]; rfl, fun z hz => (C27_idx_map om om' hsz X junk hz).1⟩

end conv

/-- C80 (`col2im<hwc, hwrsc>`), for windows that cover an image. -/
theorem C80_col2im {S : Type} [Zero S] [Add S] {H W : Axis} (hH : AxisOK u32 H) (hW : AxisOK u32 W) {x : Tensor S}
    {r s c : Nat} (wx : x.WF) (ex : x.dims = [H.m, W.m, r, s, c]) :
    Safe (Ops.col2imHwrscShape [H.sample, W.sample] x.dims)
      (fun s z => Kernels.col2imHwrsc [H.sample, W.sample] s x z) := by
  intro t ht
  rw [ex] at ht
  by_cases h : r = H.k ∧ s = W.k
  · obtain ⟨rfl, rfl⟩ := h
    have := C11_col2im_inverts hH hW c
    rw [hwrscShape_run hH hW, Outcome.ok_bind, ht] at this
    injection this with this
    subst this
    obtain ⟨X, rfl⟩ := as5 wx ex
    exact ⟨_, by rw [tab_length], fun z hz => Kernels.col2imHwrsc_order hH hW X hz⟩
  · exact absurd (ht.symm.trans (C11_rejects H W c h)) (by simp)

/-- C80 (`im2col1d`). -/
theorem C80_im2col1d {a : Axis} (h : Fits i32 i32 a.k a.s a.r a.l a.q a.n) {x : Tensor R} (wx : x.WF)
    (ex : x.dims = [a.n]) :
    Safe (Ops.im2col1dShape a.sample x.dims) (fun s z => Ops.im2col1d a.sample s x z) := by
  intro s hs
  rw [ex] at hs
  unfold Ops.im2col1dShape at hs
  simp only [conv_eq i32_std h.hn] at hs
  rcases outSize_or h with ⟨m, om⟩ | no
  · have := sample_outSize om
    change a.sample.outSize i32 a.n = .ok (m : Int) at this
    rw [this, Outcome.ok_bind] at hs
    have hm : i32.In (m : Int) := om.m_in
    rw [conv_eq u32_std (i32_to_u32 (by omega) hm),
      show a.sample.filter.ksize = (a.k : Int) from rfl, conv_eq u32_std (i32_to_u32 (by omega) h.hk)] at hs
    injection hs with hs
    simp only [Int.toNat_natCast] at hs
    subst hs
    obtain ⟨X, rfl⟩ := as1 wx ex
    exact ⟨_, by rw [tab_length], fun z hz => C26_im2col1d om X (by simpa using hz)⟩
  · rw [no] at hs
    exact absurd hs (by simp)

/-- C80 (`conv1d`). -/
theorem C80_conv1d [Add R] [Mul R] {a : Axis} (h : Fits i32 i32 a.k a.s a.r a.l a.q a.n) {x y : Tensor R} (wx : x.WF)
    (wy : y.WF) (ex : x.dims = [a.n]) (ey : y.dims = [a.k]) :
    Safe ((conv1dTrait a).shape x.dims y.dims) (fun s z => (conv1dTrait a).run s x y z) := by
  intro s hs
  rw [ex, ey] at hs
  rcases sampled_or h with ⟨m, om⟩ | no
  · have := C35_shape om
    change (conv1dTrait a).shape [a.n] [a.k] = .ok [m] at this
    rw [this] at hs
    injection hs with hs
    subst hs
    obtain ⟨X, rfl⟩ := as1 wx ex
    obtain ⟨Y, rfl⟩ := as1 wy ey
    exact ⟨_, by rw [tab_length], fun z hz => C35_order om X Y (by simpa using hz)⟩
  · have k1 := h.k1; have s1 := h.s1; have r1 := h.r1
    rcases C01_total h.i32_u32 with ⟨m, hm, -⟩ | ⟨-, e⟩
    · exact absurd hm (no m)
    · unfold sampleCall at e
      rw [Filter.make_ok h.hN h.hk h.hs h.hr (by omega) (by omega) (by omega), Outcome.ok_bind] at e
      unfold Conv1d.shape conv1dTrait at hs
      simp only at hs
      rw [conv_eq i32_std h.hk, Filter.make_ok h.hN h.hk h.hs h.hr (by omega) (by omega) (by omega), Outcome.ok_bind, e] at hs
      exact absurd hs (by simp)

end

/-! ## Gradients -/

/-- The shape function of a binary operator as a function of the list of argument shapes. -/
def shape2 (f : List Nat → List Nat → Outcome (List Nat)) : List (List Nat) → Outcome (List Nat)
  | [x, y] => f x y
  | _ => .ub

/-- The shape function of a unary operator as a function of the list of argument shapes. -/
def shape1 (f : List Nat → Outcome (List Nat)) : List (List Nat) → Outcome (List Nat)
  | [x] => f x
  | _ => .ub

theorem grad2 {f : List Nat → List Nat → Outcome (List Nat)} {i : Nat} {gz z x y s : List Nat}
    (h : Ops.gradientShape (shape2 f) i gz z [x, y] = .ok s) : f x y = .ok z ∧ gz = z ∧ [x, y][i]? = some s :=
  (C12_gradient_shape _ _ _ _ _ _).1 h

theorem grad1 {f : List Nat → Outcome (List Nat)} {gz z x s : List Nat}
    (h : Ops.gradientShape (shape1 f) 0 gz z [x] = .ok s) : f x = .ok z ∧ gz = z ∧ s = x := by
  obtain ⟨a, b, c⟩ := (C12_gradient_shape _ _ _ _ _ _).1 h
  exact ⟨a, b, (Option.some.inj c).symm⟩

/-- C80 (`grad::matmul`). -/
theorem C80_grad_matmul [Zero R] [Add R] [Mul R] {gz x y : Tensor R} {zd : List Nat} (wz : gz.WF) (wx : x.WF) (wy : y.WF) :
    Safe (Ops.gradientShape (shape2 Ops.matmulShape) 0 gz.dims zd [x.dims, y.dims]) (fun s g => Grad.matmul0 s gz y g) ∧
    Safe (Ops.gradientShape (shape2 Ops.matmulShape) 1 gz.dims zd [x.dims, y.dims]) (fun s g => Grad.matmul1 s gz x g) := by
  have key : ∀ {z}, Ops.matmulShape x.dims y.dims = .ok z → ∃ m l n, x.dims = [m, l] ∧ y.dims = [l, n] ∧ z = [m, n] := by
    intro z h
    unfold Ops.matmulShape at h
    split at h
    · rename_i n m m' k ex ey
      by_cases e : m = m'
      · subst e
        simp only [contractAssert_pos, Outcome.ok_bind, Outcome.pure_eq, Outcome.ok.injEq] at h
        exact ⟨n, m, k, ex, ey, h.symm⟩
      · rw [contractAssert_neg e] at h
        exact absurd h (by simp)
    · exact absurd h (by simp)
  refine ⟨fun s hs => ?_, fun s hs => ?_⟩ <;> obtain ⟨e, ez, es⟩ := grad2 hs <;>
    obtain ⟨m, l, n, ex, ey, rfl⟩ := key e <;> obtain ⟨G, rfl⟩ := as2 wz ez <;> obtain ⟨X, rfl⟩ := as2 wx ex <;>
    obtain ⟨Y, rfl⟩ := as2 wy ey <;> cases es
  · exact ⟨_, by rw [tab_length]; rfl, fun g hg => Plain.mmt_run (fn2 G) (fn2 Y) (by simpa using hg)⟩
  · exact ⟨_, by rw [tab_length]; rfl, fun g hg => Plain.mtm_run (fn2 X) (fn2 G) (by simpa using hg)⟩

/-- C80 (`grad::add`, `grad::mul`). -/
theorem C80_grad_binary [Zero R] [Mul R] {gz x y : Tensor R} {zd : List Nat} (wz : gz.WF) (wx : x.WF) (wy : y.WF) :
    (∀ i < 2, Safe (Ops.gradientShape (shape2 Ops.binaryEndoShape) i gz.dims zd [x.dims, y.dims])
      (fun _ g => Grad.add gz g)) ∧
    Safe (Ops.gradientShape (shape2 Ops.binaryEndoShape) 0 gz.dims zd [x.dims, y.dims]) (fun _ g => Grad.mul gz y g) ∧
    Safe (Ops.gradientShape (shape2 Ops.binaryEndoShape) 1 gz.dims zd [x.dims, y.dims]) (fun _ g => Grad.mul gz x g) := by
  have wz' : gz.data.length = gz.dims.prod := wz
  have wx' : x.data.length = x.dims.prod := wx
  have wy' : y.data.length = y.dims.prod := wy
  have key : ∀ {i s}, i < 2 → Ops.gradientShape (shape2 Ops.binaryEndoShape) i gz.dims zd [x.dims, y.dims] = .ok s →
      x.dims = gz.dims ∧ y.dims = gz.dims ∧ s = gz.dims := by
    intro i s hi h
    obtain ⟨e, ez, es⟩ := grad2 h
    obtain ⟨e1, e2⟩ := binaryEndo_ok e
    match i, hi with
    | 0, _ => cases es; exact ⟨by rw [ez, e2], by rw [ez, e2, e1], by rw [ez, e2]⟩
    | 1, _ => cases es; exact ⟨by rw [ez, e2], by rw [ez, e2, e1], by rw [ez, e2, e1]⟩
  refine ⟨fun i hi s hs => ?_, fun s hs => ?_, fun s hs => ?_⟩
  · obtain ⟨e1, e2, rfl⟩ := key hi hs
    exact ⟨_, by omega, fun z hz => Kernels.copy_ext (by omega)⟩
  · obtain ⟨e1, e2, rfl⟩ := key (by decide) hs
    exact all_stored (by rw [List.length_zipWith, wz', wy', e2, min_self]) fun z hz =>
      C21_mul (ext_holds _ _ _) (ext_holds _ _ _) (by rw [wz', wy', e2]) (by omega)
  · obtain ⟨e1, e2, rfl⟩ := key (by decide) hs
    exact all_stored (by rw [List.length_zipWith, wz', wx', e1, min_self]) fun z hz =>
      C21_mul (ext_holds _ _ _) (ext_holds _ _ _) (by rw [wz', wx', e1]) (by omega)

/-- C80 (`grad::relu`). -/
theorem C80_grad_relu [Zero R] [LT R] [DecidableLT R] {gy x : Tensor R} {yd : List Nat} (wg : gy.WF) (wx : x.WF) :
    Safe (Ops.gradientShape (shape1 Ops.endoShape) 0 gy.dims yd [x.dims])
      (fun _ g => Grad.relu gy.data.length (.ext gy.data) (.ext x.data) 0 g) := by
  have wg' : gy.data.length = gy.dims.prod := wg
  have wx' : x.data.length = x.dims.prod := wx
  intro s hs
  obtain ⟨e, ez, rfl⟩ := grad1 hs
  injection e with e
  rw [← e] at ez
  exact all_stored (by rw [List.length_zipWith, wg', wx', ez, min_self]) fun z hz =>
    C47_relu_grad (ext_holds _ _ _) (ext_holds _ _ _) (by rw [wg', wx', ez]) (by rw [wg', ez]; omega)

/-- C80 (`grad::softmax` on matrices). -/
theorem C80_grad_softmax [Zero R] [One R] [Add R] [Sub R] [Mul R] [Neg R] (junk : Nat → R) {gy y x : Tensor R} {rows n : Nat} (wg : gy.WF) (wy : y.WF)
    (ex : x.dims = [rows, n]) :
    Safe (Ops.gradientShape (shape1 Ops.endoShape) 0 gy.dims y.dims [x.dims])
      (fun s g => Grad.softmax junk s rows n gy y g) := by
  intro s hs
  obtain ⟨e, ez, rfl⟩ := grad1 hs
  injection e with e
  obtain ⟨G, rfl⟩ := as2 wg (ez.trans (e.symm.trans ex))
  obtain ⟨Y, rfl⟩ := as2 wy (e.symm.trans ex)
  rw [ex]
  exact ⟨_, by rw [tab_length], fun g hg => Grad.softmax_run junk G Y (by simpa using hg)⟩

/-- C80 (`grad::xentropy` on matrices). -/
theorem C80_grad_xentropy [Zero R] [Mul R] [Neg R] [Div R] {gz x y : Tensor R} {zd : List Nat} {rows n : Nat} (wz : gz.WF) (wx : x.WF) (wy : y.WF)
    (ex : x.dims = [rows, n]) :
    Safe (Ops.gradientShape (shape2 Ops.binaryReduceShape) 1 gz.dims zd [x.dims, y.dims])
      (fun s g => Grad.xentropy s gz x y g) := by
  intro s hs
  obtain ⟨e, ez, es⟩ := grad2 hs
  rw [ex] at e
  unfold Ops.binaryReduceShape at e
  split at e
  · exact absurd e (by simp)
  · split at e
    · exact absurd e (by simp)
    · rename_i h
      have ey := (not_not.1 h).symm
      injection e with e
      obtain ⟨G, rfl⟩ := as1 wz (ez.trans e.symm)
      obtain ⟨X, rfl⟩ := as2 wx ex
      obtain ⟨Y, rfl⟩ := as2 wy ey
      cases es
      exact ⟨_, by rw [tab_length]; rfl, fun g hg => Grad.xentropy_run G X Y (by simpa using hg)⟩

/-- C80 (`grad::add_bias`). -/
theorem C80_grad_bias [Zero R] [Add R] {gz b : Tensor R} {x zd : List Nat} {k : Nat} (wz : gz.WF) (eb : b.dims = [k]) :
    (∀ o ∈ [Order.hw, .nhwc, .nchw], x.length = o.rankOf.getD 0 →
      Safe (Ops.gradientShape (shape2 (Ops.biasShape o)) 0 gz.dims zd [x, b.dims]) fun _ g => Grad.biasX gz g) ∧
    (∀ h w, x = [h, w] →
      Safe (Ops.gradientShape (shape2 (Ops.biasShape .hw)) 1 gz.dims zd [x, b.dims]) fun _ g => Grad.biasHw gz g) ∧
    (∀ n h w c, x = [n, h, w, c] →
      Safe (Ops.gradientShape (shape2 (Ops.biasShape .nhwc)) 1 gz.dims zd [x, b.dims]) fun _ g => Grad.biasNhwc gz g) := by
  have wz' : gz.data.length = gz.dims.prod := wz
  refine ⟨fun o ho hx s hs => ?_, fun h w ex s hs => ?_, fun n h w c ex s hs => ?_⟩ <;>
    obtain ⟨e, ez, es⟩ := grad2 hs <;> rw [eb] at e
  · have hz : zd = x := by
      fin_cases ho
      · obtain ⟨h, w, rfl⟩ := List.length_eq_two.1 hx
        exact (ite_ok ((C22_shape h w 0 0 k).1.symm.trans e)).2
      · match x, hx with
        | [p, q, r, t], _ => exact (ite_ok ((C22_shape p q r t k).2.1.symm.trans e)).2
      · match x, hx with
        | [p, q, r, t], _ => exact (ite_ok ((C22_shape p q r t k).2.2.symm.trans e)).2
    cases es
    exact ⟨_, by rw [wz', ez, hz], fun g hg => Kernels.copy_ext (by rw [wz', hg, ez, hz])⟩
  · subst ex
    obtain ⟨rfl, rfl⟩ := ite_ok ((C22_shape h w 0 0 k).1.symm.trans e)
    obtain ⟨G, rfl⟩ := as2 wz ez
    rw [eb] at es
    cases es
    exact ⟨_, by rw [tab_length], fun g hg => Kernels.outerContraction_order G (by simpa using hg)⟩
  · subst ex
    obtain ⟨rfl, rfl⟩ := ite_ok ((C22_shape n h w c k).2.1.symm.trans e)
    rw [eb] at es
    cases es
    have wm : (gz.withDims [[n, h, w].prod, [c].prod]).WF := by
      show gz.data.length = [[n, h, w].prod, [c].prod].prod
      rw [wz', ez]
      simp [Nat.mul_assoc]
    obtain ⟨M, e'⟩ := as2 wm rfl
    refine ⟨(tab [c] (fn1 fun k => seqSum [n, h, w].prod fun i => M i k)).data, by rw [tab_length], fun g hg => ?_⟩
    have := Kernels.outerContraction_order M (y := g) (rows := [n, h, w].prod) (cols := [c].prod) (by simpa using hg)
    rw [← e'] at this
    show Kernels.outerContraction (gz.withDims [(gz.dims.take 3).prod, (gz.dims.drop 3).prod]) g = _
    rw [ez]
    simpa using this

/-- C80 (`grad::conv<nhwc, rscd>`). -/
theorem C80_grad_conv [Zero R] [Add R] [Mul R] {H W : Axis} (hH : Fits u32 u32 H.k H.s H.r H.l H.q H.n)
    (hW : Fits u32 u32 W.k W.s W.r W.l W.q W.n) {gz x y : Tensor R} {zd : List Nat} {n c c' d : Nat} (wz : gz.WF) (wx : x.WF)
    (wy : y.WF) (ex : x.dims = [n, H.n, W.n, c]) (ey : y.dims = [H.k, W.k, c', d])
    (hsz : [H.n, W.n, c].prod ≤ 2 ^ 31) (junk : Nat → R) :
    Safe (Ops.gradientShape (shape2 ((convTrait H W).infer .nhwc .rscd)) 0 gz.dims zd [x.dims, y.dims])
      (fun s g => Kernels.convGradX (convTrait H W) junk s gz y g) ∧
    Safe (Ops.gradientShape (shape2 ((convTrait H W).infer .nhwc .rscd)) 1 gz.dims zd [x.dims, y.dims])
      (fun s g => Kernels.convGradY (convTrait H W) junk s gz x g) := by
  refine ⟨fun s hs => ?_, fun s hs => ?_⟩ <;> obtain ⟨e, ez, es⟩ := grad2 hs <;> rw [ex, ey] at e <;>
    obtain ⟨rfl, m, m', om, om', e⟩ := conv_sampled hH hW (io := .nhwc) (fo := .rscd) (.inl ⟨rfl, rfl⟩) rfl e <;>
    injection e with e <;> subst e <;> obtain ⟨G, rfl⟩ := as4 wz ez <;> obtain ⟨X, rfl⟩ := as4 wx ex <;>
    obtain ⟨Y, rfl⟩ := as4 wy ey <;> cases es
  · exact ⟨_, by rw [tab_length]; rfl, fun g hg => Kernels.convGradX_order om om' G Y junk hg⟩
  · exact ⟨_, by rw [tab_length]; rfl, fun g hg => Kernels.convGradY_order om om' G X junk hg⟩

/-! ## The exception -/

/-- C80 fails for mean pooling of integers: a window of padding only passes shape inference, and averaging it divides by
zero. -/
theorem C80_int_mean_pool_undefined :
    let H : Axis := ⟨1, 1, 1, 0, 0, 1, 1⟩
    let W : Axis := ⟨1, 1, 1, 1, 0, 1, 2⟩
    AxisOK u32 H ∧ AxisOK u32 W ∧ (poolTrait H W).outShape (1, 1) = .ok (1, 2) ∧
      ∀ a b : Int, Kernels.poolHw Acc.meanI32 (poolTrait H W) [1, 2] ⟨[1, 1], [5]⟩ [a, b] = .ub := by
  refine ⟨⟨⟨by decide, by decide, by decide, by decide, by decide, by decide, by decide, by decide, by decide, by decide,
    by decide, by decide, by decide, by decide⟩, ⟨by decide, by decide⟩⟩, C38_empty_window.1, by decide, fun a b => rfl⟩

/-- Non-vacuity: every kind of hypothesis above on concrete tensors; the shapes are accepted and the operators run. -/
example : (⟨[2, 2], [1, 2, 3, 4]⟩ : Tensor Int).WF ∧ Ops.matmulShape [2, 2] [2, 2] = .ok [2, 2] ∧
    Ops.concatChannelShape .nhwc [[1, 2, 2, 3], [1, 2, 2, 4], [1, 2, 2, 1]] = .ok [1, 2, 2, 8] ∧
    Ops.flattenShape [1, 3] [5, 2, 3, 4] = .ok [5, 24] ∧
    (convTrait exH exW).infer .nhwc .rscd [1, exH.n, exW.n, 2] [exH.k, exW.k, 2, 3] = .ok [1, 3, 3, 3] ∧
    Ops.gradientShape (shape2 Ops.binaryReduceShape) 1 [2] [2] [[2, 3], [2, 3]] = .ok [2, 3] := by
  refine ⟨rfl, ?_, ?_, ?_, ?_, ?_⟩ <;> decide

/-! ## Concrete cases

Every theorem of this file applied to concrete tensors whose shapes are accepted. -/

/-- The tensor of shape `d` with elements 1. -/
def exOnes (d : List Nat) : Tensor Int := tab d fun _ => 1
theorem exOnes_wf (d : List Nat) : (exOnes d).WF := tab_wf _ _
theorem exH_fits : Fits u32 u32 exH.k exH.s exH.r exH.l exH.q exH.n := exH_ok.fits
theorem exW_fits : Fits u32 u32 exW.k exW.s exW.r exW.l exW.q exW.n := exW_ok.fits

example := C80_matmul (exOnes_wf [2, 3]) (exOnes_wf [3, 4]) [2, 4] (by decide)
example := (C80_unary (fun x => x * x) (exOnes_wf [2, 3])).2.1 [2, 3] (by decide)
example := (C80_binary 5 (exOnes_wf [2, 3]) (exOnes_wf [2, 3])).2.2.2 [2, 3] (by decide)
example := C80_softmax (fun x => x + 1) 1 (exOnes_wf [2, 3]) (by decide) [2, 3] (by decide)
example := C80_xentropy (fun x => x - 1) (exOnes_wf [2, 3]) (exOnes_wf [2, 3]) [2] (by decide)
example := (C80_bias (fun x b => x + b) (exOnes_wf [1, 2, 2, 3]) (exOnes_wf [3]) rfl).2.1 1 2 2 3 rfl [1, 2, 2, 3] (by decide)
example := (C80_batch_norm (fun x => x) 1 (exOnes_wf [1, 2, 2, 3]) (exOnes_wf [3]) (exOnes_wf [3]) rfl rfl).1 1 2 2 3 rfl
  [1, 2, 2, 3] (by decide)
example := (C80_batch_norm_with_bias (fun x => x) 1 (exOnes_wf [1, 3, 2, 2]) (exOnes_wf [3]) (exOnes_wf [3]) (exOnes_wf [3])
  (exOnes_wf [3]) rfl rfl rfl rfl).2 1 3 2 2 rfl [1, 3, 2, 2] (by decide)
example := (C80_transpose (exOnes_wf [1, 2, 4, 3])).1 [1, 3, 2, 4] (by decide)
example := C80_copy_flatten [1, 3] (exOnes_wf [5, 2, 3, 4]) [5, 24] (by decide)
example := (C80_concat (exOnes_wf [1, 2, 2, 3]) (exOnes_wf [1, 2, 2, 4]) (exOnes_wf [1, 2, 2, 1]) (c1 := 3) (c2 := 4) (c3 := 1)
  (by decide)).2 1 2 2 1 2 2 1 2 2 rfl rfl rfl [1, 2, 2, 8] (by decide)
example := C80_mean (fun (x : Int) n => x / n) (exOnes_wf [2, 3, 4]) (ds := [2, 3]) rfl [2, 3] (by decide)
example := C80_argmax u32 (exOnes_wf [2, 3, 4]) (ds := [2, 3]) rfl [2, 3] (by decide)
example := C80_onehot (R := Int) u32 10 (exOnes_wf [2, 3]) [2, 3, 10] (by decide)
example := C80_similarity (F := Int) (exOnes_wf [2, 3]) (exOnes_wf [2, 3]) [] (by decide)
example := C80_conv_nhwc exH_fits exW_fits (exOnes_wf [2, 3, 5, 2]) (exOnes_wf [2, 2, 2, 3]) (c := 2) rfl rfl (by decide)
  (fun _ => 7) (fun _ => 9) [2, exH.m, exW.m, 3] (by decide)
example := C80_conv_nchw exH_fits exW_fits (exOnes_wf [2, 2, 3, 5]) (exOnes_wf [3, 2, 2, 2]) (c := 2) rfl rfl
  (fun _ => 9) [2, 3, exH.m, exW.m] (by decide)
example := C80_pool_hw exH_fits exW_fits (Acc.max (-128)) (fun _ => ⟨_, max_run _ _⟩) (exOnes_wf [3, 5]) rfl [3, 3] (by decide)
example := (C80_pool (H := exH) (W := exH) exH_fits exH_fits (Acc.max (-128)) (fun _ => ⟨_, max_run _ _⟩) rfl rfl
  (exOnes_wf [2, 3, 3, 4]) (n := 2) (c := 4)).1 rfl [2, 3, 3, 4] (by decide)
example := (C80_im2col exH_fits exW_fits (exOnes_wf [3, 5]) rfl).1 [3, 3, 2, 2] (by decide)
example := C80_im2col_hwrsc exH_fits exW_fits (exOnes_wf [3, 5, 2]) rfl [3, 3, 2, 2, 2] (by decide)
example := C80_im2col_nhwrsc exH_fits exW_fits (exOnes_wf [4, 3, 5, 2]) rfl (by decide) (fun _ => 5) [4, 3, 3, 2, 2, 2]
  (by decide)
example := C80_col2im exH_ok exW_ok (exOnes_wf [3, 3, 2, 2, 2]) rfl [3, 5, 2] (by decide)
example := C80_im2col1d exW_ok32.fits (exOnes_wf [5]) rfl [3, 2] (by decide)
example := C80_conv1d exW_ok32.fits (exOnes_wf [5]) (exOnes_wf [2]) rfl rfl [3] (by decide)
example := (C80_grad_matmul (exOnes_wf [2, 4]) (exOnes_wf [2, 3]) (exOnes_wf [3, 4]) (zd := [2, 4])).1 [2, 3] (by decide)
example := (C80_grad_binary (exOnes_wf [2, 3]) (exOnes_wf [2, 3]) (exOnes_wf [2, 3]) (zd := [2, 3])).2.1 [2, 3] (by decide)
example := C80_grad_relu (exOnes_wf [2, 3]) (exOnes_wf [2, 3]) (yd := [2, 3]) [2, 3] (by decide)
example := C80_grad_softmax (fun _ => 9) (exOnes_wf [2, 3]) (exOnes_wf [2, 3]) (x := exOnes [2, 3]) rfl [2, 3] (by decide)
example := C80_grad_xentropy (R := ℚ) (tab_wf [2] fun _ => 1) (tab_wf [2, 3] fun _ => 1) (tab_wf [2, 3] fun _ => 1)
  (zd := [2]) rfl [2, 3] (by decide)
example := (C80_grad_bias (exOnes_wf [1, 2, 2, 3]) (b := exOnes [3]) (x := [1, 2, 2, 3]) (zd := [1, 2, 2, 3]) rfl).2.2 1 2 2 3 rfl
  [3] (by decide)
example := (C80_grad_conv exH_fits exW_fits (exOnes_wf [2, 3, 3, 4]) (exOnes_wf [2, 3, 5, 1]) (exOnes_wf [2, 2, 1, 4])
  (zd := [2, 3, 3, 4]) (c := 1) rfl rfl (by decide) (fun _ => 9)).2 [2, 2, 1, 4] (by decide)

end StdNN
