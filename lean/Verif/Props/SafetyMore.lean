import Verif.Model.UtilityOps
import Verif.Props.Safety
import Verif.Props.Extras
import Verif.Props.Crc
/-!
# C80 for casts, `top`, checksums, one-dimensional `col2im` and the gradient of `copy_flatten`; C122
-/
namespace StdNN
open Spec Outcome IntTy
variable {R : Type}

/-- C80 (`cast`): the shape of the result is the shape of the argument. -/
theorem C80_cast {S : Type} (f : S → R) {x : Tensor S} (wx : x.WF) :
    Safe (.ok x.dims) fun _ z => Kernels.cast f x.data z := by
  intro s hs
  injection hs with hs
  subst hs
  exact ⟨_, by rw [List.length_map]; exact wx, fun z hz => C112_cast f (by rw [hz]; exact wx.symm)⟩

/-- C112 (any rank): the operator converts every element of a tensor of any shape, whatever the output held before. -/
theorem C112_any_rank {S : Type} (f : S → R) {x : Tensor S} (wx : x.WF) {y : List R} (hy : y.length = x.dims.prod) :
    Ops.cast f x y = .ok (x.data.map f) := C112_cast f (hy.trans wx.symm)

/-- C80 (`top`): both results have the inferred length, also if `k` exceeds the length of the input. -/
theorem C80_top [LinearOrder R] [Inhabited R] (t : IntTy) (ht : 1 ≤ t.bits) {sort : List (R × Int) → List (R × Int)}
    (hs : IsSort sort) {k : Int} {x y : List R} {z : List Int} (hn : t.In x.length) (hk : t.In (u32.conv k))
    (hy : y.length = (Ops.topShape k [x.length]).1.prod) (hz : z.length = (Ops.topShape k [x.length]).2.prod) :
    ∃ y' z', Kernels.top t sort x y z = .ok (y', z') ∧ y'.length = y.length ∧ z'.length = z.length := by
  have h0 : 0 ≤ u32.conv k := by simp only [IntTy.conv, u32]; exact Int.emod_nonneg _ (by decide)
  have e : (y.length : Int) = u32.conv k := by
    rw [hy]
    simp only [Ops.topShape, List.prod_cons, List.prod_nil, Nat.mul_one]
    omega
  obtain ⟨σ, y', z', h1, h2, h3, -⟩ := C58_top t ht hs hn (e ▸ hk) (hz.trans hy.symm)
  exact ⟨y', z', h1, h2, h3⟩

/-- C80 (`crc`): defined on tensors of any contents. -/
theorem C80_crc {w : Nat} (hw : 8 ≤ w) (poly : BitVec w) (x : List (BitVec 8)) : ∃ c, Ops.crc poly x = .ok c :=
  ⟨_, C63_bitwise hw poly x⟩

/-- C80 (`col2im1d`), for windows that cover a signal. -/
theorem C80_col2im1d [Zero R] [Add R] {a : Axis} (h : AxisOK i32 a) {x : Tensor R} {k : Nat} (wx : x.WF)
    (ex : x.dims = [a.m, k]) :
    Safe (Ops.col2im1dShape a.sample x.dims) (fun s z => Ops.col2im1d a.sample s x z) := by
  intro s hs
  rw [ex] at hs
  have hk : u32.In (a.k : Int) := i32_to_u32 (by omega) h.fits.hk
  by_cases c : k = a.k
  · subst c
    have := C11_col2im1d_inverts h
    have e : Ops.im2col1dShape a.sample [a.n] = .ok [a.m, a.k] := by
      unfold Ops.im2col1dShape
      simp only
      have hm : i32.In (a.m : Int) := h.m_in
      rw [conv_eq i32_std h.fits.hn, sample_outSize h, Outcome.ok_bind, conv_eq u32_std (i32_to_u32 (by omega) hm),
        show a.sample.filter.ksize = (a.k : Int) from rfl, conv_eq u32_std hk]
      rfl
    rw [e, Outcome.ok_bind, hs] at this
    injection this with this
    subst this
    obtain ⟨X, rfl⟩ := as2 wx ex
    exact ⟨_, by rw [tab_length], fun z hz => col2im1d_order h X (by simpa using hz)⟩
  · exact absurd (hs.symm.trans (C11_rejects1d hk c)) (by simp)

/-- C80 (gradient of `copy_flatten`): the output has the shape of the argument. -/
theorem C80_grad_copy_flatten [Zero R] {rs : List Nat} {x gy : Tensor R} (hs : Ops.flattenShape rs x.dims = .ok gy.dims)
    (wg : gy.WF) :
    Safe (.ok x.dims) fun _ z => Grad.copyFlatten gy z := by
  intro s h
  injection h with h
  subst h
  have wg' : gy.data.length = gy.dims.prod := wg
  have := flattenShape_prod hs
  exact ⟨_, by omega, fun z hz => (C15_copy_flatten gy (by omega)).2⟩

/-! ## C122: what the output held before plays no role -/

/-- C122: two runs of an operator of C80 on the same arguments agree, whatever the two outputs held before. -/
theorem C122_overwrites {shape : Outcome (List Nat)} {run : List Nat → List R → Outcome (List R)} (h : Safe shape run)
    {s : List Nat} (hs : shape = .ok s) {y₁ y₂ : List R} (h₁ : y₁.length = s.prod) (h₂ : y₂.length = s.prod) :
    run s y₁ = run s y₂ := by
  obtain ⟨v, -, e⟩ := h s hs
  rw [e y₁ h₁, e y₂ h₂]

/-- C122 (`top`): if `k` is at most the length of the input, both results are determined by the input. -/
theorem C122_top [LinearOrder R] [Inhabited R] (t : IntTy) (ht : 1 ≤ t.bits) {sort : List (R × Int) → List (R × Int)}
    (hs : IsSort sort) {x y₁ y₂ : List R} {z₁ z₂ : List Int} (hn : t.In x.length) (hy : y₁.length ≤ x.length)
    (hy₂ : y₂.length = y₁.length) (hz₁ : z₁.length = y₁.length) (hz₂ : z₂.length = y₁.length) :
    Kernels.top t sort x y₁ z₁ = Kernels.top t sort x y₂ z₂ := by
  have hk : t.In y₁.length := by
    refine ⟨?_, by have := hn.2; omega⟩
    have : t.lo ≤ 0 := by unfold IntTy.lo; split <;> simp
    omega
  have hk₂ : t.In y₂.length := hy₂ ▸ hk
  have hl : (sort (pairs x)).length = x.length := by rw [(hs (pairs x)).1.length_eq]; simp [pairs]
  rw [top_eq t ht sort hn hk, top_eq t ht sort hn hk₂, hy₂, min_eq_right hy]
  obtain ⟨a, b, e, l1, l2, h3, -⟩ := top_store (n := y₁.length) (v := sort (pairs x)) (by omega) (y := y₁) (z := z₁) (by omega)
    (by omega)
  obtain ⟨a', b', e', l1', l2', h3', -⟩ := top_store (n := y₁.length) (v := sort (pairs x)) (by omega) (y := y₂) (z := z₂)
    (by omega) (by omega)
  have key : ∀ i : Nat, a[i]? = a'[i]? ∧ b[i]? = b'[i]? := by
    intro i
    by_cases hi : i < y₁.length
    · have li : i < (sort (pairs x)).length := by omega
      obtain ⟨g1, g2⟩ := h3 i _ hi (List.getElem?_eq_getElem li)
      obtain ⟨g1', g2'⟩ := h3' i _ hi (List.getElem?_eq_getElem li)
      exact ⟨g1.trans g1'.symm, g2.trans g2'.symm⟩
    · refine ⟨?_, ?_⟩ <;> rw [List.getElem?_eq_none (by omega), List.getElem?_eq_none (by omega)]
  have ea : a = a' := List.ext_getElem? fun i => (key i).1
  have eb : b = b' := List.ext_getElem? fun i => (key i).2
  rw [ea, eb] at e
  exact e.trans e'.symm

/-- C122 (`top`), the exception: if `k` exceeds the length of the input, the elements in excess keep what they held. -/
theorem C122_top_keeps [LinearOrder R] [Inhabited R] (t : IntTy) (ht : 1 ≤ t.bits) {sort : List (R × Int) → List (R × Int)}
    (hs : IsSort sort) {x y : List R} {z : List Int} (hn : t.In x.length) (hk : t.In y.length) (hz : z.length = y.length) :
    ∃ y' z', Kernels.top t sort x y z = .ok (y', z') ∧ y'.drop x.length = y.drop x.length ∧
      z'.drop x.length = z.drop x.length := by
  obtain ⟨σ, y', z', h1, h2, h3, -, h4, -⟩ := C58_top t ht hs hn hk hz
  refine ⟨y', z', h1, List.ext_getElem? fun i => ?_, List.ext_getElem? fun i => ?_⟩ <;> rw [List.getElem?_drop, List.getElem?_drop]
  · exact (h4 _ (by omega)).1
  · exact (h4 _ (by omega)).2

/-- Two of three are determined by the input, three of two are not. -/
example : (∀ a b c d : Int,
      Kernels.top i32 (fun l => l.mergeSort fun a b => !Kernels.greater b a) ([3, 1, 2] : List Int) [a, b] [0, 0] =
      Kernels.top i32 (fun l => l.mergeSort fun a b => !Kernels.greater b a) [3, 1, 2] [c, d] [5, 6]) ∧
    Kernels.top i32 (List.insertionSort fun a b => Kernels.greater b a = false) ([3, 4] : List Int) [0, 0, 7] [0, 0, 8] =
      .ok ([4, 3, 7], [1, 0, 8]) :=
  ⟨fun _ _ _ _ => C122_top i32 (by decide) isSort_mergeSort (by decide) (by simp) rfl rfl rfl, by decide⟩

/-! ## The hypotheses can be met -/

example : ∃ y' : List ℚ, y'.length = 4 ∧
    ∀ y : List ℚ, y.length = 4 → Kernels.cast (fun n : Int => (n : ℚ)) [1, -2, 3, 4] y = .ok y' :=
  C80_cast (fun n : Int => (n : ℚ)) (x := ⟨[2, 2], [1, -2, 3, 4]⟩) (by simp [Tensor.WF]) _ rfl

example : ∃ y' z', Kernels.top i32 (fun l => l.mergeSort fun a b => !Kernels.greater b a) ([3, 1, 2] : List Int) [0, 0] [0, 0] =
    .ok (y', z') ∧ y'.length = 2 ∧ z'.length = 2 :=
  C80_top (x := [3, 1, 2]) (y := [0, 0]) (z := [0, 0]) i32 (by decide) isSort_mergeSort (k := 2) (by decide) (by decide)
    (by decide) (by decide)

example : ∃ c, Ops.crc (0xA001 : BitVec 16) [1, 2, 3] = .ok c := C80_crc (by decide) _ _

example : ∃ y' : List Int, y'.length = 4 ∧ ∀ y : List Int, y.length = 4 →
    Ops.col2im1d (⟨2, 1, 1, 0, 0, 4, 3⟩ : Axis).sample [4] (⟨[3, 2], [1, 2, 3, 4, 5, 6]⟩ : Tensor Int) y = .ok y' :=
  C80_col2im1d (a := ⟨2, 1, 1, 0, 0, 4, 3⟩) (x := ⟨[3, 2], [1, 2, 3, 4, 5, 6]⟩)
    (by refine ⟨⟨?_, ?_, ?_, ?_, ?_, ?_, ?_, ?_, ?_, ?_, ?_, ?_, ?_, ?_⟩, ?_⟩ <;> decide) (by simp [Tensor.WF]) rfl [4]
    (by decide +kernel)

example : ∃ y' : List Int, y'.length = 4 ∧ ∀ y : List Int, y.length = 4 →
    Grad.copyFlatten (⟨[2, 2], [1, -2, 3, 4]⟩ : Tensor Int) y = .ok y' :=
  C80_grad_copy_flatten (rs := [1, 2]) (x := ⟨[2, 2, 1], [0, 0, 0, 0]⟩) (by decide +kernel) (by simp [Tensor.WF]) _ rfl

example := C112_any_rank (fun n : Int => (n : ℚ)) (x := ⟨[2, 1, 2], [1, -2, 3, 4]⟩) (by simp [Tensor.WF]) (y := [0, 0, 0, 7]) rfl

end StdNN
