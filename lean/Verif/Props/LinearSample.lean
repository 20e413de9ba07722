import Verif.Spec.LinearSample
import Verif.Props.Conv
import Verif.Props.ConvLaws
import Verif.Props.Im2col
import Verif.Props.Extras

/-!
C126: the one-dimensional sample of the library meets the project's own written definition (doc/linear-sample.tex).
-/

namespace StdNN
open IntTy Finset Spec

section lists
variable {R : Type}

theorem padList_length [Zero R] (l q : Nat) (x : List R) : (Spec.padList l q x).length = l + x.length + q := by
  simp [Spec.padList, Nat.add_assoc]

theorem padList_getD [Zero R] (l q : Nat) (x : List R) (p : Nat) :
    (Spec.padList l q x).getD p 0 = padded l x.length (fun i => x.getD i 0) p := by
  unfold Spec.padList padded
  simp only [List.getD_eq_getElem?_getD, List.getElem?_append, List.getElem?_replicate, List.length_append,
    List.length_replicate]
  by_cases h1 : p < l
  · simp [h1, show p < l + x.length by omega, show ¬ l ≤ p by omega]
  · by_cases h2 : p < l + x.length
    · simp [h1, h2, show l ≤ p by omega]
    · simp only [h2, if_false, and_false]
      split <;> simp

/-- The products of a list with the values of a function at its positions, added up. -/
theorem sum_cons [Semiring R] (f : Nat → R) (y : R) (ys : List R) :
    ∑ j ∈ range (y :: ys).length, f j * (y :: ys).getD j 0 =
      f 0 * y + ∑ j ∈ range ys.length, f (j + 1) * ys.getD j 0 := by
  rw [List.length_cons, sum_range_succ', add_comm]
  simp

theorem sum_zeros [Semiring R] (a : Nat) (f : Nat → R) (ys : List R) :
    ∑ j ∈ range (List.replicate a 0 ++ ys).length, f j * (List.replicate a 0 ++ ys).getD j 0 =
      ∑ j ∈ range ys.length, f (j + a) * ys.getD j 0 := by
  induction a generalizing f with
  | zero => simp
  | succ a ih =>
    rw [List.replicate_succ, List.cons_append, sum_cons, ih, mul_zero, zero_add]
    exact sum_congr rfl fun j _ => by rw [Nat.add_assoc]

theorem extend_length [Zero R] {r : Nat} (hr : 1 ≤ r) (ys : List R) (h : ys ≠ []) :
    (Spec.extend r ys).length = patch ys.length r := by
  unfold patch
  induction ys with
  | nil => exact absurd rfl h
  | cons y ys ih =>
    cases ys with
    | nil => simp [Spec.extend]
    | cons y' ys =>
      have := ih (by simp)
      simp only [Spec.extend, List.length_cons, List.length_append, List.length_replicate, Nat.add_sub_cancel] at this ⊢
      rw [this, Nat.add_mul]
      omega

theorem sum_extend [Semiring R] {r : Nat} (hr : 1 ≤ r) (ys : List R) (f : Nat → R) :
    ∑ j ∈ range (Spec.extend r ys).length, f j * (Spec.extend r ys).getD j 0 =
      ∑ u ∈ range ys.length, f (u * r) * ys.getD u 0 := by
  induction ys generalizing f with
  | nil => simp [Spec.extend]
  | cons y ys ih =>
    cases ys with
    | nil => simp [Spec.extend]
    | cons y' ys =>
      rw [Spec.extend, sum_cons, sum_zeros, sum_cons, Nat.zero_mul]
      have := ih fun j => f (j + (r - 1) + 1)
      rw [this]
      congr 1
      exact sum_congr rfl fun u _ => by rw [show u * r + (r - 1) + 1 = (u + 1) * r by rw [Nat.add_mul]; omega]

theorem list_tab [Zero R] (x : List R) : (⟨[x.length], x⟩ : Tensor R) = tab [x.length] (fn1 fun i => x.getD i 0) := by
  have : (tab [x.length] (fn1 fun i => x.getD i 0)).data = x := by
    rw [tab1_list]
    apply List.ext_getElem
    · simp
    · intro i h1 h2
      simp [List.getD_eq_getElem?_getD, h2]
  calc (⟨[x.length], x⟩ : Tensor R) = ⟨[x.length], (tab [x.length] (fn1 fun i => x.getD i 0)).data⟩ := by rw [this]
    _ = _ := rfl

end lists

theorem validConfig_iff {pl pr k s r n m : Nat} (k1 : 1 ≤ k) (s1 : 1 ≤ s) (r1 : 1 ≤ r) (n1 : 1 ≤ n) :
    Spec.ValidConfig pl pr k s r n m ↔ OutLen k s r pl pr n m := by
  have key : 1 ≤ m → ((s : Int) * ((m : Int) - 1) = ((n : Int) + pl + pr) - (r * ((k : Int) - 1) + 1) ↔
      (m - 1) * s + patch k r = pl + n + pr) := by
    intro m1
    obtain ⟨k, rfl⟩ : ∃ k', k = k' + 1 := ⟨k - 1, by omega⟩
    obtain ⟨m, rfl⟩ : ∃ m', m = m' + 1 := ⟨m - 1, by omega⟩
    unfold patch
    rw [Nat.add_sub_cancel, Nat.add_sub_cancel, Nat.mul_comm m s, Nat.mul_comm k r]
    push_cast
    rw [Int.add_sub_cancel, Int.add_sub_cancel, ← Int.natCast_mul, ← Int.natCast_mul]
    omega
  constructor
  · intro h
    exact ⟨h.m1, (key h.m1).1 h.eqn⟩
  · intro h
    exact ⟨k1, s1, r1, n1, h.1, (key h.1).2 h.2⟩

/-- C126: the output length computed from a filter and a padding is the `m` of the valid configuration of the document;
without one the call throws. -/
theorem C126_config {N D : IntTy} {k s r pl pr n : Nat} (h : Fits N D k s r pl pr n) (n1 : 1 ≤ n) :
    (∀ m : Nat, sampleCall N D k s r pl pr n = .ok (m : Int) ↔ Spec.ValidConfig pl pr k s r n m) ∧
      ((¬ ∃ m, Spec.ValidConfig pl pr k s r n m) → sampleCall N D k s r pl pr n = .throw .invalidArgument) := by
  have e := fun m => validConfig_iff (m := m) (pl := pl) (pr := pr) h.k1 h.s1 h.r1 n1
  refine ⟨fun m => (C01_output_length h m).trans (e m).symm, fun no => ?_⟩
  rcases C01_total h with ⟨m, hm, -⟩ | ⟨-, t⟩
  · exact absurd ⟨m, (e m).2 hm⟩ no
  · exact t

/-- C126: `conv1d` is the linear sample of the document: for a valid configuration within the range of `int32_t` the shape
function returns `m`, and the result is the convolution with stride `s` of the padded input with the extended kernel. -/
theorem C126_conv1d {R : Type} [CommSemiring R] {pl pr s r m : Nat} {x y z : List R}
    (v : Spec.ValidConfig pl pr y.length s r x.length m) (h : Fits i32 i32 y.length s r pl pr x.length)
    (hz : z.length = m) :
    (⟨s, r, ⟨pl, pr⟩⟩ : Conv1d).shape [x.length] [y.length] = .ok [m] ∧
      ∃ z', (⟨s, r, ⟨pl, pr⟩⟩ : Conv1d).run [m] ⟨[x.length], x⟩ ⟨[y.length], y⟩ z = .ok z' ∧ z'.length = m ∧
        Spec.IsStridedConv s (Spec.padList pl pr x) (Spec.extend r y) z' := by
  have o := (validConfig_iff v.k1 v.s1 v.r1 v.n1).1 v
  let a : Axis := ⟨y.length, s, r, pl, pr, x.length, m⟩
  have ok : AxisOK i32 a := ⟨h, o⟩
  have tr : (⟨s, r, ⟨pl, pr⟩⟩ : Conv1d) = conv1dTrait a := rfl
  rw [tr]
  refine ⟨C35_shape ok, (List.range m).map fun j =>
    ∑ u ∈ range y.length, y.getD u 0 * padded pl x.length (fun i => x.getD i 0) (j * s + u * r), ?_, ?_, ?_⟩
  · rw [list_tab x, list_tab y]
    refine (C35_conv1d ok (fun i => x.getD i 0) (fun i => y.getD i 0) hz).trans ?_
    rw [tab1_list]
    rfl
  · simp
  · have ne : y ≠ [] := by
      intro c
      have := v.k1
      simp [c] at this
    refine ⟨?_, fun i hi => ?_⟩
    · rw [padList_length, extend_length v.r1 y ne, List.length_map, List.length_range, Nat.mul_comm]
      exact o.2.symm
    · have hi' : i < m := by simpa using hi
      rw [sum_extend v.r1 y fun j => (Spec.padList pl pr x).getD (i * s + j) 0]
      simp only [List.getD_eq_getElem?_getD, List.getElem?_map, List.getElem?_range hi', Option.map_some,
        Option.getD_some]
      refine sum_congr rfl fun u _ => ?_
      rw [mul_comm, ← List.getD_eq_getElem?_getD (l := Spec.padList pl pr x), padList_getD]
      simp only [List.getD_eq_getElem?_getD]

/-- C126: the rows of `im2col1d` are the windows of the padded input of the document: entry `(i, u)` is the element that the
extended kernel's copy of tap `u` meets in the sum for output `i`. -/
theorem C126_im2col {R : Type} [Zero R] {pl pr k s r m : Nat} {x cols : List R}
    (v : Spec.ValidConfig pl pr k s r x.length m) (h : Fits i32 i32 k s r pl pr x.length) (hc : cols.length = m * k) :
    ∃ c, Ops.im2col1d (⟨k, s, r, pl, pr, x.length, m⟩ : Axis).sample [m, k] ⟨[x.length], x⟩ cols = .ok c ∧
      c.length = m * k ∧
      ∀ i < m, ∀ u < k, i * s + u * r < (Spec.padList pl pr x).length ∧
        c[i * k + u]? = (Spec.padList pl pr x)[i * s + u * r]? := by
  have o := (validConfig_iff v.k1 v.s1 v.r1 v.n1).1 v
  let a : Axis := ⟨k, s, r, pl, pr, x.length, m⟩
  have ok : AxisOK i32 a := ⟨h, o⟩
  refine ⟨(tab [m, k] (fn2 fun j u => padded pl x.length (fun i => x.getD i 0) (j * s + u * r))).data, ?_, ?_,
    fun i hi u hu => ?_⟩
  · rw [list_tab x]
    exact C26_im2col1d ok (fun i => x.getD i 0) hc
  · simp
  · have e := tab_getElem? (fn2 fun j u => padded pl x.length (fun i => x.getD i 0) (j * s + u * r)) (v2 hi hu)
    have lt : i * s + u * r < (padList pl pr x).length := by
      rw [padList_length, ← o.2]
      have h1 : i * s ≤ (m - 1) * s := Nat.mul_le_mul_right _ (by omega)
      have h2 : u * r ≤ (k - 1) * r := Nat.mul_le_mul_right _ (by omega)
      unfold patch
      omega
    refine ⟨lt, ?_⟩
    have off : offset [m, k] [i, u] = i * k + u := by simp [offset]
    rw [off] at e
    rw [e, fn2_apply, ← padList_getD pl pr, List.getD_eq_getElem?_getD, List.getElem?_eq_getElem lt]
    rfl

/-- Non-vacuity: 5 cells padded by (1, 2), a kernel of 3 taps at rate 2, stride 3: two outputs. The extended kernel is
`[1, 0, 2, 0, 3]`, the padded input `[0, 1, 2, 3, 4, 5, 0, 0]`. -/
example : ValidConfig 1 2 3 3 2 5 2 ∧ Fits i32 i32 3 3 2 1 2 5 ∧
    padList 1 2 [1, 2, 3, 4, (5 : Int)] = [0, 1, 2, 3, 4, 5, 0, 0] ∧ Spec.extend 2 [1, 2, (3 : Int)] = [1, 0, 2, 0, 3] ∧
    (⟨3, 2, ⟨1, 2⟩⟩ : Conv1d).run (R := Int) [2] ⟨[5], [1, 2, 3, 4, 5]⟩ ⟨[3], [1, 2, 3]⟩ [7, 7] = .ok [16, 13] := by
  refine ⟨⟨by decide, by decide, by decide, by decide, by decide, by decide⟩,
    ⟨?_, ?_, ?_, ?_, ?_, ?_, ?_, ?_, ?_, ?_, ?_, ?_, ?_, ?_⟩, ?_, ?_, ?_⟩ <;> decide +kernel

/-- The equation of a valid configuration fixes `m`; a stride that does not divide the difference has none. -/
example : ¬ ∃ m, ValidConfig 0 0 3 2 1 4 m := by
  rintro ⟨m, h⟩
  have := h.eqn
  omega

/-! ## Concrete cases -/

theorem exFit1d : Fits i32 i32 3 3 2 1 2 5 := by
  refine ⟨?_, ?_, ?_, ?_, ?_, ?_, ?_, ?_, ?_, ?_, ?_, ?_, ?_, ?_⟩ <;> decide
theorem exValid1d : ValidConfig 1 2 3 3 2 5 2 := ⟨by decide, by decide, by decide, by decide, by decide, by decide⟩

example := C126_config exFit1d (by decide)
example := C126_conv1d (x := [1, 2, 3, 4, (5 : Int)]) (y := [1, 2, 3]) (z := [7, 7]) exValid1d exFit1d rfl
example := C126_im2col (x := [1, 2, 3, 4, (5 : Int)]) (cols := [7, 7, 7, 7, 7, 7]) exValid1d exFit1d rfl

end StdNN
