import Verif.Lemmas.Activation
import Verif.Props.Conv
import Verif.Props.Elementwise
import Verif.Spec.Gradient
import Mathlib.Analysis.Calculus.Deriv.Comp
import Mathlib.Analysis.Calculus.Deriv.Mul
/-!
# C42-C44, C47, C53: gradients of matmul, add, mul, bias and relu; laws of relu
-/
namespace StdNN
open Spec Outcome Finset
variable {R : Type}

/-! ## C42 -/
section matmul
variable [CommSemiring R]

theorem dot_tab2 (a b : Nat) (F G : Nat → Nat → R) :
    dot (tab [a, b] (fn2 F)).data (tab [a, b] (fn2 G)).data = ∑ i ∈ range a, ∑ j ∈ range b, F i j * G i j := by
  rw [dot_tab, sum_unravel_cons a [b] (fun l => fn2 F l * fn2 G l)]
  refine sum_congr rfl fun i _ => ?_
  rw [sum_unravel_cons b [] (fun l => fn2 F (i :: l) * fn2 G (i :: l))]
  exact sum_congr rfl fun j _ => by rw [sum_unravel_nil (fun l => fn2 F (i :: j :: l) * fn2 G (i :: j :: l))]; rfl

theorem dot_tab1 (a : Nat) (F G : Nat → R) :
    dot (tab [a] (fn1 F)).data (tab [a] (fn1 G)).data = ∑ i ∈ range a, F i * G i := by
  rw [dot_tab, sum_unravel_cons a [] (fun l => fn1 F l * fn1 G l)]
  exact sum_congr rfl fun j _ => by rw [sum_unravel_nil (fun l => fn1 F (j :: l) * fn1 G (j :: l))]; rfl

/-- C42: `grad::matmul<0>` is the adjoint of `dx ↦ dx * y`. -/
theorem C42_left {m l n : Nat} (G Y : Nat → Nat → R) {gx z : List R} (hgx : gx.length = m * l) (hz : z.length = m * n) :
    ∃ gx', Grad.matmul0 [m, l] (tab [m, n] (fn2 G)) (tab [l, n] (fn2 Y)) gx = .ok gx' ∧ gx'.length = m * l ∧
      ∀ DX : Nat → Nat → R, ∃ dz, Plain.mm (tab [m, l] (fn2 DX)) (tab [l, n] (fn2 Y)) [m, n] z = .ok dz ∧
        dot (tab [m, n] (fn2 G)).data dz = dot gx' (tab [m, l] (fn2 DX)).data := by
  refine ⟨_, Plain.mmt_run (fn2 G) (fn2 Y) hgx, by simp, fun DX => ⟨_, Plain.mm_run (fn2 DX) (fn2 Y) hz, ?_⟩⟩
  unfold Plain.prod2
  rw [dot_tab2, dot_tab2]
  refine sum_congr rfl fun i _ => ?_
  simp only [seqSum_eq_sum, fn2_apply, mul_sum, sum_mul]
  rw [sum_comm]
  exact sum_congr rfl fun k _ => sum_congr rfl fun j _ => by ring

/-- C42: `grad::matmul<1>` is the adjoint of `dy ↦ x * dy`. -/
theorem C42_right {m l n : Nat} (G X : Nat → Nat → R) {gy z : List R} (hgy : gy.length = l * n)
    (hz : z.length = m * n) :
    ∃ gy', Grad.matmul1 [l, n] (tab [m, n] (fn2 G)) (tab [m, l] (fn2 X)) gy = .ok gy' ∧ gy'.length = l * n ∧
      ∀ DY : Nat → Nat → R, ∃ dz, Plain.mm (tab [m, l] (fn2 X)) (tab [l, n] (fn2 DY)) [m, n] z = .ok dz ∧
        dot (tab [m, n] (fn2 G)).data dz = dot gy' (tab [l, n] (fn2 DY)).data := by
  refine ⟨_, Plain.mtm_run (fn2 X) (fn2 G) hgy, by simp, fun DY => ⟨_, Plain.mm_run (fn2 X) (fn2 DY) hz, ?_⟩⟩
  unfold Plain.prod2
  rw [dot_tab2, dot_tab2]
  simp only [seqSum_eq_sum, fn2_apply, mul_sum, sum_mul]
  rw [sum3_rot]
  rw [sum_comm]
  refine sum_congr rfl fun k _ => sum_congr rfl fun j _ => sum_congr rfl fun i _ => ?_
  ring

end matmul

/-- Non-vacuity: both gradients for 2 × 3 times 3 × 1. -/
example : Grad.matmul0 [2, 3] ⟨[2, 1], [(1 : Int), 10]⟩ ⟨[3, 1], [1, 2, 3]⟩ [9, 9, 9, 9, 9, 9] =
      .ok [1, 2, 3, 10, 20, 30] ∧
    Grad.matmul1 [3, 1] ⟨[2, 1], [(1 : Int), 10]⟩ ⟨[2, 3], [1, 2, 3, 4, 5, 6]⟩ [9, 9, 9] = .ok [41, 52, 63] := by
  refine ⟨?_, ?_⟩ <;> decide

/-! ## C43 -/
section elementwise
variable [CommSemiring R]

theorem dot_add (g a b : List R) (h1 : a.length = g.length) (h2 : b.length = g.length) :
    dot g (List.zipWith (· + ·) a b) = dot g a + dot g b := by
  induction g generalizing a b with
  | nil => simp [dot]
  | cons x g ih =>
    match a, b, h1, h2 with
    | u :: a, v :: b, h1, h2 =>
      have := ih a b (by simpa using h1) (by simpa using h2)
      simp only [dot, List.zipWith_cons_cons, List.sum_cons] at this ⊢
      rw [this]
      ring

theorem dot_mul (g d y : List R) (h1 : d.length = g.length) (h2 : y.length = g.length) :
    dot g (List.zipWith (· * ·) d y) = dot (List.zipWith (· * ·) g y) d := by
  induction g generalizing d y with
  | nil => simp [dot]
  | cons x g ih =>
    match d, y, h1, h2 with
    | u :: d, v :: y, h1, h2 =>
      have := ih d y (by simpa using h1) (by simpa using h2)
      simp only [dot, List.zipWith_cons_cons, List.sum_cons] at this ⊢
      rw [this]
      ring

theorem zip_add_mul (x d y : List R) :
    List.zipWith (· * ·) (List.zipWith (· + ·) x d) y =
      List.zipWith (· + ·) (List.zipWith (· * ·) x y) (List.zipWith (· * ·) d y) := by
  induction x generalizing d y with
  | nil => simp
  | cons a x ih =>
    match d, y with
    | [], _ => simp
    | _ :: _, [] => simp
    | u :: d, v :: y => simp [ih, add_mul]

theorem zip_add_add (x d y : List R) :
    List.zipWith (· + ·) (List.zipWith (· + ·) x d) y = List.zipWith (· + ·) (List.zipWith (· + ·) x y) d := by
  induction x generalizing d y with
  | nil => simp
  | cons a x ih =>
    match d, y with
    | [], [] => simp
    | [], _ :: _ => simp
    | _ :: _, [] => simp
    | u :: d, v :: y => simp [ih, add_right_comm]

omit [CommSemiring R] in
theorem zip_comm (f : R → R → R) (hf : ∀ a b, f a b = f b a) (x y : List R) : List.zipWith f x y = List.zipWith f y x := by
  rw [List.zipWith_comm]
  congr 1
  funext a b
  exact hf b a

/-- C43 (add): perturbing the first argument by `dx` changes `⟨gz, x + y⟩` by exactly `⟨gx, dx⟩`, and the same for the
second argument: any shape (`shape` is only carried by `gz`), whatever the outputs held. -/
theorem C43_add {dims : List Nat} (gz x y d : List R) {g b b1 : List R} (hgz : gz.length = dims.prod)
    (hx : x.length = gz.length) (hy : y.length = gz.length) (hd : d.length = gz.length) (hg : g.length = gz.length)
    (hb : b.length = gz.length) (hb1 : b1.length = gz.length) :
    ∃ g' z zx zy, Grad.add ⟨dims, gz⟩ g = .ok g' ∧
      Ops.add x.length (.ext x) (.ext y) 0 b = .ok z ∧
      Ops.add x.length (.ext (List.zipWith (· + ·) x d)) (.ext y) 0 b1 = .ok zx ∧
      Ops.add x.length (.ext x) (.ext (List.zipWith (· + ·) y d)) 0 b1 = .ok zy ∧
      dot gz zx = dot gz z + dot g' d ∧ dot gz zy = dot gz z + dot g' d := by
  have l1 : (List.zipWith (· + ·) x d).length = x.length := by simp; omega
  have l2 : (List.zipWith (· + ·) y d).length = x.length := by simp; omega
  have r0 := C21_add (z := 0) (m := b) (ext_holds x b 0) (ext_holds y b 0) (by omega) (by omega)
  have r1 := C21_add (z := 0) (m := b1) (ext_holds (List.zipWith (· + ·) x d) b1 0) (ext_holds y b1 0)
    (by omega) (by omega)
  have r2 := C21_add (z := 0) (m := b1) (ext_holds x b1 0) (ext_holds (List.zipWith (· + ·) y d) b1 0)
    (by omega) (by omega)
  rw [l1] at r1
  rw [store_all (by simp; omega)] at r0 r1 r2
  refine ⟨_, _, _, _, Kernels.copy_ext hg.symm, r0, r1, r2, ?_, ?_⟩
  · rw [zip_add_add, dot_add _ _ _ (by simp; omega) (by omega)]
  · rw [zip_comm _ add_comm x, zip_add_add, dot_add _ _ _ (by simp; omega) (by omega), zip_comm _ add_comm y]

/-- C43 (mul): perturbing the first argument by `dx` changes `⟨gz, x * y⟩` by exactly `⟨gx, dx⟩` with `gx` written by
`grad::mul<0>`, and the same for the second argument and `grad::mul<1>`. -/
theorem C43_mul {dims : List Nat} (gz x y d : List R) {g b b1 : List R} (hgz : gz.length = dims.prod)
    (hx : x.length = gz.length) (hy : y.length = gz.length) (hd : d.length = gz.length) (hg : g.length = gz.length)
    (hb : b.length = gz.length) (hb1 : b1.length = gz.length) :
    ∃ gx gy z zx zy, Grad.mul ⟨dims, gz⟩ ⟨dims, y⟩ g = .ok gx ∧ Grad.mul ⟨dims, gz⟩ ⟨dims, x⟩ g = .ok gy ∧
      Ops.mul x.length (.ext x) (.ext y) 0 b = .ok z ∧
      Ops.mul x.length (.ext (List.zipWith (· + ·) x d)) (.ext y) 0 b1 = .ok zx ∧
      Ops.mul x.length (.ext x) (.ext (List.zipWith (· + ·) y d)) 0 b1 = .ok zy ∧
      dot gz zx = dot gz z + dot gx d ∧ dot gz zy = dot gz z + dot gy d := by
  have l1 : (List.zipWith (· + ·) x d).length = x.length := by simp; omega
  have l2 : (List.zipWith (· + ·) y d).length = x.length := by simp; omega
  have r0 := C21_mul (z := 0) (m := b) (ext_holds x b 0) (ext_holds y b 0) (by omega) (by omega)
  have r1 := C21_mul (z := 0) (m := b1) (ext_holds (List.zipWith (· + ·) x d) b1 0) (ext_holds y b1 0)
    (by omega) (by omega)
  have r2 := C21_mul (z := 0) (m := b1) (ext_holds x b1 0) (ext_holds (List.zipWith (· + ·) y d) b1 0)
    (by omega) (by omega)
  have g1 := C21_mul (z := 0) (m := g) (ext_holds gz g 0) (ext_holds y g 0) (by omega) (by omega)
  have g2 := C21_mul (z := 0) (m := g) (ext_holds gz g 0) (ext_holds x g 0) (by omega) (by omega)
  rw [l1] at r1
  rw [store_all (by simp; omega)] at r0 r1 r2 g1 g2
  refine ⟨_, _, _, _, _, g1, g2, r0, r1, r2, ?_, ?_⟩
  · rw [zip_add_mul, dot_add _ _ _ (by simp; omega) (by simp; omega), dot_mul gz d y (by omega) (by omega)]
  · rw [zip_comm _ mul_comm x, zip_add_mul, dot_add _ _ _ (by simp; omega) (by simp; omega), zip_comm _ mul_comm y,
      dot_mul gz d x (by omega) (by omega)]

end elementwise

/-- Non-vacuity: the lengths agree for a concrete 2 × 2 tensor, and the gradients are not trivial. -/
example : Grad.mul ⟨[2, 2], [(1 : Int), 2, 3, 4]⟩ ⟨[2, 2], [5, 6, 7, 8]⟩ [0, 0, 0, 0] = .ok [5, 12, 21, 32] ∧
    ([(1 : Int), 2, 3, 4]).length = [2, 2].prod := by decide

/-! ## C44 -/
section bias
variable [CommSemiring R]

theorem dot_tab_add (dims : List Nat) (F A B : List Nat → R) :
    dot (tab dims F).data (tab dims fun idx => A idx + B idx).data =
      dot (tab dims F).data (tab dims A).data + dot (tab dims F).data (tab dims B).data := by
  rw [dot_tab, dot_tab, dot_tab, ← sum_add_distrib]
  exact sum_congr rfl fun p _ => mul_add _ _ _

theorem tab2_add (a b : Nat) (A B : Nat → Nat → R) :
    tab [a, b] (fn2 fun i j => A i j + B i j) = tab [a, b] (fun idx => fn2 A idx + fn2 B idx) :=
  tab_congr fun idx hv => match idx, hv with
    | [_, _], _ => rfl

theorem tab4_add (a b c d : Nat) (A B : Nat → Nat → Nat → Nat → R) :
    tab [a, b, c, d] (fn4 fun i j k l => A i j k l + B i j k l) = tab [a, b, c, d] (fun idx => fn4 A idx + fn4 B idx) :=
  tab_congr fun idx hv => match idx, hv with
    | [_, _, _, _], _ => rfl

/-- C44, `hw`: `grad::add_bias<hw, 0>` and `<hw, 1>`. Perturbing the matrix by `DX` and the bias by `DB` changes
`⟨gz, add_bias(x, y)⟩` by exactly `⟨gx, DX⟩ + ⟨gy, DB⟩`; `gy` is the column sums of `gz`, whatever the outputs held. -/
theorem C44_hw {h w : Nat} (G : Nat → Nat → R) {gx gy b b1 : List R} (hgx : gx.length = [h, w].prod)
    (hgy : gy.length = w) (hb : b.length = [h, w].prod) (hb1 : b1.length = [h, w].prod) :
    ∃ gx' gy', Grad.biasX (tab [h, w] (fn2 G)) gx = .ok gx' ∧ Grad.biasHw (tab [h, w] (fn2 G)) gy = .ok gy' ∧
      gy' = (tab [w] (fn1 fun j => ∑ i ∈ range h, G i j)).data ∧
      ∀ (X DX : Nat → Nat → R) (B DB : Nat → R), ∃ z z',
        Ops.applyBias (· + ·) .hw [h, w] [h, w] (.ext (tab [h, w] (fn2 X)).data) (tab [w] (fn1 B)).data 0 b = .ok z ∧
        Ops.applyBias (· + ·) .hw [h, w] [h, w] (.ext (tab [h, w] (fn2 fun i j => X i j + DX i j)).data)
          (tab [w] (fn1 fun j => B j + DB j)).data 0 b1 = .ok z' ∧
        dot (tab [h, w] (fn2 G)).data z' = dot (tab [h, w] (fn2 G)).data z +
          (dot gx' (tab [h, w] (fn2 DX)).data + dot gy' (tab [w] (fn1 DB)).data) := by
  refine ⟨_, _, Kernels.copy_ext (by rw [tab_length, hgx]), Kernels.outerContraction_run G hgy, rfl, fun X DX B DB => ?_⟩
  refine ⟨_, _, C22_bias_hw (· + ·) X B (ext_holds _ _ _) (by omega),
    C22_bias_hw (· + ·) _ _ (ext_holds _ _ _) (by omega), ?_⟩
  rw [store_all (by rw [tab_length, hb1]), store_all (by rw [tab_length, hb])]
  have e : (fn2 fun i j => X i j + DX i j + (B j + DB j)) = fn2 fun i j => (X i j + B j) + (DX i j + DB j) :=
    congrArg fn2 (funext fun i => funext fun j => by ring)
  rw [e, tab2_add h w (fun i j => X i j + B j) (fun i j => DX i j + DB j), dot_tab_add,
    tab2_add h w DX (fun _ j => DB j), dot_tab_add]
  congr 2
  rw [dot_tab1, dot_tab2, sum_comm]
  exact sum_congr rfl fun j _ => by rw [sum_mul]

/-- C44, `nhwc`: the same for batches of images, the bias gradient sums over batch, height and width. -/
theorem C44_nhwc {n h w c : Nat} (G : Nat → Nat → Nat → Nat → R) {gx gy b b1 : List R}
    (hgx : gx.length = [n, h, w, c].prod) (hgy : gy.length = c) (hb : b.length = [n, h, w, c].prod)
    (hb1 : b1.length = [n, h, w, c].prod) :
    ∃ gx' gy', Grad.biasX (tab [n, h, w, c] (fn4 G)) gx = .ok gx' ∧
      Grad.biasNhwc (tab [n, h, w, c] (fn4 G)) gy = .ok gy' ∧
      gy' = (tab [c] (fn1 fun k => ∑ l ∈ range n, ∑ i ∈ range h, ∑ j ∈ range w, G l i j k)).data ∧
      ∀ (X DX : Nat → Nat → Nat → Nat → R) (B DB : Nat → R), ∃ z z',
        Ops.applyBias (· + ·) .nhwc [n, h, w, c] [n, h, w, c] (.ext (tab [n, h, w, c] (fn4 X)).data)
          (tab [c] (fn1 B)).data 0 b = .ok z ∧
        Ops.applyBias (· + ·) .nhwc [n, h, w, c] [n, h, w, c]
          (.ext (tab [n, h, w, c] (fn4 fun l i j k => X l i j k + DX l i j k)).data)
          (tab [c] (fn1 fun k => B k + DB k)).data 0 b1 = .ok z' ∧
        dot (tab [n, h, w, c] (fn4 G)).data z' = dot (tab [n, h, w, c] (fn4 G)).data z +
          (dot gx' (tab [n, h, w, c] (fn4 DX)).data + dot gy' (tab [c] (fn1 DB)).data) := by
  have hm : Grad.biasNhwc (tab [n, h, w, c] (fn4 G)) gy =
      .ok (tab [c] (fn1 fun k => ∑ l ∈ range n, ∑ i ∈ range h, ∑ j ∈ range w, G l i j k)).data := by
    have e : (tab [n, h, w, c] (fn4 G)).withDims [[n, h, w].prod, c] =
        tab [[n, h, w].prod, c] (fn2 fun r k => fn4 G (unravel [n, h, w] r ++ [k])) := by
      have := tab_snoc [n, h, w] c (fn4 G)
      unfold Tensor.withDims
      refine congrArg (Tensor.mk _) this
    unfold Grad.biasNhwc
    have ed : [((tab [n, h, w, c] (fn4 G)).dims.take 3).prod, ((tab [n, h, w, c] (fn4 G)).dims.drop 3).prod] =
        [[n, h, w].prod, c] := by simp
    rw [ed, e, Kernels.outerContraction_run _ hgy]
    refine congrArg (fun t => Outcome.ok (Tensor.data t)) (tab_congr fun idx hv => ?_)
    match idx, hv with
    | [k], _ =>
      simp only [fn1_apply]
      rw [sum_unravel3 n h w (fun l => fn4 G (l ++ [k]))]
      rfl
  refine ⟨_, _, Kernels.copy_ext (by rw [tab_length, hgx]), hm, rfl, fun X DX B DB => ?_⟩
  refine ⟨_, _, C22_bias_nhwc (· + ·) X B (ext_holds _ _ _) (by omega),
    C22_bias_nhwc (· + ·) _ _ (ext_holds _ _ _) (by omega), ?_⟩
  rw [store_all (by rw [tab_length, hb1]), store_all (by rw [tab_length, hb])]
  have e : (fn4 fun l i j k => X l i j k + DX l i j k + (B k + DB k)) =
      fn4 fun l i j k => (X l i j k + B k) + (DX l i j k + DB k) :=
    congrArg fn4 (funext fun l => funext fun i => funext fun j => funext fun k => by ring)
  rw [e, tab4_add n h w c (fun l i j k => X l i j k + B k) (fun l i j k => DX l i j k + DB k), dot_tab_add,
    tab4_add n h w c DX (fun _ _ _ k => DB k), dot_tab_add]
  congr 2
  rw [dot_tab1, dot_tab4]
  have e2 : ∀ k, (∑ l ∈ range n, ∑ i ∈ range h, ∑ j ∈ range w, G l i j k) * DB k =
      ∑ l ∈ range n, ∑ i ∈ range h, ∑ j ∈ range w, G l i j k * DB k := by
    intro k; simp only [sum_mul]
  simp only [e2]
  symm
  rw [sum_comm]
  refine sum_congr rfl fun l _ => ?_
  rw [sum_comm]
  exact sum_congr rfl fun i _ => sum_comm

/-- C44, `nchw`: only the input gradient exists in this layout. -/
theorem C44_nchw_input {n c h w : Nat} (G : Nat → Nat → Nat → Nat → R) {gx b b1 : List R}
    (hgx : gx.length = [n, c, h, w].prod) (hb : b.length = [n, c, h, w].prod) (hb1 : b1.length = [n, c, h, w].prod) :
    ∃ gx', Grad.biasX (tab [n, c, h, w] (fn4 G)) gx = .ok gx' ∧
      ∀ (X DX : Nat → Nat → Nat → Nat → R) (B : Nat → R), ∃ z z',
        Ops.applyBias (· + ·) .nchw [n, c, h, w] [n, c, h, w] (.ext (tab [n, c, h, w] (fn4 X)).data)
          (tab [c] (fn1 B)).data 0 b = .ok z ∧
        Ops.applyBias (· + ·) .nchw [n, c, h, w] [n, c, h, w]
          (.ext (tab [n, c, h, w] (fn4 fun l k i j => X l k i j + DX l k i j)).data)
          (tab [c] (fn1 B)).data 0 b1 = .ok z' ∧
        dot (tab [n, c, h, w] (fn4 G)).data z' = dot (tab [n, c, h, w] (fn4 G)).data z +
          dot gx' (tab [n, c, h, w] (fn4 DX)).data := by
  refine ⟨_, Kernels.copy_ext (by rw [tab_length, hgx]), fun X DX B => ?_⟩
  refine ⟨_, _, C22_bias_nchw (· + ·) X B (ext_holds _ _ _) (by omega),
    C22_bias_nchw (· + ·) _ _ (ext_holds _ _ _) (by omega), ?_⟩
  rw [store_all (by rw [tab_length, hb1]), store_all (by rw [tab_length, hb])]
  have e : (fn4 fun l k i j => X l k i j + DX l k i j + B k) =
      fn4 fun l k i j => (X l k i j + B k) + DX l k i j :=
    congrArg fn4 (funext fun l => funext fun i => funext fun j => funext fun k => by ring)
  rw [e, tab4_add n c h w (fun l k i j => X l k i j + B k) DX, dot_tab_add]

end bias

/-- Non-vacuity: the bias gradient overwrites what was in the output. -/
example : Grad.biasHw ⟨[2, 2], [(1 : Int), 2, 30, 40]⟩ [7, 7] = .ok [31, 42] ∧
    Grad.biasNhwc ⟨[1, 2, 1, 2], [(1 : Int), 2, 30, 40]⟩ [7, 7] = .ok [31, 42] := by
  refine ⟨?_, ?_⟩ <;> decide

/-! ## C47 -/

/-- C47: `grad::relu<0>` writes `gy` where `x > 0` and `0` elsewhere; any ordered element type without laws, also when `gx`
is the memory of `gy` or `x`. -/
theorem C47_relu_grad [Zero R] [LT R] [DecidableLT R] {gy x : Src R} {z : Nat} {m v w : List R} (hg : gy.Holds m z v)
    (hx : x.Holds m z w) (hvw : v.length = w.length) (hz : z + v.length ≤ m.length) :
    Grad.relu v.length gy x z m = .ok (store m z (List.zipWith (fun g a => if a > 0 then g else 0) v w)) :=
  Kernels.transform2_run hg hx hvw hz

theorem zipWith_ofFn {S T U : Type} {n : Nat} (f : S → T → U) (a : Fin n → S) (b : Fin n → T) :
    List.zipWith f (List.ofFn a) (List.ofFn b) = List.ofFn fun i => f (a i) (b i) := by
  apply List.ext_getElem
  · simp
  · intro i h1 h2
    simp

theorem hasDerivAt_relu {x : ℝ} (hx : x ≠ 0) :
    HasDerivAt (fun t : ℝ => if t > 0 then t else 0) (if x > 0 then 1 else 0) x := by
  by_cases c : x > 0
  · rw [if_pos c]
    refine (hasDerivAt_id x).congr_of_eventuallyEq ?_
    filter_upwards [lt_mem_nhds c] with t ht
    rw [if_pos ht]
    rfl
  · rw [if_neg c]
    have hn : x < 0 := lt_of_le_of_ne (not_lt.1 c) hx
    refine (hasDerivAt_const x (0 : ℝ)).congr_of_eventuallyEq ?_
    filter_upwards [gt_mem_nhds hn] with t ht
    rw [if_neg (not_lt.2 ht.le)]

/-- The gradient of a sum of functions of one coordinate each. -/
theorem isGradient_sum {n : Nat} (f : Fin n → ℝ → ℝ) (g x : Fin n → ℝ) (h : ∀ i, HasDerivAt (f i) (g i) (x i)) :
    IsGradient (fun x => ∑ i, f i (x i)) g x := by
  unfold IsGradient
  have : ∀ i ∈ (univ : Finset (Fin n)), HasFDerivAt (fun x : Fin n → ℝ => f i (x i))
      (g i • (ContinuousLinearMap.proj i : (Fin n → ℝ) →L[ℝ] ℝ)) x := fun i _ =>
    (h i).comp_hasFDerivAt x (hasFDerivAt_apply i x)
  exact HasFDerivAt.fun_sum this

/-- C47 over the reals: at every `x` without zero entries the output is the gradient of `x ↦ ⟨gy, relu x⟩`. -/
theorem C47_relu_derivative {n : Nat} (gy x : Fin n → ℝ) (hx : ∀ i, x i ≠ 0) {b : List ℝ} (hb : b.length = n) :
    ∃ (g : Fin n → ℝ) (relu : (Fin n → ℝ) → Fin n → ℝ),
      Grad.relu n (.ext (List.ofFn gy)) (.ext (List.ofFn x)) 0 b = .ok (List.ofFn g) ∧
      (∀ (x' : Fin n → ℝ) (b' : List ℝ), b'.length = n →
        Ops.relu n (.ext (List.ofFn x')) 0 b' = .ok (List.ofFn (relu x'))) ∧
      IsGradient (fun x => ∑ i, gy i * relu x i) g x := by
  refine ⟨fun i => if x i > 0 then gy i else 0, fun x i => if x i > 0 then x i else 0, ?_, ?_, ?_⟩
  · have := C47_relu_grad (ext_holds (List.ofFn gy) b 0) (ext_holds (List.ofFn x) b 0) (by simp) (by simp [hb])
    rw [store_all (by simp [hb]), zipWith_ofFn] at this
    simpa using this
  · intro x' b' hb'
    have := C21_relu (ext_holds (List.ofFn x') b' 0) (by simp [hb'])
    rw [store_all (by simp [hb']), List.map_ofFn, List.length_ofFn] at this
    exact this
  · refine isGradient_sum (fun i t => gy i * if t > 0 then t else 0) _ x fun i => ?_
    have := (hasDerivAt_relu (hx i)).const_mul (gy i)
    have e : (gy i * if x i > 0 then 1 else 0) = if x i > 0 then gy i else 0 := by split <;> simp
    rwa [e] at this

/-- Non-vacuity: a point with positive and negative entries. -/
example : (∀ i, (![1, -2] : Fin 2 → ℝ) i ≠ 0) := by
  intro i
  fin_cases i <;> simp

/-! ## C53 -/

/-- C53: relu is `max x 0` for every element, hence non-negative; running it twice gives the same as running it once, and a
pointwise bigger input gives a pointwise bigger output. -/
theorem C53_relu_laws [LinearOrder R] [Zero R] (x x' : List R) {b b1 b2 : List R} (hl : x'.length = x.length)
    (hb : b.length = x.length) (hb1 : b1.length = x.length) (hb2 : b2.length = x.length) :
    ∃ y y', Ops.relu x.length (.ext x) 0 b = .ok y ∧ Ops.relu x'.length (.ext x') 0 b1 = .ok y' ∧
      y = x.map (fun a => max a 0) ∧ (∀ v ∈ y, 0 ≤ v) ∧
      Ops.relu y.length (.ext y) 0 b2 = .ok y ∧
      (List.Forall₂ (· ≤ ·) x x' → List.Forall₂ (· ≤ ·) y y') := by
  have e : ∀ l : List R, l.map (fun a => if a > 0 then a else 0) = l.map (fun a => max a 0) := by
    intro l
    apply List.map_congr_left
    intro a _
    by_cases c : a > 0
    · rw [if_pos c, max_eq_left c.le]
    · rw [if_neg c, max_eq_right (not_lt.1 c)]
  have r : ∀ (l b : List R), b.length = l.length → Ops.relu l.length (.ext l) 0 b = .ok (l.map fun a => max a 0) := by
    intro l b h
    have := C21_relu (ext_holds l b 0) (by omega)
    rw [store_all (by simp [h])] at this
    rw [← e]
    exact this
  refine ⟨_, _, r x b hb, r x' b1 (by omega), rfl, ?_, ?_, ?_⟩
  · intro v hv
    obtain ⟨a, -, rfl⟩ := List.mem_map.1 hv
    exact le_max_right _ _
  · rw [r _ b2 (by simp [hb2])]
    rw [List.map_map]
    refine congrArg Outcome.ok (List.map_congr_left fun a _ => ?_)
    simp
  · intro h
    rw [List.forall₂_map_left_iff, List.forall₂_map_right_iff]
    exact h.imp fun a b hab => max_le_max_right 0 hab

/-- Non-vacuity. -/
example : Ops.relu 3 (.ext [(-1 : Int), 0, 2]) 0 [7, 7, 7] = .ok [0, 0, 2] ∧
    List.Forall₂ (· ≤ ·) [(-1 : Int), 0, 2] [0, 0, 3] := by decide

/-! ## Concrete cases -/

example := C47_relu_grad (R := Int) (gy := .ext [5, 6, 7]) (x := .mem 1) (z := 1) (m := [9, -1, 0, 2]) (v := [5, 6, 7])
  (w := [-1, 0, 2]) (fun _ _ => rfl) ⟨.inl rfl, fun i hi => by rcases i with _ | _ | _ | i <;> first | rfl | (simp at hi; omega)⟩ rfl (by decide)
example := C47_relu_derivative (n := 2) ![3, 4] ![1, -2] (fun i => by fin_cases i <;> simp) (b := [0, 0]) rfl

end StdNN
