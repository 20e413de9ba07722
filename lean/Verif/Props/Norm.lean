import Verif.Lemmas.Activation
import Verif.Props.Elementwise
import Mathlib.Analysis.Real.Sqrt
import Mathlib.Algebra.BigOperators.Field
import Mathlib.Algebra.BigOperators.Fin
/-!
# C55: batch normalisation
-/
namespace StdNN
open Spec Outcome Finset
variable {R : Type}

/-- After a store at `z` the memory holds the stored values at `z`. -/
theorem mem_holds_store {m v : List R} {z : Nat} (hz : z + v.length ≤ m.length) : (Src.mem z).Holds (store m z v) z v := by
  refine ⟨.inl rfl, fun i hi => ?_⟩
  rw [store_getElem? hz, if_pos ⟨by omega, by omega⟩]
  congr 1
  omega

/-- Storing twice at the same place keeps the second values. -/
theorem store_store {m v w : List R} {z : Nat} (hz : z + v.length ≤ m.length) (h : w.length = v.length) :
    store (store m z v) z w = store m z w := by
  apply List.ext_getElem?
  intro p
  have hl := store_length hz
  rw [store_getElem? (by omega), store_getElem? hz, store_getElem? (by omega)]
  by_cases c : z ≤ p ∧ p < z + w.length
  · rw [if_pos c, if_pos c]
  · rw [if_neg c, if_neg c, if_neg (by omega)]

section
variable [Zero R] [Add R] [Sub R] [Div R]

/-- C55 (`nhwc`): the element of channel `k` is normalised with the statistics of channel `k`; any element type, any output
address, the output may be the input. -/
theorem C55_nhwc (sqrt : R → R) (eps : R) {n h w c : Nat} {x : Src R} {z : Nat} {m : List R} (X : Nat → Nat → Nat → Nat → R)
    (M V : Nat → R) (hx : x.Holds m z (tab [n, h, w, c] (fn4 X)).data) (hz : z + [n, h, w, c].prod ≤ m.length) :
    Ops.batchNorm sqrt eps .nhwc [n, h, w, c] [n, h, w, c] x (tab [c] (fn1 M)).data (tab [c] (fn1 V)).data z m =
      .ok (store m z (tab [n, h, w, c] (fn4 fun l i j k => (X l i j k - M k) / (sqrt (V k) + eps))).data) :=
  Kernels.batchNormNhwc_run sqrt eps hx hz

/-- C55 (`nchw`). -/
theorem C55_nchw (sqrt : R → R) (eps : R) {n c h w : Nat} {x : Src R} {z : Nat} {m : List R} (X : Nat → Nat → Nat → Nat → R)
    (M V : Nat → R) (hx : x.Holds m z (tab [n, c, h, w] (fn4 X)).data) (hz : z + [n, c, h, w].prod ≤ m.length) :
    Ops.batchNorm sqrt eps .nchw [n, c, h, w] [n, c, h, w] x (tab [c] (fn1 M)).data (tab [c] (fn1 V)).data z m =
      .ok (store m z (tab [n, c, h, w] (fn4 fun l k i j => (X l k i j - M k) / (sqrt (V k) + eps))).data) :=
  Kernels.batchNormNchw_run sqrt eps hx hz

variable [Mul R]

/-- C55 (`nhwc`, with bias): the normalised value times gamma plus beta of its channel. -/
theorem C55_bias_nhwc (sqrt : R → R) (eps : R) {n h w c : Nat} {x : Src R} {z : Nat} {m : List R}
    (X : Nat → Nat → Nat → Nat → R) (M V β γ : Nat → R) (hx : x.Holds m z (tab [n, h, w, c] (fn4 X)).data)
    (hz : z + [n, h, w, c].prod ≤ m.length) :
    Ops.batchNormWithBias sqrt eps .nhwc [n, h, w, c] [n, h, w, c] x (tab [c] (fn1 M)).data (tab [c] (fn1 V)).data
        (tab [c] (fn1 β)).data (tab [c] (fn1 γ)).data z m =
      .ok (store m z (tab [n, h, w, c] (fn4 fun l i j k =>
        (X l i j k - M k) / (sqrt (V k) + eps) * γ k + β k)).data) := by
  unfold Ops.batchNormWithBias
  have hs : ∀ F : Nat → Nat → Nat → Nat → R, z + (tab [n, h, w, c] (fn4 F)).data.length ≤ m.length := fun F => by
    rw [tab_length]; exact hz
  rw [C55_nhwc sqrt eps X M V hx hz, Outcome.ok_bind,
    C22_bias_nhwc (· * ·) _ γ (mem_holds_store (hs _)) (by rw [store_length (hs _)]; exact hz), Outcome.ok_bind,
    store_store (hs _) (by simp),
    C22_bias_nhwc (· + ·) _ β (mem_holds_store (hs _)) (by rw [store_length (hs _)]; exact hz),
    store_store (hs _) (by simp)]

/-- C55 (`nchw`, with bias). -/
theorem C55_bias_nchw (sqrt : R → R) (eps : R) {n c h w : Nat} {x : Src R} {z : Nat} {m : List R}
    (X : Nat → Nat → Nat → Nat → R) (M V β γ : Nat → R) (hx : x.Holds m z (tab [n, c, h, w] (fn4 X)).data)
    (hz : z + [n, c, h, w].prod ≤ m.length) :
    Ops.batchNormWithBias sqrt eps .nchw [n, c, h, w] [n, c, h, w] x (tab [c] (fn1 M)).data (tab [c] (fn1 V)).data
        (tab [c] (fn1 β)).data (tab [c] (fn1 γ)).data z m =
      .ok (store m z (tab [n, c, h, w] (fn4 fun l k i j =>
        (X l k i j - M k) / (sqrt (V k) + eps) * γ k + β k)).data) := by
  unfold Ops.batchNormWithBias
  have hs : ∀ F : Nat → Nat → Nat → Nat → R, z + (tab [n, c, h, w] (fn4 F)).data.length ≤ m.length := fun F => by
    rw [tab_length]; exact hz
  rw [C55_nchw sqrt eps X M V hx hz, Outcome.ok_bind,
    C22_bias_nchw (· * ·) _ γ (mem_holds_store (hs _)) (by rw [store_length (hs _)]; exact hz), Outcome.ok_bind,
    store_store (hs _) (by simp),
    C22_bias_nchw (· + ·) _ β (mem_holds_store (hs _)) (by rw [store_length (hs _)]; exact hz),
    store_store (hs _) (by simp)]

/-- C55: the two layouts agree up to transposition. -/
theorem C55_layouts_agree (sqrt : R → R) (eps : R) {n h w c : Nat} (X : Nat → Nat → Nat → Nat → R) (M V β γ : Nat → R)
    {b1 b2 b3 b4 : List R} (h1 : b1.length = [n, h, w, c].prod) (h2 : b2.length = [n, c, h, w].prod)
    (h3 : b3.length = [n, c, h, w].prod) (h4 : b4.length = [n, c, h, w].prod) :
    (do let z ← Ops.batchNormWithBias sqrt eps .nhwc [n, h, w, c] [n, h, w, c] (.ext (tab [n, h, w, c] (fn4 X)).data)
          (tab [c] (fn1 M)).data (tab [c] (fn1 V)).data (tab [c] (fn1 β)).data (tab [c] (fn1 γ)).data 0 b1
        Kernels.toFirst id [n, c, h, w] ⟨[n, h, w, c], z⟩ b2) =
      (do let t ← Kernels.toFirst id [n, c, h, w] (tab [n, h, w, c] (fn4 X)) b3
          Ops.batchNormWithBias sqrt eps .nchw [n, c, h, w] [n, c, h, w] (.ext t) (tab [c] (fn1 M)).data
            (tab [c] (fn1 V)).data (tab [c] (fn1 β)).data (tab [c] (fn1 γ)).data 0 b4) := by
  rw [C55_bias_nhwc sqrt eps X M V β γ (ext_holds _ _ _) (by omega), store_all (by simp [h1]), Outcome.ok_bind]
  refine (Kernels.toFirst_run id (fun l i j k => (X l i j k - M k) / (sqrt (V k) + eps) * γ k + β k) h2).trans ?_
  rw [Kernels.toFirst_run id X h3, Outcome.ok_bind]
  refine Eq.symm ((C55_bias_nchw sqrt eps (fun l k i j => id (X l i j k)) M V β γ (ext_holds _ _ _) (by omega)).trans ?_)
  rw [store_all (by simp [h4])]
  rfl

end

/-- C55: the shape functions accept exactly statistics and parameters of one entry per channel, and return the shape of
the image. -/
theorem C55_shape (a b c d k1 k2 k3 k4 : Nat) :
    Ops.batchNormShape .nhwc [a, b, c, d] [k1] [k2] =
      (if d = k1 ∧ d = k2 then .ok [a, b, c, d] else .throw .runtimeError) ∧
    Ops.batchNormShape .nchw [a, b, c, d] [k1] [k2] =
      (if b = k1 ∧ b = k2 then .ok [a, b, c, d] else .throw .runtimeError) ∧
    Ops.batchNormWithBiasShape .nhwc [a, b, c, d] [k1] [k2] [k3] [k4] =
      (if d = k1 ∧ d = k2 ∧ d = k3 ∧ d = k4 then .ok [a, b, c, d] else .throw .runtimeError) ∧
    Ops.batchNormWithBiasShape .nchw [a, b, c, d] [k1] [k2] [k3] [k4] =
      (if b = k1 ∧ b = k2 ∧ b = k3 ∧ b = k4 then .ok [a, b, c, d] else .throw .runtimeError) := by
  refine ⟨?_, ?_, ?_, ?_⟩ <;>
    simp only [Ops.batchNormShape, Ops.batchNormWithBiasShape, Order.channelPos, getDim, contractAssert] <;> simp <;>
    (repeat' split) <;> simp_all <;> omega

/-- C55 over the reals: if the statistics of a channel are the mean and the variance of its values and `eps = 0`, then
the normalised values have mean zero, and variance one unless the variance is zero. -/
theorem C55_standardises {ι : Type} [Fintype ι] [Nonempty ι] (x : ι → ℝ) {μ v : ℝ} (hμ : μ = (∑ i, x i) / Fintype.card ι)
    (hv : v = (∑ i, (x i - μ) ^ 2) / Fintype.card ι) (hv0 : v ≠ 0) :
    (∑ i, Kernels.normalize Real.sqrt 0 (x i) μ v) / Fintype.card ι = 0 ∧
    (∑ i, Kernels.normalize Real.sqrt 0 (x i) μ v ^ 2) / Fintype.card ι = 1 := by
  have hc : (Fintype.card ι : ℝ) ≠ 0 := by exact_mod_cast Fintype.card_ne_zero
  have hvp : 0 ≤ v := by
    rw [hv]
    exact div_nonneg (Finset.sum_nonneg fun _ _ => sq_nonneg _) (by positivity)
  unfold Kernels.normalize
  constructor
  · rw [← Finset.sum_div, Finset.sum_sub_distrib]
    have : ∑ i, x i - ∑ _i : ι, μ = 0 := by
      rw [Finset.sum_const, Finset.card_univ, hμ]
      simp only [nsmul_eq_mul]
      field_simp
      ring
    rw [this]
    simp
  · have h2 : ∑ i, (x i - μ) ^ 2 = v * Fintype.card ι := by
      rw [hv]; field_simp
    simp only [div_pow, add_zero, Real.sq_sqrt hvp]
    rw [← Finset.sum_div, h2]
    field_simp

/-- Non-vacuity: two values with mean 1 and variance 1; an image with two channels; in place. -/
example : (1 : ℝ) = (∑ i : Fin 2, (![0, 2] : Fin 2 → ℝ) i) / Fintype.card (Fin 2) ∧
    (1 : ℝ) = (∑ i : Fin 2, ((![0, 2] : Fin 2 → ℝ) i - 1) ^ 2) / Fintype.card (Fin 2) := by
  constructor <;> norm_num [Fin.sum_univ_two]

example : Ops.batchNormWithBias (fun v : Int => v) 0 .nhwc [1, 1, 2, 2] [1, 1, 2, 2] (.mem 1) [1, 2] [1, 2] [10, 20] [3, 5]
    1 [7, 2, 6, 4, 10] = .ok [7, 13, 30, 19, 40] := by decide

/-! ## Concrete cases -/

example := C55_nhwc (R := ℚ) id (1 / 8) (n := 2) (h := 2) (w := 3) (c := 2) (x := .ext _) (z := 0) (m := List.replicate 24 9)
  (fun l i j k => l + i - j * k) (fun k => k) (fun k => k + 1) (fun _ _ => rfl) (by decide)
example := C55_nchw (R := ℚ) id (1 / 8) (n := 2) (c := 2) (h := 2) (w := 3) (x := .ext _) (z := 0) (m := List.replicate 24 9)
  (fun l i j k => l + i - j * k) (fun k => k) (fun k => k + 1) (fun _ _ => rfl) (by decide)
example := C55_bias_nhwc (R := ℚ) id (1 / 8) (n := 2) (h := 2) (w := 3) (c := 2) (x := .ext _) (z := 0)
  (m := List.replicate 24 9) (fun l i j k => l + i - j * k) (fun k => k) (fun k => k + 1) (fun k => 2 * k) (fun k => 5 - k) (fun _ _ => rfl) (by decide)
example := C55_bias_nchw (R := ℚ) id (1 / 8) (n := 2) (c := 2) (h := 2) (w := 3) (x := .ext _) (z := 0)
  (m := List.replicate 24 9) (fun l i j k => l + i - j * k) (fun k => k) (fun k => k + 1) (fun k => 2 * k) (fun k => 5 - k) (fun _ _ => rfl) (by decide)
example := C55_standardises (![0, 2] : Fin 2 → ℝ) (μ := 1) (v := 1) (by norm_num [Fin.sum_univ_two])
  (by norm_num [Fin.sum_univ_two]) one_ne_zero

end StdNN
