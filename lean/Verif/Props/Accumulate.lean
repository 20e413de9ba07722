import Verif.Props.Gradients
import Verif.Props.Conv
import Verif.Props.Train
/-!
# C143: gradients with respect to parameters add up over the examples of a batch

The gradient for a batch is the sum of the gradients for its parts, and the order of the examples does not matter. So a
batch that does not fit may be processed in pieces whose gradients are added.
-/
namespace StdNN
open Outcome Finset Spec IntTy
variable {R : Type}

theorem sum_split [AddCommMonoid R] (a b : Nat) (f : Nat → R) :
    ∑ i ∈ range (a + b), f i = ∑ i ∈ range a, f i + ∑ i ∈ range b, f (a + i) := sum_range_add f a b

theorem sum_reorder [AddCommMonoid R] {n : Nat} (σ : Equiv.Perm ℕ) (hσ : ∀ i, σ i < n ↔ i < n) (f : Nat → R) :
    ∑ i ∈ range n, f (σ i) = ∑ i ∈ range n, f i :=
  Finset.sum_equiv σ (fun i => by simp [hσ]) fun _ _ => rfl

/-! ## Parts of a batch -/

/-- C143 (matmul): the gradient with respect to the right factor. -/
theorem C143_matmul [CommSemiring R] {a b l n : Nat} (G X : Nat → Nat → R) {g g' g'' : List R} (hg : g.length = l * n)
    (hg' : g'.length = l * n) (hg'' : g''.length = l * n) :
    ∃ u v, Grad.matmul1 [l, n] (tab [a, n] (fn2 G)) (tab [a, l] (fn2 X)) g = .ok u ∧
      Grad.matmul1 [l, n] (tab [b, n] (fn2 fun i => G (a + i))) (tab [b, l] (fn2 fun i => X (a + i))) g' = .ok v ∧
      Grad.matmul1 [l, n] (tab [a + b, n] (fn2 G)) (tab [a + b, l] (fn2 X)) g'' = .ok (List.zipWith (· + ·) u v) := by
  refine ⟨_, _, Plain.mtm_run _ _ hg, Plain.mtm_run _ _ hg', (Plain.mtm_run _ _ hg'').trans ?_⟩
  rw [zipWith_tab]
  refine congrArg (fun t => Outcome.ok (Tensor.data t)) (tab_congr fun idx hv => ?_)
  match idx, hv with
  | [q, j], _ =>
    simp only [seqSum_eq_sum]
    exact sum_split ..

/-- C143 (add_bias on matrices): the gradient with respect to the bias. -/
theorem C143_bias_hw [AddCommMonoid R] {a b w : Nat} (G : Nat → Nat → R) {g g' g'' : List R} (hg : g.length = w) (hg' : g'.length = w)
    (hg'' : g''.length = w) :
    ∃ u v, Grad.biasHw (tab [a, w] (fn2 G)) g = .ok u ∧ Grad.biasHw (tab [b, w] (fn2 fun i => G (a + i))) g' = .ok v ∧
      Grad.biasHw (tab [a + b, w] (fn2 G)) g'' = .ok (List.zipWith (· + ·) u v) := by
  refine ⟨_, _, Kernels.outerContraction_run G hg, Kernels.outerContraction_run _ hg', (Kernels.outerContraction_run G hg'').trans ?_⟩
  rw [zipWith_tab]
  refine congrArg (fun t => Outcome.ok (Tensor.data t)) (tab_congr fun idx hv => ?_)
  match idx, hv with
  | [j], _ => exact sum_split ..

theorem biasNhwc_sums [CommRing R] {n h w c : Nat} (G : Nat → Nat → Nat → Nat → R) {g : List R} (hg : g.length = c) :
    Grad.biasNhwc (tab [n, h, w, c] (fn4 G)) g =
      .ok (tab [c] (fn1 fun k => ∑ l ∈ range n, ∑ i ∈ range h, ∑ j ∈ range w, G l i j k)).data := by
  obtain ⟨_, u, -, h2, rfl, -⟩ := C44_nhwc (n := n) (h := h) (w := w) (c := c) G (gx := (tab [n, h, w, c] (fn4 G)).data) (gy := g)
    (b := (tab [n, h, w, c] (fn4 G)).data) (b1 := (tab [n, h, w, c] (fn4 G)).data) (tab_length ..) hg (tab_length ..) (tab_length ..)
  exact h2

/-- C143 (add_bias on nhwc images). -/
theorem C143_bias_nhwc [CommRing R] {a b h w c : Nat} (G : Nat → Nat → Nat → Nat → R) {g g' g'' : List R} (hg : g.length = c)
    (hg' : g'.length = c) (hg'' : g''.length = c) :
    ∃ u v, Grad.biasNhwc (tab [a, h, w, c] (fn4 G)) g = .ok u ∧
      Grad.biasNhwc (tab [b, h, w, c] (fn4 fun i => G (a + i))) g' = .ok v ∧
      Grad.biasNhwc (tab [a + b, h, w, c] (fn4 G)) g'' = .ok (List.zipWith (· + ·) u v) := by
  refine ⟨_, _, biasNhwc_sums _ hg, biasNhwc_sums _ hg', (biasNhwc_sums _ hg'').trans ?_⟩
  rw [zipWith_tab]
  refine congrArg (fun t => Outcome.ok (Tensor.data t)) (tab_congr fun idx hv => ?_)
  match idx, hv with
  | [k], _ => exact sum_split ..

/-- C143 (convolution): the gradient with respect to the filter. -/
theorem C143_conv [CommSemiring R] {H W : Axis} (hH : AxisOK u32 H) (hW : AxisOK u32 W) {a b c d : Nat} (G X : Nat → Nat → Nat → Nat → R)
    (junk junk' junk'' : Nat → R) {g g' g'' : List R} (hg : g.length = [H.k, W.k, c, d].prod) (hg' : g'.length = [H.k, W.k, c, d].prod)
    (hg'' : g''.length = [H.k, W.k, c, d].prod) :
    ∃ u v, Kernels.convGradY (convTrait H W) junk [H.k, W.k, c, d] (tab [a, H.m, W.m, d] (fn4 G)) (tab [a, H.n, W.n, c] (fn4 X)) g =
        .ok u ∧
      Kernels.convGradY (convTrait H W) junk' [H.k, W.k, c, d] (tab [b, H.m, W.m, d] (fn4 fun i => G (a + i)))
        (tab [b, H.n, W.n, c] (fn4 fun i => X (a + i))) g' = .ok v ∧
      Kernels.convGradY (convTrait H W) junk'' [H.k, W.k, c, d] (tab [a + b, H.m, W.m, d] (fn4 G)) (tab [a + b, H.n, W.n, c] (fn4 X))
        g'' = .ok (List.zipWith (· + ·) u v) := by
  refine ⟨_, _, Kernels.convGradY_run hH hW G X junk hg, Kernels.convGradY_run hH hW _ _ junk' hg',
    (Kernels.convGradY_run hH hW G X junk'' hg'').trans ?_⟩
  rw [zipWith_tab]
  refine congrArg (fun t => Outcome.ok (Tensor.data t)) (tab_congr fun idx hv => ?_)
  match idx, hv with
  | [u, v, k, o], _ => exact sum_split ..

/-! ## Order of the examples -/

/-- C143 (order): reordering the examples, together with the gradients that belong to them, does not change the gradients with
respect to matrices, biases and filters. -/
theorem C143_order [CommRing R] {n : Nat} (σ : Equiv.Perm ℕ) (hσ : ∀ i, σ i < n ↔ i < n) :
    (∀ (l w : Nat) (G X : Nat → Nat → R) (g g' : List R), g.length = l * w → g'.length = l * w →
      Grad.matmul1 [l, w] (tab [n, w] (fn2 fun i => G (σ i))) (tab [n, l] (fn2 fun i => X (σ i))) g =
        Grad.matmul1 [l, w] (tab [n, w] (fn2 G)) (tab [n, l] (fn2 X)) g') ∧
    (∀ (w : Nat) (G : Nat → Nat → R) (g g' : List R), g.length = w → g'.length = w →
      Grad.biasHw (tab [n, w] (fn2 fun i => G (σ i))) g = Grad.biasHw (tab [n, w] (fn2 G)) g') ∧
    (∀ (h w c : Nat) (G : Nat → Nat → Nat → Nat → R) (g g' : List R), g.length = c → g'.length = c →
      Grad.biasNhwc (tab [n, h, w, c] (fn4 fun i => G (σ i))) g = Grad.biasNhwc (tab [n, h, w, c] (fn4 G)) g') ∧
    ∀ (H W : Axis) (c d : Nat) (G X : Nat → Nat → Nat → Nat → R) (junk junk' : Nat → R) (g g' : List R), AxisOK u32 H → AxisOK u32 W →
      g.length = [H.k, W.k, c, d].prod → g'.length = [H.k, W.k, c, d].prod →
      Kernels.convGradY (convTrait H W) junk [H.k, W.k, c, d] (tab [n, H.m, W.m, d] (fn4 fun i => G (σ i)))
        (tab [n, H.n, W.n, c] (fn4 fun i => X (σ i))) g =
      Kernels.convGradY (convTrait H W) junk' [H.k, W.k, c, d] (tab [n, H.m, W.m, d] (fn4 G)) (tab [n, H.n, W.n, c] (fn4 X)) g' := by
  refine ⟨fun l w G X g g' hg hg' => ?_, fun w G g g' hg hg' => ?_, fun h w c G g g' hg hg' => ?_,
    fun H W c d G X junk junk' g g' hH hW hg hg' => ?_⟩
  · refine (Plain.mtm_run _ _ hg).trans (.trans ?_ (Plain.mtm_run _ _ hg').symm)
    refine congrArg (fun t => Outcome.ok (Tensor.data t)) (tab_congr fun idx hv => ?_)
    match idx, hv with
    | [q, j], _ =>
      simp only [seqSum_eq_sum]
      exact sum_reorder σ hσ fun i => fn2 X [i, q] * fn2 G [i, j]
  · refine (Kernels.outerContraction_run _ hg).trans (.trans ?_ (Kernels.outerContraction_run G hg').symm)
    refine congrArg (fun t => Outcome.ok (Tensor.data t)) (tab_congr fun idx hv => ?_)
    match idx, hv with
    | [j], _ => exact sum_reorder σ hσ fun i => G i j
  · refine (biasNhwc_sums _ hg).trans (.trans ?_ (biasNhwc_sums G hg').symm)
    refine congrArg (fun t => Outcome.ok (Tensor.data t)) (tab_congr fun idx hv => ?_)
    match idx, hv with
    | [k], _ => exact sum_reorder σ hσ fun l => ∑ i ∈ range h, ∑ j ∈ range w, G l i j k
  · refine (Kernels.convGradY_run hH hW _ _ junk hg).trans (.trans ?_ (Kernels.convGradY_run hH hW G X junk' hg').symm)
    refine congrArg (fun t => Outcome.ok (Tensor.data t)) (tab_congr fun idx hv => ?_)
    match idx, hv with
    | [u, v, k, o], _ => exact sum_reorder σ hσ fun e => ∑ i ∈ range H.m, ∑ j ∈ range W.m, window H W (fun a a' => X e a a' k) i j u v * G e i j o

/-- C143 (training, order): a training step on the same examples in another order changes the parameters in the same way and
prints the same loss. -/
theorem C143_step_order (eps : ℝ) (junk junk' : Nat → ℝ) {n p k : Nat} (c : ℝ) (X T W : Nat → Nat → ℝ) (B : Nat → ℝ)
    (hT : ∀ i < n, ∑ j ∈ range k, T i j = 1) (σ : Equiv.Perm ℕ) (hσ : ∀ i, σ i < n ↔ i < n) {s t : Slp.State ℝ}
    (hs : Slp.Sized n p k s) (ht : Slp.Sized n p k t)
    (s1 : s.xs = (tab [n, p] (fn2 X)).data) (s2 : s.y_s = (tab [n, k] (fn2 T)).data)
    (s3 : s.g_ls = (tab [n] (fn1 fun _ => c)).data) (s4 : s.w = (tab [p, k] (fn2 W)).data) (s5 : s.b = (tab [k] (fn1 B)).data)
    (t1 : t.xs = (tab [n, p] (fn2 fun i => X (σ i))).data) (t2 : t.y_s = (tab [n, k] (fn2 fun i => T (σ i))).data)
    (t3 : t.g_ls = (tab [n] (fn1 fun _ => c)).data) (t4 : t.w = (tab [p, k] (fn2 W)).data) (t5 : t.b = (tab [k] (fn1 B)).data) :
    ∃ s' t', Slp.step Real.exp Real.log eps (fun x n => x / (n : ℝ)) junk n p k s = .ok s' ∧
      Slp.step Real.exp Real.log eps (fun x n => x / (n : ℝ)) junk' n p k t = .ok t' ∧ t'.w = s'.w ∧ t'.b = s'.b ∧ t'.l = s'.l := by
  obtain ⟨s', e1, -, -, e2, e3, e4⟩ := C97_step eps junk c X T W B hT hs s1 s2 s3 s4 s5
  obtain ⟨t', f1, -, -, f2, f3, f4⟩ := C97_step eps junk' c (fun i => X (σ i)) (fun i => T (σ i)) W B
    (fun i hi => hT _ ((hσ i).2 hi)) ht t1 t2 t3 t4 t5
  refine ⟨s', t', e1, f1, ?_, ?_, ?_⟩
  · rw [f3, e3]
    refine congrArg Tensor.data (tab_congr fun idx hv => ?_)
    match idx, hv with
    | [q, j], _ =>
      simp only [fn2_apply]
      exact congrArg (W q j - ·) (sum_reorder σ hσ fun i => X i q * (c * (prob eps p k X W B i j - T i j)))
  · rw [f4, e4]
    refine congrArg Tensor.data (tab_congr fun idx hv => ?_)
    match idx, hv with
    | [j], _ =>
      simp only [fn1_apply]
      exact congrArg (B j - ·) (sum_reorder σ hσ fun i => c * (prob eps p k X W B i j - T i j))
  · rw [f2, e2]
    exact congrArg (fun x => [x / (n : ℝ)]) (sum_reorder σ hσ fun i => -∑ j ∈ range k, T i j * Real.log (prob eps p k X W B i j))

/-- C143 (training, parts): the change of the parameters by a training step on a batch is the sum of the changes by steps from the
same parameters on its two parts. -/
theorem C143_step_parts (eps : ℝ) (junk junk1 junk2 : Nat → ℝ) {a b p k : Nat} (c : ℝ) (X T W : Nat → Nat → ℝ) (B : Nat → ℝ)
    (hT : ∀ i < a + b, ∑ j ∈ range k, T i j = 1) {s t r : Slp.State ℝ} (hs : Slp.Sized (a + b) p k s) (ht : Slp.Sized a p k t)
    (hr : Slp.Sized b p k r) (s1 : s.xs = (tab [a + b, p] (fn2 X)).data) (s2 : s.y_s = (tab [a + b, k] (fn2 T)).data)
    (s3 : s.g_ls = (tab [a + b] (fn1 fun _ => c)).data) (s4 : s.w = (tab [p, k] (fn2 W)).data) (s5 : s.b = (tab [k] (fn1 B)).data)
    (t1 : t.xs = (tab [a, p] (fn2 X)).data) (t2 : t.y_s = (tab [a, k] (fn2 T)).data)
    (t3 : t.g_ls = (tab [a] (fn1 fun _ => c)).data) (t4 : t.w = (tab [p, k] (fn2 W)).data) (t5 : t.b = (tab [k] (fn1 B)).data)
    (r1 : r.xs = (tab [b, p] (fn2 fun i => X (a + i))).data) (r2 : r.y_s = (tab [b, k] (fn2 fun i => T (a + i))).data)
    (r3 : r.g_ls = (tab [b] (fn1 fun _ => c)).data) (r4 : r.w = (tab [p, k] (fn2 W)).data) (r5 : r.b = (tab [k] (fn1 B)).data) :
    ∃ s' t' r', Slp.step Real.exp Real.log eps (fun x n => x / (n : ℝ)) junk (a + b) p k s = .ok s' ∧
      Slp.step Real.exp Real.log eps (fun x n => x / (n : ℝ)) junk1 a p k t = .ok t' ∧
      Slp.step Real.exp Real.log eps (fun x n => x / (n : ℝ)) junk2 b p k r = .ok r' ∧
      List.zipWith (· - ·) s'.w s.w = List.zipWith (· + ·) (List.zipWith (· - ·) t'.w t.w) (List.zipWith (· - ·) r'.w r.w) ∧
      List.zipWith (· - ·) s'.b s.b = List.zipWith (· + ·) (List.zipWith (· - ·) t'.b t.b) (List.zipWith (· - ·) r'.b r.b) := by
  obtain ⟨s', e1, -, -, -, e3, e4⟩ := C97_step eps junk c X T W B hT hs s1 s2 s3 s4 s5
  obtain ⟨t', f1, -, -, -, f3, f4⟩ := C97_step eps junk1 c X T W B (fun i hi => hT _ (by omega)) ht t1 t2 t3 t4 t5
  obtain ⟨r', g1, -, -, -, g3, g4⟩ := C97_step eps junk2 c (fun i => X (a + i)) (fun i => T (a + i)) W B (fun i hi => hT _ (by omega))
    hr r1 r2 r3 r4 r5
  refine ⟨s', t', r', e1, f1, g1, ?_, ?_⟩
  · rw [e3, f3, g3, s4, t4, r4, zipWith_tab, zipWith_tab, zipWith_tab, zipWith_tab]
    refine congrArg Tensor.data (tab_congr fun idx hv => ?_)
    match idx, hv with
    | [q, j], _ =>
      simp only [fn2_apply]
      rw [sum_split]
      simp only [show ∀ i, prob eps p k X W B (a + i) j = prob eps p k (fun i => X (a + i)) W B i j from fun _ => rfl]
      ring
  · rw [e4, f4, g4, s5, t5, r5, zipWith_tab, zipWith_tab, zipWith_tab, zipWith_tab]
    refine congrArg Tensor.data (tab_congr fun idx hv => ?_)
    match idx, hv with
    | [j], _ =>
      simp only [fn1_apply]
      rw [sum_split]
      simp only [show ∀ i, prob eps p k X W B (a + i) j = prob eps p k (fun i => X (a + i)) W B i j from fun _ => rfl]
      ring

/-! ## Concrete cases -/

/-- The tensors of the training program before a step: scratch tensors hold sevens. -/
def trainState (n p k : Nat) (c : ℝ) (X T W : Nat → Nat → ℝ) (B : Nat → ℝ) : Slp.State ℝ :=
  ⟨(tab [n, p] (fn2 X)).data, List.replicate (n * k) 7, List.replicate (n * k) 7, (tab [n, k] (fn2 T)).data, List.replicate n 7, [7],
    (tab [n] (fn1 fun _ => c)).data, List.replicate (n * k) 7, List.replicate (n * k) 7, List.replicate (p * k) 7, List.replicate k 7,
    (tab [p, k] (fn2 W)).data, (tab [k] (fn1 B)).data⟩

theorem trainState_sized (n p k : Nat) (c : ℝ) (X T W : Nat → Nat → ℝ) (B : Nat → ℝ) : Slp.Sized n p k (trainState n p k c X T W B) := by
  constructor <;> simp [trainState]

/-- Exchanging the first two examples of three. -/
theorem swap_lt : ∀ i, Equiv.swap 0 1 i < 3 ↔ i < 3 := fun i => by
  by_cases h0 : i = 0
  · subst h0; decide
  · by_cases h1 : i = 1
    · subst h1; decide
    · rw [Equiv.swap_apply_of_ne_of_ne h0 h1]

example := C143_matmul (R := Int) (a := 1) (b := 2) (l := 2) (n := 1) (fun i j => (i : Int) - j) (fun i j => (i : Int) * j + 1)
  (g := [5, 5]) (g' := [6, 6]) (g'' := [7, 7]) rfl rfl rfl
example := C143_bias_hw (R := Int) (a := 1) (b := 2) (w := 2) (fun i j => (i : Int) - j) (g := [5, 5]) (g' := [6, 6]) (g'' := [7, 7])
  rfl rfl rfl
example := C143_bias_nhwc (R := Int) (a := 1) (b := 2) (h := 2) (w := 2) (c := 2) (fun b i j k => (b : Int) - i + j * k) (g := [5, 5])
  (g' := [6, 6]) (g'' := [7, 7]) rfl rfl rfl
example := C143_conv (R := Int) exH_ok exW_ok (a := 1) (b := 2) (c := 1) (d := 2) (fun b i j k => (b : Int) - i + j * k)
  (fun b i j k => (b : Int) - i + j * k) (fun _ => 1) (fun _ => 2) (fun _ => 3) (g := List.replicate _ 5) (g' := List.replicate _ 6)
  (g'' := List.replicate _ 7) List.length_replicate List.length_replicate List.length_replicate
example := C143_order (R := Int) (n := 3) (Equiv.swap 0 1) swap_lt
example := C143_step_order (1 / 10) (fun _ => 0) (fun _ => 1) (n := 3) (p := 2) (k := 2) (1 / 2) (fun i q => (i : ℝ) - q)
  (fun i j => if i % 2 = j then 1 else 0) (fun q j => (q : ℝ) * j) (fun j => (j : ℝ)) (fun i _ => by
    rcases Nat.mod_two_eq_zero_or_one i with h | h <;> simp [h]) (Equiv.swap 0 1) swap_lt
  (s := trainState 3 2 2 (1 / 2) _ _ _ _) (t := trainState 3 2 2 (1 / 2) _ _ _ _) (trainState_sized ..) (trainState_sized ..)
  rfl rfl rfl rfl rfl rfl rfl rfl rfl rfl
example := C143_step_parts (1 / 10) (fun _ => 0) (fun _ => 1) (fun _ => 2) (a := 1) (b := 2) (p := 2) (k := 2) (1 / 2)
  (fun i q => (i : ℝ) - q) (fun i j => if i % 2 = j then 1 else 0) (fun q j => (q : ℝ) * j) (fun j => (j : ℝ)) (fun i _ => by
    rcases Nat.mod_two_eq_zero_or_one i with h | h <;> simp [h])
  (s := trainState 3 2 2 (1 / 2) _ _ _ _) (t := trainState 1 2 2 (1 / 2) _ _ _ _) (r := trainState 2 2 2 (1 / 2) _ _ _ _)
  (trainState_sized ..) (trainState_sized ..) (trainState_sized ..) rfl rfl rfl rfl rfl rfl rfl rfl rfl rfl rfl rfl rfl rfl rfl

end StdNN
