import Verif.Lemmas.Backprop
import Verif.Props.Conv
import Verif.Props.Shapes
/-!
# C124: backpropagation through any chain of operators

The library has no tape: a training program calls the operators in order and the gradient operators in the reverse order
(examples/example_train_mnist_slp.cpp:122-141). `Net` is such a program, for any number and any choice of the operators.
-/
namespace StdNN
open Spec Outcome IntTy Finset

/-- One operator call and the call of its gradient operator. `fwd x b` runs the operator on the tensor `x`, writing to a
tensor that held `b`; `bwd x y gy b` runs the gradient operator given input `x`, output `y` and the gradient `gy` with
respect to the output, writing to a tensor that held `b`. `n` and `m` are the sizes of input and output. -/
structure Stage (n m : Nat) where
  fwd : List ℝ → List ℝ → Outcome (List ℝ)
  bwd : List ℝ → List ℝ → List ℝ → List ℝ → Outcome (List ℝ)

/-- At `x`, for every previous contents of the tensors written: the operator computes a function `f` and the gradient
operator the transposed derivative of `f` at `x`. -/
def Stage.Good {n m : Nat} (s : Stage n m) (x : Fin n → ℝ) : Prop :=
  ∃ (f : (Fin n → ℝ) → Fin m → ℝ) (back : (Fin m → ℝ) → Fin n → ℝ),
    (∀ x' b, b.length = m → s.fwd (List.ofFn x') b = .ok (List.ofFn (f x'))) ∧
    (∀ gy b, b.length = n → s.bwd (List.ofFn x) (List.ofFn (f x)) (List.ofFn gy) b = .ok (List.ofFn (back gy))) ∧
    Reverses f back x

/-- A chain of operator calls, each on the output of the one before. -/
inductive Net : Nat → Nat → Type
  | nil (n : Nat) : Net n n
  | cons {n m k : Nat} (s : Stage n m) (t : Net m k) : Net n k

namespace Net

/-- The forward pass; the tensor written by call `i` held `junk i` before. -/
def forward (junk : Nat → Nat → ℝ) : {n k : Nat} → Nat → Net n k → List ℝ → Outcome (List ℝ)
  | _, _, _, nil _, x => .ok x
  | _, _, i, cons (m := m) s t, x => do
    let y ← s.fwd x ((List.range m).map (junk i))
    forward junk (i + 1) t y

/-- The forward pass followed by the backward pass: the calls of the operators in order, then those of the gradient
operators in the reverse order. The tensor written by the gradient operator of call `i` held `junk' i` before. -/
def gradient (junk junk' : Nat → Nat → ℝ) : {n k : Nat} → Nat → Net n k → List ℝ → List ℝ → Outcome (List ℝ)
  | _, _, _, nil _, _, gy => .ok gy
  | n, _, i, cons (m := m) s t, x, gy => do
    let y ← s.fwd x ((List.range m).map (junk i))
    let gz ← gradient junk junk' (i + 1) t y gy
    s.bwd x y gz ((List.range n).map (junk' i))

/-- Every stage is good at the value that reaches it. -/
def Good : {n k : Nat} → Net n k → (Fin n → ℝ) → Prop
  | _, _, nil _, _ => True
  | _, _, cons (m := m) s t, x =>
    s.Good x ∧ ∀ y : Fin m → ℝ, (∀ b, b.length = m → s.fwd (List.ofFn x) b = .ok (List.ofFn y)) → Good t y

end Net

/-- C124: if every gradient operator of a chain transposes the derivative of its operator at the value that reaches it, then
the chain computes a function `f` and the backward pass the transposed derivative of `f`: for every weighting `gy` of the
outputs it returns the gradient of the weighted sum of the outputs with respect to the input of the chain. Nothing depends
on what the tensors written held before. -/
theorem C124_backprop {n k : Nat} (t : Net n k) (x : Fin n → ℝ) (h : t.Good x) :
    ∃ (f : (Fin n → ℝ) → Fin k → ℝ) (back : (Fin k → ℝ) → Fin n → ℝ),
      (∀ junk i x', t.forward junk i (List.ofFn x') = .ok (List.ofFn (f x'))) ∧
      (∀ junk junk' i gy, t.gradient junk junk' i (List.ofFn x) (List.ofFn gy) = .ok (List.ofFn (back gy))) ∧
      Reverses f back x := by
  induction t with
  | nil n =>
    refine ⟨fun x => x, fun g => g, fun _ _ _ => rfl, fun _ _ _ _ => rfl, fun gy => ?_⟩
    exact isGradient_affine fun d => by rw [← Finset.sum_add_distrib]; simp [mul_add]
  | cons s t ih =>
    obtain ⟨⟨f, back, hf, hb, hr⟩, ht⟩ := h
    obtain ⟨f', back', hf', hb', hr'⟩ := ih (f x) (ht (f x) (hf x))
    refine ⟨fun x => f' (f x), fun gy => back (back' gy), fun junk i x' => ?_, fun junk junk' i gy => ?_, hr.comp hr'⟩
    · unfold Net.forward
      rw [hf x' _ (by simp), Outcome.ok_bind]
      exact hf' junk (i + 1) (f x')
    · unfold Net.gradient
      rw [hf x _ (by simp), Outcome.ok_bind, hb' junk junk' (i + 1) gy, Outcome.ok_bind]
      exact hb _ _ (by simp)

/-- C124, for a loss: with `gy` the gradient of a loss at the output of the chain, the backward pass returns the gradient
of the loss of the chain with respect to its input. -/
theorem C124_loss {n k : Nat} (t : Net n k) (x : Fin n → ℝ) (h : t.Good x) :
    ∃ f : (Fin n → ℝ) → Fin k → ℝ,
      (∀ junk i x', t.forward junk i (List.ofFn x') = .ok (List.ofFn (f x'))) ∧
      ∀ (L : (Fin k → ℝ) → ℝ) (gy : Fin k → ℝ), IsGradient L gy (f x) →
        ∃ g, (∀ junk junk' i, t.gradient junk junk' i (List.ofFn x) (List.ofFn gy) = .ok (List.ofFn g)) ∧
          IsGradient (fun x => L (f x)) g x := by
  obtain ⟨f, back, hf, hb, hr⟩ := C124_backprop t x h
  exact ⟨f, hf, fun L gy hL => ⟨back gy, fun junk junk' i => hb junk junk' i gy, hr.isGradient hL⟩⟩

/-! ## The stages -/

/-- A stage whose operator is affine and whose gradient operator is its adjoint. -/
theorem good_of_adjoint {ds es : List Nat} (s : Stage ds.prod es.prod) (x : Fin ds.prod → ℝ)
    (F D : (Fin ds.prod → ℝ) → List Nat → ℝ) (B : (Fin es.prod → ℝ) → List Nat → ℝ)
    (hF : ∀ x' b, b.length = es.prod → s.fwd (List.ofFn x') b = .ok (tab es (F x')).data)
    (hB : ∀ y gy b, b.length = ds.prod → s.bwd (List.ofFn x) y (List.ofFn gy) b = .ok (tab ds (B gy)).data)
    (hD : ∀ d idx, Valid es idx → F (x + d) idx = F x idx + D d idx)
    (adj : ∀ gy d, dot (List.ofFn gy) (tab es (D d)).data = dot (tab ds (B gy)).data (List.ofFn d)) : s.Good x := by
  refine ⟨fun x => vec es (F x), fun gy => vec ds (B gy), fun x' b hb => by rw [hF x' b hb, ofFn_vec],
    fun gy b hb => by rw [hB _ gy b hb, ofFn_vec], fun gy => isGradient_affine fun d => ?_⟩
  simp only [sum_eq_dot, ofFn_vec]
  rw [← adj, ofFn_ent es gy, ← dot_tab_add, tab_congr (hD d)]

namespace Stage

/-- `matmul` as a function of its left operand, with `grad::matmul<0>`. -/
def matmulLeft (m l n : Nat) (Y : Nat → Nat → ℝ) : Stage [m, l].prod [m, n].prod where
  fwd x b := Plain.mm ⟨[m, l], x⟩ (tab [l, n] (fn2 Y)) [m, n] b
  bwd _ _ gy b := Grad.matmul0 [m, l] ⟨[m, n], gy⟩ (tab [l, n] (fn2 Y)) b

/-- `matmul` as a function of its right operand, with `grad::matmul<1>`. -/
def matmulRight (m l n : Nat) (X : Nat → Nat → ℝ) : Stage [l, n].prod [m, n].prod where
  fwd y b := Plain.mm (tab [m, l] (fn2 X)) ⟨[l, n], y⟩ [m, n] b
  bwd _ _ gz b := Grad.matmul1 [l, n] ⟨[m, n], gz⟩ (tab [m, l] (fn2 X)) b

/-- `add_bias<hw>` as a function of the matrix, with `grad::add_bias<hw, 0>`. -/
def biasHw (h w : Nat) (B : Nat → ℝ) : Stage [h, w].prod [h, w].prod where
  fwd x b := Ops.applyBias (· + ·) .hw [h, w] [h, w] (.ext x) (tab [w] (fn1 B)).data 0 b
  bwd _ _ gy b := Grad.biasX ⟨[h, w], gy⟩ b

/-- `add_bias<nhwc>` as a function of the images, with `grad::add_bias<nhwc, 0>`. -/
def biasNhwc (n h w c : Nat) (B : Nat → ℝ) : Stage [n, h, w, c].prod [n, h, w, c].prod where
  fwd x b := Ops.applyBias (· + ·) .nhwc [n, h, w, c] [n, h, w, c] (.ext x) (tab [c] (fn1 B)).data 0 b
  bwd _ _ gy b := Grad.biasX ⟨[n, h, w, c], gy⟩ b

/-- `add_bias<nchw>` as a function of the images, with `grad::add_bias<nchw, 0>`. -/
def biasNchw (n c h w : Nat) (B : Nat → ℝ) : Stage [n, c, h, w].prod [n, c, h, w].prod where
  fwd x b := Ops.applyBias (· + ·) .nchw [n, c, h, w] [n, c, h, w] (.ext x) (tab [c] (fn1 B)).data 0 b
  bwd _ _ gy b := Grad.biasX ⟨[n, c, h, w], gy⟩ b

/-- `add_bias<hw>` as a function of the bias, with `grad::add_bias<hw, 1>`. -/
def biasHwParam (h w : Nat) (X : Nat → Nat → ℝ) : Stage [w].prod [h, w].prod where
  fwd y b := Ops.applyBias (· + ·) .hw [h, w] [h, w] (.ext (tab [h, w] (fn2 X)).data) y 0 b
  bwd _ _ gz b := Grad.biasHw ⟨[h, w], gz⟩ b

/-- `add_bias<nhwc>` as a function of the bias, with `grad::add_bias<nhwc, 1>`. -/
def biasNhwcParam (n h w c : Nat) (X : Nat → Nat → Nat → Nat → ℝ) : Stage [c].prod [n, h, w, c].prod where
  fwd y b := Ops.applyBias (· + ·) .nhwc [n, h, w, c] [n, h, w, c] (.ext (tab [n, h, w, c] (fn4 X)).data) y 0 b
  bwd _ _ gz b := Grad.biasNhwc ⟨[n, h, w, c], gz⟩ b

/-- `conv<nhwc>` as a function of the images, with `grad::conv<nhwc, 0>`. -/
def convImage (H W : Axis) (n c d : Nat) (Y : Nat → Nat → Nat → Nat → ℝ) (junkI : Nat → Int) (junk junk' : Nat → ℝ) :
    Stage [n, H.n, W.n, c].prod [n, H.m, W.m, d].prod where
  fwd x b := Kernels.convNhwc (convTrait H W) junkI junk [n, H.m, W.m, d] ⟨[n, H.n, W.n, c], x⟩
    (tab [H.k, W.k, c, d] (fn4 Y)) b
  bwd _ _ gz b := Kernels.convGradX (convTrait H W) junk' [n, H.n, W.n, c] ⟨[n, H.m, W.m, d], gz⟩
    (tab [H.k, W.k, c, d] (fn4 Y)) b

/-- `conv<nhwc>` as a function of the filter, with `grad::conv<nhwc, 1>`. -/
def convFilter (H W : Axis) (n c d : Nat) (X : Nat → Nat → Nat → Nat → ℝ) (junkI : Nat → Int) (junk junk' : Nat → ℝ) :
    Stage [H.k, W.k, c, d].prod [n, H.m, W.m, d].prod where
  fwd y b := Kernels.convNhwc (convTrait H W) junkI junk [n, H.m, W.m, d] (tab [n, H.n, W.n, c] (fn4 X))
    ⟨[H.k, W.k, c, d], y⟩ b
  bwd _ _ gz b := Kernels.convGradY (convTrait H W) junk' [H.k, W.k, c, d] ⟨[n, H.m, W.m, d], gz⟩
    (tab [n, H.n, W.n, c] (fn4 X)) b

/-- `add` with a fixed second operand, with `grad::add<0>` (`grad::add<1>` is the same). -/
def addConst (ds : List Nat) (Y : List Nat → ℝ) : Stage ds.prod ds.prod where
  fwd x b := Ops.add ds.prod (.ext x) (.ext (tab ds Y).data) 0 b
  bwd _ _ gz b := Grad.add ⟨ds, gz⟩ b

/-- `mul` with a fixed second operand, with `grad::mul<0>`. -/
def mulConst (ds : List Nat) (Y : List Nat → ℝ) : Stage ds.prod ds.prod where
  fwd x b := Ops.mul ds.prod (.ext x) (.ext (tab ds Y).data) 0 b
  bwd _ _ gz b := Grad.mul ⟨ds, gz⟩ (tab ds Y) b

/-- `copy_flatten` from shape `ds` to shape `es`, with `grad::copy_flatten`. -/
def flatten (ds es : List Nat) : Stage ds.prod es.prod where
  fwd x b := Ops.copyFlatten ⟨ds, x⟩ b
  bwd _ _ gy b := Grad.copyFlatten ⟨es, gy⟩ b

/-- `relu`, with `grad::relu<0>`. -/
noncomputable def relu (n : Nat) : Stage n n where
  fwd x b := Ops.relu n (.ext x) 0 b
  bwd x _ gy b := Grad.relu n (.ext gy) (.ext x) 0 b

/-- `softmax` of a matrix, with `grad::softmax<0>`. -/
noncomputable def softmax (eps : ℝ) (junk : Nat → ℝ) (rows n : Nat) : Stage [rows, n].prod [rows, n].prod where
  fwd x b := Ops.softmax Real.exp eps [rows, n] [rows, n] (.ext x) 0 b
  bwd _ y gy b := Grad.softmax junk [rows, n] rows n ⟨[rows, n], gy⟩ ⟨[rows, n], y⟩ b

/-- `xentropy` of fixed targets and a matrix of predictions, with `grad::xentropy<1>`. -/
noncomputable def xentropy (rows n : Nat) (T : Nat → Nat → ℝ) : Stage [rows, n].prod [rows].prod where
  fwd y b := Ops.xentropy Real.log [rows] (tab [rows, n] (fn2 T)) ⟨[rows, n], y⟩ b
  bwd y _ gz b := Grad.xentropy [rows, n] ⟨[rows], gz⟩ (tab [rows, n] (fn2 T)) ⟨[rows, n], y⟩ b

end Stage

theorem C124_matmul_left (m l n : Nat) (Y : Nat → Nat → ℝ) (x) : (Stage.matmulLeft m l n Y).Good x := by
  have fw : ∀ (X : Nat → Nat → ℝ) (b : List ℝ), b.length = [m, n].prod →
      Plain.mm (tab [m, l] (fn2 X)) (tab [l, n] (fn2 Y)) [m, n] b =
        .ok (tab [m, n] (fn2 fun i j => ∑ q ∈ range l, X i q * Y q j)).data := by
    intro X b hb
    refine (Plain.mm_run (fn2 X) (fn2 Y) (by simpa using hb)).trans ?_
    refine congrArg (fun t => Outcome.ok (Tensor.data t)) (tab_congr fun idx hv => ?_)
    match idx, hv with
    | [i, j], _ => exact seqSum_eq_sum _ _
  have bw : ∀ (G : Nat → Nat → ℝ) (b : List ℝ), b.length = [m, l].prod →
      Grad.matmul0 [m, l] (tab [m, n] (fn2 G)) (tab [l, n] (fn2 Y)) b =
        .ok (tab [m, l] (fn2 fun i q => ∑ j ∈ range n, G i j * Y q j)).data := by
    intro G b hb
    refine (Plain.mmt_run (fn2 G) (fn2 Y) (by simpa using hb)).trans ?_
    refine congrArg (fun t => Outcome.ok (Tensor.data t)) (tab_congr fun idx hv => ?_)
    match idx, hv with
    | [i, j], _ => exact seqSum_eq_sum _ _
  refine good_of_adjoint _ x (fun x => fn2 fun i j => ∑ q ∈ range l, ent [m, l] x [i, q] * Y q j)
    (fun x => fn2 fun i j => ∑ q ∈ range l, ent [m, l] x [i, q] * Y q j)
    (fun gy => fn2 fun i q => ∑ j ∈ range n, ent [m, n] gy [i, j] * Y q j) (fun x' b hb => ?_) (fun y gy b hb => ?_)
    (fun d idx hv => ?_) fun gy d => ?_
  · simp only [Stage.matmulLeft]
    rw [tensor_ent, ent2, fw _ b hb]
  · simp only [Stage.matmulLeft]
    rw [tensor_ent, ent2, bw _ b hb]
  · match idx, hv with
    | [i, j], _ =>
      simp only [fn2_apply, ent_add, add_mul, Finset.sum_add_distrib]
  · obtain ⟨gx', e1, -, h⟩ := C42_left (m := m) (l := l) (n := n) (fun i j => ent [m, n] gy [i, j]) Y
      (gx := List.replicate (m * l) 0) (z := List.replicate (m * n) 0) (by simp) (by simp)
    obtain ⟨dz, e2, e3⟩ := h fun i q => ent [m, l] d [i, q]
    rw [bw _ _ (by simp)] at e1
    rw [fw _ _ (by simp)] at e2
    rw [Outcome.ok.injEq] at e1 e2
    rw [ofFn_ent [m, n] gy, ent2, ofFn_ent [m, l] d, ent2, e1, e2, e3]

theorem C124_matmul_right (m l n : Nat) (X : Nat → Nat → ℝ) (y) : (Stage.matmulRight m l n X).Good y := by
  have fw : ∀ (Y : Nat → Nat → ℝ) (b : List ℝ), b.length = [m, n].prod →
      Plain.mm (tab [m, l] (fn2 X)) (tab [l, n] (fn2 Y)) [m, n] b =
        .ok (tab [m, n] (fn2 fun i j => ∑ q ∈ range l, X i q * Y q j)).data := by
    intro Y b hb
    refine (Plain.mm_run (fn2 X) (fn2 Y) (by simpa using hb)).trans ?_
    refine congrArg (fun t => Outcome.ok (Tensor.data t)) (tab_congr fun idx hv => ?_)
    match idx, hv with
    | [i, j], _ => exact seqSum_eq_sum _ _
  have bw : ∀ (G : Nat → Nat → ℝ) (b : List ℝ), b.length = [l, n].prod →
      Grad.matmul1 [l, n] (tab [m, n] (fn2 G)) (tab [m, l] (fn2 X)) b =
        .ok (tab [l, n] (fn2 fun q j => ∑ i ∈ range m, X i q * G i j)).data := by
    intro G b hb
    refine (Plain.mtm_run (fn2 X) (fn2 G) (by simpa using hb)).trans ?_
    refine congrArg (fun t => Outcome.ok (Tensor.data t)) (tab_congr fun idx hv => ?_)
    match idx, hv with
    | [i, j], _ => exact seqSum_eq_sum _ _
  refine good_of_adjoint _ y (fun y => fn2 fun i j => ∑ q ∈ range l, X i q * ent [l, n] y [q, j])
    (fun y => fn2 fun i j => ∑ q ∈ range l, X i q * ent [l, n] y [q, j])
    (fun gz => fn2 fun q j => ∑ i ∈ range m, X i q * ent [m, n] gz [i, j]) (fun x' b hb => ?_) (fun y gy b hb => ?_)
    (fun d idx hv => ?_) fun gy d => ?_
  · simp only [Stage.matmulRight]
    rw [tensor_ent, ent2, fw _ b hb]
  · simp only [Stage.matmulRight]
    rw [tensor_ent, ent2, bw _ b hb]
  · match idx, hv with
    | [i, j], _ =>
      simp only [fn2_apply, ent_add, mul_add, Finset.sum_add_distrib]
  · obtain ⟨gx', e1, -, h⟩ := C42_right (m := m) (l := l) (n := n) (fun i j => ent [m, n] gy [i, j]) X
      (gy := List.replicate (l * n) 0) (z := List.replicate (m * n) 0) (by simp) (by simp)
    obtain ⟨dz, e2, e3⟩ := h fun i q => ent [l, n] d [i, q]
    rw [bw _ _ (by simp)] at e1
    rw [fw _ _ (by simp)] at e2
    rw [Outcome.ok.injEq] at e1 e2
    rw [ofFn_ent [m, n] gy, ent2, ofFn_ent [l, n] d, ent2, e1, e2, e3]

/-- Copying the gradient is the adjoint of adding a constant. -/
theorem copy_grad {ds : List Nat} (gy : Fin ds.prod → ℝ) {b : List ℝ} (hb : b.length = ds.prod) :
    Grad.biasX ⟨ds, List.ofFn gy⟩ b = .ok (tab ds (ent ds gy)).data := by
  rw [← ofFn_ent]
  exact Kernels.copy_ext (by simp [hb])

theorem C124_bias_hw (h w : Nat) (B : Nat → ℝ) (x) : (Stage.biasHw h w B).Good x := by
  refine good_of_adjoint _ x (fun x => fn2 fun i j => ent [h, w] x [i, j] + B j) (fun x => ent [h, w] x)
    (fun gy => ent [h, w] gy) (fun x' b hb => ?_) (fun y gy b hb => copy_grad gy hb) (fun d idx hv => ?_) fun gy d => ?_
  · simp only [Stage.biasHw]
    rw [ofFn_ent, ent2, C22_bias_hw _ (m := b) (z := 0) _ B (ext_holds _ _ _) (by rw [hb, Nat.zero_add]),
      store_all (by simp [hb])]
  · match idx, hv with
    | [i, j], _ => simp only [fn2_apply, ent_add]; ring
  · rw [← ofFn_ent, ← ofFn_ent]

theorem C124_bias_nhwc (n h w c : Nat) (B : Nat → ℝ) (x) : (Stage.biasNhwc n h w c B).Good x := by
  refine good_of_adjoint _ x (fun x => fn4 fun l i j k => ent [n, h, w, c] x [l, i, j, k] + B k)
    (fun x => ent [n, h, w, c] x) (fun gy => ent [n, h, w, c] gy) (fun x' b hb => ?_)
    (fun y gy b hb => copy_grad gy hb) (fun d idx hv => ?_) fun gy d => ?_
  · simp only [Stage.biasNhwc]
    rw [ofFn_ent, ent4, C22_bias_nhwc _ (m := b) (z := 0) _ B (ext_holds _ _ _) (by rw [hb, Nat.zero_add]),
      store_all (by simp [hb])]
  · match idx, hv with
    | [l, i, j, k], _ => simp only [fn4_apply, ent_add]; ring
  · rw [← ofFn_ent, ← ofFn_ent]

theorem C124_bias_nchw (n c h w : Nat) (B : Nat → ℝ) (x) : (Stage.biasNchw n c h w B).Good x := by
  refine good_of_adjoint _ x (fun x => fn4 fun l k i j => ent [n, c, h, w] x [l, k, i, j] + B k)
    (fun x => ent [n, c, h, w] x) (fun gy => ent [n, c, h, w] gy) (fun x' b hb => ?_)
    (fun y gy b hb => copy_grad gy hb) (fun d idx hv => ?_) fun gy d => ?_
  · simp only [Stage.biasNchw]
    rw [ofFn_ent, ent4, C22_bias_nchw _ (m := b) (z := 0) _ B (ext_holds _ _ _) (by rw [hb, Nat.zero_add]),
      store_all (by simp [hb])]
  · match idx, hv with
    | [l, i, j, k], _ => simp only [fn4_apply, ent_add]; ring
  · rw [← ofFn_ent, ← ofFn_ent]

theorem C124_bias_hw_param (h w : Nat) (X : Nat → Nat → ℝ) (y) : (Stage.biasHwParam h w X).Good y := by
  refine good_of_adjoint _ y (fun y => fn2 fun i j => X i j + ent [w] y [j]) (fun y => fn2 fun _ j => ent [w] y [j])
    (fun gz => fn1 fun j => ∑ i ∈ range h, ent [h, w] gz [i, j]) (fun y' b hb => ?_) (fun y gz b hb => ?_)
    (fun d idx hv => ?_) fun gz d => ?_
  · simp only [Stage.biasHwParam]
    rw [ofFn_ent, ent1, C22_bias_hw _ (m := b) (z := 0) _ _ (ext_holds _ _ _) (by rw [hb, Nat.zero_add]),
      store_all (by simp [hb])]
  · simp only [Stage.biasHwParam]
    obtain ⟨gx', gy', -, e1, e2, -⟩ := C44_hw (h := h) (w := w) (fun i j => ent [h, w] gz [i, j])
      (gx := List.replicate [h, w].prod 0) (gy := b) (b := List.replicate [h, w].prod 0)
      (b1 := List.replicate [h, w].prod 0) (by simp) (by simpa using hb) (by simp) (by simp)
    rw [tensor_ent, ent2, e1, e2]
  · match idx, hv with
    | [i, j], _ => simp only [fn2_apply, ent_add]; ring
  · rw [ofFn_ent [h, w] gz, ent2, ofFn_ent [w] d, ent1, dot_tab2, dot_tab1, Finset.sum_comm]
    exact Finset.sum_congr rfl fun j _ => by rw [Finset.sum_mul]

theorem C124_bias_nhwc_param (n h w c : Nat) (X : Nat → Nat → Nat → Nat → ℝ) (y) :
    (Stage.biasNhwcParam n h w c X).Good y := by
  have run : ∀ (gz : Fin [n, h, w, c].prod → ℝ) (b : List ℝ), b.length = [c].prod →
      Grad.biasNhwc (tab [n, h, w, c] (ent [n, h, w, c] gz)) b = .ok (tab [c] (fn1 fun k =>
        ∑ l ∈ range n, ∑ i ∈ range h, ∑ j ∈ range w, ent [n, h, w, c] gz [l, i, j, k])).data := by
    intro gz b hb
    obtain ⟨gx', gy', -, e1, e2, -⟩ := C44_nhwc (n := n) (h := h) (w := w) (c := c)
      (fun l i j k => ent [n, h, w, c] gz [l, i, j, k])
      (gx := List.replicate [n, h, w, c].prod 0) (gy := b) (b := List.replicate [n, h, w, c].prod 0)
      (b1 := List.replicate [n, h, w, c].prod 0) (by simp) (by simpa using hb) (by simp) (by simp)
    rw [ent4, e1, e2]
  refine good_of_adjoint _ y (fun y => fn4 fun l i j k => X l i j k + ent [c] y [k])
    (fun y => fn4 fun _ _ _ k => ent [c] y [k])
    (fun gz => fn1 fun k => ∑ l ∈ range n, ∑ i ∈ range h, ∑ j ∈ range w, ent [n, h, w, c] gz [l, i, j, k])
    (fun y' b hb => ?_) (fun y gz b hb => ?_) (fun d idx hv => ?_) fun gz d => ?_
  · simp only [Stage.biasNhwcParam]
    rw [ofFn_ent, ent1, C22_bias_nhwc _ (m := b) (z := 0) _ _ (ext_holds _ _ _) (by rw [hb, Nat.zero_add]),
      store_all (by simp [hb])]
  · simp only [Stage.biasNhwcParam]
    rw [tensor_ent, run gz b hb]
  · match idx, hv with
    | [l, i, j, k], _ => simp only [fn4_apply, ent_add]; ring
  · rw [ofFn_ent [n, h, w, c] gz, ent4, ofFn_ent [c] d, ent1, dot_tab4, dot_tab1]
    simp only [Finset.sum_mul]
    symm
    rw [Finset.sum_comm]
    refine Finset.sum_congr rfl fun l _ => ?_
    rw [Finset.sum_comm]
    refine Finset.sum_congr rfl fun i _ => ?_
    rw [Finset.sum_comm]

theorem conv2_add_image (H W : Axis) (c : Nat) (X D : Nat → Nat → Nat → ℝ) (Y : Nat → Nat → Nat → Nat → ℝ) (i j e : Nat) :
    conv2 H W c (fun a b k => X a b k + D a b k) Y i j e = conv2 H W c X Y i j e + conv2 H W c D Y i j e := by
  unfold conv2
  simp only [← Finset.sum_add_distrib, ← add_mul]
  refine Finset.sum_congr rfl fun u _ => Finset.sum_congr rfl fun v _ => Finset.sum_congr rfl fun k _ => ?_
  congr 1
  rw [window_eq, window_eq, window_eq]
  split <;> simp

theorem conv2_add_filter (H W : Axis) (c : Nat) (X : Nat → Nat → Nat → ℝ) (Y D : Nat → Nat → Nat → Nat → ℝ)
    (i j e : Nat) :
    conv2 H W c X (fun u v k e => Y u v k e + D u v k e) i j e = conv2 H W c X Y i j e + conv2 H W c X D i j e := by
  unfold conv2
  simp only [← Finset.sum_add_distrib, ← mul_add]

theorem C124_conv_image {H W : Axis} (hH : AxisOK u32 H) (hW : AxisOK u32 W) {n c d : Nat}
    (hsz : [H.n, W.n, c].prod ≤ 2 ^ 31) (Y : Nat → Nat → Nat → Nat → ℝ) (junkI : Nat → Int) (junk junk' : Nat → ℝ) (x) :
    (Stage.convImage H W n c d Y junkI junk junk').Good x := by
  have fw := fun (X : Nat → Nat → Nat → Nat → ℝ) (b : List ℝ) (hb : b.length = [n, H.m, W.m, d].prod) =>
    Kernels.convNhwc_run hH hW hsz X Y junkI junk hb
  have bw := fun (G : Nat → Nat → Nat → Nat → ℝ) (b : List ℝ) (hb : b.length = [n, H.n, W.n, c].prod) =>
    Kernels.convGradX_run hH hW (d := d) G Y junk' hb
  obtain ⟨B, hB⟩ : ∃ B : (Nat → Nat → Nat → Nat → ℝ) → List Nat → ℝ, ∀ G b, b.length = [n, H.n, W.n, c].prod →
      Kernels.convGradX (convTrait H W) junk' [n, H.n, W.n, c] (tab [n, H.m, W.m, d] (fn4 G))
        (tab [H.k, W.k, c, d] (fn4 Y)) b = .ok (tab [n, H.n, W.n, c] (B G)).data := ⟨_, fun G b hb => bw G b hb⟩
  refine good_of_adjoint (ds := [n, H.n, W.n, c]) (es := [n, H.m, W.m, d]) _ x
    (fun x => fn4 fun b i j e => conv2 H W c (fun a a' k => ent [n, H.n, W.n, c] x [b, a, a', k]) Y i j e)
    (fun x => fn4 fun b i j e => conv2 H W c (fun a a' k => ent [n, H.n, W.n, c] x [b, a, a', k]) Y i j e)
    (fun gz => B fun b i j e => ent [n, H.m, W.m, d] gz [b, i, j, e]) (fun x' b hb => ?_) (fun y gy b hb => ?_)
    (fun d' idx hv => ?_) fun gz d' => ?_
  · simp only [Stage.convImage]
    rw [tensor_ent, ent4, fw _ b hb]
  · simp only [Stage.convImage]
    rw [tensor_ent, ent4, hB _ b hb]
  · match idx, hv with
    | [b, i, j, e], _ => simp only [fn4_apply, ent_add, conv2_add_image]
  · obtain ⟨gx', e1, -, h⟩ := C45_conv_grad_image hH hW (n := n) (c := c) (d := d) hsz
      (fun b i j e => ent [n, H.m, W.m, d] gz [b, i, j, e]) Y junkI junk' junk
      (gx := List.replicate [n, H.n, W.n, c].prod 0) (z := List.replicate [n, H.m, W.m, d].prod 0) (by simp) (by simp)
    obtain ⟨dz, e2, e3⟩ := h fun b i j k => ent [n, H.n, W.n, c] d' [b, i, j, k]
    rw [hB _ _ (by simp)] at e1
    rw [fw _ _ (by simp)] at e2
    rw [Outcome.ok.injEq] at e1 e2
    rw [ofFn_ent [n, H.m, W.m, d] gz, ent4, ofFn_ent [n, H.n, W.n, c] d', ent4, e1, e2, e3]

theorem C124_conv_filter {H W : Axis} (hH : AxisOK u32 H) (hW : AxisOK u32 W) {n c d : Nat}
    (hsz : [H.n, W.n, c].prod ≤ 2 ^ 31) (X : Nat → Nat → Nat → Nat → ℝ) (junkI : Nat → Int) (junk junk' : Nat → ℝ) (y) :
    (Stage.convFilter H W n c d X junkI junk junk').Good y := by
  have fw := fun (Y : Nat → Nat → Nat → Nat → ℝ) (b : List ℝ) (hb : b.length = [n, H.m, W.m, d].prod) =>
    Kernels.convNhwc_run hH hW hsz X Y junkI junk hb
  have bw := fun (G : Nat → Nat → Nat → Nat → ℝ) (b : List ℝ) (hb : b.length = [H.k, W.k, c, d].prod) =>
    Kernels.convGradY_run hH hW (n := n) G X junk' hb
  obtain ⟨B, hB⟩ : ∃ B : (Nat → Nat → Nat → Nat → ℝ) → List Nat → ℝ, ∀ G b, b.length = [H.k, W.k, c, d].prod →
      Kernels.convGradY (convTrait H W) junk' [H.k, W.k, c, d] (tab [n, H.m, W.m, d] (fn4 G))
        (tab [n, H.n, W.n, c] (fn4 X)) b = .ok (tab [H.k, W.k, c, d] (B G)).data := ⟨_, fun G b hb => bw G b hb⟩
  refine good_of_adjoint (ds := [H.k, W.k, c, d]) (es := [n, H.m, W.m, d]) _ y
    (fun y => fn4 fun b i j e => conv2 H W c (X b) (fun u v k e => ent [H.k, W.k, c, d] y [u, v, k, e]) i j e)
    (fun y => fn4 fun b i j e => conv2 H W c (X b) (fun u v k e => ent [H.k, W.k, c, d] y [u, v, k, e]) i j e)
    (fun gz => B fun b i j e => ent [n, H.m, W.m, d] gz [b, i, j, e]) (fun x' b hb => ?_) (fun y gy b hb => ?_)
    (fun d' idx hv => ?_) fun gz d' => ?_
  · simp only [Stage.convFilter]
    rw [tensor_ent, ent4, fw _ b hb]
  · simp only [Stage.convFilter]
    rw [tensor_ent, ent4, hB _ b hb]
  · match idx, hv with
    | [b, i, j, e], _ => simp only [fn4_apply, ent_add, conv2_add_filter]
  · obtain ⟨gy', e1, -, h⟩ := C46_conv_grad_filter hH hW (n := n) (c := c) (d := d) hsz
      (fun b i j e => ent [n, H.m, W.m, d] gz [b, i, j, e]) X junkI junk' junk
      (gy := List.replicate [H.k, W.k, c, d].prod 0) (z := List.replicate [n, H.m, W.m, d].prod 0) (by simp) (by simp)
    obtain ⟨dz, e2, e3⟩ := h fun b i j k => ent [H.k, W.k, c, d] d' [b, i, j, k]
    rw [hB _ _ (by simp)] at e1
    rw [fw _ _ (by simp)] at e2
    rw [Outcome.ok.injEq] at e1 e2
    rw [ofFn_ent [n, H.m, W.m, d] gz, ent4, ofFn_ent [H.k, W.k, c, d] d', ent4, e1, e2, e3]

theorem C124_add (ds : List Nat) (Y : List Nat → ℝ) (x) : (Stage.addConst ds Y).Good x := by
  refine good_of_adjoint _ x (fun x idx => ent ds x idx + Y idx) (fun x => ent ds x) (fun gy => ent ds gy)
    (fun x' b hb => ?_) (fun y gy b hb => copy_grad gy hb) (fun d idx hv => ?_) fun gy d => ?_
  · simp only [Stage.addConst]
    have h := C21_add (R := ℝ) (ext_holds (List.ofFn x') b 0) (ext_holds (tab ds Y).data b 0) (by simp) (by simp [hb])
    rw [List.length_ofFn] at h
    rw [h, ofFn_ent, zipWith_tab, store_all (by simp [hb])]
  · rw [ent_add]; ring
  · rw [← ofFn_ent, ← ofFn_ent]

theorem C124_mul (ds : List Nat) (Y : List Nat → ℝ) (x) : (Stage.mulConst ds Y).Good x := by
  have run : ∀ (a : Fin ds.prod → ℝ) (b : List ℝ), b.length = ds.prod →
      Ops.mul ds.prod (.ext (List.ofFn a)) (.ext (tab ds Y).data) 0 b = .ok (tab ds fun idx => ent ds a idx * Y idx).data := by
    intro a b hb
    have h := C21_mul (R := ℝ) (ext_holds (List.ofFn a) b 0) (ext_holds (tab ds Y).data b 0) (by simp) (by simp [hb])
    rw [List.length_ofFn] at h
    rw [h, ofFn_ent, zipWith_tab, store_all (by simp [hb])]
  refine good_of_adjoint _ x (fun x idx => ent ds x idx * Y idx) (fun x idx => ent ds x idx * Y idx)
    (fun gy idx => ent ds gy idx * Y idx) (fun x' b hb => run x' b hb) (fun y gy b hb => ?_) (fun d idx hv => ?_)
    fun gy d => ?_
  · simp only [Stage.mulConst]
    unfold Grad.mul
    simp only [List.length_ofFn]
    exact run gy b hb
  · rw [ent_add]; ring
  · rw [ofFn_ent ds gy, ofFn_ent ds d, dot_tab, dot_tab]
    exact Finset.sum_congr rfl fun p _ => by ring

theorem C124_flatten {ds es : List Nat} (h : ds.prod = es.prod) (x) : (Stage.flatten ds es).Good x := by
  have c1 : ∀ (a : Fin ds.prod → ℝ), List.ofFn a = List.ofFn fun p : Fin es.prod => a (Fin.cast h.symm p) := by
    intro a
    refine List.ext_getElem (by simp [h]) fun i h1 h2 => ?_
    rw [List.getElem_ofFn, List.getElem_ofFn]; rfl
  have c2 : ∀ (a : Fin es.prod → ℝ), List.ofFn a = List.ofFn fun p : Fin ds.prod => a (Fin.cast h p) := by
    intro a
    refine List.ext_getElem (by simp [h]) fun i h1 h2 => ?_
    rw [List.getElem_ofFn, List.getElem_ofFn]; rfl
  refine good_of_adjoint _ x (fun x => ent es fun p => x (Fin.cast h.symm p)) (fun x => ent es fun p => x (Fin.cast h.symm p))
    (fun gy => ent ds fun p => gy (Fin.cast h p)) (fun x' b hb => ?_) (fun y gy b hb => ?_) (fun d idx hv => ?_)
    fun gy d => ?_
  · simp only [Stage.flatten]
    rw [(C15_copy_flatten _ (by simp [hb, h])).1, ← ofFn_ent, ← c1]
  · simp only [Stage.flatten]
    rw [(C15_copy_flatten _ (by simp [hb, h])).2, ← ofFn_ent, ← c2]
  · exact ent_add es _ _ idx
  · rw [← ofFn_ent, ← ofFn_ent, ← c1, ← c2]

theorem C124_relu {n : Nat} (x : Fin n → ℝ) (hx : ∀ i, x i ≠ 0) : (Stage.relu n).Good x := by
  refine ⟨fun x i => if 0 < x i then x i else 0, fun gy i => if x i > 0 then gy i else 0, fun x' b hb => ?_,
    fun gy b hb => ?_, fun gy => ?_⟩
  · simp only [Stage.relu]
    have h := C21_relu (R := ℝ) (ext_holds (List.ofFn x') b 0) (by simp [hb])
    rw [List.length_ofFn] at h
    rw [h, store_all (by simp [hb]), List.map_ofFn]
    rfl
  · simp only [Stage.relu]
    have h := C47_relu_grad (R := ℝ) (ext_holds (List.ofFn gy) b 0) (ext_holds (List.ofFn x) b 0) (by simp) (by simp [hb])
    rw [List.length_ofFn] at h
    rw [h, store_all (by simp [hb]), zipWith_ofFn]
  · refine isGradient_sum (fun i t => gy i * if 0 < t then t else 0) _ x fun i => ?_
    have := (hasDerivAt_relu (hx i)).const_mul (gy i)
    by_cases hp : x i > 0
    · simpa [hp] using this
    · simpa [hp] using this

/-- The vector form of C48, as a statement on what softmax computes. -/
theorem isGradient_softmax {eps : ℝ} {n : Nat} (gy x : Fin n → ℝ) (hc : ∀ i, eps < max eps (smax x i)) :
    IsGradient (fun x => ∑ i, gy i * max eps (smax x i))
      (fun j => max eps (smax x j) * (gy j - ∑ i, gy i * max eps (smax x i))) x := by
  obtain ⟨g, sm, h1, h2, h3⟩ := C48_gradient eps (fun _ => 0) gy x (gx := List.replicate n 0) (by simp)
  have e1 : ∀ x', sm x' = fun i => max eps (smax x' i) := by
    intro x'
    have := (h1 x' (List.replicate n 0) (by simp)).symm.trans (softmax_vector eps x' (by simp))
    rw [Outcome.ok.injEq] at this
    exact List.ofFn_injective this
  have e2 : g = fun j => max eps (smax x j) * (gy j - ∑ i, gy i * max eps (smax x i)) := by
    have h4 : Grad.softmaxRow (fun _ => 0) [n] n ⟨[n], List.ofFn gy⟩ ⟨[n], List.ofFn (sm x)⟩ (List.replicate n 0) =
        .ok (List.ofFn fun j => max eps (smax x j) * (gy j - ∑ i, gy i * max eps (smax x i))) := by
      rw [e1, tensor_ofFn, tensor_ofFn, C48_formula_vector _ _ _ (by simp), tab_eq_ofFn]
      refine congrArg (fun f => Outcome.ok (List.ofFn f)) (funext fun j => ?_)
      rw [Finset.sum_range]
      simp only [extend_apply]
    have := h2.symm.trans h4
    rw [Outcome.ok.injEq] at this
    exact List.ofFn_injective this
  simp only [e1] at h3
  rw [← e2]
  exact h3 hc

theorem C124_softmax {eps : ℝ} (junk : Nat → ℝ) {rows n : Nat} (x : Fin [rows, n].prod → ℝ)
    (hc : ∀ r < rows, ∀ j, eps < smax (row r x) j) : (Stage.softmax eps junk rows n).Good x := by
  refine ⟨fun x => vec [rows, n] (fn2 fun r j => max eps (Spec.softmax n (extend (row r x)) j)),
    fun gy => vec [rows, n] (fn2 fun r j => max eps (Spec.softmax n (extend (row r x)) j) *
      (ent [rows, n] gy [r, j] - ∑ i ∈ range n, ent [rows, n] gy [r, i] * max eps (Spec.softmax n (extend (row r x)) i))),
    fun x' b hb => ?_, fun gy b hb => ?_, fun gy => ?_⟩
  · simp only [Stage.softmax]
    have h := C51_value eps [rows] n (ent [rows, n] x') 0 b (by simpa using hb.symm.le)
    rw [store_all (by simpa using hb.symm)] at h
    rw [ofFn_ent]
    refine h.trans ?_
    rw [ofFn_vec]
    refine congrArg (fun t => Outcome.ok (Tensor.data t)) (tab_congr fun idx hv => ?_)
    match idx, hv with
    | [r, j], ⟨hr, hj, _⟩ =>
      simp only [fn2_apply, List.dropLast, List.getLastD, List.getLast]
      have : ∀ i < n, extend (row r x') i = ent [rows, n] x' [r, i] := fun i hi => by simp [extend, row, hi]
      unfold Spec.softmax
      have e : ∑ i ∈ range n, Real.exp (extend (row r x') i) = ∑ i ∈ range n, Real.exp (ent [rows, n] x' [r, i]) :=
        Finset.sum_congr rfl fun i hi => by rw [this i (mem_range.1 hi)]
      rw [this j hj, e]
      rfl
  · simp only [Stage.softmax]
    rw [ofFn_vec, tensor_ent, ent2]
    exact (C48_formula junk _ _ (by simpa using hb)).trans (by rw [ofFn_vec])
  · have hrow : ∀ (x : Fin [rows, n].prod → ℝ) r (j : Fin n), Spec.softmax n (extend (row r x)) j = smax (row r x) j :=
      fun x r j => smax_eq _ j
    have h := isGradient_rows (fun r y => ∑ i : Fin n, ent [rows, n] gy [r, i] * max eps (smax y i))
      (fun r j => max eps (smax (row r x) j) * (ent [rows, n] gy [r, j] -
        ∑ i : Fin n, ent [rows, n] gy [r, i] * max eps (smax (row r x) i))) x (fun r hr =>
          isGradient_softmax (fun i => ent [rows, n] gy [r, i]) (row r x) fun i => lt_max_of_lt_right (hc r hr i))
    have e1 : (fun x : Fin [rows, n].prod → ℝ => ∑ p, gy p *
        vec [rows, n] (fn2 fun r j => max eps (Spec.softmax n (extend (row r x)) j)) p) =
        fun x => ∑ r ∈ range rows, ∑ i : Fin n, ent [rows, n] gy [r, i] * max eps (smax (row r x) i) := by
      funext x
      rw [sum_eq_dot, ofFn_vec, ofFn_ent [rows, n] gy, ent2, dot_tab2]
      refine Finset.sum_congr rfl fun r _ => ?_
      rw [Finset.sum_range]
      exact Finset.sum_congr rfl fun j _ => by rw [hrow]
    rw [e1]
    refine cast ?_ h
    congr 1
    apply List.ofFn_injective
    rw [ofFn_vec, ofFn_vec]
    refine congrArg Tensor.data (tab_congr fun idx hv => ?_)
    match idx, hv with
    | [r, j], ⟨hr, hj, _⟩ =>
      simp only [fn2_apply]
      have := extend_apply (fun j : Fin n => max eps (smax (row r x) j) * (ent [rows, n] gy [r, j] -
        ∑ i : Fin n, ent [rows, n] gy [r, i] * max eps (smax (row r x) i))) ⟨j, hj⟩
      simp only at this
      rw [this, ← hrow x r ⟨j, hj⟩, Finset.sum_range]
      simp only [hrow]

theorem C124_xentropy {rows n : Nat} (T : Nat → Nat → ℝ) (y : Fin [rows, n].prod → ℝ) (hy : ∀ p, 0 < y p) :
    (Stage.xentropy rows n T).Good y := by
  refine ⟨fun y => vec [rows] (fn1 fun r => -∑ j ∈ range n, T r j * Real.log (ent [rows, n] y [r, j])),
    fun gz => vec [rows, n] (fn2 fun r i => ent [rows] gz [r] * (-T r i / ent [rows, n] y [r, i])),
    fun y' b hb => ?_, fun gz b hb => ?_, fun gz => ?_⟩
  · simp only [Stage.xentropy]
    rw [tensor_ent, ofFn_vec]
    refine (C54_value Real.log [rows] n (fn2 T) (ent [rows, n] y') (by simpa using hb)).trans ?_
    refine congrArg (fun t => Outcome.ok (Tensor.data t)) (tab_congr fun idx hv => ?_)
    match idx, hv with
    | [r], _ => rfl
  · simp only [Stage.xentropy]
    rw [tensor_ent, ent1, tensor_ent, ent2, C49_formula _ _ _ (by simpa using hb), ofFn_vec]
  · have hpos : ∀ r < rows, ∀ j : Fin n, 0 < row r y j := by
      intro r hr j
      unfold row ent
      have hlt : offset [rows, n] [r, j] < [rows, n].prod := offset_lt (v2 hr j.2)
      rw [show offset [rows, n] [r, (j : Nat)] = ((⟨_, hlt⟩ : Fin [rows, n].prod) : Nat) from rfl, extend_apply]
      exact hy _
    have h := isGradient_rows (fun r y => ∑ j : Fin n, ent [rows] gz [r] * (-(T r j * Real.log (y j))))
      (fun r j => ent [rows] gz [r] * (-T r j / row r y j)) y (fun r hr => by
        refine isGradient_sum (fun (j : Fin n) t => ent [rows] gz [r] * (-(T r j * Real.log t))) _ _ fun j => ?_
        have := ((Real.hasDerivAt_log (hpos r hr j).ne').const_mul (T r j)).neg.const_mul (ent [rows] gz [r])
        refine this.congr_deriv ?_
        rw [div_eq_mul_inv]; ring)
    have e1 : (fun y : Fin [rows, n].prod → ℝ => ∑ p, gz p *
        vec [rows] (fn1 fun r => -∑ j ∈ range n, T r j * Real.log (ent [rows, n] y [r, j])) p) =
        fun y => ∑ r ∈ range rows, ∑ j : Fin n, ent [rows] gz [r] * (-(T r j * Real.log (row r y j))) := by
      funext y
      rw [sum_eq_dot, ofFn_vec, ofFn_ent [rows] gz, ent1, dot_tab1]
      refine Finset.sum_congr rfl fun r _ => ?_
      rw [← Finset.mul_sum, Finset.sum_neg_distrib, Finset.sum_range]
      rfl
    rw [e1]
    refine cast ?_ h
    congr 1
    apply List.ofFn_injective
    rw [ofFn_vec, ofFn_vec]
    refine congrArg Tensor.data (tab_congr fun idx hv => ?_)
    match idx, hv with
    | [r, j], ⟨hr, hj, _⟩ =>
      simp only [fn2_apply]
      exact extend_apply (fun j : Fin n => ent [rows] gz [r] * (-T r j / row r y j)) ⟨j, hj⟩

/-! ## Whole programs -/

/-- What softmax returns is positive. -/
theorem softmax_stage_pos {eps : ℝ} (junk : Nat → ℝ) {rows n : Nat} (x y : Fin [rows, n].prod → ℝ)
    (h : ∀ b, b.length = [rows, n].prod → (Stage.softmax eps junk rows n).fwd (List.ofFn x) b = .ok (List.ofFn y)) (p) :
    0 < y p := by
  have h1 := h (List.replicate [rows, n].prod 0) (by simp)
  simp only [Stage.softmax] at h1
  have h2 := C51_value eps [rows] n (ent [rows, n] x) 0 (List.replicate [rows, n].prod 0) (by simp)
  rw [store_all (by simp)] at h2
  rw [ofFn_ent [rows, n] x] at h1
  have h3 := h1.symm.trans h2
  rw [Outcome.ok.injEq, show [rows] ++ [n] = [rows, n] from rfl, ← ofFn_vec] at h3
  rw [List.ofFn_injective h3]
  unfold vec
  have hv := valid_unravel p.2
  match unravel [rows, n] p, hv with
  | [r, j], ⟨_, hj, _⟩ => exact lt_of_lt_of_le (softmax_pos hj _) (le_max_right _ _)

/-- The program that trains a linear classifier: scores `X w + B`, softmax, cross entropy with targets `T`; the parameters
`w` are the input of the chain. -/
noncomputable def classifier (eps : ℝ) (junk : Nat → ℝ) (n p k : Nat) (X : Nat → Nat → ℝ) (B : Nat → ℝ)
    (T : Nat → Nat → ℝ) : Net [p, k].prod [n].prod :=
  .cons (.matmulRight n p k X) (.cons (.biasHw n k B) (.cons (.softmax eps junk n k) (.cons (.xentropy n k T) (.nil _))))

/-- C124 (linear classifier): if every probability exceeds the clamp of softmax, the backward pass of the classifier returns
the gradient of the weighted losses with respect to the parameters. -/
theorem C124_classifier {eps : ℝ} (junk : Nat → ℝ) {n p k : Nat} (X : Nat → Nat → ℝ) (B : Nat → ℝ) (T : Nat → Nat → ℝ)
    (w : Fin [p, k].prod → ℝ)
    (hc : ∀ i < n, ∀ j < k, eps < Spec.softmax k (fun j => (∑ q ∈ range p, X i q * ent [p, k] w [q, j]) + B j) j) :
    (classifier eps junk n p k X B T).Good w := by
  refine ⟨C124_matmul_right _ _ _ _ _, fun y hy => ⟨C124_bias_hw _ _ _ _, fun z hz => ⟨C124_softmax _ _ ?_, fun s hs =>
    ⟨C124_xentropy _ _ (softmax_stage_pos _ _ _ hs), fun _ _ => trivial⟩⟩⟩⟩
  have ey : List.ofFn y = (tab [n, k] (fn2 fun i j => ∑ q ∈ range p, X i q * ent [p, k] w [q, j])).data := by
    have h1 := hy (List.replicate [n, k].prod 0) (by simp)
    simp only [Stage.matmulRight] at h1
    rw [tensor_ent, ent2] at h1
    have h2 := Plain.mm_run (m := n) (l := p) (n := k) (fn2 X) (fn2 fun q j => ent [p, k] w [q, j])
      (c := List.replicate [n, k].prod 0) (by simp)
    have h3 := h1.symm.trans h2
    rw [Outcome.ok.injEq] at h3
    rw [h3]
    refine congrArg Tensor.data (tab_congr fun idx hv => ?_)
    match idx, hv with
    | [i, j], _ => exact seqSum_eq_sum _ _
  have ez : List.ofFn z = (tab [n, k] (fn2 fun i j => (∑ q ∈ range p, X i q * ent [p, k] w [q, j]) + B j)).data := by
    have h1 := hz (List.replicate [n, k].prod 0) (by simp)
    simp only [Stage.biasHw] at h1
    rw [ey, C22_bias_hw _ (z := 0) _ B (ext_holds _ _ _) (by simp), store_all (by simp), Outcome.ok.injEq] at h1
    exact h1.symm
  rw [← ofFn_vec] at ez
  have ez' := List.ofFn_injective ez
  have er : ∀ i < n, ∀ j : Fin k, row i z j = (∑ q ∈ range p, X i q * ent [p, k] w [q, j]) + B j := by
    intro i hi j
    unfold row ent
    have hlt : offset [n, k] [i, j] < [n, k].prod := offset_lt (v2 hi j.2)
    rw [show offset [n, k] [i, (j : Nat)] = ((⟨_, hlt⟩ : Fin [n, k].prod) : Nat) from rfl, extend_apply, ez']
    unfold vec
    rw [unravel_offset (v2 hi j.2)]
    rfl
  intro i hi j
  rw [← smax_eq]
  refine lt_of_lt_of_eq (hc i hi j j.2) ?_
  have ee : ∀ q < k, extend (row i z) q = (∑ r ∈ range p, X i r * ent [p, k] w [r, q]) + B q := fun q hq => by
    rw [show q = ((⟨q, hq⟩ : Fin k) : Nat) from rfl, extend_apply, er i hi]
  unfold Spec.softmax
  rw [ee j j.2]
  congr 1
  exact Finset.sum_congr rfl fun q hq => by rw [ee q (mem_range.1 hq)]

/-- Non-vacuity: without a clamp the hypothesis holds for all data and parameters. -/
example (junk : Nat → ℝ) (X : Nat → Nat → ℝ) (B : Nat → ℝ) (T : Nat → Nat → ℝ) (w : Fin [784, 10].prod → ℝ) :
    (classifier 0 junk 100 784 10 X B T).Good w :=
  C124_classifier junk X B T w fun _ _ _ hj => softmax_pos hj _

/-- Non-vacuity: a convolution, a bias and a flattening before the classifier, as a function of the filter; the images are
3 × 5 with 2 channels, at padding (1, 0) and (1, 1). -/
example (junkI : Nat → Int) (junk junk' : Nat → ℝ) (X : Nat → Nat → Nat → Nat → ℝ) (B : Nat → ℝ)
    (Y : Nat → Nat → ℝ) (B' : Nat → ℝ) (T : Nat → Nat → ℝ) (w) :
    (Net.cons (.convFilter exH exW 6 2 4 X junkI junk junk') (.cons (.biasNhwc 6 3 3 4 B)
      (.cons (.flatten [6, 3, 3, 4] [6, 36]) (.cons (.matmulLeft 6 36 10 Y) (.cons (.biasHw 6 10 B')
        (.cons (.softmax 0 junk 6 10) (.cons (.xentropy 6 10 T) (.nil _)))))))).Good w :=
  ⟨C124_conv_filter exH_ok exW_ok (by decide) _ _ _ _ _, fun _ _ => ⟨C124_bias_nhwc _ _ _ _ _ _, fun _ _ =>
    ⟨C124_flatten (by decide) _, fun _ _ => ⟨C124_matmul_left _ _ _ _ _, fun _ _ => ⟨C124_bias_hw _ _ _ _, fun _ _ =>
      ⟨C124_softmax _ _ fun r _ j => by rw [← smax_eq]; exact softmax_pos j.2 _, fun _ h =>
        ⟨C124_xentropy _ _ (softmax_stage_pos _ _ _ h), fun _ _ => trivial⟩⟩⟩⟩⟩⟩⟩

/-- Non-vacuity: relu at a point with a positive and a negative coordinate. -/
example : (Stage.relu 2).Good ![3, -1] := C124_relu _ fun i => by fin_cases i <;> norm_num

/-! ## Concrete cases -/

example := C124_conv_image exH_ok exW_ok (n := 2) (c := 2) (d := 3) (by decide) (fun r s k e => (r : ℝ) - s + k * e) (fun _ => 0)
  (fun _ => 5) (fun _ => 6) (fun i => (i : ℝ))

end StdNN
