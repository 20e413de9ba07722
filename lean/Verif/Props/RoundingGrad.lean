import Verif.Props.GradOrder
import Verif.Props.RoundingTrain
/-!
# C167: rounding errors of the gradients of losses, biases and deep networks
-/
namespace StdNN
open Outcome Finset Spec
variable {u : ℝ} {rnd : ℝ → ℝ}

/-! ## The gradients of the loss -/

theorem rel_refl (b : ℝ) : |b - b| ≤ ((1 + u) ^ 0 - 1) * |b| := by simp

/-- C167 (cross entropy): two roundings, whatever the labels and predictions are. -/
theorem C167_xentropy (hu : 0 ≤ u) (hr : RelErr u rnd) {rows n : Nat} (c : Nat → Fl rnd) (X Y : Nat → Nat → Fl rnd)
    {gx : List (Fl rnd)} (hgx : gx.length = rows * n) :
    ∃ G : Nat → Nat → Fl rnd,
      Grad.xentropy [rows, n] (tab [rows] (fn1 c)) (tab [rows, n] (fn2 X)) (tab [rows, n] (fn2 Y)) gx =
        .ok (tab [rows, n] (fn2 G)).data ∧
      ∀ i j, |(G i j).val - -((c i).val * (X i j).val / (Y i j).val)| ≤
        ((1 + u) ^ 2 - 1) * |(c i).val * (X i j).val / (Y i j).val| := by
  refine ⟨_, Grad.xentropy_run c X Y hgx, fun i j => ?_⟩
  rw [Fl.val_mul, Fl.val_div, Fl.val_neg]
  have a := rel_mul hu (rel_refl (c i).val) (rel_rnd hu hr (rel_refl (-(X i j).val / (Y i j).val)))
  rw [zero_add, zero_add] at a
  have b := rel_rnd hu hr a
  have e : (c i).val * (-(X i j).val / (Y i j).val) = -((c i).val * (X i j).val / (Y i j).val) := by ring
  rw [e, abs_neg] at b
  exact b

/-- The Jacobian of softmax with outputs `y`, without rounding. -/
theorem jacobian_entry (hu : 0 ≤ u) (hr : RelErr u rnd) (y : Nat → Fl rnd) (l j : Nat) :
    |(if l = j then y l * (1 - y l) else -y l * y j).val - (y l).val * ((if l = j then 1 else 0) - (y j).val)| ≤
      ((1 + u) ^ 2 - 1) * |(y l).val * ((if l = j then 1 else 0) - (y j).val)| := by
  by_cases e : l = j
  · subst e
    rw [if_pos rfl, if_pos rfl, Fl.val_mul, Fl.val_sub, Fl.val_one]
    have a := rel_mul hu (rel_refl (y l).val) (rel_rnd hu hr (rel_refl (1 - (y l).val)))
    rw [zero_add, zero_add] at a
    exact rel_rnd hu hr a
  · rw [if_neg e, if_neg e, Fl.val_mul, Fl.val_neg, zero_sub]
    have e2 : -(y l).val * (y j).val = (y l).val * -(y j).val := by ring
    rw [e2]
    refine (rel_rnd hu hr (rel_refl _)).trans (mul_le_mul_of_nonneg_right ?_ (abs_nonneg _))
    have := one_le_pow_u hu 1
    simp only [zero_add, pow_one, pow_two] at *
    nlinarith

/-- A rounded inner product of numbers that are known up to `m` and `l` roundings. -/
theorem dot_rel (hu : 0 ≤ u) (hr : RelErr u rnd) (n : Nat) (a b : Nat → Fl rnd) (v w M N : Nat → ℝ) {m l : Nat}
    (ha : ∀ i < n, |(a i).val - v i| ≤ ((1 + u) ^ m - 1) * M i) (hM : ∀ i < n, |v i| ≤ M i)
    (hb : ∀ i < n, |(b i).val - w i| ≤ ((1 + u) ^ l - 1) * N i) (hN : ∀ i < n, |w i| ≤ N i) :
    |(seqSum n fun i => a i * b i).val - ∑ i ∈ range n, v i * w i| ≤
      ((1 + u) ^ (m + l + (n + 1)) - 1) * ∑ i ∈ range n, M i * N i := by
  have hm := one_le_pow_u hu m
  have hl := one_le_pow_u hu l
  have hn := one_le_pow_u hu (n + 1)
  have ab : ∀ i < n, |(a i).val| ≤ (1 + u) ^ m * M i := fun i hi => by
    have e : (a i).val = v i + ((a i).val - v i) := by ring
    rw [e]
    exact (abs_add_le _ _).trans (by nlinarith [ha i hi, hM i hi])
  have bb : ∀ i < n, |(b i).val| ≤ (1 + u) ^ l * N i := fun i hi => by
    have e : (b i).val = w i + ((b i).val - w i) := by ring
    rw [e]
    exact (abs_add_le _ _).trans (by nlinarith [hb i hi, hN i hi])
  have M0 : ∀ i < n, 0 ≤ M i := fun i hi => (abs_nonneg _).trans (hM i hi)
  have N0 : ∀ i < n, 0 ≤ N i := fun i hi => (abs_nonneg _).trans (hN i hi)
  have h1 := seqSum_error hu hr n a b
  have h2 : |∑ i ∈ range n, (a i).val * (b i).val - ∑ i ∈ range n, v i * w i| ≤
      ((1 + u) ^ m * (1 + u) ^ l - 1) * ∑ i ∈ range n, M i * N i := by
    rw [← sum_sub_distrib, mul_sum]
    refine (abs_sum_le_sum_abs _ _).trans (sum_le_sum fun i hi => ?_)
    have hi := mem_range.1 hi
    have e : (a i).val * (b i).val - v i * w i = (a i).val * ((b i).val - w i) + ((a i).val - v i) * w i := by ring
    rw [e]
    refine (abs_add_le _ _).trans ?_
    rw [abs_mul, abs_mul]
    have p1 := mul_le_mul (ab i hi) (hb i hi) (abs_nonneg _) (mul_nonneg (by linarith) (M0 i hi))
    have p2 := mul_le_mul (ha i hi) (hN i hi) (abs_nonneg _) (mul_nonneg (by linarith) (M0 i hi))
    nlinarith
  have h3 : ∑ i ∈ range n, |(a i).val| * |(b i).val| ≤ (1 + u) ^ m * (1 + u) ^ l * ∑ i ∈ range n, M i * N i := by
    rw [mul_sum]
    refine sum_le_sum fun i hi => ?_
    have hi := mem_range.1 hi
    have := mul_le_mul (ab i hi) (bb i hi) (abs_nonneg _) (mul_nonneg (by linarith) (M0 i hi))
    nlinarith
  have e : (seqSum n fun i => a i * b i).val - ∑ i ∈ range n, v i * w i =
      ((seqSum n fun i => a i * b i).val - ∑ i ∈ range n, (a i).val * (b i).val) +
        (∑ i ∈ range n, (a i).val * (b i).val - ∑ i ∈ range n, v i * w i) := by ring
  rw [e]
  refine (abs_add_le _ _).trans ((add_le_add (h1.trans (mul_le_mul_of_nonneg_left h3 (by linarith))) h2).trans (le_of_eq ?_))
  rw [pow_add _ (m + l), pow_add _ m l]
  ring

theorem abs_dot_le (n : Nat) (v w M N : Nat → ℝ) (hM : ∀ i < n, |v i| ≤ M i) (hN : ∀ i < n, |w i| ≤ N i) :
    |∑ i ∈ range n, v i * w i| ≤ ∑ i ∈ range n, M i * N i := by
  refine (abs_sum_le_sum_abs _ _).trans (sum_le_sum fun i hi => ?_)
  have hi := mem_range.1 hi
  rw [abs_mul]
  exact mul_le_mul (hM i hi) (hN i hi) (abs_nonneg _) ((abs_nonneg _).trans (hM i hi))

/-- C167 (softmax): the gradient by the scores from the incoming gradient and the outputs. -/
theorem C167_softmax (hu : 0 ≤ u) (hr : RelErr u rnd) (junk : Nat → Fl rnd) {rows n : Nat} (G Y : Nat → Nat → Fl rnd)
    {gx : List (Fl rnd)} (hgx : gx.length = rows * n) :
    ∃ D : Nat → Nat → Fl rnd,
      Grad.softmax junk [rows, n] rows n (tab [rows, n] (fn2 G)) (tab [rows, n] (fn2 Y)) gx =
        .ok (tab [rows, n] (fn2 D)).data ∧
      ∀ i j, |(D i j).val - ∑ l ∈ range n, (G i l).val * ((Y i l).val * ((if l = j then 1 else 0) - (Y i j).val))| ≤
        ((1 + u) ^ (n + 3) - 1) *
          ∑ l ∈ range n, |(G i l).val| * |(Y i l).val * ((if l = j then 1 else 0) - (Y i j).val)| := by
  refine ⟨_, Grad.softmax_run junk G Y hgx, fun i j => ?_⟩
  have h := dot_rel hu hr n (fun l => G i l) (fun l => if l = j then Y i l * (1 - Y i l) else -Y i l * Y i j)
    (fun l => (G i l).val) (fun l => (Y i l).val * ((if l = j then 1 else 0) - (Y i j).val)) (fun l => |(G i l).val|)
    (fun l => |(Y i l).val * ((if l = j then 1 else 0) - (Y i j).val)|) (m := 0) (l := 2)
    (fun l _ => rel_refl _) (fun _ _ => le_rfl) (fun l _ => jacobian_entry hu hr (Y i) l j) (fun _ _ => le_rfl)
  rw [show 0 + 2 + (n + 1) = n + 3 by omega] at h
  exact h

/-- C167 (both): the gradient of the loss by the scores, with any labels `T` (not only a single class): the exact gradient is
`c (y_j Σ T - T_j)` if the labels `T` are those of a row. -/
theorem C167_scores (hu : 0 ≤ u) (hr : RelErr u rnd) (junk : Nat → Fl rnd) {rows n : Nat} (c : Nat → Fl rnd)
    (T Y : Nat → Nat → Fl rnd) (hY : ∀ i < rows, ∀ l < n, (Y i l).val ≠ 0) {gy gx : List (Fl rnd)}
    (hgy : gy.length = rows * n) (hgx : gx.length = rows * n) :
    ∃ G D : Nat → Nat → Fl rnd,
      Grad.xentropy [rows, n] (tab [rows] (fn1 c)) (tab [rows, n] (fn2 T)) (tab [rows, n] (fn2 Y)) gy =
        .ok (tab [rows, n] (fn2 G)).data ∧
      Grad.softmax junk [rows, n] rows n (tab [rows, n] (fn2 G)) (tab [rows, n] (fn2 Y)) gx =
        .ok (tab [rows, n] (fn2 D)).data ∧
      ∀ i < rows, ∀ j < n,
        |(D i j).val - (c i).val * ((Y i j).val * ∑ l ∈ range n, (T i l).val - (T i j).val)| ≤
          ((1 + u) ^ (n + 5) - 1) *
            (|(c i).val| * ∑ l ∈ range n, |(T i l).val| * |(if l = j then 1 else 0) - (Y i j).val|) := by
  obtain ⟨G, hG, eG⟩ := C167_xentropy hu hr c T Y hgy
  refine ⟨G, _, hG, Grad.softmax_run junk G Y hgx, fun i hi j hj => ?_⟩
  have h := dot_rel hu hr n (fun l => G i l) (fun l => if l = j then Y i l * (1 - Y i l) else -Y i l * Y i j)
    (fun l => -((c i).val * (T i l).val / (Y i l).val)) (fun l => (Y i l).val * ((if l = j then 1 else 0) - (Y i j).val))
    (fun l => |(c i).val * (T i l).val / (Y i l).val|)
    (fun l => |(Y i l).val * ((if l = j then 1 else 0) - (Y i j).val)|) (m := 2) (l := 2)
    (fun l _ => eG i l) (fun _ _ => le_of_eq (abs_neg _)) (fun l _ => jacobian_entry hu hr (Y i) l j) (fun _ _ => le_rfl)
  rw [show 2 + 2 + (n + 1) = n + 5 by omega] at h
  have e1 : ∑ l ∈ range n, -((c i).val * (T i l).val / (Y i l).val) *
      ((Y i l).val * ((if l = j then 1 else 0) - (Y i j).val)) =
      (c i).val * ((Y i j).val * ∑ l ∈ range n, (T i l).val - (T i j).val) := by
    have : ∀ l ∈ range n, -((c i).val * (T i l).val / (Y i l).val) *
        ((Y i l).val * ((if l = j then 1 else 0) - (Y i j).val)) =
        (c i).val * ((Y i j).val * (T i l).val - if l = j then (T i l).val else 0) := fun l hl => by
      have := hY i hi l (mem_range.1 hl)
      by_cases el : l = j
      · simp only [if_pos el]; field_simp; ring
      · simp only [if_neg el]; field_simp; ring
    rw [sum_congr rfl this, ← mul_sum, sum_sub_distrib, ← mul_sum, sum_ite_eq' (range n) j, if_pos (mem_range.2 hj)]
  have e2 : ∑ l ∈ range n, |(c i).val * (T i l).val / (Y i l).val| *
      |(Y i l).val * ((if l = j then 1 else 0) - (Y i j).val)| =
      |(c i).val| * ∑ l ∈ range n, |(T i l).val| * |(if l = j then 1 else 0) - (Y i j).val| := by
    rw [mul_sum]
    refine sum_congr rfl fun l hl => ?_
    have := hY i hi l (mem_range.1 hl)
    rw [abs_div, abs_mul, abs_mul]
    have h0 := abs_ne_zero.2 this
    field_simp
  rw [e1, e2] at h
  exact h

/-! ## The gradients of the bias -/

/-- C167 (bias): of rows, and of images with channels last, in any arithmetic the sum in the order of the memory. -/
theorem bias_order {R : Type} [Zero R] [Add R] {n h w c : Nat} (G : Nat → Nat → Nat → Nat → R) {gy : List R}
    (hgy : gy.length = c) :
    Grad.biasNhwc (tab [n, h, w, c] (fn4 G)) gy =
      .ok (tab [c] (fn1 fun k => seqSum [n, h, w].prod fun r => fn4 G (unravel [n, h, w] r ++ [k]))).data := by
  have e : (tab [n, h, w, c] (fn4 G)).withDims [[n, h, w].prod, c] =
      tab [[n, h, w].prod, c] (fn2 fun r k => fn4 G (unravel [n, h, w] r ++ [k])) := by
    have := tab_snoc [n, h, w] c (fn4 G)
    unfold Tensor.withDims
    refine congrArg (Tensor.mk _) this
  unfold Grad.biasNhwc
  have ed : [((tab [n, h, w, c] (fn4 G)).dims.take 3).prod, ((tab [n, h, w, c] (fn4 G)).dims.drop 3).prod] =
      [[n, h, w].prod, c] := by simp
  rw [ed, e, Kernels.outerContraction_order _ hgy]

theorem C167_bias (hu : 0 ≤ u) (hr : RelErr u rnd) {n h w c : Nat} (G : Nat → Nat → Nat → Nat → Fl rnd)
    {gy : List (Fl rnd)} (hgy : gy.length = c) :
    ∃ D : Nat → Fl rnd, Grad.biasNhwc (tab [n, h, w, c] (fn4 G)) gy = .ok (tab [c] (fn1 D)).data ∧
      ∀ k, |(D k).val - ∑ b ∈ range n, ∑ i ∈ range h, ∑ j ∈ range w, (G b i j k).val| ≤
        ((1 + u) ^ (n * h * w) - 1) * ∑ b ∈ range n, ∑ i ∈ range h, ∑ j ∈ range w, |(G b i j k).val| := by
  refine ⟨_, bias_order G hgy, fun k => ?_⟩
  have e := sum_error hu hr [n, h, w].prod fun r => fn4 G (unravel [n, h, w] r ++ [k])
  rw [sum_unravel3 n h w (fun l => (fn4 G (l ++ [k])).val), sum_unravel3 n h w (fun l => |(fn4 G (l ++ [k])).val|)] at e
  have p : [n, h, w].prod = n * h * w := by simp [Nat.mul_assoc]
  rw [p] at e ⊢
  exact e

/-! ## The backward pass of a deep network -/

section
variable {R : Type} [Zero R] [Add R] [Mul R] [LT R] [DecidableLT R]

/-- The backward pass through dense layers with `relu`, counted from the output: layer `t` maps rows of length `s (t + 1)` to
rows of length `s t`, `W t` are its weights and `X t` the arguments of the `relu` whose outputs it is given; `buf t` and `buf' t` are where the gradients go
(a program that calls ops/gradients/matmul.hpp:21-29 and ops/gradients/activation.hpp:20-27 for every layer). -/
def backward (rows : Nat) (s : Nat → Nat) (W X : Nat → Nat → Nat → R) (buf buf' : Nat → List R) (g : List R) :
    Nat → Outcome (List R)
  | 0 => .ok g
  | t + 1 => do
    let gy ← backward rows s W X buf buf' g t
    let gx ← Plain.mmt ⟨[rows, s t], gy⟩ (tab [s (t + 1), s t] (fn2 (W t))) [rows, s (t + 1)] (buf t)
    Grad.relu (rows * s (t + 1)) (.ext gx) (.ext (tab [rows, s (t + 1)] (fn2 (X t))).data) 0 (buf' t)

theorem backward_succ {rows : Nat} {s : Nat → Nat} (W X : Nat → Nat → Nat → R) (buf buf' : Nat → List R) {t : Nat}
    (hb : (buf t).length = rows * s (t + 1)) (hb' : (buf' t).length = rows * s (t + 1)) (G : Nat → Nat → R) {g : List R}
    (hG : backward rows s W X buf buf' g t = .ok (tab [rows, s t] (fn2 G)).data) :
    backward rows s W X buf buf' g (t + 1) =
      .ok (tab [rows, s (t + 1)] (fn2 fun i j => if X t i j > 0 then seqSum (s t) fun k => G i k * W t j k else 0)).data := by
  rw [backward, hG, Outcome.ok_bind]
  have e1 : Plain.mmt ⟨[rows, s t], (tab [rows, s t] (fn2 G)).data⟩ (tab [s (t + 1), s t] (fn2 (W t)))
      [rows, s (t + 1)] (buf t) = .ok (tab [rows, s (t + 1)] (fn2 fun i j => seqSum (s t) fun k => G i k * W t j k)).data :=
    Plain.mmt_run (fn2 G) (fn2 (W t)) hb
  rw [e1, Outcome.ok_bind]
  have h := C47_relu_grad (gy := .ext (tab [rows, s (t + 1)] (fn2 fun i j => seqSum (s t) fun k => G i k * W t j k)).data)
    (x := .ext (tab [rows, s (t + 1)] (fn2 (X t))).data) (z := 0) (m := buf' t) (ext_holds _ _ _) (ext_holds _ _ _) (by simp)
    (by simp [hb'])
  rw [zipWith_tab, store_all (by simp [hb'])] at h
  simp only [tab_length, List.prod_cons, List.prod_nil, mul_one] at h
  rw [h]
  refine congrArg (fun t => Outcome.ok (Tensor.data t)) (tab_congr fun idx hv => ?_)
  match idx, hv with
  | [i, j], hv => rfl

end

/-- The same on real numbers: `alive t i j` says that the argument of `relu` for input `j` of layer `t` is positive
in row `i`. -/
def Spec.deepGrad (s : Nat → Nat) (W : Nat → Nat → Nat → ℝ) (alive : Nat → Nat → Nat → Prop) [∀ t i j, Decidable (alive t i j)]
    (g : Nat → Nat → ℝ) : Nat → Nat → Nat → ℝ
  | 0 => g
  | t + 1 => fun i j => if alive t i j then ∑ k ∈ range (s t), deepGrad s W alive g t i k * W t j k else 0

section
variable {rows : Nat} {s : Nat → Nat} (W X : Nat → Nat → Nat → Fl rnd) (buf buf' : Nat → List (Fl rnd))

/-- C167 (deep networks): the gradient by the inputs of any layer. If the gradient by the outputs is known up to `m` roundings,
that by the inputs of layer `t` is known up to `m + Σ (s r + 1)` roundings, relative to the same pass over absolute values. -/
theorem C167_deep (hu : 0 ≤ u) (hr : RelErr u rnd) (hb : ∀ t, (buf t).length = rows * s (t + 1))
    (hb' : ∀ t, (buf' t).length = rows * s (t + 1)) (g : Nat → Nat → Fl rnd) (v M : Nat → Nat → ℝ) {m : Nat}
    (hg : ∀ i < rows, ∀ j < s 0, |(g i j).val - v i j| ≤ ((1 + u) ^ m - 1) * M i j)
    (hv : ∀ i < rows, ∀ j < s 0, |v i j| ≤ M i j) (t : Nat) :
    ∃ G : Nat → Nat → Fl rnd,
      backward rows s W X buf buf' (tab [rows, s 0] (fn2 g)).data t = .ok (tab [rows, s t] (fn2 G)).data ∧
      ∀ i < rows, ∀ j < s t,
        |(G i j).val - deepGrad s (fun t j k => (W t j k).val) (fun t i j => 0 < (X t i j).val) v t i j| ≤
          ((1 + u) ^ (m + ∑ r ∈ range t, (s r + 1)) - 1) *
            deepGrad s (fun t j k => |(W t j k).val|) (fun t i j => 0 < (X t i j).val) M t i j ∧
        |deepGrad s (fun t j k => (W t j k).val) (fun t i j => 0 < (X t i j).val) v t i j| ≤
          deepGrad s (fun t j k => |(W t j k).val|) (fun t i j => 0 < (X t i j).val) M t i j := by
  induction t with
  | zero => exact ⟨g, rfl, fun i hi j hj => ⟨by rw [sum_range_zero, Nat.add_zero]; exact hg i hi j hj, hv i hi j hj⟩⟩
  | succ t ih =>
    obtain ⟨G, hG, eG⟩ := ih
    refine ⟨fun i j => if X t i j > 0 then seqSum (s t) fun k => G i k * W t j k else 0, ?_, fun i hi j hj => ?_⟩
    · exact backward_succ W X buf buf' (hb t) (hb' t) G hG
    · by_cases c : 0 < (X t i j).val
      · have c' : X t i j > 0 := c
        simp only [deepGrad, if_pos c, if_pos c']
        have h := dot_rel hu hr (s t) (fun k => G i k) (fun k => W t j k)
          (fun k => deepGrad s (fun t j k => (W t j k).val) (fun t i j => 0 < (X t i j).val) v t i k) (fun k => (W t j k).val)
          (fun k => deepGrad s (fun t j k => |(W t j k).val|) (fun t i j => 0 < (X t i j).val) M t i k)
          (fun k => |(W t j k).val|) (l := 0) (fun k hk => (eG i hi k hk).1) (fun k hk => (eG i hi k hk).2)
          (fun k _ => rel_refl _) (fun _ _ => le_rfl)
        refine ⟨?_, abs_dot_le _ _ _ _ _ (fun k hk => (eG i hi k hk).2) fun _ _ => le_rfl⟩
        rw [sum_range_succ]
        rw [Nat.add_zero, Nat.add_assoc] at h
        exact h
      · have c' : ¬ X t i j > 0 := c
        simp only [deepGrad, if_neg c, if_neg c', Fl.val_zero, sub_zero, abs_zero, mul_zero, le_refl, and_self]

/-- C167 (parameters of deep networks): the gradients by the weights and the bias of any layer, `V` being its inputs. -/
theorem C167_deep_params (hu : 0 ≤ u) (hr : RelErr u rnd) (hb : ∀ t, (buf t).length = rows * s (t + 1))
    (hb' : ∀ t, (buf' t).length = rows * s (t + 1)) (g : Nat → Nat → Fl rnd) (v M : Nat → Nat → ℝ) {m : Nat}
    (hg : ∀ i < rows, ∀ j < s 0, |(g i j).val - v i j| ≤ ((1 + u) ^ m - 1) * M i j)
    (hv : ∀ i < rows, ∀ j < s 0, |v i j| ≤ M i j) (t : Nat) (V : Nat → Nat → Fl rnd)
    {gw gb : List (Fl rnd)} (hgw : gw.length = s (t + 1) * s t)
    (hgb : gb.length = s t) :
    ∃ (G : List (Fl rnd)) (A : Nat → Nat → Fl rnd) (B : Nat → Fl rnd),
      backward rows s W X buf buf' (tab [rows, s 0] (fn2 g)).data t = .ok G ∧
      Plain.mtm (tab [rows, s (t + 1)] (fn2 V)) ⟨[rows, s t], G⟩ [s (t + 1), s t] gw =
        .ok (tab [s (t + 1), s t] (fn2 A)).data ∧
      Grad.biasHw ⟨[rows, s t], G⟩ gb = .ok (tab [s t] (fn1 B)).data ∧
      (∀ p < s (t + 1), ∀ j < s t,
        |(A p j).val - ∑ i ∈ range rows, (V i p).val *
            deepGrad s (fun t j k => (W t j k).val) (fun t i j => 0 < (X t i j).val) v t i j| ≤
          ((1 + u) ^ (m + ∑ r ∈ range t, (s r + 1) + (rows + 1)) - 1) * ∑ i ∈ range rows, |(V i p).val| *
            deepGrad s (fun t j k => |(W t j k).val|) (fun t i j => 0 < (X t i j).val) M t i j) ∧
      ∀ j < s t,
        |(B j).val - ∑ i ∈ range rows,
            deepGrad s (fun t j k => (W t j k).val) (fun t i j => 0 < (X t i j).val) v t i j| ≤
          ((1 + u) ^ (m + ∑ r ∈ range t, (s r + 1) + rows) - 1) * ∑ i ∈ range rows,
            deepGrad s (fun t j k => |(W t j k).val|) (fun t i j => 0 < (X t i j).val) M t i j := by
  obtain ⟨G, hG, eG⟩ := C167_deep W X buf buf' hu hr hb hb' g v M hg hv t
  refine ⟨_, _, _, hG, Plain.mtm_run (fn2 V) (fn2 G) hgw, Kernels.outerContraction_order G hgb, fun p hp j hj => ?_, fun j hj => ?_⟩
  · have h := dot_rel hu hr rows (fun i => V i p) (fun i => G i j) (fun i => (V i p).val)
      (fun i => deepGrad s (fun t j k => (W t j k).val) (fun t i j => 0 < (X t i j).val) v t i j) (fun i => |(V i p).val|)
      (fun i => deepGrad s (fun t j k => |(W t j k).val|) (fun t i j => 0 < (X t i j).val) M t i j) (m := 0)
      (fun i _ => rel_refl _) (fun _ _ => le_rfl) (fun i hi => (eG i hi j hj).1) (fun i hi => (eG i hi j hj).2)
    rw [Nat.zero_add] at h
    exact h
  · have h := sum_close hu hr rows (fun i => G i j)
      (fun i => deepGrad s (fun t j k => (W t j k).val) (fun t i j => 0 < (X t i j).val) v t i j)
      (fun i => |deepGrad s (fun t j k => (W t j k).val) (fun t i j => 0 < (X t i j).val) v t i j| +
        ((1 + u) ^ (m + ∑ r ∈ range t, (s r + 1)) - 1) *
          deepGrad s (fun t j k => |(W t j k).val|) (fun t i j => 0 < (X t i j).val) M t i j)
      (fun i hi => by have := (eG i hi j hj).1; linarith)
    refine h.trans ?_
    rw [mul_sum, pow_add _ _ rows]
    refine sum_le_sum fun i hi => ?_
    have e2 := (eG i (mem_range.1 hi) j hj).2
    have q1 := one_le_pow_u hu rows
    nlinarith
end

/-! ## Concrete cases -/

example := C167_xentropy exU chop24_err (rows := 2) (n := 3) (fun i => exReal (1 / (i + 2))) (fun i j => exReal ((i + j) / 7))
  (fun i j => exReal ((i + j + 1) / 9)) (gx := List.replicate 6 (0 : ℝ)) rfl
example := C167_softmax exU chop24_err (fun _ => (5 : ℝ)) (rows := 2) (n := 3) (fun i j => exReal ((i - j) / 7))
  (fun i j => exReal ((i + j + 1) / 9)) (gx := List.replicate 6 (0 : ℝ)) rfl
example := C167_scores exU chop24_err (fun _ => (5 : ℝ)) (rows := 2) (n := 3) (fun i => exReal (1 / (i + 2)))
  (fun i j => exReal ((i + j) / 7)) (fun i j => exReal (((i : ℝ) + j + 1) / 9))
  (fun i _ j _ => ne_of_gt (show (0 : ℝ) < ((i : ℝ) + j + 1) / 9 by positivity))
  (gy := List.replicate 6 (0 : ℝ)) (gx := List.replicate 6 (0 : ℝ)) rfl rfl
example := C167_bias exU chop24_err (n := 2) (h := 3) (w := 2) (c := 2) (fun b i j k => exReal ((b + i - j) / (k + 3)))
  (gy := List.replicate 2 (0 : ℝ)) rfl
/-- Ten layers that get wider towards the input, five rows. -/
example := C167_deep (rows := 5) (s := fun t => t + 2) (fun t j k => exReal ((t + j - k) / 3)) (fun t i j => exReal ((t - i + j) / 5))
  (fun t => List.replicate (5 * (t + 3)) (0 : ℝ)) (fun t => List.replicate (5 * (t + 3)) (1 : ℝ)) exU chop24_err
  (fun _ => List.length_replicate) (fun _ => List.length_replicate) (fun i j => exReal ((i - j) / 3))
  (fun i j => (exReal ((i - j) / 3)).val) (fun i j => |(exReal ((i - j) / 3)).val|) (m := 0) (fun _ _ _ _ => rel_refl _)
  (fun _ _ _ _ => le_rfl) 10
example := C167_deep_params (rows := 5) (s := fun t => t + 2) (fun t j k => exReal ((t + j - k) / 3))
  (fun t i j => exReal ((t - i + j) / 5))
  (fun t => List.replicate (5 * (t + 3)) (0 : ℝ)) (fun t => List.replicate (5 * (t + 3)) (1 : ℝ)) exU chop24_err
  (fun _ => List.length_replicate) (fun _ => List.length_replicate) (fun i j => exReal ((i - j) / 3))
  (fun i j => (exReal ((i - j) / 3)).val) (fun i j => |(exReal ((i - j) / 3)).val|) (m := 0) (fun _ _ _ _ => rel_refl _)
  (fun _ _ _ _ => le_rfl) 2 (fun i j => exReal ((i + j) / 5)) (gw := List.replicate 20 (0 : ℝ)) (gb := List.replicate 4 (0 : ℝ)) rfl rfl

end StdNN
