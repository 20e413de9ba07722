import Verif.Lemmas.Binary
import Verif.Props.Overflow
/-!
# C135: sums of products in `float` and `double`

The element type is the numbers of IEEE 754 with rounding to nearest, gradual underflow, overflow and NaN: unlike in C93,
nothing about the results of the operations is assumed.
-/
namespace StdNN
open IntTy Spec Outcome Layers Models Finset

namespace Spec.Format

/-- `((1 + u)^n - 1) M + k η (1 + u)^n`: error of `n` roundings of a sum of size `M`, `k` of which may underflow. -/
noncomputable def err (F : Format) (n k : Nat) (M : ℝ) : ℝ := ((1 + F.u) ^ n - 1) * M + k * F.eta * (1 + F.u) ^ n

variable {F : Format} {bz : EReal → Option EReal}

/-- A finite number. -/
noncomputable def fin (F : Format) (bz : EReal → Option EReal) (x : ℝ) : Ieee (F.arith bz) := .num (x : EReal)

theorem u_pos (F : Format) : 0 < F.u := two_pos _
theorem eta_pos (F : Format) : 0 < F.eta := two_pos _

theorem fin_zero : fin F bz 0 = 0 := by
  unfold fin
  rw [EReal.coe_zero]
  rfl

theorem fin_add {a b : ℝ} (h : |F.nearest (a + b)| < F.limit) : fin F bz a + fin F bz b = fin F bz (F.nearest (a + b)) := by
  unfold fin
  rw [Ieee.num_add (by
    rintro (⟨h, -⟩ | ⟨h, -⟩)
    · exact EReal.coe_ne_top _ h
    · exact EReal.coe_ne_bot _ h), ← EReal.coe_add]
  exact congrArg _ (F.round_real h)

theorem fin_mul {a b : ℝ} (h : |F.nearest (a * b)| < F.limit) : fin F bz a * fin F bz b = fin F bz (F.nearest (a * b)) := by
  unfold fin
  rw [Ieee.num_mul (by
    rintro (⟨-, h | h⟩ | ⟨-, h | h⟩)
    · exact EReal.coe_ne_top _ h
    · exact EReal.coe_ne_bot _ h
    · exact EReal.coe_ne_top _ h
    · exact EReal.coe_ne_bot _ h), ← EReal.coe_mul]
  exact congrArg _ (F.round_real h)

theorem one_le_pow (F : Format) (n : Nat) : 1 ≤ (1 + F.u) ^ n := one_le_pow₀ (by linarith [F.u_pos])

theorem err_mono (F : Format) {n n' k k' : Nat} {M M' : ℝ} (hn : n ≤ n') (hk : k ≤ k') (h0 : 0 ≤ M) (hM : M ≤ M') :
    F.err n k M ≤ F.err n' k' M' := by
  have a : (1 + F.u) ^ n ≤ (1 + F.u) ^ n' := pow_le_pow_right₀ (by linarith [F.u_pos]) hn
  have b := F.one_le_pow n
  have c : (k : ℝ) ≤ k' := by exact_mod_cast hk
  have e := F.eta_pos
  have k0 : (0 : ℝ) ≤ k := by positivity
  refine add_le_add (mul_le_mul (by linarith) hM h0 (by linarith)) ?_
  exact mul_le_mul (mul_le_mul_of_nonneg_right c e.le) a (by positivity) (by positivity)

theorem err_nonneg (F : Format) (n k : Nat) {M : ℝ} (h0 : 0 ≤ M) : 0 ≤ F.err n k M := by
  have b := F.one_le_pow n
  have e := F.eta_pos
  exact add_nonneg (mul_nonneg (by linarith) h0) (by positivity)

theorem nearest_abs (F : Format) (x : ℝ) : |F.nearest x| ≤ (1 + F.u) * |x| + F.eta := by
  have h := F.nearest_err x
  have : F.nearest x = (F.nearest x - x) + x := by ring
  rw [this]
  refine (abs_add_le _ _).trans ?_
  linarith

/-- One more addition: `v` is within `E` of `T`, the summand `q` within `e` of `p`. -/
theorem step_err {v T q p E e M : ℝ} (hv : |v - T| ≤ E) (hT : |T| ≤ M) (hq : |q - p| ≤ e) :
    |F.nearest (v + q) - (T + p)| ≤ (1 + F.u) * (E + e) + F.u * (M + |p|) + F.eta := by
  have h := F.nearest_err (v + q)
  have u0 := F.u_pos
  have d : |v + q - (T + p)| ≤ E + e := by
    have : v + q - (T + p) = (v - T) + (q - p) := by ring
    rw [this]
    exact (abs_add_le _ _).trans (add_le_add hv hq)
  have s : |v + q| ≤ M + |p| + (E + e) := by
    have : v + q = (T + p) + (v + q - (T + p)) := by ring
    rw [this]
    exact (abs_add_le _ _).trans (add_le_add ((abs_add_le _ _).trans (add_le_add hT le_rfl)) d)
  have : F.nearest (v + q) - (T + p) = (F.nearest (v + q) - (v + q)) + (v + q - (T + p)) := by ring
  rw [this]
  refine (abs_add_le _ _).trans ?_
  have := mul_le_mul_of_nonneg_left s u0.le
  linarith

theorem abs_le_of_err {x T M e : ℝ} (h : |x - T| ≤ e) (hT : |T| ≤ M) : |x| ≤ M + e := by
  have : x = T + (x - T) := by ring
  rw [this]
  exact (abs_add_le _ _).trans (add_le_add hT h)

theorem sum_abs_le (n : Nat) (t : Nat → ℝ) : |∑ k ∈ range n, t k| ≤ ∑ k ∈ range n, |t k| := abs_sum_le_sum_abs _ _

/-- A sum in the order of the code. -/
theorem sum_err (n : Nat) (a : Nat → ℝ) (h : ∑ k ∈ range n, |a k| + F.err n n (∑ k ∈ range n, |a k|) < F.limit) :
    ∃ v : ℝ, (seqSum n fun k => fin F bz (a k)) = fin F bz v ∧
      |v - ∑ k ∈ range n, a k| ≤ F.err n n (∑ k ∈ range n, |a k|) := by
  induction n with
  | zero => exact ⟨0, fin_zero.symm, by simp [err]⟩
  | succ n ih =>
    rw [sum_range_succ] at h
    have M0 : 0 ≤ ∑ k ∈ range n, |a k| := sum_nonneg fun _ _ => abs_nonneg _
    have p0 := abs_nonneg (a n)
    have u0 := F.u_pos
    have e0 := F.eta_pos
    have mono := F.err_mono (Nat.le_succ n) (Nat.le_succ n) M0 (show _ ≤ ∑ k ∈ range n, |a k| + |a n| by linarith)
    obtain ⟨v, e, hv⟩ := ih (by simp only [Nat.succ_eq_add_one] at mono; linarith)
    have st := step_err (F := F) hv (sum_abs_le n a) (show |a n - a n| ≤ 0 by simp)
    have b1 := F.one_le_pow (n + 1)
    have key : (1 + F.u) * (F.err n n (∑ k ∈ range n, |a k|) + 0) + F.u * (∑ k ∈ range n, |a k| + |a n|) + F.eta ≤
        F.err (n + 1) (n + 1) (∑ k ∈ range n, |a k| + |a n|) := by
      unfold err
      have e1 : (1 + F.u) ^ (n + 1) = (1 + F.u) ^ n * (1 + F.u) := pow_succ _ _
      rw [e1] at b1 ⊢
      have b := F.one_le_pow n
      generalize (1 + F.u) ^ n = g at *
      generalize ∑ k ∈ range n, |a k| = M at *
      generalize |a n| = p at *
      push_cast
      have t1 : 0 ≤ (g - 1) * p * (1 + F.u) := by
        have : 0 ≤ g - 1 := by linarith
        positivity
      have t2 : F.eta * 1 ≤ F.eta * (g * (1 + F.u)) := mul_le_mul_of_nonneg_left b1 e0.le
      nlinarith
    refine ⟨F.nearest (v + a n), ?_, ?_⟩
    · show (seqSum n fun k => fin F bz (a k)) + fin F bz (a n) = _
      rw [e]
      refine fin_add (lt_of_le_of_lt (abs_le_of_err (st.trans key) ?_) h)
      exact (abs_add_le _ _).trans (add_le_add (sum_abs_le n a) le_rfl)
    · rw [sum_range_succ, sum_range_succ]
      exact st.trans key

/-- A sum of products in the order of the code. -/
theorem dot_err (n : Nat) (a b : Nat → ℝ)
    (h : ∑ k ∈ range n, |a k| * |b k| + F.err (n + 1) (2 * n) (∑ k ∈ range n, |a k| * |b k|) < F.limit) :
    ∃ v : ℝ, (seqSum n fun k => fin F bz (a k) * fin F bz (b k)) = fin F bz v ∧
      |v - ∑ k ∈ range n, a k * b k| ≤ F.err (n + 1) (2 * n) (∑ k ∈ range n, |a k| * |b k|) := by
  induction n with
  | zero => exact ⟨0, fin_zero.symm, by simp [err]⟩
  | succ n ih =>
    rw [sum_range_succ] at h
    have M0 : 0 ≤ ∑ k ∈ range n, |a k| * |b k| := sum_nonneg fun _ _ => mul_nonneg (abs_nonneg _) (abs_nonneg _)
    have hab : |a n| * |b n| = |a n * b n| := (abs_mul _ _).symm
    rw [hab] at h
    have p0 := abs_nonneg (a n * b n)
    have u0 := F.u_pos
    have e0 := F.eta_pos
    have mono := F.err_mono (show n + 1 ≤ n + 1 + 1 by omega) (show 2 * n ≤ 2 * (n + 1) by omega) M0
      (show _ ≤ ∑ k ∈ range n, |a k| * |b k| + |a n * b n| by linarith)
    obtain ⟨v, e, hv⟩ := ih (by linarith)
    have hT : |∑ k ∈ range n, a k * b k| ≤ ∑ k ∈ range n, |a k| * |b k| := by
      refine (sum_abs_le n _).trans (le_of_eq ?_)
      exact sum_congr rfl fun k _ => abs_mul _ _
    have st := step_err (F := F) hv hT (F.nearest_err (a n * b n))
    have key : (1 + F.u) * (F.err (n + 1) (2 * n) (∑ k ∈ range n, |a k| * |b k|) + (F.u * |a n * b n| + F.eta)) +
          F.u * (∑ k ∈ range n, |a k| * |b k| + |a n * b n|) + F.eta ≤
        F.err (n + 1 + 1) (2 * (n + 1)) (∑ k ∈ range n, |a k| * |b k| + |a n * b n|) := by
      unfold err
      have e1 : (1 + F.u) ^ (n + 1 + 1) = (1 + F.u) ^ n * ((1 + F.u) * (1 + F.u)) := by ring
      have e2 : (1 + F.u) ^ (n + 1) = (1 + F.u) ^ n * (1 + F.u) := by ring
      rw [e1, e2]
      have g1 := F.one_le_pow n
      generalize (1 + F.u) ^ n = g at *
      generalize ∑ k ∈ range n, |a k| * |b k| = M at *
      generalize |a n * b n| = p at *
      push_cast
      have t1 : 0 ≤ (g - 1) * ((1 + F.u) * (1 + F.u)) * p := by
        have : 0 ≤ g - 1 := by linarith
        positivity
      have t2 : 0 ≤ (g - 1) * ((1 + F.u) * (1 + F.u)) * F.eta := by
        have : 0 ≤ g - 1 := by linarith
        positivity
      have t3 : 0 ≤ F.u * F.eta := by positivity
      have t4 : 0 ≤ F.u * F.u * F.eta := by positivity
      nlinarith
    have big : |F.nearest (a n * b n)| < F.limit := by
      refine lt_of_le_of_lt (F.nearest_abs _) (lt_of_le_of_lt ?_ h)
      have g1 : F.err 1 1 |a n * b n| ≤ F.err (n + 1 + 1) (2 * (n + 1)) (∑ k ∈ range n, |a k| * |b k| + |a n * b n|) :=
        F.err_mono (by omega) (by omega) p0 (by linarith)
      have g2 : F.u * |a n * b n| + F.eta ≤ F.err 1 1 |a n * b n| := by
        unfold err
        push_cast
        have : 0 ≤ F.u * F.eta := by positivity
        nlinarith
      linarith
    refine ⟨F.nearest (v + F.nearest (a n * b n)), ?_, ?_⟩
    · show (seqSum n fun k => fin F bz (a k) * fin F bz (b k)) + fin F bz (a n) * fin F bz (b n) = _
      rw [e, fin_mul big]
      refine fin_add (lt_of_le_of_lt (abs_le_of_err (st.trans key) ?_) h)
      exact (abs_add_le _ _).trans (add_le_add hT le_rfl)
    · rw [sum_range_succ, sum_range_succ, hab]
      exact st.trans key

/-- The last addition of a layer: the bias. -/
theorem bias_err {n : Nat} {v T M b : ℝ} (hv : |v - T| ≤ F.err (n + 1) (2 * n) M) (hT : |T| ≤ M)
    (h : M + |b| + F.err (n + 2) (2 * n + 1) (M + |b|) < F.limit) :
    fin F bz v + fin F bz b = fin F bz (F.nearest (v + b)) ∧
      |F.nearest (v + b) - (T + b)| ≤ F.err (n + 2) (2 * n + 1) (M + |b|) := by
  have M0 : 0 ≤ M := (abs_nonneg _).trans hT
  have st := step_err (F := F) hv hT (show |b - b| ≤ 0 by simp)
  have u0 := F.u_pos
  have e0 := F.eta_pos
  have p0 := abs_nonneg b
  have key : (1 + F.u) * (F.err (n + 1) (2 * n) M + 0) + F.u * (M + |b|) + F.eta ≤ F.err (n + 2) (2 * n + 1) (M + |b|) := by
    unfold err
    have e1 : (1 + F.u) ^ (n + 2) = (1 + F.u) ^ (n + 1) * (1 + F.u) := by ring
    have g1 := F.one_le_pow (n + 1)
    rw [e1]
    generalize (1 + F.u) ^ (n + 1) = g at *
    generalize |b| = p at *
    push_cast
    have t1 : 0 ≤ (g - 1) * (1 + F.u) * p := by
      have : 0 ≤ g - 1 := by linarith
      positivity
    have t2 : 0 ≤ (g - 1) * (1 + F.u) * F.eta := by
      have : 0 ≤ g - 1 := by linarith
      positivity
    have t3 : 0 ≤ F.u * F.eta := by positivity
    nlinarith
  refine ⟨fin_add (lt_of_le_of_lt (abs_le_of_err (st.trans key) ?_) h), st.trans key⟩
  exact (abs_add_le _ _).trans (add_le_add hT le_rfl)

/-- Few roundings in `float`: `n` roundings, `n ≤ 2^23`, of sums of size at most `2^126` are finite and their error is at most
`n 2^-23 M + k 2^-149`. -/
theorem err_float {n k : Nat} {M : ℝ} (hn : n ≤ 2 ^ 23) (hk : k ≤ 2 ^ 24) (h0 : 0 ≤ M) (hM : M ≤ 2 ^ 126) :
    binary32.err n k M ≤ n * 2 ^ (-23 : ℤ) * M + k * 2 ^ (-149 : ℤ) ∧ M + binary32.err n k M < binary32.limit := by
  have hu : binary32.u = 1 / 2 ^ 24 := by unfold u binary32; norm_num
  have he : binary32.eta = 1 / 2 ^ 150 := by unfold eta binary32; norm_num
  have hl : binary32.limit = 2 ^ 128 := by unfold limit binary32; norm_num
  have pw : ∀ n : Nat, n ≤ 2 ^ 23 → (1 + 1 / 2 ^ 24 : ℝ) ^ n ≤ 1 + n * (1 / 2 ^ 23) := by
    intro n
    induction n with
    | zero => intro _; norm_num
    | succ n ih =>
      intro h
      have i := ih (by omega)
      have hn : (n : ℝ) ≤ 8388608 := by exact_mod_cast (show n ≤ 8388608 by omega)
      rw [pow_succ]
      push_cast
      generalize (1 + 1 / 2 ^ 24 : ℝ) ^ n = g at *
      linarith
  have p := pw n hn
  have g1 := binary32.one_le_pow n
  have hn' : (n : ℝ) ≤ 8388608 := by exact_mod_cast (show n ≤ 8388608 by omega)
  have hk' : (k : ℝ) ≤ 16777216 := by exact_mod_cast (show k ≤ 16777216 by omega)
  have k0 : (0 : ℝ) ≤ k := by positivity
  have n0 : (0 : ℝ) ≤ n := by positivity
  unfold err
  rw [hl, he]
  rw [hu] at g1 ⊢
  generalize (1 + 1 / 2 ^ 24 : ℝ) ^ n = g at *
  have g2 : g ≤ 2 := by linarith
  have a : (g - 1) * M ≤ n * (1 / 2 ^ 23) * M := mul_le_mul_of_nonneg_right (by linarith) h0
  have b : k * (1 / 2 ^ 150) * g ≤ k * (1 / 2 ^ 150) * 2 := mul_le_mul_of_nonneg_left g2 (by positivity)
  have a2 : (g - 1) * M ≤ 1 * 2 ^ 126 := mul_le_mul (by linarith) hM h0 (by norm_num)
  constructor
  · have z1 : (2 : ℝ) ^ (-23 : ℤ) = 1 / 2 ^ 23 := by norm_num
    have z2 : (2 : ℝ) ^ (-149 : ℤ) = 1 / 2 ^ 150 * 2 := by norm_num
    rw [z1, z2]
    linarith
  · linarith

end Spec.Format

open Spec.Format
variable {F : Format} {bz : EReal → Option EReal}

/-- Entries chosen one by one. -/
theorem choose2 {m n : Nat} {P : Nat → Nat → ℝ → Prop} (h : ∀ i < m, ∀ j < n, ∃ v, P i j v) :
    ∃ C : Nat → Nat → ℝ, ∀ i < m, ∀ j < n, P i j (C i j) := by
  classical
  refine ⟨fun i j => if c : i < m ∧ j < n then (h i c.1 j c.2).choose else 0, fun i hi j hj => ?_⟩
  simp only [hi, hj, and_self, dif_pos]
  exact (h i hi j hj).choose_spec

theorem choose1 {m : Nat} {P : Nat → ℝ → Prop} (h : ∀ i < m, ∃ v, P i v) : ∃ C : Nat → ℝ, ∀ i < m, P i (C i) := by
  classical
  refine ⟨fun i => if c : i < m then (h i c).choose else 0, fun i hi => ?_⟩
  simp only [hi, dif_pos]
  exact (h i hi).choose_spec

theorem ok_tab2 {R : Type} [Zero R] {m n : Nat} {f g : Nat → Nat → R} (h : ∀ i < m, ∀ j < n, f i j = g i j) :
    Outcome.ok (tab [m, n] (fn2 f)).data = .ok (tab [m, n] (fn2 g)).data := by
  refine congrArg (fun t => Outcome.ok (Tensor.data t)) (tab_congr fun idx hv => ?_)
  match idx, hv with
  | [i, j], hv => exact h i hv.1 j hv.2.1

theorem ok_tab4 {R : Type} [Zero R] {n₁ n₂ n₃ n₄ : Nat} {f g : Nat → Nat → Nat → Nat → R}
    (h : ∀ a < n₁, ∀ b < n₂, ∀ c < n₃, ∀ d < n₄, f a b c d = g a b c d) :
    Outcome.ok (tab [n₁, n₂, n₃, n₄] (fn4 f)).data = .ok (tab [n₁, n₂, n₃, n₄] (fn4 g)).data := by
  refine congrArg (fun t => Outcome.ok (Tensor.data t)) (tab_congr fun idx hv => ?_)
  match idx, hv with
  | [a, b, c, d], hv => exact h a hv.1 b hv.2.1 c hv.2.2.1 d hv.2.2.2.1

theorem choose4 {n₁ n₂ n₃ n₄ : Nat} {P : Nat → Nat → Nat → Nat → ℝ → Prop}
    (h : ∀ a < n₁, ∀ b < n₂, ∀ c < n₃, ∀ d < n₄, ∃ v, P a b c d v) :
    ∃ C : Nat → Nat → Nat → Nat → ℝ, ∀ a < n₁, ∀ b < n₂, ∀ c < n₃, ∀ d < n₄, P a b c d (C a b c d) := by
  classical
  refine ⟨fun a b c d => if x : a < n₁ ∧ b < n₂ ∧ c < n₃ ∧ d < n₄ then (h a x.1 b x.2.1 c x.2.2.1 d x.2.2.2).choose else 0,
    fun a ha b hb c hc d hd => ?_⟩
  simp only [ha, hb, hc, hd, and_self, dif_pos]
  exact (h a ha b hb c hc d hd).choose_spec

/-- C135: a matrix product in a format of IEEE 754. If the products' absolute values plus the error bound stay below the
overflow limit, all entries are finite and within the error bound of the exact ones, underflow included. -/
theorem C135_mm {m l n : Nat} (A B : Nat → Nat → ℝ) {c : List (Ieee (F.arith bz))} (hc : c.length = m * n)
    (h : ∀ i < m, ∀ j < n, ∑ k ∈ range l, |A i k| * |B k j| +
      F.err (l + 1) (2 * l) (∑ k ∈ range l, |A i k| * |B k j|) < F.limit) :
    ∃ C : Nat → Nat → ℝ,
      Plain.mm (tab [m, l] (fn2 fun i k => fin F bz (A i k))) (tab [l, n] (fn2 fun k j => fin F bz (B k j))) [m, n] c =
        .ok (tab [m, n] (fn2 fun i j => fin F bz (C i j))).data ∧
      ∀ i < m, ∀ j < n, |C i j - ∑ k ∈ range l, A i k * B k j| ≤
        F.err (l + 1) (2 * l) (∑ k ∈ range l, |A i k| * |B k j|) := by
  obtain ⟨C, hC⟩ := choose2 fun i hi j hj => dot_err (bz := bz) l (fun k => A i k) (fun k => B k j) (h i hi j hj)
  refine ⟨C, (Plain.mm_run _ _ hc).trans ?_, fun i hi j hj => (hC i hi j hj).2⟩
  exact ok_tab2 fun i hi j hj => (hC i hi j hj).1

/-- C135 with the second factor transposed. -/
theorem C135_mmt {m l n : Nat} (A B : Nat → Nat → ℝ) {c : List (Ieee (F.arith bz))} (hc : c.length = m * n)
    (h : ∀ i < m, ∀ j < n, ∑ k ∈ range l, |A i k| * |B j k| +
      F.err (l + 1) (2 * l) (∑ k ∈ range l, |A i k| * |B j k|) < F.limit) :
    ∃ C : Nat → Nat → ℝ,
      Plain.mmt (tab [m, l] (fn2 fun i k => fin F bz (A i k))) (tab [n, l] (fn2 fun j k => fin F bz (B j k))) [m, n] c =
        .ok (tab [m, n] (fn2 fun i j => fin F bz (C i j))).data ∧
      ∀ i < m, ∀ j < n, |C i j - ∑ k ∈ range l, A i k * B j k| ≤
        F.err (l + 1) (2 * l) (∑ k ∈ range l, |A i k| * |B j k|) := by
  obtain ⟨C, hC⟩ := choose2 fun i hi j hj => dot_err (bz := bz) l (fun k => A i k) (fun k => B j k) (h i hi j hj)
  refine ⟨C, (Plain.mmt_run _ _ hc).trans ?_, fun i hi j hj => (hC i hi j hj).2⟩
  exact ok_tab2 fun i hi j hj => (hC i hi j hj).1

/-- C135 with the first factor transposed. -/
theorem C135_mtm {m l n : Nat} (A B : Nat → Nat → ℝ) {c : List (Ieee (F.arith bz))} (hc : c.length = m * n)
    (h : ∀ i < m, ∀ j < n, ∑ k ∈ range l, |A k i| * |B k j| +
      F.err (l + 1) (2 * l) (∑ k ∈ range l, |A k i| * |B k j|) < F.limit) :
    ∃ C : Nat → Nat → ℝ,
      Plain.mtm (tab [l, m] (fn2 fun k i => fin F bz (A k i))) (tab [l, n] (fn2 fun k j => fin F bz (B k j))) [m, n] c =
        .ok (tab [m, n] (fn2 fun i j => fin F bz (C i j))).data ∧
      ∀ i < m, ∀ j < n, |C i j - ∑ k ∈ range l, A k i * B k j| ≤
        F.err (l + 1) (2 * l) (∑ k ∈ range l, |A k i| * |B k j|) := by
  obtain ⟨C, hC⟩ := choose2 fun i hi j hj => dot_err (bz := bz) l (fun k => A k i) (fun k => B k j) (h i hi j hj)
  refine ⟨C, (Plain.mtm_run _ _ hc).trans ?_, fun i hi j hj => (hC i hi j hj).2⟩
  exact ok_tab2 fun i hi j hj => (hC i hi j hj).1

/-- C135: row and column sums. -/
theorem C135_sums {m n : Nat} (X : Nat → Nat → ℝ) {y z : List (Ieee (F.arith bz))} (hy : y.length = m) (hz : z.length = n)
    (hr : ∀ i < m, ∑ j ∈ range n, |X i j| + F.err n n (∑ j ∈ range n, |X i j|) < F.limit)
    (hc : ∀ j < n, ∑ i ∈ range m, |X i j| + F.err m m (∑ i ∈ range m, |X i j|) < F.limit) :
    ∃ R C : Nat → ℝ,
      Kernels.innerContraction (tab [m, n] (fn2 fun i j => fin F bz (X i j))) y =
        .ok ((List.range m).map fun i => fin F bz (R i)) ∧
      Kernels.outerContraction (tab [m, n] (fn2 fun i j => fin F bz (X i j))) z =
        .ok ((List.range n).map fun j => fin F bz (C j)) ∧
      (∀ i < m, |R i - ∑ j ∈ range n, X i j| ≤ F.err n n (∑ j ∈ range n, |X i j|)) ∧
      ∀ j < n, |C j - ∑ i ∈ range m, X i j| ≤ F.err m m (∑ i ∈ range m, |X i j|) := by
  obtain ⟨R, hR⟩ := choose1 fun i hi => sum_err (bz := bz) n (fun j => X i j) (hr i hi)
  obtain ⟨C, hC⟩ := choose1 fun j hj => sum_err (bz := bz) m (fun i => X i j) (hc j hj)
  obtain ⟨e1, e2⟩ := C113_contractions (fun i j => fin F bz (X i j)) hy hz
  refine ⟨R, C, e1.trans ?_, e2.trans ?_, fun i hi => (hR i hi).2, fun j hj => (hC j hj).2⟩
  · exact congrArg _ (List.map_congr_left fun i hi => by
      rw [seqSum_eq_foldl]; exact (hR i (List.mem_range.1 hi)).1)
  · exact congrArg _ (List.map_congr_left fun j hj => by
      rw [seqSum_eq_foldl]; exact (hC j (List.mem_range.1 hj)).1)

/-- C135: convolution of `nhwc` images; the size is the convolution of the absolute values. -/
theorem C135_conv_nhwc {H W : Axis} (hH : AxisOK u32 H) (hW : AxisOK u32 W) {n c d : Nat}
    (hsz : [H.n, W.n, c].prod ≤ 2 ^ 31) (X Y : Nat → Nat → Nat → Nat → ℝ) (junkI : Nat → Int)
    (junk : Nat → Ieee (F.arith bz)) {z : List (Ieee (F.arith bz))} (hz : z.length = [n, H.m, W.m, d].prod)
    (h : ∀ b < n, ∀ i < H.m, ∀ j < W.m, ∀ e < d,
      conv2 H W c (fun p q k => |X b p q k|) (fun r s k e => |Y r s k e|) i j e +
        F.err (H.k * (W.k * c) + 1) (2 * (H.k * (W.k * c)))
          (conv2 H W c (fun p q k => |X b p q k|) (fun r s k e => |Y r s k e|) i j e) < F.limit) :
    ∃ Z : Nat → Nat → Nat → Nat → ℝ,
      Kernels.convNhwc (convTrait H W) junkI junk [n, H.m, W.m, d]
          (tab [n, H.n, W.n, c] (fn4 fun b p q k => fin F bz (X b p q k)))
          (tab [H.k, W.k, c, d] (fn4 fun r s k e => fin F bz (Y r s k e))) z =
        .ok (tab [n, H.m, W.m, d] (fn4 fun b i j e => fin F bz (Z b i j e))).data ∧
      ∀ b < n, ∀ i < H.m, ∀ j < W.m, ∀ e < d, |Z b i j e - conv2 H W c (X b) Y i j e| ≤
        F.err (H.k * (W.k * c) + 1) (2 * (H.k * (W.k * c)))
          (conv2 H W c (fun p q k => |X b p q k|) (fun r s k e => |Y r s k e|) i j e) := by
  obtain ⟨Z, hZ⟩ := choose4 (n₁ := n) (n₂ := H.m) (n₃ := W.m) (n₄ := d) fun b hb i hi j hj e he => by
    have hfit := h b hb i hi j hj e he
    rw [← conv2_flat] at hfit
    simp only [← window_abs] at hfit
    exact dot_err (bz := bz) (H.k * (W.k * c))
      (fun p => window H W (fun a a' => X b a a' (p % (W.k * c) % c)) i j (p / (W.k * c)) (p % (W.k * c) / c))
      (fun p => Y (p / (W.k * c)) (p % (W.k * c) / c) (p % (W.k * c) % c) e) hfit
  refine ⟨Z, (C91_conv_order hH hW hsz _ _ junkI junk hz).trans ?_, fun b hb i hi j hj e he => ?_⟩
  · refine ok_tab4 fun b hb i hi j hj e he => ?_
    simp only [← window_hom (f := fin F bz) fin_zero]
    exact (hZ b hb i hi j hj e he).1
  · have := (hZ b hb i hi j hj e he).2
    rw [conv2_flat] at this
    simp only [window_abs] at this
    rwa [conv2_flat H W c (fun p q k => |X b p q k|) (fun r s k e => |Y r s k e|)] at this

/-- C135: convolution of `nchw` images. -/
theorem C135_conv_nchw {H W : Axis} (hH : AxisOK u32 H) (hW : AxisOK u32 W) {n c d : Nat}
    (X Y : Nat → Nat → Nat → Nat → ℝ)
    (junk : Nat → Ieee (F.arith bz)) {z : List (Ieee (F.arith bz))} (hz : z.length = [n, d, H.m, W.m].prod)
    (h : ∀ b < n, ∀ e < d, ∀ i < H.m, ∀ j < W.m,
      conv2 H W c (fun p q k => |X b k p q|) (fun r s k e => |Y e k r s|) i j e +
        F.err (c * (H.k * W.k) + 1) (2 * (c * (H.k * W.k)))
          (conv2 H W c (fun p q k => |X b k p q|) (fun r s k e => |Y e k r s|) i j e) < F.limit) :
    ∃ Z : Nat → Nat → Nat → Nat → ℝ,
      Kernels.convNchw (convTrait H W) junk [n, d, H.m, W.m]
          (tab [n, c, H.n, W.n] (fn4 fun b k p q => fin F bz (X b k p q)))
          (tab [d, c, H.k, W.k] (fn4 fun e k r s => fin F bz (Y e k r s))) z =
        .ok (tab [n, d, H.m, W.m] (fn4 fun b e i j => fin F bz (Z b e i j))).data ∧
      ∀ b < n, ∀ e < d, ∀ i < H.m, ∀ j < W.m,
        |Z b e i j - conv2 H W c (fun p q k => X b k p q) (fun r s k e => Y e k r s) i j e| ≤
        F.err (c * (H.k * W.k) + 1) (2 * (c * (H.k * W.k)))
          (conv2 H W c (fun p q k => |X b k p q|) (fun r s k e => |Y e k r s|) i j e) := by
  obtain ⟨Z, hZ⟩ := choose4 (n₁ := n) (n₂ := d) (n₃ := H.m) (n₄ := W.m) fun b hb e he i hi j hj => by
    have hfit := h b hb e he i hi j hj
    rw [← conv2_flat_nchw] at hfit
    simp only [← window_abs, mul_comm |window H W _ _ _ _ _|] at hfit
    exact dot_err (bz := bz) (c * (H.k * W.k))
      (fun p => Y e (p / (H.k * W.k)) (p % (H.k * W.k) / W.k) (p % (H.k * W.k) % W.k))
      (fun p => window H W (X b (p / (H.k * W.k))) i j (p % (H.k * W.k) / W.k) (p % (H.k * W.k) % W.k)) hfit
  refine ⟨Z, (C91_conv_order_nchw hH hW _ _ junk hz).trans ?_, fun b hb e he i hi j hj => ?_⟩
  · refine ok_tab4 fun b hb e he i hi j hj => ?_
    simp only [← window_hom (f := fin F bz) fin_zero]
    exact (hZ b hb e he i hi j hj).1
  · have := (hZ b hb e he i hi j hj).2
    simp only [mul_comm (Y e _ _ _), mul_comm |Y e _ _ _|] at this
    rw [conv2_flat_nchw H W c (fun p q k => X b k p q) (fun r s k e => Y e k r s)] at this
    simp only [window_abs] at this
    rwa [conv2_flat_nchw H W c (fun p q k => |X b k p q|) (fun r s k e => |Y e k r s|)] at this

/-- C135: a dense layer without activation. -/
theorem C135_dense (junkW junkY junkB : Nat → Ieee (F.arith bz)) {n m k : Nat} (hk : k < 2 ^ 32) (X W : Nat → Nat → ℝ)
    (B : Nat → ℝ) {wInit bInit : Init (Ieee (F.arith bz))}
    (hw : wInit [m, k] (fresh junkW [m, k].prod) = .ok (tab [m, k] (fn2 fun l j => fin F bz (W l j))).data)
    (hb : bInit [k] (fresh junkB [k].prod) = .ok (tab [k] (fn1 fun j => fin F bz (B j))).data)
    (h : ∀ i < n, ∀ j < k, ∑ l ∈ range m, |X i l| * |W l j| + |B j| +
      F.err (m + 2) (2 * m + 1) (∑ l ∈ range m, |X i l| * |W l j| + |B j|) < F.limit) :
    ∃ Z : Nat → Nat → ℝ,
      Gives (fun x => Layers.dense junkW junkY junkB noopAct k x wInit bInit) (tab [n, m] (fn2 fun i l => fin F bz (X i l)))
        (tab [n, k] (fn2 fun i j => fin F bz (Z i j))) ∧
      ∀ i < n, ∀ j < k, |Z i j - (∑ l ∈ range m, X i l * W l j + B j)| ≤
        F.err (m + 2) (2 * m + 1) (∑ l ∈ range m, |X i l| * |W l j| + |B j|) := by
  obtain ⟨Z, hZ⟩ := choose2 (m := n) (n := k) fun i hi j hj => by
    have hfit := h i hi j hj
    have M0 : 0 ≤ ∑ l ∈ range m, |X i l| * |W l j| := sum_nonneg fun _ _ => mul_nonneg (abs_nonneg _) (abs_nonneg _)
    have mono := F.err_mono (show m + 1 ≤ m + 2 by omega) (show 2 * m ≤ 2 * m + 1 by omega) M0
      (show _ ≤ ∑ l ∈ range m, |X i l| * |W l j| + |B j| by linarith [abs_nonneg (B j)])
    obtain ⟨v, e, hv⟩ := dot_err (bz := bz) m (fun l => X i l) (fun l => W l j) (by linarith [abs_nonneg (B j)])
    have hT : |∑ l ∈ range m, X i l * W l j| ≤ ∑ l ∈ range m, |X i l| * |W l j| := by
      refine (sum_abs_le m _).trans (le_of_eq ?_)
      exact sum_congr rfl fun k _ => abs_mul _ _
    obtain ⟨e2, h2⟩ := bias_err (bz := bz) hv hT hfit
    exact (⟨_, (congrArg (· + fin F bz (B j)) e).trans e2, h2⟩ :
      ∃ v, (seqSum m fun l => fin F bz (X i l) * fin F bz (W l j)) + fin F bz (B j) = fin F bz v ∧
        |v - (∑ l ∈ range m, X i l * W l j + B j)| ≤ _)
  refine ⟨Z, Gives.of (C77_dense junkW junkY junkB noop_acts hk (fun i l => fin F bz (X i l)) (fun l j => fin F bz (W l j))
    (fun j => fin F bz (B j)) hw hb) rfl ?_, fun i hi j hj => (hZ i hi j hj).2⟩
  refine tab_congr fun idx hv => ?_
  match idx, hv with
  | [i, j], hv => exact (hZ i hv.1 j hv.2.1).1

/-- C135: `nearest` is the rounding of the standard: a number of the format, none is nearer, and the error is at most
half a unit of the last place, which is `u |x|` for normal numbers and `η` for subnormal ones. -/
theorem C135_rounding (F : Format) (x : ℝ) :
    F.Mem (F.nearest x) ∧ (∀ f, F.Mem f → |F.nearest x - x| ≤ |f - x|) ∧ |F.nearest x - x| ≤ F.u * |x| + F.eta :=
  ⟨F.mem_nearest x, fun _ hf => F.nearest_best hf x, F.nearest_err x⟩

/-- C135 for `float`: up to `2^23` roundings and sums of size up to `2^126` do not overflow, and the bound is at most
`n 2^-23 M + k 2^-149`. -/
theorem C135_float {n k : Nat} {M : ℝ} (hn : n ≤ 2 ^ 23) (hk : k ≤ 2 ^ 24) (h0 : 0 ≤ M) (hM : M ≤ 2 ^ 126) :
    Format.binary32.err n k M ≤ n * 2 ^ (-23 : ℤ) * M + k * 2 ^ (-149 : ℤ) ∧
      M + Format.binary32.err n k M < Format.binary32.limit := err_float hn hk h0 hM

/-! ## Without the condition -/

theorem round_top {x : ℝ} (h : F.limit ≤ F.nearest x) : F.round (x : EReal) = ⊤ := by
  unfold Format.round
  rw [if_neg (EReal.coe_ne_top x), if_neg (EReal.coe_ne_bot x), EReal.toReal_coe, if_pos h]

theorem round_bot {x : ℝ} (h : F.nearest x ≤ -F.limit) : F.round (x : EReal) = ⊥ := by
  unfold Format.round
  rw [if_neg (EReal.coe_ne_top x), if_neg (EReal.coe_ne_bot x), EReal.toReal_coe,
    if_neg (by linarith [F.limit_pos]), if_pos h]

theorem nearest_small {x : ℝ} (h : |x| < F.eta) : F.nearest x = 0 := by
  obtain ⟨k, e, -, he, hk⟩ := F.mem_nearest x
  have hb := F.nearest_best (f := 0) ⟨0, _, by simp, le_rfl, by simp⟩ x
  rw [zero_sub, abs_neg] at hb
  have h2 : |F.nearest x| < 2 * F.eta := by
    have := abs_add_le (F.nearest x - x) x
    rw [sub_add_cancel] at this
    linarith
  by_contra c
  have k0 : k ≠ 0 := by
    rintro rfl
    apply c
    rw [hk]
    simp
  have k1 : (1 : ℝ) ≤ |(k : ℝ)| := by exact_mod_cast Int.one_le_abs k0
  have e1 : 2 * F.eta ≤ 2 ^ e := by
    unfold eta
    rw [← zpow_one_add₀ (by norm_num : (2 : ℝ) ≠ 0)]
    exact two_le (by omega)
  rw [hk, abs_mul, abs_of_pos (two_pos e)] at h2
  nlinarith [two_pos e]

/-- C135: the condition on the size is needed. The row `(2^emax, 2^emax)` times the column `(2, -2)` is NaN: both products
overflow, although the exact result is 0. -/
theorem C135_overflow {c : List (Ieee (F.arith bz))} (hc : c.length = 1 * 1) :
    Plain.mm (tab [1, 2] (fn2 fun _ _ => fin F bz (2 ^ F.emax)))
        (tab [2, 1] (fn2 fun k _ => fin F bz (if k = 0 then 2 else -2))) [1, 1] c = .ok [.nan] ∧
      ∑ k ∈ range 2, (2 : ℝ) ^ F.emax * (if k = 0 then 2 else -2) = 0 := by
  have m : F.nearest (2 ^ (F.emax + 1)) = F.limit :=
    F.nearest_mem (F.mem_two_pow (by have := F.max0; have := F.min0; have := F.p1; omega))
  have t : fin F bz (2 ^ F.emax) * fin F bz 2 = .num ⊤ := by
    unfold fin
    rw [Ieee.num_mul (by
      rintro (⟨-, h | h⟩ | ⟨-, h | h⟩)
      · exact EReal.coe_ne_top _ h
      · exact EReal.coe_ne_bot _ h
      · exact EReal.coe_ne_top _ h
      · exact EReal.coe_ne_bot _ h), ← EReal.coe_mul, ← zpow_add_one₀ (by norm_num : (2 : ℝ) ≠ 0)]
    exact congrArg _ (round_top m.ge)
  have b : fin F bz (2 ^ F.emax) * fin F bz (-2) = .num ⊥ := by
    unfold fin
    rw [Ieee.num_mul (by
      rintro (⟨-, h | h⟩ | ⟨-, h | h⟩)
      · exact EReal.coe_ne_top _ h
      · exact EReal.coe_ne_bot _ h
      · exact EReal.coe_ne_top _ h
      · exact EReal.coe_ne_bot _ h), ← EReal.coe_mul, mul_neg, ← zpow_add_one₀ (by norm_num : (2 : ℝ) ≠ 0)]
    refine congrArg _ (round_bot ?_)
    rw [nearest_neg, m]
  refine ⟨(Plain.mm_run _ _ hc).trans ?_, by simp [sum_range_succ]⟩
  have e : (seqSum 2 fun k => fin F bz (2 ^ F.emax) * fin F bz (if k = 0 then 2 else -2)) = .nan := by
    show (0 + fin F bz (2 ^ F.emax) * fin F bz (if 0 = 0 then 2 else -2)) +
      fin F bz (2 ^ F.emax) * fin F bz (if 1 = 0 then 2 else -2) = _
    rw [if_pos rfl, if_neg (by decide), t, b, Ieee.zero_def, Ieee.num_add (by simp), zero_add, (F.arith bz).top]
    show Ieee.add _ _ = _
    unfold Ieee.add
    dsimp only
    rw [if_pos (Or.inl ⟨rfl, rfl⟩)]
  show Outcome.ok [_] = _
  exact congrArg (fun x => Outcome.ok [x]) e

/-- C135: the terms with `η` are needed. The product of two numbers of the format that is below half the least positive
one is 0, so no bound relative to the exact result holds. -/
theorem C135_underflow {e : ℤ} (he : F.emin - (F.p - 1) ≤ e) (h2 : e + e < F.emin - F.p) {c : List (Ieee (F.arith bz))}
    (hc : c.length = 1 * 1) :
    F.Mem (2 ^ e) ∧ Plain.mm (tab [1, 1] (fn2 fun _ _ => fin F bz (2 ^ e))) (tab [1, 1] (fn2 fun _ _ => fin F bz (2 ^ e)))
        [1, 1] c = .ok [fin F bz 0] ∧
      ∀ q : ℝ, q < 1 → ¬ |0 - (2 : ℝ) ^ e * 2 ^ e| ≤ q * |(2 : ℝ) ^ e * 2 ^ e| := by
  have n : F.nearest (2 ^ e * 2 ^ e) = 0 := by
    refine nearest_small ?_
    rw [← zpow_add₀ (by norm_num : (2 : ℝ) ≠ 0), abs_of_pos (two_pos _)]
    exact zpow_lt_zpow_right₀ (by norm_num) h2
  refine ⟨F.mem_two_pow he, (Plain.mm_run _ _ hc).trans ?_, fun q hq c => ?_⟩
  · have e1 : (seqSum 1 fun _ => fin F bz (2 ^ e) * fin F bz (2 ^ e)) = fin F bz 0 := by
      show 0 + fin F bz (2 ^ e) * fin F bz (2 ^ e) = _
      rw [fin_mul (by rw [n, abs_zero]; exact F.limit_pos), n, ← fin_zero (F := F) (bz := bz),
        fin_add (by rw [add_zero, nearest_zero, abs_zero]; exact F.limit_pos), add_zero, nearest_zero]
    show Outcome.ok [_] = _
    exact congrArg (fun x => Outcome.ok [x]) e1
  · rw [zero_sub, abs_neg] at c
    have : 0 < |(2 : ℝ) ^ e * 2 ^ e| := abs_pos.2 (mul_pos (two_pos e) (two_pos e)).ne'
    nlinarith

/-! ## The hypotheses are met -/

/-- A product of 3×5 and 5×2 matrices of `float`s up to 1000. -/
example (A B : Nat → Nat → ℝ) (hA : ∀ i k, |A i k| ≤ 1000) (hB : ∀ i k, |B i k| ≤ 1000) : ∀ i < 3, ∀ j < 2,
    ∑ k ∈ range 5, |A i k| * |B k j| + Format.binary32.err 6 10 (∑ k ∈ range 5, |A i k| * |B k j|) <
      Format.binary32.limit := by
  intro i _ j _
  refine (C135_float (by norm_num) (by norm_num) (sum_nonneg fun _ _ => mul_nonneg (abs_nonneg _) (abs_nonneg _)) ?_).2
  calc ∑ k ∈ range 5, |A i k| * |B k j| ≤ ∑ _k ∈ range 5, (1000 * 1000 : ℝ) :=
        sum_le_sum fun k _ => mul_le_mul (hA i k) (hB k j) (abs_nonneg _) (by norm_num)
    _ = 5000000 := by rw [sum_const, card_range]; norm_num
    _ ≤ 2 ^ 126 := by norm_num

example : (Format.binary32.emin - (Format.binary32.p - 1) ≤ -100) ∧ (-100 + -100 < Format.binary32.emin - Format.binary32.p) := by
  decide

/-- `float` computes with the integers up to `2^24` exactly, as C130 supposes. -/
example : KeepsInts Format.binary32.nearest (2 ^ 24) := by
  intro z hz
  rcases lt_or_eq_of_le hz with h | h
  · exact Format.nearest_mem _ (Format.mem_int _ h)
  · have e : z = 2 ^ 24 ∨ z = -2 ^ 24 := by
      rcases abs_choice z with c | c <;> omega
    have m : Format.binary32.nearest (2 ^ (24 : ℤ)) = 2 ^ (24 : ℤ) := Format.nearest_mem _ (Format.mem_two_pow _ (by decide))
    rcases e with rfl | rfl
    · exact_mod_cast m
    · rw [Int.cast_neg, Format.nearest_neg]
      exact_mod_cast congrArg Neg.neg m

/-- The arithmetic of `float` is one that C94 to C96 speak of. -/
noncomputable example : Arith := Format.binary32.arith fun _ => none

/-! ## Concrete cases

`binary32` (float); elements of size at most one. -/

theorem exBinFits {s : ℝ} {n k : Nat} (hn : n ≤ 2 ^ 23) (hk : k ≤ 2 ^ 24) (h0 : 0 ≤ s) (h : s ≤ 1000) :
    s + Format.binary32.err n k s < Format.binary32.limit := (C135_float hn hk h0 (h.trans (by norm_num))).2

theorem exSum {n : Nat} (hn : n ≤ 1000) {f : Nat → ℝ} (hf : ∀ k, 0 ≤ f k ∧ f k ≤ 1) :
    0 ≤ ∑ k ∈ range n, f k ∧ ∑ k ∈ range n, f k ≤ 1000 := by
  refine ⟨sum_nonneg fun k _ => (hf k).1, (sum_le_sum fun k _ => (hf k).2).trans ?_⟩
  rw [sum_const, card_range, nsmul_eq_mul, mul_one]
  exact_mod_cast hn

theorem exUnit {a b : ℝ} (ha : |a| ≤ 1) (hb : |b| ≤ 1) : 0 ≤ |a| * |b| ∧ |a| * |b| ≤ 1 :=
  ⟨mul_nonneg (abs_nonneg _) (abs_nonneg _), mul_le_one₀ ha (abs_nonneg _) hb⟩

theorem exPadded {l n : Nat} {f : Nat → ℝ} (hf : ∀ a, 0 ≤ f a ∧ f a ≤ 1) (p : Nat) :
    0 ≤ padded l n f p ∧ padded l n f p ≤ 1 := by
  unfold padded
  split
  · exact hf _
  · exact ⟨le_rfl, zero_le_one⟩

theorem exConv {H W : Axis} {c : Nat} (hn : H.k * (W.k * c) ≤ 1000) {X : Nat → Nat → Nat → ℝ} {Y : Nat → Nat → Nat → Nat → ℝ}
    (hX : ∀ p q k, |X p q k| ≤ 1) (hY : ∀ r s k e, |Y r s k e| ≤ 1) (i j e : Nat) :
    0 ≤ conv2 H W c (fun p q k => |X p q k|) (fun r s k e => |Y r s k e|) i j e ∧
      conv2 H W c (fun p q k => |X p q k|) (fun r s k e => |Y r s k e|) i j e ≤ 1000 := by
  have t : ∀ u v k, 0 ≤ window H W (fun a b => |X a b k|) i j u v * |Y u v k e| ∧
      window H W (fun a b => |X a b k|) i j u v * |Y u v k e| ≤ 1 := fun u v k => by
    have w : 0 ≤ window H W (fun a b => |X a b k|) i j u v ∧ window H W (fun a b => |X a b k|) i j u v ≤ 1 :=
      exPadded (fun a => exPadded (fun b => ⟨abs_nonneg _, hX a b k⟩) _) _
    exact ⟨mul_nonneg w.1 (abs_nonneg _), mul_le_one₀ w.2 (abs_nonneg _) (hY u v k e)⟩
  refine ⟨sum_nonneg fun u _ => sum_nonneg fun v _ => sum_nonneg fun k _ => (t u v k).1,
    (sum_le_sum fun u _ => sum_le_sum fun v _ => sum_le_sum fun k _ => (t u v k).2).trans ?_⟩
  simp only [sum_const, card_range, nsmul_eq_mul, mul_one]
  exact_mod_cast hn

/-- Elements between -1 and 1. -/
noncomputable def exOf (i j k l : Nat) : ℝ := if (i + j) % 2 = 0 then 1 / (1 + k) else -1 / (1 + l)

theorem exOf_le (i j k l : Nat) : |exOf i j k l| ≤ 1 := by
  unfold exOf
  split <;> rw [abs_div] <;> refine div_le_one_of_le₀ ?_ (abs_nonneg _)
  · rw [abs_one, abs_of_nonneg (by positivity)]; linarith [(Nat.cast_nonneg k : (0 : ℝ) ≤ k)]
  · rw [abs_neg, abs_one, abs_of_nonneg (by positivity)]; linarith [(Nat.cast_nonneg l : (0 : ℝ) ≤ l)]

example (x : Ieee (Format.binary32.arith bz)) := C135_mm (m := 2) (l := 3) (n := 2) (exOf 0 0) (exOf 0 1) (c := List.replicate 4 x) rfl
  fun _ _ _ _ => have h := exSum (n := 3) (by decide) fun _ => exUnit (exOf_le ..) (exOf_le ..)
    exBinFits (by decide) (by decide) h.1 h.2
example (x : Ieee (Format.binary32.arith bz)) := C135_mmt (m := 2) (l := 3) (n := 2) (exOf 0 0) (exOf 0 1) (c := List.replicate 4 x) rfl
  fun _ _ _ _ => have h := exSum (n := 3) (by decide) fun _ => exUnit (exOf_le ..) (exOf_le ..)
    exBinFits (by decide) (by decide) h.1 h.2
example (x : Ieee (Format.binary32.arith bz)) := C135_mtm (m := 2) (l := 3) (n := 2) (exOf 0 0) (exOf 0 1) (c := List.replicate 4 x) rfl
  fun _ _ _ _ => have h := exSum (n := 3) (by decide) fun _ => exUnit (exOf_le ..) (exOf_le ..)
    exBinFits (by decide) (by decide) h.1 h.2
example (x : Ieee (Format.binary32.arith bz)) := C135_sums (m := 2) (n := 3) (exOf 0 0) (y := List.replicate 2 x)
  (z := List.replicate 3 x) rfl rfl
  (fun _ _ => have h := exSum (n := 3) (by decide) fun _ => ⟨abs_nonneg _, exOf_le ..⟩
    exBinFits (by decide) (by decide) h.1 h.2)
  (fun _ _ => have h := exSum (n := 2) (by decide) fun _ => ⟨abs_nonneg _, exOf_le ..⟩
    exBinFits (by decide) (by decide) h.1 h.2)
example (x : Ieee (Format.binary32.arith bz)) := C135_conv_nhwc exH_ok exW_ok (n := 1) (c := 2) (d := 2) (by decide) exOf exOf
  (fun _ => 9) (fun _ => x) (z := List.replicate 18 x) rfl
  fun _ _ _ _ _ _ _ _ => have h := exConv (H := exH) (W := exW) (c := 2) (by decide) (fun _ _ _ => exOf_le ..) exOf_le _ _ _
    exBinFits (by decide) (by decide) h.1 h.2
example (x : Ieee (Format.binary32.arith bz)) := C135_conv_nchw exH_ok exW_ok (n := 1) (c := 2) (d := 2) exOf exOf
  (fun _ => x) (z := List.replicate 18 x) rfl
  fun b _ e _ i _ j _ => by
    have h := exConv (H := exH) (W := exW) (c := 2) (by decide) (X := fun p q k => exOf b k p q) (Y := fun r s k e => exOf e k r s)
      (fun p q k => exOf_le b k p q) (fun r s k e => exOf_le e k r s) i j e
    exact exBinFits (by decide) (by decide) h.1 h.2
example (x : Ieee (Format.binary32.arith bz)) := C135_dense (fun _ => x) (fun _ => x) (fun _ => x) (n := 2) (m := 3) (k := 2)
  (by decide) (exOf 0 0) (exOf 0 1) (exOf 1 2 3)
  (wInit := fun _ _ => .ok (tab [3, 2] (fn2 fun l j => Format.fin _ bz (exOf 0 1 l j))).data)
  (bInit := fun _ _ => .ok (tab [2] (fn1 fun j => Format.fin _ bz (exOf 1 2 3 j))).data) rfl rfl
  fun i _ j _ => by
    have h := exSum (n := 3) (by decide) (f := fun l => |exOf 0 0 i l| * |exOf 0 1 l j|) fun l =>
      exUnit (exOf_le 0 0 i l) (exOf_le 0 1 l j)
    refine (C135_float (by decide) (by decide) (add_nonneg h.1 (abs_nonneg _)) ?_).2
    exact (add_le_add h.2 (exOf_le 1 2 3 j)).trans (by norm_num)
example (x : Ieee (Format.binary32.arith bz)) := C135_underflow (F := Format.binary32) (e := -100) (by decide) (by decide)
  (c := [x]) rfl

end StdNN
