import Verif.Lemmas.Traits
import Verif.Spec.Sample
import Mathlib.Tactic.LinearCombination
import Mathlib.Algebra.Order.Ring.Nat
/-!
# C01-C07: linear samples
-/
namespace StdNN
open IntTy Spec

/-- Range hypotheses: the parameters are positive where the constructor demands it and every value the code
computes on purpose (padded length, patch size) is representable. -/
structure Fits (N D : IntTy) (k s r l q n : Nat) : Prop where
  hN : N.Std
  hD : D.Std
  k1 : 1 ≤ k
  s1 : 1 ≤ s
  r1 : 1 ≤ r
  hk : N.In k
  hs : N.In s
  hr : N.In r
  hl : N.In l
  hq : N.In q
  hn : D.In n
  padded : D.In ((l + n + q : Nat) : Int)
  patchN : N.In (patch k r : Nat)
  patchD : D.In (patch k r : Nat)

/-- The call `linear_filter_trait<N>(k, s, r)(n, linear_padding_trait<N>(l, q))` with `n` of type `D`. -/
def sampleCall (N D : IntTy) (k s r l q n : Int) : Outcome Int := do
  let f ← Filter.make N k s r
  f.outSize N D ⟨l, q⟩ n

theorem patch_cast {k : Nat} (r : Nat) (k1 : 1 ≤ k) : ((patch k r : Nat) : Int) = (k - 1) * r + 1 := by
  simp [patch, Nat.cast_sub k1]

theorem sampleCall_eval {N D : IntTy} {k s r l q n : Nat} (h : Fits N D k s r l q n) :
    sampleCall N D k s r l q n =
      if l + n + q < patch k r then .throw .invalidArgument
      else if (l + n + q - patch k r) % s ≠ 0 then .throw .invalidArgument
      else .ok (((l + n + q - patch k r) / s + 1 : Nat) : Int) := by
  have hp := patch_cast r h.k1
  have k1 := h.k1; have s1 := h.s1; have r1 := h.r1
  have hpad := h.padded
  push_cast at hpad
  have e := Filter.outSize_eval h.hN h.hD (k := k) (s := s) (r := r) (l := l) (q := q) (n := n)
    (by omega) (by omega) (by omega) (by omega) (by omega) (by omega) h.hk h.hs h.hr h.hl h.hq h.hn
    hpad (by rw [← hp]; exact h.patchN) (by rw [← hp]; exact h.patchD)
  rw [← hp] at e
  rw [sampleCall, Filter.make_ok h.hN h.hk h.hs h.hr (by omega) (by omega) (by omega)]
  simp only [Outcome.ok_bind, e]
  by_cases c : l + n + q < patch k r
  · have c' : (l : Int) + n + q < (patch k r : Nat) := by omega
    simp [c, c']
  · have c' : ¬ (l : Int) + n + q < (patch k r : Nat) := by omega
    have e2 : (l : Int) + n + q - (patch k r : Nat) = ((l + n + q - patch k r : Nat) : Int) := by omega
    simp only [c, c', if_false, e2]
    norm_cast

/-- C01: for representable sizes the call returns `m` exactly when `m ≥ 1` windows tile the padded input. -/
theorem C01_output_length {N D : IntTy} {k s r l q n : Nat} (h : Fits N D k s r l q n) (m : Nat) :
    sampleCall N D k s r l q n = .ok (m : Int) ↔ OutLen k s r l q n m := by
  rw [sampleCall_eval h]
  have s1 := h.s1
  unfold OutLen
  split
  · rename_i c
    simp only [reduceCtorEq, false_iff, not_and]
    intro _ e
    omega
  · split
    · rename_i c1 c2
      simp only [reduceCtorEq, false_iff, not_and]
      intro _ e
      apply c2
      rw [show l + n + q - patch k r = (m - 1) * s by omega]
      simp
    · rename_i c1 c2
      simp only [ne_eq, not_not] at c2
      have hd := Nat.div_add_mod (l + n + q - patch k r) s
      rw [c2] at hd
      simp only [Outcome.ok.injEq, Nat.cast_inj]
      constructor
      · rintro rfl
        refine ⟨Nat.le_add_left 1 _, ?_⟩
        rw [Nat.add_sub_cancel, Nat.mul_comm]
        omega
      · rintro ⟨m1, e⟩
        have : l + n + q - patch k r = s * (m - 1) := by rw [Nat.mul_comm]; omega
        rw [this, Nat.mul_div_cancel_left _ (by omega)]
        omega

/-- C01: if no output length exists the call throws `std::invalid_argument`; there is no third outcome. -/
theorem C01_total {N D : IntTy} {k s r l q n : Nat} (h : Fits N D k s r l q n) :
    (∃ m, OutLen k s r l q n m ∧ sampleCall N D k s r l q n = .ok (m : Int)) ∨
      ((¬ ∃ m, OutLen k s r l q n m) ∧ sampleCall N D k s r l q n = .throw .invalidArgument) := by
  have key := C01_output_length h
  rw [sampleCall_eval h] at key ⊢
  split
  · right
    refine ⟨?_, rfl⟩
    rintro ⟨m, hm⟩
    have := (key m).2 hm
    simp_all
  · split
    · right
      refine ⟨?_, rfl⟩
      rintro ⟨m, hm⟩
      have := (key m).2 hm
      simp_all
    · left
      refine ⟨_, (key _).1 ?_, rfl⟩
      simp_all

/-- Non-vacuity of `Fits`: kernel 3, stride 2, rate 2, padding (1, 2) on 8 cells, `uint32_t`; the output length is 4. -/
example : Fits u32 u32 3 2 2 1 2 8 ∧ OutLen 3 2 2 1 2 8 4 ∧ sampleCall u32 u32 3 2 2 1 2 8 = .ok 4 := by
  refine ⟨⟨?_, ?_, ?_, ?_, ?_, ?_, ?_, ?_, ?_, ?_, ?_, ?_, ?_, ?_⟩, ?_, ?_⟩ <;> decide

/-- Non-vacuity: the mixed instantiation of `conv1d` (`int32_t` parameters, `uint32_t` sizes). -/
example : Fits i32 u32 3 1 1 0 0 7 ∧ sampleCall i32 u32 3 1 1 0 0 7 = .ok 5 := by
  refine ⟨⟨?_, ?_, ?_, ?_, ?_, ?_, ?_, ?_, ?_, ?_, ?_, ?_, ?_, ?_⟩, ?_⟩ <;> decide

/-- Non-vacuity of the rejecting branch: stride 2 does not tile 4 cells with a patch of 3. -/
example : Fits u32 u32 3 2 1 0 0 4 ∧ sampleCall u32 u32 3 2 1 0 0 4 = .throw .invalidArgument := by
  refine ⟨⟨?_, ?_, ?_, ?_, ?_, ?_, ?_, ?_, ?_, ?_, ?_, ?_, ?_, ?_⟩, ?_⟩ <;> decide

/-! ## C02 -/

theorem tap_lt {k s r l q n m j u : Nat} (k1 : 1 ≤ k) (h : OutLen k s r l q n m) (hj : j < m) (hu : u < k) :
    j * s + u * r < l + n + q := by
  obtain ⟨m1, e⟩ := h
  unfold patch at e
  have a : j * s ≤ (m - 1) * s := Nat.mul_le_mul_right _ (by omega)
  have b : u * r ≤ (k - 1) * r := Nat.mul_le_mul_right _ (by omega)
  omega

/-- C02: every tap of an accepted sample is computed exactly and lies in the padded input; `inside` tells whether it
is a real element and `unpad` then gives that element's index. -/
theorem C02_taps {N D : IntTy} {k s r l q n m : Nat} (h : Fits N D k s r l q n)
    (hP : N.In ((l + n + q : Nat) : Int)) (hm : OutLen k s r l q n m) {j u : Nat} (hj : j < m) (hu : u < k) :
    Filter.tap N D ⟨k, s, r⟩ j u = .ok ((j * s + u * r : Nat) : Int) ∧
      j * s + u * r < l + n + q ∧
      Padding.inside N ⟨l, q⟩ ((j * s + u * r : Nat) : Int) n =
        .ok (decide (∃ i < n, j * s + u * r = l + i)) ∧
      ∀ i < n, j * s + u * r = l + i → Padding.unpad N D ⟨l, q⟩ ((j * s + u * r : Nat) : Int) = .ok (i : Int) := by
  have hlt := tap_lt h.k1 hm hj hu
  have s1 := h.s1; have r1 := h.r1; have k1 := h.k1
  have hDtap : D.In ((j * s + u * r : Nat) : Int) := h.padded.mono (by omega) (by omega)
  have hNtap : N.In ((j * s + u * r : Nat) : Int) := hP.mono (by omega) (by omega)
  have hDj : D.In (j : Int) := hDtap.mono (by omega) (by
    have : j * 1 ≤ j * s := Nat.mul_le_mul_left _ s1
    omega)
  have hDu : D.In (u : Int) := hDtap.mono (by omega) (by
    have : u * 1 ≤ u * r := Nat.mul_le_mul_left _ r1
    omega)
  have hln : N.In ((l : Int) + n) := hP.mono (by omega) (by push_cast; omega)
  refine ⟨?_, hlt, ?_, ?_⟩
  · have := Filter.tap_ok h.hN h.hD (k := k) (s := s) (r := r) (j := j) (u := u) (by omega) (by omega) (by omega)
      (by omega) h.hs h.hr hDj hDu (by push_cast at hDtap; exact hDtap)
    rw [this]; push_cast; rfl
  · rw [Padding.inside_ok h.hN (by omega) (by omega) h.hl hNtap hln]
    congr 1
    rw [decide_eq_decide]
    constructor
    · rintro ⟨a, b⟩
      exact ⟨j * s + u * r - l, by omega, by omega⟩
    · rintro ⟨i, hi, e⟩
      omega
  · intro i hi e
    rw [Padding.unpad_ok h.hN h.hD (by omega) (by omega) h.hl hDtap]
    congr 1
    omega

/-- C02: the same for a sample built by its constructor from kernel size, stride, rate and padding: it accepts the length,
and its taps, its test for padding and its translation to indices are those of `C02_taps`. -/
theorem C02_sample {N : IntTy} {k s r l q n m : Nat} (h : Fits N N k s r l q n) (hm : OutLen k s r l q n m) {j u : Nat}
    (hj : j < m) (hu : u < k) :
    ∃ t, Sample.make N k s r ⟨l, q⟩ = .ok t ∧ t.outSize N n = .ok (m : Int) ∧
      t.tap N j u = .ok ((j * s + u * r : Nat) : Int) ∧ j * s + u * r < l + n + q ∧
      t.inside N ((j * s + u * r : Nat) : Int) n = .ok (decide (∃ i < n, j * s + u * r = l + i)) ∧
      ∀ i < n, j * s + u * r = l + i → t.unpad N ((j * s + u * r : Nat) : Int) = .ok (i : Int) := by
  have k1 := h.k1; have s1 := h.s1; have r1 := h.r1
  have e := Filter.make_ok h.hN h.hk h.hs h.hr (by omega) (by omega) (by omega)
  obtain ⟨a, b, c, d⟩ := C02_taps h h.padded hm hj hu
  refine ⟨⟨⟨k, s, r⟩, ⟨l, q⟩⟩, ?_, ?_, a, b, c, d⟩
  · rw [Sample.make, e]; rfl
  · have := (C01_output_length h m).2 hm
    rwa [sampleCall, e, Outcome.ok_bind] at this

/-- C02: the first tap of the first window is the first padded cell, the last tap of the last window the last one. -/
theorem C02_extremes {k s r l q n m : Nat} (hm : OutLen k s r l q n m) :
    0 * s + 0 * r = 0 ∧ (m - 1) * s + (k - 1) * r = l + n + q - 1 := by
  obtain ⟨m1, e⟩ := hm
  unfold patch at e
  omega

/-- Non-vacuity: kernel 3, stride 2, rate 2, padding (1, 2) on 8 cells: tap (3, 2) is padded cell 10, i.e. padding,
and tap (1, 1) is element 3. -/
example : Fits u32 u32 3 2 2 1 2 8 ∧ u32.In ((1 + 8 + 2 : Nat) : Int) ∧ OutLen 3 2 2 1 2 8 4 ∧
    Padding.inside u32 ⟨1, 2⟩ 10 8 = .ok false ∧ Padding.unpad u32 u32 ⟨1, 2⟩ 4 = .ok 3 := by
  refine ⟨⟨?_, ?_, ?_, ?_, ?_, ?_, ?_, ?_, ?_, ?_, ?_, ?_, ?_, ?_⟩, ?_, ?_, ?_, ?_⟩ <;> decide

/-! ## C03 -/

/-- C03: the constructor throws `std::invalid_argument` exactly when a parameter is below 1, otherwise it stores the
three values. -/
theorem C03_constructor {N : IntTy} (hN : N.Std) {k s r : Int} (hk : N.In k) (hs : N.In s) (hr : N.In r) :
    (Filter.make N k s r = .throw .invalidArgument ↔ (k < 1 ∨ s < 1 ∨ r < 1)) ∧
      (¬ (k < 1 ∨ s < 1 ∨ r < 1) → Filter.make N k s r = .ok ⟨k, s, r⟩) := by
  have h1 : N.In 1 := In.small hN (by decide) (by decide)
  simp only [Filter.make, lt_eq hN hk h1, lt_eq hN hs h1, lt_eq hN hr h1, decide_eq_true_eq]
  constructor
  · split
    · simp_all
    · split
      · simp_all
      · split <;> simp_all
  · intro h
    simp only [not_or] at h
    simp [h.1, h.2.1, h.2.2]

/-- Non-vacuity: a signed type has representable values below 1; an unsigned one has 0. -/
example : i32.In (-3) ∧ i32.In 2 ∧ Filter.make i32 2 (-3) 1 = .throw .invalidArgument ∧
    u32.In 0 ∧ Filter.make u32 0 1 1 = .throw .invalidArgument ∧ Filter.make u32 5 2 3 = .ok ⟨5, 2, 3⟩ := by
  decide

/-! ## C04 -/

/-- C04: `valid_padding` chooses the least total padding with which the windows end exactly at the end of the line,
smaller than the stride, and splits it evenly with the odd cell on the right. -/
theorem C04_valid_padding_least {N : IntTy} (hN : N.Std) {k s r n : Nat} (k1 : 1 ≤ k) (s1 : 1 ≤ s) (r1 : 1 ≤ r)
    (hk : N.In k) (hs : N.In s) (hr : N.In r) (hn : N.In n) (h : N.In ((patch k r + s : Nat) : Int)) :
    ∃ p : Nat, Sample.validPadding N k s r n = .ok ⟨(p / 2 : Nat), (p - p / 2 : Nat)⟩ ∧
      p < s ∧ Exact k s r n p ∧ ∀ p', Exact k s r n p' → p ≤ p' := by
  have hp := patch_cast r k1
  push_cast at h
  rw [hp] at h
  have m1 : n % s < s := Nat.mod_lt _ (by omega)
  have hpos : 1 ≤ patch k r := by unfold patch; omega
  have hcast : ((k : Int) - 1) * r + 1 + s - (n : Int) % s = ((patch k r + s - n % s : Nat) : Int) := by
    rw [← hp]; rw [Nat.cast_sub (by omega)]; push_cast; rfl
  have hlt : (patch k r + s - n % s) % s < s := Nat.mod_lt _ (by omega)
  refine ⟨(patch k r + s - n % s) % s, ?_, hlt, ?_, ?_⟩
  · rw [Sample.validPadding_eval hN (by omega) (by omega) (by omega) (by omega) hk hs hr hn h, hcast]
    have hIn : N.In (((patch k r + s - n % s) % s : Nat) : Int) := hs.mono (by omega) (by omega)
    rw [← Int.natCast_mod, Sample.evenPadding_ok hN (by omega) hIn]
    congr 2
    omega
  · -- n + p ≡ patch (mod s)
    have hd := Nat.div_add_mod (patch k r + s - n % s) s
    have hn' := Nat.div_add_mod n s
    refine ⟨(n / s : Nat) + 1 - ((patch k r + s - n % s) / s : Nat), ?_⟩
    have e1 : ((patch k r + s - n % s : Nat) : Int) = patch k r + s - (n % s : Nat) := by
      rw [Nat.cast_sub (by omega)]; push_cast; rfl
    have hd' : (s : Int) * ((patch k r + s - n % s) / s : Nat) + ((patch k r + s - n % s) % s : Nat) =
        patch k r + s - (n % s : Nat) := by rw [← e1]; exact_mod_cast hd
    have hn'' : (s : Int) * (n / s : Nat) + (n % s : Nat) = n := by exact_mod_cast hn'
    linear_combination hd' - hn''
  · rintro p' ⟨c', e'⟩
    by_contra hlt'
    have hd := Nat.div_add_mod (patch k r + s - n % s) s
    have hn' := Nat.div_add_mod n s
    have e1 : ((patch k r + s - n % s : Nat) : Int) = patch k r + s - (n % s : Nat) := by
      rw [Nat.cast_sub (by omega)]; push_cast; rfl
    have hd' : (s : Int) * ((patch k r + s - n % s) / s : Nat) + ((patch k r + s - n % s) % s : Nat) =
        patch k r + s - (n % s : Nat) := by rw [← e1]; exact_mod_cast hd
    have hn'' : (s : Int) * (n / s : Nat) + (n % s : Nat) = n := by exact_mod_cast hn'
    have : (((patch k r + s - n % s) % s : Nat) : Int) - p' =
        s * ((n / s : Nat) + 1 - ((patch k r + s - n % s) / s : Nat) - c') := by
      linear_combination hd' - e' - hn''
    generalize (((n / s : Nat) : Int) + 1 - ((patch k r + s - n % s) / s : Nat) - c') = z at this
    have z1 : 1 ≤ z := by
      by_contra hz
      have : (s : Int) * z ≤ 0 := Int.mul_nonpos_of_nonneg_of_nonpos (by omega) (by omega)
      omega
    have : (s : Int) * 1 ≤ s * z := Int.mul_le_mul_of_nonneg_left z1 (by omega)
    omega

/-- C04: on an input not shorter than the patch, the sample built with `valid_padding` accepts it and yields
`⌈(n - patch) / s⌉ + 1`. -/
theorem C04_valid_padding_length {N : IntTy} (hN : N.Std) {k s r n : Nat} (k1 : 1 ≤ k) (s1 : 1 ≤ s) (r1 : 1 ≤ r)
    (hk : N.In k) (hs : N.In s) (hr : N.In r) (h : N.In ((n + s : Nat) : Int)) (hle : patch k r ≤ n) :
    (do let p ← Sample.validPadding N k s r n
        let t ← Sample.make N k s r p
        t.outSize N n) = .ok (((n - patch k r + s - 1) / s + 1 : Nat) : Int) := by
  have hn : N.In (n : Int) := h.mono (by omega) (by omega)
  obtain ⟨p, hp, hps, ⟨c, hc⟩, -⟩ := C04_valid_padding_least hN k1 s1 r1 hk hs hr hn
    (h.mono (by omega) (by omega))
  have hf : Fits N N k s r (p / 2) (p - p / 2) n :=
    { hN := hN, hD := hN, k1 := k1, s1 := s1, r1 := r1, hk := hk, hs := hs, hr := hr
      hl := hs.mono (by omega) (by omega)
      hq := hs.mono (by omega) (by omega)
      hn := hn
      padded := h.mono (by omega) (by omega)
      patchN := hn.mono (by omega) (by omega)
      patchD := hn.mono (by omega) (by omega) }
  have hout : OutLen k s r (p / 2) (p - p / 2) n ((n - patch k r + s - 1) / s + 1) := by
    refine ⟨Nat.le_add_left 1 _, ?_⟩
    rw [Nat.add_sub_cancel]
    have hc0 : 0 ≤ c := by
      by_contra hz
      have : c * s ≤ -1 * s := Int.mul_le_mul_of_nonneg_right (by omega) (by omega)
      have : ((-1 : Int)) * s = -s := by omega
      by_cases hc1 : c ≤ -1
      · have : c * (s : Int) < 0 := Int.mul_neg_of_neg_of_pos (by omega) (by omega)
        omega
      · omega
    obtain ⟨c, rfl⟩ := Int.eq_ofNat_of_zero_le hc0
    have hc' : n + p = patch k r + c * s := by exact_mod_cast hc
    have : (n - patch k r + s - 1) / s = c := by
      rw [Nat.div_eq_iff (by omega)]
      constructor
      · omega
      · omega
    rw [this]
    omega
  have := (C01_output_length hf _).2 hout
  rw [hp]
  simpa [sampleCall, Sample.make, Sample.outSize, Filter.make_ok hN hk hs hr (by omega : (1 : Int) ≤ k)
    (by omega) (by omega)] using this

/-- Non-vacuity: 10 cells, kernel 3, stride 4: one cell of padding, on the right, 3 windows. -/
example : u32.In ((10 + 4 : Nat) : Int) ∧ patch 3 1 ≤ 10 ∧ Sample.validPadding u32 3 4 1 10 = .ok ⟨0, 1⟩ ∧
    (10 - patch 3 1 + 4 - 1) / 4 + 1 = 3 := by decide

/-! ## C05 -/

/-- C05: `same_padding` throws `std::runtime_error` exactly when the patch is smaller than `s + n mod s`. -/
theorem C05_same_padding_throws {N : IntTy} (hN : N.Std) {k s r n : Nat} (k1 : 1 ≤ k) (s1 : 1 ≤ s) (r1 : 1 ≤ r)
    (hk : N.In k) (hs : N.In s) (hr : N.In r) (hn : N.In n) (hps : N.In (patch k r : Nat))
    (h : N.In ((2 * s : Nat) : Int)) :
    Sample.samePadding N k s r n = .throw .runtimeError ↔ patch k r < s + n % s := by
  have hp := patch_cast r k1
  have hps' := hps
  rw [hp] at hps'
  push_cast at h
  have e := Sample.samePadding_eval hN (by omega) (by omega) (by omega) (by omega) hk hs hr hn hps' h
  rw [← hp] at e
  rw [e]
  split
  · rename_i hle
    have hle' : s + n % s ≤ patch k r := by exact_mod_cast hle
    have hIn : N.In (((patch k r : Nat) : Int) - s - (n : Int) % s) := hps.mono (by omega) (by omega)
    rw [Sample.evenPadding_ok hN (by omega) hIn]
    simp
    omega
  · rename_i hle
    simp
    have : ¬ (s + n % s ≤ patch k r) := by exact_mod_cast hle
    omega

/-- C05: otherwise the sample built with it maps `n ≥ s` to `⌊n / s⌋`. -/
theorem C05_same_padding_length {N : IntTy} (hN : N.Std) {k s r n : Nat} (k1 : 1 ≤ k) (s1 : 1 ≤ s) (r1 : 1 ≤ r)
    (hk : N.In k) (hs : N.In s) (hr : N.In r) (h : N.In ((n + patch k r : Nat) : Int))
    (h2 : N.In ((2 * s : Nat) : Int)) (hge : s + n % s ≤ patch k r) :
    (do let p ← Sample.samePadding N k s r n
        let t ← Sample.make N k s r p
        t.outSize N n) = if s ≤ n then .ok ((n / s : Nat) : Int) else .throw .invalidArgument := by
  have hn : N.In (n : Int) := h.mono (by omega) (by omega)
  have hps : N.In ((patch k r : Nat) : Int) := h.mono (by omega) (by omega)
  have hp := patch_cast r k1
  have hps' := hps
  rw [hp] at hps'
  push_cast at h2
  have e := Sample.samePadding_eval hN (by omega) (by omega) (by omega) (by omega) hk hs hr hn hps' h2
  rw [← hp] at e
  have hge' : (s : Int) + (n : Int) % s ≤ (patch k r : Nat) := by exact_mod_cast hge
  rw [e, if_pos hge']
  obtain ⟨p, hpp⟩ : ∃ p : Nat, p = patch k r - s - n % s := ⟨_, rfl⟩
  have hpi : ((patch k r : Nat) : Int) - s - (n : Int) % s = (p : Nat) := by
    rw [hpp]; omega
  have hIn : N.In (p : Int) := hps.mono (by omega) (by omega)
  rw [hpi, Sample.evenPadding_ok hN (by omega) hIn]
  have hf : Fits N N k s r (p / 2) (p - p / 2) n :=
    { hN := hN, hD := hN, k1 := k1, s1 := s1, r1 := r1, hk := hk, hs := hs, hr := hr
      hl := hIn.mono (by omega) (by omega)
      hq := hIn.mono (by omega) (by omega)
      hn := hn
      padded := h.mono (by omega) (by omega)
      patchN := hps
      patchD := hps }
  have hdm := Nat.div_add_mod n s
  have hmlt := Nat.mod_lt n (by omega : s > 0)
  have ee := sampleCall_eval hf
  have l2 : (((p / 2 : Nat) : Int)) = (p : Int) / 2 := by omega
  have r2 : (((p - p / 2 : Nat) : Int)) = (p : Int) - (p : Int) / 2 := by omega
  rw [l2, r2] at ee
  simp only [sampleCall, Filter.make_ok hN hk hs hr (by omega : (1 : Int) ≤ k) (by omega : (1 : Int) ≤ s)
    (by omega : (1 : Int) ≤ r), Outcome.ok_bind] at ee
  simp only [Outcome.ok_bind, Sample.make, Filter.make_ok hN hk hs hr (by omega : (1 : Int) ≤ k)
    (by omega : (1 : Int) ≤ s) (by omega : (1 : Int) ≤ r), Outcome.pure_eq, Sample.outSize, ee]
  by_cases hsn : s ≤ n
  · have q1 : 1 ≤ n / s := Nat.div_pos hsn (by omega)
    have hval : p / 2 + n + (p - p / 2) - patch k r = s * (n / s - 1) := by
      rw [Nat.mul_sub]; omega
    have c : ¬ (p / 2 + n + (p - p / 2) < patch k r) := by
      have : s * 1 ≤ s * (n / s) := Nat.mul_le_mul_left _ q1
      omega
    simp only [c, if_false, hval, Nat.mul_mod_right, ne_eq, not_true_eq_false, hsn, if_true,
      Nat.mul_div_cancel_left _ (by omega : 0 < s)]
    congr 2
    omega
  · have : n % s = n := Nat.mod_eq_of_lt (by omega)
    have c : p / 2 + n + (p - p / 2) < patch k r := by omega
    simp [c, hsn]

/-- C05: with stride 1, same padding never throws and keeps the length of every non-empty input. -/
theorem C05_same_padding_stride_one {N : IntTy} (hN : N.Std) {k r n : Nat} (k1 : 1 ≤ k) (r1 : 1 ≤ r) (n1 : 1 ≤ n)
    (hk : N.In k) (hr : N.In r) (h : N.In ((n + patch k r : Nat) : Int)) :
    (do let p ← Sample.samePadding N k (1 : Nat) r n
        let t ← Sample.make N k (1 : Nat) r p
        t.outSize N n) = .ok (n : Int) := by
  have hpos : 1 ≤ patch k r := by unfold patch; omega
  have := C05_same_padding_length hN k1 (s := 1) (by omega) r1 hk (In.small hN (by decide) (by decide)) hr h
    (In.small hN (by decide) (by decide)) (by omega)
  simpa [n1] using this

/-- Non-vacuity: kernel 5, stride 2 on 8 cells gives 4 outputs; kernel 3, stride 1, rate 2 on 7 cells keeps 7. -/
example : 2 + 8 % 2 ≤ patch 5 1 ∧ u32.In ((8 + patch 5 1 : Nat) : Int) ∧
    Sample.samePadding u32 5 2 1 8 = .ok ⟨1, 2⟩ ∧ sampleCall u32 u32 5 2 1 1 2 8 = .ok 4 ∧
    Sample.samePadding u32 3 1 2 7 = .ok ⟨2, 2⟩ ∧ sampleCall u32 u32 3 1 2 2 2 7 = .ok 7 := by decide

/-- C05: the usual convention "same padding yields `⌈n / s⌉`" is false of the code: 5 cells, kernel 3, stride 2 give 2. -/
theorem C05_not_ceil : ∃ k s r n : Nat, s + n % s ≤ patch k r ∧ s ≤ n ∧
    (do let p ← Sample.samePadding u32 k s r n
        let t ← Sample.make u32 k s r p
        t.outSize u32 n) ≠ .ok (((n + s - 1) / s : Nat) : Int) :=
  ⟨3, 2, 1, 5, by decide⟩

/-! ## C06 -/

/-- C06 is false for unsigned dimension types: an overflowing padded length is accepted with a wrong output length. -/
theorem C06_wraps_padding : ∃ k s r l q n : Nat, 1 ≤ k ∧ 1 ≤ s ∧ 1 ≤ r ∧ u32.In k ∧ u32.In s ∧ u32.In r ∧
    u32.In l ∧ u32.In q ∧ u32.In n ∧ ∃ m : Nat, sampleCall u32 u32 k s r l q n = .ok (m : Int) ∧
      ¬ OutLen k s r l q n m :=
  ⟨1, 1, 1, 4294967295, 0, 5, by decide, by decide, by decide, by decide, by decide, by decide, by decide, by decide,
    by decide, 4, by decide, by decide⟩

/-- C06 is false for the patch size as well: kernel 65537 with rate 65536 has a wrapped patch size of 1, so a 10-cell
input is accepted. -/
theorem C06_wraps_patch : ∃ k s r l q n : Nat, 1 ≤ k ∧ 1 ≤ s ∧ 1 ≤ r ∧ u32.In k ∧ u32.In s ∧ u32.In r ∧
    u32.In l ∧ u32.In q ∧ u32.In n ∧ ∃ m : Nat, sampleCall u32 u32 k s r l q n = .ok (m : Int) ∧
      l + n + q < patch k r :=
  ⟨65537, 1, 65536, 0, 0, 10, by decide, by decide, by decide, by decide, by decide, by decide, by decide, by decide,
    by decide, 10, by decide, by decide⟩

/-- C06, exactly: for every unsigned dimension type (`M = 2 ^ bits` values) and all representable filters, the sizes the
code compares are the true ones modulo `M`; so is the length it returns. -/
theorem C06_effect {N : IntTy} (hN : N.Std) (hu : N.signed = false) {k s r l q n : Nat} (k1 : 1 ≤ k) (s1 : 1 ≤ s)
    (r1 : 1 ≤ r) (hk : k < 2 ^ N.bits) (hs : s < 2 ^ N.bits) (hr : r < 2 ^ N.bits) :
    sampleCall N N k s r l q n =
      if (l + n + q) % 2 ^ N.bits < patch k r % 2 ^ N.bits then .throw .invalidArgument
      else if ¬ s ∣ (l + n + q) % 2 ^ N.bits - patch k r % 2 ^ N.bits then .throw .invalidArgument
      else .ok ((((l + n + q) % 2 ^ N.bits - patch k r % 2 ^ N.bits) / s + 1) % 2 ^ N.bits : Nat) := by
  obtain ⟨M, hM⟩ : ∃ M : Nat, M = 2 ^ N.bits := ⟨_, rfl⟩
  have hMi : (2 : Int) ^ N.bits = (M : Int) := by rw [hM]; push_cast; rfl
  rw [← hM] at hk hs hr
  rw [← hM]
  have inn : ∀ a : Nat, a < M → N.In a := fun a ha => by
    unfold In lo hi
    simp only [hu, if_false, hMi, Bool.false_eq_true]
    omega
  have cv : ∀ a : Nat, N.conv a = (a % M : Nat) := fun a => by
    unfold conv
    simp only [hu, if_false, hMi, Bool.false_eq_true]
    push_cast
    rfl
  have ar : ∀ a : Nat, N.arith a = .ok ((a % M : Nat) : Int) := fun a => by
    unfold arith
    simp only [hu, if_false, hMi, Bool.false_eq_true]
    push_cast
    rfl
  have M1 : 1 < M := by
    rw [hM]
    exact Nat.one_lt_two_pow (by unfold Std at hN; omega)
  have mk := (C03_constructor hN (inn k hk) (inn s hs) (inn r hr)).2 (by omega)
  have add' : ∀ a b : Nat, N.add a b = .ok (((a + b) % M : Nat) : Int) := fun a b => by
    unfold add
    rw [cv, cv, ← Int.natCast_add, ar, ← Nat.add_mod]
  have mul' : ∀ a b : Nat, N.mul a b = .ok (((a * b) % M : Nat) : Int) := fun a b => by
    unfold mul
    rw [cv, cv, ← Int.natCast_mul, ar, ← Nat.mul_mod]
  have sub' : ∀ a b : Nat, a < M → b ≤ a → N.sub a b = .ok ((a - b : Nat) : Int) := fun a b ha hb => by
    unfold sub
    rw [cv, cv, Nat.mod_eq_of_lt ha, Nat.mod_eq_of_lt (by omega), ← Int.natCast_sub hb, ar, Nat.mod_eq_of_lt (by omega)]
  have lt' : ∀ a b : Nat, a < M → b < M → N.lt a b = decide (a < b) := fun a b ha hb => by
    unfold lt
    rw [cv, cv, Nat.mod_eq_of_lt ha, Nat.mod_eq_of_lt hb]
    simp
  have div' : ∀ a : Nat, a < M → N.div a s = .ok ((a / s : Nat) : Int) := fun a ha => by
    have := Nat.div_le_self a s
    unfold div
    rw [cv, cv, Nat.mod_eq_of_lt ha, Nat.mod_eq_of_lt hs, if_neg (by omega), ← Int.ofNat_tdiv, ar,
      Nat.mod_eq_of_lt (by omega)]
  have mod' : ∀ a : Nat, a < M → N.mod a s = .ok ((a % s : Nat) : Int) := fun a ha => by
    have := Nat.div_le_self a s
    unfold mod
    rw [cv, cv, Nat.mod_eq_of_lt ha, Nat.mod_eq_of_lt hs, if_neg (by omega), ← Int.ofNat_tdiv,
      if_pos (inn _ (by omega)), Int.tmod_eq_emod_of_nonneg (by omega)]
    simp
  have l1 := Nat.mod_lt (l + n + q) (by omega : 0 < M)
  have l2 := Nat.mod_lt (patch k r) (by omega : 0 < M)
  have ap : (⟨l, q⟩ : Padding).apply N N n = .ok (((l + n + q) % M : Nat) : Int) := by
    unfold Padding.apply
    simp only [common_self]
    rw [add', Outcome.ok_bind, add', Outcome.ok_bind, cv]
    simp
  have pa : (⟨k, s, r⟩ : Filter).patchSize N = .ok ((patch k r % M : Nat) : Int) := by
    unfold Filter.patchSize
    simp only
    rw [show (1 : Int) = ((1 : Nat) : Int) from rfl, sub' k 1 hk k1, Outcome.ok_bind, mul', Outcome.ok_bind, add']
    simp [patch]
  rw [sampleCall, mk, Outcome.ok_bind, Filter.outSize, ap, Outcome.ok_bind, pa, Outcome.ok_bind]
  simp only [common_self, cv, Nat.mod_mod]
  rw [lt' _ _ l1 l2]
  by_cases c : (l + n + q) % M < patch k r % M
  · simp [c]
  · rw [if_neg (by simpa using c), if_neg c, sub' _ _ l1 (by omega), Outcome.ok_bind, mod' _ (by omega), Outcome.ok_bind]
    by_cases d : s ∣ (l + n + q) % M - patch k r % M
    · have z := Nat.mod_eq_zero_of_dvd d
      rw [if_neg (by simp [z]), if_neg (by simpa using d), div' _ (by omega), Outcome.ok_bind,
        show (1 : Int) = ((1 : Nat) : Int) from rfl, add', Outcome.ok_bind, cv]
      simp
    · have z : ((l + n + q) % M - patch k r % M) % s ≠ 0 := fun z => d (Nat.dvd_of_mod_eq_zero z)
      rw [if_pos (by exact_mod_cast z), if_pos d]

/-- C06: even the length itself can wrap, to 0: 65536 taps at rate 65537 have a patch of `2 ^ 32` cells. -/
example : sampleCall u32 u32 65536 1 65537 0 0 4294967295 = .ok 0 := by decide

theorem arith_signed {t : IntTy} (hs : t.signed = true) {v w : Int} (h : t.arith v = .ok w) :
    t.In v ∧ w = v := by
  unfold arith at h
  simp only [hs, if_true] at h
  split at h
  · simp_all
  · simp at h

/-- C06 (partial: signed dimension types only; for unsigned types it is refuted above). For a signed type nothing
wraps silently: whenever the call returns normally the returned length is the true one. -/
theorem C06_no_silent_wrap_partial {N : IntTy} (hN : N.Std) (hsg : N.signed = true) {k s r l q n : Nat}
    (hk : N.In k) (hs : N.In s) (hr : N.In r) (hl : N.In l) (hq : N.In q) (hn : N.In n) {v : Int}
    (hv : sampleCall N N k s r l q n = .ok v) : ∃ m : Nat, v = m ∧ OutLen k s r l q n m := by
  have h1 : N.In 1 := In.small hN (by decide) (by decide)
  have hC3 := C03_constructor hN hk hs hr
  by_cases hbad : (k : Int) < 1 ∨ (s : Int) < 1 ∨ (r : Int) < 1
  · rw [sampleCall, hC3.1.2 hbad] at hv
    simp at hv
  have hmk := hC3.2 hbad
  simp only [not_or, not_lt] at hbad
  obtain ⟨k1, s1, r1⟩ := hbad
  -- extract representability from the successful run
  have hv' := hv
  rw [sampleCall, hmk] at hv'
  simp only [Outcome.ok_bind, Filter.outSize, common_self] at hv'
  obtain ⟨np, hnp, hv'⟩ := Outcome.bind_eq_ok.1 hv'
  obtain ⟨ps, hps, hv'⟩ := Outcome.bind_eq_ok.1 hv'
  simp only [Padding.apply, common_self] at hnp
  obtain ⟨a, ha, hnp⟩ := Outcome.bind_eq_ok.1 hnp
  obtain ⟨b, hb, -⟩ := Outcome.bind_eq_ok.1 hnp
  have ha' := arith_signed hsg ha
  rw [conv_eq hN hl, conv_eq hN hn] at ha'
  obtain ⟨haIn, rfl⟩ := ha'
  have hb' := arith_signed hsg hb
  rw [conv_eq hN haIn, conv_eq hN hq] at hb'
  simp only [Filter.patchSize] at hps
  obtain ⟨c, hc, hps⟩ := Outcome.bind_eq_ok.1 hps
  obtain ⟨d, hd, hps⟩ := Outcome.bind_eq_ok.1 hps
  have hc' := arith_signed hsg hc
  rw [conv_eq hN hk, conv_eq hN h1] at hc'
  obtain ⟨hcIn, rfl⟩ := hc'
  have hd' := arith_signed hsg hd
  rw [conv_eq hN hcIn, conv_eq hN hr] at hd'
  obtain ⟨hdIn, rfl⟩ := hd'
  have hps' := arith_signed hsg hps
  rw [conv_eq hN hdIn, conv_eq hN h1] at hps'
  have hpc := patch_cast r (k := k) (by omega)
  have hf : Fits N N k s r l q n :=
    { hN := hN, hD := hN, k1 := by omega, s1 := by omega, r1 := by omega, hk := hk, hs := hs, hr := hr, hl := hl
      hq := hq, hn := hn
      padded := by push_cast; exact hb'.1
      patchN := by rw [hpc]; exact hps'.1
      patchD := by rw [hpc]; exact hps'.1 }
  rcases C01_total hf with ⟨m, hm, e⟩ | ⟨-, e⟩
  · rw [e] at hv
    refine ⟨m, ?_, hm⟩
    simpa using hv.symm
  · rw [e] at hv
    simp at hv

/-- Non-vacuity: a normal return with `int32_t`. -/
example : sampleCall i32 i32 3 2 1 1 0 6 = .ok 3 ∧ i32.signed = true ∧ i32.Std := by decide

/-! ## Concrete cases of the theorems above: kernel 3, stride 2, rate 2, padding 1 and 2 on 8 cells; others where needed -/

theorem exFits : Fits u32 u32 3 2 2 1 2 8 := by constructor <;> decide

example : sampleCall u32 u32 (3 : Nat) (2 : Nat) (2 : Nat) (1 : Nat) (2 : Nat) (8 : Nat) = .ok (4 : Nat) :=
  (C01_output_length exFits 4).mpr (by decide)
example := C01_total exFits
example := C02_taps exFits (by decide) (m := 4) (by decide) (j := 3) (u := 2) (by decide) (by decide)
example := C02_sample exFits (m := 4) (by decide) (j := 3) (u := 2) (by decide) (by decide)
example := C02_extremes (k := 3) (s := 2) (r := 2) (l := 1) (q := 2) (n := 8) (m := 4) (by decide)
example := C03_constructor i32_std (k := 2) (s := -3) (r := 1) (by decide) (by decide) (by decide)
example := C04_valid_padding_least u32_std (k := 3) (s := 4) (r := 1) (n := 10) (by decide) (by decide) (by decide) (by decide)
  (by decide) (by decide) (by decide) (by decide)
example := C04_valid_padding_length u32_std (k := 3) (s := 4) (r := 1) (n := 10) (by decide) (by decide) (by decide)
  (by decide) (by decide) (by decide) (by decide) (by decide)
example : Sample.samePadding u32 (3 : Nat) (3 : Nat) (1 : Nat) (8 : Nat) = .throw .runtimeError :=
  (C05_same_padding_throws u32_std (k := 3) (s := 3) (r := 1) (n := 8) (by decide) (by decide) (by decide) (by decide)
    (by decide) (by decide) (by decide) (by decide) (by decide)).mpr (by decide)
example := C05_same_padding_length u32_std (k := 5) (s := 2) (r := 1) (n := 8) (by decide) (by decide) (by decide) (by decide)
  (by decide) (by decide) (by decide) (by decide) (by decide)
example := C05_same_padding_stride_one u32_std (k := 3) (r := 2) (n := 7) (by decide) (by decide) (by decide) (by decide)
  (by decide) (by decide)
example := C06_effect u32_std rfl (k := 65536) (s := 1) (r := 65537) (l := 0) (q := 0) (n := 4294967295) (by decide) (by decide)
  (by decide) (by decide) (by decide) (by decide)
example := C06_no_silent_wrap_partial i32_std rfl (k := 3) (s := 2) (r := 1) (l := 1) (q := 0) (n := 6) (by decide) (by decide)
  (by decide) (by decide) (by decide) (by decide) (v := 3) (by decide)

end StdNN
