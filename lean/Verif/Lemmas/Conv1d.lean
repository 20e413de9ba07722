import Verif.Lemmas.Conv
/-!
# One-dimensional operators on tabulated tensors
-/
namespace StdNN
open IntTy Spec Outcome
variable {R : Type}

theorem u32_hi : u32.hi = 4294967296 := by simp [u32, IntTy.hi]
theorem i32_hi : i32.hi = 2147483648 := by simp [i32, IntTy.hi]
theorem u32_lo : u32.lo = 0 := by simp [u32, IntTy.lo]

theorem idx32_nat {i : Nat} (h : i < 4294967296) : Ops.idx32 (i : Int) = i := by
  have h' : (i : Int) < 4294967296 := by omega
  have e : u32.conv (i : Int) = i := conv_eq u32_std ⟨by rw [u32_lo]; omega, by rw [u32_hi]; omega⟩
  simp [Ops.idx32, e]

theorem i32_lt {v : Int} (h : i32.In v) : v < 2147483648 := by
  rw [← i32_hi]; exact h.2

/-- Bounds on the indices of an accepted axis. -/
theorem AxisOK.bounds {a : Axis} (h : AxisOK i32 a) {j u : Nat} (hj : j < a.m) (hu : u < a.k) :
    i32.In (j : Int) ∧ i32.In (u : Int) ∧ i32.In (a.n : Int) ∧ a.n < 2147483648 := by
  have f := h.fits
  have hlt := tap_lt f.k1 h.covers hj hu
  have s1 := f.s1; have r1 := f.r1
  have a1 : j * 1 ≤ j * a.s := Nat.mul_le_mul_left _ s1
  have b1 : u * 1 ≤ u * a.r := Nat.mul_le_mul_left _ r1
  refine ⟨f.padded.mono (by omega) (by omega), f.padded.mono (by omega) (by omega), f.hn, ?_⟩
  have := i32_lt f.hn
  omega

/-- Where a tap of a one-dimensional sample falls. -/
def loc1 (a : Axis) (j u : Nat) : Option Nat :=
  if a.l ≤ a.pos j u ∧ a.pos j u < a.l + a.n then some (a.pos j u - a.l) else none

theorem loc1_some {a : Axis} {j u i : Nat} : loc1 a j u = some i ↔ a.Hits j u i := by
  unfold loc1 Axis.Hits
  split
  · simp only [Option.some.injEq]; omega
  · simp only [reduceCtorEq, false_iff]; omega

theorem padded_loc1 [Zero R] (a : Axis) (X : Nat → R) (j u : Nat) :
    padded a.l a.n X (a.pos j u) = match loc1 a j u with
      | some i => X i
      | none => 0 := by
  unfold padded loc1
  by_cases c : a.l ≤ a.pos j u ∧ a.pos j u < a.l + a.n
  · simp only [if_pos c]
  · simp only [if_neg c]

theorem im2col1d_run [Zero R] {a : Axis} (h : AxisOK i32 a) (X : Nat → R) {y : List R}
    (hy : y.length = a.m * a.k) :
    Ops.im2col1d a.sample [a.m, a.k] (tab [a.n] (fn1 X)) y =
      .ok (tab [a.m, a.k] (fn2 fun j u => padded a.l a.n X (a.pos j u))).data := by
  simp only [Ops.im2col1d, tab_dims]
  rw [← Plain.run_store2 hy]
  refine forRange_congr (fun j hj s => forRange_congr (fun u hu s => ?_) s) y
  obtain ⟨b1, b2, b3, b4⟩ := h.bounds hj hu
  rw [conv_eq i32_std b1, conv_eq i32_std b2, conv_eq i32_std b3, h.tap hj hu]
  simp only [Outcome.ok_bind, h.inside hj hu, decide_eq_true_eq]
  unfold padded
  by_cases c : a.l ≤ a.pos j u ∧ a.pos j u < a.l + a.n
  · rw [if_pos c, if_pos c, h.unpad hj hu c]
    simp only [Outcome.ok_bind]
    rw [idx32_nat (by omega), tab_at _ (v1 (by omega))]
    rfl
  · rw [if_neg c, if_neg c]

/-- The sum scattered into element `i`. -/
def scatter1 [AddCommMonoid R] (a : Axis) (X : Nat → Nat → R) (i : Nat) : R :=
  ∑ j ∈ Finset.range a.m, ∑ u ∈ Finset.range a.k, if a.Hits j u i then X j u else 0

theorem col2im1d_run [AddCommMonoid R] {a : Axis} (h : AxisOK i32 a) (X : Nat → Nat → R) {y : List R}
    (hy : y.length = [a.n].prod) :
    Ops.col2im1d a.sample [a.n] (tab [a.m, a.k] (fn2 X)) y = .ok (tab [a.n] (fn1 (scatter1 a X))).data := by
  simp only [Ops.col2im1d, tab_dims]
  let A : Nat → Nat → Nat → R → R := fun j u p r =>
    match loc1 a j u with
    | some i => if p = offset [a.n] [i] then r + X j u else r
    | none => r
  have key := PW.seq (len := [a.n].prod) (PW.fill _ (0 : R))
    (PW.forRange (n := a.m) fun j hj => PW.forRange (n := a.k) (A := fun u p r => A j u p r) (body := fun u y => do
      let i ← a.sample.tap i32 (i32.conv j) (i32.conv u)
      let b ← a.sample.inside i32 i (i32.conv a.n)
      if b then do
        let i' ← a.sample.unpad i32 i
        let xv ← (tab [a.m, a.k] (fn2 X)).at_ [j, u]
        upd y (offset [a.n] [Ops.idx32 i']) (fun r => r + xv)
      else .ok y) fun u hu => by
        obtain ⟨b1, b2, b3, b4⟩ := h.bounds hj hu
        rw [conv_eq i32_std b1, conv_eq i32_std b2, conv_eq i32_std b3, h.tap hj hu]
        simp only [Outcome.ok_bind, h.inside hj hu, decide_eq_true_eq, A, loc1]
        by_cases c : a.l ≤ a.pos j u ∧ a.pos j u < a.l + a.n
        · simp only [if_pos c, h.unpad hj hu c, Outcome.ok_bind]
          rw [idx32_nat (by omega), tab_at _ (v2 hj hu)]
          have hv : a.pos j u - a.l < a.n := by omega
          exact PW.upd (offset_lt (v1 hv)) _
        · simp only [if_neg c]
          exact PW.pure _)
  refine PW.run_tab (dims := [a.n]) key ?_ hy
  intro idx hv r
  match idx, hv with
  | [i], hv =>
    simp only [fn1_apply, scatter1]
    refine (Kernels.foldl_add_range (fun j hj r => Kernels.foldl_add_range
      (G := fun u => if a.Hits j u i then X j u else 0) (fun u hu r => ?_) r) 0).trans (zero_add _)
    simp only [A]
    rcases e : loc1 a j u with _ | i'
    · have : ¬ a.Hits j u i := by rw [← loc1_some, e]; simp
      simp [this]
    · by_cases e' : i' = i
      · subst e'
        rw [if_pos (loc1_some.1 e)]
        simp
      · have : ¬ a.Hits j u i := by rw [← loc1_some, e]; simpa using e'
        simp [this, Ne.symm e']

/-- The code's trait for a one-dimensional convolution. -/
def conv1dTrait (a : Axis) : Conv1d := ⟨a.s, a.r, ⟨a.l, a.q⟩⟩

theorem i32_to_u32 {v : Int} (h0 : 0 ≤ v) (h : i32.In v) : u32.In v := by
  have := i32_lt h
  exact ⟨by rw [u32_lo]; omega, by rw [u32_hi]; omega⟩

theorem Fits.i32_u32 {k s r l q n : Nat} (h : Fits i32 i32 k s r l q n) : Fits i32 u32 k s r l q n :=
  { h with
    hD := u32_std
    hn := i32_to_u32 (by omega) h.hn
    padded := i32_to_u32 (by omega) h.padded
    patchD := i32_to_u32 (by omega) h.patchD }

theorem conv1d_run [Semiring R] {a : Axis} (h : AxisOK i32 a) (X Y : Nat → R) {z : List R}
    (hz : z.length = a.m) :
    (conv1dTrait a).run [a.m] (tab [a.n] (fn1 X)) (tab [a.k] (fn1 Y)) z =
      .ok (tab [a.m] (fn1 fun j => conv1 a X Y j)).data := by
  have f := h.fits
  have k1 := f.k1; have s1 := f.s1; have r1 := f.r1
  unfold Conv1d.run
  simp only [tab_dims]
  rw [conv_eq i32_std f.hk]
  unfold conv1dTrait
  rw [Filter.make_ok f.hN f.hk f.hs f.hr (by omega) (by omega) (by omega), Outcome.ok_bind]
  rw [← Plain.run_store1 hz]
  refine forRange_congr (fun j hj s => ?_) z
  rw [forRange_sum (f := fun u => Y u * padded a.l a.n X (a.pos j u))]
  · simp [conv1, seqSum_eq_sum]
  · intro u hu s
    obtain ⟨t1, -, t3, t4⟩ := C02_taps f.i32_u32 f.padded h.covers hj hu
    rw [t1]
    simp only [Outcome.ok_bind, t3, decide_eq_true_eq]
    unfold padded
    by_cases c : a.l ≤ a.pos j u ∧ a.pos j u < a.l + a.n
    · have hi : a.pos j u - a.l < a.n := by omega
      have he : j * a.s + u * a.r = a.l + (a.pos j u - a.l) := by unfold Axis.pos at c ⊢; omega
      rw [if_pos ⟨_, hi, he⟩, if_pos c, t4 _ hi he]
      have e1 := tab_getElem? (fn1 Y) (v1 hu)
      have e2 := tab_getElem? (fn1 X) (v1 hi)
      simp only [offset_cons, List.prod_nil, Nat.mul_one, offset_nil, Nat.add_zero] at e1 e2
      simp [rd, e1, e2]
    · rw [if_neg c, if_neg]
      · simp
      · rintro ⟨i, hi, he⟩
        unfold Axis.pos at c
        omega

end StdNN
