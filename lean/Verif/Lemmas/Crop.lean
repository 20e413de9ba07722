import Verif.Model.Factories
import Verif.Lemmas.Grid
import Verif.Lemmas.Conv1d
import Verif.Spec.Crop
/-!
# Sample objects with paddings that may be negative
-/
namespace StdNN
open IntTy Spec Outcome
variable {R : Type}

/-- The code's sample object: the paddings pass through the conversion to the dimension type. -/
def _root_.StdNN.Spec.ZAxis.sample (N : IntTy) (a : ZAxis) : Sample := ⟨⟨a.k, a.s, a.r⟩, Padding.ofInts N a.l a.q⟩

/-- Parameters that fit `uint32_t` and paddings that are values of `int`; the length after padding is below `2 ^ 31`. -/
structure ZAxisOK (a : ZAxis) : Prop where
  k1 : 1 ≤ a.k
  s1 : 1 ≤ a.s
  r1 : 1 ≤ a.r
  hk : a.k < 2 ^ 31
  hs : a.s < 2 ^ 31
  hr : a.r < 2 ^ 31
  hn : a.n < 2 ^ 31
  hl : i32.In a.l
  hq : i32.In a.q
  padded : a.l + a.n + a.q < 2 ^ 31
  covers : a.Covers

theorem u32_conv (v : Int) : u32.conv v = v % 4294967296 := rfl
theorem u32_arith (v : Int) : u32.arith v = .ok (v % 4294967296) := rfl

theorem u32_le_iff (a b : Int) : u32.le a b = true ↔ a % 4294967296 ≤ b % 4294967296 := decide_eq_true_iff
theorem u32_lt_iff (a b : Int) : u32.lt a b = true ↔ a % 4294967296 < b % 4294967296 := decide_eq_true_iff

theorem i32_In {v : Int} : i32.In v ↔ -2147483648 ≤ v ∧ v < 2147483648 := by
  simp [IntTy.In, IntTy.lo, IntTy.hi, i32]

section u32
variable {a : ZAxis}

theorem ZAxisOK.tap_lt (h : ZAxisOK a) {j u : Nat} (hj : j < a.m) (hu : u < a.k) :
    ((j * a.s + u * a.r : Nat) : Int) < a.l + a.n + a.q := by
  obtain ⟨m1, e⟩ := h.covers
  have h1 : j * a.s ≤ (a.m - 1) * a.s := Nat.mul_le_mul_right _ (by omega)
  have h2 : u * a.r ≤ (a.k - 1) * a.r := Nat.mul_le_mul_right _ (by omega)
  omega

theorem ZAxisOK.small (h : ZAxisOK a) {j u : Nat} (hj : j < a.m) (hu : u < a.k) :
    j < 2147483648 ∧ u < 2147483648 ∧ j * a.s < 2147483648 ∧ u * a.r < 2147483648 ∧
      j * a.s + u * a.r < 2147483648 := by
  have h1 := h.tap_lt hj hu
  have h2 := h.padded
  have s1 := h.s1; have r1 := h.r1
  have a1 : j * 1 ≤ j * a.s := Nat.mul_le_mul_left _ s1
  have b1 : u * 1 ≤ u * a.r := Nat.mul_le_mul_left _ r1
  generalize j * a.s = x at *
  generalize u * a.r = y at *
  omega

theorem ZAxisOK.outSize (h : ZAxisOK a) : (a.sample u32).outSize u32 a.n = .ok (a.m : Int) := by
  obtain ⟨m1, e⟩ := h.covers
  have k1 := h.k1; have s1 := h.s1; have r1 := h.r1; have hk := h.hk; have hs := h.hs; have hr := h.hr
  have hn := h.hn; have hp := h.padded
  have hl := i32_In.1 h.hl; have hq := i32_In.1 h.hq
  have c1 : (common u32 u32) = u32 := common_self _
  have ap : Padding.apply u32 u32 (Padding.ofInts u32 a.l a.q) a.n = .ok (a.l + a.n + a.q) := by
    simp only [Padding.apply, Padding.ofInts, c1, IntTy.add, u32_conv, u32_arith, Outcome.ok_bind, Outcome.pure_eq]
    congr 1
    omega
  have hin : ∀ {v : Int}, 0 ≤ v → v < 4294967296 → u32.In v := fun h0 h1 => ⟨by rw [u32_lo]; exact h0, by
    rw [u32_hi]; exact h1⟩
  generalize hy : (a.m - 1) * a.s = y at *
  generalize hx : (a.k - 1) * a.r = x at *
  have hx' : ((a.k : Int) - 1) * a.r = x := by
    have : ((a.k - 1 : Nat) : Int) = (a.k : Int) - 1 := by omega
    rw [← hx, Nat.cast_mul, this]
  have ps : Filter.patchSize u32 ⟨a.k, a.s, a.r⟩ = .ok (x + 1 : Int) := by
    rw [Filter.patchSize_ok u32_std (by omega) (by omega) (hin (by omega) (by omega)) (hin (by omega) (by omega))
      (by rw [hx']; exact hin (by omega) (by omega)), hx']
  have lt : u32.lt (a.l + a.n + a.q) (x + 1 : Int) = false := by
    rw [lt_eq u32_std (hin (by omega) (by omega)) (hin (by omega) (by omega))]
    simp only [decide_eq_false_iff_not]
    omega
  simp only [Sample.outSize, ZAxis.sample, Filter.outSize, ap, ps, Outcome.ok_bind, c1,
    conv_eq u32_std (hin (by omega : (0 : Int) ≤ x + 1) (by omega)), lt, Bool.false_eq_true, if_false]
  have e' : a.l + a.n + a.q - (x + 1 : Int) = y := by omega
  have hyc : (y : Int) = ((a.m : Int) - 1) * a.s := by
    have : ((a.m - 1 : Nat) : Int) = (a.m : Int) - 1 := by omega
    rw [← hy, Nat.cast_mul, this]
  have hm : (y : Int) / a.s = (a.m : Int) - 1 := by
    rw [hyc, Int.mul_ediv_cancel _ (by omega)]
  have hm' : (y : Int) % a.s = 0 := by rw [hyc, Int.mul_emod_left]
  have hle : (a.m : Int) - 1 ≤ y := by
    have : (a.m - 1) * 1 ≤ (a.m - 1) * a.s := Nat.mul_le_mul_left _ s1
    omega
  rw [sub_eq u32_std (hin (by omega) (by omega)) (hin (by omega) (by omega)) (by rw [e']; exact hin (by omega) (by omega)), e']
  simp only [Outcome.ok_bind]
  rw [mod_eq u32_std (hin (by omega) (by omega)) (hin (by omega) (by omega)) (by omega) (by omega), hm',
    div_eq u32_std (hin (by omega) (by omega)) (hin (by omega) (by omega)) (by omega) (by omega), hm]
  simp only [Outcome.ok_bind, ne_eq, not_true_eq_false, if_false]
  rw [add_eq u32_std (hin (by omega) (by omega)) (hin (by omega) (by omega)) (hin (by omega) (by omega))]
  simp only [Outcome.ok_bind, Outcome.pure_eq]
  rw [conv_eq u32_std (hin (by omega) (by omega))]
  exact congrArg Outcome.ok (by omega)

theorem ZAxisOK.tap (h : ZAxisOK a) {j u : Nat} (hj : j < a.m) (hu : u < a.k) :
    (a.sample u32).tap u32 j u = .ok ((j * a.s + u * a.r : Nat) : Int) := by
  obtain ⟨h1, h2, h3, h4, h5⟩ := h.small hj hu
  have hs := h.hs; have hr := h.hr; have s1 := h.s1; have r1 := h.r1
  have hin : ∀ {v : Nat}, v < 2147483648 → u32.In (v : Int) := fun h1 => ⟨by rw [u32_lo]; omega, by rw [u32_hi]; omega⟩
  have := Filter.tap_ok (N := u32) (D := u32) u32_std u32_std (k := a.k) (s := a.s) (r := a.r) (j := j) (u := u)
    (by omega) (by omega) (by omega) (by omega) (hin (by omega)) (hin (by omega)) (hin (by omega)) (hin (by omega))
    (by have := hin h5; push_cast at this; exact this)
  rw [Sample.tap, ZAxis.sample]
  rw [this]
  push_cast
  rfl

/-- The test in `uint32_t`: a negative padding on the left, stored as a number of at least `2 ^ 31`, fails it. -/
theorem ZAxisOK.inside (h : ZAxisOK a) {j u : Nat} (hj : j < a.m) (hu : u < a.k) :
    (a.sample u32).inside u32 ((j * a.s + u * a.r : Nat) : Int) a.n =
      .ok (decide (0 ≤ a.l ∧ 0 ≤ a.elem j u ∧ a.elem j u < a.n)) := by
  have h1 := h.tap_lt hj hu
  have hp := h.padded
  have hl := i32_In.1 h.hl; have hq := i32_In.1 h.hq; have hn := h.hn
  have key : ∀ x : Nat, (x : Int) < a.l + a.n + a.q →
      (⟨⟨a.k, a.s, a.r⟩, Padding.ofInts u32 a.l a.q⟩ : Sample).inside u32 (x : Int) a.n =
        .ok (decide (0 ≤ a.l ∧ 0 ≤ (x : Int) - a.l ∧ (x : Int) - a.l < a.n)) := by
    intro x hx
    have hle : u32.le (u32.conv a.l) (u32.conv x) = true ↔ a.l % 4294967296 ≤ (x : Int) := by
      rw [u32_le_iff, u32_conv, u32_conv]
      omega
    have hlt : u32.lt (u32.conv x) ((a.l % 4294967296 + (a.n : Int)) % 4294967296) = true ↔
        (x : Int) < (a.l % 4294967296 + a.n) % 4294967296 := by
      rw [u32_lt_iff, u32_conv]
      omega
    have hadd : u32.add (u32.conv a.l) (u32.conv a.n) = .ok ((a.l % 4294967296 + (a.n : Int)) % 4294967296) := by
      rw [IntTy.add, u32_arith, u32_conv, u32_conv, u32_conv, u32_conv]
      congr 1
      omega
    simp only [Sample.inside, Padding.inside, Padding.ofInts, hadd, Outcome.ok_bind, Outcome.pure_eq]
    by_cases c : a.l % 4294967296 ≤ (x : Int)
    · rw [if_pos (hle.2 c)]
      congr 1
      apply Bool.eq_iff_iff.2
      rw [hlt, decide_eq_true_iff]
      omega
    · rw [if_neg (fun h => c (hle.1 h))]
      congr 1
      apply Bool.eq_iff_iff.2
      rw [decide_eq_true_iff]
      simp only [Bool.false_eq_true, false_iff]
      omega
  exact key _ h1

theorem ZAxisOK.unpad (h : ZAxisOK a) {j u : Nat} (hin : 0 ≤ a.elem j u ∧ a.elem j u < a.n) :
    (a.sample u32).unpad u32 ((j * a.s + u * a.r : Nat) : Int) = .ok (a.elem j u) := by
  have hl := i32_In.1 h.hl; have hn := h.hn
  simp only [Sample.unpad, ZAxis.sample, Padding.unpad, Padding.ofInts, common_self, IntTy.sub, u32_conv,
    u32_arith, Outcome.ok_bind, Outcome.pure_eq]
  unfold ZAxis.elem at *
  generalize j * a.s + u * a.r = x at *
  congr 1
  omega

end u32

/-- What the two-dimensional kernels find under a tap. -/
def zloc (H W : ZAxis) (i j u v : Nat) : Option (Nat × Nat) :=
  if (0 ≤ H.l ∧ 0 ≤ H.elem i u ∧ H.elem i u < H.n) ∧ 0 ≤ W.l ∧ 0 ≤ W.elem j v ∧ W.elem j v < W.n
  then some ((H.elem i u).toNat, (W.elem j v).toNat) else none

/-- The kernels' view of two axes. -/
def zgrid (H W : ZAxis) : Grid := ⟨H.sample u32, W.sample u32, H.n, W.n, H.m, W.m, H.k, W.k, zloc H W⟩

theorem zgrid_ok {H W : ZAxis} (hH : ZAxisOK H) (hW : ZAxisOK W) : (zgrid H W).OK where
  out := by simp [zgrid, Ops.outShapeU32, MultiSample.outShape, hH.outSize, hW.outSize]
  ksize := by simp [zgrid, Ops.ksizeU32, MultiSample.getKsize, ZAxis.sample]
  at_eq := by
    intro i j u v hi hj hu hv
    simp only [zgrid] at hi hj hu hv ⊢
    simp only [Kernels.locate, hH.tap hi hu, hW.tap hj hv, Outcome.ok_bind, hH.inside hi hu, decide_eq_true_eq]
    unfold zloc
    by_cases c1 : 0 ≤ H.l ∧ 0 ≤ H.elem i u ∧ H.elem i u < H.n
    · rw [if_pos c1, hW.inside hj hv]
      simp only [Outcome.ok_bind, decide_eq_true_eq]
      by_cases c2 : 0 ≤ W.l ∧ 0 ≤ W.elem j v ∧ W.elem j v < W.n
      · rw [if_pos c2, if_pos ⟨c1, c2⟩, hH.unpad c1.2, hW.unpad c2.2]
        rfl
      · rw [if_neg c2, if_neg (fun h => c2 h.2)]
        rfl
    · rw [if_neg c1, if_neg (fun h => c1 h.1)]
      rfl
  valid := by
    intro i j u v a b h
    simp only [zgrid, zloc] at h ⊢
    split at h
    · simp only [Option.some.injEq, Prod.mk.injEq] at h
      omega
    · simp at h

theorem zgetSample {a : ZAxis} (h : ZAxisOK a) :
    LinConv.getSample (LinConv.make (Padding.ofInts u32 a.l a.q) a.s a.r) a.k = .ok (a.sample u32) := by
  have k1 := h.k1; have s1 := h.s1; have r1 := h.r1; have hk := h.hk; have hs := h.hs; have hr := h.hr
  have hin : ∀ {v : Nat}, v < 2147483648 → u32.In (v : Int) := fun h1 => ⟨by rw [u32_lo]; omega, by rw [u32_hi]; omega⟩
  simp [LinConv.getSample, LinConv.make, Sample.make, ZAxis.sample,
    Filter.make_ok u32_std (hin hk) (hin hs) (hin hr) (by omega) (by omega) (by omega)]

/-- With a padding that is not negative on the left of both axes, the kernels see the padded or cropped image. -/
theorem zgrid_pixel [Zero R] {H W : ZAxis} (hH : 0 ≤ H.l) (hW : 0 ≤ W.l) (X : Nat → Nat → R) :
    (zgrid H W).pixel X = cropped H W X := by
  funext i j u v
  unfold Grid.pixel cropped cell
  simp only [zgrid, zloc, hH, hW, true_and]
  by_cases c1 : 0 ≤ H.elem i u ∧ H.elem i u < H.n
  · by_cases c2 : 0 ≤ W.elem j v ∧ W.elem j v < W.n
    · simp only [c1, c2, and_self, if_true]
    · simp only [c1, c2, and_true, and_false, if_true, if_false]
  · simp only [c1, false_and, if_false]

/-- With a negative padding on the left of an axis, they see nothing. -/
theorem zgrid_blank {H W : ZAxis} (h : H.l < 0 ∨ W.l < 0) (i j u v : Nat) : (zgrid H W).loc i j u v = none := by
  simp only [zgrid, zloc]
  rw [if_neg]
  omega

theorem zgrid_pixel_blank [Zero R] {H W : ZAxis} (h : H.l < 0 ∨ W.l < 0) (X : Nat → Nat → R) :
    (zgrid H W).pixel X = fun _ _ _ _ => 0 := by
  funext i j u v
  unfold Grid.pixel
  rw [zgrid_blank h]

theorem zgrid_pixels {H W : ZAxis} (hH : 0 ≤ H.l) (hW : 0 ≤ W.l) (X : Nat → Nat → R) :
    (zgrid H W).pixels X = croppedPixels H W X := by
  funext i j
  unfold Grid.pixels croppedPixels
  simp only [zgrid, zloc, hH, hW, true_and]
  congr 1
  funext u
  congr 1
  funext v
  split <;> rfl

theorem zgrid_pixels_blank {H W : ZAxis} (h : H.l < 0 ∨ W.l < 0) (X : Nat → Nat → R) (i j : Nat) :
    (zgrid H W).pixels X i j = [] := by
  unfold Grid.pixels
  simp [zgrid_blank h]

/-! ## One dimension -/

/-- Parameters that fit `int32_t` so that no sum overflows. -/
structure ZLineOK (a : ZAxis) : Prop extends ZAxisOK a where
  ends : i32.In (a.l + a.n)

section line
variable {a : ZAxis}

theorem i32_nat {v : Nat} (h : v < 2147483648) : i32.In (v : Int) := i32_In.2 ⟨by omega, by omega⟩

theorem ZLineOK.sample (h : ZLineOK a) : a.sample i32 = ⟨⟨a.k, a.s, a.r⟩, ⟨a.l, a.q⟩⟩ := by
  simp [ZAxis.sample, Padding.ofInts, conv_eq i32_std h.hl, conv_eq i32_std h.hq]

theorem ZLineOK.tap (h : ZLineOK a) {D : IntTy} (hD : D.Std) {j u : Nat} (hj : j < a.m) (hu : u < a.k) :
    Filter.tap i32 D ⟨a.k, a.s, a.r⟩ j u = .ok ((j * a.s + u * a.r : Nat) : Int) := by
  obtain ⟨h1, h2, h3, h4, h5⟩ := h.toZAxisOK.small hj hu
  have hs := h.hs; have hr := h.hr; have s1 := h.s1; have r1 := h.r1
  have hin : ∀ {v : Nat}, v < 2147483648 → D.In (v : Int) := fun h1 => In.small hD (by omega) (by norm_num; omega)
  rw [Filter.tap_ok i32_std hD (by omega) (by omega) (by omega) (by omega) (i32_nat (by omega)) (i32_nat (by omega))
    (hin (by omega)) (hin (by omega)) (by have := hin h5; push_cast at this; exact this)]
  push_cast
  rfl

theorem ZLineOK.inside (h : ZLineOK a) {j u : Nat} (hj : j < a.m) (hu : u < a.k) {n : Int} (hn : i32.conv n = a.n) :
    Padding.inside i32 ⟨a.l, a.q⟩ ((j * a.s + u * a.r : Nat) : Int) n =
      .ok (decide (0 ≤ a.elem j u ∧ a.elem j u < a.n)) := by
  obtain ⟨h1, h2, h3, h4, h5⟩ := h.toZAxisOK.small hj hu
  have hi := i32_nat h5
  have hn' : i32.In (a.n : Int) := i32_nat (by have := h.hn; omega)
  simp only [Padding.inside, hn, conv_eq i32_std hi, le_eq i32_std h.hl hi, add_eq i32_std h.hl hn' h.ends,
    lt_eq i32_std hi h.ends, Outcome.ok_bind, Outcome.pure_eq]
  have e : a.elem j u = ((j * a.s + u * a.r : Nat) : Int) - a.l := rfl
  by_cases c : a.l ≤ ((j * a.s + u * a.r : Nat) : Int)
  · rw [if_pos (decide_eq_true c)]
    congr 1
    apply Bool.eq_iff_iff.2
    rw [decide_eq_true_iff, decide_eq_true_iff]
    omega
  · rw [if_neg (by simpa using c)]
    congr 1
    apply Bool.eq_iff_iff.2
    rw [decide_eq_true_iff]
    simp only [Bool.false_eq_true, false_iff]
    omega

theorem ZLineOK.outSize (h : ZLineOK a) : (a.sample i32).outSize i32 a.n = .ok (a.m : Int) := by
  obtain ⟨m1, e⟩ := h.covers
  have k1 := h.k1; have s1 := h.s1; have r1 := h.r1; have hk := h.hk; have hs := h.hs; have hr := h.hr
  have hn := h.hn; have hp := h.padded
  have hl := i32_In.1 h.hl; have hq := i32_In.1 h.hq
  have c1 : (common i32 i32) = i32 := common_self _
  have hin : ∀ {v : Int}, 0 ≤ v → v < 2147483648 → i32.In v := fun h0 h1 => i32_In.2 ⟨by omega, h1⟩
  have ap : Padding.apply i32 i32 ⟨a.l, a.q⟩ a.n = .ok (a.l + a.n + a.q) := by
    have hP : i32.In (a.l + a.n + a.q) := hin (by omega) (by omega)
    simp only [Padding.apply, c1, add_eq i32_std h.hl (i32_nat (by omega)) h.ends, Outcome.ok_bind,
      add_eq i32_std h.ends h.hq hP, conv_eq i32_std hP, Outcome.pure_eq]
  generalize hy : (a.m - 1) * a.s = y at *
  generalize hx : (a.k - 1) * a.r = x at *
  have hx' : ((a.k : Int) - 1) * a.r = x := by
    have : ((a.k - 1 : Nat) : Int) = (a.k : Int) - 1 := by omega
    rw [← hx, Nat.cast_mul, this]
  have ps : Filter.patchSize i32 ⟨a.k, a.s, a.r⟩ = .ok (x + 1 : Int) := by
    rw [Filter.patchSize_ok i32_std (by omega) (by omega) (hin (by omega) (by omega)) (hin (by omega) (by omega))
      (by rw [hx']; exact hin (by omega) (by omega)), hx']
  have lt : i32.lt (a.l + a.n + a.q) (x + 1 : Int) = false := by
    rw [lt_eq i32_std (hin (by omega) (by omega)) (hin (by omega) (by omega))]
    simp only [decide_eq_false_iff_not]
    omega
  rw [h.sample]
  simp only [Sample.outSize, Filter.outSize, ap, ps, Outcome.ok_bind, c1,
    conv_eq i32_std (hin (by omega : (0 : Int) ≤ x + 1) (by omega)), lt, Bool.false_eq_true, if_false]
  have e' : a.l + a.n + a.q - (x + 1 : Int) = y := by omega
  have hyc : (y : Int) = ((a.m : Int) - 1) * a.s := by
    have : ((a.m - 1 : Nat) : Int) = (a.m : Int) - 1 := by omega
    rw [← hy, Nat.cast_mul, this]
  have hm : (y : Int) / a.s = (a.m : Int) - 1 := by
    rw [hyc, Int.mul_ediv_cancel _ (by omega)]
  have hm' : (y : Int) % a.s = 0 := by rw [hyc, Int.mul_emod_left]
  have hle : (a.m : Int) - 1 ≤ y := by
    have : (a.m - 1) * 1 ≤ (a.m - 1) * a.s := Nat.mul_le_mul_left _ s1
    omega
  rw [sub_eq i32_std (hin (by omega) (by omega)) (hin (by omega) (by omega)) (by rw [e']; exact hin (by omega) (by omega)), e']
  simp only [Outcome.ok_bind]
  rw [mod_eq i32_std (hin (by omega) (by omega)) (hin (by omega) (by omega)) (by omega) (by omega), hm',
    div_eq i32_std (hin (by omega) (by omega)) (hin (by omega) (by omega)) (by omega) (by omega), hm]
  simp only [Outcome.ok_bind, ne_eq, not_true_eq_false, if_false]
  rw [add_eq i32_std (hin (by omega) (by omega)) (hin (by omega) (by omega)) (hin (by omega) (by omega))]
  simp only [Outcome.ok_bind, Outcome.pure_eq]
  rw [conv_eq i32_std (hin (by omega) (by omega))]
  exact congrArg Outcome.ok (by omega)

/-- The `int32_t` padding with a length of type `uint32_t` (`conv1d`). -/
theorem ZLineOK.outSize_mixed (h : ZLineOK a) :
    Filter.outSize i32 u32 ⟨a.k, a.s, a.r⟩ ⟨a.l, a.q⟩ a.n = .ok (a.m : Int) := by
  obtain ⟨m1, e⟩ := h.covers
  have k1 := h.k1; have s1 := h.s1; have r1 := h.r1; have hk := h.hk; have hs := h.hs; have hr := h.hr
  have hn := h.hn; have hp := h.padded
  have hl := i32_In.1 h.hl; have hq := i32_In.1 h.hq
  have c1 : (common i32 u32) = u32 := by decide
  have hin : ∀ {v : Int}, 0 ≤ v → v < 2147483648 → i32.In v := fun h0 h1 => i32_In.2 ⟨by omega, h1⟩
  have hun : ∀ {v : Int}, 0 ≤ v → v < 4294967296 → u32.In v := fun h0 h1 => ⟨by rw [u32_lo]; exact h0, by
    rw [u32_hi]; exact h1⟩
  have ap : Padding.apply i32 u32 ⟨a.l, a.q⟩ a.n = .ok (a.l + a.n + a.q) := by
    simp only [Padding.apply, c1, IntTy.add, u32_conv, u32_arith, Outcome.ok_bind, Outcome.pure_eq]
    congr 1
    omega
  generalize hy : (a.m - 1) * a.s = y at *
  generalize hx : (a.k - 1) * a.r = x at *
  have hx' : ((a.k : Int) - 1) * a.r = x := by
    have : ((a.k - 1 : Nat) : Int) = (a.k : Int) - 1 := by omega
    rw [← hx, Nat.cast_mul, this]
  have ps : Filter.patchSize i32 ⟨a.k, a.s, a.r⟩ = .ok (x + 1 : Int) := by
    rw [Filter.patchSize_ok i32_std (by omega) (by omega) (hin (by omega) (by omega)) (hin (by omega) (by omega))
      (by rw [hx']; exact hin (by omega) (by omega)), hx']
  have lt : u32.lt (a.l + a.n + a.q) (x + 1 : Int) = false := by
    rw [lt_eq u32_std (hun (by omega) (by omega)) (hun (by omega) (by omega))]
    simp only [decide_eq_false_iff_not]
    omega
  simp only [Filter.outSize, ap, ps, Outcome.ok_bind, c1,
    conv_eq u32_std (hun (by omega : (0 : Int) ≤ x + 1) (by omega)), lt, Bool.false_eq_true, if_false]
  have e' : a.l + a.n + a.q - (x + 1 : Int) = y := by omega
  have hyc : (y : Int) = ((a.m : Int) - 1) * a.s := by
    have : ((a.m - 1 : Nat) : Int) = (a.m : Int) - 1 := by omega
    rw [← hy, Nat.cast_mul, this]
  have hm : (y : Int) / a.s = (a.m : Int) - 1 := by
    rw [hyc, Int.mul_ediv_cancel _ (by omega)]
  have hm' : (y : Int) % a.s = 0 := by rw [hyc, Int.mul_emod_left]
  have hle : (a.m : Int) - 1 ≤ y := by
    have : (a.m - 1) * 1 ≤ (a.m - 1) * a.s := Nat.mul_le_mul_left _ s1
    omega
  rw [sub_eq u32_std (hun (by omega) (by omega)) (hun (by omega) (by omega)) (by rw [e']; exact hun (by omega) (by omega)), e']
  simp only [Outcome.ok_bind]
  rw [mod_eq u32_std (hun (by omega) (by omega)) (hun (by omega) (by omega)) (by omega) (by omega), hm',
    div_eq u32_std (hun (by omega) (by omega)) (hun (by omega) (by omega)) (by omega) (by omega), hm]
  simp only [Outcome.ok_bind, ne_eq, not_true_eq_false, if_false]
  rw [add_eq u32_std (hun (by omega) (by omega)) (hun (by omega) (by omega)) (hun (by omega) (by omega))]
  simp only [Outcome.ok_bind, Outcome.pure_eq]
  rw [conv_eq u32_std (hun (by omega) (by omega))]
  exact congrArg Outcome.ok (by omega)

theorem ZLineOK.unpad (h : ZLineOK a) {j u : Nat} (hj : j < a.m) (hu : u < a.k)
    (hin : 0 ≤ a.elem j u ∧ a.elem j u < a.n) :
    Padding.unpad i32 i32 ⟨a.l, a.q⟩ ((j * a.s + u * a.r : Nat) : Int) = .ok (a.elem j u) ∧
      Padding.unpad i32 u32 ⟨a.l, a.q⟩ ((j * a.s + u * a.r : Nat) : Int) = .ok (a.elem j u) := by
  obtain ⟨h1, h2, h3, h4, h5⟩ := h.toZAxisOK.small hj hu
  have hi := i32_nat h5
  have hl := i32_In.1 h.hl; have hn := h.hn
  have hd : i32.In (a.elem j u) := i32_In.2 ⟨by omega, by omega⟩
  constructor
  · simp only [Padding.unpad, common_self]
    rw [sub_eq i32_std hi h.hl hd]
    simp only [Outcome.ok_bind, Outcome.pure_eq]
    rw [show ((j * a.s + u * a.r : Nat) : Int) - a.l = a.elem j u from rfl, conv_eq i32_std hd]
  · have c1 : (common i32 u32) = u32 := by decide
    simp only [Padding.unpad, c1, IntTy.sub, u32_conv, u32_arith, Outcome.ok_bind, Outcome.pure_eq]
    unfold ZAxis.elem at *
    generalize j * a.s + u * a.r = x at *
    congr 1
    omega

end line

theorem zim2col1d_run [Zero R] {a : ZAxis} (h : ZLineOK a) (X : Nat → R) {y : List R} (hy : y.length = a.m * a.k) :
    Ops.im2col1d (a.sample i32) [a.m, a.k] (tab [a.n] (fn1 X)) y =
      .ok (tab [a.m, a.k] (fn2 fun j u => cell a.n X (a.elem j u))).data := by
  simp only [Ops.im2col1d, tab_dims]
  rw [← Plain.run_store2 hy]
  refine forRange_congr (fun j hj s => forRange_congr (fun u hu s => ?_) s) y
  obtain ⟨h1, h2, h3, h4, h5⟩ := h.toZAxisOK.small hj hu
  have hn : a.n < 2147483648 := h.hn
  rw [conv_eq i32_std (i32_nat h1), conv_eq i32_std (i32_nat h2), conv_eq i32_std (i32_nat hn), h.sample]
  simp only [Sample.tap, Sample.inside, Sample.unpad]
  rw [h.tap i32_std hj hu]
  simp only [Outcome.ok_bind]
  rw [h.inside hj hu (conv_eq i32_std (i32_nat hn))]
  simp only [Outcome.ok_bind, decide_eq_true_eq]
  unfold cell
  by_cases c : 0 ≤ a.elem j u ∧ a.elem j u < a.n
  · rw [if_pos c, if_pos c, (h.unpad hj hu c).1]
    have e : a.elem j u = ((a.elem j u).toNat : Int) := by omega
    have lt : (a.elem j u).toNat < a.n := by omega
    simp only [Outcome.ok_bind]
    rw [e, idx32_nat (by omega), tab_at _ (v1 lt)]
    rfl
  · rw [if_neg c, if_neg c]

theorem zconv1d_run [Semiring R] {a : ZAxis} (h : ZLineOK a) (X Y : Nat → R) {z : List R} (hz : z.length = a.m) :
    Conv1d.run ⟨a.s, a.r, Padding.ofInts i32 a.l a.q⟩ [a.m] (tab [a.n] (fn1 X)) (tab [a.k] (fn1 Y)) z =
      .ok (tab [a.m] (fn1 fun j => ∑ u ∈ Finset.range a.k, Y u * cell a.n X (a.elem j u))).data := by
  have k1 := h.k1; have s1 := h.s1; have r1 := h.r1; have hk := h.hk; have hs := h.hs; have hr := h.hr
  unfold Conv1d.run
  simp only [tab_dims, Padding.ofInts, conv_eq i32_std h.hl, conv_eq i32_std h.hq]
  rw [conv_eq i32_std (i32_nat hk), Filter.make_ok i32_std (i32_nat hk) (i32_nat hs) (i32_nat hr) (by omega) (by omega)
    (by omega), Outcome.ok_bind, ← Plain.run_store1 hz]
  refine forRange_congr (fun j hj s => ?_) z
  rw [forRange_sum (f := fun u => Y u * cell a.n X (a.elem j u))]
  · simp [seqSum_eq_sum]
  · intro u hu s
    rw [h.tap u32_std hj hu]
    simp only [Outcome.ok_bind]
    rw [h.inside hj hu (conv_eq i32_std (i32_nat h.hn))]
    simp only [Outcome.ok_bind, decide_eq_true_eq]
    unfold cell
    by_cases c : 0 ≤ a.elem j u ∧ a.elem j u < a.n
    · rw [if_pos c, if_pos c, (h.unpad hj hu c).2]
      have hi : (a.elem j u).toNat < a.n := by omega
      have e1 := tab_getElem? (fn1 Y) (v1 hu)
      have e2 := tab_getElem? (fn1 X) (v1 hi)
      simp only [offset_cons, List.prod_nil, Nat.mul_one, offset_nil, Nat.add_zero] at e1 e2
      simp [rd, e1, e2]
    · rw [if_neg c, if_neg c]
      simp

end StdNN
