import Verif.Model.Compare
import Verif.Lemmas.Bits
import Verif.Lemmas.Tensor
import Verif.Props.IO
/-!
# C161: what the comparisons of the test programs accept
-/
namespace StdNN
open Outcome Spec Spec.Format Testing

/-! ## Helpers -/

theorem binary32_infinity : binary32.infinity = 255 * 2 ^ 23 := by decide

theorem isNan_iff (b : BitVec 32) : isNan b = true ↔ binary32.infinity < b.toNat % 2 ^ 31 := by
  have h := b.isLt
  unfold isNan
  rw [Bool.and_eq_true, decide_eq_true_eq, decide_eq_true_eq, Ne, ← BitVec.toNat_inj, ← BitVec.toNat_inj,
    BitVec.extractLsb'_toNat, BitVec.extractLsb'_toNat, Nat.shiftRight_eq_div_pow, Nat.shiftRight_eq_div_pow,
    binary32_infinity]
  show _ = 255 ∧ ¬ _ = 0 ↔ _
  omega

theorem biased_toNat {b : BitVec 32} : ((biased b).toNat : ℤ) = 2 ^ 31 + position b := by
  have h := b.isLt
  unfold biased position
  rw [BitVec.msb_eq_decide]
  by_cases c : 2 ^ 31 ≤ b.toNat
  · rw [if_pos (by simpa using c), if_pos (by simpa using c), BitVec.toNat_add, BitVec.toNat_not]
    show (((2 ^ 32 - 1 - b.toNat + 1) % 2 ^ 32 : Nat) : ℤ) = _
    omega
  · rw [if_neg (by simpa using c), if_neg (by simpa using c), BitVec.toNat_add]
    show (((2 ^ 31 + b.toNat) % 2 ^ 32 : Nat) : ℤ) = _
    omega

theorem distance_toNat (a b : BitVec 32) : (distance a b).toNat = (position a - position b).natAbs := by
  have ha := biased_toNat (b := a)
  have hb := biased_toNat (b := b)
  unfold distance
  split_ifs with c
  · rw [BitVec.toNat_sub_of_le c]
    rw [BitVec.le_def] at c
    omega
  · rw [BitVec.toNat_sub_of_le (BitVec.le_of_lt (BitVec.not_le.1 c))]
    rw [BitVec.le_def] at c
    omega

/-! ## Numbers -/

/-- C161: the assertion about two numbers of type `float` holds exactly if neither is NaN and at most four values of the type
are passed on the way from one to the other. -/
theorem C161_float (a b : BitVec 32) :
    floatEq a b = true ↔
      ∃ x y, binary32.decode a = some x ∧ binary32.decode b = some y ∧ binary32.steps x y ≤ 4 := by
  unfold floatEq
  rw [Bool.and_eq_true, Bool.and_eq_true, Bool.not_eq_true', Bool.not_eq_true', decide_eq_true_eq,
    ← Bool.not_eq_true, ← Bool.not_eq_true, isNan_iff, isNan_iff, BitVec.le_def, distance_toNat, decode_eq, decode_eq]
  show (_ ∧ _) ∧ _ ≤ 4 ↔ _
  constructor
  · rintro ⟨⟨ha, hb⟩, h⟩
    refine ⟨_, _, if_neg ha, if_neg hb, ?_⟩
    rwa [binary32.steps_pos (binary32.position_range ha) (binary32.position_range hb)]
  · rintro ⟨x, y, hx, hy, h⟩
    by_cases ha : binary32.infinity < a.toNat % 2 ^ (32 - 1)
    · rw [if_pos ha] at hx; cases hx
    by_cases hb : binary32.infinity < b.toNat % 2 ^ (32 - 1)
    · rw [if_pos hb] at hy; cases hy
    rw [if_neg ha] at hx
    rw [if_neg hb] at hy
    cases hx; cases hy
    rw [binary32.steps_pos (binary32.position_range ha) (binary32.position_range hb)] at h
    exact ⟨⟨ha, hb⟩, h⟩

theorem decode_some {w : Nat} {b : BitVec w} {F : Format} {x : EReal} (h : F.decode b = some x) :
    position b ∈ Set.Icc (-(F.infinity : ℤ)) F.infinity ∧ F.pos (position b) = x := by
  rw [decode_eq] at h
  by_cases c : F.infinity < b.toNat % 2 ^ (w - 1)
  · rw [if_pos c] at h; cases h
  · rw [if_neg c] at h
    exact ⟨F.position_range c, Option.some.inj h⟩

theorem steps_decode {w : Nat} {a b : BitVec w} {F : Format} {x y : EReal} (ha : F.decode a = some x)
    (hb : F.decode b = some y) : F.steps x y = (position a - position b).natAbs := by
  obtain ⟨ra, rfl⟩ := decode_some ha
  obtain ⟨rb, rfl⟩ := decode_some hb
  exact F.steps_pos ra rb

theorem binary32_sig : binary32.sig = 2 ^ 23 := by decide

/-- C161: what passes is near: within `2⁻²¹` of the greater number, or within four of the least positive numbers. -/
theorem C161_float_near {a b : BitVec 32} {x y : ℝ} (h : floatEq a b = true) (ha : binary32.decode a = some (x : EReal))
    (hb : binary32.decode b = some (y : EReal)) : |x - y| ≤ max (2 ^ (-21 : ℤ) * max |x| |y|) (2 ^ (-147 : ℤ)) := by
  obtain ⟨x', y', ha', hb', n⟩ := (C161_float a b).1 h
  rw [ha] at ha'
  rw [hb] at hb'
  cases ha'; cases hb'
  rw [steps_decode ha hb] at n
  have c := binary32.signed_close (decode_some ha).2 (decode_some hb).2
  have n' : ((position a - position b).natAbs : ℝ) ≤ 4 := by exact_mod_cast n
  refine c.trans ((mul_le_mul_of_nonneg_right n' (le_max_of_le_right (two_pos _).le)).trans (le_of_eq ?_))
  rw [mul_max_of_nonneg _ _ (by norm_num), binary32_sig]
  show max _ (4 * (2 : ℝ) ^ (-126 - (((24 : Nat) : ℤ) - 1))) = _
  congr 1
  · rw [show (-21 : ℤ) = 2 - 23 by norm_num, zpow_sub₀ (by norm_num)]; push_cast; ring
  · rw [show (-147 : ℤ) = 2 + (-126 - (((24 : Nat) : ℤ) - 1)) by norm_num, zpow_add₀ (by norm_num)]; norm_num

/-- C161: numbers whose difference is at most `5 · 2⁻²⁵` of the greater one pass. -/
theorem C161_float_accepts {a b : BitVec 32} {x y : ℝ} (ha : binary32.decode a = some (x : EReal))
    (hb : binary32.decode b = some (y : EReal)) (h : |x - y| ≤ 5 * 2 ^ (-25 : ℤ) * max |x| |y|) : floatEq a b = true := by
  refine (C161_float a b).2 ⟨_, _, ha, hb, ?_⟩
  rw [steps_decode ha hb]
  by_contra c
  have := binary32.signed_apart (decode_some ha).2 (decode_some hb).2 (n := 5) (by decide) (by decide) (by omega)
  rw [binary32_sig, show (-25 : ℤ) = -((25 : Nat) : ℤ) by norm_num, zpow_neg, zpow_natCast] at *
  push_cast at this
  rw [show (5 * (2 ^ 25 : ℝ)⁻¹ * max |x| |y|) = (5 * max |x| |y|) / 2 ^ 25 by ring, le_div_iff₀ (by norm_num)] at h
  linarith

/-- C161: every number passes against itself, unless it is NaN, and the order of the two does not matter. -/
theorem C161_float_self (a : BitVec 32) : floatEq a a = true ↔ binary32.decode a ≠ none := by
  rw [C161_float]
  constructor
  · rintro ⟨x, y, h, -, -⟩; rw [h]; simp
  · intro h
    obtain ⟨x, hx⟩ := Option.ne_none_iff_exists'.1 h
    exact ⟨x, x, hx, hx, by rw [steps_decode hx hx]; simp⟩

/-- C161 (symmetry). -/
theorem C161_float_comm (a b : BitVec 32) : floatEq a b = floatEq b a := by
  rw [Bool.eq_iff_iff, C161_float, C161_float]
  constructor
  all_goals
    rintro ⟨x, y, hx, hy, h⟩
    refine ⟨y, x, hy, hx, ?_⟩
    rw [steps_decode hy hx]
    rw [steps_decode hx hy] at h
    omega

/-- C161: what passes against what passes need not pass; the greatest finite number passes against infinity; the two zeros
pass; numbers on both sides of zero pass; a NaN does not. -/
theorem C161_float_odd :
    (floatEq 0x3f800000#32 0x3f800004#32 ∧ floatEq 0x3f800004#32 0x3f800008#32 ∧ ¬ floatEq 0x3f800000#32 0x3f800008#32) ∧
    (floatEq 0x7f7fffff#32 0x7f800000#32 ∧ binary32.decode 0x7f800000#32 = some ⊤) ∧
    (floatEq 0x00000000#32 0x80000000#32 ∧ floatEq 0x00000002#32 0x80000002#32) ∧
    (¬ floatEq 0x7fc00000#32 0x7fc00000#32 ∧ binary32.decode 0x7fc00000#32 = none) := by
  refine ⟨⟨by decide, by decide, by decide⟩, ⟨by decide, ?_⟩, ⟨by decide, by decide⟩, by decide, ?_⟩
  · rw [decode_eq, if_neg (by decide)]
    refine congrArg some ?_
    unfold pos
    rw [if_pos (by decide)]
  · rw [decode_eq, if_pos (by decide)]

/-! ## Doubles -/

/-- `conv` converts `double` to `float` as C++ does under IEEE 754: NaN to some NaN, anything else to the nearest value. -/
def Narrows (conv : BitVec 64 → BitVec 32) : Prop :=
  ∀ a, binary32.decode (conv a) = (binary64.decode a).map binary32.round

/-- C161: the assertion about two numbers of type `double` is the one about the nearest numbers of type `float`. -/
theorem C161_double {conv : BitVec 64 → BitVec 32} (hc : Narrows conv) (a b : BitVec 64) :
    doubleEq conv a b = true ↔ ∃ x y, binary64.decode a = some x ∧ binary64.decode b = some y ∧
      binary32.steps (binary32.round x) (binary32.round y) ≤ 4 := by
  unfold doubleEq
  rw [C161_float, hc, hc]
  constructor
  · rintro ⟨x, y, hx, hy, h⟩
    obtain ⟨x', hx', rfl⟩ := Option.map_eq_some_iff.1 hx
    obtain ⟨y', hy', rfl⟩ := Option.map_eq_some_iff.1 hy
    exact ⟨x', y', hx', hy', h⟩
  · rintro ⟨x, y, hx, hy, h⟩
    exact ⟨_, _, by rw [hx]; rfl, by rw [hy]; rfl, h⟩

theorem steps_self (F : Format) (x : EReal) : F.steps x x = 0 := by
  unfold steps
  rw [min_self, max_self]
  have : {z | F.Value z ∧ x < z ∧ z ≤ x} = ∅ := by
    ext z
    exact ⟨fun h => absurd h.2.2 (not_le.2 h.2.1), fun h => h.elim⟩
  rw [this, Set.ncard_empty]

/-- C161: doubles that round to the same `float` pass. -/
theorem C161_double_same {conv : BitVec 64 → BitVec 32} (hc : Narrows conv) {a b : BitVec 64} {x y : EReal}
    (ha : binary64.decode a = some x) (hb : binary64.decode b = some y) (h : binary32.round x = binary32.round y) :
    doubleEq conv a b = true :=
  (C161_double hc a b).2 ⟨x, y, ha, hb, by rw [h, steps_self]; omega⟩

/-- C161: doubles of `2¹²⁸` or more pass against each other, however different. -/
theorem C161_double_huge {conv : BitVec 64 → BitVec 32} (hc : Narrows conv) {a b : BitVec 64} {x y : EReal}
    (ha : binary64.decode a = some x) (hb : binary64.decode b = some y) (hx : ((2 ^ 128 : ℝ) : EReal) ≤ x)
    (hy : ((2 ^ 128 : ℝ) : EReal) ≤ y) : doubleEq conv a b = true := by
  have key : ∀ {x : EReal}, ((2 ^ 128 : ℝ) : EReal) ≤ x → binary32.round x = ⊤ := by
    intro x hx
    have l : binary32.limit = 2 ^ 128 := by
      show (2 : ℝ) ^ ((127 : ℤ) + 1) = 2 ^ 128
      norm_num
    have t : binary32.round ((2 ^ 128 : ℝ) : EReal) = ⊤ := by
      unfold Format.round
      rw [if_neg (EReal.coe_ne_top _), if_neg (EReal.coe_ne_bot _), EReal.toReal_coe, ← l, if_pos]
      have : binary32.Mem binary32.limit := binary32.mem_two_pow (by decide)
      rw [binary32.nearest_mem this]
    exact top_le_iff.1 (t ▸ binary32.round_mono hx)
  exact C161_double_same hc ha hb (by rw [key hx, key hy])

/-- C161: a double whose distance from a number of type `float` is below `2⁻²⁵` of it passes against that number. -/
theorem C161_double_blind {conv : BitVec 64 → BitVec 32} (hc : Narrows conv) {a b : BitVec 64} {x y : ℝ}
    (ha : binary64.decode a = some (x : EReal)) (hb : binary64.decode b = some (y : EReal))
    (hx : binary32.Value (x : EReal)) (h : |y - x| < 2 ^ (-25 : ℤ) * |x|) : doubleEq conv a b = true := by
  obtain ⟨m, l⟩ : binary32.Mem x ∧ |x| < binary32.limit := by
    rcases hx with c | c | ⟨r, c, m⟩
    · exact absurd c (EReal.coe_ne_top _)
    · exact absurd c (EReal.coe_ne_bot _)
    · rw [EReal.coe_injective c]; exact m
  have e : binary32.nearest y = x := by
    by_contra c
    have best := binary32.nearest_best m y
    rw [abs_sub_comm x y] at best
    have near : |x - binary32.nearest y| < 2 ^ (-24 : ℤ) * |x| := by
      have e : x - binary32.nearest y = -(y - x) - (binary32.nearest y - y) := by ring
      rw [e]
      refine (abs_sub _ _).trans_lt ?_
      rw [abs_neg, show (-24 : ℤ) = -25 + 1 by norm_num, zpow_add_one₀ (by norm_num)]
      linarith
    have apart := binary32.mem_apart m (binary32.mem_nearest y) (Ne.symm c)
    rw [binary32_sig, show (-24 : ℤ) = -((24 : Nat) : ℤ) by norm_num, zpow_neg, zpow_natCast] at *
    push_cast at apart
    rw [inv_mul_eq_div, lt_div_iff₀ (by norm_num)] at near
    linarith
  refine C161_double_same hc ha hb ?_
  rw [binary32.value_round hx, binary32.round_real (by rwa [e]), e]

/-! ## Tensors -/

theorem rd_getElem {R : Type} {l : List R} {i : Nat} (h : i < l.length) : rd l i = .ok l[i] := by
  unfold rd; rw [List.getElem?_eq_getElem h]

/-- C161: a comparison of tensors fails once if the shapes differ, and otherwise as often as there are elements that are not
accepted; all elements are compared, also after a failure. -/
theorem C161_tensor {R : Type} (eq : R → R → Bool) {x y : Tensor R} (hx : x.data.length = x.dims.prod)
    (hy : y.data.length = y.dims.prod) :
    assertTensorEq eq x y =
      .ok (if x.dims = y.dims then (x.data.zip y.data).countP (fun p => !eq p.1 p.2) else 1) := by
  unfold assertTensorEq
  by_cases h : x.dims = y.dims
  · rw [if_neg (by simpa using h), if_pos h]
    have ly : y.data.length = x.dims.prod := by rw [hy, h]
    obtain ⟨s, e, i⟩ := forRange_inv (n := x.dims.prod)
      (body := fun i fails => do
        let a ← rd x.data i
        let b ← rd y.data i
        return if eq a b then fails else fails + 1)
      (fun i (n : Nat) => n = ((x.data.zip y.data).take i).countP (fun p => !eq p.1 p.2))
      (by
        rintro i hi s rfl
        rw [rd_getElem (show i < x.data.length by omega), rd_getElem (show i < y.data.length by omega)]
        refine ⟨_, rfl, ?_⟩
        rw [List.take_add_one, List.getElem?_eq_getElem (by rw [List.length_zip]; omega), List.countP_append,
          Option.toList_some, List.countP_singleton, List.getElem_zip]
        dsimp only
        cases eq x.data[i] y.data[i] <;> simp) (s := 0) rfl
    rw [e, i, List.take_of_length_le]
    rw [List.length_zip]; omega
  · rw [if_pos h, if_neg h]

/-- C161: no assertion fails exactly if the shapes are the same and all elements are accepted. -/
theorem C161_tensor_pass {R : Type} (eq : R → R → Bool) {x y : Tensor R} (hx : x.data.length = x.dims.prod)
    (hy : y.data.length = y.dims.prod) :
    assertTensorEq eq x y = .ok 0 ↔ x.dims = y.dims ∧ List.Forall₂ (fun a b => eq a b = true) x.data y.data := by
  rw [C161_tensor eq hx hy]
  by_cases h : x.dims = y.dims
  · rw [if_pos h]
    have l : x.data.length = y.data.length := by rw [hx, hy, h]
    rw [List.forall₂_iff_zip]
    constructor
    · intro e
      refine ⟨h, l, fun {a b} m => ?_⟩
      have := List.countP_eq_zero.1 (Outcome.ok.inj e) _ m
      simpa using this
    · rintro ⟨-, -, f⟩
      exact congrArg _ (List.countP_eq_zero.2 fun p m => by simpa using f (a := p.1) (b := p.2) m)
  · rw [if_neg h]
    constructor
    · intro e; exact absurd (Outcome.ok.inj e) (by decide)
    · intro e; exact absurd e.1 h

/-- C161: for other types than `float` and `double`, a comparison passes exactly if the tensors are equal. -/
theorem C161_tensor_exact {R : Type} [DecidableEq R] {x y : Tensor R} (hx : x.data.length = x.dims.prod)
    (hy : y.data.length = y.dims.prod) : assertTensorEq (fun a b => decide (a = b)) x y = .ok 0 ↔ x = y := by
  rw [C161_tensor_pass _ hx hy]
  simp only [decide_eq_true_eq, List.forall₂_eq_eq_eq]
  cases x; cases y
  simp

/-! ## Bytes -/

/-- C161: comparing bytes compares the shapes and the first bytes, as many as their number modulo 2³². -/
theorem C161_bytes {R : Type} {w : Nat} {enc : R → List Byte} (he : ∀ a, (enc a).length = w) {x y : Tensor R}
    (hx : x.data.length = x.dims.prod) (hy : y.data.length = y.dims.prod) :
    bytesEq w enc x y = .ok (decide (x.dims = y.dims ∧
      (x.data.flatMap enc).take ((w * x.dims.prod) % 2 ^ 32) = (y.data.flatMap enc).take ((w * x.dims.prod) % 2 ^ 32))) := by
  have len : ∀ l : List R, (l.flatMap enc).length = w * l.length := by
    intro l
    induction l with
    | nil => rfl
    | cons a l ih => rw [List.flatMap_cons, List.length_append, he, ih, List.length_cons]; ring
  unfold bytesEq viewBytes
  by_cases h : x.dims = y.dims
  · rw [if_neg (by simpa using h)]
    dsimp only
    rw [List.prod_singleton]
    have lx := len x.data
    have ly := len y.data
    rw [hx] at lx
    rw [hy, ← h] at ly
    have le := Nat.mod_le (w * x.dims.prod) (2 ^ 32)
    generalize (w * x.dims.prod) % 2 ^ 32 = n at le
    obtain ⟨s, e, i⟩ := forRange_inv (n := n)
      (body := fun i same => do
        if same then
          let u ← rd (x.data.flatMap enc) i
          let v ← rd (y.data.flatMap enc) i
          return decide (u = v)
        else return false)
      (fun i (b : Bool) => b = decide ((x.data.flatMap enc).take i = (y.data.flatMap enc).take i))
      (by
        rintro i hi s rfl
        have ix : i < (x.data.flatMap enc).length := by omega
        have iy : i < (y.data.flatMap enc).length := by omega
        have e : (x.data.flatMap enc).take (i + 1) = (y.data.flatMap enc).take (i + 1) ↔
            (x.data.flatMap enc).take i = (y.data.flatMap enc).take i ∧ (x.data.flatMap enc)[i] = (y.data.flatMap enc)[i] := by
          rw [List.take_succ_eq_append_getElem ix, List.take_succ_eq_append_getElem iy]
          constructor
          · intro h
            have := List.append_inj' h rfl
            exact ⟨this.1, List.singleton_inj.1 this.2⟩
          · rintro ⟨a, b⟩; rw [a, b]
        by_cases c : (x.data.flatMap enc).take i = (y.data.flatMap enc).take i
        · rw [if_pos (by simpa using c), rd_getElem ix, rd_getElem iy]
          exact ⟨_, rfl, by rw [decide_eq_decide, e]; exact ⟨fun h => ⟨c, h⟩, fun h => h.2⟩⟩
        · rw [if_neg (by simpa using c)]
          refine ⟨_, rfl, ?_⟩
          rw [eq_comm, decide_eq_false_iff_not, e]
          exact fun h => c h.1) (s := true) (by simp)
    rw [e, i]
    simp [h]
  · rw [if_pos h]
    simp [h]

theorem bytes_inj {R : Type} {w : Nat} (hw : 0 < w) {enc : R → List Byte} (he : ∀ a, (enc a).length = w)
    (inj : Function.Injective enc) {l m : List R} (h : l.flatMap enc = m.flatMap enc) : l = m := by
  induction l generalizing m with
  | nil =>
    cases m with
    | nil => rfl
    | cons b m =>
      have := congrArg List.length h
      rw [List.flatMap_cons, List.length_append, he, List.flatMap_nil, List.length_nil] at this
      omega
  | cons a l ih =>
    cases m with
    | nil =>
      have := congrArg List.length h
      rw [List.flatMap_cons, List.length_append, he, List.flatMap_nil, List.length_nil] at this
      omega
    | cons b m =>
      rw [List.flatMap_cons, List.flatMap_cons] at h
      have := List.append_inj h (by rw [he, he])
      rw [inj this.1, ih this.2]

/-- C161: tensors of less than 4 GiB have equal bytes exactly if they are equal, provided that different elements have
different bytes. -/
theorem C161_bytes_equal {R : Type} {w : Nat} (hw : 0 < w) {enc : R → List Byte} (he : ∀ a, (enc a).length = w)
    (inj : Function.Injective enc) {x y : Tensor R} (hx : x.data.length = x.dims.prod)
    (hy : y.data.length = y.dims.prod) (small : w * x.dims.prod < 2 ^ 32) :
    bytesEq w enc x y = .ok true ↔ x = y := by
  rw [C161_bytes he hx hy, Nat.mod_eq_of_lt small]
  have len : ∀ l : List R, (l.flatMap enc).length = w * l.length := by
    intro l
    induction l with
    | nil => rfl
    | cons a l ih => rw [List.flatMap_cons, List.length_append, he, ih, List.length_cons]; ring
  constructor
  · intro h
    obtain ⟨d, t⟩ := of_decide_eq_true (Outcome.ok.inj h)
    rw [List.take_of_length_le (by rw [len, hx]), List.take_of_length_le (by rw [len, hy, d])] at t
    have := bytes_inj hw he inj t
    cases x; cases y
    simp only at d this
    rw [d, this]
  · rintro rfl
    simp

/-- C161: of tensors whose size is a multiple of 4 GiB, such as 2³⁰ numbers of type `float`, no byte is compared. -/
theorem C161_bytes_wrap {R : Type} {w : Nat} {enc : R → List Byte} (he : ∀ a, (enc a).length = w) {x y : Tensor R}
    (hx : x.data.length = x.dims.prod) (hy : y.data.length = y.dims.prod) (hd : x.dims = y.dims)
    (big : 2 ^ 32 ∣ w * x.dims.prod) : bytesEq w enc x y = .ok true := by
  rw [C161_bytes he hx hy, Nat.mod_eq_zero_of_dvd big]
  simp [hd]

theorem bytes32_length (e : Endian) (a : BitVec 32) : (bytes32 e a).length = 4 := by cases e <;> rfl

theorem bytes32_inj (e : Endian) : Function.Injective (bytes32 e) := by
  intro x y h
  obtain ⟨a, b, c, d, rfl⟩ := exists_word e x
  obtain ⟨a', b', c', d', rfl⟩ := exists_word e y
  rw [bytes32_word32, bytes32_word32] at h
  cases h
  rfl

/-- C161: numbers of type `float` with equal bytes pass the comparison of numbers exactly if none of them is NaN. The
converse fails: the zeros differ in a bit. -/
theorem C161_bytes_floats (e : Endian) {x y : Tensor (BitVec 32)} (hx : x.data.length = x.dims.prod)
    (hy : y.data.length = y.dims.prod) (small : 4 * x.dims.prod < 2 ^ 32) (h : bytesEq 4 (bytes32 e) x y = .ok true) :
    assertTensorEq floatEq x y = .ok 0 ↔ ∀ a ∈ x.data, binary32.decode a ≠ none := by
  have := (C161_bytes_equal (by decide) (bytes32_length e) (bytes32_inj e) hx hy small).1 h
  subst this
  rw [C161_tensor_pass _ hx hx, List.forall₂_same]
  simp only [true_and]
  exact forall₂_congr fun a _ => C161_float_self a

/-! ## Cases -/

/-- A conversion of `double` to `float` exists. -/
theorem exists_narrows : ∃ conv, Narrows conv := by
  have h : ∀ a : BitVec 64, ∃ b : BitVec 32, binary32.decode b = (binary64.decode a).map binary32.round := by
    intro a
    cases binary64.decode a with
    | none => exact ⟨0x7fc00000#32, C161_float_odd.2.2.2.2⟩
    | some x => exact binary32.exists_pattern (by decide) (binary32.round_value x)
  choose conv hc using h
  exact ⟨conv, hc⟩

theorem decode_one : binary32.decode 0x3f800000#32 = some ((1 : ℝ) : EReal) := by
  rw [decode_eq, if_neg (by decide), show position 0x3f800000#32 = ((0x3f800000 : Nat) : ℤ) by decide, pos_nat,
    if_neg (by decide)]
  refine congrArg some (congrArg _ ?_)
  rw [ofMagnitude_eq, show binary32.significand 0x3f800000 = 2 ^ 23 by decide,
    show binary32.lastPlace 0x3f800000 = -23 by decide]
  norm_num

theorem decode_two : binary32.decode 0x3f800001#32 = some ((1 + 2 ^ (-23 : ℤ) : ℝ) : EReal) := by
  rw [decode_eq, if_neg (by decide), show position 0x3f800001#32 = ((0x3f800001 : Nat) : ℤ) by decide, pos_nat,
    if_neg (by decide)]
  refine congrArg some (congrArg _ ?_)
  rw [ofMagnitude_eq, show binary32.significand 0x3f800001 = 2 ^ 23 + 1 by decide,
    show binary32.lastPlace 0x3f800001 = -23 by decide]
  norm_num

-- One and the next number: they pass, and the bounds are met.
example : floatEq 0x3f800000#32 0x3f800001#32 = true :=
  C161_float_accepts decode_one decode_two (by
    rw [abs_of_pos (by norm_num : (0 : ℝ) < 1), abs_of_pos (by norm_num : (0 : ℝ) < 1 + 2 ^ (-23 : ℤ)),
      max_eq_right (by norm_num)]
    norm_num [abs_of_neg])

example : |(1 : ℝ) - (1 + 2 ^ (-23 : ℤ))| ≤ max (2 ^ (-21 : ℤ) * max |1| |1 + 2 ^ (-23 : ℤ)|) (2 ^ (-147 : ℤ)) :=
  C161_float_near (by decide) decode_one decode_two

theorem decode_double {m : Nat} (h : m < binary64.infinity) :
    binary64.decode (BitVec.ofNat 64 m) = some ((binary64.ofMagnitude m : ℝ) : EReal) := by
  have e : binary64.infinity = 2047 * 2 ^ 52 := by decide
  have t : (BitVec.ofNat 64 m).toNat = m := by rw [BitVec.toNat_ofNat, Nat.mod_eq_of_lt]; omega
  have r : m % 2 ^ 63 = m := Nat.mod_eq_of_lt (by omega)
  rw [decode_eq, t, r, if_neg (by omega)]
  refine congrArg some ?_
  unfold position
  rw [t, if_neg (by omega), r, pos_nat, if_neg (by omega)]

theorem double_one : binary64.ofMagnitude 0x3ff0000000000000 = 1 := by
  rw [ofMagnitude_eq, show binary64.significand 0x3ff0000000000000 = 2 ^ 52 by decide,
    show binary64.lastPlace 0x3ff0000000000000 = -52 by decide]
  norm_num

theorem double_next : binary64.ofMagnitude 0x3ff0000000400000 = 1 + 2 ^ (-30 : ℤ) := by
  rw [ofMagnitude_eq, show binary64.significand 0x3ff0000000400000 = 2 ^ 52 + 2 ^ 22 by decide,
    show binary64.lastPlace 0x3ff0000000400000 = -52 by decide]
  norm_num

theorem double_huge : binary64.ofMagnitude 0x47f0000000000000 = 2 ^ 128 ∧ binary64.ofMagnitude 0x7fe0000000000000 = 2 ^ 1023 := by
  constructor
  · rw [ofMagnitude_eq, show binary64.significand 0x47f0000000000000 = 2 ^ 52 by decide,
      show binary64.lastPlace 0x47f0000000000000 = 76 by decide]
    norm_num
  · rw [ofMagnitude_eq, show binary64.significand 0x7fe0000000000000 = 2 ^ 52 by decide,
      show binary64.lastPlace 0x7fe0000000000000 = ((971 : Nat) : ℤ) by decide, zpow_natCast]
    rw [show ((2 ^ 52 : Nat) : ℝ) = 2 ^ 52 by norm_num, ← pow_add]

-- Conversions as required exist, and a double passes against itself.
example : ∃ conv, Narrows conv ∧ doubleEq conv (BitVec.ofNat 64 0x3ff0000000000000) (BitVec.ofNat 64 0x3ff0000000000000) = true :=
  exists_narrows.imp fun _ hc => ⟨hc, C161_double_same hc (decode_double (by decide)) (decode_double (by decide)) rfl⟩

-- `1` and `1 + 2⁻³⁰` pass as doubles.
example {conv : BitVec 64 → BitVec 32} (hc : Narrows conv) :
    doubleEq conv (BitVec.ofNat 64 0x3ff0000000000000) (BitVec.ofNat 64 0x3ff0000000400000) = true := by
  refine C161_double_blind hc (decode_double (by decide)) (decode_double (by decide)) ?_ ?_
  · rw [double_one]
    exact .inr (.inr ⟨1, rfl, by exact_mod_cast binary32.mem_int (z := 1) (by decide),
      by rw [abs_one]; exact binary32.one_lt_limit⟩)
  · rw [double_one, double_next]; norm_num

-- `2¹²⁸` and `2¹⁰²³` pass as doubles.
example {conv : BitVec 64 → BitVec 32} (hc : Narrows conv) :
    doubleEq conv (BitVec.ofNat 64 0x47f0000000000000) (BitVec.ofNat 64 0x7fe0000000000000) = true := by
  refine C161_double_huge hc (decode_double (by decide)) (decode_double (by decide)) ?_ ?_
  · rw [double_huge.1]
  · rw [double_huge.2]
    exact EReal.coe_le_coe_iff.2 (pow_le_pow_right₀ (by norm_num) (by norm_num))

-- Two of the three elements are rejected.
example : assertTensorEq floatEq ⟨[3], [0x3f800000#32, 0x7fc00000#32, 0x3f800000#32]⟩ ⟨[3], [0x3f800001#32, 0x7fc00000#32, 0#32]⟩
    = .ok 2 := by
  rw [C161_tensor _ rfl rfl]
  exact congrArg _ (by decide)

example : assertTensorEq (fun a b : Int => decide (a = b)) ⟨[2], [1, 2]⟩ ⟨[2], [1, 2]⟩ = .ok 0 :=
  (C161_tensor_exact rfl rfl).2 rfl

example : assertTensorEq (fun a b : Int => decide (a = b)) ⟨[2], [1, 2]⟩ ⟨[1, 2], [1, 2]⟩ ≠ .ok 0 :=
  fun h => absurd ((C161_tensor_pass _ rfl rfl).1 h).1 (by decide)

-- The two zeros are equal numbers with different bytes.
example (e : Endian) : bytesEq 4 (bytes32 e) ⟨[1], [0x80000000#32]⟩ ⟨[1], [0#32]⟩ ≠ .ok true := fun h =>
  absurd ((C161_bytes_equal (by decide) (bytes32_length e) (bytes32_inj e) rfl rfl (by decide)).1 h) (by decide)

-- A NaN has the same bytes as itself and is not accepted.
example (e : Endian) : assertTensorEq floatEq ⟨[1], [0x7fc00000#32]⟩ ⟨[1], [0x7fc00000#32]⟩ ≠ .ok 0 := fun h =>
  (C161_bytes_floats e rfl rfl (by decide)
    ((C161_bytes_equal (by decide) (bytes32_length e) (bytes32_inj e) rfl rfl (by decide)).2 rfl)).1 h _ (by simp)
    C161_float_odd.2.2.2.2

-- Of two numbers, the second differs.
example (e : Endian) : bytesEq 4 (bytes32 e) ⟨[2], [1#32, 2#32]⟩ ⟨[2], [1#32, 3#32]⟩ = .ok false := by
  rw [C161_bytes (bytes32_length e) rfl rfl]
  cases e <;> exact congrArg _ (by decide)

-- All zeros and all ones, 2³⁰ of them.
example (e : Endian) : bytesEq 4 (bytes32 e) ⟨[2 ^ 30], List.replicate (2 ^ 30) 0#32⟩ ⟨[2 ^ 30], List.replicate (2 ^ 30) 1#32⟩
    = .ok true :=
  C161_bytes_wrap (bytes32_length e) (by rw [List.length_replicate, List.prod_singleton])
    (by rw [List.length_replicate, List.prod_singleton]) rfl (by rw [List.prod_singleton]; exact ⟨1, by norm_num⟩)

end StdNN
