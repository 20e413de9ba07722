import Verif.Model.Hash
import Verif.Spec.Crc
import Verif.Lemmas.Tensor
import Mathlib.Algebra.CharP.Two
import Mathlib.Tactic.LinearCombination
import Mathlib.Algebra.Polynomial.Monic
import Mathlib.Algebra.Polynomial.BigOperators
/-!
# C63-C66: CRC
-/
namespace StdNN
open Spec Outcome
variable {w : Nat}

/-! ## The register update is linear -/

theorem and_one_eq (hw : 0 < w) (s : BitVec w) : (s &&& 1 = 1) ↔ s.getLsbD 0 = true := by
  constructor
  · intro h
    have := congrArg (fun v => v.getLsbD 0) h
    simpa [hw] using this
  · intro h
    apply BitVec.eq_of_getLsbD_eq
    intro i hi
    cases i with
    | zero => simp [h, hi]
    | succ i => simp [BitVec.getLsbD_one]

/-- The update without a message bit. -/
def shr (poly s : BitVec w) : BitVec w := crcBit poly s false

theorem t_eq (hw : 0 < w) (s poly : BitVec w) : Kernels.Crc.t s poly = shr poly s := by
  unfold Kernels.Crc.t shr crcBit
  simp only [and_one_eq hw, Bool.xor_false]

theorem shr_getLsbD (poly s : BitVec w) (i : Nat) :
    (shr poly s).getLsbD i = (s.getLsbD (i + 1) ^^ (s.getLsbD 0 && poly.getLsbD i)) := by
  unfold shr crcBit
  cases h : s.getLsbD 0 <;> simp [Nat.add_comm]

theorem shr_xor (poly a b : BitVec w) : shr poly (a ^^^ b) = shr poly a ^^^ shr poly b := by
  apply BitVec.eq_of_getLsbD_eq
  intro i _
  simp only [shr_getLsbD, BitVec.getLsbD_xor]
  cases a.getLsbD 0 <;> cases b.getLsbD 0 <;> cases a.getLsbD (i + 1) <;> cases b.getLsbD (i + 1) <;>
    cases poly.getLsbD i <;> rfl

theorem shr_zero (poly : BitVec w) : shr poly 0 = 0 := by
  apply BitVec.eq_of_getLsbD_eq
  intro i _
  simp [shr_getLsbD]

theorem iter_xor (poly : BitVec w) (n : Nat) (a b : BitVec w) :
    (shr poly)^[n] (a ^^^ b) = (shr poly)^[n] a ^^^ (shr poly)^[n] b := by
  induction n generalizing a b with
  | zero => rfl
  | succ n ih => rw [Function.iterate_succ_apply, shr_xor, ih]; rfl

theorem iter_zero (poly : BitVec w) (n : Nat) : (shr poly)^[n] 0 = 0 := by
  induction n with
  | zero => rfl
  | succ n ih => rw [Function.iterate_succ_apply, shr_zero, ih]

/-- With the low `n` bits zero, `n` updates are a shift. -/
theorem iter_shift (poly : BitVec w) (n : Nat) (s : BitVec w) (h : ∀ i < n, s.getLsbD i = false) :
    (shr poly)^[n] s = s >>> n := by
  induction n generalizing s with
  | zero => simp
  | succ n ih =>
    have e : shr poly s = s >>> 1 := by
      unfold shr crcBit
      rw [h 0 (by omega)]
      rfl
    rw [Function.iterate_succ_apply, e, ih]
    · rw [← BitVec.shiftRight_add, Nat.add_comm]
    · intro i hi
      rw [BitVec.getLsbD_ushiftRight]
      exact h _ (by omega)

/-- A message bit is added to the lowest bit of the register. -/
theorem crcBit_eq (poly s : BitVec w) (m : Bool) (hw : 0 < w) :
    crcBit poly s m = shr poly (s ^^^ (BitVec.ofBool m).setWidth w) := by
  unfold shr crcBit
  have h0 : (s ^^^ (BitVec.ofBool m).setWidth w).getLsbD 0 = (s.getLsbD 0 ^^ m) := by
    simp [hw]
  have h1 : (s ^^^ (BitVec.ofBool m).setWidth w) >>> 1 = s >>> 1 := by
    apply BitVec.eq_of_getLsbD_eq
    intro i _
    simp
  rw [h0, h1, Bool.xor_false]

/-- Taking in the bits `d` is adding them to the register and updating it once per bit. -/
theorem crcReg_eq (hw : 0 < w) (poly : BitVec w) (d : List Bool) (s v : BitVec w)
    (hv : ∀ i, v.getLsbD i = d.getD i false) : crcReg poly s d = (shr poly)^[d.length] (s ^^^ v) := by
  induction d generalizing s v with
  | nil =>
    have : v = 0 := by
      apply BitVec.eq_of_getLsbD_eq
      intro i _
      rw [hv i]
      simp
    simp [crcReg, this]
  | cons m ms ih =>
    have h0 : v.getLsbD 0 = m := by rw [hv 0]; rfl
    have e : crcReg poly s (m :: ms) = crcReg poly (crcBit poly s m) ms := rfl
    rw [e, ih (crcBit poly s m) (v >>> 1) (fun i => by
      rw [BitVec.getLsbD_ushiftRight, hv]
      simp [Nat.add_comm]), crcBit_eq poly s m hw]
    have hu : shr poly (v ^^^ (BitVec.ofBool m).setWidth w) = v >>> 1 := by
      apply BitVec.eq_of_getLsbD_eq
      intro i _
      rw [shr_getLsbD, BitVec.getLsbD_xor, BitVec.getLsbD_xor, h0, BitVec.getLsbD_ushiftRight, Nat.add_comm 1]
      simp [hw]
    rw [← hu, ← shr_xor, List.length_cons, Function.iterate_succ_apply]
    congr 2
    rw [BitVec.xor_assoc, BitVec.xor_comm v, ← BitVec.xor_assoc ((BitVec.ofBool m).setWidth w), BitVec.xor_self,
      BitVec.zero_xor]

/-! ## C63 -/

theorem entry_eq (hw : 0 < w) (poly : BitVec w) (i : Nat) :
    Kernels.Crc.entry poly i = (shr poly)^[8] (BitVec.ofNat w i) := by
  simp only [Kernels.Crc.entry, t_eq hw]
  rfl

theorem byte_step (hw : 8 ≤ w) (poly a : BitVec w) (b : BitVec 8) :
    (do let e ← rd (Kernels.Crc.table poly) ((a ^^^ b.setWidth w).setWidth 8).toNat
        return (a >>> 8) ^^^ e : Outcome (BitVec w)) =
      .ok (crcReg poly a ((List.range 8).map fun i => b.getLsbD i)) := by
  have hlt : ((a ^^^ b.setWidth w).setWidth 8).toNat < 256 := ((a ^^^ b.setWidth w).setWidth 8).isLt
  have hr : rd (Kernels.Crc.table poly) ((a ^^^ b.setWidth w).setWidth 8).toNat =
      .ok (Kernels.Crc.entry poly ((a ^^^ b.setWidth w).setWidth 8).toNat) := by
    unfold rd Kernels.Crc.table
    rw [List.getElem?_map, List.getElem?_range hlt]
    rfl
  rw [hr, Outcome.ok_bind, entry_eq (by omega)]
  rw [crcReg_eq (by omega) poly _ a (b.setWidth w) (fun i => by
    rw [BitVec.getLsbD_setWidth]
    by_cases c : i < 8
    · have : i < w := by omega
      simp [c, this, List.getD]
    · rw [BitVec.getLsbD_of_ge b i (by omega)]
      have : ¬ i < 8 := c
      simp [List.getD, this])]
  have hl : ((List.range 8).map fun i => b.getLsbD i).length = 8 := by simp
  rw [hl]
  obtain ⟨c, hc⟩ : ∃ c, c = a ^^^ b.setWidth w := ⟨_, rfl⟩
  rw [← hc]
  have hsplit : c = ((c >>> 8) <<< 8) ^^^ BitVec.ofNat w ((c.setWidth 8).toNat) := by
    apply BitVec.eq_of_getLsbD_eq
    intro i hi
    rw [BitVec.getLsbD_xor, BitVec.getLsbD_shiftLeft, BitVec.getLsbD_ushiftRight, BitVec.getLsbD_ofNat,
      BitVec.testBit_toNat, BitVec.getLsbD_setWidth]
    by_cases c8 : i < 8
    · simp [c8, hi]
    · have : 8 + (i - 8) = i := by omega
      simp [c8, hi, this]
  have hhi : (shr poly)^[8] ((c >>> 8) <<< 8) = a >>> 8 := by
    rw [iter_shift poly 8 _ (fun i hi => by
      rw [BitVec.getLsbD_shiftLeft]
      simp [hi])]
    apply BitVec.eq_of_getLsbD_eq
    intro i hi
    rw [BitVec.getLsbD_ushiftRight, BitVec.getLsbD_shiftLeft, BitVec.getLsbD_ushiftRight, BitVec.getLsbD_ushiftRight, hc,
      BitVec.getLsbD_xor, BitVec.getLsbD_setWidth, BitVec.getLsbD_of_ge b (8 + (8 + i - 8)) (by omega)]
    have e : 8 + (8 + i - 8) = 8 + i := by omega
    rw [e]
    by_cases h : 8 + i < w
    · simp [h]
    · rw [BitVec.getLsbD_of_ge a (8 + i) (by omega)]
      simp
  conv_rhs => rw [hsplit, iter_xor, hhi]
  rfl

theorem sum_eq (hw : 8 ≤ w) (poly : BitVec w) (x : List (BitVec 8)) (init : BitVec w) :
    Kernels.Crc.sum (Kernels.Crc.table poly) x init = .ok (crcReg poly init (bitsOf x)) := by
  unfold Kernels.Crc.sum
  induction x generalizing init with
  | nil => rfl
  | cons b x ih =>
    rw [List.foldlM_cons, byte_step hw, Outcome.ok_bind, ih]
    simp [crcReg, bitsOf, List.foldl_append]

/-- C63: the table-driven checksum is the bit-by-bit reflected CRC with initial value and final xor all ones. -/
theorem C63_bitwise (hw : 8 ≤ w) (poly : BitVec w) (x : List (BitVec 8)) :
    Ops.crc poly x = .ok (crcReg poly (BitVec.allOnes w) (bitsOf x) ^^^ BitVec.allOnes w) := by
  unfold Ops.crc
  rw [sum_eq hw, Outcome.ok_bind]
  rfl

/-- Non-vacuity: the published check value of CRC-32 on the string "123456789". -/
example : Ops.crc Ops.crcIeee ((List.range' 0x31 9).map (BitVec.ofNat 8)) = .ok 0xCBF43926 := by decide +kernel

/-! ## C64 -/

/-- C64: the state after a concatenation is the state after the second part started from the state after the first. -/
theorem C64_incremental (table : List (BitVec w)) (x y : List (BitVec 8)) (init : BitVec w) :
    Kernels.Crc.sum table (x ++ y) init = (Kernels.Crc.sum table x init >>= Kernels.Crc.sum table y) := by
  unfold Kernels.Crc.sum
  rw [List.foldlM_append]

/-- C64: the checksum of a concatenation is obtained from the checksum of the first part and the bits of the second: undo
the final xor, continue with the second part, and xor again. -/
theorem C64_resume (hw : 8 ≤ w) (poly : BitVec w) (x y : List (BitVec 8)) :
    ∃ c, Ops.crc poly x = .ok c ∧
      Ops.crc poly (x ++ y) = .ok (crcReg poly (c ^^^ BitVec.allOnes w) (bitsOf y) ^^^ BitVec.allOnes w) := by
  refine ⟨_, C63_bitwise hw poly x, ?_⟩
  rw [C63_bitwise hw, BitVec.xor_assoc, BitVec.xor_self, BitVec.xor_zero]
  simp [bitsOf, crcReg, List.foldl_append]

/-- Non-vacuity: the check string of CRC-32 in two parts. -/
example : ∃ c, Ops.crc Ops.crcIeee [0x31, 0x32, 0x33] = .ok c ∧
    Ops.crc Ops.crcIeee ([0x31, 0x32, 0x33] ++ [0x34, 0x35]) =
      .ok (crcReg Ops.crcIeee (c ^^^ BitVec.allOnes 32) (bitsOf [0x34, 0x35]) ^^^ BitVec.allOnes 32) :=
  C64_resume (by decide) _ _ _

theorem crcReg_xor (hw : 0 < w) (poly : BitVec w) (ds es : List Bool) (h : ds.length = es.length) (s s' : BitVec w) :
    crcReg poly s ds ^^^ crcReg poly s' es = crcReg poly (s ^^^ s') (List.zipWith (· ^^ ·) ds es) := by
  induction ds generalizing es s s' with
  | nil =>
    cases es with
    | nil => rfl
    | cons _ _ => simp at h
  | cons d ds ih =>
    cases es with
    | nil => simp at h
    | cons e es =>
      have h' : ds.length = es.length := by simpa using h
      have e1 : crcBit poly s d ^^^ crcBit poly s' e = crcBit poly (s ^^^ s') (d ^^ e) := by
        rw [crcBit_eq _ _ _ hw, crcBit_eq _ _ _ hw, crcBit_eq _ _ _ hw, ← shr_xor]
        congr 1
        apply BitVec.eq_of_getLsbD_eq
        intro i _
        simp only [BitVec.getLsbD_xor, BitVec.getLsbD_setWidth]
        cases s.getLsbD i <;> cases s'.getLsbD i <;> cases d <;> cases e <;> by_cases c : i < w <;> simp [c]
      show crcReg poly (crcBit poly s d) ds ^^^ crcReg poly (crcBit poly s' e) es = _
      rw [ih es h', e1]
      rfl

theorem bitsOf_length (x : List (BitVec 8)) : (bitsOf x).length = 8 * x.length := by
  induction x with
  | nil => rfl
  | cons b x ih => simp [bitsOf] at ih ⊢; omega

theorem bitsOf_xor (x y : List (BitVec 8)) :
    bitsOf (List.zipWith (· ^^^ ·) x y) = List.zipWith (· ^^ ·) (bitsOf x) (bitsOf y) := by
  induction x generalizing y with
  | nil => simp [bitsOf]
  | cons a x ih =>
    cases y with
    | nil => simp [bitsOf]
    | cons b y =>
      have h1 : ∀ (a : BitVec 8) x, bitsOf (a :: x) = ((List.range 8).map fun i => a.getLsbD i) ++ bitsOf x := fun a x => rfl
      rw [List.zipWith_cons_cons, h1, h1, h1, ih y, List.zipWith_append (by simp)]
      congr 1
      simp [List.zipWith_map]

/-- C64: for messages of equal length the checksum of the sum of three messages is the sum of the checksums. -/
theorem C64_affine (hw : 8 ≤ w) (poly : BitVec w) (x y z : List (BitVec 8)) (hy : y.length = x.length)
    (hz : z.length = x.length) :
    ∃ a b c, Ops.crc poly x = .ok a ∧ Ops.crc poly y = .ok b ∧ Ops.crc poly z = .ok c ∧
      Ops.crc poly (List.zipWith (· ^^^ ·) (List.zipWith (· ^^^ ·) x y) z) = .ok (a ^^^ b ^^^ c) := by
  refine ⟨_, _, _, C63_bitwise hw poly x, C63_bitwise hw poly y, C63_bitwise hw poly z, ?_⟩
  rw [C63_bitwise hw, bitsOf_xor, bitsOf_xor]
  have e1 := crcReg_xor (by omega) poly (bitsOf x) (bitsOf y) (by simp [bitsOf_length, hy]) (BitVec.allOnes w) (BitVec.allOnes w)
  have e2 := crcReg_xor (by omega) poly (List.zipWith (· ^^ ·) (bitsOf x) (bitsOf y)) (bitsOf z)
    (by simp [bitsOf_length, hy, hz]) (BitVec.allOnes w ^^^ BitVec.allOnes w) (BitVec.allOnes w)
  rw [BitVec.xor_self, BitVec.zero_xor] at e2
  rw [BitVec.xor_self] at e1
  rw [← e2, ← e1]
  congr 1
  apply BitVec.eq_of_getLsbD_eq
  intro i hi
  simp only [BitVec.getLsbD_xor]
  cases (crcReg poly (BitVec.allOnes w) (bitsOf x)).getLsbD i <;> cases (crcReg poly (BitVec.allOnes w) (bitsOf y)).getLsbD i <;>
    cases (crcReg poly (BitVec.allOnes w) (bitsOf z)).getLsbD i <;> cases (BitVec.allOnes w).getLsbD i <;> rfl

/-- Non-vacuity: three one-byte messages. -/
example : ∃ a b c, Ops.crc Ops.crcUsb [0x31] = .ok a ∧ Ops.crc Ops.crcUsb [0x32] = .ok b ∧ Ops.crc Ops.crcUsb [0xff] = .ok c ∧
    Ops.crc Ops.crcUsb [0xfc] = .ok (a ^^^ b ^^^ c) :=
  C64_affine (by decide) Ops.crcUsb [0x31] [0x32] [0xff] rfl rfl

/-! ## C65 -/

theorem shr_inj (hw : 0 < w) {poly : BitVec w} (hp : poly.getLsbD (w - 1) = true) : Function.Injective (shr poly) := by
  have key : ∀ s, shr poly s = 0 → s = 0 := by
    intro s h
    have h0 : s.getLsbD 0 = false := by
      have := congrArg (fun v => v.getLsbD (w - 1)) h
      simp only [shr_getLsbD, hp, Bool.and_true, BitVec.ofNat_eq_ofNat, BitVec.getLsbD_zero] at this
      rw [BitVec.getLsbD_of_ge s (w - 1 + 1) (by omega), Bool.false_xor] at this
      exact this
    apply BitVec.eq_of_getLsbD_eq
    intro i hi
    cases i with
    | zero => simp [h0]
    | succ i =>
      have := congrArg (fun v => v.getLsbD i) h
      simp only [shr_getLsbD, h0, Bool.false_and, Bool.xor_false, BitVec.ofNat_eq_ofNat, BitVec.getLsbD_zero] at this
      simp [this]
  intro a b h
  have h1 : shr poly (a ^^^ b) = 0 := by rw [shr_xor, h, BitVec.xor_self]; rfl
  have h2 := key _ h1
  apply BitVec.eq_of_getLsbD_eq
  intro i _
  have := congrArg (fun v => v.getLsbD i) h2
  simp only [BitVec.getLsbD_xor, BitVec.ofNat_eq_ofNat, BitVec.getLsbD_zero] at this
  simpa using this

theorem crcBit_inj (hw : 0 < w) {poly : BitVec w} (hp : poly.getLsbD (w - 1) = true) (m : Bool) :
    Function.Injective fun s => crcBit poly s m := by
  intro a b h
  simp only [crcBit_eq _ _ _ hw] at h
  have := shr_inj hw hp h
  have := congrArg (fun v => v ^^^ (BitVec.ofBool m).setWidth w) this
  simpa [BitVec.xor_assoc] using this

theorem crcReg_inj (hw : 0 < w) {poly : BitVec w} (hp : poly.getLsbD (w - 1) = true) (ds : List Bool) :
    Function.Injective fun s => crcReg poly s ds := by
  induction ds with
  | nil => exact fun a b h => h
  | cons d ds ih => exact fun a b h => crcBit_inj hw hp d (ih h)

/-- C65: if the top bit of the polynomial is set, two messages whose bits differ only inside a window of at most `w` bits
have different checksums. -/
theorem C65_burst (hw : 8 ≤ w) {poly : BitVec w} (hp : poly.getLsbD (w - 1) = true) {x y : List (BitVec 8)}
    {p d d' q : List Bool} (hx : bitsOf x = p ++ d ++ q) (hy : bitsOf y = p ++ d' ++ q) (hl : d.length = d'.length)
    (hd : d.length ≤ w) (hne : d ≠ d') : Ops.crc poly x ≠ Ops.crc poly y := by
  have hw0 : 0 < w := by omega
  rw [C63_bitwise hw, C63_bitwise hw, hx, hy]
  intro h
  injection h with h
  have h := congrArg (fun v => v ^^^ BitVec.allOnes w) h
  simp only [BitVec.xor_assoc, BitVec.xor_self, BitVec.xor_zero] at h
  have e : ∀ (s : BitVec w) (a b c : List Bool), crcReg poly s (a ++ b ++ c) = crcReg poly (crcReg poly (crcReg poly s a) b) c :=
    fun s a b c => by simp [crcReg, List.foldl_append]
  rw [e, e] at h
  have h := crcReg_inj hw0 hp q h
  have vec : ∀ l : List Bool, l.length ≤ w → ∀ i, ((BitVec.ofBoolListLE l).setWidth w).getLsbD i = l.getD i false := by
    intro l hl i
    rw [BitVec.getLsbD_setWidth, BitVec.getLsbD_ofBoolListLE]
    by_cases c : i < w
    · simp [c]
    · simp [c, List.getD, List.getElem?_eq_none (show l.length ≤ i by omega)]
  rw [crcReg_eq hw0 poly d _ _ (vec d hd), crcReg_eq hw0 poly d' _ _ (vec d' (by omega))] at h
  have h : (shr poly)^[d.length] (crcReg poly (BitVec.allOnes w) p ^^^ (BitVec.ofBoolListLE d).setWidth w) =
      (shr poly)^[d.length] (crcReg poly (BitVec.allOnes w) p ^^^ (BitVec.ofBoolListLE d').setWidth w) := by
    refine h.trans ?_
    generalize crcReg poly (BitVec.allOnes w) p ^^^ (BitVec.ofBoolListLE d').setWidth w = z
    rw [hl]
  have h := (shr_inj hw0 hp).iterate _ h
  have h := congrArg (fun v => crcReg poly (BitVec.allOnes w) p ^^^ v) h
  simp only [← BitVec.xor_assoc, BitVec.xor_self, BitVec.zero_xor] at h
  apply hne
  apply List.ext_getElem hl
  intro i h1 h2
  have hi := congrArg (fun v => v.getLsbD i) h
  simp only [vec d hd, vec d' (by omega)] at hi
  simpa [List.getD, h1, h2] using hi

/-- C65: changing one byte changes the checksum, for messages of any length. -/
theorem C65_byte (hw : 8 ≤ w) {poly : BitVec w} (hp : poly.getLsbD (w - 1) = true) (u v : List (BitVec 8)) {b b' : BitVec 8}
    (hne : b ≠ b') : Ops.crc poly (u ++ b :: v) ≠ Ops.crc poly (u ++ b' :: v) := by
  have e : ∀ c : BitVec 8, bitsOf (u ++ c :: v) = bitsOf u ++ ((List.range 8).map fun i => c.getLsbD i) ++ bitsOf v := by
    intro c
    simp [bitsOf]
  refine C65_burst hw hp (e b) (e b') (by simp) (by simpa using hw) fun h => hne ?_
  apply BitVec.eq_of_getLsbD_eq
  intro i hi
  have := congrArg (fun l => l[i]?) h
  simpa [hi] using this

/-- C65: the polynomials of the library have their top bit set. -/
theorem C65_polynomials : Ops.crcUsb.getLsbD (16 - 1) = true ∧ Ops.crcIeee.getLsbD (32 - 1) = true ∧
    Ops.crcEcma.getLsbD (64 - 1) = true := by decide

/-- Non-vacuity: two messages of two bytes that differ in a window of 9 bits across the bytes. -/
example : bitsOf [0x80, 0x01] = (List.replicate 7 false) ++ [true, true] ++ List.replicate 7 false ∧
    bitsOf [0x00, 0x00] = (List.replicate 7 false) ++ [false, false] ++ List.replicate 7 false := by decide

/-- The hypothesis on the polynomial is needed: with polynomial 0 the byte 1 and the byte 0 in front of a byte have the same
16 bit checksum. -/
theorem C65_needs_top_bit : Ops.crc (0 : BitVec 16) [1, 0, 0] = Ops.crc (0 : BitVec 16) [0, 0, 0] := by decide +kernel

/-! ## C66 -/

open Polynomial

theorem bit_xor (a b : Bool) : bit (a ^^ b) = bit a + bit b := by
  cases a <;> cases b <;> decide

theorem regPoly_xor (a b : BitVec w) : regPoly (a ^^^ b) = regPoly a + regPoly b := by
  unfold regPoly
  rw [← Finset.sum_add_distrib]
  refine Finset.sum_congr rfl fun i _ => ?_
  rw [BitVec.getLsbD_xor, bit_xor, C_add, add_mul]

theorem regPoly_degree (s : BitVec w) : (regPoly s).degree < w := by
  refine lt_of_le_of_lt (degree_sum_le _ _) ?_
  rw [Finset.sup_lt_iff (by exact_mod_cast WithBot.bot_lt_coe w)]
  intro i hi
  refine lt_of_le_of_lt (degree_C_mul_X_pow_le _ _) ?_
  have := Finset.mem_range.1 hi
  exact_mod_cast (by omega : w - 1 - i < w)

theorem generator_monic (poly : BitVec w) : (generator poly).Monic :=
  monic_X_pow_add (regPoly_degree poly)

theorem generator_degree (poly : BitVec w) : (generator poly).degree = w :=
  (degree_add_eq_left_of_degree_lt (by rw [degree_X_pow]; exact regPoly_degree poly)).trans (degree_X_pow w)

/-- The update multiplies by `X` and reduces once. -/
theorem regPoly_shr (hw : 0 < w) (poly s : BitVec w) :
    regPoly (shr poly s) = X * regPoly s + C (bit (s.getLsbD 0)) * generator poly := by
  obtain ⟨n, rfl⟩ : ∃ n, w = n + 1 := ⟨w - 1, by omega⟩
  have h1 : regPoly (shr poly s) =
      ∑ i ∈ Finset.range (n + 1), C (bit (s.getLsbD (i + 1))) * X ^ (n - i) + C (bit (s.getLsbD 0)) * regPoly poly := by
    unfold regPoly
    rw [Finset.mul_sum, ← Finset.sum_add_distrib]
    refine Finset.sum_congr rfl fun i _ => ?_
    rw [shr_getLsbD, bit_xor, C_add, add_mul, Nat.add_sub_cancel]
    congr 1
    cases s.getLsbD 0 <;> simp [bit]
  have h2 : X * regPoly s = ∑ i ∈ Finset.range (n + 1), C (bit (s.getLsbD i)) * X ^ (n - i + 1) := by
    unfold regPoly
    rw [Finset.mul_sum]
    refine Finset.sum_congr rfl fun i _ => ?_
    rw [Nat.add_sub_cancel, pow_succ]
    ring
  have h3 : ∑ i ∈ Finset.range (n + 1), C (bit (s.getLsbD (i + 1))) * X ^ (n - i) =
      ∑ i ∈ Finset.range n, C (bit (s.getLsbD (i + 1))) * (X : (ZMod 2)[X]) ^ (n - (i + 1) + 1) := by
    rw [Finset.sum_range_succ, BitVec.getLsbD_of_ge s (n + 1) (by omega)]
    simp only [bit, Bool.false_eq_true, if_false, C_0, zero_mul, add_zero]
    refine Finset.sum_congr rfl fun i hi => ?_
    have := Finset.mem_range.1 hi
    have e : n - (i + 1) + 1 = n - i := by omega
    rw [e]
  rw [h1, h2, h3, Finset.sum_range_succ' _ n, generator, mul_add]
  have h4 : ∀ a : (ZMod 2)[X], a + a = 0 := fun a => CharTwo.add_self_eq_zero a
  have h5 := h4 (C (bit (s.getLsbD 0)) * X ^ (n + 1))
  rw [Nat.sub_zero]
  linear_combination -h5

theorem regPoly_bit (hw : 0 < w) (m : Bool) : regPoly ((BitVec.ofBool m).setWidth w) = C (bit m) * X ^ (w - 1) := by
  unfold regPoly
  rw [Finset.sum_eq_single 0]
  · simp [hw]
  · intro i _ hi
    have : ((BitVec.ofBool m).setWidth w).getLsbD i = false := by
      rw [BitVec.getLsbD_setWidth, BitVec.getLsbD_of_ge _ i (by omega)]
      simp
    rw [this]
    simp [bit]
  · intro h
    exact absurd (Finset.mem_range.2 hw) h

/-- Modulo the generator, the register is the initial value shifted by the message plus the shifted message. -/
theorem crcReg_congr (hw : 0 < w) (poly init : BitVec w) (ds : List Bool) :
    ∃ q, regPoly (crcReg poly init ds) = regPoly init * X ^ ds.length + msgPoly ds * X ^ w + q * generator poly := by
  induction ds generalizing init with
  | nil => exact ⟨0, by simp [crcReg, msgPoly]⟩
  | cons d ds ih =>
    obtain ⟨q, hq⟩ := ih (crcBit poly init d)
    have e : crcReg poly init (d :: ds) = crcReg poly (crcBit poly init d) ds := rfl
    obtain ⟨n, rfl⟩ : ∃ n, w = n + 1 := ⟨w - 1, by omega⟩
    rw [e, hq, crcBit_eq _ _ _ hw, regPoly_shr hw, regPoly_xor, regPoly_bit hw, List.length_cons, msgPoly]
    refine ⟨q + C (bit ((init ^^^ (BitVec.ofBool d).setWidth (n + 1)).getLsbD 0)) * X ^ ds.length, ?_⟩
    rw [Nat.add_sub_cancel]
    ring

/-- C66: the register after a message is the remainder of the initial value shifted by the length of the message plus the
message shifted by the width, on division by the generator polynomial over GF(2). -/
theorem C66_remainder (hw : 8 ≤ w) (poly : BitVec w) (x : List (BitVec 8)) :
    ∃ r : BitVec w, Ops.crc poly x = .ok (r ^^^ BitVec.allOnes w) ∧
      regPoly r = (regPoly (BitVec.allOnes w) * X ^ (8 * x.length) + msgPoly (bitsOf x) * X ^ w) %ₘ generator poly := by
  have hw0 : 0 < w := by omega
  refine ⟨_, C63_bitwise hw poly x, ?_⟩
  obtain ⟨q, hq⟩ := crcReg_congr hw0 poly (BitVec.allOnes w) (bitsOf x)
  rw [bitsOf_length] at hq
  refine ((div_modByMonic_unique (-q) _ (generator_monic poly) ⟨?_, ?_⟩).2).symm
  · rw [hq]
    ring
  · rw [generator_degree poly]
    exact regPoly_degree _

/-- Non-vacuity: CRC-16 of a message of three bytes. -/
example : ∃ r : BitVec 16, Ops.crc Ops.crcUsb [0x31, 0x32, 0x33] = .ok (r ^^^ BitVec.allOnes 16) ∧
    regPoly r = (regPoly (BitVec.allOnes 16) * X ^ 24 + msgPoly (bitsOf [0x31, 0x32, 0x33]) * X ^ 16) %ₘ generator Ops.crcUsb :=
  C66_remainder (by decide) _ _

/-- C66: the remainder determines the register. -/
theorem C66_regPoly_injective : Function.Injective (regPoly (w := w)) := by
  intro a b h
  apply BitVec.eq_of_getLsbD_eq
  intro i hi
  have hc : ∀ s : BitVec w, (regPoly s).coeff (w - 1 - i) = bit (s.getLsbD i) := by
    intro s
    unfold regPoly
    rw [finsetSum_coeff, Finset.sum_eq_single i]
    · simp
    · intro j hj hne
      have := Finset.mem_range.1 hj
      rw [coeff_C_mul, coeff_X_pow, if_neg (by omega), mul_zero]
    · intro h
      exact absurd (Finset.mem_range.2 hi) h
  have := congrArg (fun p => p.coeff (w - 1 - i)) h
  simp only [hc] at this
  cases ha : a.getLsbD i <;> cases hb : b.getLsbD i <;> simp [ha, hb, bit] at this ⊢

/-! ## The standard generators -/

/-- The polynomial of a register, by the positions of its set bits. -/
theorem regPoly_eq_sum (s : BitVec w) : regPoly s =
    ((((List.range w).filter s.getLsbD).map fun i => w - 1 - i).map fun e => (X : (ZMod 2)[X]) ^ e).sum := by
  unfold regPoly
  rw [List.map_map, ← List.sum_toFinset _ (List.nodup_range.filter _), List.toFinset_filter, List.toFinset_range,
    Finset.sum_filter]
  refine Finset.sum_congr rfl fun i _ => ?_
  cases s.getLsbD i <;> simp [bit]

/-- C66 (which polynomials): the generators of the three standard checksums, highest power first. -/
theorem C66_generators :
    generator Ops.crcUsb = X ^ 16 + X ^ 15 + X ^ 2 + 1 ∧
    generator Ops.crcIeee = (([32, 26, 23, 22, 16, 12, 11, 10, 8, 7, 5, 4, 2, 1, 0] : List Nat).map fun e => X ^ e).sum ∧
    generator Ops.crcEcma = (([64, 62, 57, 55, 54, 53, 52, 47, 46, 45, 40, 39, 38, 37, 35, 33, 32, 31, 29, 27, 24, 23, 22, 21,
      19, 17, 13, 12, 10, 9, 7, 4, 1, 0] : List Nat).map fun e => X ^ e).sum := by
  have e1 : ((List.range 16).filter Ops.crcUsb.getLsbD).map (fun i => 16 - 1 - i) = [15, 2, 0] := by decide +kernel
  have e2 : ((List.range 32).filter Ops.crcIeee.getLsbD).map (fun i => 32 - 1 - i) =
      [26, 23, 22, 16, 12, 11, 10, 8, 7, 5, 4, 2, 1, 0] := by decide +kernel
  have e3 : ((List.range 64).filter Ops.crcEcma.getLsbD).map (fun i => 64 - 1 - i) =
      [62, 57, 55, 54, 53, 52, 47, 46, 45, 40, 39, 38, 37, 35, 33, 32, 31, 29, 27, 24, 23, 22, 21,
      19, 17, 13, 12, 10, 9, 7, 4, 1, 0] := by decide +kernel
  refine ⟨?_, ?_, ?_⟩
  · rw [generator, regPoly_eq_sum, e1]
    simp [add_assoc]
  · rw [generator, regPoly_eq_sum, e2]
    rfl
  · rw [generator, regPoly_eq_sum, e3]
    rfl

end StdNN
