import Verif.Props.Crc
import Mathlib.RingTheory.AdjoinRoot
import Mathlib.GroupTheory.OrderOfElement
import Mathlib.Tactic.NormNum.Prime
import Mathlib.Algebra.Field.ZMod
/-!
# C121: which errors a checksum detects
-/
namespace StdNN
open Spec Polynomial
variable {w : Nat}

/-! ## The error polynomial -/

/-- The bits in which two messages differ. -/
def diffBits (x y : List (BitVec 8)) : List Bool := List.zipWith (· ^^ ·) (bitsOf x) (bitsOf y)

theorem regPoly_eq_zero {s : BitVec w} (h : regPoly s = 0) : s = 0 :=
  C66_regPoly_injective (h.trans (by simp [regPoly, bit]))

theorem generator_coprime (hw : 0 < w) {poly : BitVec w} (hp : poly.getLsbD (w - 1) = true) (n : Nat) :
    IsCoprime (generator poly) (X ^ n) := by
  have h0 : (generator poly).coeff 0 = 1 := by
    unfold generator regPoly
    rw [coeff_add, coeff_X_pow, if_neg (by omega), zero_add, finsetSum_coeff, Finset.sum_eq_single (w - 1)]
    · rw [Nat.sub_self, pow_zero, mul_one, coeff_C_zero, hp]; rfl
    · intro i hi hne
      have := Finset.mem_range.1 hi
      rw [coeff_C_mul_X_pow, if_neg (by omega)]
    · intro h
      exact absurd (Finset.mem_range.2 (by omega)) h
  refine IsCoprime.pow_right ⟨1, -divX (generator poly), ?_⟩
  have := divX_mul_X_add (generator poly)
  rw [h0, C_1] at this
  linear_combination -this

/-- The register after two messages of the same length agree iff the generator divides the shifted difference. -/
theorem reg_eq_iff (hw : 0 < w) (poly init : BitVec w) {ds es : List Bool} (h : ds.length = es.length) :
    crcReg poly init ds = crcReg poly init es ↔ generator poly ∣ msgPoly (List.zipWith (· ^^ ·) ds es) * X ^ w := by
  have e1 : crcReg poly init ds = crcReg poly init es ↔ crcReg poly 0 (List.zipWith (· ^^ ·) ds es) = 0 := by
    have := crcReg_xor hw poly ds es h init init
    rw [BitVec.xor_self] at this
    rw [show (0 : BitVec w) = 0#w from rfl, ← this]
    exact BitVec.xor_eq_zero_iff.symm
  rw [e1]
  obtain ⟨q, hq⟩ := crcReg_congr hw poly 0 (List.zipWith (· ^^ ·) ds es)
  have z : regPoly (0 : BitVec w) = 0 := by simp [regPoly, bit]
  rw [z, zero_mul, zero_add] at hq
  constructor
  · intro h0
    rw [h0, z] at hq
    exact ⟨-q, by linear_combination -hq⟩
  · intro hd
    apply regPoly_eq_zero
    have : generator poly ∣ regPoly (crcReg poly 0 (List.zipWith (· ^^ ·) ds es)) := by
      rw [hq]
      exact dvd_add hd (Dvd.intro_left _ rfl)
    exact eq_zero_of_dvd_of_degree_lt this (by rw [generator_degree]; exact regPoly_degree _)

/-- C121: an error goes undetected exactly if the generator polynomial divides the error polynomial (the polynomial of the
bits that differ); messages of any length, every polynomial with its top bit set. -/
theorem C121_undetected (hw : 8 ≤ w) {poly : BitVec w} (hp : poly.getLsbD (w - 1) = true) {x y : List (BitVec 8)}
    (h : x.length = y.length) : Ops.crc poly x = Ops.crc poly y ↔ generator poly ∣ msgPoly (diffBits x y) := by
  have hw0 : 0 < w := by omega
  have hl : (bitsOf x).length = (bitsOf y).length := by rw [bitsOf_length, bitsOf_length, h]
  have e : Ops.crc poly x = Ops.crc poly y ↔
      crcReg poly (BitVec.allOnes w) (bitsOf x) = crcReg poly (BitVec.allOnes w) (bitsOf y) := by
    rw [C63_bitwise hw, C63_bitwise hw]
    constructor
    · intro h
      injection h with h
      have h := congrArg (fun v => v ^^^ BitVec.allOnes w) h
      simpa only [BitVec.xor_assoc, BitVec.xor_self, BitVec.xor_zero] using h
    · intro h; rw [h]
  rw [e, reg_eq_iff hw0 poly _ hl]
  constructor
  · exact (generator_coprime hw0 hp w).dvd_of_dvd_mul_right
  · intro h; exact h.mul_right _

/-! ## Two bits -/

theorem msgPoly_append (a b : List Bool) : msgPoly (a ++ b) = msgPoly a * X ^ b.length + msgPoly b := by
  induction a with
  | nil => simp [msgPoly]
  | cons m a ih =>
    rw [List.cons_append, msgPoly, ih, msgPoly, List.length_append, pow_add]
    ring

theorem msgPoly_same (l : List Bool) : msgPoly (List.zipWith (· ^^ ·) l l) = 0 := by
  induction l with
  | nil => rfl
  | cons m l ih => rw [List.zipWith_cons_cons, msgPoly, ih]; simp [bit]

/-- C121 (two bits): flipping two bits `d` positions apart goes undetected exactly if the generator divides `X^d + 1`. -/
theorem C121_two_bits (hw : 8 ≤ w) {poly : BitVec w} (hp : poly.getLsbD (w - 1) = true) {x y : List (BitVec 8)}
    {p m q : List Bool} {b b' : Bool} (hx : bitsOf x = p ++ b :: (m ++ b' :: q)) (hy : bitsOf y = p ++ (!b) :: (m ++ (!b') :: q)) :
    Ops.crc poly x = Ops.crc poly y ↔ generator poly ∣ X ^ (m.length + 1) + 1 := by
  have hlen : x.length = y.length := by
    have e1 := congrArg List.length hx
    have e2 := congrArg List.length hy
    rw [bitsOf_length] at e1 e2
    simp at e1 e2
    omega
  have hd : msgPoly (diffBits x y) = X ^ q.length * (X ^ (m.length + 1) + 1) := by
    have e1 : ∀ c : Bool, bit (c ^^ !c) = 1 := by decide
    unfold diffBits
    rw [hx, hy, List.zipWith_append (by rfl), msgPoly_append, msgPoly_same, zero_mul, zero_add, List.zipWith_cons_cons, msgPoly,
      List.zipWith_append (by rfl), msgPoly_append, msgPoly_same, zero_mul, zero_add, List.zipWith_cons_cons, msgPoly,
      msgPoly_same, e1, e1]
    simp only [List.length_append, List.length_zipWith, List.length_cons, C_1, Nat.min_self]
    ring
  rw [C121_undetected hw hp hlen, hd]
  constructor
  · exact (generator_coprime (by omega) hp q.length).dvd_of_dvd_mul_left
  · intro h; exact h.mul_left _

/-! ## The order of the standard generators -/

/-- Product of two residues. -/
def pmul (poly a b : BitVec w) : BitVec w :=
  ((List.range w).foldl (fun (p : BitVec w × BitVec w) i =>
    (if a.getLsbD (w - 1 - i) then p.1 ^^^ p.2 else p.1, shr poly p.2)) (0, b)).1

/-- Power of `X` (fuel, exponent). -/
def ppow (poly : BitVec w) : Nat → Nat → BitVec w
  | 0, _ => BitVec.twoPow w (w - 1)
  | f + 1, n =>
    let h := ppow poly f (n / 2)
    let s := pmul poly h h
    if n % 2 = 1 then shr poly s else s

/-- The residue class of a register. -/
noncomputable def cls (poly s : BitVec w) : AdjoinRoot (generator poly) := AdjoinRoot.mk (generator poly) (regPoly s)

theorem cls_xor (poly a b : BitVec w) : cls poly (a ^^^ b) = cls poly a + cls poly b := by
  rw [cls, regPoly_xor, map_add]; rfl

theorem cls_shr (hw : 0 < w) (poly s : BitVec w) : cls poly (shr poly s) = AdjoinRoot.root (generator poly) * cls poly s := by
  rw [cls, regPoly_shr hw, map_add, map_mul, map_mul, AdjoinRoot.mk_self, mul_zero, add_zero, AdjoinRoot.mk_X]; rfl

theorem cls_inj (poly : BitVec w) : Function.Injective (cls poly) := fun a b h => by
  have h1 : generator poly ∣ regPoly a - regPoly b := AdjoinRoot.mk_eq_mk.1 h
  have h2 := eq_zero_of_dvd_of_degree_lt h1 (by
    rw [generator_degree]
    exact (degree_sub_le _ _).trans_lt (max_lt (regPoly_degree a) (regPoly_degree b)))
  exact C66_regPoly_injective (sub_eq_zero.1 h2)

theorem cls_one (hw : 0 < w) (poly : BitVec w) : cls poly (BitVec.twoPow w (w - 1)) = 1 := by
  have : regPoly (BitVec.twoPow w (w - 1) : BitVec w) = 1 := by
    unfold regPoly
    rw [Finset.sum_eq_single (w - 1)]
    · simp [hw, bit]
    · intro i hi hne
      have : decide (w - 1 = i) = false := decide_eq_false (by omega)
      rw [BitVec.getLsbD_twoPow, this]; simp [bit]
    · intro h
      exact absurd (Finset.mem_range.2 (by omega)) h
  rw [cls, this, map_one]

theorem cls_zero (poly : BitVec w) : cls poly 0 = 0 := by
  rw [cls]
  simp [regPoly, bit]

theorem cls_pmul (hw : 0 < w) (poly a b : BitVec w) : cls poly (pmul poly a b) = cls poly a * cls poly b := by
  have key : ∀ n, cls poly ((List.range n).foldl (fun (p : BitVec w × BitVec w) i =>
        (if a.getLsbD (w - 1 - i) then p.1 ^^^ p.2 else p.1, shr poly p.2)) (0, b)).1 =
        (∑ i ∈ Finset.range n, AdjoinRoot.mk (generator poly) (C (bit (a.getLsbD (w - 1 - i))) * X ^ i)) * cls poly b ∧
      cls poly ((List.range n).foldl (fun (p : BitVec w × BitVec w) i =>
        (if a.getLsbD (w - 1 - i) then p.1 ^^^ p.2 else p.1, shr poly p.2)) (0, b)).2 =
        AdjoinRoot.root (generator poly) ^ n * cls poly b := by
    intro n
    induction n with
    | zero => exact ⟨by simpa using cls_zero poly, by simp⟩
    | succ n ih =>
      rw [List.range_succ, List.foldl_append, List.foldl_cons, List.foldl_nil, Finset.sum_range_succ, add_mul, ← ih.1, map_mul,
        map_pow, AdjoinRoot.mk_X]
      refine ⟨?_, ?_⟩
      · cases c : a.getLsbD (w - 1 - n)
        · simp [bit]
        · simp only [if_true, cls_xor, ih.2, bit, map_one, one_mul]
      · rw [cls_shr hw, ih.2, pow_succ]; ring
  have h2 : cls poly a = ∑ i ∈ Finset.range w, AdjoinRoot.mk (generator poly) (C (bit (a.getLsbD (w - 1 - i))) * X ^ i) := by
    rw [cls, regPoly, map_sum, ← Finset.sum_range_reflect]
    refine Finset.sum_congr rfl fun i hi => ?_
    have := Finset.mem_range.1 hi
    have e : w - 1 - (w - 1 - i) = i := by omega
    rw [e]
  rw [pmul, (key w).1, ← h2]

theorem cls_ppow (hw : 0 < w) (poly : BitVec w) (f n : Nat) (h : n < 2 ^ f) :
    cls poly (ppow poly f n) = AdjoinRoot.root (generator poly) ^ n := by
  induction f generalizing n with
  | zero =>
    have : n = 0 := by omega
    subst this
    rw [ppow, cls_one hw, pow_zero]
  | succ f ih =>
    have hh := ih (n / 2) (by rw [pow_succ] at h; omega)
    have e : cls poly (pmul poly (ppow poly f (n / 2)) (ppow poly f (n / 2))) = AdjoinRoot.root (generator poly) ^ (2 * (n / 2)) := by
      rw [cls_pmul hw, hh, ← pow_add]; congr 1; omega
    simp only [ppow]
    by_cases c : n % 2 = 1
    · rw [if_pos c, cls_shr hw, e, ← pow_succ']; congr 1; omega
    · rw [if_neg c, e]; congr 1; omega

/-- Powers of the root are decided by computing. -/
theorem root_pow_iff (hw : 0 < w) (poly : BitVec w) (f n : Nat) (h : n < 2 ^ f) :
    AdjoinRoot.root (generator poly) ^ n = 1 ↔ ppow poly f n = BitVec.twoPow w (w - 1) := by
  rw [← cls_ppow hw poly f n h, ← cls_one hw poly]
  exact (cls_inj poly).eq_iff

theorem dvd_X_pow_iff (poly : BitVec w) (d : Nat) :
    generator poly ∣ X ^ d + 1 ↔ orderOf (AdjoinRoot.root (generator poly)) ∣ d := by
  have h := CharTwo.sub_eq_add (X ^ d : (ZMod 2)[X]) 1
  rw [orderOf_dvd_iff_pow_eq_one, ← h, ← AdjoinRoot.mk_eq_mk, map_pow, AdjoinRoot.mk_X, map_one]

/-- The order of the root is decided by computing: `n` is a period, and no `n / p` with a prime `p` is. -/
theorem order_eq (hw : 0 < w) (poly : BitVec w) (f n : Nat) (h : n < 2 ^ f) (h0 : 0 < n)
    (h1 : ppow poly f n = BitVec.twoPow w (w - 1))
    (h2 : ∀ p, p.Prime → p ∣ n → ppow poly f (n / p) ≠ BitVec.twoPow w (w - 1)) :
    orderOf (AdjoinRoot.root (generator poly)) = n :=
  orderOf_eq_of_pow_and_pow_div_prime h0 ((root_pow_iff hw poly f n h).2 h1) fun p hp hd he =>
    h2 p hp hd ((root_pow_iff hw poly f (n / p) (lt_of_le_of_lt (Nat.div_le_self _ _) h)).1 he)

theorem prime_cases {l : List Nat} (hl : ∀ q ∈ l, q.Prime) {p : Nat} (hp : p.Prime) (h : p ∣ l.prod) : p ∈ l := by
  obtain ⟨q, hq, hd⟩ := (Nat.Prime.prime hp).dvd_prod_iff.1 h
  rwa [(Nat.prime_dvd_prime_iff_eq hp (hl q hq)).1 hd]

theorem order_usb : orderOf (AdjoinRoot.root (generator Ops.crcUsb)) = 32767 :=
  order_eq (by decide) _ 16 _ (by decide) (by decide) (by decide +kernel) fun p hp hd => by
    have := prime_cases (l := [7, 31, 151]) (by norm_num) hp (by simpa using hd)
    simp only [List.mem_cons, List.not_mem_nil, or_false] at this
    rcases this with rfl | rfl | rfl <;> decide +kernel

theorem order_ieee : orderOf (AdjoinRoot.root (generator Ops.crcIeee)) = 2 ^ 32 - 1 :=
  order_eq (by decide) _ 32 _ (by decide) (by decide) (by decide +kernel) fun p hp hd => by
    have := prime_cases (l := [3, 5, 17, 257, 65537]) (by norm_num) hp (by simpa using hd)
    simp only [List.mem_cons, List.not_mem_nil, or_false] at this
    rcases this with rfl | rfl | rfl | rfl | rfl <;> decide +kernel

theorem order_ecma : orderOf (AdjoinRoot.root (generator Ops.crcEcma)) = 8589606914 :=
  order_eq (by decide) _ 34 _ (by decide) (by decide) (by decide +kernel) fun p hp hd => by
    have := prime_cases (l := [2, 7, 31, 151, 131071]) (by norm_num) hp (by simpa using hd)
    simp only [List.mem_cons, List.not_mem_nil, or_false] at this
    rcases this with rfl | rfl | rfl | rfl | rfl <;> decide +kernel

/-- C121 (two bits, `crc16_usb`): two flipped bits go undetected exactly if their distance is a multiple of 32767. -/
theorem C121_two_bits_usb {x y : List (BitVec 8)} {p m q : List Bool} {b b' : Bool}
    (hx : bitsOf x = p ++ b :: (m ++ b' :: q)) (hy : bitsOf y = p ++ (!b) :: (m ++ (!b') :: q)) :
    Ops.crc Ops.crcUsb x = Ops.crc Ops.crcUsb y ↔ 32767 ∣ m.length + 1 := by
  rw [C121_two_bits (by decide) C65_polynomials.1 hx hy, dvd_X_pow_iff, order_usb]

/-- C121 (two bits, `crc32_ieee`): two flipped bits go undetected exactly if their distance is a multiple of `2^32 - 1`. -/
theorem C121_two_bits_ieee {x y : List (BitVec 8)} {p m q : List Bool} {b b' : Bool}
    (hx : bitsOf x = p ++ b :: (m ++ b' :: q)) (hy : bitsOf y = p ++ (!b) :: (m ++ (!b') :: q)) :
    Ops.crc Ops.crcIeee x = Ops.crc Ops.crcIeee y ↔ 2 ^ 32 - 1 ∣ m.length + 1 := by
  rw [C121_two_bits (by decide) C65_polynomials.2.1 hx hy, dvd_X_pow_iff, order_ieee]

/-- C121 (two bits, `crc64_ecma`): two flipped bits go undetected exactly if their distance is a multiple of 8589606914. -/
theorem C121_two_bits_ecma {x y : List (BitVec 8)} {p m q : List Bool} {b b' : Bool}
    (hx : bitsOf x = p ++ b :: (m ++ b' :: q)) (hy : bitsOf y = p ++ (!b) :: (m ++ (!b') :: q)) :
    Ops.crc Ops.crcEcma x = Ops.crc Ops.crcEcma y ↔ 8589606914 ∣ m.length + 1 := by
  rw [C121_two_bits (by decide) C65_polynomials.2.2 hx hy, dvd_X_pow_iff, order_ecma]

/-! ## An odd number of bits -/

theorem msgPoly_eval (l : List Bool) : (msgPoly l).eval 1 = (l.count true : ZMod 2) := by
  induction l with
  | nil => simp [msgPoly]
  | cons m l ih =>
    rw [msgPoly, eval_add, ih, List.count_cons]
    cases m <;> simp [bit, add_comm]

theorem regPoly_eval (s : BitVec w) : (regPoly s).eval 1 = (((List.range w).map s.getLsbD).count true : ZMod 2) := by
  unfold regPoly
  rw [eval_finsetSum]
  have : ∀ n, ∑ i ∈ Finset.range n, (C (bit (s.getLsbD i)) * X ^ (w - 1 - i) : (ZMod 2)[X]).eval 1 =
      (((List.range n).map s.getLsbD).count true : ZMod 2) := by
    intro n
    induction n with
    | zero => simp
    | succ n ih =>
      rw [Finset.sum_range_succ, ih, List.range_succ, List.map_append, List.count_append]
      cases h : s.getLsbD n <;> simp [bit, h]
  exact this w

/-- C121 (odd errors): if the polynomial has an odd number of ones, every error in an odd number of bits is detected. -/
theorem C121_odd (hw : 8 ≤ w) {poly : BitVec w} (hp : poly.getLsbD (w - 1) = true)
    (ho : ((List.range w).map poly.getLsbD).count true % 2 = 1) {x y : List (BitVec 8)} (h : x.length = y.length)
    (hd : (diffBits x y).count true % 2 = 1) : Ops.crc poly x ≠ Ops.crc poly y := fun he => by
  obtain ⟨q, hq⟩ := (C121_undetected hw hp h).1 he
  have odd : ∀ n : Nat, n % 2 = 1 → (n : ZMod 2) = 1 := fun n hn => by
    have := (ZMod.natCast_mod n 2).symm
    rw [this, hn]; rfl
  have e := congrArg (eval 1) hq
  rw [eval_mul, msgPoly_eval, generator, eval_add, eval_pow, eval_X, one_pow, regPoly_eval, odd _ ho, odd _ hd] at e
  rw [show (1 : ZMod 2) + 1 = 0 from by decide, zero_mul] at e
  exact absurd e (by decide)

/-- C121 (odd errors): `crc16_usb` and `crc64_ecma` detect every error in an odd number of bits. -/
theorem C121_odd_standard {x y : List (BitVec 8)} (h : x.length = y.length) (hd : (diffBits x y).count true % 2 = 1) :
    Ops.crc Ops.crcUsb x ≠ Ops.crc Ops.crcUsb y ∧ Ops.crc Ops.crcEcma x ≠ Ops.crc Ops.crcEcma y :=
  ⟨C121_odd (by decide) C65_polynomials.1 (by decide) h hd, C121_odd (by decide) C65_polynomials.2.2 (by decide +kernel) h hd⟩

/-- C121 (odd errors): `crc32_ieee` does not: an error in 15 bits that it misses. -/
theorem C121_odd_missed : ∃ x y : List (BitVec 8), x.length = y.length ∧ (diffBits x y).count true = 15 ∧
    Ops.crc Ops.crcIeee x = Ops.crc Ops.crcIeee y :=
  ⟨[0, 0, 0, 0, 0], [0x41, 0x06, 0x71, 0xdb, 0x01], rfl, by decide +kernel, by decide +kernel⟩

/-! ## Appending the checksum -/

/-- The bytes of a checksum, least significant first. -/
def leBytes (c : BitVec w) : List (BitVec 8) := (List.range (w / 8)).map fun i => (c >>> (8 * i)).setWidth 8

theorem bitsOf_leBytes (h8 : 8 ∣ w) (c : BitVec w) : bitsOf (leBytes c) = (List.range w).map c.getLsbD := by
  obtain ⟨n, rfl⟩ := h8
  have : ∀ k ≤ n, (((List.range k).map fun i => (c >>> (8 * i)).setWidth 8).flatMap fun b => (List.range 8).map fun i => b.getLsbD i) =
      (List.range (8 * k)).map c.getLsbD := by
    intro k hk
    induction k with
    | zero => rfl
    | succ k ih =>
      rw [List.range_succ (n := k), List.map_append, List.flatMap_append, ih (by omega), Nat.mul_succ, List.range_add, List.map_append]
      congr 1
      simp only [List.map_cons, List.map_nil, List.flatMap_cons, List.flatMap_nil, List.append_nil, List.map_map]
      refine List.map_congr_left fun i hi => ?_
      have := List.mem_range.1 hi
      simp [this]
  unfold bitsOf leBytes
  rw [Nat.mul_div_cancel_left _ (by decide)]
  exact this n le_rfl

/-- What the checksum of a message followed by its checksum is. -/
def residue (poly : BitVec w) : BitVec w := (shr poly)^[w] (BitVec.allOnes w) ^^^ BitVec.allOnes w

theorem bitsOf_injective : Function.Injective bitsOf := fun x y h => by
  have hl : x.length = y.length := by
    have := congrArg List.length h
    rw [bitsOf_length, bitsOf_length] at this
    omega
  induction x generalizing y with
  | nil => exact (List.length_eq_zero_iff.1 hl.symm).symm
  | cons a x ih =>
    cases y with
    | nil => simp at hl
    | cons b y =>
      have e : ∀ (c : BitVec 8) (l : List (BitVec 8)), bitsOf (c :: l) = ((List.range 8).map fun i => c.getLsbD i) ++ bitsOf l :=
        fun c l => by simp [bitsOf]
      rw [e, e] at h
      obtain ⟨h1, h2⟩ := List.append_inj h (by simp)
      rw [ih y h2 (by simpa using hl)]
      congr 1
      apply BitVec.eq_of_getLsbD_eq
      intro i hi
      have := congrArg (fun l => l[i]?) h1
      simpa [hi] using this

/-- C121 (residue): a message followed by `w / 8` bytes has the checksum `residue poly` exactly if these bytes are the checksum
of the message, least significant byte first. -/
theorem C121_residue (hw : 8 ≤ w) (h8 : 8 ∣ w) {poly : BitVec w} (hp : poly.getLsbD (w - 1) = true) (x t : List (BitVec 8))
    (ht : t.length = w / 8) :
    Ops.crc poly (x ++ t) = .ok (residue poly) ↔ ∃ c, Ops.crc poly x = .ok c ∧ t = leBytes c := by
  have hw0 : 0 < w := by omega
  set r := crcReg poly (BitVec.allOnes w) (bitsOf x) with hr
  have hl : (bitsOf t).length = w := by rw [bitsOf_length, ht]; omega
  have vec : ∀ i, ((BitVec.ofBoolListLE (bitsOf t)).setWidth w).getLsbD i = (bitsOf t).getD i false := by
    intro i
    rw [BitVec.getLsbD_setWidth, BitVec.getLsbD_ofBoolListLE]
    by_cases c : i < w
    · simp [c]
    · simp [c, List.getD, List.getElem?_eq_none (show (bitsOf t).length ≤ i by omega)]
  have e1 : Ops.crc poly (x ++ t) =
      .ok ((shr poly)^[w] (r ^^^ (BitVec.ofBoolListLE (bitsOf t)).setWidth w) ^^^ BitVec.allOnes w) := by
    have ea : bitsOf (x ++ t) = bitsOf x ++ bitsOf t := by simp [bitsOf]
    have eb : crcReg poly (BitVec.allOnes w) (bitsOf x ++ bitsOf t) = crcReg poly r (bitsOf t) := by
      simp [crcReg, List.foldl_append, hr]
    rw [C63_bitwise hw, ea, eb, crcReg_eq hw0 poly (bitsOf t) r _ vec]
    generalize r ^^^ (BitVec.ofBoolListLE (bitsOf t)).setWidth w = z
    rw [hl]
  have e2 : Ops.crc poly x = .ok (r ^^^ BitVec.allOnes w) := C63_bitwise hw poly x
  have e3 : t = leBytes (r ^^^ BitVec.allOnes w) ↔ (BitVec.ofBoolListLE (bitsOf t)).setWidth w = r ^^^ BitVec.allOnes w := by
    rw [← bitsOf_injective.eq_iff, bitsOf_leBytes h8]
    constructor
    · intro h
      apply BitVec.eq_of_getLsbD_eq
      intro i hi
      rw [vec, h]
      simp [List.getD, hi]
    · intro h
      apply List.ext_getElem (by simp [hl])
      intro i h1 h2
      have := vec i
      rw [h] at this
      simp [List.getD, h1] at this
      simp [← this]
  have canc : ∀ a b c : BitVec w, a ^^^ c = b ^^^ c ↔ a = b := fun a b c => by
    constructor
    · intro h
      have := congrArg (· ^^^ c) h
      simpa [BitVec.xor_assoc] using this
    · rintro rfl; rfl
  have e4 : (∃ c, Ops.crc poly x = .ok c ∧ t = leBytes c) ↔ t = leBytes (r ^^^ BitVec.allOnes w) := by
    constructor
    · rintro ⟨c, h1, h2⟩
      rw [e2] at h1
      injection h1 with h1
      rw [h1, h2]
    · intro h
      exact ⟨_, e2, h⟩
  rw [e1, e4, e3, residue]
  constructor
  · intro h
    injection h with h
    have h := (shr_inj hw0 hp).iterate _ ((canc _ _ _).1 h)
    have := congrArg (fun v => r ^^^ v) h
    simpa [← BitVec.xor_assoc] using this
  · intro h
    rw [h, ← BitVec.xor_assoc, BitVec.xor_self, BitVec.zero_xor]

/-- C121 (residue): the residues of the polynomials of the library. -/
theorem C121_residues : residue Ops.crcUsb = 0x4ffe ∧ residue Ops.crcIeee = 0x2144df1c ∧ residue Ops.crcEcma = 0xb66a73654282cac0 := by
  decide +kernel

/-! ## Examples -/

/-- Non-vacuity: two messages of three bytes that differ in two bits 13 positions apart; every checksum tells them apart. -/
example : Ops.crc Ops.crcUsb [0x04, 0x80, 0x55] ≠ Ops.crc Ops.crcUsb [0x00, 0x00, 0x55] ∧
    Ops.crc Ops.crcIeee [0x04, 0x80, 0x55] ≠ Ops.crc Ops.crcIeee [0x00, 0x00, 0x55] ∧
    Ops.crc Ops.crcEcma [0x04, 0x80, 0x55] ≠ Ops.crc Ops.crcEcma [0x00, 0x00, 0x55] := by
  have hx : bitsOf [0x04, 0x80, 0x55] = [false, false] ++ true :: (List.replicate 12 false ++ true :: bitsOf [0x55]) := by decide
  have hy : bitsOf [0x00, 0x00, 0x55] = [false, false] ++ (!true) :: (List.replicate 12 false ++ (!true) :: bitsOf [0x55]) := by
    decide
  refine ⟨fun h => ?_, fun h => ?_, fun h => ?_⟩
  · exact absurd ((C121_two_bits_usb hx hy).1 h) (by decide)
  · exact absurd ((C121_two_bits_ieee hx hy).1 h) (by decide)
  · exact absurd ((C121_two_bits_ecma hx hy).1 h) (by decide)

/-- Two flipped bits 32767 positions apart in a message of any contents: `crc16_usb` does not see them. -/
example {x y : List (BitVec 8)} {m : List Bool} (hm : m.length = 32766) (hx : bitsOf x = false :: (m ++ [false]))
    (hy : bitsOf y = true :: (m ++ [true])) : Ops.crc Ops.crcUsb x = Ops.crc Ops.crcUsb y :=
  (C121_two_bits_usb (p := []) (m := m) (q := []) (b := false) (b' := false) hx hy).2 (by rw [hm])

/-- Such messages exist: 4096 bytes. -/
example : bitsOf (List.replicate 4096 0) = false :: (List.replicate 32766 false ++ [false]) ∧
    bitsOf (1 :: (List.replicate 4094 0 ++ [0x80])) = true :: (List.replicate 32766 false ++ [true]) := by
  have e : ∀ n, bitsOf (List.replicate n 0) = List.replicate (8 * n) false := fun n => by
    apply List.ext_getElem
    · rw [bitsOf_length]; simp
    · intro i h1 h2
      have hm := List.getElem_mem h1
      have : ∀ b ∈ bitsOf (List.replicate n 0), b = false := by
        intro b hb
        simp only [bitsOf, List.mem_flatMap, List.mem_map] at hb
        obtain ⟨a, ha, j, -, rfl⟩ := hb
        rw [List.eq_of_mem_replicate ha]
        simp
      rw [this _ hm, List.getElem_replicate]
  have a : ∀ x y, bitsOf (x ++ y) = bitsOf x ++ bitsOf y := fun x y => by simp [bitsOf]
  constructor
  · rw [e, show [false] = List.replicate 1 false from rfl, List.replicate_append_replicate, ← List.replicate_succ]
  · rw [show (1 :: (List.replicate 4094 0 ++ [0x80]) : List (BitVec 8)) = [1] ++ (List.replicate 4094 0 ++ [0x80]) from rfl, a, a, e,
      show bitsOf [1] = true :: List.replicate 7 false from by decide,
      show bitsOf [0x80] = List.replicate 7 false ++ [true] from by decide, List.cons_append, ← List.append_assoc,
      ← List.append_assoc, List.replicate_append_replicate, List.replicate_append_replicate]

/-- Non-vacuity: an error in three bits; the checksum of "123456789" appended to it. -/
example : (diffBits [0x31, 0x32] [0x30, 0x35]).count true = 4 ∧ (diffBits [0x31, 0x32] [0x30, 0x31]).count true % 2 = 1 ∧
    Ops.crc Ops.crcIeee ((List.range' 0x31 9).map (BitVec.ofNat 8) ++ [0x26, 0x39, 0xF4, 0xCB]) = .ok 0x2144df1c := by
  decide +kernel

/-! ## Concrete cases -/

example := C121_undetected (by decide) (poly := Ops.crcUsb) C65_polynomials.1 (x := [0x31, 0x32]) (y := [0x30, 0x35]) rfl
example := C121_odd (by decide) (poly := Ops.crcUsb) C65_polynomials.1 (by decide) (x := [0x31, 0x32]) (y := [0x30, 0x31]) rfl
  (by decide)
example := C121_odd_standard (x := [0x31, 0x32]) (y := [0x30, 0x31]) rfl (by decide)
example := C121_residue (by decide) (by decide) (poly := Ops.crcIeee) C65_polynomials.2.1 [1, 2, 3] [0x26, 0x39, 0xF4, 0xCB] rfl

end StdNN
