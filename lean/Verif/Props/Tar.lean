import Verif.Props.IO
/-!
# Tar archives: C72 to C74
-/
namespace StdNN
open Outcome Spec

/-! ## The size field -/

theorem octalValue_cons (c : Byte) (ds : List Byte) :
    octalValue (c :: ds) = (c.toNat - 48) * 8 ^ ds.length + octalValue ds := by
  unfold octalValue
  rw [List.reverse_cons, List.map_append, Nat.ofDigits_append]
  simp [Nat.add_comm, Nat.mul_comm]

theorem octDigits_some (ds rest : List Byte) (hd : ∀ c ∈ ds, IsOctal c) (hr : ∀ c cs, rest = c :: cs → ¬ IsOctal c) (a : Int) :
    Tar.octDigits (ds ++ rest) (some a) = some (a * 8 ^ ds.length + octalValue ds) := by
  induction ds generalizing a with
  | nil =>
    cases rest with
    | nil => simp [Tar.octDigits, octalValue]
    | cons c cs =>
      have : ¬ (48 ≤ c.toNat ∧ c.toNat ≤ 55) := hr c cs rfl
      rw [List.nil_append, Tar.octDigits, if_neg (by simpa using this)]
      simp [octalValue]
  | cons c ds ih =>
    obtain ⟨h1, h2⟩ := hd c (by simp)
    rw [List.cons_append, Tar.octDigits, if_pos (by simp [h1, h2]), ih fun c hc => hd c (by simp [hc])]
    rw [octalValue_cons, List.length_cons, Option.getD_some]
    push_cast [pow_succ]
    congr 1
    ring

theorem octDigits_none (ds rest : List Byte) (h0 : ds ≠ []) (hd : ∀ c ∈ ds, IsOctal c) (hr : ∀ c cs, rest = c :: cs → ¬ IsOctal c) :
    Tar.octDigits (ds ++ rest) none = some (octalValue ds : Int) := by
  match ds, h0 with
  | c :: ds, _ =>
    obtain ⟨h1, h2⟩ := hd c (by simp)
    rw [List.cons_append, Tar.octDigits, if_pos (by simp [h1, h2]), octDigits_some _ _ (fun c hc => hd c (by simp [hc])) hr,
      octalValue_cons]
    simp

theorem isSpace_iff (c : Byte) : Tar.isSpace c = true ↔ IsBlank c := by
  unfold Tar.isSpace IsBlank
  rw [Bool.or_eq_true, Bool.and_eq_true, decide_eq_true_eq, decide_eq_true_eq, beq_iff_eq, BitVec.toNat_eq]
  rfl

theorem dropWhile_blank (ws s : List Byte) (hw : ∀ c ∈ ws, IsBlank c) (hs : ∀ c cs, s = c :: cs → ¬ IsBlank c) :
    (ws ++ s).dropWhile Tar.isSpace = s := by
  induction ws with
  | nil =>
    cases s with
    | nil => rfl
    | cons c cs => exact List.dropWhile_cons_of_neg (by rw [isSpace_iff]; exact hs c cs rfl)
  | cons c ws ih =>
    rw [List.cons_append, List.dropWhile_cons_of_pos ((isSpace_iff c).2 (hw c (by simp)))]
    exact ih fun c hc => hw c (by simp [hc])

/-- What the conversion makes of a size field that denotes a number. -/
theorem stoll8_ok {s : List Byte} {v : Int} (h : SizeField s v) : Tar.stoll8 s = .ok v := by
  obtain ⟨ws, sign, ds, rest, rfl, hw, h0, hd, hr, hv⟩ := h
  have hn := octDigits_none ds rest h0 hd hr
  match ds, h0 with
  | c :: ds, _ =>
    have hc := hd c (by simp)
    have cb : ¬ IsBlank c := by
      have := hc.1
      unfold IsBlank
      omega
    have c45 : c ≠ 45 := by rintro rfl; exact absurd hc.1 (by decide)
    have c43 : c ≠ 43 := by rintro rfl; exact absurd hc.1 (by decide)
    unfold Tar.stoll8
    rcases hv with ⟨rfl | rfl, rfl⟩ | ⟨rfl, rfl⟩
    · have e : ws ++ [] ++ (c :: ds) ++ rest = ws ++ ((c :: ds) ++ rest) := by simp
      rw [e, dropWhile_blank ws _ hw fun c' cs h => by
        rw [List.cons_append] at h
        obtain ⟨rfl, -⟩ := List.cons.inj h
        exact cb]
      simp only [List.cons_append, if_neg c45, if_neg c43] at hn ⊢
      simp [hn]
    · have e : ws ++ [43] ++ (c :: ds) ++ rest = ws ++ (43 :: ((c :: ds) ++ rest)) := by simp
      rw [e, dropWhile_blank ws _ hw fun c' cs h => by
        obtain ⟨rfl, -⟩ := List.cons.inj h
        unfold IsBlank
        decide]
      generalize c :: ds ++ rest = t at hn
      simp [hn]
    · have e : ws ++ [45] ++ (c :: ds) ++ rest = ws ++ (45 :: ((c :: ds) ++ rest)) := by simp
      rw [e, dropWhile_blank ws _ hw fun c' cs h => by
        obtain ⟨rfl, -⟩ := List.cons.inj h
        unfold IsBlank
        decide]
      generalize c :: ds ++ rest = t at hn
      simp [hn]

theorem octal_split (s : List Byte) : ∃ ds rest, s = ds ++ rest ∧ (∀ c ∈ ds, IsOctal c) ∧ ∀ c cs, rest = c :: cs → ¬ IsOctal c := by
  induction s with
  | nil => exact ⟨[], [], rfl, by simp, by simp⟩
  | cons c s ih =>
    by_cases h : IsOctal c
    · obtain ⟨ds, rest, rfl, h1, h2⟩ := ih
      exact ⟨c :: ds, rest, rfl, by simpa using ⟨h, h1⟩, h2⟩
    · exact ⟨[], c :: s, rfl, by simp, fun c' cs e => by rw [← (List.cons.inj e).1]; exact h⟩

theorem mem_takeWhile_pos {p : Byte → Bool} {l : List Byte} {c : Byte} (h : c ∈ l.takeWhile p) : p c = true := by
  induction l with
  | nil => simp at h
  | cons a l ih =>
    by_cases ha : p a
    · rw [List.takeWhile_cons_of_pos ha, List.mem_cons] at h
      rcases h with rfl | h
      · exact ha
      · exact ih h
    · rw [List.takeWhile_cons_of_neg ha] at h
      simp at h

theorem blank_split (s : List Byte) : ∃ ws, s = ws ++ s.dropWhile Tar.isSpace ∧ ∀ c ∈ ws, IsBlank c :=
  ⟨s.takeWhile Tar.isSpace, List.takeWhile_append_dropWhile.symm, fun c hc => (isSpace_iff c).1 (mem_takeWhile_pos hc)⟩

/-- What the conversion makes of any field: a number denoted by it, or an exception if there is none. -/
theorem stoll8_cases (s : List Byte) : (∃ v, SizeField s v ∧ Tar.stoll8 s = .ok v) ∨
    ((∀ v, ¬ SizeField s v) ∧ Tar.stoll8 s = .throw .invalidArgument) := by
  by_cases h : ∃ v, SizeField s v
  · obtain ⟨v, hv⟩ := h
    exact .inl ⟨v, hv, stoll8_ok hv⟩
  · have hno : ∀ v, ¬ SizeField s v := fun v hv => h ⟨v, hv⟩
    refine .inr ⟨hno, ?_⟩
    obtain ⟨ws, hs, hw⟩ := blank_split s
    have key : ∀ sign t, ws ++ s.dropWhile Tar.isSpace = ws ++ sign ++ t → (sign = [] ∨ sign = [43] ∨ sign = [45]) →
        Tar.octDigits t none = none := by
      intro sign t e hsg
      obtain ⟨ds, rest, rfl, hd, hr⟩ := octal_split t
      match ds with
      | [] =>
        cases rest with
        | nil => rfl
        | cons c cs =>
          have : ¬ (48 ≤ c.toNat ∧ c.toNat ≤ 55) := hr c cs rfl
          rw [List.nil_append, Tar.octDigits, if_neg (by simpa using this)]
      | c :: ds =>
        refine absurd ?_ (hno (if sign = [45] then -(octalValue (c :: ds) : Int) else octalValue (c :: ds)))
        refine ⟨ws, sign, c :: ds, rest, by rw [hs, e, List.append_assoc _ _ rest], hw, by simp, hd, hr, ?_⟩
        rcases hsg with rfl | rfl | rfl <;> simp
    unfold Tar.stoll8
    cases hdw : s.dropWhile Tar.isSpace with
    | nil => rfl
    | cons c cs =>
      rw [hdw] at key
      by_cases c45 : c = 45
      · subst c45
        simp [key [45] cs (by simp) (by simp)]
      · by_cases c43 : c = 43
        · subst c43
          simp [key [43] cs (by simp) (by simp)]
        · simp only [if_neg c45, if_neg c43, key [] (c :: cs) (by simp) (by simp)]

theorem octal_length (k n : Nat) : (octal k n).length = k := by
  induction k generalizing n with
  | zero => rfl
  | succ k ih => simp [octal, ih]

theorem octal_isOctal (k n : Nat) : ∀ c ∈ octal k n, IsOctal c := by
  induction k generalizing n with
  | zero => simp [octal]
  | succ k ih =>
    intro c hc
    rw [octal, List.mem_append, List.mem_singleton] at hc
    rcases hc with hc | rfl
    · exact ih _ c hc
    · unfold IsOctal
      rw [BitVec.toNat_ofNat]
      omega

theorem octalValue_octal (k n : Nat) (hn : n < 8 ^ k) : octalValue (octal k n) = n := by
  induction k generalizing n with
  | zero =>
    have : n = 0 := by simpa using hn
    subst this
    rfl
  | succ k ih =>
    have h := ih (n / 8) (by rw [Nat.pow_succ] at hn; omega)
    unfold octalValue at h ⊢
    rw [octal, List.reverse_append, List.reverse_singleton, List.singleton_append, List.map_cons, Nat.ofDigits_cons, h,
      BitVec.toNat_ofNat]
    omega

/-- The usual size field: the octal digits of the number, with leading zeros, and a byte that ends them. -/
theorem sizeField_octal {k n : Nat} (hk : 1 ≤ k) (hn : n < 8 ^ k) (rest : List Byte) (hr : ∀ c cs, rest = c :: cs → ¬ IsOctal c) :
    SizeField (octal k n ++ rest) n :=
  ⟨[], [], octal k n, rest, rfl, by simp, fun h => by have := octal_length k n; rw [h] at this; simp at this; omega,
    octal_isOctal k n, hr, .inl ⟨.inl rfl, by rw [octalValue_octal k n hn]⟩⟩

/-- The size field of a header block. -/
def sizeOf (b : List Byte) : List Byte := (b.drop 124).take 12

theorem sizeOf_block (f : List Byte) (p : Nat) : sizeOf ((f.drop p).take 512) = (f.drop (p + 124)).take 12 := by
  unfold sizeOf
  rw [List.drop_take, List.take_take, List.drop_drop]
  simp

theorem parseHeader_field {b : List Byte} {v : Int} (h : SizeField (sizeOf b) v) :
    Tar.parseHeader b = .ok ⟨(b.take 100).takeWhile (· != 0), sizeOf b, v, 0⟩ := by
  unfold Tar.parseHeader
  dsimp only
  rw [show (b.drop 124).take 12 = sizeOf b from rfl, stoll8_ok h, Outcome.ok_bind]
  rfl

theorem parseHeader_cases (b : List Byte) :
    (∃ v, SizeField (sizeOf b) v ∧ Tar.parseHeader b = .ok ⟨(b.take 100).takeWhile (· != 0), sizeOf b, v, 0⟩) ∨
      ((∀ v, ¬ SizeField (sizeOf b) v) ∧ Tar.parseHeader b = .throw .invalidArgument) := by
  rcases stoll8_cases (sizeOf b) with ⟨v, hv, -⟩ | ⟨hno, h⟩
  · exact .inl ⟨v, hv, parseHeader_field hv⟩
  · refine .inr ⟨hno, ?_⟩
    unfold Tar.parseHeader
    dsimp only
    rw [show (b.drop 124).take 12 = sizeOf b from rfl, h]
    rfl

/-! ## One member -/

theorem header_length {m : Member} (h : m.WF) : m.header.length = 512 := by
  obtain ⟨_, h1, _, h2, h4, h3, _⟩ := h
  simp [Member.header, h2, h3, h4]
  omega

theorem takeWhile_name {m : Member} (h : m.WF) : (m.header.take 100).takeWhile (· != 0) = m.name := by
  obtain ⟨_, h1, hz, _⟩ := h
  have e : m.header.take 100 = m.name ++ List.replicate (100 - m.name.length) 0 := by
    unfold Member.header
    rw [List.append_assoc (m.name ++ _), List.append_assoc (m.name ++ _)]
    rw [List.take_append_of_le_length (by simp; omega), List.take_of_length_le (by simp; omega)]
  rw [e]
  have g : ∀ (l : List Byte) n, (∀ c ∈ l, c ≠ 0) → (l ++ List.replicate n 0).takeWhile (· != 0) = l := by
    intro l n
    induction l with
    | nil => cases n <;> simp [List.replicate]
    | cons c l ih =>
      intro hz
      have hc : c ≠ 0 := hz c (by simp)
      rw [List.cons_append, List.takeWhile_cons_of_pos (by simpa using hc), ih fun c hc => hz c (by simp [hc])]
  exact g _ _ hz

theorem header_size {m : Member} (h : m.WF) : (m.header.drop 124).take 12 = m.size := by
  obtain ⟨_, h1, _, h2, h3, _⟩ := h
  unfold Member.header
  rw [List.append_assoc]
  have hl : (m.name ++ List.replicate (100 - m.name.length) 0 ++ m.owner).length = 124 := by simp [h2]; omega
  rw [← hl, List.drop_left, ← h3, List.take_left]

/-- The header of a member as the code sees it, for a member whose content starts at `off`. -/
def Member.info (m : Member) (off : Nat) : Tar.Header :=
  ⟨m.name, m.size, m.content.length, off⟩

theorem parseHeader_member {m : Member} (h : m.WF) : Tar.parseHeader m.header = .ok (Member.info m 0) := by
  unfold Tar.parseHeader
  rw [header_size h, takeWhile_name h]
  dsimp only
  rw [stoll8_ok h.2.2.2.2.2.2, Outcome.ok_bind]
  rfl

/-- The size of a member's content in the archive: the length rounded up to whole blocks. -/
theorem nBlocks_eq (n : Nat) : Tar.nBlocks n * 512 = (n + (512 - n % 512) % 512 : Nat) := by
  unfold Tar.nBlocks
  rw [Int.tdiv_eq_ediv_of_nonneg (by omega), Int.tmod_eq_emod_of_nonneg (by omega)]
  split <;> omega

theorem nBlocks_nonneg {v : Int} (h1 : -1024 < v) (h2 : v ≠ -512) : 0 ≤ Tar.nBlocks v := by
  rcases lt_or_ge v 0 with h | h
  · obtain ⟨n, rfl⟩ : ∃ n : Nat, v = -(n : Int) := ⟨v.natAbs, by omega⟩
    unfold Tar.nBlocks
    rw [Int.neg_tdiv, Int.neg_tmod, Int.tdiv_eq_ediv_of_nonneg (by omega), Int.tmod_eq_emod_of_nonneg (by omega)]
    split <;> omega
  · obtain ⟨n, rfl⟩ := Int.eq_ofNat_of_zero_le h
    have := nBlocks_eq n
    omega

theorem member_length {m : Member} (h : m.WF) : (m.bytes.length : Int) = 512 + Tar.nBlocks m.content.length * 512 := by
  rw [nBlocks_eq]
  simp [Member.bytes, header_length h, pad]

theorem defined_map (l : List Byte) : Tar.defined (l.map some) = .ok l := by
  unfold Tar.defined
  have : (l.map some).mapM id = some l := by
    induction l with
    | nil => rfl
    | cons a l ih => rw [List.map_cons, List.mapM_cons, ih]; rfl
  rw [this]

theorem refill_full {buffer : List (Option Byte)} {got : List Byte} (hb : buffer.length = 512) (hg : got.length = 512) :
    Tar.refill buffer got = got.map some := by
  unfold Tar.refill
  rw [List.drop_of_length_le (by omega), List.append_nil]

theorem useByte_map (l : List Byte) (i : Nat) (h : i < l.length) : Kernels.useByte (l.map some) i = .ok l[i] := by
  unfold Kernels.useByte
  simp [h]

/-- One iteration on a whole block that is a header. -/
theorem step_block {fsize : Int} {s : Tar.St} {b rest : List Byte} {th : Tar.Header} {c : Byte} {cs : List Byte}
    (hf : s.is.fail = false) (hbuf : s.buffer.length = 512) (hlt : (s.is.pos : Int) < fsize)
    (hd : s.is.bytes.drop s.is.pos = b ++ rest) (hb : b.length = 512) (hc : b = c :: cs) (h0 : c ≠ 0)
    (hp : Tar.parseHeader b = .ok th) :
    Tar.step fsize s =
      if -2 ^ 31 ≤ Tar.nBlocks th.size * 512 ∧ Tar.nBlocks th.size * 512 < 2 ^ 31 then
        .ok (.inl ⟨IStream.seekTo ⟨s.is.bytes, s.is.pos + 512, false⟩ (s.is.pos + 512 + Tar.nBlocks th.size * 512), b.map some,
          Function.update s.index th.filename (some { th with dataOffset := s.is.pos + 512 })⟩)
      else .ub := by
  unfold Tar.step
  rw [if_pos (by simpa [IStream.tellg, hf] using hlt), read_full hf hd hb]
  dsimp only
  have u0 : Kernels.useByte (Tar.refill s.buffer b) 0 = .ok c := by
    rw [refill_full hbuf hb, useByte_map _ 0 (by omega)]
    simp [hc]
  rw [u0, Outcome.ok_bind, if_neg h0, refill_full hbuf hb, defined_map, Outcome.ok_bind, hp, Outcome.ok_bind]
  simp only [IStream.tellg, hf, Bool.false_eq_true, if_false, Nat.cast_add, Nat.cast_ofNat]
  rfl

theorem step_throw {fsize : Int} {s : Tar.St} {b rest : List Byte} {e : Err} {c : Byte} {cs : List Byte}
    (hf : s.is.fail = false) (hbuf : s.buffer.length = 512) (hlt : (s.is.pos : Int) < fsize)
    (hd : s.is.bytes.drop s.is.pos = b ++ rest) (hb : b.length = 512) (hc : b = c :: cs) (h0 : c ≠ 0)
    (hp : Tar.parseHeader b = .throw e) : Tar.step fsize s = .throw e := by
  unfold Tar.step
  rw [if_pos (by simpa [IStream.tellg, hf] using hlt), read_full hf hd hb]
  dsimp only
  have u0 : Kernels.useByte (Tar.refill s.buffer b) 0 = .ok c := by
    rw [refill_full hbuf hb, useByte_map _ 0 (by omega)]
    simp [hc]
  rw [u0, Outcome.ok_bind, if_neg h0, refill_full hbuf hb, defined_map, Outcome.ok_bind, hp]
  rfl

/-! ## C72 -/

/-- The index after the members `ms`, the first of which starts at `p`. -/
def indexFrom : Nat → Tar.Index → List Member → Tar.Index
  | _, idx, [] => idx
  | p, idx, m :: ms => indexFrom (p + m.bytes.length) (Function.update idx m.name (some (Member.info m (p + 512)))) ms

theorem loop_members {f : List Byte} (ms : List Member) (trailer : List Byte) (hwf : ∀ m ∈ ms, m.WF)
    (hsz : ∀ m ∈ ms, m.content.length ≤ 2 ^ 31 - 512) (p : Nat) (hd : f.drop p = archive ms trailer) (hp : p ≤ f.length)
    (buffer : List (Option Byte)) (hbuf : buffer.length = 512) (idx : Tar.Index) (fuel : Nat) :
    ∃ buffer', buffer'.length = 512 ∧ Tar.loop f.length (fuel + ms.length) ⟨⟨f, p, false⟩, buffer, idx⟩ =
      Tar.loop f.length fuel ⟨⟨f, p + (ms.flatMap Member.bytes).length, false⟩, buffer', indexFrom p idx ms⟩ := by
  induction ms generalizing p buffer idx with
  | nil => exact ⟨buffer, hbuf, rfl⟩
  | cons m ms ih =>
    have hm := hwf m (by simp)
    have hlen := header_length hm
    have hd' : f.drop p = m.header ++ (m.content ++ pad m.content.length ++ archive ms trailer) := by
      rw [hd]; simp [archive, Member.bytes, List.append_assoc]
    have hne : m.name ≠ [] := hm.1
    obtain ⟨c, cs, hcs⟩ : ∃ c cs, m.name = c :: cs := by
      cases h : m.name with
      | nil => exact absurd h hne
      | cons c cs => exact ⟨c, cs, rfl⟩
    have hpl : p + 512 ≤ f.length := by
      have := congrArg List.length hd'
      rw [List.length_drop, List.length_append, hlen] at this
      omega
    obtain ⟨cs', hcs'⟩ : ∃ cs', m.header = c :: cs' := by
      unfold Member.header
      rw [hcs]
      exact ⟨_, rfl⟩
    have hstep := step_block (fsize := f.length) (s := ⟨⟨f, p, false⟩, buffer, idx⟩) rfl hbuf (by simp only; omega) hd' hlen
      hcs' (hm.2.2.1 c (by simp [hcs])) (parseHeader_member hm)
    have hb := nBlocks_eq m.content.length
    have hbound : Tar.nBlocks m.content.length * 512 < 2 ^ 31 := by
      have := hsz m (by simp)
      rw [hb]; omega
    rw [if_pos ⟨by simp only [Member.info]; rw [hb]; omega, hbound⟩] at hstep
    rw [List.length_cons, ← Nat.add_assoc, Tar.loop, hstep]
    have hpos : IStream.seekTo ⟨f, p + 512, false⟩ (p + 512 + Tar.nBlocks (Member.info m 0).size * 512) =
        ⟨f, p + m.bytes.length, false⟩ := by
      have e := member_length hm
      rw [hb] at e
      unfold IStream.seekTo
      simp only [Bool.false_eq_true, if_false, Member.info, hb]
      rw [if_neg (by omega)]
      congr 1
      omega
    dsimp only
    rw [hpos]
    have hfl : p + m.bytes.length ≤ f.length := by
      have := congrArg List.length hd
      rw [List.length_drop] at this
      simp only [archive, List.flatMap_cons, List.length_append] at this
      omega
    obtain ⟨buffer', hb', h⟩ := ih (fun m' h => hwf m' (by simp [h])) (fun m' h => hsz m' (by simp [h])) (p + m.bytes.length)
      (drop_next (a := m.bytes) (b := archive ms trailer) (by rw [hd]; simp [archive, List.append_assoc]) rfl) hfl (m.header.map some)
      (by simp [hlen]) (Function.update idx m.name (some (Member.info m (p + 512))))
    refine ⟨buffer', hb', ?_⟩
    rw [List.flatMap_cons, List.length_append, ← Nat.add_assoc, indexFrom]
    exact h

theorem loop_archive {f : List Byte} (ms : List Member) (trailer : List Byte) (hwf : ∀ m ∈ ms, m.WF)
    (hsz : ∀ m ∈ ms, m.content.length ≤ 2 ^ 31 - 512) (ht : trailer = [] ∨ ∃ z, trailer = 0 :: z)
    (htl : trailer.length % 512 = 0) (hf : f = archive ms trailer)
    (buffer : List (Option Byte)) (hbuf : buffer.length = 512) (idx : Tar.Index) (fuel : Nat) (hfuel : ms.length < fuel) :
    Tar.loop f.length fuel ⟨⟨f, 0, false⟩, buffer, idx⟩ = some (.ok (indexFrom 0 idx ms)) := by
  obtain ⟨fuel, rfl⟩ : ∃ k, fuel = k + 1 + ms.length := ⟨fuel - 1 - ms.length, by omega⟩
  obtain ⟨buffer, hbuf, h⟩ := loop_members ms trailer hwf hsz 0 hf (Nat.zero_le _) buffer hbuf idx (fuel + 1)
  rw [h]
  have hd : f.drop (0 + (ms.flatMap Member.bytes).length) = trailer := by
    rw [hf, archive, Nat.zero_add, List.drop_left]
  generalize 0 + (ms.flatMap Member.bytes).length = p at hd
  generalize indexFrom 0 idx ms = idx
  by_cases hp : p ≤ f.length
  · have hstep : Tar.step f.length ⟨⟨f, p, false⟩, buffer, idx⟩ = .ok (.inr idx) := by
      have hlen : f.length - p = trailer.length := by rw [← hd, List.length_drop]
      rcases ht with rfl | ⟨z, rfl⟩
      · unfold Tar.step
        rw [if_neg]
        simp only [IStream.tellg, Bool.false_eq_true, if_false]
        simp at hlen
        omega
      · have h512 : 512 ≤ (0 :: z : List Byte).length := by simp at htl ⊢; omega
        have hsplit : f.drop p = (0 :: z : List Byte).take 512 ++ (0 :: z : List Byte).drop 512 := by
          rw [hd, List.take_append_drop]
        have hl : ((0 :: z : List Byte).take 512).length = 512 := by rw [List.length_take]; omega
        unfold Tar.step
        rw [if_pos (by simp only [IStream.tellg, Bool.false_eq_true, if_false]; simp at hlen; omega), read_full rfl hsplit hl]
        dsimp only
        rw [refill_full hbuf hl, useByte_map _ 0 (by omega), Outcome.ok_bind, if_pos (by simp)]
        rfl
    rw [Tar.loop, hstep]
  · rw [Tar.loop, Tar.step, if_neg (by simp only [IStream.tellg, Bool.false_eq_true, if_false]; omega)]

theorem indexFrom_not_mem (p : Nat) (idx : Tar.Index) (ms : List Member) (name : List Byte) (h : ∀ m ∈ ms, m.name ≠ name) :
    indexFrom p idx ms name = idx name := by
  induction ms generalizing p idx with
  | nil => rfl
  | cons m ms ih =>
    rw [indexFrom, ih _ _ fun m' h' => h m' (by simp [h']), Function.update_of_ne (Ne.symm (h m (by simp)))]

theorem indexFrom_mem (p : Nat) (idx : Tar.Index) (pre post : List Member) (m : Member)
    (h : ∀ m' ∈ post, m'.name ≠ m.name) :
    indexFrom p idx (pre ++ m :: post) m.name = some (Member.info m (p + (pre.flatMap Member.bytes).length + 512)) := by
  induction pre generalizing p idx with
  | nil =>
    rw [List.nil_append, indexFrom, indexFrom_not_mem _ _ _ _ h, Function.update_self]
    simp
  | cons q pre ih =>
    rw [List.cons_append, indexFrom, ih, List.flatMap_cons, List.length_append]
    congr 2
    omega

theorem archive_mod (ms : List Member) (trailer : List Byte) (hwf : ∀ m ∈ ms, m.WF) (htl : trailer.length % 512 = 0) :
    (archive ms trailer).length % 512 = 0 := by
  induction ms with
  | nil => simpa [archive] using htl
  | cons m ms ih =>
    have h1 := ih fun m' h => hwf m' (by simp [h])
    have h2 := member_length (hwf m (by simp))
    rw [nBlocks_eq] at h2
    simp only [archive, List.flatMap_cons, List.length_append] at h1 ⊢
    omega

/-- C72: indexing an archive terminates normally; the entry of a name is the last member of that name, with the size and the
position of its content, and there is no entry for other names. -/
theorem C72_index {ms : List Member} {trailer : List Byte} (hwf : ∀ m ∈ ms, m.WF)
    (hsz : ∀ m ∈ ms, m.content.length ≤ 2 ^ 31 - 512) (ht : trailer = [] ∨ ∃ z, trailer = 0 :: z)
    (htl : trailer.length % 512 = 0) {fuel : Nat} (hfuel : ms.length < fuel) :
    ∃ idx, Tar.makeIndex fuel (some (archive ms trailer)) = some (.ok idx) ∧
      (∀ pre m post, ms = pre ++ m :: post → (∀ m' ∈ post, m'.name ≠ m.name) →
        ∃ h, idx.lookup m.name = .ok h ∧ h.size = m.content.length ∧
          h.dataOffset = (pre.flatMap Member.bytes).length + 512 ∧
          (archive ms trailer).drop h.dataOffset.toNat = m.content ++ pad m.content.length ++ archive post trailer) ∧
      (∀ name, (∀ m ∈ ms, m.name ≠ name) → idx.lookup name = .throw .invalidArgument) := by
  refine ⟨indexFrom 0 (fun _ => none) ms, ?_, ?_, ?_⟩
  · unfold Tar.makeIndex
    dsimp only
    rw [if_neg (by rw [archive_mod ms trailer hwf htl]; simp)]
    exact loop_archive ms trailer hwf hsz ht htl rfl _ List.length_replicate _ fuel hfuel
  · rintro pre m post rfl hlast
    refine ⟨Member.info m (0 + (pre.flatMap Member.bytes).length + 512), ?_, rfl, by simp [Member.info], ?_⟩
    · unfold Tar.Index.lookup
      rw [indexFrom_mem _ _ _ _ _ hlast]
    · have hm := header_length (hwf m (by simp))
      have e : archive (pre ++ m :: post) trailer =
          (pre.flatMap Member.bytes ++ m.header) ++ (m.content ++ pad m.content.length ++ archive post trailer) := by
        simp [archive, Member.bytes, List.append_assoc]
      have e2 : (Member.info m (0 + (pre.flatMap Member.bytes).length + 512)).dataOffset.toNat =
          (pre.flatMap Member.bytes ++ m.header).length := by
        simp only [Member.info, List.length_append, hm]
        omega
      rw [e2, e, List.drop_left]
  · intro name h
    unfold Tar.Index.lookup
    rw [indexFrom_not_mem _ _ _ _ h]

/-- C72: `readtar` reads the last member of the name as `readfile` would read it from a file of its own (followed by what
comes behind it in the archive). -/
theorem C72_read {ms pre post : List Member} {m : Member} {trailer : List Byte} (hwf : ∀ m ∈ ms, m.WF)
    (hsz : ∀ m ∈ ms, m.content.length ≤ 2 ^ 31 - 512) (ht : trailer = [] ∨ ∃ z, trailer = 0 :: z)
    (htl : trailer.length % 512 = 0) {fuel : Nat} (hfuel : ms.length < fuel) {d : Disk} {filename : String}
    (hd : d.files filename = some (archive ms trailer)) (hms : ms = pre ++ m :: post)
    (hlast : ∀ m' ∈ post, m'.name ≠ m.name) {code : Byte} {dims : List (BitVec 32)} (hr : dims.length < 256)
    {x y : List Byte} (hm : m.content = idxFile code dims x) (hl : y.length = x.length) :
    Ops.readtar fuel .little filename m.name code dims y d = some (x, .ok ⟨⟩) := by
  obtain ⟨idx, hidx, hmem, _⟩ := C72_index hwf hsz ht htl hfuel
  obtain ⟨h, hlook, _, hoff, hdrop⟩ := hmem pre m post hms hlast
  unfold Ops.readtar
  rw [hd, hidx]
  dsimp only
  rw [Outcome.ok_bind, hlook]
  dsimp only
  have hseek : IStream.seekTo ⟨archive ms trailer, 0, false⟩ h.dataOffset = ⟨archive ms trailer, h.dataOffset.toNat, false⟩ := by
    unfold IStream.seekTo
    simp only [Bool.false_eq_true, if_false]
    rw [if_neg (by rw [hoff]; omega)]
  rw [hseek, serializerRead_ok (data := x ++ (pad m.content.length ++ archive post trailer)) hr rfl (by
    rw [fileHeader_little]
    show (archive ms trailer).drop h.dataOffset.toNat = _
    rw [hdrop, hm, idxFile]
    simp [List.append_assoc])]
  rw [hl, List.take_left, List.drop_of_length_le (by simp; omega), List.append_nil]

/-- C72: a name that is not in the archive is refused and the tensor is unchanged. -/
theorem C72_missing {ms : List Member} {trailer : List Byte} (hwf : ∀ m ∈ ms, m.WF)
    (hsz : ∀ m ∈ ms, m.content.length ≤ 2 ^ 31 - 512) (ht : trailer = [] ∨ ∃ z, trailer = 0 :: z)
    (htl : trailer.length % 512 = 0) {fuel : Nat} (hfuel : ms.length < fuel) {d : Disk} {filename : String}
    (hd : d.files filename = some (archive ms trailer)) {name : List Byte} (hname : ∀ m ∈ ms, m.name ≠ name) (e : Endian)
    (code : Byte) (dims : List (BitVec 32)) (y : List Byte) :
    Ops.readtar fuel e filename name code dims y d = some (y, .throw .invalidArgument) := by
  obtain ⟨idx, hidx, _, hnot⟩ := C72_index hwf hsz ht htl hfuel
  unfold Ops.readtar
  rw [hd, hidx]
  dsimp only
  rw [Outcome.ok_bind, hnot name hname]

/-- A member for the examples: the given name and content, the size in 11 octal digits and a space,
all other fields zero. -/
def exampleMember (name content : List Byte) : Member :=
  ⟨name, List.replicate 24 0, octal 11 content.length ++ [32], List.replicate 376 0, content⟩

theorem exampleMember_wf {name content : List Byte} (h0 : name ≠ []) (h1 : name.length ≤ 100) (h2 : ∀ c ∈ name, c ≠ 0)
    (hc : content.length < 8 ^ 11) : (exampleMember name content).WF :=
  ⟨h0, h1, h2, List.length_replicate, by
    show (octal 11 content.length ++ [32]).length = 12
    rw [List.length_append, octal_length]
    rfl, List.length_replicate,
    sizeField_octal (by decide) hc [32] fun c cs h => by rw [← (List.cons.inj h).1]; unfold IsOctal; decide⟩

/-- Non-vacuity: an archive of three members, two of them of the same name, and a trailer. -/
example : Ops.readtar 4 .little "t.tar" [97] 0x08 [2] [0, 0]
    ⟨fun _ => some (archive [exampleMember [97] (idxFile 0x08 [2] [1, 2]), exampleMember [98] [],
      exampleMember [97] (idxFile 0x08 [2] [3, 4])] (List.replicate 1024 0)), fun _ => true, fun _ => none⟩ =
      some ([3, 4], .ok ⟨⟩) :=
  C72_read (pre := [exampleMember [97] (idxFile 0x08 [2] [1, 2]), exampleMember [98] []])
    (m := exampleMember [97] (idxFile 0x08 [2] [3, 4])) (post := [])
    (by
      intro m hm
      rw [List.mem_append, List.mem_pair, List.mem_singleton, or_assoc] at hm
      rcases hm with rfl | rfl | rfl <;>
        exact exampleMember_wf (List.cons_ne_nil _ _) (by decide : 1 ≤ 100) (by decide) (by decide))
    (by
      intro m hm
      rw [List.mem_append, List.mem_pair, List.mem_singleton, or_assoc] at hm
      rcases hm with rfl | rfl | rfl <;> decide)
    (Or.inr ⟨List.replicate 1023 0, rfl⟩) (by rw [List.length_cons, List.length_replicate]) (by decide) rfl rfl (by simp) (by decide) rfl rfl

/-! ## C73 -/

/-- The states at the head of the loop. -/
inductive Tar.Reach (f : List Byte) : Tar.St → Prop
  | start : Tar.Reach f (Tar.start f)
  | step {s s' : Tar.St} : Tar.Reach f s → Tar.step f.length s = .ok (.inl s') → Tar.Reach f s'

/-- The file has no block that could be read as a header with a negative size, except for the sizes -1 to -511 and -513 to
-1023, which lead forward like positive ones. -/
def NoBackwardSize (f : List Byte) : Prop :=
  ∀ k v, SizeField ((f.drop (512 * k + 124)).take 12) v → -1024 < v ∧ v ≠ -512

theorem start_inv (f : List Byte) : (Tar.start f).is.bytes = f ∧ (Tar.start f).is.fail = false ∧
    (Tar.start f).is.pos % 512 = 0 ∧ (Tar.start f).buffer.length = 512 :=
  ⟨rfl, rfl, rfl, List.length_replicate⟩

theorem step_inl {f : List Byte} (hmod : f.length % 512 = 0) (hneg : NoBackwardSize f) {s s' : Tar.St}
    (hs : s.is.bytes = f ∧ s.is.fail = false ∧ s.is.pos % 512 = 0 ∧ s.buffer.length = 512)
    (h : Tar.step f.length s = .ok (.inl s')) :
    (s'.is.bytes = f ∧ s'.is.fail = false ∧ s'.is.pos % 512 = 0 ∧ s'.buffer.length = 512) ∧
      s.is.pos + 512 ≤ f.length ∧ s.is.pos + 512 ≤ s'.is.pos := by
  obtain ⟨hb, hf, hp, hbuf⟩ := hs
  by_cases hlt : (s.is.pos : Int) < f.length
  · obtain ⟨k, hk⟩ : ∃ k, s.is.pos = 512 * k := ⟨s.is.pos / 512, by omega⟩
    have hlt' : 512 * k + 512 ≤ f.length := by omega
    have hlen : ((f.drop (512 * k)).take 512).length = 512 := by simp; omega
    have hd : s.is.bytes.drop s.is.pos = (f.drop (512 * k)).take 512 ++ (f.drop (512 * k)).drop 512 := by
      rw [hb, hk, List.take_append_drop]
    obtain ⟨c, cs, hc⟩ : ∃ c cs, (f.drop (512 * k)).take 512 = c :: cs := by
      cases hcs : (f.drop (512 * k)).take 512 with
      | nil => rw [hcs] at hlen; simp at hlen
      | cons c cs => exact ⟨c, cs, rfl⟩
    by_cases h0 : c = 0
    · exfalso
      unfold Tar.step at h
      rw [if_pos (by simpa [IStream.tellg, hf] using hlt), read_full hf hd hlen] at h
      dsimp only at h
      have u0 : Kernels.useByte (Tar.refill s.buffer ((f.drop (512 * k)).take 512)) 0 = .ok c := by
        rw [refill_full hbuf hlen, useByte_map _ 0 (by omega)]
        simp [hc]
      rw [u0, Outcome.ok_bind, if_pos h0] at h
      exact absurd h (by simp)
    · rcases parseHeader_cases ((f.drop (512 * k)).take 512) with ⟨v, hv, hpar⟩ | ⟨-, hpar⟩
      · rw [step_block hf hbuf hlt hd hlen hc h0 hpar] at h
        rw [sizeOf_block] at hv
        obtain ⟨v1, v2⟩ := hneg k v hv
        obtain ⟨n, hn⟩ := Int.eq_ofNat_of_zero_le (nBlocks_nonneg v1 v2)
        dsimp only at h
        rw [hn] at h
        split at h
        · rw [Outcome.ok.injEq, Sum.inl.injEq] at h
          subst h
          have hseek : IStream.seekTo ⟨s.is.bytes, s.is.pos + 512, false⟩ (s.is.pos + 512 + n * 512) =
              ⟨s.is.bytes, s.is.pos + 512 + n * 512, false⟩ := by
            unfold IStream.seekTo
            simp only [Bool.false_eq_true, if_false]
            rw [if_neg (by omega)]
            congr 1
          dsimp only
          rw [hseek]
          refine ⟨⟨hb, rfl, ?_, by rw [List.length_map]; exact hlen⟩, by omega, ?_⟩
          · dsimp only; omega
          · dsimp only; omega
        · exact absurd h (by simp)
      · exfalso
        rw [step_throw hf hbuf hlt hd hlen hc h0 hpar] at h
        exact absurd h (by simp)
  · exfalso
    unfold Tar.step at h
    rw [if_neg (by simpa [IStream.tellg, hf] using hlt)] at h
    exact absurd h (by simp)

/-- What holds of C73, first part: if no size leads backwards, then at the head of the loop the stream is good, its position is a
multiple of 512, and if the loop goes on the block read is complete. Missing: files with sizes that lead backwards
(`C73_diverges`). -/
theorem C73_blocks_partial {f : List Byte} (hmod : f.length % 512 = 0) (hneg : NoBackwardSize f) {s : Tar.St}
    (h : Tar.Reach f s) :
    s.is.fail = false ∧ s.is.pos % 512 = 0 ∧ (s.is.tellg < f.length → (s.is.read 512).1.length = 512) := by
  have inv : s.is.bytes = f ∧ s.is.fail = false ∧ s.is.pos % 512 = 0 ∧ s.buffer.length = 512 := by
    induction h with
    | start => exact start_inv f
    | step _ hst ih => exact (step_inl hmod hneg ih hst).1
  obtain ⟨hb, hf, hp, _⟩ := inv
  refine ⟨hf, hp, fun hlt => ?_⟩
  simp only [IStream.tellg, hf, Bool.false_eq_true, if_false] at hlt
  simp only [IStream.read, hf, Bool.false_eq_true, if_false, hb]
  simp
  omega

/-- C73, second part: if no size leads backwards (in particular if none is negative), indexing ends after at most one iteration per block and one
more. -/
theorem C73_terminates {f : List Byte} (hneg : NoBackwardSize f) :
    ∃ r, Tar.makeIndex (f.length / 512 + 1) (some f) = some r := by
  unfold Tar.makeIndex
  dsimp only
  by_cases hmod : f.length % 512 = 0
  · rw [if_neg (by omega)]
    have gen : ∀ fuel (s : Tar.St), (s.is.bytes = f ∧ s.is.fail = false ∧ s.is.pos % 512 = 0 ∧ s.buffer.length = 512) →
        f.length < s.is.pos + 512 * (fuel + 1) → ∃ r, Tar.loop f.length (fuel + 1) s = some r := by
      intro fuel
      induction fuel with
      | zero =>
        intro s hs hlt
        rw [Tar.loop]
        cases hst : Tar.step f.length s with
        | ok r =>
          cases r with
          | inl s' =>
            obtain ⟨_, h1, _⟩ := step_inl hmod hneg hs hst
            omega
          | inr idx => exact ⟨_, rfl⟩
        | throw e => exact ⟨_, rfl⟩
        | ub => exact ⟨_, rfl⟩
      | succ fuel ih =>
        intro s hs hlt
        rw [Tar.loop]
        cases hst : Tar.step f.length s with
        | ok r =>
          cases r with
          | inl s' =>
            obtain ⟨hs', h1, h2⟩ := step_inl hmod hneg hs hst
            have hlt' : f.length < s'.is.pos + 512 * (fuel + 1) := by
              calc f.length < s.is.pos + 512 * (fuel + 1 + 1) := hlt
                _ = s.is.pos + 512 + 512 * (fuel + 1) := by rw [Nat.mul_add 512 (fuel + 1) 1]; omega
                _ ≤ s'.is.pos + 512 * (fuel + 1) := Nat.add_le_add_right h2 _
            exact ih s' hs' hlt'
          | inr idx => exact ⟨_, rfl⟩
        | throw e => exact ⟨_, rfl⟩
        | ub => exact ⟨_, rfl⟩
    refine gen _ (Tar.start f) (start_inv f) ?_
    rw [show (Tar.start f).is.pos = 0 from rfl]
    omega
  · rw [if_pos (by omega)]
    exact ⟨_, rfl⟩

theorem no_number (j : Nat) (v : Int) : ¬ SizeField (List.replicate j 0) v := fun h => by
  have e := stoll8_ok h
  cases j <;> exact absurd e (by simp [Tar.stoll8, Tar.octDigits, List.replicate, Tar.isSpace])

/-- Non-vacuity: the empty archive (two zero blocks) has no negative size. -/
example : NoBackwardSize (List.replicate 1024 0) := by
  intro k v hv
  rw [List.drop_replicate, List.take_replicate] at hv
  exact absurd hv (no_number _ _)

/-- The state after the members `ms` at the start of the file. -/
theorem loop_start (ms : List Member) {t : List Byte} (hwf : ∀ m ∈ ms, m.WF) (hsz : ∀ m ∈ ms, m.content.length ≤ 2 ^ 31 - 512)
    (ht : t.length % 512 = 0) (fuel : Nat) : ∃ p buffer idx, (archive ms t).drop p = t ∧ p + t.length = (archive ms t).length ∧
      buffer.length = 512 ∧ Tar.makeIndex (fuel + ms.length) (some (archive ms t)) =
        Tar.loop (archive ms t).length fuel ⟨⟨archive ms t, p, false⟩, buffer, idx⟩ := by
  obtain ⟨buffer, hb, h⟩ := loop_members (f := archive ms t) ms t hwf hsz 0 rfl (Nat.zero_le _) (List.replicate 512 none)
    List.length_replicate (fun _ => none) fuel
  refine ⟨0 + (ms.flatMap Member.bytes).length, buffer, indexFrom 0 (fun _ => none) ms, by rw [archive, Nat.zero_add, List.drop_left], by simp [archive], hb, ?_⟩
  rw [← h, Tar.makeIndex]
  rw [if_neg (by rw [archive_mod ms t hwf ht]; simp)]
  rfl

theorem loop_mono {fsize : Int} (k fuel : Nat) (s : Tar.St) (h : Tar.loop fsize (fuel + k) s = none) : Tar.loop fsize fuel s = none := by
  induction fuel generalizing s with
  | zero => rfl
  | succ fuel ih =>
    rw [Nat.add_right_comm, Tar.loop] at h
    rw [Tar.loop]
    cases hs : Tar.step fsize s with
    | ok r =>
      rw [hs] at h
      cases r with
      | inl s' => exact ih s' h
      | inr i => exact absurd h (by simp)
    | throw e => rw [hs] at h; exact absurd h (by simp)
    | ub => rw [hs] at h; exact absurd h (by simp)

theorem makeIndex_mono (k fuel : Nat) (f : Option (List Byte)) (h : Tar.makeIndex (fuel + k) f = none) : Tar.makeIndex fuel f = none := by
  cases f with
  | none => exact h
  | some f =>
    unfold Tar.makeIndex at h ⊢
    dsimp only at h ⊢
    split at h
    · rename_i c
      rw [if_pos c]
      exact h
    · rename_i c
      rw [if_neg c]
      exact loop_mono k fuel _ h

/-- C73 is false for negative sizes: if behind any members there is a header with the size `-512`, indexing never ends. -/
theorem C73_diverges {ms : List Member} (hwf : ∀ m ∈ ms, m.WF) (hsz : ∀ m ∈ ms, m.content.length ≤ 2 ^ 31 - 512)
    {c : Byte} {cs rest : List Byte} (h0 : c ≠ 0) (hb : (c :: cs).length = 512) (hr : rest.length % 512 = 0)
    (hs : SizeField (((c :: cs).drop 124).take 12) (-512)) (fuel : Nat) :
    Tar.makeIndex fuel (some (archive ms (c :: cs ++ rest))) = none := by
  refine makeIndex_mono ms.length fuel _ ?_
  obtain ⟨p, buffer, idx, hd, hl, hbuf, e⟩ := loop_start ms (t := c :: cs ++ rest) hwf hsz (by rw [List.length_append]; omega) fuel
  rw [e]
  rw [List.length_append, hb] at hl
  generalize archive ms (c :: cs ++ rest) = f at *
  have gen : ∀ fuel (buffer : List (Option Byte)) (idx : Tar.Index), buffer.length = 512 →
      Tar.loop f.length fuel ⟨⟨f, p, false⟩, buffer, idx⟩ = none := by
    intro fuel
    induction fuel with
    | zero => intros; rfl
    | succ fuel ih =>
      intro buffer idx hbuf
      have h := step_block (fsize := f.length) (s := ⟨⟨f, p, false⟩, buffer, idx⟩) rfl hbuf (by show (p : Int) < _; omega) hd hb rfl h0
        (parseHeader_field hs)
      dsimp only at h
      rw [if_pos (by decide)] at h
      have hseek : IStream.seekTo ⟨f, p + 512, false⟩ ((p : Int) + 512 + Tar.nBlocks (-512) * 512) = ⟨f, p, false⟩ := by
        have : Tar.nBlocks (-512) = -1 := by decide
        unfold IStream.seekTo
        rw [if_neg Bool.false_ne_true, this, if_neg (by omega), show ((p : Int) + 512 + -1 * 512).toNat = p by omega]
      rw [hseek] at h
      rw [Tar.loop, h]
      exact ih _ _ (by rw [List.length_map, hb])
  exact gen fuel _ _ hbuf

/-- A block for the examples: the name `a` and the given size field. -/
def exampleBlock (field : List Byte) : List Byte :=
  97 :: (List.replicate 123 0 ++ field ++ List.replicate (388 - field.length) 0)

theorem exampleBlock_length (field : List Byte) (h : field.length ≤ 388) : (exampleBlock field).length = 512 := by
  unfold exampleBlock
  rw [List.length_cons, List.length_append, List.length_append, List.length_replicate, List.length_replicate]
  omega

theorem exampleBlock_size {field : List Byte} {v : Int} (h : SizeField (field ++ List.replicate (12 - field.length) 0) v)
    (hl : field.length ≤ 12) : SizeField (((exampleBlock field).drop 124).take 12) v := by
  have e : ((exampleBlock field).drop 124).take 12 = field ++ List.replicate (12 - field.length) 0 := by
    have hx : exampleBlock field = (97 :: List.replicate 123 0) ++ (field ++ List.replicate (388 - field.length) 0) := by
      unfold exampleBlock
      rw [List.cons_append, List.append_assoc]
    have hrl : (97 :: List.replicate 123 0 : List Byte).length = 124 := by rw [List.length_cons, List.length_replicate]
    rw [hx, List.drop_left' hrl, List.take_append, List.take_of_length_le hl, List.take_replicate]
    congr 2
    omega
  rw [e]
  exact h

/-- A sign and digits with zero bytes behind them denote the number. -/
theorem sizeField_digits {sign ds : List Byte} (j : Nat) {v : Int} (h0 : ds ≠ []) (hd : ∀ c ∈ ds, IsOctal c)
    (hv : ((sign = [] ∨ sign = [43]) ∧ v = octalValue ds) ∨ (sign = [45] ∧ v = -(octalValue ds : Int))) :
    SizeField ((sign ++ ds) ++ List.replicate j 0) v :=
  ⟨[], sign, ds, List.replicate j 0, rfl, by simp, h0, hd, fun c cs h hc => by
    have : c = 0 := List.eq_of_mem_replicate (h ▸ List.mem_cons_self)
    subst this
    exact absurd hc.1 (by decide), hv⟩

instance (c : Byte) : Decidable (IsOctal c) := inferInstanceAs (Decidable (_ ∧ _))

/-- C73, witness: a member, then a block with the size field `-1000` (octal). -/
theorem C73_diverges_witness (fuel : Nat) :
    Tar.makeIndex fuel (some (archive [exampleMember [98] [1, 2, 3]] (exampleBlock [45, 49, 48, 48, 48] ++ []))) = none :=
  C73_diverges (ms := [exampleMember [98] [1, 2, 3]])
    (fun m hm => by rw [List.mem_singleton.1 hm]; exact exampleMember_wf (List.cons_ne_nil _ _) (by decide : 1 ≤ 100) (by decide) (by decide))
    (fun m hm => by rw [List.mem_singleton.1 hm]; decide) (by decide) (exampleBlock_length [45, 49, 48, 48, 48] (by decide)) rfl
    (exampleBlock_size (sizeField_digits (sign := [45]) (ds := [49, 48, 48, 48]) 7 (by simp) (by decide) (.inr ⟨rfl, by decide⟩))
      (by decide)) fuel

/-- C73, first part, is false for negative sizes: if the first header has size `-1024`, the code seeks before the start of
the file, the stream fails, and later reads return nothing. -/
theorem C73_seek_fails {f : List Byte} {c : Byte} {cs : List Byte} (hc : f.take 512 = c :: cs) (hl : 512 ≤ f.length)
    (h0 : c ≠ 0) (hs : SizeField ((f.drop 124).take 12) (-1024)) :
    ∃ s, Tar.Reach f s ∧ s.is.tellg < f.length ∧ (s.is.read 512).1 = [] := by
  have hlen : (f.take 512).length = 512 := by rw [List.length_take]; omega
  have hp := parseHeader_field (b := f.take 512) (v := -1024) (by rw [show f.take 512 = (f.drop 0).take 512 from rfl, sizeOf_block]; exact hs)
  have h := step_block (fsize := f.length) (s := Tar.start f) (b := f.take 512) (rest := f.drop 512) rfl List.length_replicate
    (by show ((0 : Nat) : Int) < _; omega) (List.take_append_drop 512 f).symm hlen hc h0 hp
  dsimp only at h
  rw [if_pos (by decide)] at h
  have hseek : IStream.seekTo ⟨f, 0 + 512, false⟩ (((0 : Nat) : Int) + 512 + Tar.nBlocks (-1024) * 512) =
      ⟨f, 0 + 512, true⟩ := by
    unfold IStream.seekTo
    rw [if_neg Bool.false_ne_true, if_pos (by decide)]
  have hb : (Tar.start f).is.bytes = f := rfl
  have hpos : (Tar.start f).is.pos = 0 := rfl
  rw [hb, hpos, hseek] at h
  refine ⟨_, .step .start h, ?_, rfl⟩
  simp only [IStream.tellg, if_true]
  omega

/-- Witness: one block with the size field `-2000` (octal). -/
example : ∃ s, Tar.Reach (exampleBlock [45, 50, 48, 48, 48]) s ∧ s.is.tellg < (exampleBlock [45, 50, 48, 48, 48]).length ∧
    (s.is.read 512).1 = [] :=
  C73_seek_fails (c := 97) (List.take_of_length_le (by rw [exampleBlock_length _ (by decide)]))
    (by rw [exampleBlock_length _ (by decide)]) (by decide)
    (exampleBlock_size (sizeField_digits (sign := [45]) (ds := [50, 48, 48, 48]) 7 (by simp) (by decide) (.inr ⟨rfl, by decide⟩))
      (by decide))

/-- A size that does not fit: if behind any members there is a header that announces more than `2 ^ 31 - 512` bytes, the
number of bytes to skip overflows `int`. -/
theorem C73_overflow {ms : List Member} (hwf : ∀ m ∈ ms, m.WF) (hsz : ∀ m ∈ ms, m.content.length ≤ 2 ^ 31 - 512)
    {c : Byte} {cs rest : List Byte} (h0 : c ≠ 0) (hb : (c :: cs).length = 512) (hr : rest.length % 512 = 0) {v : Int}
    (hs : SizeField (((c :: cs).drop 124).take 12) v) (hbig : 2 ^ 31 - 512 < v) {fuel : Nat} (hfuel : ms.length < fuel) :
    Tar.makeIndex fuel (some (archive ms (c :: cs ++ rest))) = some .ub := by
  obtain ⟨fuel, rfl⟩ : ∃ k, fuel = k + 1 + ms.length := ⟨fuel - 1 - ms.length, by omega⟩
  obtain ⟨p, buffer, idx, hd, hl, hbuf, e⟩ := loop_start ms (t := c :: cs ++ rest) hwf hsz (by rw [List.length_append]; omega) (fuel + 1)
  rw [e]
  rw [List.length_append, hb] at hl
  have h := step_block (fsize := (archive ms (c :: cs ++ rest)).length) (s := ⟨⟨archive ms (c :: cs ++ rest), p, false⟩, buffer, idx⟩) rfl hbuf
    (by show (p : Int) < _; omega) hd hb rfl h0 (parseHeader_field hs)
  obtain ⟨n, rfl⟩ := Int.eq_ofNat_of_zero_le (show 0 ≤ v by omega)
  have hbl := nBlocks_eq n
  dsimp only at h
  rw [if_neg (by rw [hbl]; omega)] at h
  rw [Tar.loop, h]

/-- Witness: one block with the size field `20000000000` (octal), 2 GiB. -/
theorem C73_overflow_witness (fuel : Nat) :
    Tar.makeIndex (fuel + 1) (some (archive [] (exampleBlock [50, 48, 48, 48, 48, 48, 48, 48, 48, 48, 48] ++ []))) = some .ub :=
  C73_overflow (ms := []) (by simp) (by simp) (by decide) (exampleBlock_length [50, 48, 48, 48, 48, 48, 48, 48, 48, 48, 48] (by decide)) rfl
    (exampleBlock_size (v := 2 ^ 31) (sizeField_digits (sign := []) (ds := [50, 48, 48, 48, 48, 48, 48, 48, 48, 48, 48]) 1 (by simp)
      (by decide) (.inl ⟨.inl rfl, by decide⟩)) (by decide)) (by decide) (by simp)

/-- Non-vacuity of the termination theorem: a block with a size that leads forward. -/
example : ∃ r, Tar.makeIndex ((exampleBlock [45, 49]).length / 512 + 1) (some (exampleBlock [45, 49])) = some r :=
  C73_terminates fun k v hv => by
    rcases Nat.eq_zero_or_pos k with rfl | hk
    · have h := exampleBlock_size (v := -1) (field := [45, 49])
        (sizeField_digits (sign := [45]) (ds := [49]) 10 (by simp) (by decide) (.inr ⟨rfl, by decide⟩)) (by decide)
      have e := Outcome.ok.inj ((stoll8_ok hv).symm.trans (stoll8_ok h))
      omega
    · rw [List.drop_of_length_le (by rw [exampleBlock_length _ (by decide)]; omega)] at hv
      exact absurd hv (no_number 0 v)

/-! ## C140 -/

/-- C140: a field denotes at most one number. -/
theorem C140_unique {s : List Byte} {v w : Int} (hv : SizeField s v) (hw : SizeField s w) : v = w :=
  Outcome.ok.inj ((stoll8_ok hv).symm.trans (stoll8_ok hw))

/-- C140: the number of leading zeros does not matter, nor what ends the digits. -/
theorem C140_usual {k n : Nat} (hk : 1 ≤ k) (hn : n < 8 ^ k) (rest : List Byte) (hr : ∀ c cs, rest = c :: cs → ¬ IsOctal c) :
    SizeField (octal k n ++ rest) n :=
  sizeField_octal hk hn rest hr

/-- C140: if behind any members there is a header whose size field does not denote a number, `readtar` throws
`std::invalid_argument` for every name, even that of a member in front of it, and the tensor is unchanged. -/
theorem C140_no_number {ms : List Member} (hwf : ∀ m ∈ ms, m.WF) (hsz : ∀ m ∈ ms, m.content.length ≤ 2 ^ 31 - 512)
    {c : Byte} {cs rest : List Byte} (h0 : c ≠ 0) (hb : (c :: cs).length = 512) (hr : rest.length % 512 = 0)
    (hs : ∀ v, ¬ SizeField (((c :: cs).drop 124).take 12) v) {fuel : Nat} (hfuel : ms.length < fuel) {d : Disk} {filename : String}
    (hd : d.files filename = some (archive ms (c :: cs ++ rest))) (e : Endian) (name : List Byte) (code : Byte)
    (dims : List (BitVec 32)) (y : List Byte) :
    Ops.readtar fuel e filename name code dims y d = some (y, .throw .invalidArgument) := by
  obtain ⟨fuel, rfl⟩ : ∃ k, fuel = k + 1 + ms.length := ⟨fuel - 1 - ms.length, by omega⟩
  obtain ⟨p, buffer, idx, hdr, hl, hbuf, e⟩ := loop_start ms (t := c :: cs ++ rest) hwf hsz (by rw [List.length_append]; omega) (fuel + 1)
  rw [List.length_append, hb] at hl
  have hp : Tar.parseHeader (c :: cs) = .throw .invalidArgument := by
    rcases parseHeader_cases (c :: cs) with ⟨v, hv, -⟩ | ⟨-, h⟩
    · exact absurd hv (hs v)
    · exact h
  have h := step_throw (fsize := (archive ms (c :: cs ++ rest)).length) (s := ⟨⟨archive ms (c :: cs ++ rest), p, false⟩, buffer, idx⟩) rfl hbuf
    (by show (p : Int) < _; omega) hdr hb rfl h0 hp
  unfold Ops.readtar
  rw [hd, e, Tar.loop, h]
  rfl

theorem not_sizeField {s : List Byte} (h : Tar.stoll8 s = .throw .invalidArgument) (v : Int) : ¬ SizeField s v := fun hv => by
  rw [stoll8_ok hv] at h
  exact absurd h (by simp)

/-- Non-vacuity: a field of twelve blanks behind a member of the name asked for. -/
example (fuel : Nat) (e : Endian) : Ops.readtar (fuel + 2) e "t.tar" [98] 0x08 [2] [0, 0]
    ⟨fun _ => some (archive [exampleMember [98] [1, 2, 3]] (exampleBlock (List.replicate 12 32) ++ [])), fun _ => true, fun _ => none⟩ =
      some ([0, 0], .throw .invalidArgument) :=
  C140_no_number (ms := [exampleMember [98] [1, 2, 3]])
    (fun m hm => by rw [List.mem_singleton.1 hm]; exact exampleMember_wf (List.cons_ne_nil _ _) (by decide : 1 ≤ 100) (by decide) (by decide))
    (fun m hm => by rw [List.mem_singleton.1 hm]; decide) (by decide) (exampleBlock_length (List.replicate 12 32) (by decide)) rfl
    (not_sizeField (by decide +kernel)) (by simp) rfl e [98] 0x08 [2] [0, 0]

/-- The fields ` 17\0`, `+21`, `0000000017 `, `178` denote 15, 17, 15 and 15; `8`, `- 1` and the empty field denote nothing. -/
example : SizeField [32, 49, 55, 0] 15 ∧ SizeField [43, 50, 49] 17 ∧ SizeField (octal 10 15 ++ [32]) 15 ∧ SizeField [49, 55, 56] 15 ∧
    (∀ v, ¬ SizeField [56] v) ∧ (∀ v, ¬ SizeField [45, 32, 49] v) ∧ ∀ v, ¬ SizeField [] v := by
  have e : ∀ {s : List Byte} {v : Int}, Tar.stoll8 s = .ok v → SizeField s v := fun {s v} h => by
    rcases stoll8_cases s with ⟨w, hw, hs⟩ | ⟨-, hs⟩
    · rw [hs] at h
      exact Outcome.ok.inj h ▸ hw
    · rw [hs] at h
      exact absurd h (by simp)
  exact ⟨e (by decide), e (by decide), e (by decide), e (by decide), not_sizeField (by decide), not_sizeField (by decide),
    not_sizeField (by decide)⟩
example (v : Int) (h : SizeField [49, 55, 56] v) : v = 15 :=
  C140_unique h ⟨[], [], [49, 55], [56], rfl, by simp, by simp, by decide, fun c cs h => by
    rw [← (List.cons.inj h).1]
    decide, .inl ⟨.inl rfl, by decide⟩⟩
example := C140_usual (k := 11) (n := 1000) (by decide) (by decide) [0] (fun c cs h => by rw [← (List.cons.inj h).1]; decide)

/-! ## C74 -/

/-- C74: a file whose size is not a multiple of 512, or that does not exist, is refused before anything is read; the tensor
is unchanged. -/
theorem C74_odd_size (fuel : Nat) (e : Endian) (filename : String) (name : List Byte) (code : Byte) (dims : List (BitVec 32))
    (y : List Byte) (d : Disk) (h : ∀ f, d.files filename = some f → f.length % 512 ≠ 0) :
    Ops.readtar fuel e filename name code dims y d = some (y, .throw .runtimeError) := by
  unfold Ops.readtar Tar.makeIndex
  cases hf : d.files filename with
  | none => rfl
  | some f =>
    dsimp only
    rw [if_pos (h f hf)]
    rfl

/-- Non-vacuity: a file of 1000 bytes. -/
example (fuel : Nat) (e : Endian) : Ops.readtar fuel e "t.tar" [97] 0x08 [2] [0, 0]
    ⟨fun _ => some (List.replicate 1000 7), fun _ => true, fun _ => none⟩ = some ([0, 0], .throw .runtimeError) :=
  C74_odd_size fuel e _ _ _ _ _ _ (by
    intro f hf
    rw [← Option.some.inj hf, List.length_replicate]
    decide)

/-! ## Concrete cases -/

/-- Three members, the last of the same name as the first. -/
def exMembers : List Member :=
  [exampleMember [97] (idxFile 0x08 [2] [1, 2]), exampleMember [98] [], exampleMember [97] (idxFile 0x08 [2] [3, 4])]
theorem exMembers_wf : ∀ m ∈ exMembers, m.WF := fun m hm => by
  simp only [exMembers, List.mem_cons, List.not_mem_nil, or_false] at hm
  rcases hm with rfl | rfl | rfl <;>
    exact exampleMember_wf (List.cons_ne_nil _ _) (by decide : 1 ≤ 100) (by decide) (by decide)
theorem exMembers_small : ∀ m ∈ exMembers, m.content.length ≤ 2 ^ 31 - 512 := fun m hm => by
  simp only [exMembers, List.mem_cons, List.not_mem_nil, or_false] at hm
  rcases hm with rfl | rfl | rfl <;> decide

example := C72_index exMembers_wf exMembers_small (trailer := List.replicate 1024 0) (.inr ⟨_, rfl⟩) (by rw [List.length_replicate])
  (fuel := 4) (by decide)
example := C72_missing exMembers_wf exMembers_small (trailer := List.replicate 1024 0) (.inr ⟨_, rfl⟩)
  (by rw [List.length_replicate]) (fuel := 4) (by decide)
  (d := ⟨fun _ => some (archive exMembers (List.replicate 1024 0)), fun _ => true, fun _ => none⟩) (filename := "t.tar") rfl
  (name := [99]) (fun m hm => by
    simp only [exMembers, List.mem_cons, List.not_mem_nil, or_false] at hm
    rcases hm with rfl | rfl | rfl <;> decide) .little 0x08 [2] [0, 0]

end StdNN
