import Verif.Model.IO
import Verif.Spec.IO
import Mathlib.Tactic.IntervalCases
import Mathlib.Data.List.Induction
/-!
# Files in the idx format: C67 to C71, C83
-/
namespace StdNN
open Outcome Spec

/-! ## Words and bytes -/

theorem bytes32_word32 (e : Endian) (a b c d : Byte) : bytes32 e (word32 e a b c d) = [a, b, c, d] := by
  have h : ∀ p q r s : Byte, (p ++ q ++ r ++ s : BitVec 32).extractLsb' 0 8 = s ∧
      (p ++ q ++ r ++ s : BitVec 32).extractLsb' 8 8 = r ∧ (p ++ q ++ r ++ s : BitVec 32).extractLsb' 16 8 = q ∧
      (p ++ q ++ r ++ s : BitVec 32).extractLsb' 24 8 = p := by
    intro p q r s
    refine ⟨?_, ?_, ?_, ?_⟩ <;>
    · apply BitVec.eq_of_getLsbD_eq
      intro i hi
      simp only [BitVec.getLsbD_extractLsb', BitVec.getLsbD_append]
      interval_cases i <;> simp
  cases e
  · obtain ⟨h1, h2, h3, h4⟩ := h d c b a
    simp only [bytes32, word32, h1, h2, h3, h4]
  · obtain ⟨h1, h2, h3, h4⟩ := h a b c d
    simp only [bytes32, word32, h1, h2, h3, h4, List.reverse_cons, List.reverse_nil, List.nil_append, List.cons_append]

theorem exists_word (e : Endian) (x : BitVec 32) : ∃ a b c d, x = word32 e a b c d := by
  have h : x = (x.extractLsb' 24 8 ++ x.extractLsb' 16 8 ++ x.extractLsb' 8 8 ++ x.extractLsb' 0 8 : BitVec 32) := by
    apply BitVec.eq_of_getLsbD_eq
    intro i hi
    simp only [BitVec.getLsbD_extractLsb', BitVec.getLsbD_append]
    interval_cases i <;> simp
  cases e
  · exact ⟨_, _, _, _, h⟩
  · exact ⟨_, _, _, _, h⟩

theorem swap_word (e : Endian) (a b c d : Byte) :
    Kernels.byteEndianSwapped e (word32 e a b c d) = word32 e d c b a := by
  simp only [Kernels.byteEndianSwapped, bytes32_word32]

/-- The four bytes of a dimension in a file written on a host of the given byte order. -/
def fileBytes (e : Endian) (x : BitVec 32) : List Byte := bytes32 e (Kernels.byteEndianSwapped e x)

theorem fileBytes_length (e : Endian) (x : BitVec 32) : (fileBytes e x).length = 4 := by
  obtain ⟨a, b, c, d, rfl⟩ := exists_word e x
  simp [fileBytes, swap_word, bytes32_word32]

theorem fileBytes_little (x : BitVec 32) : fileBytes .little x = bigEndian x.toNat := by
  obtain ⟨a, b, c, d, hx⟩ := exists_word .little x
  have h : ∀ k, BitVec.ofNat 8 (x.toNat / 2 ^ k) = x.extractLsb' k 8 := by
    intro k
    rw [← Nat.shiftRight_eq_div_pow]
    rfl
  have h0 : BitVec.ofNat 8 x.toNat = x.extractLsb' 0 8 := h 0 ▸ by simp
  unfold bigEndian
  rw [h, h, h, h0]
  have hb := bytes32_word32 .little a b c d
  rw [← hx] at hb
  simp only [bytes32, List.cons.injEq, and_true] at hb
  rw [hb.1, hb.2.1, hb.2.2.1, hb.2.2.2, hx]
  simp [fileBytes, swap_word, bytes32_word32]

theorem exists_words (e : Endian) (n : Nat) (bs : List Byte) (h : bs.length = 4 * n) :
    ∃ ws : List (BitVec 32), ws.length = n ∧ bs = ws.flatMap (fileBytes e) := by
  induction n generalizing bs with
  | zero => exact ⟨[], rfl, List.length_eq_zero_iff.1 (by omega)⟩
  | succ n ih =>
    match bs, h with
    | a :: b :: c :: d :: bs, h =>
      obtain ⟨ws, hl, hw⟩ := ih bs (by simp at h; omega)
      refine ⟨word32 e d c b a :: ws, by simp [hl], ?_⟩
      rw [List.flatMap_cons, ← hw]
      simp [fileBytes, swap_word, bytes32_word32]

theorem flatMap_length (e : Endian) (ws : List (BitVec 32)) : (ws.flatMap (fileBytes e)).length = 4 * ws.length := by
  induction ws with
  | nil => rfl
  | cons w ws ih =>
    rw [List.flatMap_cons, List.length_append, ih, fileBytes_length, List.length_cons]
    omega

theorem fileBytes_inj (e : Endian) {x y : BitVec 32} (h : fileBytes e x = fileBytes e y) : x = y := by
  obtain ⟨a, b, c, d, rfl⟩ := exists_word e x
  obtain ⟨a', b', c', d', rfl⟩ := exists_word e y
  simp only [fileBytes, swap_word, bytes32_word32, List.cons.injEq, and_true] at h
  obtain ⟨rfl, rfl, rfl, rfl⟩ := h
  rfl

theorem flatMap_inj (e : Endian) {ws vs : List (BitVec 32)} (h : ws.flatMap (fileBytes e) = vs.flatMap (fileBytes e)) :
    ws = vs := by
  induction ws generalizing vs with
  | nil =>
    cases vs with
    | nil => rfl
    | cons v vs =>
      have := congrArg List.length h
      rw [flatMap_length, flatMap_length] at this
      simp at this
  | cons w ws ih =>
    cases vs with
    | nil =>
      have := congrArg List.length h
      rw [flatMap_length, flatMap_length] at this
      simp at this
    | cons v vs =>
      rw [List.flatMap_cons, List.flatMap_cons] at h
      obtain ⟨h1, h2⟩ := List.append_inj h (by rw [fileBytes_length, fileBytes_length])
      rw [fileBytes_inj e h1, ih h2]

/-! ## Reading -/

theorem read_full {is : IStream} {n : Nat} {a b : List Byte} (hf : is.fail = false) (h : is.bytes.drop is.pos = a ++ b)
    (ha : a.length = n) : is.read n = (a, { is with pos := is.pos + n }) := by
  have ht : (is.bytes.drop is.pos).take n = a := by rw [h, ← ha, List.take_left]
  simp only [IStream.read, hf, Bool.false_eq_true, if_false, ht, ha, Nat.lt_irrefl, decide_false]

theorem drop_next {l a b : List Byte} {p n : Nat} (h : l.drop p = a ++ b) (ha : a.length = n) : l.drop (p + n) = b := by
  rw [← List.drop_drop, h, ← ha, List.drop_left]

theorem useByte_full (got : List Byte) (n i : Nat) (h : i < got.length) : Kernels.useByte (Kernels.buffer n got) i = .ok got[i] := by
  unfold Kernels.useByte Kernels.buffer
  rw [List.getElem?_append_left (by simpa using h)]
  simp [h]

theorem mapM_ok' {α β : Type} {f : α → Outcome β} {g : α → β} (l : List α) (h : ∀ a ∈ l, f a = .ok (g a)) :
    l.mapM f = .ok (l.map g) := by
  induction l with
  | nil => rfl
  | cons a l ih =>
    rw [List.mapM_cons, h a (by simp), Outcome.ok_bind, ih fun b hb => h b (by simp [hb]), Outcome.ok_bind]
    simp

theorem words_ok (e : Endian) (ws : List (BitVec 32)) :
    (List.range ws.length).mapM (Kernels.useWord e (Kernels.buffer (ws.length * 4) (ws.flatMap (fileBytes e)))) = .ok ws := by
  have key : ∀ (ws : List (BitVec 32)) i (hi : i < ws.length), ∃ a b c d, ws[i] = word32 e d c b a ∧
      (ws.flatMap (fileBytes e))[4 * i]? = some a ∧ (ws.flatMap (fileBytes e))[4 * i + 1]? = some b ∧
      (ws.flatMap (fileBytes e))[4 * i + 2]? = some c ∧ (ws.flatMap (fileBytes e))[4 * i + 3]? = some d := by
    intro ws
    induction ws with
    | nil => intro i hi; simp at hi
    | cons w ws ih =>
      intro i hi
      obtain ⟨d, c, b, a, hw⟩ := exists_word e w
      have hb : fileBytes e w = [a, b, c, d] := by rw [hw]; simp [fileBytes, swap_word, bytes32_word32]
      rw [List.flatMap_cons, hb]
      cases i with
      | zero => exact ⟨a, b, c, d, by simp [hw], by simp, by simp, by simp, by simp⟩
      | succ i =>
        obtain ⟨a', b', c', d', h⟩ := ih i (by simpa using hi)
        refine ⟨a', b', c', d', by simpa using h.1, ?_, ?_, ?_, ?_⟩
        · rw [show 4 * (i + 1) = 4 * i + 4 by omega]; simpa using h.2.1
        · rw [show 4 * (i + 1) + 1 = 4 * i + 1 + 4 by omega]; simpa using h.2.2.1
        · rw [show 4 * (i + 1) + 2 = 4 * i + 2 + 4 by omega]; simpa using h.2.2.2.1
        · rw [show 4 * (i + 1) + 3 = 4 * i + 3 + 4 by omega]; simpa using h.2.2.2.2
  rw [mapM_ok' (g := fun i => ws.getD i 0)]
  · congr 1
    apply List.ext_getElem
    · simp
    · intro i h1 h2
      simp [List.getD, h2]
  · intro i hi
    have hi := List.mem_range.1 hi
    obtain ⟨a, b, c, d, hw, ha, hb, hc, hd⟩ := key ws i hi
    have hl := flatMap_length e ws
    have u : ∀ j x, (ws.flatMap (fileBytes e))[j]? = some x →
        Kernels.useByte (Kernels.buffer (ws.length * 4) (ws.flatMap (fileBytes e))) j = .ok x := by
      intro j x hx
      obtain ⟨hj, hx⟩ := List.getElem?_eq_some_iff.1 hx
      rw [useByte_full _ _ j hj, hx]
    unfold Kernels.useWord
    rw [u _ _ ha, Outcome.ok_bind, u _ _ hb, Outcome.ok_bind, u _ _ hc, Outcome.ok_bind, u _ _ hd, Outcome.ok_bind, swap_word]
    simp [List.getD, hi, hw]

theorem forM_assert (ws dims : List (BitVec 32)) (h : ws.length = dims.length) :
    (List.zip ws dims).forM (fun p => contractAssert (p.1 = p.2)) =
      if ws = dims then (.ok ⟨⟩ : Outcome Unit) else .throw .runtimeError := by
  induction ws generalizing dims with
  | nil =>
    cases dims with
    | nil => rfl
    | cons _ _ => simp at h
  | cons w ws ih =>
    cases dims with
    | nil => simp at h
    | cons d dims =>
      rw [List.zip_cons_cons, List.forM_eq_forM, List.forM_cons, ← List.forM_eq_forM]
      by_cases c : w = d
      · rw [contractAssert_pos c, Outcome.ok_bind, ih dims (by simpa using h)]
        simp [c]
      · rw [contractAssert_neg c, Outcome.throw_bind, if_neg (by simp [c])]

/-- The checks on a stream that holds four bytes. -/
theorem checkHeader_magic {e : Endian} {code : Byte} {dims : List (BitVec 32)} {is : IStream} {m0 m1 m2 m3 : Byte}
    {rest : List Byte} (hf : is.fail = false) (h : is.bytes.drop is.pos = [m0, m1, m2, m3] ++ rest)
    (hne : ¬ (m0 = 0 ∧ m1 = 0 ∧ m2 = code ∧ m3.toNat = dims.length)) :
    Kernels.checkHeader e code dims is = .throw .runtimeError := by
  unfold Kernels.checkHeader
  rw [read_full (n := 4) hf h rfl]
  dsimp only
  rw [useByte_full _ _ 0 (by simp), useByte_full _ _ 1 (by simp), useByte_full _ _ 2 (by simp), useByte_full _ _ 3 (by simp)]
  simp only [List.getElem_cons_zero, List.getElem_cons_succ, Outcome.ok_bind]
  by_cases c0 : m0 = 0
  · rw [contractAssert_pos c0, Outcome.ok_bind]
    by_cases c1 : m1 = 0
    · rw [contractAssert_pos c1, Outcome.ok_bind]
      by_cases c2 : m2 = code
      · rw [contractAssert_pos c2, Outcome.ok_bind, contractAssert_neg (fun c3 => hne ⟨c0, c1, c2, c3⟩)]
        rfl
      · rw [contractAssert_neg c2]; rfl
    · rw [contractAssert_neg c1]; rfl
  · rw [contractAssert_neg c0]; rfl

/-- The checks on a stream that holds a whole header. -/
theorem checkHeader_dims {e : Endian} {code : Byte} {dims ws : List (BitVec 32)} {is : IStream} {m3 : Byte}
    {rest : List Byte} (hf : is.fail = false)
    (h : is.bytes.drop is.pos = [0, 0, code, m3] ++ (ws.flatMap (fileBytes e) ++ rest)) (h3 : m3.toNat = dims.length)
    (hw : ws.length = dims.length) :
    Kernels.checkHeader e code dims is =
      if ws = dims then .ok { is with pos := is.pos + 4 + dims.length * 4 } else .throw .runtimeError := by
  unfold Kernels.checkHeader
  rw [read_full (n := 4) hf h rfl]
  dsimp only
  rw [useByte_full _ _ 0 (by simp), useByte_full _ _ 1 (by simp), useByte_full _ _ 2 (by simp), useByte_full _ _ 3 (by simp)]
  simp only [List.getElem_cons_zero, List.getElem_cons_succ, Outcome.ok_bind]
  rw [contractAssert_pos trivial, Outcome.ok_bind, Outcome.ok_bind, Outcome.ok_bind, contractAssert_pos h3, Outcome.ok_bind]
  rw [read_full (is := { is with pos := is.pos + 4 }) (a := ws.flatMap (fileBytes e)) (b := rest) hf
    (drop_next h rfl) (by rw [flatMap_length]; omega)]
  dsimp only
  rw [← hw, words_ok, Outcome.ok_bind, forM_assert ws dims hw]
  by_cases c : ws = dims
  · rw [if_pos c, if_pos c, Outcome.ok_bind]; rfl
  · rw [if_neg c, if_neg c, Outcome.throw_bind]

/-- The header of a file written on a host of the given byte order. -/
def fileHeader (e : Endian) (code : Byte) (dims : List (BitVec 32)) : List Byte :=
  [0, 0, code, BitVec.ofNat 8 dims.length] ++ dims.flatMap (fileBytes e)

theorem fileHeader_little (code : Byte) (dims : List (BitVec 32)) : fileHeader .little code dims = idxHeader code dims := by
  unfold fileHeader idxHeader
  rw [show fileBytes .little = fun d => bigEndian d.toNat from funext fileBytes_little]

theorem fileHeader_length (e : Endian) (code : Byte) (dims : List (BitVec 32)) :
    (fileHeader e code dims).length = 4 + 4 * dims.length := by
  unfold fileHeader
  rw [List.length_append, flatMap_length]
  rfl

theorem ofNat_toNat_rank {dims : List (BitVec 32)} (hr : dims.length < 256) : (BitVec.ofNat 8 dims.length).toNat = dims.length := by
  rw [BitVec.toNat_ofNat]; omega

/-- Reading a stream that starts with the right header. -/
theorem serializerRead_ok {e : Endian} {code : Byte} {dims : List (BitVec 32)} {y data : List Byte} {is : IStream}
    (hr : dims.length < 256) (hf : is.fail = false) (h : is.bytes.drop is.pos = fileHeader e code dims ++ data) :
    Kernels.serializerRead e code dims y is = (data.take y.length ++ y.drop data.length, .ok ⟨⟩) := by
  have h' : is.bytes.drop is.pos = [0, 0, code, BitVec.ofNat 8 dims.length] ++ (dims.flatMap (fileBytes e) ++ data) := by
    rw [h, fileHeader, List.append_assoc]
  unfold Kernels.serializerRead
  rw [checkHeader_dims hf h' (ofNat_toNat_rank hr) rfl, if_pos rfl]
  have hd : is.bytes.drop (is.pos + 4 + dims.length * 4) = data := by
    rw [Nat.add_assoc]
    exact drop_next h (by rw [fileHeader_length]; omega)
  simp only [IStream.read, hf, Bool.false_eq_true, if_false, hd, List.length_take, Prod.mk.injEq, and_true]
  congr 1
  by_cases c : y.length ≤ data.length
  · rw [Nat.min_eq_left c, List.drop_of_length_le (Nat.le_refl _), List.drop_of_length_le c]
  · rw [Nat.min_eq_right (by omega)]

/-! ## Writing -/

theorem writefile_ok (e : Endian) (code : Byte) (dims : List (BitVec 32)) (x : List Byte) (d : Disk) (name : String)
    (hc : d.creatable name = true) (hroom : d.room name = none) :
    Ops.writefile e name code dims x d =
      ({ d with files := Function.update d.files name (some (fileHeader e code dims ++ x)) }, .ok ⟨⟩) := by
  unfold Ops.writefile Kernels.writefile
  rw [if_pos hc]
  simp only [Kernels.serializerWrite, OStream.write, hroom, Bool.false_eq_true, if_false, List.nil_append]
  rw [show ((dims.map (Kernels.byteEndianSwapped e)).flatMap (bytes32 e)) = dims.flatMap (fileBytes e) by
    rw [List.flatMap_map]; rfl]
  rfl

/-! ## C67 -/

/-- C67: on a little endian host the file written is the idx file of the tensor. -/
theorem C67_format (code : Byte) (dims : List (BitVec 32)) (x : List Byte) (d : Disk) (name : String)
    (hc : d.creatable name = true) (hroom : d.room name = none) :
    ∃ d', Ops.writefile .little name code dims x d = (d', .ok ⟨⟩) ∧ d'.files name = some (idxFile code dims x) := by
  refine ⟨_, writefile_ok .little code dims x d name hc hroom, ?_⟩
  rw [fileHeader_little]
  simp [idxFile]

/-- C67: swapping the bytes twice does nothing, on either kind of host. -/
theorem C67_involution (e : Endian) (x : BitVec 32) :
    Kernels.byteEndianSwapped e (Kernels.byteEndianSwapped e x) = x := by
  obtain ⟨a, b, c, d, rfl⟩ := exists_word e x
  rw [swap_word, swap_word]

/-- C67: on a big endian host the dimensions are written with the least significant byte first. -/
theorem C67_big_endian_host (code : Byte) (dims : List (BitVec 32)) (x : List Byte) (d : Disk) (name : String)
    (hc : d.creatable name = true) (hroom : d.room name = none) :
    ∃ d', Ops.writefile .big name code dims x d = (d', .ok ⟨⟩) ∧
      d'.files name = some ([0, 0, code, BitVec.ofNat 8 dims.length] ++
        (dims.flatMap fun d => (bigEndian d.toNat).reverse) ++ x) := by
  refine ⟨_, writefile_ok .big code dims x d name hc hroom, ?_⟩
  have h : fileBytes .big = fun d => (bigEndian d.toNat).reverse := by
    funext y
    rw [← fileBytes_little]
    obtain ⟨a, b, c, d, hx⟩ := exists_word .little y
    have hx' : y = word32 .big d c b a := hx
    rw [show fileBytes .little y = [d, c, b, a] by rw [hx]; simp [fileBytes, swap_word, bytes32_word32]]
    rw [hx']
    simp [fileBytes, swap_word, bytes32_word32]
  simp [fileHeader, h]

/-- Non-vacuity: a file of two dimensions. -/
example : (Ops.writefile .little "t" 0x08 [2, 300] [7, 9] ⟨fun _ => none, fun _ => true, fun _ => none⟩).1.files "t" =
    some [0, 0, 8, 2, 0, 0, 0, 2, 0, 0, 1, 44, 7, 9] := by decide

/-! ## C68 -/

/-- C68: writing a tensor and reading it into a tensor of the same type and shape gives the written bytes, whatever the
tensor held before. -/
theorem C68_round_trip (e : Endian) (code : Byte) {dims : List (BitVec 32)} (hr : dims.length < 256) {x y : List Byte}
    (hl : y.length = x.length) (d : Disk) (name : String) (hc : d.creatable name = true) (hroom : d.room name = none) :
    ∃ d', Ops.writefile e name code dims x d = (d', .ok ⟨⟩) ∧ Ops.readfile e name code dims y d' = (x, .ok ⟨⟩) := by
  refine ⟨_, writefile_ok e code dims x d name hc hroom, ?_⟩
  simp only [Ops.readfile, Kernels.readfile, Function.update_self]
  rw [serializerRead_ok (data := x) hr rfl rfl, hl, List.take_of_length_le (Nat.le_refl _),
    List.drop_of_length_le (by omega), List.append_nil]

theorem flatMap_split {R : Type} (enc : R → List Byte) (sz : Nat) (hsz : ∀ v, (enc v).length = sz) (vals : List R) (i : Nat)
    (hi : i < vals.length) : ((vals.flatMap enc).drop (i * sz)).take sz = enc vals[i] := by
  induction vals generalizing i with
  | nil => simp at hi
  | cons v vals ih =>
    rw [List.flatMap_cons]
    cases i with
    | zero => simp [← hsz v]
    | succ i =>
      have e : (enc v ++ vals.flatMap enc).drop sz = vals.flatMap enc := by rw [← hsz v, List.drop_left]
      rw [Nat.succ_mul, Nat.add_comm, ← List.drop_drop, e, ih i (by simpa using hi)]
      rfl

/-- C68: the same for elements of any type whose bytes in memory determine it: every element read is the one written. -/
theorem C68_typed {R : Type} (enc : R → List Byte) (dec : List Byte → R) (sz : Nat) (hsz : ∀ v, (enc v).length = sz)
    (hdec : ∀ v, dec (enc v) = v) (e : Endian) (code : Byte) {dims : List (BitVec 32)} (hr : dims.length < 256)
    {vals : List R} {y : List Byte} (hy : y.length = vals.length * sz) (d : Disk) (name : String)
    (hc : d.creatable name = true) (hroom : d.room name = none) :
    ∃ d' y', Ops.writefile e name code dims (vals.flatMap enc) d = (d', .ok ⟨⟩) ∧
      Ops.readfile e name code dims y d' = (y', .ok ⟨⟩) ∧
      ∀ i (hi : i < vals.length), dec ((y'.drop (i * sz)).take sz) = vals[i] := by
  obtain ⟨d', h1, h2⟩ := C68_round_trip e code hr (x := vals.flatMap enc) (y := y) (by
    rw [hy]
    clear hy
    induction vals with
    | nil => simp
    | cons v vals ih => rw [List.flatMap_cons, List.length_append, ← ih, hsz, List.length_cons, Nat.succ_mul, Nat.add_comm]) d name hc hroom
  refine ⟨d', _, h1, h2, fun i hi => ?_⟩
  rw [flatMap_split enc sz hsz vals i hi, hdec]

/-- Non-vacuity: a matrix of one row and two columns of 16 bit numbers. -/
example : ∃ d', Ops.writefile .little "t" 0x0b [1, 2] [7, 0, 9, 1] ⟨fun _ => none, fun _ => true, fun _ => none⟩ = (d', .ok ⟨⟩) ∧
    Ops.readfile .little "t" 0x0b [1, 2] [1, 1, 1, 1] d' = ([7, 0, 9, 1], .ok ⟨⟩) :=
  C68_round_trip .little 0x0b (dims := [1, 2]) (by decide) (x := [7, 0, 9, 1]) (y := [1, 1, 1, 1]) rfl _ _ rfl rfl

/-! ## C69 -/

/-- C69: there is no file of that name. -/
theorem C69_missing (e : Endian) (code : Byte) (dims : List (BitVec 32)) (y : List Byte) (d : Disk) (name : String)
    (h : d.files name = none) : Ops.readfile e name code dims y d = (y, .throw .runtimeError) := by
  simp only [Ops.readfile, Kernels.readfile, h]

/-- C69: the first four bytes are not those of a tensor of this type and rank. -/
theorem C69_magic (e : Endian) (code : Byte) (dims : List (BitVec 32)) (y : List Byte) (d : Disk)
    (name : String) {f : List Byte} (hf : d.files name = some f) (hl : 4 ≤ f.length)
    (hne : f.take 4 ≠ [0, 0, code, BitVec.ofNat 8 dims.length]) :
    Ops.readfile e name code dims y d = (y, .throw .runtimeError) := by
  match f, hl with
  | m0 :: m1 :: m2 :: m3 :: rest, _ =>
    simp only [Ops.readfile, Kernels.readfile, hf, Kernels.serializerRead]
    rw [checkHeader_magic (is := ⟨m0 :: m1 :: m2 :: m3 :: rest, 0, false⟩) (rest := rest) rfl rfl (fun h => hne ?_)]
    obtain ⟨rfl, rfl, rfl, h3⟩ := h
    rw [← h3]
    simp

/-- C69: the file has a whole header, and it is not the header of a tensor of this type and shape. -/
theorem C69_mismatch (code : Byte) {dims : List (BitVec 32)} (hr : dims.length < 256) (y : List Byte) (d : Disk)
    (name : String) {f : List Byte} (hf : d.files name = some f) (hl : 4 + 4 * dims.length ≤ f.length)
    (hne : ¬ idxHeader code dims <+: f) : Ops.readfile .little name code dims y d = (y, .throw .runtimeError) := by
  by_cases hm : f.take 4 = [0, 0, code, BitVec.ofNat 8 dims.length]
  · obtain ⟨ws, hw, hb⟩ := exists_words .little dims.length ((f.drop 4).take (4 * dims.length)) (by simp; omega)
    have hsplit : f = [0, 0, code, BitVec.ofNat 8 dims.length] ++ (ws.flatMap (fileBytes .little) ++ (f.drop 4).drop (4 * dims.length)) := by
      rw [← hb, List.take_append_drop, ← hm, List.take_append_drop]
    simp only [Ops.readfile, Kernels.readfile, hf, Kernels.serializerRead]
    rw [checkHeader_dims (is := ⟨f, 0, false⟩) rfl hsplit (ofNat_toNat_rank hr) hw, if_neg]
    rintro rfl
    apply hne
    rw [← fileHeader_little, fileHeader, hsplit]
    exact ⟨_, List.append_assoc _ _ _⟩
  · exact C69_magic .little code dims y d name hf (by omega) hm

/-- C69: a file is accepted if and only if it starts with the header of a tensor of this type and shape. -/
theorem C69_accepts (code : Byte) {dims : List (BitVec 32)} (hr : dims.length < 256) (y : List Byte) (d : Disk)
    (name : String) {f : List Byte} (hf : d.files name = some f) (hl : 4 + 4 * dims.length ≤ f.length) :
    (Ops.readfile .little name code dims y d).2 = .ok ⟨⟩ ↔ idxHeader code dims <+: f := by
  constructor
  · intro h
    by_contra hne
    rw [C69_mismatch code hr y d name hf hl hne] at h
    exact absurd h (by simp)
  · rintro ⟨data, rfl⟩
    simp only [Ops.readfile, Kernels.readfile, hf]
    rw [serializerRead_ok (data := data) hr rfl (by rw [fileHeader_little]; rfl)]

/-- Non-vacuity: a file of a `[2, 3]` tensor read into a `[3, 2]` tensor. -/
example : Ops.readfile .little "t" 0x08 [3, 2] [1, 2, 3, 4, 5, 6]
    ⟨fun _ => some (idxFile 0x08 [2, 3] [0, 0, 0, 0, 0, 0]), fun _ => true, fun _ => none⟩ =
      ([1, 2, 3, 4, 5, 6], .throw .runtimeError) :=
  C69_mismatch 0x08 (by decide) _ _ _ rfl (by decide) (by decide)

/-! ## C70 -/

/-- C70 is false: a file with the right header and only some of the data is read without complaint, and the elements behind
the end of the file keep their old values. -/
theorem C70_effect (code : Byte) {dims : List (BitVec 32)} (hr : dims.length < 256) (y data : List Byte) (d : Disk)
    (name : String) (hf : d.files name = some (idxFile code dims data)) (hshort : data.length < y.length) :
    Ops.readfile .little name code dims y d = (data ++ y.drop data.length, .ok ⟨⟩) := by
  simp only [Ops.readfile, Kernels.readfile, hf]
  rw [serializerRead_ok (data := data) hr rfl (by rw [fileHeader_little]; rfl), List.take_of_length_le (by omega)]

/-- C70, witness: a file cut in the middle of a vector of 16 bit numbers; the second element becomes 0x0305, which was
neither in the file nor in the tensor. -/
theorem C70_mixed : Ops.readfile .little "t" 0x0b [2] [0x01, 0x02, 0x04, 0x03]
    ⟨fun _ => some (idxFile 0x0b [2] [0x07, 0x08, 0x05]), fun _ => true, fun _ => none⟩ =
      ([0x07, 0x08, 0x05, 0x03], .ok ⟨⟩) :=
  C70_effect 0x0b (by decide) _ [0x07, 0x08, 0x05] _ _ rfl (by decide)

theorem useByte_short (got : List Byte) (n i : Nat) (h : got.length ≤ i) : Kernels.useByte (Kernels.buffer n got) i = .ub := by
  unfold Kernels.useByte Kernels.buffer
  rw [List.getElem?_append_right (by simpa using h)]
  by_cases c : i - (got.map some).length < n - got.length
  · rw [List.getElem?_replicate, if_pos c]
  · rw [List.getElem?_replicate, if_neg c]

/-- What holds of C70: a file cut inside the header is never read normally (the code then works on indeterminate bytes
unless a byte that is there already differs), and the tensor keeps its elements. Missing: files cut inside the data, for
which the claim is false (`C70_effect`). -/
theorem C70_header_partial (e : Endian) (code : Byte) (dims : List (BitVec 32)) (y : List Byte) (d : Disk) (name : String)
    {f : List Byte} (hf : d.files name = some f) (hl : f.length < 4 + 4 * dims.length) :
    (Ops.readfile e name code dims y d).2 ≠ .ok ⟨⟩ ∧ (Ops.readfile e name code dims y d).1 = y := by
  have key : ∀ is', Kernels.checkHeader e code dims ⟨f, 0, false⟩ ≠ .ok is' := by
    intro is' h
    unfold Kernels.checkHeader at h
    by_cases h4 : 4 ≤ f.length
    · match f, h4 with
      | m0 :: m1 :: m2 :: m3 :: rest, _ =>
        rw [read_full (is := ⟨m0 :: m1 :: m2 :: m3 :: rest, 0, false⟩) (n := 4) (a := [m0, m1, m2, m3]) (b := rest) rfl rfl rfl] at h
        simp only [bind_eq_ok] at h
        obtain ⟨_, _, _, _, _, _, _, _, _, _, _, _, _, _, _, _, ws, hws, _⟩ := h
        have hrest : rest.length < dims.length * 4 := by simp at hl; omega
        have hg : (IStream.read ⟨m0 :: m1 :: m2 :: m3 :: rest, 0 + 4, false⟩ (dims.length * 4)).1 = rest := by
          simp only [IStream.read, Bool.false_eq_true, if_false]
          exact List.take_of_length_le (by simp; omega)
        rw [hg] at hws
        have bad : ∀ (l : List Nat), dims.length - 1 ∈ l → ∀ ws,
            l.mapM (Kernels.useWord e (Kernels.buffer (dims.length * 4) rest)) ≠ .ok ws := by
          intro l
          induction l with
          | nil => intro h; simp at h
          | cons i l ih =>
            intro hm ws h
            rw [List.mapM_cons] at h
            obtain ⟨w, hw, h⟩ := bind_eq_ok.1 h
            obtain ⟨vs, hv, h⟩ := bind_eq_ok.1 h
            rcases List.mem_cons.1 hm with rfl | hm
            · unfold Kernels.useWord at hw
              simp only [bind_eq_ok] at hw
              obtain ⟨_, _, _, _, _, _, _, h3, _⟩ := hw
              rw [useByte_short _ _ _ (by omega)] at h3
              exact absurd h3 (by simp)
            · exact ih hm vs hv
        exact bad _ (List.mem_range.2 (by omega)) _ hws
    · have hg : (IStream.read ⟨f, 0, false⟩ 4).1 = f := by
        simp only [IStream.read, Bool.false_eq_true, if_false, List.drop_zero]
        exact List.take_of_length_le (by omega)
      simp only [bind_eq_ok, hg] at h
      obtain ⟨_, _, _, _, _, _, _, _, _, _, _, h3, _⟩ := h
      rw [useByte_short _ _ _ (by omega)] at h3
      exact absurd h3 (by simp)
  simp only [Ops.readfile, Kernels.readfile, hf, Kernels.serializerRead]
  cases hc : Kernels.checkHeader e code dims ⟨f, 0, false⟩ with
  | ok is' => exact absurd hc (key is')
  | throw err => exact ⟨by simp, rfl⟩
  | ub => exact ⟨by simp, rfl⟩

/-- Non-vacuity: the empty file, on which the code has undefined behaviour. -/
example : Ops.readfile .little "t" 0x08 [2] [1, 2] ⟨fun _ => some [], fun _ => true, fun _ => none⟩ = ([1, 2], .ub) := by decide

/-! ## C71 -/

/-- A call of `writefile`: the name, and the type, shape and bytes of the tensor. -/
abbrev WriteCall := String × (Byte × List (BitVec 32) × List Byte)

/-- The disk after a history of calls; a caller who catches the exceptions goes on. -/
def runWrites (e : Endian) (d : Disk) (hist : List WriteCall) : Disk :=
  hist.foldl (fun d w => (Ops.writefile e w.1 w.2.1 w.2.2.1 w.2.2.2 d).1) d

theorem writefile_perm (e : Endian) (code : Byte) (dims : List (BitVec 32)) (x : List Byte) (d : Disk) (name : String) :
    (Ops.writefile e name code dims x d).1.creatable = d.creatable ∧ (Ops.writefile e name code dims x d).1.room = d.room ∧
      ∀ n, n ≠ name → (Ops.writefile e name code dims x d).1.files n = d.files n := by
  unfold Ops.writefile Kernels.writefile
  split
  · exact ⟨rfl, rfl, fun n hn => by simp [Function.update_of_ne hn]⟩
  · exact ⟨rfl, rfl, fun n _ => rfl⟩

theorem runWrites_perm (e : Endian) (d : Disk) (hist : List WriteCall) :
    (runWrites e d hist).creatable = d.creatable ∧ (runWrites e d hist).room = d.room := by
  induction hist generalizing d with
  | nil => exact ⟨rfl, rfl⟩
  | cons w hist ih =>
    obtain ⟨h1, h2, _⟩ := writefile_perm e w.2.1 w.2.2.1 w.2.2.2 d w.1
    obtain ⟨h3, h4⟩ := ih (Ops.writefile e w.1 w.2.1 w.2.2.1 w.2.2.2 d).1
    exact ⟨h3.trans h1, h4.trans h2⟩

/-- C71: after any history of writes a name that can be written holds the file of the last tensor written under it, and
what it held before if there was none. -/
theorem C71_files (d : Disk) (hist : List WriteCall) (name : String) (hc : d.creatable name = true)
    (hroom : d.room name = none) :
    (runWrites .little d hist).files name =
      match lastWrite name hist with
      | some (code, dims, x) => some (idxFile code dims x)
      | none => d.files name := by
  induction hist using List.reverseRecOn with
  | nil => rfl
  | append_singleton hist w ih =>
    obtain ⟨n, code, dims, x⟩ := w
    have e1 : runWrites .little d (hist ++ [(n, code, dims, x)]) =
        (Ops.writefile .little n code dims x (runWrites .little d hist)).1 := by
      simp [runWrites, List.foldl_append]
    rw [e1]
    by_cases c : n = name
    · subst c
      obtain ⟨p1, p2⟩ := runWrites_perm .little d hist
      rw [writefile_ok .little code dims x _ n (by rw [p1]; exact hc) (by rw [p2]; exact hroom), fileHeader_little]
      simp [lastWrite, idxFile]
    · rw [(writefile_perm .little code dims x (runWrites .little d hist) n).2.2 name (Ne.symm c), ih]
      simp [lastWrite, c]

/-- C71: reading after any history of writes gives the tensor last written under the name. -/
theorem C71_read (d : Disk) (hist : List WriteCall) (name : String) (hc : d.creatable name = true)
    (hroom : d.room name = none) {code : Byte} {dims : List (BitVec 32)} {x y : List Byte} (hr : dims.length < 256)
    (hlast : lastWrite name hist = some (code, dims, x)) (hl : y.length = x.length) :
    Ops.readfile .little name code dims y (runWrites .little d hist) = (x, .ok ⟨⟩) := by
  have h := C71_files d hist name hc hroom
  rw [hlast] at h
  simp only [Ops.readfile, Kernels.readfile, h]
  rw [serializerRead_ok (data := x) hr rfl (by rw [fileHeader_little]; rfl), hl, List.take_of_length_le (Nat.le_refl _),
    List.drop_of_length_le (by omega), List.append_nil]

/-- C71: a name that cannot be opened for writing is refused, and nothing changes. -/
theorem C71_refused (e : Endian) (code : Byte) (dims : List (BitVec 32)) (x : List Byte) (d : Disk) (name : String)
    (hc : d.creatable name = false) : Ops.writefile e name code dims x d = (d, .throw .runtimeError) := by
  unfold Ops.writefile Kernels.writefile
  simp [hc]

/-- C71: no history of writes changes a file that cannot be opened for writing. -/
theorem C71_protected (e : Endian) (d : Disk) (hist : List WriteCall) (name : String) (hc : d.creatable name = false) :
    (runWrites e d hist).files name = d.files name := by
  induction hist generalizing d with
  | nil => rfl
  | cons w hist ih =>
    refine (ih (Ops.writefile e w.1 w.2.1 w.2.2.1 w.2.2.2 d).1 (by rw [(writefile_perm e _ _ _ d w.1).1]; exact hc)).trans ?_
    by_cases c : name = w.1
    · rw [C71_refused e _ _ _ d w.1 (c ▸ hc)]
    · exact (writefile_perm e _ _ _ d w.1).2.2 name c

/-- Non-vacuity: a file that is read only survives a write. -/
example : (runWrites .little ⟨fun _ => some [7], fun n => n != "a", fun _ => none⟩ [("b", (8, [1], [2])), ("a", (8, [1], [1]))]).files "a"
    = some [7] :=
  C71_protected .little _ _ "a" rfl

/-- Non-vacuity: three writes, two of them under one name. -/
example : lastWrite "a" [("a", (8, [1], [1])), ("b", (8, [1], [2])), ("a", (8, [2], [3, 4]))] =
    some ((8 : Byte), ([2] : List (BitVec 32)), ([3, 4] : List Byte)) := by decide

/-! ## C83 -/

/-- C83 is false: if the device is full before the tensor is written, `writefile` returns normally, and the file holds only
the first bytes. -/
theorem C83_effect (code : Byte) (dims : List (BitVec 32)) (x : List Byte) (d : Disk) (name : String)
    (hc : d.creatable name = true) {k : Nat} (hroom : d.room name = some k) :
    ∃ d', Ops.writefile .little name code dims x d = (d', .ok ⟨⟩) ∧
      d'.files name = some ((idxFile code dims x).take k) := by
  have w : ∀ (os : OStream) (b c : List Byte), (os.write b).write c = os.write (b ++ c) := by
    intro os b c
    unfold OStream.write
    by_cases hb : os.bad = true
    · simp [hb]
    · cases hr : os.room with
      | none => simp [hb]
      | some k =>
        by_cases hk : k < b.length
        · have h1 : k < b.length + c.length := by omega
          simp [hb, hk, h1, List.take_append_of_le_length (show k ≤ b.length by omega)]
          omega
        · simp only [hb, hk, decide_false, List.length_append, Bool.false_eq_true, if_false, List.append_assoc, OStream.mk.injEq, Option.some.injEq]
          refine ⟨?_, by omega, ?_⟩
          · rw [List.take_append, List.take_of_length_le (by omega)]
          · by_cases h : k - b.length < c.length
            · simp [h]; omega
            · simp [h]; omega
  unfold Ops.writefile Kernels.writefile
  rw [if_pos hc]
  refine ⟨_, rfl, ?_⟩
  simp only [Kernels.serializerWrite, Function.update_self]
  rw [w, w, show ((dims.map (Kernels.byteEndianSwapped .little)).flatMap (bytes32 .little)) = dims.flatMap (fileBytes .little) by
    rw [List.flatMap_map]; rfl]
  rw [show ([0, 0, code, BitVec.ofNat 8 dims.length] ++ (dims.flatMap (fileBytes .little) ++ x)) = idxFile code dims x by
    rw [idxFile, ← fileHeader_little, fileHeader, List.append_assoc]]
  simp [OStream.write, hroom]

/-- What holds of C83: a file that fits is written whole. Missing: files that do not fit, for which the claim is false
(`C83_effect`). -/
theorem C83_fits_partial (code : Byte) (dims : List (BitVec 32)) (x : List Byte) (d : Disk) (name : String)
    (hc : d.creatable name = true) (hroom : ∀ k, d.room name = some k → (idxFile code dims x).length ≤ k) :
    ∃ d', Ops.writefile .little name code dims x d = (d', .ok ⟨⟩) ∧ d'.files name = some (idxFile code dims x) := by
  cases h : d.room name with
  | none => exact C67_format code dims x d name hc h
  | some k =>
    obtain ⟨d', h1, h2⟩ := C83_effect code dims x d name hc h
    exact ⟨d', h1, by rw [h2, List.take_of_length_le (hroom k h)]⟩

/-- Non-vacuity and witness: a device with room for 9 bytes. -/
example : (Ops.writefile .little "t" 0x08 [2] [7, 9] ⟨fun _ => none, fun _ => true, fun _ => some 9⟩).2 = .ok ⟨⟩ ∧
    (Ops.writefile .little "t" 0x08 [2] [7, 9] ⟨fun _ => none, fun _ => true, fun _ => some 9⟩).1.files "t" =
      some [0, 0, 8, 1, 0, 0, 0, 2, 7] := by decide

/-! ## Concrete cases -/

/-- A disk with room for everything on which `t` holds a matrix of two rows and three columns, cut after four entries. -/
def exDisk : Disk := ⟨fun n => if n = "t" then some (idxFile 0x08 [2, 3] [1, 2, 3, 4]) else none, fun _ => true, fun _ => none⟩

example := C67_format 0x08 [2] [7, 9] exDisk "u" rfl rfl
example := C67_big_endian_host 0x08 [2] [7, 9] exDisk "u" rfl rfl
example := C68_typed (R := BitVec 16) (fun v => [v.setWidth 8, (v >>> 8).setWidth 8])
  (fun b => (b.getD 0 0).setWidth 16 ||| ((b.getD 1 0).setWidth 16 <<< 8)) 2 (fun _ => rfl)
  (fun v => by
    apply BitVec.eq_of_getLsbD_eq; intro i hi; simp
    rcases Nat.lt_or_ge i 8 with h | h <;> simp [h, hi, Nat.not_lt.2]
    rw [decide_eq_true (by omega : i - 8 < 16), decide_eq_true (by omega : i - 8 < 8)]; rfl)
  .little 0x0b (dims := [2]) (by decide) (vals := [300, 5]) (y := [0, 0, 0, 0]) rfl exDisk "u" rfl rfl
example := C69_missing .little 0x08 [2] [1, 2] exDisk "u" rfl
example := C69_magic .little 0x08 [2] [1, 2] exDisk "t" rfl (by decide) (by decide)
example := C69_accepts 0x08 (dims := [2, 3]) (by decide) [1, 2] exDisk "t" rfl (by decide)
example := C70_effect 0x08 (dims := [2, 3]) (by decide) [9, 9, 9, 9, 9, 9] [1, 2, 3, 4] exDisk "t" rfl (by decide)
example := C70_header_partial .little 0x08 [2, 3, 5, 7, 9] [9, 9] exDisk "t" rfl (by decide)
example := C71_files exDisk [("t", (8, [1], [1])), ("b", (8, [1], [2])), ("t", (8, [2], [3, 4]))] "t" rfl rfl
example := C71_read exDisk [("t", (8, [1], [1])), ("b", (8, [1], [2])), ("t", (8, [2], [3, 4]))] "t" rfl rfl (code := 8) (dims := [2])
  (x := [3, 4]) (y := [0, 0]) (by decide) (by decide) rfl
example := C71_refused .little 0x08 [2] [7, 9] ⟨fun _ => none, fun _ => false, fun _ => none⟩ "t" rfl
example := C83_effect 0x08 [2] [7, 9] ⟨fun _ => none, fun _ => true, fun _ => some 9⟩ "t" rfl rfl
example := C83_fits_partial 0x08 [2] [7, 9] ⟨fun _ => none, fun _ => true, fun _ => some 10⟩ "t" rfl
  (fun k hk => by cases Option.some.inj hk; decide)

end StdNN
