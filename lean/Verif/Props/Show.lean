import Verif.Model.Show
import Verif.Props.Convert
import Verif.Lemmas.Tensor
import Mathlib.Data.Nat.Digits.Lemmas
/-!
# C162: what the printing of the test and benchmark programs tells
-/
namespace StdNN
open Outcome IntTy Show

/-! ## Specification -/

/-- The words with commas and spaces between them. -/
def commaList (ws : List (List Char)) : List Char := List.intercalate [',', ' '] ws

/-- The number that digits stand for. -/
def readDigits (l : List Char) : Nat := l.foldl (fun a c => 10 * a + (c.toNat - 48)) 0

/-- The integer that a text stands for. -/
def readInt : List Char → Int
  | '-' :: l => -readDigits l
  | l => readDigits l

/-- Texts of elements without spaces and punctuation of the output, different for different elements. -/
structure Words {R : Type} (sh : R → List Char) : Prop where
  inj : Function.Injective sh
  ne : ∀ a, sh a ≠ []
  plain : ∀ a, ∀ c ∈ sh a, c ≠ ' ' ∧ c ≠ ',' ∧ c ≠ ']' ∧ c ≠ '}' ∧ c ≠ '\n'

/-! ## Decimal numbers -/

theorem readDigits_digits (n : Nat) :
    readDigits ((Nat.digits 10 n).reverse.map fun d => Char.ofNat (48 + d)) = n := by
  unfold readDigits
  rw [List.foldl_map, List.foldl_reverse]
  have h : ∀ l : List Nat, (∀ d ∈ l, d < 10) →
      l.foldr (fun d a => 10 * a + ((Char.ofNat (48 + d)).toNat - 48)) 0 = Nat.ofDigits 10 l := by
    intro l hl
    induction l with
    | nil => rfl
    | cons d l ih =>
      rw [List.foldr_cons, ih fun d hd => hl d (List.mem_cons_of_mem _ hd), Nat.ofDigits_cons]
      have hd := hl d (List.mem_cons_self ..)
      have : ((Char.ofNat (48 + d)).toNat - 48) = d := by
        interval_cases d <;> rfl
      rw [this]; omega
  rw [h _ fun d hd => Nat.digits_lt_base (by decide) hd, Nat.ofDigits_digits]

/-- The characters of a decimal number. -/
theorem decimal_chars (x : Int) : decimal x ≠ [] ∧ ∀ c ∈ decimal x, c = '-' ∨ (48 ≤ c.toNat ∧ c.toNat < 58) := by
  unfold decimal
  constructor
  · by_cases h : x = 0
    · subst h; simp
    · rw [if_neg h]
      intro e
      have := (List.append_eq_nil_iff.1 e).2
      rw [List.map_eq_nil_iff, List.reverse_eq_nil_iff, Nat.digits_eq_nil_iff_eq_zero] at this
      omega
  · intro c hc
    rcases List.mem_append.1 hc with h | h
    · split_ifs at h
      · exact .inl (List.mem_singleton.1 h)
      · cases h
    · right
      split_ifs at h
      · rw [List.mem_singleton.1 h]; decide
      · obtain ⟨d, hd, rfl⟩ := List.mem_map.1 h
        have := Nat.digits_lt_base (b := 10) (by decide) (List.mem_reverse.1 hd)
        interval_cases d <;> decide

/-- C162: the decimal text of an integer reads as that integer. -/
theorem C162_decimal (x : Int) : readInt (decimal x) = x := by
  unfold decimal
  by_cases h0 : x = 0
  · subst h0; decide
  rw [if_neg h0]
  by_cases h : x < 0
  · rw [if_pos h, List.singleton_append]
    show -(readDigits _ : Int) = x
    rw [readDigits_digits]; omega
  · rw [if_neg h, List.nil_append]
    have e : ∀ l : List Char, (∀ c ∈ l, c ≠ '-') → readInt l = readDigits l := by
      intro l hl
      unfold readInt
      split
      · exact absurd rfl (hl '-' (List.mem_cons_self ..))
      · rfl
    rw [e, readDigits_digits]
    · omega
    · intro c hc
      obtain ⟨d, hd, rfl⟩ := List.mem_map.1 hc
      have := Nat.digits_lt_base (b := 10) (by decide) (List.mem_reverse.1 hd)
      interval_cases d <;> decide

theorem decimal_words : Words decimal where
  inj x y h := by rw [← C162_decimal x, ← C162_decimal y, h]
  ne x := (decimal_chars x).1
  plain x c hc := by
    rcases (decimal_chars x).2 c hc with rfl | ⟨a, b⟩
    · decide
    · refine ⟨?_, ?_, ?_, ?_, ?_⟩ <;>
      · rintro rfl
        revert a b; decide

/-! ## Lines -/

theorem commaList_nil : commaList [] = [] := rfl
theorem commaList_one (w : List Char) : commaList [w] = w := by simp [commaList, List.intercalate]
theorem commaList_cons (w v : List Char) (ws : List (List Char)) :
    commaList (w :: v :: ws) = w ++ ',' :: ' ' :: commaList (v :: ws) := by
  simp [commaList, List.intercalate]

theorem commaList_snoc (ws : List (List Char)) (w : List Char) :
    commaList (ws ++ [w]) = if ws = [] then w else commaList ws ++ [',', ' '] ++ w := by
  induction ws with
  | nil => simp [commaList_one]
  | cons v ws ih =>
    rw [if_neg (by simp)]
    cases ws with
    | nil => simp [commaList_cons, commaList_one]
    | cons u ws =>
      rw [if_neg (by simp)] at ih
      rw [List.cons_append, List.cons_append, commaList_cons, commaList_cons, ← List.cons_append, ih]
      simp

/-- A word ends where the first character that is not of a word comes. -/
theorem word_end {w w' t t' : List Char} {c c' : Char} {P : Char → Prop} (hw : ∀ a ∈ w, ¬ P a) (hw' : ∀ a ∈ w', ¬ P a) (hc : P c)
    (hc' : P c') (h : w ++ c :: t = w' ++ c' :: t') : w = w' ∧ c = c' ∧ t = t' := by
  induction w generalizing w' with
  | nil =>
    cases w' with
    | nil => simp at h; exact ⟨rfl, h⟩
    | cons a w' =>
      simp at h
      exact absurd hc (h.1 ▸ hw' a (List.mem_cons_self ..))
  | cons a w ih =>
    cases w' with
    | nil =>
      simp at h
      exact absurd hc' (h.1 ▸ hw a (List.mem_cons_self ..))
    | cons b w' =>
      simp only [List.cons_append, List.cons.injEq] at h
      obtain ⟨rfl, h⟩ := h
      obtain ⟨rfl, h2⟩ := ih (fun a ha => hw a (List.mem_cons_of_mem _ ha)) (fun a ha => hw' a (List.mem_cons_of_mem _ ha)) h
      exact ⟨rfl, h2⟩

/-- A line that ends with `e` determines its words. -/
theorem line_inj {e : Char} (he : e ≠ ',') {ws vs : List (List Char)} {t s : List Char}
    (hw : ∀ w ∈ ws, w ≠ [] ∧ ∀ c ∈ w, c ≠ ',' ∧ c ≠ e) (hv : ∀ w ∈ vs, w ≠ [] ∧ ∀ c ∈ w, c ≠ ',' ∧ c ≠ e)
    (h : commaList ws ++ e :: t = commaList vs ++ e :: s) : ws = vs ∧ t = s := by
  have P1 : ∀ {w : List Char}, (∀ c ∈ w, c ≠ ',' ∧ c ≠ e) → ∀ a ∈ w, ¬ (a = ',' ∨ a = e) := by
    rintro w hw a ha (rfl | rfl)
    · exact (hw _ ha).1 rfl
    · exact (hw _ ha).2 rfl
  -- the text of a nonempty line does not start with `e`
  have ne : ∀ {ws : List (List Char)} {t s : List Char}, (∀ w ∈ ws, w ≠ [] ∧ ∀ c ∈ w, c ≠ ',' ∧ c ≠ e) →
      commaList ws ++ e :: t = e :: s → ws = [] := by
    intro ws t s hw h
    cases ws with
    | nil => rfl
    | cons w ws =>
      obtain ⟨a, b⟩ := hw w (List.mem_cons_self ..)
      cases w with
      | nil => exact absurd rfl a
      | cons c w =>
        have : c = e := by
          cases ws with
          | nil => rw [commaList_one] at h; simp at h; exact h.1
          | cons v ws => rw [commaList_cons] at h; simp at h; exact h.1
        exact absurd this (b c (List.mem_cons_self ..)).2
  induction ws generalizing vs with
  | nil =>
    have := ne hv h.symm
    subst this
    simpa [commaList_nil] using h
  | cons w ws ih =>
    cases vs with
    | nil => have := ne hw h; cases this
    | cons v vs =>
      obtain ⟨-, w2⟩ := hw w (List.mem_cons_self ..)
      obtain ⟨-, v2⟩ := hv v (List.mem_cons_self ..)
      cases ws with
      | nil =>
        cases vs with
        | nil =>
          rw [commaList_one, commaList_one] at h
          obtain ⟨rfl, -, rfl⟩ := word_end (P := fun a => a = ',' ∨ a = e) (P1 w2) (P1 v2) (.inr rfl) (.inr rfl) h
          exact ⟨rfl, rfl⟩
        | cons u vs =>
          rw [commaList_one, commaList_cons, List.append_assoc] at h
          obtain ⟨-, d, -⟩ := word_end (P := fun a => a = ',' ∨ a = e) (P1 w2) (P1 v2) (.inr rfl) (.inl rfl) h
          exact absurd d he
      | cons u ws =>
        cases vs with
        | nil =>
          rw [commaList_one, commaList_cons, List.append_assoc] at h
          obtain ⟨-, d, -⟩ := word_end (P := fun a => a = ',' ∨ a = e) (P1 w2) (P1 v2) (.inl rfl) (.inr rfl) h
          exact absurd d.symm he
        | cons u' vs =>
          rw [commaList_cons, commaList_cons, List.append_assoc, List.append_assoc] at h
          obtain ⟨rfl, -, h⟩ := word_end (P := fun a => a = ',' ∨ a = e) (P1 w2) (P1 v2) (.inl rfl) (.inl rfl) h
          obtain ⟨e1, e2⟩ := ih (fun w hm => hw w (List.mem_cons_of_mem _ hm)) (fun w hm => hv w (List.mem_cons_of_mem _ hm))
            (List.cons.inj h).2
          exact ⟨by rw [e1], e2⟩

theorem setw6_inj {w v : List Char} (hw : ∀ c ∈ w, c ≠ ' ') (hv : ∀ c ∈ v, c ≠ ' ') (h : setw6 w = setw6 v) : w = v := by
  have f : ∀ {w : List Char}, (∀ c ∈ w, c ≠ ' ') → (setw6 w).filter (· ≠ ' ') = w := by
    intro w hw
    unfold setw6
    rw [List.filter_append, List.filter_eq_nil_iff.2, List.nil_append, List.filter_eq_self.2]
    · intro c hc; simpa using hw c hc
    · intro c hc; simp [(List.mem_replicate.1 hc).2]
  rw [← f hw, ← f hv, h]

theorem setw6_mem {w : List Char} {c : Char} (h : c ∈ setw6 w) : c = ' ' ∨ c ∈ w := by
  rcases List.mem_append.1 h with h | h
  · exact .inl (List.mem_replicate.1 h).2
  · exact .inr h

theorem setw6_ne {w : List Char} (h : w ≠ []) : setw6 w ≠ [] := by
  unfold setw6; simp [h]

theorem map_setw6_inj {R : Type} {sh : R → List Char} (hs : Words sh) {x y : List R}
    (h : (x.map fun a => setw6 (sh a)) = y.map fun a => setw6 (sh a)) : x = y :=
  List.map_injective_iff.2 (fun a b h => hs.inj (setw6_inj (fun c hc => (hs.plain a c hc).1) (fun c hc => (hs.plain b c hc).1) h)) h

theorem setw6_words {R : Type} {sh : R → List Char} (hs : Words sh) {e : Char} (h1 : e = ']' ∨ e = '\n') (x : List R) :
    ∀ w ∈ x.map (fun a => setw6 (sh a)), w ≠ [] ∧ ∀ c ∈ w, c ≠ ',' ∧ c ≠ e := by
  intro w hw
  obtain ⟨a, -, rfl⟩ := List.mem_map.1 hw
  refine ⟨setw6_ne (hs.ne a), fun c hc => ?_⟩
  rcases setw6_mem hc with rfl | hc
  · rcases h1 with rfl | rfl <;> decide
  · obtain ⟨-, b, c', -, d⟩ := hs.plain a c hc
    rcases h1 with rfl | rfl
    · exact ⟨b, c'⟩
    · exact ⟨b, d⟩

/-- A loop that prints elements with separators. -/
theorem print_loop {n : Nat} (v : Nat → List Char) {body : Nat → List Char → Outcome (List Char)} (init : List Char)
    (hb : ∀ i < n, ∀ os, body i os = .ok ((if i = 0 then os else os ++ [',', ' ']) ++ v i)) :
    forRange n body init = .ok (init ++ commaList ((List.range n).map v)) := by
  obtain ⟨s, e, i⟩ := forRange_inv (n := n) (body := body) (fun i os => os = init ++ commaList ((List.range i).map v))
    (by
      rintro i hi os rfl
      refine ⟨_, hb i hi _, ?_⟩
      rw [List.range_succ, List.map_append, List.map_singleton, commaList_snoc]
      by_cases c : i = 0
      · subst c; simp [commaList_nil]
      · rw [if_neg c, if_neg (by simpa using c)]; simp) (s := init) (by simp [commaList_nil])
  rw [e, i]

theorem map_range_getElem {α β : Type} (l : List α) (f : α → β) (d : α) :
    (List.range l.length).map (fun i => f (l.getD i d)) = l.map f := by
  apply List.ext_getElem
  · simp
  · intro i h1 h2
    have : i < l.length := by simpa using h2
    simp [this]

/-! ## Vectors and matrices -/

/-- C162: what is printed of a vector with less than ten elements. -/
theorem C162_show1_text {R : Type} (sh : R → List Char) {x : List R} (h : x.length < 10) :
    show1 sh x = .ok ('[' :: commaList (x.map fun a => setw6 (sh a)) ++ [']', '\n']) := by
  unfold show1
  rw [if_pos h]
  cases hx : x with
  | nil => rfl
  | cons d l =>
    rw [← hx, print_loop (fun i => setw6 (sh (x.getD i d))) ['['], map_range_getElem x (fun a => setw6 (sh a)) d]
    · rfl
    · intro i hi os
      have : rd x i = .ok (x.getD i d) := by unfold rd; simp [hi]
      rw [this]; rfl

/-- C162: vectors with less than ten elements print the same text exactly if they are equal. -/
theorem C162_show1 {R : Type} {sh : R → List Char} (hs : Words sh) {x y : List R} (hx : x.length < 10) (hy : y.length < 10) :
    show1 sh x = show1 sh y ↔ x = y := by
  rw [C162_show1_text sh hx, C162_show1_text sh hy]
  constructor
  · intro h
    have h := (List.cons.inj (Outcome.ok.inj h)).2
    exact map_setw6_inj hs (line_inj (e := ']') (by decide) (setw6_words hs (.inl rfl) x) (setw6_words hs (.inl rfl) y) h).1
  · rintro rfl; rfl

/-- C162: of longer vectors nothing at all is printed. -/
theorem C162_show1_silent {R : Type} (sh : R → List Char) {x : List R} (h : 10 ≤ x.length) : show1 sh x = .ok [] := by
  unfold show1
  rw [if_neg (by omega)]; rfl

/-- C162: what is printed of a matrix with less than a hundred elements: its shape, then a line for each row. -/
theorem C162_show2_text {R : Type} (shapeText : List Nat → List Char) (sh : R → List Char) {h w : Nat} (X : Nat → Nat → R)
    (hn : h * w < 100) :
    show2 shapeText sh h w ((List.range (h * w)).map fun p => X (p / w) (p % w)) =
      .ok (shapeText [h, w] ++ ['\n'] ++
        ((List.range h).flatMap fun i => commaList ((List.range w).map fun j => setw6 (sh (X i j))) ++ ['\n'])) := by
  unfold show2
  dsimp only
  rw [if_pos hn]
  generalize shapeText [h, w] ++ ['\n'] = init
  have inner : ∀ i < h, ∀ os : List Char, forRange w (fun j os => do
        let os := if j = 0 then os else os ++ [',', ' ']
        let a ← rd ((List.range (h * w)).map fun p => X (p / w) (p % w)) (offset [h, w] [i, j])
        return os ++ setw6 (sh a)) os = .ok (os ++ commaList ((List.range w).map fun j => setw6 (sh (X i j)))) := by
    intro i hi os
    refine print_loop (fun j => setw6 (sh (X i j))) os ?_
    intro j hj os
    have o : offset [h, w] [i, j] = w * i + j := by simp [offset, Nat.mul_comm]
    have lt : w * i + j < h * w := by
      calc w * i + j < w * i + w := by omega
        _ = w * (i + 1) := by ring
        _ ≤ w * h := Nat.mul_le_mul_left _ hi
        _ = h * w := Nat.mul_comm ..
    have : rd ((List.range (h * w)).map fun p => X (p / w) (p % w)) (offset [h, w] [i, j]) = .ok (X i j) := by
      rw [o]
      unfold rd
      rw [List.getElem?_map, List.getElem?_range lt, Option.map_some]
      dsimp only
      rw [Nat.mul_add_div (by omega), Nat.div_eq_of_lt hj, Nat.mul_add_mod, Nat.mod_eq_of_lt hj, Nat.add_zero]
    rw [this]; rfl
  obtain ⟨s, e, i⟩ := forRange_inv (n := h)
    (body := fun i os => do
      let os ← forRange w (fun j os => do
        let os := if j = 0 then os else os ++ [',', ' ']
        let a ← rd ((List.range (h * w)).map fun p => X (p / w) (p % w)) (offset [h, w] [i, j])
        return os ++ setw6 (sh a)) os
      return os ++ ['\n'])
    (fun k os => os = init ++ (List.range k).flatMap fun i => commaList ((List.range w).map fun j => setw6 (sh (X i j))) ++ ['\n'])
    (by
      rintro i hi os rfl
      rw [inner i hi]
      refine ⟨_, rfl, ?_⟩
      rw [List.range_succ, List.flatMap_append]
      simp) (s := init) (by simp)
  rw [e, i]

/-- C162: matrices of the same shape with less than a hundred elements print the same text exactly if they are equal. -/
theorem C162_show2 {R : Type} (shapeText : List Nat → List Char) {sh : R → List Char} (hs : Words sh) {h w : Nat}
    (X Y : Nat → Nat → R) (hn : h * w < 100) :
    show2 shapeText sh h w ((List.range (h * w)).map fun p => X (p / w) (p % w)) =
      show2 shapeText sh h w ((List.range (h * w)).map fun p => Y (p / w) (p % w)) ↔ ∀ i < h, ∀ j < w, X i j = Y i j := by
  rw [C162_show2_text shapeText sh X hn, C162_show2_text shapeText sh Y hn]
  constructor
  · intro e
    have e := List.append_cancel_left (Outcome.ok.inj e)
    have key : ∀ l : List Nat, (l.flatMap fun i => commaList ((List.range w).map fun j => setw6 (sh (X i j))) ++ ['\n']) =
        (l.flatMap fun i => commaList ((List.range w).map fun j => setw6 (sh (Y i j))) ++ ['\n']) →
        ∀ i ∈ l, ∀ j < w, X i j = Y i j := by
      intro l
      induction l with
      | nil => intro _ i hi; cases hi
      | cons a l ih =>
        intro e
        rw [List.flatMap_cons, List.flatMap_cons, List.append_assoc, List.append_assoc] at e
        have m : ∀ Z : Nat → Nat → R, ((List.range w).map fun j => setw6 (sh (Z a j))) =
            ((List.range w).map (Z a)).map fun b => setw6 (sh b) := fun Z => by rw [List.map_map]; rfl
        rw [m X, m Y] at e
        obtain ⟨e1, e2⟩ := line_inj (e := '\n') (by decide) (setw6_words hs (.inr rfl) _) (setw6_words hs (.inr rfl) _) e
        have e1 := map_setw6_inj hs e1
        intro i hi j hj
        rcases List.mem_cons.1 hi with rfl | hi
        · exact List.map_inj_left.1 e1 j (List.mem_range.2 hj)
        · exact ih e2 i hi j hj
    exact fun i hi => key _ e i (List.mem_range.2 hi)
  · intro e
    refine congrArg _ (congrArg _ ?_)
    refine List.flatMap_congr fun i hi => ?_
    rw [List.map_congr_left fun j hj => by rw [e i (List.mem_range.1 hi) j (List.mem_range.1 hj)]]

/-- C162: of larger matrices only the shape is printed. -/
theorem C162_show2_shape {R : Type} (shapeText : List Nat → List Char) (sh : R → List Char) {h w : Nat} (x : List R)
    (hn : 100 ≤ h * w) : show2 shapeText sh h w x = .ok (shapeText [h, w] ++ ['\n']) := by
  unfold show2
  dsimp only
  rw [if_neg (by omega)]; rfl

/-- C162: of tensors of other ranks only the shape is printed. -/
theorem C162_showN {R : Type} {shapeText : List Nat → List Char} (hs : Function.Injective shapeText) (x y : Tensor R) :
    showN shapeText x = showN shapeText y ↔ x.dims = y.dims :=
  ⟨fun h => hs (List.append_cancel_right h), fun h => by unfold showN; rw [h]⟩

/-! ## `show_tensor` -/

/-- C162: `show_tensor` prints the integral parts of all elements. -/
theorem C162_show_tensor_text {R : Type} (shapeText : List Nat → List Char) {toInt : R → Outcome Int} (f : R → Int)
    (name : List Char) {x : Tensor R} (hx : x.data.length = x.dims.prod) (hf : ∀ a ∈ x.data, toInt a = .ok (f a)) :
    showTensor shapeText toInt name x =
      .ok (name ++ [' ', ':', ':', ' '] ++ shapeText x.dims ++ ['\n'] ++ [' ', ' ', 'd', 'a', 't', 'a', ':', ' ', '{'] ++
        commaList (x.data.map fun a => decimal (f a)) ++ ['}', '\n']) := by
  unfold showTensor
  dsimp only
  generalize name ++ [' ', ':', ':', ' '] ++ shapeText x.dims ++ ['\n'] ++ [' ', ' ', 'd', 'a', 't', 'a', ':', ' ', '{'] = init
  rw [← hx]
  cases hd : x.data with
  | nil => simp [forRange_zero, commaList_nil]
  | cons d l =>
    rw [← hd, print_loop (fun i => decimal (f (x.data.getD i d))) init, map_range_getElem x.data (fun a => decimal (f a)) d]
    · rfl
    · intro i hi os
      have g : x.data.getD i d = x.data[i] := by simp [hi]
      have : rd x.data i = .ok (x.data.getD i d) := by unfold rd; simp [hi]
      rw [this, g]
      show (toInt _ >>= _) = _
      rw [hf _ (List.getElem_mem hi)]
      show Outcome.ok _ = _
      by_cases c : i = 0
      · subst c; rfl
      · rw [if_pos (by omega), if_neg c]

/-- C162: tensors of integers of type `int` and the same shape print the same text under the same name exactly if they are
equal, of whatever length. -/
theorem C162_show_tensor_int (shapeText : List Nat → List Char) (name : List Char) {x y : Tensor Int}
    (hx : x.data.length = x.dims.prod) (hy : y.data.length = y.dims.prod) (hd : x.dims = y.dims) :
    showTensor shapeText .ok name x = showTensor shapeText .ok name y ↔ x = y := by
  rw [C162_show_tensor_text (toInt := .ok) shapeText id name hx fun _ _ => rfl,
    C162_show_tensor_text (toInt := .ok) shapeText id name hy fun _ _ => rfl, hd]
  constructor
  · intro h
    have h := Outcome.ok.inj h
    simp only [List.append_assoc] at h
    simp only [List.append_cancel_left_eq] at h
    have wd : ∀ l : List Int, ∀ w ∈ l.map (fun a => decimal (id a)), w ≠ [] ∧ ∀ c ∈ w, c ≠ ',' ∧ c ≠ '}' := by
      intro l w hw
      obtain ⟨a, -, rfl⟩ := List.mem_map.1 hw
      refine ⟨decimal_words.ne a, fun c hc => ?_⟩
      obtain ⟨-, b, -, d, -⟩ := decimal_words.plain a c hc
      exact ⟨b, d⟩
    have := (line_inj (e := '}') (by decide) (wd x.data) (wd y.data) h).1
    have := List.map_injective_iff.2 (fun a b h => decimal_words.inj h) this
    cases x; cases y
    simp only at hd this
    rw [hd, this]
  · rintro rfl; rfl

/-- C162: tensors of a floating type whose elements have the same integral parts print the same text. -/
theorem C162_show_tensor_float {A : Spec.Arith} (shapeText : List Nat → List Char) (name : List Char)
    {x y : Tensor (Spec.Ieee A)} (hx : x.data.length = x.dims.prod) (hy : y.data.length = y.dims.prod) (hd : x.dims = y.dims)
    (h : List.Forall₂ (fun a b => ∃ n, NumConv.toInt i32 a = .ok n ∧ NumConv.toInt i32 b = .ok n) x.data y.data) :
    showTensor shapeText (NumConv.toInt i32) name x = showTensor shapeText (NumConv.toInt i32) name y := by
  let f : Spec.Ieee A → Int := fun a => match NumConv.toInt i32 a with
    | .ok n => n
    | _ => 0
  have fx : ∀ a n, NumConv.toInt i32 a = .ok n → f a = n := fun a n e => by simp only [f, e]
  have hm : x.data.map f = y.data.map f := by
    clear hx hy
    generalize x.data = p, y.data = q at h
    induction h with
    | nil => rfl
    | cons hab _ ih =>
      obtain ⟨n, a, b⟩ := hab
      rw [List.map_cons, List.map_cons, fx _ n a, fx _ n b, ih]
  have ok : (∀ a ∈ x.data, NumConv.toInt i32 a = .ok (f a)) ∧ (∀ a ∈ y.data, NumConv.toInt i32 a = .ok (f a)) := by
    clear hm hx hy
    generalize x.data = p, y.data = q at h
    induction h with
    | nil => exact ⟨fun _ h => (by cases h), fun _ h => (by cases h)⟩
    | cons hab _ ih =>
      obtain ⟨n, a, b⟩ := hab
      constructor
      · intro c hc
        rcases List.mem_cons.1 hc with rfl | hc
        · rw [fx _ n a]; exact a
        · exact ih.1 c hc
      · intro c hc
        rcases List.mem_cons.1 hc with rfl | hc
        · rw [fx _ n b]; exact b
        · exact ih.2 c hc
  rw [C162_show_tensor_text shapeText f name hx ok.1, C162_show_tensor_text shapeText f name hy ok.2, hd]
  have e : ∀ l : List (Spec.Ieee A), (l.map fun a => decimal (f a)) = (l.map f).map decimal := fun l => by
    rw [List.map_map]; rfl
  rw [e, e, hm]

/-- A loop that goes wrong at one of its steps. -/
theorem forRange_stop {σ : Type} {n k : Nat} (hk : k < n) {body : Nat → σ → Outcome σ} {s : σ}
    (hb : ∀ i < k, ∀ s, ∃ s', body i s = .ok s') (hu : ∀ s, body k s = .ub) : forRange n body s = .ub := by
  obtain ⟨m, rfl⟩ : ∃ m, n = k + 1 + m := ⟨n - (k + 1), by omega⟩
  clear hk
  induction m with
  | zero =>
    obtain ⟨t, e, -⟩ := forRange_inv (n := k) (body := body) (fun _ _ => True)
      (fun i hi s _ => (hb i hi s).imp fun _ h => ⟨h, trivial⟩) (s := s) trivial
    rw [Nat.add_zero, forRange_succ, e]
    exact hu t
  | succ m ih => rw [← Nat.add_assoc, forRange_succ, ih]; rfl

/-- C162: one element that has no value of type `int` makes printing undefined. -/
theorem C162_show_tensor_undefined {R : Type} (shapeText : List Nat → List Char) {toInt : R → Outcome Int} (f : R → Int)
    (name : List Char) {d : List Nat} {l r : List R} {a : R} (hx : (l ++ a :: r).length = d.prod)
    (hf : ∀ a ∈ l, toInt a = .ok (f a)) (ha : toInt a = .ub) :
    showTensor shapeText toInt name ⟨d, l ++ a :: r⟩ = .ub := by
  unfold showTensor
  dsimp only
  generalize name ++ [' ', ':', ':', ' '] ++ shapeText d ++ ['\n'] ++ [' ', ' ', 'd', 'a', 't', 'a', ':', ' ', '{'] = init
  have n : d.prod = l.length + (r.length + 1) := by rw [← hx]; simp
  rw [n]
  have dat : ∀ i (hi : i < l.length), rd (l ++ a :: r) i = .ok l[i] := by
    intro i hi
    unfold rd
    rw [List.getElem?_append_left hi, List.getElem?_eq_getElem hi]
  rw [forRange_stop (k := l.length) (by omega)]
  · rfl
  · intro i hi os
    rw [dat i hi]
    refine ⟨(if 0 < i then os ++ [',', ' '] else os) ++ decimal (f l[i]), ?_⟩
    show (toInt _ >>= _) = _
    rw [hf _ (List.getElem_mem hi)]; rfl
  · intro os
    have : rd (l ++ a :: r) l.length = .ok a := by unfold rd; simp
    rw [this]
    show (toInt _ >>= _) = _
    rw [ha]; rfl

/-! ## Benchmarks -/

/-- C162: scalar types have the same name exactly if both are floating or both are integers of the same sign, and the sizes
agree. -/
theorem C162_type_name (s t : Scalar) :
    typeName s = typeName t ↔ s.floating = t.floating ∧ (s.floating = false → s.signed = t.signed) ∧ s.size = t.size := by
  unfold typeName
  constructor
  · intro h
    have hd : ∀ {p q : Char} {a b : Int}, [p] ++ decimal a = [q] ++ decimal b → p = q ∧ a = b := by
      intro p q a b h
      obtain ⟨h1, h2⟩ := List.cons.inj h
      exact ⟨h1, decimal_words.inj h2⟩
    have e : (if s.floating then ['f'] else if s.signed then ['i'] else ['u']) =
        [if s.floating then 'f' else if s.signed then 'i' else 'u'] := by split_ifs <;> rfl
    have e' : (if t.floating then ['f'] else if t.signed then ['i'] else ['u']) =
        [if t.floating then 'f' else if t.signed then 'i' else 'u'] := by split_ifs <;> rfl
    rw [e, e'] at h
    obtain ⟨h1, h2⟩ := hd h
    refine ⟨?_, ?_, by omega⟩
    · cases hs : s.floating <;> cases ht : t.floating <;> simp [hs, ht] at h1 ⊢ <;> split_ifs at h1 <;> cases h1
    · intro hs
      cases ht : t.floating <;> cases h3 : s.signed <;> cases h4 : t.signed <;> simp_all
  · rintro ⟨h1, h2, h3⟩
    rw [h3, ← h1]
    cases hs : s.floating
    · rw [h2 hs]
    · rfl

/-- C162: the data size is the number of bytes of the output and all inputs, if that is below 2⁶⁴. -/
theorem C162_data_size {w : Nat} {y : List Nat} {xs : List (List Nat)} (h : w * (y.prod + (xs.map List.prod).sum) < 2 ^ 64) :
    dataSize w y xs = w * (y.prod + (xs.map List.prod).sum) := by
  have key : ∀ (l : List (List Nat)) (a : Nat), a + w * (l.map List.prod).sum < 2 ^ 64 →
      (l.map fun d => w * d.prod).foldl (fun a b => (a + b) % 2 ^ 64) a = a + w * (l.map List.prod).sum := by
    intro l
    induction l with
    | nil => intro a _; simp
    | cons d l ih =>
      intro a ha
      rw [List.map_cons, List.sum_cons, Nat.mul_add] at ha
      rw [List.map_cons, List.foldl_cons, Nat.mod_eq_of_lt (by omega), ih _ (by omega), List.map_cons, List.sum_cons]
      ring
  unfold dataSize
  rw [Nat.mul_add] at h
  rw [key xs 0 (by omega), Nat.zero_add, Nat.mod_eq_of_lt h, Nat.mul_add]

/-- C162: the printed size is the size exactly if it is below 2 GiB. -/
theorem C162_printed_size {ds : Nat} (h : ds < 2 ^ 64) : printedSize ds = ds ↔ ds < 2 ^ 31 := by
  unfold printedSize IntTy.conv
  rw [if_pos (show i32.signed = true from rfl), show (2 : Nat) ^ i32.bits = 4294967296 by decide, Int.bmod_def]
  constructor
  · intro e; by_contra c; split_ifs at e <;> omega
  · intro c; split_ifs <;> omega

/-! ## Examples -/

example : decimal (-120) = ['-', '1', '2', '0'] ∧ readInt ['-', '1', '2', '0'] = -120 := by
  refine ⟨?_, by decide⟩
  simp [decimal]

example : show1 decimal [7, -12] = .ok "[     7,    -12]\n".toList := by
  rw [C162_show1_text decimal (by decide)]
  simp [commaList, decimal, setw6, List.intercalate]

example : show1 decimal [7, -12] ≠ show1 decimal [7, 12] := fun h =>
  absurd ((C162_show1 decimal_words (by decide) (by decide)).1 h) (by decide)

/-- Two vectors of ten elements look the same: nothing is printed. -/
example : show1 decimal [0, 0, 0, 0, 0, 0, 0, 0, 0, 0] = show1 decimal [1, 2, 3, 4, 5, 6, 7, 8, 9, 10] := by
  rw [C162_show1_silent _ (by decide), C162_show1_silent _ (by decide)]

example (shapeText : List Nat → List Char) : show2 shapeText decimal 2 2 [1, 2, 3, 4] =
    .ok (shapeText [2, 2] ++ ['\n'] ++ "     1,      2\n     3,      4\n".toList) := by
  have := C162_show2_text shapeText decimal (h := 2) (w := 2) (fun i j => (2 * i + j + 1 : Nat)) (by decide)
  refine Eq.trans ?_ (this.trans ?_)
  · rfl
  · simp [commaList, decimal, setw6, List.intercalate, List.range_succ]

example (shapeText : List Nat → List Char) :
    show2 shapeText decimal 2 3 ((List.range 6).map fun p => ((p / 3 : Nat) : Int)) ≠
      show2 shapeText decimal 2 3 ((List.range 6).map fun p => ((p % 3 : Nat) : Int)) := fun h =>
  absurd ((C162_show2 shapeText decimal_words (h := 2) (w := 3) (fun i _ => (i : Int)) (fun _ j => (j : Int)) (by decide)).1 h
    0 (by decide) 1 (by decide)) (by decide)

example (shapeText : List Nat → List Char) (x y : List Int) :
    show2 shapeText decimal 10 10 x = show2 shapeText decimal 10 10 y := by
  rw [C162_show2_shape _ _ x (by decide), C162_show2_shape _ _ y (by decide)]

example : showN (fun d => d.flatMap fun n => List.replicate n 'I' ++ [',']) (⟨[1, 1, 2], [3, 4]⟩ : Tensor Int) =
    "I,I,II,\n".toList := by decide

example (shapeText : List Nat → List Char) : showTensor shapeText .ok ['x'] ⟨[3], [1, -1, 20]⟩ =
    .ok ("x :: ".toList ++ shapeText [3] ++ ['\n'] ++ "  data: {1, -1, 20}\n".toList) := by
  rw [C162_show_tensor_text (toInt := .ok) shapeText id ['x'] rfl fun _ _ => rfl]
  simp [commaList, decimal, List.intercalate]

example (shapeText : List Nat → List Char) : showTensor shapeText .ok ['x'] ⟨[2], [1, 12]⟩ ≠
    showTensor shapeText .ok ['x'] ⟨[2], [11, 2]⟩ := fun h =>
  absurd (congrArg Tensor.data ((C162_show_tensor_int shapeText ['x'] (x := ⟨[2], [1, 12]⟩) (y := ⟨[2], [11, 2]⟩)
    rfl rfl rfl).1 h)) (by decide)

/-- 1/4 and 3/4 look the same. -/
example (shapeText : List Nat → List Char) (bz : EReal → Option EReal) :
    showTensor shapeText (NumConv.toInt i32) ['x'] ⟨[1], [Spec.Format.fin Spec.Format.binary32 bz (1 / 4)]⟩ =
      showTensor shapeText (NumConv.toInt i32) ['x'] ⟨[1], [Spec.Format.fin Spec.Format.binary32 bz (3 / 4)]⟩ := by
  refine C162_show_tensor_float shapeText ['x'] rfl rfl rfl (.cons ⟨0, ?_, ?_⟩ .nil)
  · exact ((C159_float_int i32 _).1 0).2 ⟨by decide, by norm_num, by norm_num⟩
  · exact ((C159_float_int i32 _).1 0).2 ⟨by decide, by norm_num, by norm_num⟩

example (shapeText : List Nat → List Char) {A : Spec.Arith} :
    showTensor shapeText (NumConv.toInt i32) ['x'] ⟨[2], [(.nan : Spec.Ieee A), .nan]⟩ = .ub :=
  C162_show_tensor_undefined shapeText (fun _ => 0) ['x'] (l := []) (a := Spec.Ieee.nan) (r := [Spec.Ieee.nan]) rfl (fun _ h => by cases h) rfl

example : typeName ⟨true, true, 4⟩ = ['f', '3', '2'] ∧ typeName ⟨true, true, 4⟩ ≠ typeName ⟨false, true, 4⟩ := by
  refine ⟨by simp [typeName, decimal], fun h => absurd ((C162_type_name _ _).1 h).1 (by decide)⟩

/-- Two tensors of a GiB each: the size is right, its printed form negative. -/
example : dataSize 4 [1024, 1024, 256] [[1024, 1024, 256]] = 2 ^ 31 ∧ printedSize (2 ^ 31) ≠ (2 ^ 31 : Nat) :=
  ⟨(C162_data_size (by decide)).trans (by decide), fun h => absurd ((C162_printed_size (by decide)).1 h) (by decide)⟩

end StdNN
