import Verif.Lemmas.IntTy
import Verif.Model.Testing
import Verif.Lemmas.Tensor
import Mathlib.Data.List.Lex
import Mathlib.Data.List.TakeWhile
import Mathlib.Data.List.Permutation
import Mathlib.Data.Finset.Dedup
import Mathlib.Data.Finset.Card
/-!
# C155: the helpers of the tests
-/
namespace StdNN
open Outcome IntTy Testing List

/-! ## All orders of the arguments -/

theorem cons_lt_iff {x y : Int} {l m : List Int} : x :: l < y :: m ↔ x < y ∨ x = y ∧ l < m := List.cons_lt_cons_iff

/-- An increasing list is the least of its rearrangements. -/
theorem least_of_sorted {l c : List Int} (h : l.Pairwise (· ≤ ·)) (hc : c ~ l) : l ≤ c := by
  induction l generalizing c with
  | nil => rw [hc.eq_nil]
  | cons x l ih =>
    match c, hc with
    | [], hc => exact absurd hc.length_eq (by simp)
    | z :: c, hc =>
      refine not_lt.1 fun hlt => ?_
      rw [List.pairwise_cons] at h
      have hz : x ≤ z := by
        rcases List.mem_cons.1 (hc.subset List.mem_cons_self) with e | e
        · exact e.ge
        · exact h.1 z e
      rcases cons_lt_iff.1 hlt with h1 | ⟨rfl, h1⟩
      · omega
      · exact absurd h1 (not_lt.2 (ih h.2 ((List.perm_cons _).1 hc)))

/-- A decreasing list is the greatest of its rearrangements. -/
theorem greatest_of_sorted {l c : List Int} (h : l.Pairwise (· ≥ ·)) (hc : c ~ l) : c ≤ l := by
  induction l generalizing c with
  | nil => rw [hc.eq_nil]
  | cons x l ih =>
    match c, hc with
    | [], hc => exact absurd hc.length_eq (by simp)
    | z :: c, hc =>
      refine not_lt.1 fun hlt => ?_
      rw [List.pairwise_cons] at h
      have hz : z ≤ x := by
        rcases List.mem_cons.1 (hc.subset List.mem_cons_self) with e | e
        · exact e.le
        · exact h.1 z e
      rcases cons_lt_iff.1 hlt with h1 | ⟨rfl, h1⟩
      · omega
      · exact absurd h1 (not_lt.2 (ih h.2 ((List.perm_cons _).1 hc)))

/-- What `pivot` does: the elements behind the exchanged one are not greater than `x`. -/
theorem pivot_cases (x : Int) (l : List Int) :
    pivot x l = none ∧ (∀ y ∈ l, y ≤ x) ∨
    ∃ p y s, l = p ++ y :: s ∧ x < y ∧ (∀ z ∈ s, z ≤ x) ∧ pivot x l = some (y :: (p ++ x :: s).reverse) := by
  have e := List.takeWhile_append_dropWhile (p := fun y => decide (y ≤ x)) (l := l.reverse)
  have ht : ∀ z ∈ l.reverse.takeWhile (fun y => decide (y ≤ x)), z ≤ x := fun z hz => by simpa using List.mem_takeWhile_imp hz
  unfold pivot
  rcases hd : l.reverse.dropWhile (fun y => decide (y ≤ x)) with _ | ⟨y, p⟩
  · left
    refine ⟨rfl, fun y hy => ht y ?_⟩
    rw [hd, List.append_nil] at e
    rw [e]
    exact List.mem_reverse.2 hy
  · right
    have hy : ¬ (decide (y ≤ x)) = true := by
      have := List.head_dropWhile_not (l := l.reverse) (fun y => decide (y ≤ x)) (by rw [hd]; exact List.cons_ne_nil _ _)
      simpa [hd] using this
    refine ⟨p.reverse, y, (l.reverse.takeWhile fun y => decide (y ≤ x)).reverse, ?_, by simpa using hy, fun z hz =>
      ht z (List.mem_reverse.1 hz), ?_⟩
    · rw [hd] at e
      have := congrArg List.reverse e
      simpa using this.symm
    · simp

/-- There is no next order exactly if the list decreases. -/
theorem next_none {l : List Int} : nextPermutation l = none ↔ l.Pairwise (· ≥ ·) := by
  induction l with
  | nil => simp [nextPermutation]
  | cons x l ih =>
    rw [nextPermutation, List.pairwise_cons]
    rcases h : nextPermutation l with _ | l'
    · dsimp only
      rcases pivot_cases x l with ⟨e, h'⟩ | ⟨p, y, s, rfl, hy, -, e⟩
      · exact ⟨fun _ => ⟨h', ih.1 h⟩, fun _ => e⟩
      · rw [e]
        refine ⟨fun c => by simp at c, fun c => absurd (c.1 y (by simp)) (by simp; omega)⟩
    · dsimp only
      refine ⟨fun c => by simp at c, fun c => ?_⟩
      rw [ih.2 c.2] at h
      cases h

/-- C155: `std::next_permutation` as modelled gives the next rearrangement in lexicographic order. -/
theorem C155_next {l b : List Int} (h : nextPermutation l = some b) : b ~ l ∧ l < b ∧ ∀ c, c ~ l → l < c → b ≤ c := by
  induction l generalizing b with
  | nil => simp [nextPermutation] at h
  | cons x l ih =>
    rw [nextPermutation] at h
    rcases hn : nextPermutation l with _ | l'
    · rw [hn] at h
      dsimp only at h
      have hd := next_none.1 hn
      rcases pivot_cases x l with ⟨e, -⟩ | ⟨p, y, s, rfl, hy, hs, e⟩
      · rw [e] at h
        cases h
      · rw [e] at h
        obtain rfl := Option.some.inj h
        have perm : y :: (p ++ x :: s).reverse ~ x :: (p ++ y :: s) := by
          refine ((List.reverse_perm _).cons y).trans ?_
          refine (List.Perm.cons y List.perm_middle).trans ?_
          refine (List.Perm.swap x y _).trans ?_
          exact List.Perm.cons x List.perm_middle.symm
        refine ⟨perm, cons_lt_iff.2 (.inl hy), fun c hc hlt => ?_⟩
        match c, hc with
        | [], hc => exact absurd hc.length_eq (by simp)
        | z :: c, hc =>
          rcases cons_lt_iff.1 hlt with h1 | ⟨rfl, h1⟩
          · have hz : y ≤ z := by
              rcases List.mem_cons.1 (hc.subset List.mem_cons_self) with e | e
              · omega
              · rcases List.mem_append.1 e with e | e
                · exact (List.pairwise_append.1 hd).2.2 z e y List.mem_cons_self
                · rcases List.mem_cons.1 e with e | e
                  · exact e.ge
                  · have := hs z e
                    omega
            rcases hz.lt_or_eq with h2 | rfl
            · exact (cons_lt_iff.2 (.inl h2)).le
            · refine List.cons_le_cons _ (least_of_sorted ?_ ?_)
              · rw [List.pairwise_reverse, List.pairwise_append, List.pairwise_cons]
                rw [List.pairwise_append, List.pairwise_cons] at hd
                refine ⟨hd.1, ⟨hs, hd.2.1.2⟩, fun a ha b hb => ?_⟩
                rcases List.mem_cons.1 hb with rfl | hb
                · exact hy.le.trans (hd.2.2 a ha y List.mem_cons_self)
                · exact hd.2.2 a ha b (List.mem_cons_of_mem _ hb)
              · refine (List.perm_cons y).1 (hc.trans perm.symm)
          · exact absurd h1 (not_lt.2 (greatest_of_sorted hd ((List.perm_cons x).1 hc)))
    · rw [hn] at h
      obtain rfl := Option.some.inj h
      obtain ⟨h1, h2, h3⟩ := ih hn
      refine ⟨h1.cons x, cons_lt_iff.2 (.inr ⟨rfl, h2⟩), fun c hc hlt => ?_⟩
      match c, hc with
      | [], hc => exact absurd hc.length_eq (by simp)
      | z :: c, hc =>
        rcases cons_lt_iff.1 hlt with h4 | ⟨rfl, h4⟩
        · exact (cons_lt_iff.2 (.inl h4)).le
        · exact List.cons_le_cons _ (h3 c ((List.perm_cons x).1 hc) h4)

theorem loop_from {l : List Int} (n : Nat) : ∀ a, a ~ l → (l.permutations.toFinset.filter (a < ·)).card ≤ n →
    ∃ vs, Loop a vs ∧ vs.Pairwise (· < ·) ∧ ∀ c, c ∈ vs ↔ c ~ l ∧ a ≤ c := by
  induction n with
  | zero =>
    intro a ha h
    have none : nextPermutation a = none := by
      rcases hn : nextPermutation a with _ | b
      · rfl
      · obtain ⟨h1, h2, -⟩ := C155_next hn
        have : b ∈ l.permutations.toFinset.filter (a < ·) := by
          simp [h1.trans ha, h2]
        rw [Finset.card_eq_zero.1 (Nat.le_zero.1 h)] at this
        simp at this
    refine ⟨[a], .stop none, List.pairwise_singleton _ _, fun c => ?_⟩
    rw [List.mem_singleton]
    refine ⟨?_, fun ⟨h1, h2⟩ => le_antisymm (greatest_of_sorted (next_none.1 none) (h1.trans ha.symm)) h2⟩
    rintro rfl
    exact ⟨ha, le_rfl⟩
  | succ n ih =>
    intro a ha h
    rcases hn : nextPermutation a with _ | b
    · refine ⟨[a], .stop hn, List.pairwise_singleton _ _, fun c => ?_⟩
      rw [List.mem_singleton]
      refine ⟨?_, fun ⟨h1, h2⟩ => le_antisymm (greatest_of_sorted (next_none.1 hn) (h1.trans ha.symm)) h2⟩
      rintro rfl
      exact ⟨ha, le_rfl⟩
    · obtain ⟨h1, h2, h3⟩ := C155_next hn
      obtain ⟨vs, v1, v2, v3⟩ := ih b (h1.trans ha) (by
        have : l.permutations.toFinset.filter (b < ·) ⊂ l.permutations.toFinset.filter (a < ·) := by
          refine Finset.ssubset_iff_of_subset (fun c hc => ?_) |>.2 ⟨b, ?_, ?_⟩
          · rw [Finset.mem_filter] at hc ⊢
            exact ⟨hc.1, h2.trans hc.2⟩
          · simp [h1.trans ha, h2]
          · simp
        have := Finset.card_lt_card this
        omega)
      refine ⟨a :: vs, .step hn v1, List.pairwise_cons.2 ⟨fun c hc => h2.trans_le ((v3 c).1 hc).2, v2⟩, fun c => ?_⟩
      rw [List.mem_cons, v3]
      constructor
      · rintro (rfl | ⟨c1, c2⟩)
        · exact ⟨ha, le_rfl⟩
        · exact ⟨c1, h2.le.trans c2⟩
      · rintro ⟨c1, c2⟩
        rcases c2.eq_or_lt with rfl | c2
        · exact .inl rfl
        · exact .inr ⟨c1, h3 c (c1.trans ha.symm) c2⟩

theorem loop_unique {a : List Int} {vs ws : List (List Int)} (h : Loop a vs) (h' : Loop a ws) : vs = ws := by
  induction h generalizing ws with
  | stop e =>
    cases h' with
    | stop => rfl
    | step e' => rw [e] at e'; cases e'
  | step e _ ih =>
    cases h' with
    | stop e' => rw [e] at e'; cases e'
    | step e' h' =>
      rw [e] at e'
      obtain rfl := Option.some.inj e'
      rw [ih h']

/-- C155: `test_all_permutations` ends; it has called the test once for every order of the arguments, and returns the number of
these. -/
theorem C155_permutations (l : List Int) : ∃ calls, TestAllPermutations l calls calls.length ∧ calls.Pairwise (· < ·) ∧
    (∀ c, c ∈ calls ↔ c ~ l) ∧ ∀ calls' p, TestAllPermutations l calls' p → calls' = calls ∧ p = calls.length := by
  have hp := List.perm_insertionSort (· ≤ ·) l
  obtain ⟨vs, v1, v2, v3⟩ := loop_from _ _ hp le_rfl
  refine ⟨vs, ⟨v1, rfl⟩, v2, fun c => ?_, fun calls' p h => ?_⟩
  · rw [v3]
    exact ⟨fun h => h.1, fun h => ⟨h, least_of_sorted (List.pairwise_insertionSort _ _) (h.trans hp.symm)⟩⟩
  · obtain rfl := loop_unique h.1 v1
    exact ⟨rfl, h.2⟩

/-- C155: for different arguments these are `n!`. -/
theorem C155_factorial {l : List Int} (hl : l.Nodup) {calls : List (List Int)} {p : Nat} (h : TestAllPermutations l calls p) :
    p = l.length.factorial := by
  obtain ⟨vs, -, v2, v3, v4⟩ := C155_permutations l
  obtain ⟨rfl, rfl⟩ := v4 _ _ h
  have : calls ~ l.permutations := (List.perm_ext_iff_of_nodup (v2.imp fun h => h.ne) (List.nodup_permutations l hl)).2 fun c => by
    rw [v3, List.mem_permutations]
  rw [this.length_eq, List.length_permutations]

/-! ## Test data -/

theorem digit_step {s : Int} (h : 0 ≤ s) (h2 : s < 2 ^ 31 - 7) :
    i32.add s 7 = .ok (s + 7) ∧ i32.mod (s + 7) 10 = .ok ((s + 7) % 10) := by
  have In' : ∀ {v : Int}, 0 ≤ v → v < 2 ^ 31 → i32.In v := fun h h' => by
    unfold In lo hi i32
    simp
    omega
  refine ⟨add_eq i32_std (In' h (by omega)) (In' (by norm_num) (by norm_num)) (In' (by omega) (by omega)), ?_⟩
  unfold mod
  rw [conv_eq i32_std (In' (v := 10) (by norm_num) (by norm_num)), conv_eq i32_std (In' (v := s + 7) (by omega) (by omega)),
    if_neg (by norm_num), Int.tdiv_eq_ediv_of_nonneg (by omega), Int.tmod_eq_emod_of_nonneg (by omega),
    if_pos (In' (by omega) (by omega))]

/-- C155: `gen_test_tensor` from a seed that is not negative stores `(s + 7 (i + 1)) mod 10` in element `i` and leaves the last
one as the seed. -/
theorem C155_generate {R : Type} (cast : Int → R) (x : List R) {s : Int} (h : 0 ≤ s) (h2 : s < 2 ^ 31 - 7) :
    genTestTensor cast x s = .ok ((List.range x.length).map fun i : Nat => cast ((s + 7 * (i + 1)) % 10),
      if x.length = 0 then s else (s + 7 * x.length) % 10) := by
  have key : ∀ n ≤ x.length, forRange n (fun i (st : List R × Int) => do
      let a ← i32.add st.2 7
      let s ← i32.mod a 10
      let x ← wr st.1 i (cast s)
      return (x, s)) (x, s) = .ok (((List.range n).map fun i : Nat => cast ((s + 7 * (i + 1)) % 10)) ++ x.drop n,
        if n = 0 then s else (s + 7 * n) % 10) := by
    intro n hn
    induction n with
    | zero => simp [forRange_zero]
    | succ n ih =>
      rw [forRange_succ, ih (by omega), Outcome.ok_bind]
      have hs : 0 ≤ (if n = 0 then s else (s + 7 * n) % 10) ∧ (if n = 0 then s else (s + 7 * n) % 10) < 2 ^ 31 - 7 := by
        split <;> omega
      dsimp only
      rw [(digit_step hs.1 hs.2).1, Outcome.ok_bind, (digit_step hs.1 hs.2).2, Outcome.ok_bind]
      have e : ((if n = 0 then s else (s + 7 * n) % 10) + 7) % 10 = (s + 7 * (n + 1)) % 10 := by
        split
        · next h => subst h; norm_num
        · omega
      rw [e]
      unfold wr
      rw [if_pos (by simp; omega), Outcome.ok_bind, if_neg (by omega)]
      refine congrArg Outcome.ok (Prod.ext ?_ (by push_cast; rfl))
      dsimp only
      rw [List.range_succ, List.map_append, List.map_singleton, List.append_assoc,
        List.set_append_right _ _ (by simp), List.length_map, List.length_range, Nat.sub_self, List.drop_eq_getElem_cons (by omega),
        List.set_cons_zero, List.singleton_append]
  have := key _ le_rfl
  rw [List.drop_length, List.append_nil] at this
  exact this

/-- C155: any ten consecutive elements are the digits 0 to 9 in some order. -/
theorem C155_digits (s : Int) (i : Nat) :
    ((List.range 10).map fun k : Nat => (s + 7 * ((i + k : Nat) + 1)) % 10) ~ (List.range 10).map fun k : Nat => (k : Int) := by
  have : ∀ r : Fin 10, ((List.range 10).map fun k : Nat => ((r : Int) + 7 * (k : Nat)) % 10) ~ (List.range 10).map fun k : Nat => (k : Int) := by
    decide
  have e : ∀ k : Nat, (s + 7 * ((i + k : Nat) + 1)) % 10 = ((((s + 7 * (i + 1)) % 10).toNat : Int) + 7 * (k : Nat)) % 10 := fun k => by
    rw [Int.toNat_of_nonneg (by omega)]
    push_cast
    omega
  simp only [e]
  exact this ⟨((s + 7 * (i + 1)) % 10).toNat, by omega⟩

/-! ## Permutations -/

theorem conv_nat {t : IntTy} (ht : 1 ≤ t.bits) {v : Int} (h : t.In v) : t.conv v = v := by
  have h2 := two_pow_split ht
  unfold In lo hi at h
  unfold conv
  by_cases hs : t.signed
  · simp only [hs, if_true] at h ⊢
    have hp : (0 : Int) < 2 ^ (t.bits - 1) := Int.pow_pos (by decide)
    rw [Int.bmod_eq_of_le]
    · push_cast; omega
    · push_cast; omega
  · simp only [hs] at h ⊢
    exact Int.emod_eq_of_lt h.1 h.2

theorem mem_digits {n : Nat} {j : Int} : j ∈ (List.range n).map (fun k : Nat => (k : Int)) ↔ 0 ≤ j ∧ j < n := by
  simp only [List.mem_map, List.mem_range]
  constructor
  · rintro ⟨k, hk, rfl⟩
    omega
  · rintro ⟨h1, h2⟩
    exact ⟨j.toNat, by omega, by omega⟩

theorem nodup_digits (n : Nat) : ((List.range n).map fun k : Nat => (k : Int)).Nodup :=
  List.Nodup.map (fun a b h => by exact_mod_cast h) List.nodup_range

/-- C155: `fast_is_permutation` decides whether the elements are `0, …, n - 1` in some order, if `n` fits the element type. -/
theorem C155_is_permutation {t : IntTy} (ht : 1 ≤ t.bits) {x : List Int} (h : t.In x.length) :
    ∃ r, fastIsPermutation t x = .ok r ∧ (r = true ↔ x ~ (List.range x.length).map fun k : Nat => (k : Int)) := by
  unfold fastIsPermutation
  rw [conv_nat ht h]
  rw [if_neg (by omega), Int.toNat_natCast]
  obtain ⟨b, e, hb⟩ := forRange_inv (n := x.length)
    (body := fun i (b : Option (List Bool)) =>
      match b with
      | none => .ok none
      | some b => do
        let j ← rd x i
        if j < 0 ∨ (x.length : Int) ≤ j then return none
        let seen ← rd b j.toNat
        if seen then return none
        let b ← wr b j.toNat true
        return some b)
    (s := some (List.replicate x.length false))
    (fun i b => match b with
      | none => ¬ x ~ (List.range x.length).map fun k : Nat => (k : Int)
      | some b => b.length = x.length ∧ (∀ j ∈ x.take i, 0 ≤ j ∧ j < x.length) ∧ (x.take i).Nodup ∧
        ∀ j < x.length, b[j]? = some (decide ((j : Int) ∈ x.take i)))
    (fun i hi b hb => by
      match b, hb with
      | none, hb => exact ⟨none, rfl, hb⟩
      | some b, ⟨h1, h2, h3, h4⟩ =>
        have er : rd x i = .ok x[i] := by
          unfold rd
          rw [List.getElem?_eq_getElem hi]
        have et : x.take (i + 1) = x.take i ++ [x[i]] := by rw [List.take_succ_eq_append_getElem hi]
        simp only [er, Outcome.ok_bind]
        by_cases c : x[i] < 0 ∨ (x.length : Int) ≤ x[i]
        · refine ⟨none, by rw [if_pos c]; rfl, fun hp => ?_⟩
          have := mem_digits.1 (hp.subset (List.getElem_mem hi))
          omega
        · rw [if_neg c]
          have eb : rd b x[i].toNat = .ok (decide (x[i] ∈ x.take i)) := by
            unfold rd
            rw [h4 _ (by omega)]
            simp only [Int.toNat_of_nonneg (not_lt.1 fun h => c (.inl h))]
          rw [eb, Outcome.ok_bind]
          by_cases m : x[i] ∈ x.take i
          · refine ⟨none, by rw [if_pos (by simpa using m)]; rfl, fun hp => ?_⟩
            have nd : (x.take (i + 1)).Nodup := List.Nodup.sublist (List.take_sublist _ _) (hp.nodup_iff.2 (nodup_digits _))
            rw [et, List.nodup_append] at nd
            exact nd.2.2 _ m _ (by simp) rfl
          · refine ⟨some (b.set x[i].toNat true), ?_, by simpa using h1, fun j hj => ?_, ?_, fun j hj => ?_⟩
            · rw [if_neg (by simpa using m)]
              unfold wr
              rw [if_pos (by omega)]
              rfl
            · rw [et, List.mem_append, List.mem_singleton] at hj
              rcases hj with hj | rfl
              · exact h2 j hj
              · omega
            · rw [et, List.nodup_append]
              refine ⟨h3, List.nodup_singleton _, fun a ha b hb => ?_⟩
              rw [List.mem_singleton] at hb
              rintro rfl
              exact m (hb ▸ ha)
            · rw [List.getElem?_set]
              by_cases q : x[i].toNat = j
              · rw [if_pos q, if_pos (by omega)]
                have : (j : Int) = x[i] := by omega
                rw [this, decide_eq_true (et ▸ List.mem_append_right _ (List.mem_singleton.2 rfl))]
              · rw [if_neg q, h4 j hj]
                have : (j : Int) ≠ x[i] := by omega
                refine congrArg some (decide_eq_decide.2 ?_)
                rw [et, List.mem_append, List.mem_singleton]
                simp only [this, or_false])
    ⟨by simp, by simp, by simp, fun j hj => by simp [hj]⟩
  refine ⟨b.isSome, ?_, ?_⟩
  · refine Eq.trans (congrArg (· >>= fun b => (Outcome.ok b.isSome : Outcome Bool)) e) rfl
  · match b, hb with
    | none, hb => exact ⟨fun h => by simp at h, fun h => absurd h hb⟩
    | some b, ⟨_, h2, h3, _⟩ =>
      rw [List.take_length] at h2 h3
      refine ⟨fun _ => ?_, fun _ => rfl⟩
      exact (h3.subperm fun j hj => mem_digits.2 (h2 j hj)).perm_of_length_le (by simp)

/-- C155: if `n` does not fit, the answer can be wrong: 256 equal elements of an 8-bit type pass. -/
theorem C155_wraps : fastIsPermutation ⟨false, 8⟩ (List.replicate 256 7) = .ok true ∧
    ¬ List.replicate 256 (7 : Int) ~ (List.range 256).map fun k : Nat => (k : Int) := by
  refine ⟨?_, fun h => ?_⟩
  · unfold fastIsPermutation
    rw [List.length_replicate, show (⟨false, 8⟩ : IntTy).conv ((256 : Nat) : Int) = 0 from by decide]
    rfl
  have := h.nodup_iff.2 (nodup_digits 256)
  rw [List.nodup_replicate] at this
  omega

/-! ## Concrete cases -/

example : nextPermutation [2, 5, 3, 3] = some [3, 2, 3, 5] := by decide
example := C155_next (l := [2, 5, 3, 3]) (b := [3, 2, 3, 5]) (by decide)
example := C155_permutations [3, 5, 3]
example : TestAllPermutations [3, 5, 3] [[3, 3, 5], [3, 5, 3], [5, 3, 3]] 3 :=
  ⟨.step (b := [3, 5, 3]) (by decide) (.step (b := [5, 3, 3]) (by decide) (.stop (by decide))), rfl⟩
example : TestAllPermutations [5, 3] [[3, 5], [5, 3]] 2 := ⟨.step (b := [5, 3]) (by decide) (.stop (by decide)), rfl⟩
example := C155_factorial (l := [5, 3]) (by decide) (calls := [[3, 5], [5, 3]]) (p := 2)
  ⟨.step (b := [5, 3]) (by decide) (.stop (by decide)), rfl⟩
example := C155_generate (fun s => s) [0, 0, 0] (s := 1) (by decide) (by decide)
example := C155_is_permutation (t := i32) (by decide) (x := [2, 0, 1]) (by decide)

end StdNN
