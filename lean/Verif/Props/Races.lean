import Verif.Props.Access
import Verif.Props.ThreadTrain
/-!
# C176: which threads race, and what follows when none do

A race is a reachable state in which two threads are about to access the same element and one of them is about to write it. Threads
are lists of calls of operators (Props/Threads.lean), whose accesses are listed in Props/Access.lean.
-/
namespace StdNN
open Outcome Spec IntTy
variable {R : Type}
namespace Prog

/-- Accesses as listed are accesses to the listed elements. -/
theorem Emits.within {α : Type} {L : Nat} {p : Prog R α} {l : List (Nat × Bool)} (h : p.Emits L l) :
    p.Within (fun q => (q, false) ∈ l) (fun q => (q, true) ∈ l) := by
  induction p generalizing l with
  | halt o => trivial
  | read p k ih =>
    obtain ⟨-, t, rfl, h⟩ := h
    exact ⟨.head _, fun v => (ih v (h v)).mono (fun q hq => .tail _ hq) fun q hq => .tail _ hq⟩
  | write p v k ih =>
    obtain ⟨-, t, rfl, h⟩ := h
    exact ⟨.head _, (ih h).mono (fun q hq => .tail _ hq) fun q hq => .tail _ hq⟩

section
variable [Zero R] [One R] [Add R] [Sub R] [Mul R] [Neg R] [Div R] [LT R] [DecidableLT R] {ι : Type} [DecidableEq ι]

/-! ## Specification -/

/-- The threads can come to a point where two of them are about to access the same element and one of them is about to write. -/
def Races (threads : ι → Thread R) (mem : List R) : Prop :=
  ∃ (turns : List ι) (i j : ι) (q : Nat) (w w' : Bool), i ≠ j ∧
    ((play turns (fun i => (threads i).prog, mem)).1 i).access = some (q, w) ∧
    ((play turns (fun i => (threads i).prog, mem)).1 j).access = some (q, w') ∧ (w = true ∨ w' = true)

/-! ## Theorems -/

/-- **C176.** Threads race exactly if one of them writes, at any time, an element that another one reads or writes at any time:
no order of the calls within the threads, no sizes and no values protect from it, and nothing else is a race. -/
theorem C176_races {threads : ι → Thread R} {mem : List R} (fits : ∀ i, ∀ c ∈ threads i, c.Fits mem.length) :
    Races threads mem ↔ ∃ i j q w, i ≠ j ∧ (q, true) ∈ (threads i).accesses ∧ (q, w) ∈ (threads j).accesses := by
  constructor
  · rintro ⟨turns, i, j, q, w, w', hij, hi, hj, h⟩
    rw [(C169_races fits turns rfl i).2.1] at hi
    rw [(C169_races fits turns rfl j).2.1] at hj
    rcases h with rfl | rfl
    · exact ⟨i, j, q, w', hij, List.mem_of_getElem? hi, List.mem_of_getElem? hj⟩
    · exact ⟨j, i, q, w, hij.symm, List.mem_of_getElem? hj, List.mem_of_getElem? hi⟩
  · rintro ⟨i, j, q, w, hij, hi, hj⟩
    obtain ⟨a, ha⟩ := List.mem_iff_getElem?.1 hi
    obtain ⟨b, hb⟩ := List.mem_iff_getElem?.1 hj
    refine ⟨List.replicate a i ++ List.replicate b j, i, j, q, true, w, hij, ?_, ?_, .inl rfl⟩
    · rw [(C169_races fits _ rfl i).2.1, List.count_append, List.count_replicate_self, List.count_replicate, if_neg (by simpa using hij.symm),
        Nat.add_zero, ha]
    · rw [(C169_races fits _ rfl j).2.1, List.count_append, List.count_replicate_self, List.count_replicate, if_neg (by simpa using hij),
        Nat.zero_add, hb]

/-- **C176.** Whether threads race does not depend on the contents of the memory. -/
theorem C176_contents {threads : ι → Thread R} {mem mem' : List R} (fits : ∀ i, ∀ c ∈ threads i, c.Fits mem.length)
    (same : mem'.length = mem.length) : Races threads mem' ↔ Races threads mem := by
  rw [C176_races fits, C176_races (by rw [same]; exact fits)]

/-- **C176.** Threads that cannot race, in any arithmetic: at any time every thread is where it would be alone, and has read and
written what it would have alone; an element that no thread writes keeps its value; and if all have ended then the memory is the
same, bit for bit, for all interleavings. -/
theorem C176_drf {threads : ι → Thread R} {mem : List R} (fits : ∀ i, ∀ c ∈ threads i, c.Fits mem.length) (free : ¬ Races threads mem) :
    (∀ turns i, ((play turns (fun i => (threads i).prog, mem)).1 i = (alone (turns.count i) ((threads i).prog, mem)).1 ∧
      ∀ q w, (q, w) ∈ (threads i).accesses →
        (play turns (fun i => (threads i).prog, mem)).2[q]? = (alone (turns.count i) ((threads i).prog, mem)).2[q]?)) ∧
    (∀ turns q, (∀ i, (q, true) ∉ (threads i).accesses) → (play turns (fun i => (threads i).prog, mem)).2[q]? = mem[q]?) ∧
    (∀ turns, (∀ i, (threads i).accesses.length ≤ turns.count i) → ∀ i, ∃ M, (threads i).prog.exec mem = .ok M ∧
      ∀ q w, (q, w) ∈ (threads i).accesses → (play turns (fun i => (threads i).prog, mem)).2[q]? = M[q]?) ∧
    ∀ turns turns', (∀ i, (threads i).accesses.length ≤ turns.count i) → (∀ i, (threads i).accesses.length ≤ turns'.count i) →
      (play turns (fun i => (threads i).prog, mem)).2 = (play turns' (fun i => (threads i).prog, mem)).2 := by
  rw [C176_races fits] at free
  have inv := play_inv (P := fun i => (threads i).prog) (fun i => (Thread.emits (fits i)).within)
    (fun i j hij q hw => ⟨fun h => free ⟨i, j, q, false, hij, hw, h⟩, fun h => free ⟨i, j, q, true, hij, hw, h⟩⟩) mem
  have part1 : ∀ turns i, ((play turns (fun i => (threads i).prog, mem)).1 i = (alone (turns.count i) ((threads i).prog, mem)).1 ∧
      ∀ q w, (q, w) ∈ (threads i).accesses →
        (play turns (fun i => (threads i).prog, mem)).2[q]? = (alone (turns.count i) ((threads i).prog, mem)).2[q]?) := by
    intro turns i
    refine ⟨((inv turns).2.1 i).1, fun q w h => ((inv turns).2.1 i).2 q ?_⟩
    cases w
    · exact .inl h
    · exact .inr h
  have part3 : ∀ turns, (∀ i, (threads i).accesses.length ≤ turns.count i) → ∀ i, ∃ M, (threads i).prog.exec mem = .ok M ∧
      ∀ q w, (q, w) ∈ (threads i).accesses → (play turns (fun i => (threads i).prog, mem)).2[q]? = M[q]? := by
    intro turns ended i
    obtain ⟨h1, h2, r, h3⟩ := (Thread.emits (fits i)).trace (m := mem) rfl
    refine ⟨r.1, by simp [Prog.exec, h3], fun q w h => ?_⟩
    have d := alone_done (n := turns.count i) (by rw [h2]; exact ended i) h3
    rw [(part1 turns i).2 q w h, d]
  refine ⟨part1, fun turns => (inv turns).2.2, part3, fun turns turns' h h' => List.ext_getElem? fun q => ?_⟩
  by_cases c : ∃ i, (q, true) ∈ (threads i).accesses
  · obtain ⟨i, hi⟩ := c
    obtain ⟨M, e, v⟩ := part3 turns h i
    obtain ⟨M', e', v'⟩ := part3 turns' h' i
    rw [v q true hi, v' q true hi, Outcome.ok.inj (e.symm.trans e')]
  · have c' : ∀ i, (q, true) ∉ (threads i).accesses := fun i hi => c ⟨i, hi⟩
    rw [(inv turns).2.2 q c', (inv turns').2.2 q c']

/-- **C176.** Threads that cannot race, run by any interleaving to the end, leave what the same calls leave when one thread
after the other runs, in any order. -/
theorem C176_any_order {threads : ι → Thread R} {mem : List R} (fits : ∀ i, ∀ c ∈ threads i, c.Fits mem.length)
    (free : ¬ Races threads mem) {turns : List ι} (ended : ∀ i, (threads i).accesses.length ≤ turns.count i) {order : List ι}
    (nodup : order.Nodup) (all : ∀ i, i ∈ order) :
    order.foldlM (fun m i => (threads i).effect m) mem = .ok (play turns (fun i => (threads i).prog, mem)).2 := by
  obtain ⟨-, p2, p3, -⟩ := C176_drf fits free
  have p2 := p2 turns
  have p3 := p3 turns ended
  rw [C176_races fits] at free
  have apart : ∀ i j, i ≠ j → ∀ q, (q, true) ∈ (threads i).accesses → ∀ w, (q, w) ∉ (threads j).accesses :=
    fun i j hij q hi w hj => free ⟨i, j, q, w, hij, hi, hj⟩
  have E := fun i => (Thread.emits (fits i)).within
  have run : ∀ i, ∃ r, (threads i).prog.run mem = .ok r := fun i => ((Thread.emits (fits i)).trace rfl).2.2
  choose r run using run
  have key : ∀ (l : List ι), l.Nodup → ∀ m : List R, m.length = mem.length →
      (∀ i ∈ l, ∀ q w, (q, w) ∈ (threads i).accesses → m[q]? = mem[q]?) →
      ∃ N, l.foldlM (fun m i => (threads i).effect m) m = .ok N ∧ N.length = mem.length ∧
        (∀ i ∈ l, ∀ q, (q, true) ∈ (threads i).accesses → N[q]? = (r i).1[q]?) ∧
        ∀ q, (∀ i ∈ l, (q, true) ∉ (threads i).accesses) → N[q]? = m[q]? := by
    intro l
    induction l with
    | nil => exact fun _ m hm _ => ⟨m, rfl, hm, by simp, fun _ _ => rfl⟩
    | cons i l ih =>
      intro nd m hm ha
      rw [List.nodup_cons] at nd
      obtain ⟨N, n1, n2, n3, n4⟩ := run_agree (E i) hm
        (fun q hq => hq.elim (ha i (by simp) q false) (ha i (by simp) q true)) (run i)
      have eff : (threads i).effect m = .ok N := by
        have := (Thread.does fun c hc => (fits i c hc).1).run m hm
        rw [n1] at this
        obtain ⟨m', e1, e2⟩ := bind_eq_ok.1 this.symm
        have e2 := Outcome.ok.inj e2
        rw [e1]
        exact congrArg _ (Prod.mk.inj e2).1
      have other : ∀ j ∈ l, i ≠ j := fun j hj e => nd.1 (e ▸ hj)
      obtain ⟨N', m1, m2, m3, m4⟩ := ih nd.2 N n2 fun j hj q w hq => by
        rw [n4 q fun h => apart i j (other j hj) q h w hq]
        exact ha j (by simp [hj]) q w hq
      refine ⟨N', by rw [List.foldlM_cons, eff]; exact m1, m2, fun j hj q hq => ?_, fun q hq => ?_⟩
      · rcases List.mem_cons.1 hj with rfl | hj
        · rw [m4 q fun k hk => apart j k (other k hk) q hq true]
          exact n3 q (.inr hq)
        · exact m3 j hj q hq
      · rw [m4 q fun j hj => hq j (by simp [hj])]
        exact n4 q (hq i (by simp))
  obtain ⟨N, n1, n2, n3, n4⟩ := key order nodup mem rfl fun _ _ _ _ _ => rfl
  rw [n1]
  refine congrArg _ (List.ext_getElem? fun q => ?_)
  by_cases h : ∃ i, (q, true) ∈ (threads i).accesses
  · obtain ⟨i, hi⟩ := h
    obtain ⟨M, e, v⟩ := p3 i
    have : M = (r i).1 := by
      rw [Prog.exec, run i] at e
      exact (Outcome.ok.inj e).symm
    rw [n3 i (all i) q hi, v q true hi, this]
  · have h' : ∀ i, (q, true) ∉ (threads i).accesses := fun i hi => h ⟨i, hi⟩
    rw [n4 q fun i _ => h' i, p2 q h']

/-- **C176.** Whether two calls can be made by two threads at once: exactly if neither writes an element that the other
accesses. -/
theorem C176_two {c d : Call R} {mem : List R} (hc : c.Fits mem.length) (hd : d.Fits mem.length) :
    Races (fun i : Fin 2 => if i = 0 then [c] else [d]) mem ↔
      ∃ q, ((q, true) ∈ c.accesses ∧ ((q, false) ∈ d.accesses ∨ (q, true) ∈ d.accesses)) ∨ ((q, true) ∈ d.accesses ∧ (q, false) ∈ c.accesses) := by
  rw [C176_races (by
    intro i e he
    rcases (by omega : i = 0 ∨ i = 1) with rfl | rfl
    · have : e = c := by simpa using he
      rw [this]; exact hc
    · have : e = d := by simpa using he
      rw [this]; exact hd)]
  constructor
  · rintro ⟨i, j, q, w, hij, hi, hj⟩
    rcases (by omega : (i = 0 ∧ j = 1) ∨ i = 1 ∧ j = 0) with ⟨rfl, rfl⟩ | ⟨rfl, rfl⟩
    · have hi : (q, true) ∈ c.accesses := by simpa [Thread.accesses] using hi
      have hj : (q, w) ∈ d.accesses := by simpa [Thread.accesses] using hj
      cases w
      · exact ⟨q, .inl ⟨hi, .inl hj⟩⟩
      · exact ⟨q, .inl ⟨hi, .inr hj⟩⟩
    · have hi : (q, true) ∈ d.accesses := by simpa [Thread.accesses] using hi
      have hj : (q, w) ∈ c.accesses := by simpa [Thread.accesses] using hj
      cases w
      · exact ⟨q, .inr ⟨hi, hj⟩⟩
      · exact ⟨q, .inl ⟨hj, .inr hi⟩⟩
  · rintro ⟨q, ⟨h, h' | h'⟩ | ⟨h, h'⟩⟩
    · exact ⟨0, 1, q, false, by decide, by simpa [Thread.accesses] using h, by simpa [Thread.accesses] using h'⟩
    · exact ⟨0, 1, q, true, by decide, by simpa [Thread.accesses] using h, by simpa [Thread.accesses] using h'⟩
    · exact ⟨1, 0, q, false, by decide, by simpa [Thread.accesses] using h, by simpa [Thread.accesses] using h'⟩

theorem mem_written {l : List (Nat × Bool)} {q : Nat} : q ∈ written l ↔ (q, true) ∈ l := by
  simp [written]

theorem mem_block {z n q : Nat} : q ∈ (List.range n).map (z + ·) ↔ block z n q := by
  simp only [List.mem_map, List.mem_range, block]
  constructor
  · rintro ⟨a, h, rfl⟩
    omega
  · exact fun h => ⟨q - z, by omega, by omega⟩

theorem mem_blocks {z n k q : Nat} : q ∈ ((List.range (k + 1)).flatMap fun _ => (List.range n).map (z + ·)) ↔ block z n q := by
  rw [List.mem_flatMap]
  exact ⟨fun ⟨_, _, h⟩ => mem_block.1 h, fun h => ⟨0, by simp, mem_block.2 h⟩⟩

omit [Zero R] [One R] [Add R] [Sub R] [Mul R] [Neg R] [Div R] [LT R] [DecidableLT R] in
/-- **C176.** A call writes the elements of its output, all of them and no others. -/
theorem C176_writes {L : Nat} {c : Call R} (h : c.Fits L) (q : Nat) : (q, true) ∈ c.accesses ↔ c.writes q := by
  rw [← mem_written]
  have r := fun z => C169_rewrites (R := R) (z := z)
  by_cases hc : c.Once
  · rw [C169_writes h hc, mem_block]
    rfl
  · cases c with
    | sumRows rows cols x z => rw [(r z).2.2.2.1, mem_blocks]; rfl
    | mm ad bd cd a b z =>
      obtain ⟨-, -, -, m, l, n, rfl, rfl, rfl⟩ := h
      rw [(r z).2.2.1.mem_iff, mem_blocks]
      simp [Call.writes, Call.out]
    | conv t jx jt zd xd yd x y z =>
      obtain ⟨-, -, -, H, W, n, c, d, -, -, -, rfl, rfl, rfl, -⟩ := h
      rw [(r z).2.2.2.2.mem_iff, mem_blocks]
      simp [Call.writes, Call.out, Nat.mul_assoc]
    | poolHwc acc H W c x z =>
      rw [(r z).1.mem_iff, mem_block]
      simp [Call.writes, Call.out, Nat.mul_assoc]
    | poolNhwc acc H W n c x z =>
      rw [(r z).2.1.mem_iff, mem_block]
      simp [Call.writes, Call.out, Nat.mul_assoc]
    | _ => exact absurd trivial hc

omit [One R] [Add R] [Sub R] [Mul R] [Neg R] [Div R] [LT R] [DecidableLT R] in
theorem Emits.inside {α : Type} {L : Nat} {p : Prog R α} {l : List (Nat × Bool)} (h : p.Emits L l) {Rd Wr : Nat → Prop}
    (hp : p.Within Rd Wr) {q : Nat} {w : Bool} (hq : (q, w) ∈ l) : Rd q ∨ Wr q := by
  induction p generalizing l with
  | halt o =>
    obtain ⟨rfl, -⟩ := h
    simp at hq
  | read p k ih =>
    obtain ⟨-, t, rfl, h⟩ := h
    rcases List.mem_cons.1 hq with e | hq
    · cases e; exact .inl hp.1
    · exact ih 0 (h 0) (hp.2 0) hq
  | write p v k ih =>
    obtain ⟨-, t, rfl, h⟩ := h
    rcases List.mem_cons.1 hq with e | hq
    · cases e; exact .inr hp.1
    · exact ih h hp.2 hq

omit [Zero R] [One R] [Add R] [Sub R] [Mul R] [Neg R] [Div R] [LT R] [DecidableLT R] in
theorem Thread.writes_iff {L : Nat} {t : Thread R} (h : ∀ c ∈ t, c.Fits L) (q : Nat) : (q, true) ∈ t.accesses ↔ t.writes q := by
  rw [Thread.accesses, List.mem_flatMap]
  exact ⟨fun ⟨c, hc, hq⟩ => ⟨c, hc, (C176_writes (h c hc) q).1 hq⟩, fun ⟨c, hc, hq⟩ => ⟨c, hc, (C176_writes (h c hc) q).2 hq⟩⟩

/-- **C176.** What a caller has to check. Threads whose outputs are apart from the inputs and outputs of the others do not race;
threads of which two have outputs that share an element do, and so do threads of which one reads an element of an output of
another. -/
theorem C176_blocks {threads : ι → Thread R} {mem : List R} (fits : ∀ i, ∀ c ∈ threads i, c.Fits mem.length) :
    (Apart threads → ¬ Races threads mem) ∧
    (∀ i j, i ≠ j → ∀ q, (threads i).writes q → (threads j).writes q → Races threads mem) ∧
    ∀ i j, i ≠ j → ∀ q, (threads i).writes q → (q, false) ∈ (threads j).accesses → Races threads mem := by
  rw [C176_races fits]
  refine ⟨?_, fun i j hij q hi hj => ?_, fun i j hij q hi hj => ?_⟩
  · rintro apart ⟨i, j, q, w, hij, hi, hj⟩
    have hi := (Thread.writes_iff (fits i) q).1 hi
    have a := apart i j hij q hi
    rcases (Thread.emits (fits j)).inside (Thread.does fun c hc => (fits j c hc).1).within hj with (h | h) | h
    · exact a.1 h
    · exact a.2 h
    · exact a.2 h
  · exact ⟨i, j, q, true, hij, (Thread.writes_iff (fits i) q).2 hi, (Thread.writes_iff (fits j) q).2 hj⟩
  · exact ⟨i, j, q, false, hij, (Thread.writes_iff (fits i) q).2 hi, hj⟩

/-- **C176.** A training step divided among threads as in C172 has no race if the shares are apart and every thread has gradient
buffers of its own; it has one if two threads share the buffers, whatever the shares, and if two threads have an example in
common. -/
theorem C176_step {p : Regr R} {N : Nat} {mem : List R} {lo cnt : ι → Nat} :
    (∀ gw gb : ι → Nat, p.Laid N mem.length gw gb → Shares N lo cnt →
      ¬ Races (fun i => p.calls (lo i) (cnt i) (gw i) (gb i)) mem) ∧
    (∀ gw gb : Nat, p.Laid N mem.length (fun _ : Unit => gw) (fun _ : Unit => gb) → (∀ i, lo i + cnt i ≤ N) → 0 < p.n →
      ∀ i j : ι, i ≠ j → Races (fun i => p.calls (lo i) (cnt i) gw gb) mem) ∧
    ∀ gw gb : ι → Nat, p.Laid N mem.length gw gb → (∀ i, lo i + cnt i ≤ N) → 0 < p.n →
      ∀ i j : ι, i ≠ j → ∀ u, (lo i ≤ u ∧ u < lo i + cnt i) → (lo j ≤ u ∧ u < lo j + cnt j) →
        Races (fun i => p.calls (lo i) (cnt i) (gw i) (gb i)) mem := by
  refine ⟨fun gw gb laid shares => ?_, fun gw gb laid inside hn i j hij => ?_, fun gw gb laid inside hn i j hij u hi hj => ?_⟩
  · exact (C176_blocks fun i => regr_fits laid i (shares.inside i)).1 (regr_apart laid shares)
  · have w : ∀ i, Thread.writes (p.calls (lo i) (cnt i) gw gb) gb := fun i =>
      ⟨.sumRows (cnt i) p.n (.mem (p.d + lo i * p.n)) gb, by simp [Regr.calls], by
        show gb ≤ gb ∧ gb < gb + p.n
        omega⟩
    exact (C176_blocks fun i => regr_fits laid () (inside i)).2.1 i j hij gb (w i) (w j)
  · have w : ∀ i, (lo i ≤ u ∧ u < lo i + cnt i) → Thread.writes (p.calls (lo i) (cnt i) (gw i) (gb i)) (p.g + u * p.n) := fun i h =>
      ⟨.xentropyGrad (cnt i) p.n (tab [cnt i] (fn1 fun _ => p.c)).data (.mem (p.t + lo i * p.n)) (.mem (p.y + lo i * p.n))
        (p.g + lo i * p.n), by simp [Regr.calls], by
          show p.g + lo i * p.n ≤ p.g + u * p.n ∧ p.g + u * p.n < p.g + lo i * p.n + cnt i * p.n
          have h1 := Nat.mul_le_mul_right p.n h.1
          have h2 : (u + 1) * p.n ≤ (lo i + cnt i) * p.n := Nat.mul_le_mul_right p.n h.2
          rw [Nat.add_mul, Nat.add_mul] at h2
          omega⟩
    exact (C176_blocks fun i => regr_fits laid i (inside i)).2.1 i j hij _ (w i hi) (w j hj)

end

/-! ## Examples -/

/-- Both threads double the same two elements. -/
example : Races exRace [3, 5] := (C176_races exRace_fits).2 ⟨0, 1, 0, false, by decide, by decide, by decide⟩

/-- The race is one in memories of other contents. -/
example : Races exRace [8, -1] := (C176_contents exRace_fits rfl).2 ((C176_races exRace_fits).2 ⟨0, 1, 0, false, by decide, by decide, by decide⟩)

/-- Two threads on one array, which is input and output: one changes elements at even, one those at odd addresses;
element 4 is only read. -/
def exEven (i : Fin 2) : Thread Int := if i = 0 then [.unary (fun v => v + v) 1 (.mem 0) 0, .unary (fun v => v + v) 1 (.mem 2) 2] else
  [.binary (fun u v => u * v) 1 (.mem 1) (.mem 4) 1, .unary (fun v => v + v) 1 (.mem 3) 3]

theorem exEven_fits : ∀ i, ∀ c ∈ exEven i, c.Fits [3, 5, 7, 9, 11].length := by
  intro i c hc
  rcases (by omega : i = 0 ∨ i = 1) with rfl | rfl
  · simp only [exEven, if_true, List.mem_cons, List.not_mem_nil, or_false] at hc
    rcases hc with rfl | rfl
    · exact ⟨⟨by decide, trivial⟩, by simp [Src.Has]⟩
    · exact ⟨⟨by decide, trivial⟩, by simp [Src.Has]⟩
  · have hc : c = .binary (fun u v => u * v) 1 (.mem 1) (.mem 4) 1 ∨ c = .unary (fun v => v + v) 1 (.mem 3) 3 := by
      simpa [exEven] using hc
    rcases hc with rfl | rfl
    · exact ⟨⟨by decide, trivial⟩, by simp [Src.Has]⟩
    · exact ⟨⟨by decide, trivial⟩, by simp [Src.Has]⟩

theorem exEven_free : ¬ Races exEven [3, 5, 7, 9, 11] := by
  rw [C176_races exEven_fits]
  rintro ⟨i, j, q, w, hij, hi, hj⟩
  have e0 : (exEven 0).accesses = [(0, false), (0, true), (2, false), (2, true)] := by decide
  have e1 : (exEven 1).accesses = [(1, false), (4, false), (1, true), (3, false), (3, true)] := by decide
  rcases (by omega : (i = 0 ∧ j = 1) ∨ i = 1 ∧ j = 0) with ⟨rfl, rfl⟩ | ⟨rfl, rfl⟩
  · rw [e0] at hi; rw [e1] at hj
    simp at hi hj; omega
  · rw [e1] at hi; rw [e0] at hj
    simp at hi hj; omega

example : (∀ i, (exEven i).accesses.length ≤ [0, 1, 1, 0, 1, 0, 1, 0, 1].count i) ∧
    (play [0, 1, 1, 0, 1, 0, 1, 0, 1] (fun i => (exEven i).prog, [3, 5, 7, 9, 11])).2 = [6, 55, 14, 18, 11] ∧
    [1, 0].foldlM (fun m i => (exEven i).effect m) [3, 5, 7, 9, 11] =
      .ok (play [0, 1, 1, 0, 1, 0, 1, 0, 1] (fun i => (exEven i).prog, [3, 5, 7, 9, 11])).2 :=
  ⟨by decide, by decide, C176_any_order exEven_fits exEven_free (by decide) (by decide) (by decide)⟩

/-- Two sums of rows into one gradient of a bias. -/
example : Races (fun i : Fin 2 => if i = 0 then [(.sumRows 2 2 (.mem 0) 8 : Call Int)] else [.sumRows 2 2 (.mem 4) 8])
    [1, 2, 3, 4, 5, 6, 7, 8, 0, 0] :=
  (C176_two ⟨⟨by decide, trivial⟩, by simp [Src.Has]⟩ ⟨⟨by decide, trivial⟩, by simp [Src.Has]⟩).2
    ⟨8, .inl ⟨by decide, .inr (by decide)⟩⟩

example : ¬ Races exEven [3, 5, 7, 9, 11] ∧ (exRace 0).writes 1 ∧ (exRace 1).writes 1 ∧ Races exRace [3, 5] := by
  have w : ∀ i, (exRace i).writes 1 := fun i => ⟨_, List.mem_singleton.2 rfl, by simp [Call.writes, Call.out, block]⟩
  exact ⟨exEven_free, w 0, w 1, (C176_blocks exRace_fits).2.1 0 1 (by decide) 1 (w 0) (w 1)⟩

example : Apart exEven := by
  intro i j hij q hq
  rcases (by omega : (i = 0 ∧ j = 1) ∨ i = 1 ∧ j = 0) with ⟨rfl, rfl⟩ | ⟨rfl, rfl⟩ <;>
  · simp [Thread.writes, Thread.reads, exEven, Call.writes, Call.reads, Call.out, block, Src.uses] at hq ⊢
    omega

example := C176_drf exEven_fits exEven_free

/-- The divided step of C172's example: no race. -/
example : ¬ Races (fun i : Fin 2 => exRegr.calls (if i = 0 then 1 else 0) 1 (if i = 0 then 26 else 30) (if i = 0 then 28 else 32)) exRegrMem :=
  C176_step.1 _ _ exRegr_laid exRegr_shares

theorem exRegr_one : exRegr.Laid 2 exRegrMem.length (fun _ : Unit => 26) (fun _ : Unit => 28) := by
  have e : exRegrMem.length = 34 := rfl
  rw [e]
  constructor <;> simp [Regr.inputs, Regr.outs, Regr.own, exRegr, Net.Sep]

/-- The same with one buffer for both threads, and with both threads on both examples: races. -/
example : Races (fun i : Fin 2 => exRegr.calls (if i = 0 then 1 else 0) 1 26 28) exRegrMem ∧
    Races (fun i : Fin 2 => exRegr.calls 0 2 (if i = 0 then 26 else 30) (if i = 0 then 28 else 32)) exRegrMem :=
  ⟨C176_step.2.1 26 28 exRegr_one (by decide) (by decide : 0 < 2) 0 1 (by decide),
    C176_step.2.2 _ _ exRegr_laid (by decide) (by decide : 0 < 2) 0 1 (by decide) 1 (by decide) (by decide)⟩

end Prog
end StdNN
