import Verif.Model.Threads
import Verif.Lemmas.Shared
/-!
# Lemmas about programs that share memory
-/
namespace StdNN
namespace Prog
open Outcome
variable {R α β σ : Type}

/-! ## Running alone -/

theorem run_bind (p : Prog R α) (f : α → Prog R β) (m : List R) :
    (p >>= f).run m = p.run m >>= fun r => (f r.2).run r.1 := by
  induction p generalizing m with
  | halt o => cases o <;> rfl
  | read p k ih =>
    show (StdNN.rd m p >>= fun v => (k v >>= f).run m) = (StdNN.rd m p >>= fun v => (k v).run m) >>= _
    rw [bind_assoc]
    exact congrArg _ (funext fun v => ih v m)
  | write p v k ih =>
    show (StdNN.wr m p v >>= fun m' => (k >>= f).run m') = (StdNN.wr m p v >>= fun m' => k.run m') >>= _
    rw [bind_assoc]
    exact congrArg _ (funext fun m' => ih m')

theorem run_len {p : Prog R α} {m : List R} {r : List R × α} (h : p.run m = .ok r) : r.1.length = m.length := by
  induction p generalizing m with
  | halt o =>
    obtain ⟨a, -, e⟩ := bind_eq_ok.1 h
    rw [← Outcome.ok.inj e]
  | read p k ih =>
    obtain ⟨v, -, e⟩ := bind_eq_ok.1 h
    exact ih v e
  | write p v k ih =>
    obtain ⟨m', e1, e⟩ := bind_eq_ok.1 h
    have : m'.length = m.length := by
      unfold StdNN.wr at e1
      split at e1
      · rw [← Outcome.ok.inj e1, List.length_set]
      · cases e1
    rw [ih e, this]

/-! ## Footprints -/

/-- The thread reads at addresses in `Rd` and writes at addresses in `Wr` only, whatever it reads. -/
def Within (Rd Wr : Nat → Prop) : Prog R α → Prop
  | halt _ => True
  | read p k => Rd p ∧ ∀ v, (k v).Within Rd Wr
  | write p _ k => Wr p ∧ k.Within Rd Wr

theorem Within.bind {Rd Wr : Nat → Prop} {p : Prog R α} {f : α → Prog R β} (hp : p.Within Rd Wr)
    (hf : ∀ a, (f a).Within Rd Wr) : (p >>= f).Within Rd Wr := by
  induction p with
  | halt o => cases o <;> first | exact hf _ | trivial
  | read p k ih => exact ⟨hp.1, fun v => ih v (hp.2 v)⟩
  | write p v k ih => exact ⟨hp.1, ih hp.2⟩

theorem Within.mono {Rd Wr Rd' Wr' : Nat → Prop} {p : Prog R α} (hp : p.Within Rd Wr) (hr : ∀ q, Rd q → Rd' q)
    (hw : ∀ q, Wr q → Wr' q) : p.Within Rd' Wr' := by
  induction p with
  | halt o => trivial
  | read p k ih => exact ⟨hr _ hp.1, fun v => ih v (hp.2 v)⟩
  | write p v k ih => exact ⟨hw _ hp.1, ih hp.2⟩

theorem Within.fold {Rd Wr : Nat → Prop} {n : Nat} {body : Nat → σ → Prog R σ} (s : σ)
    (h : ∀ i < n, ∀ s, (body i s).Within Rd Wr) : (fold n body s).Within Rd Wr := by
  induction n with
  | zero => trivial
  | succ n ih => exact Within.bind (ih fun i hi => h i (by omega)) fun s => h n (by omega) s

/-! ## Turns -/

/-- One turn of a thread that is alone. -/
def step (c : Prog R α × List R) : Prog R α × List R := (c.1.next c.2).getD c

/-- `n` turns of a thread that is alone. -/
def alone (n : Nat) (c : Prog R α × List R) : Prog R α × List R := step^[n] c

theorem alone_succ (n : Nat) (c : Prog R α × List R) : alone (n + 1) c = step (alone n c) :=
  Function.iterate_succ_apply' step n c

theorem step_run (c : Prog R α × List R) : (step c).1.run (step c).2 = c.1.run c.2 := by
  obtain ⟨p, m⟩ := c
  cases p with
  | halt o => rfl
  | read p k =>
    simp only [step, next, Option.getD_some, run, StdNN.rd]
    cases m[p]? <;> rfl
  | write p v k =>
    simp only [step, next, Option.getD_some, run, StdNN.wr]
    split <;> rfl

theorem alone_run (n : Nat) (c : Prog R α × List R) : (alone n c).1.run (alone n c).2 = c.1.run c.2 := by
  induction n with
  | zero => rfl
  | succ n ih => rw [alone_succ, step_run, ih]

theorem step_len (c : Prog R α × List R) : (step c).2.length = c.2.length := by
  obtain ⟨p, m⟩ := c
  cases p with
  | halt o => rfl
  | read p k =>
    simp only [step, next, Option.getD_some]
    cases m[p]? <;> rfl
  | write p v k =>
    simp only [step, next, Option.getD_some]
    split
    · exact List.length_set
    · rfl

theorem alone_len (n : Nat) (c : Prog R α × List R) : (alone n c).2.length = c.2.length := by
  induction n with
  | zero => rfl
  | succ n ih => rw [alone_succ, step_len, ih]

theorem step_within {Rd Wr : Nat → Prop} {c : Prog R α × List R} (h : c.1.Within Rd Wr) : (step c).1.Within Rd Wr := by
  obtain ⟨p, m⟩ := c
  cases p with
  | halt o => trivial
  | read p k =>
    simp only [step, next, Option.getD_some]
    cases m[p]? with
    | none => trivial
    | some v => exact h.2 v
  | write p v k =>
    simp only [step, next, Option.getD_some]
    split
    · exact h.2
    · trivial

theorem alone_within {Rd Wr : Nat → Prop} (n : Nat) {c : Prog R α × List R} (h : c.1.Within Rd Wr) :
    (alone n c).1.Within Rd Wr := by
  induction n with
  | zero => exact h
  | succ n ih => rw [alone_succ]; exact step_within ih

theorem step_cost (c : Prog R α × List R) : (step c).1.cost (step c).2 = c.1.cost c.2 - 1 := by
  obtain ⟨p, m⟩ := c
  cases p with
  | halt o => rfl
  | read p k =>
    simp only [step, next, Option.getD_some, cost, Nat.add_sub_cancel]
    cases m[p]? <;> rfl
  | write p v k =>
    simp only [step, next, Option.getD_some, cost, Nat.add_sub_cancel]
    split <;> rfl

theorem alone_cost (n : Nat) (c : Prog R α × List R) : (alone n c).1.cost (alone n c).2 = c.1.cost c.2 - n := by
  induction n with
  | zero => rfl
  | succ n ih => rw [alone_succ, step_cost, ih, Nat.sub_sub]

/-- After as many turns as the thread has accesses it has ended. -/
theorem alone_done {n : Nat} {p : Prog R α} {m : List R} {r : List R × α} (hn : p.cost m ≤ n) (h : p.run m = .ok r) :
    alone n (p, m) = (halt (.ok r.2), r.1) := by
  have h0 := alone_cost n (p, m)
  have h1 := alone_run n (p, m)
  rw [h] at h1
  rw [Nat.sub_eq_zero_of_le hn] at h0
  generalize alone n (p, m) = c at h0 h1
  obtain ⟨q, m'⟩ := c
  cases q with
  | halt o =>
    obtain ⟨a, e1, e2⟩ := bind_eq_ok.1 h1
    have e2 := Outcome.ok.inj e2
    have e1 : o = .ok a := e1
    subst e1
    rw [← e2]
  | read p k => simp [cost] at h0
  | write p v k => simp [cost] at h0

/-- A thread that ends well when it is alone never stops in another way. -/
theorem alone_halt {n : Nat} {p : Prog R α} {m : List R} {r : List R × α} (h : p.run m = .ok r) {o : Outcome α}
    (ho : (alone n (p, m)).1 = halt o) : o = .ok r.2 := by
  have h1 := alone_run n (p, m)
  rw [h, ho] at h1
  obtain ⟨a, e1, e2⟩ := bind_eq_ok.1 h1
  rw [e1, ← Outcome.ok.inj e2]

/-! ## Turns of several threads -/

section
variable {ι : Type} [DecidableEq ι]

theorem turn_eq (c : (ι → Prog R α) × List R) (j : ι) :
    turn c j = (Function.update c.1 j (step (c.1 j, c.2)).1, (step (c.1 j, c.2)).2) := by
  unfold turn step
  cases h : (c.1 j).next c.2 with
  | none => simp
  | some r => rfl

/-- A turn in a memory that agrees with another one where the thread reads. -/
theorem step_agree {Rd Wr : Nat → Prop} {p : Prog R α} (hp : p.Within Rd Wr) {m m' : List R} (hl : m.length = m'.length)
    (ha : ∀ q, Rd q ∨ Wr q → m[q]? = m'[q]?) :
    (step (p, m)).1 = (step (p, m')).1 ∧
      (∀ q, Rd q ∨ Wr q → (step (p, m)).2[q]? = (step (p, m')).2[q]?) ∧
      ∀ q, ¬ Wr q → (step (p, m)).2[q]? = m[q]? := by
  cases p with
  | halt o => exact ⟨rfl, ha, fun _ _ => rfl⟩
  | read p k =>
    have e := ha p (.inl hp.1)
    simp only [step, next, Option.getD_some, e]
    cases m'[p]? with
    | none => exact ⟨rfl, ha, fun _ _ => rfl⟩
    | some v => exact ⟨rfl, ha, fun _ _ => rfl⟩
  | write p v k =>
    simp only [step, next, Option.getD_some, hl]
    by_cases c : p < m'.length
    · simp only [if_pos c]
      refine ⟨trivial, fun q hq => ?_, fun q hq => ?_⟩
      · rw [List.getElem?_set, List.getElem?_set, hl, ha q hq]
      · rw [List.getElem?_set, if_neg]
        rintro rfl
        exact hq hp.1
    · simp only [if_neg c]
      exact ⟨trivial, ha, fun _ _ => trivial⟩

/-- What any interleaving leaves: every thread is where it would be alone after as many turns, and so is its memory. -/
theorem play_inv {P : ι → Prog R α} {Rd Wr : ι → Nat → Prop} (hw : ∀ i, (P i).Within (Rd i) (Wr i))
    (hd : ∀ i j, i ≠ j → ∀ q, Wr i q → ¬ Rd j q ∧ ¬ Wr j q) (mem : List R) (turns : List ι) :
    (play turns (P, mem)).2.length = mem.length ∧
      (∀ i, (play turns (P, mem)).1 i = (alone (turns.count i) (P i, mem)).1 ∧
        ∀ q, Rd i q ∨ Wr i q → (play turns (P, mem)).2[q]? = (alone (turns.count i) (P i, mem)).2[q]?) ∧
      ∀ q, (∀ i, ¬ Wr i q) → (play turns (P, mem)).2[q]? = mem[q]? := by
  induction turns using List.reverseRecOn with
  | nil => exact ⟨rfl, fun i => ⟨rfl, fun _ _ => rfl⟩, fun _ _ => rfl⟩
  | append_singleton l j ih =>
    obtain ⟨hl, hi, ho⟩ := ih
    have e : play (l ++ [j]) (P, mem) = turn (play l (P, mem)) j := by simp [play]
    have ag := step_agree (p := (alone (l.count j) (P j, mem)).1) (alone_within _ (hw j))
      (m := (play l (P, mem)).2) (m' := (alone (l.count j) (P j, mem)).2) (by rw [hl, alone_len]) (hi j).2
    rw [← (hi j).1] at ag
    rw [e, turn_eq]
    refine ⟨by rw [step_len]; exact hl, fun i => ?_, fun q hq => ?_⟩
    · by_cases c : i = j
      · subst c
        have ec : (l ++ [i]).count i = l.count i + 1 := by simp
        rw [ec, alone_succ]
        refine ⟨?_, fun q hq => ?_⟩
        · show Function.update (play l (P, mem)).1 i (step ((play l (P, mem)).1 i, (play l (P, mem)).2)).1 i = _
          rw [Function.update_self, ag.1, (hi i).1]
        · show (step ((play l (P, mem)).1 i, (play l (P, mem)).2)).2[q]? = _
          rw [ag.2.1 q hq, (hi i).1]
      · have ec : (l ++ [j]).count i = l.count i := by simp [Ne.symm c]
        rw [ec]
        refine ⟨?_, fun q hq => ?_⟩
        · show Function.update (play l (P, mem)).1 j (step ((play l (P, mem)).1 j, (play l (P, mem)).2)).1 i = _
          rw [Function.update_of_ne c]
          exact (hi i).1
        · show (step ((play l (P, mem)).1 j, (play l (P, mem)).2)).2[q]? = _
          rw [ag.2.2 q fun h => hq.elim (hd j i (Ne.symm c) q h).1 (hd j i (Ne.symm c) q h).2]
          exact (hi i).2 q hq
    · show (step ((play l (P, mem)).1 j, (play l (P, mem)).2)).2[q]? = _
      rw [ag.2.2 q (hq j)]
      exact ho q hq

end

theorem access_within {α : Type} {Rd Wr : Nat → Prop} {p : Prog R α} (h : p.Within Rd Wr) {q : Nat} {w : Bool}
    (e : p.access = some (q, w)) : if w then Wr q else Rd q := by
  cases p with
  | halt o => cases e
  | read p k => cases e; exact h.1
  | write p v k => cases e; exact h.1

/-- A thread alone in a memory that agrees where it reads and writes. -/
theorem run_agree {α : Type} {Rd Wr : Nat → Prop} {p : Prog R α} (hp : p.Within Rd Wr) {m m' : List R}
    (hl : m'.length = m.length) (ha : ∀ q, Rd q ∨ Wr q → m'[q]? = m[q]?) {r : List R × α} (h : p.run m = .ok r) :
    ∃ N, p.run m' = .ok (N, r.2) ∧ N.length = m.length ∧ (∀ q, Rd q ∨ Wr q → N[q]? = r.1[q]?) ∧
      ∀ q, ¬ Wr q → N[q]? = m'[q]? := by
  induction p generalizing m m' with
  | halt o =>
    obtain ⟨a, e1, e2⟩ := bind_eq_ok.1 h
    have e2 := Outcome.ok.inj e2
    subst e2
    exact ⟨m', by show (o >>= fun a => .ok (m', a)) = _; rw [e1]; rfl, hl, ha, fun _ _ => rfl⟩
  | read p k ih =>
    obtain ⟨v, e1, e2⟩ := bind_eq_ok.1 h
    obtain ⟨N, hN⟩ := ih v (hp.2 v) hl ha e2
    have : StdNN.rd m' p = .ok v := by
      rw [← e1]
      unfold StdNN.rd
      rw [ha p (.inl hp.1)]
    exact ⟨N, by show (StdNN.rd m' p >>= fun v => (k v).run m') = _; rw [this]; exact hN.1, hN.2⟩
  | write p v k ih =>
    obtain ⟨m1, e1, e2⟩ := bind_eq_ok.1 h
    unfold StdNN.wr at e1
    split at e1
    · rename_i hpm
      have e1 := Outcome.ok.inj e1
      subst e1
      obtain ⟨N, h1, h2, h3, h4⟩ := ih hp.2 (m := m.set p v) (m' := m'.set p v) (by simp [hl]) (fun q hq => by
        rw [List.getElem?_set, List.getElem?_set, hl, ha q hq]) e2
      refine ⟨N, ?_, by simpa using h2, h3, fun q hq => ?_⟩
      · show (StdNN.wr m' p v >>= fun m' => k.run m') = _
        rw [StdNN.wr, if_pos (by omega)]
        exact h1
      · rw [h4 q hq, List.getElem?_set, if_neg]
        rintro rfl
        exact hq hp.1
    · cases e1

/-! ## Programs and the operators they carry out -/

/-- The program reads in `Rd` only and yields `f` of the memory (of `L` cells). -/
structure Reads (L : Nat) (Rd : Nat → Prop) (p : Prog R α) (f : List R → Outcome α) : Prop where
  run : ∀ m, m.length = L → p.run m = f m >>= fun a => .ok (m, a)
  within : p.Within Rd fun _ => False

/-- The program reads in `Rd` and writes in `Wr` only and has the effect of `F` on the memory (of `L` cells). -/
structure Does (L : Nat) (Rd Wr : Nat → Prop) (p : Prog R Unit) (F : List R → Outcome (List R)) : Prop where
  run : ∀ m, m.length = L → p.run m = F m >>= fun m' => .ok (m', ())
  within : p.Within Rd Wr

variable {L : Nat} {Rd Wr : Nat → Prop}

theorem Reads.lift (o : Outcome α) : Reads L Rd (lift o : Prog R α) fun _ => o := ⟨fun _ _ => rfl, trivial⟩

theorem Reads.rd {p : Nat} (h : Rd p) : Reads L Rd (rd p : Prog R R) fun m => StdNN.rd m p := ⟨fun _ _ => rfl, h, fun _ => trivial⟩

theorem Reads.bind {p : Prog R α} {k : α → Prog R β} {f : List R → Outcome α} {g : α → List R → Outcome β}
    (hp : Reads L Rd p f) (hk : ∀ a, Reads L Rd (k a) (g a)) : Reads L Rd (p >>= k) fun m => f m >>= fun a => g a m := by
  refine ⟨fun m hm => ?_, hp.within.bind fun a => (hk a).within⟩
  rw [run_bind, hp.run m hm]
  cases h : f m with
  | ok a => exact (hk a).run m hm
  | throw e => rfl
  | ub => rfl

theorem Reads.lift_bind {o : Outcome α} {k : α → Prog R β} {g : α → List R → Outcome β}
    (hk : ∀ a, o = .ok a → Reads L Rd (k a) (g a)) : Reads L Rd (Prog.lift o >>= k) fun m => o >>= fun a => g a m := by
  cases o with
  | ok a => exact hk a rfl
  | throw e => exact ⟨fun _ _ => rfl, trivial⟩
  | ub => exact ⟨fun _ _ => rfl, trivial⟩

theorem Reads.fold {n : Nat} {body : Nat → σ → Prog R σ} {g : Nat → σ → List R → Outcome σ} (s : σ)
    (h : ∀ i < n, ∀ s, Reads L Rd (body i s) (g i s)) :
    Reads L Rd (fold n body s) fun m => forRange n (fun i s => g i s m) s := by
  induction n with
  | zero => exact ⟨fun _ _ => rfl, trivial⟩
  | succ n ih =>
    have := Reads.bind (ih fun i hi => h i (by omega)) fun s => h n (by omega) s
    refine ⟨fun m hm => ?_, this.within⟩
    rw [forRange_succ]
    exact this.run m hm

theorem Does.bind {p : Prog R α} {k : α → Prog R Unit} {f : List R → Outcome α} {F : α → List R → Outcome (List R)}
    (hp : Reads L Rd p f) (hk : ∀ a, Does L Rd Wr (k a) (F a)) : Does L Rd Wr (p >>= k) fun m => f m >>= fun a => F a m := by
  refine ⟨fun m hm => ?_, (hp.within.mono (fun _ h => h) fun _ h => h.elim).bind fun a => (hk a).within⟩
  rw [run_bind, hp.run m hm]
  cases h : f m with
  | ok a => exact (hk a).run m hm
  | throw e => rfl
  | ub => rfl

theorem Does.lift_bind {o : Outcome α} {k : α → Prog R Unit} {F : α → List R → Outcome (List R)}
    (hk : ∀ a, o = .ok a → Does L Rd Wr (k a) (F a)) : Does L Rd Wr (Prog.lift o >>= k) fun m => o >>= fun a => F a m := by
  cases o with
  | ok a => exact hk a rfl
  | throw e => exact ⟨fun _ _ => rfl, trivial⟩
  | ub => exact ⟨fun _ _ => rfl, trivial⟩

theorem Does.assert {c : Prop} [Decidable c] {k : Prog R Unit} {F : List R → Outcome (List R)} (hk : c → Does L Rd Wr k F) :
    Does L Rd Wr (Prog.lift (contractAssert c) >>= fun _ => k) fun m => contractAssert c >>= fun _ => F m :=
  Does.lift_bind fun _ h => hk (by
    by_contra hc
    simp [contractAssert, hc] at h)

theorem Does.wr {p : Nat} {v : R} (h : Wr p) : Does L Rd Wr (wr p v) fun m => StdNN.wr m p v := ⟨fun _ _ => rfl, h, trivial⟩

theorem Does.upd {p : Nat} {f : R → R} (hr : Rd p) (h : Wr p) : Does L Rd Wr (upd p f) fun m => StdNN.upd m p f :=
  Does.bind (Reads.rd hr) fun _ => Does.wr h

theorem Does.seq {p q : Prog R Unit} {F G : List R → Outcome (List R)} (hp : Does L Rd Wr p F) (hq : Does L Rd Wr q G) :
    Does L Rd Wr (p >>= fun _ => q) fun m => F m >>= G := by
  refine ⟨fun m hm => ?_, hp.within.bind fun _ => hq.within⟩
  have h1 := hp.run m hm
  rw [run_bind, h1]
  cases h : F m with
  | ok m' =>
    rw [h] at h1
    have := run_len h1
    exact hq.run m' (this.trans hm)
  | throw e => rfl
  | ub => rfl

theorem Does.skip : Does L Rd Wr (pure () : Prog R Unit) .ok := ⟨fun _ _ => rfl, trivial⟩

theorem Does.ub : Does L Rd Wr (halt .ub : Prog R Unit) fun _ => .ub := ⟨fun _ _ => rfl, trivial⟩

theorem Does.loop {n : Nat} {body : Nat → Prog R Unit} {F : Nat → List R → Outcome (List R)}
    (h : ∀ i < n, Does L Rd Wr (body i) (F i)) : Does L Rd Wr (loop n body) (forRange n F) := by
  induction n with
  | zero => exact ⟨fun _ _ => rfl, trivial⟩
  | succ n ih =>
    have := Does.seq (ih fun i hi => h i (by omega)) (h n (by omega))
    refine ⟨fun m hm => ?_, this.within⟩
    rw [forRange_succ]
    exact this.run m hm

theorem Does.mono {Rd' Wr' : Nat → Prop} {p : Prog R Unit} {F : List R → Outcome (List R)} (h : Does L Rd Wr p F)
    (hr : ∀ q, Rd q → Rd' q) (hw : ∀ q, Wr q → Wr' q) : Does L Rd' Wr' p F := ⟨h.run, h.within.mono hr hw⟩

theorem Does.congr {p : Prog R Unit} {F G : List R → Outcome (List R)} (h : Does L Rd Wr p F)
    (e : ∀ m, m.length = L → F m = G m) : Does L Rd Wr p G := ⟨fun m hm => by rw [← e m hm]; exact h.run m hm, h.within⟩

end Prog
end StdNN
