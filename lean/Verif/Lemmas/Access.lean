import Verif.Lemmas.ThreadOps
/-!
# Programs whose accesses do not depend on what they read
-/
namespace StdNN
open Outcome Spec IntTy
variable {R : Type}
namespace Prog
variable {α β σ : Type}

/-- Whatever it reads, the thread makes the accesses `l`, all to cells of a memory of `L` cells, and returns. -/
def Emits (L : Nat) : Prog R α → List (Nat × Bool) → Prop
  | halt o, l => l = [] ∧ ∃ a, o = .ok a
  | read p k, l => p < L ∧ ∃ l', l = (p, false) :: l' ∧ ∀ v, (k v).Emits L l'
  | write p _ k, l => p < L ∧ ∃ l', l = (p, true) :: l' ∧ k.Emits L l'

variable {L : Nat}

theorem Emits.bind {p : Prog R α} {f : α → Prog R β} {l l' : List (Nat × Bool)} (hp : p.Emits L l)
    (hf : ∀ a, (f a).Emits L l') : (p >>= f).Emits L (l ++ l') := by
  induction p generalizing l with
  | halt o =>
    obtain ⟨rfl, a, rfl⟩ := hp
    exact hf a
  | read p k ih =>
    obtain ⟨h0, t, rfl, h⟩ := hp
    exact ⟨h0, t ++ l', rfl, fun v => ih v (h v)⟩
  | write p v k ih =>
    obtain ⟨h0, t, rfl, h⟩ := hp
    exact ⟨h0, t ++ l', rfl, ih h⟩

theorem Emits.pure (a : α) : (Pure.pure a : Prog R α).Emits L [] := ⟨rfl, a, rfl⟩

theorem Emits.lift {o : Outcome α} (h : ∃ a, o = .ok a) : (lift o : Prog R α).Emits L [] := ⟨rfl, h⟩

theorem Emits.lift_bind {o : Outcome α} {a : α} (h : o = .ok a) {f : α → Prog R β} {l : List (Nat × Bool)}
    (hf : (f a).Emits L l) : (Prog.lift o >>= f).Emits L l := by
  subst h
  exact hf

theorem Emits.wr {p : Nat} (hp : p < L) (v : R) : (wr p v).Emits L [(p, true)] := ⟨hp, [], rfl, rfl, (), rfl⟩

theorem Emits.upd {p : Nat} (hp : p < L) (f : R → R) : (upd p f).Emits L [(p, false), (p, true)] :=
  ⟨hp, [(p, true)], rfl, fun v => Emits.wr hp (f v)⟩

theorem Emits.fold {n : Nat} {body : Nat → σ → Prog R σ} {l : Nat → List (Nat × Bool)} (s : σ)
    (h : ∀ i < n, ∀ s, (body i s).Emits L (l i)) : (fold n body s).Emits L ((List.range n).flatMap l) := by
  induction n with
  | zero => exact Emits.pure s
  | succ n ih =>
    have := Emits.bind (ih fun i hi => h i (by omega)) fun s => h n (by omega) s
    rw [List.range_succ, List.flatMap_append, List.flatMap_singleton]
    exact this

theorem Emits.loop {n : Nat} {body : Nat → Prog R Unit} {l : Nat → List (Nat × Bool)}
    (h : ∀ i < n, (body i).Emits L (l i)) : (loop n body).Emits L ((List.range n).flatMap l) :=
  Emits.fold () fun i hi _ => h i hi

/-- A thread that always makes the same accesses makes them in every memory that has the cells, and returns. -/
theorem Emits.trace {p : Prog R α} {l : List (Nat × Bool)} (h : p.Emits L l) {m : List R} (hm : m.length = L) :
    p.trace m = l ∧ p.cost m = l.length ∧ ∃ r, p.run m = .ok r := by
  induction p generalizing l m with
  | halt o =>
    obtain ⟨rfl, a, rfl⟩ := h
    exact ⟨rfl, rfl, _, rfl⟩
  | read p k ih =>
    obtain ⟨h0, t, rfl, h⟩ := h
    rw [← hm] at h0
    obtain ⟨h1, h2, r, h3⟩ := ih m[p] (h _) hm
    refine ⟨?_, ?_, r, ?_⟩
    · simp only [Prog.trace, List.getElem?_eq_getElem h0, h1]
    · simp only [Prog.cost, List.getElem?_eq_getElem h0, h2, List.length_cons]
    · simp only [Prog.run, StdNN.rd, List.getElem?_eq_getElem h0]
      exact h3
  | write p v k ih =>
    obtain ⟨h0, t, rfl, h⟩ := h
    rw [← hm] at h0
    obtain ⟨h1, h2, r, h3⟩ := ih h (m := m.set p v) (by rw [List.length_set, hm])
    refine ⟨?_, ?_, r, ?_⟩
    · simp only [Prog.trace, if_pos h0, h1]
    · simp only [Prog.cost, if_pos h0, h2, List.length_cons]
    · simp only [Prog.run, StdNN.wr, if_pos h0]
      exact h3

theorem Emits.access {p : Prog R α} {l : List (Nat × Bool)} (h : p.Emits L l) :
    p.access = l.head? ∧ ∀ o, p = .halt o → l = [] ∧ ∃ a, o = .ok a := by
  cases p with
  | halt o =>
    obtain ⟨rfl, a, rfl⟩ := h
    exact ⟨rfl, fun o e => ⟨rfl, a, (Prog.halt.inj e).symm⟩⟩
  | read p k =>
    obtain ⟨h0, t, rfl, h⟩ := h
    exact ⟨rfl, fun o e => nomatch e⟩
  | write p v k =>
    obtain ⟨h0, t, rfl, h⟩ := h
    exact ⟨rfl, fun o e => nomatch e⟩

theorem Emits.nil {p : Prog R α} (h : p.Emits L []) : ∃ a, p = .halt (.ok a) := by
  cases p with
  | halt o =>
    obtain ⟨-, a, rfl⟩ := h
    exact ⟨a, rfl⟩
  | read p k =>
    obtain ⟨h0, t, e, h⟩ := h
    cases e
  | write p v k =>
    obtain ⟨h0, t, e, h⟩ := h
    cases e

/-- In every order of turns each thread goes on through its list of accesses. -/
theorem Emits.play {ι : Type} [DecidableEq ι] {P : ι → Prog R α} {l : ι → List (Nat × Bool)} (h : ∀ i, (P i).Emits L (l i))
    {mem : List R} (hm : mem.length = L) (turns : List ι) :
    (play turns (P, mem)).2.length = L ∧ ∀ i, ((play turns (P, mem)).1 i).Emits L ((l i).drop (turns.count i)) := by
  induction turns using List.reverseRecOn with
  | nil => exact ⟨hm, fun i => by simpa [Prog.play] using h i⟩
  | append_singleton ts j ih =>
    obtain ⟨h1, h2⟩ := ih
    have e : Prog.play (ts ++ [j]) (P, mem) = turn (Prog.play ts (P, mem)) j := by simp [Prog.play]
    rw [e]
    generalize Prog.play ts (P, mem) = c at h1 h2
    obtain ⟨Q, m⟩ := c
    simp only at h1 h2
    have cnt : ∀ i, (ts ++ [j]).count i = ts.count i + if i = j then 1 else 0 := by
      intro i
      rw [List.count_append, List.count_singleton]
      by_cases hij : i = j
      · simp [hij]
      · simp [hij, Ne.symm hij]
    have other : ∀ i, i ≠ j → ∀ p, (Function.update Q j p i).Emits L ((l i).drop ((ts ++ [j]).count i)) := by
      intro i hij p
      rw [Function.update_of_ne hij, cnt, if_neg hij]
      exact h2 i
    have hj := h2 j
    have next : (l j).drop ((ts ++ [j]).count j) = ((l j).drop (ts.count j)).tail := by
      rw [cnt, if_pos rfl, List.tail_drop]
    match hq : Q j, hj with
    | .halt o, hj =>
      obtain ⟨h3, a, rfl⟩ := hj
      have : turn (Q, m) j = (Q, m) := by simp [turn, Prog.next, hq]
      rw [this]
      refine ⟨h1, fun i => ?_⟩
      by_cases hij : i = j
      · subst hij
        show (Q i).Emits L _
        rw [next, h3, hq]
        exact ⟨rfl, a, rfl⟩
      · show (Q i).Emits L _
        rw [cnt, if_neg hij]
        exact h2 i
    | .read p k, hj =>
      obtain ⟨h0, t, h3, h4⟩ := hj
      have h0' : p < m.length := by omega
      have : turn (Q, m) j = (Function.update Q j (k m[p]), m) := by
        simp [turn, Prog.next, hq, List.getElem?_eq_getElem h0']
      rw [this]
      refine ⟨h1, fun i => ?_⟩
      by_cases hij : i = j
      · subst hij
        rw [next, h3]
        show (Function.update Q i (k m[p]) i).Emits L t
        rw [Function.update_self]
        exact h4 _
      · exact other i hij _
    | .write p v k, hj =>
      obtain ⟨h0, t, h3, h4⟩ := hj
      have h0' : p < m.length := by omega
      have : turn (Q, m) j = (Function.update Q j k, m.set p v) := by simp [turn, Prog.next, hq, h0']
      rw [this]
      refine ⟨by simpa using h1, fun i => ?_⟩
      by_cases hij : i = j
      · subst hij
        rw [next, h3]
        show (Function.update Q i k i).Emits L t
        rw [Function.update_self]
        exact h4
      · exact other i hij _

end Prog

/-- The access to element `i` of an input: none if the input is the thread's own. -/
def Src.acc (x : Src R) (i : Nat) : List (Nat × Bool) :=
  match x with
  | .ext _ => []
  | .mem p => [(p + i, false)]

/-- The input has `n` elements, in the thread's own memory or in a shared one of `L` cells. -/
def Src.Has (x : Src R) (L n : Nat) : Prop :=
  match x with
  | .ext b => n ≤ b.length
  | .mem p => p + n ≤ L

theorem Src.acc_shift (x : Src R) (k i : Nat) : (x.shift k).acc i = x.acc (k + i) := by
  cases x with
  | ext b => rfl
  | mem p => simp [Src.acc, Src.shift, Nat.add_assoc]

theorem Src.Has.shift {x : Src R} {L n k n' : Nat} (h : x.Has L n') (hk : k + n ≤ n') : (x.shift k).Has L n := by
  cases x with
  | ext b =>
    have : n' ≤ b.length := h
    show n ≤ (b.drop k).length
    rw [List.length_drop]
    omega
  | mem p =>
    have : p + n' ≤ L := h
    show p + k + n ≤ L
    omega

namespace Prog

theorem Emits.src {x : Src R} {L n i : Nat} (h : x.Has L n) (hi : i < n) : (src x i).Emits L (x.acc i) := by
  cases x with
  | ext b =>
    have : n ≤ b.length := h
    exact ⟨rfl, b[i], by simp [StdNN.rd, List.getElem?_eq_getElem (show i < b.length by omega)]⟩
  | mem p =>
    have : p + n ≤ L := h
    exact ⟨by omega, [], rfl, fun v => Emits.pure v⟩

theorem Emits.srcAt {x : Src R} {L : Nat} {dims idx : List Nat} (h : x.Has L dims.prod) (hv : Valid dims idx) :
    (srcAt x dims idx).Emits L (x.acc (offset dims idx)) := Emits.src h (offset_lt hv)

/-- As `Emits`, and the result has the property `Q`. -/
def EmitsTo (L : Nat) (Q : α → Prop) : Prog R α → List (Nat × Bool) → Prop
  | halt o, l => l = [] ∧ ∃ a, o = .ok a ∧ Q a
  | read p k, l => p < L ∧ ∃ l', l = (p, false) :: l' ∧ ∀ v, (k v).EmitsTo L Q l'
  | write p _ k, l => p < L ∧ ∃ l', l = (p, true) :: l' ∧ k.EmitsTo L Q l'

theorem Emits.bind_to {L : Nat} {Q : β → Prop} {p : Prog R α} {f : α → Prog R β} {l l' : List (Nat × Bool)} (hp : p.Emits L l)
    (hf : ∀ a, (f a).EmitsTo L Q l') : (p >>= f).EmitsTo L Q (l ++ l') := by
  induction p generalizing l with
  | halt o =>
    obtain ⟨rfl, a, rfl⟩ := hp
    exact hf a
  | read p k ih =>
    obtain ⟨h0, t, rfl, h⟩ := hp
    exact ⟨h0, t ++ l', rfl, fun v => ih v (h v)⟩
  | write p v k ih =>
    obtain ⟨h0, t, rfl, h⟩ := hp
    exact ⟨h0, t ++ l', rfl, ih h⟩

theorem EmitsTo.bind_to {L : Nat} {Q : α → Prop} {Q' : β → Prop} {p : Prog R α} {f : α → Prog R β} {l l' : List (Nat × Bool)}
    (hp : p.EmitsTo L Q l) (hf : ∀ a, Q a → (f a).EmitsTo L Q' l') : (p >>= f).EmitsTo L Q' (l ++ l') := by
  induction p generalizing l with
  | halt o =>
    obtain ⟨rfl, a, rfl, h⟩ := hp
    exact hf a h
  | read p k ih =>
    obtain ⟨h0, t, rfl, h⟩ := hp
    exact ⟨h0, t ++ l', rfl, fun v => ih v (h v)⟩
  | write p v k ih =>
    obtain ⟨h0, t, rfl, h⟩ := hp
    exact ⟨h0, t ++ l', rfl, ih h⟩

theorem EmitsTo.bind {L : Nat} {Q : α → Prop} {p : Prog R α} {f : α → Prog R β} {l l' : List (Nat × Bool)}
    (hp : p.EmitsTo L Q l) (hf : ∀ a, Q a → (f a).Emits L l') : (p >>= f).Emits L (l ++ l') := by
  induction p generalizing l with
  | halt o =>
    obtain ⟨rfl, a, rfl, h⟩ := hp
    exact hf a h
  | read p k ih =>
    obtain ⟨h0, t, rfl, h⟩ := hp
    exact ⟨h0, t ++ l', rfl, fun v => ih v (h v)⟩
  | write p v k ih =>
    obtain ⟨h0, t, rfl, h⟩ := hp
    exact ⟨h0, t ++ l', rfl, ih h⟩

theorem EmitsTo.lift_bind {L : Nat} {Q : β → Prop} {o : Outcome α} {a : α} (h : o = .ok a) {f : α → Prog R β}
    {l : List (Nat × Bool)} (hf : (f a).EmitsTo L Q l) : (Prog.lift o >>= f).EmitsTo L Q l := by
  subst h
  exact hf

theorem EmitsTo.fold {L n : Nat} {I : σ → Prop} {body : Nat → σ → Prog R σ} {l : Nat → List (Nat × Bool)} {s : σ} (hs : I s)
    (h : ∀ i < n, ∀ s, I s → (body i s).EmitsTo L I (l i)) : (fold n body s).EmitsTo L I ((List.range n).flatMap l) := by
  induction n with
  | zero => exact ⟨rfl, s, rfl, hs⟩
  | succ n ih =>
    have := EmitsTo.bind_to (ih fun i hi => h i (by omega)) fun s hs => h n (by omega) s hs
    rw [List.range_succ, List.flatMap_append, List.flatMap_singleton]
    exact this

theorem EmitsTo.wr_own {L N o : Nat} {z : List R} (hz : z.length = N) (ho : o < N) (v : R) :
    (Prog.lift (StdNN.wr z o v) : Prog R (List R)).EmitsTo L (fun z => z.length = N) [] :=
  ⟨rfl, z.set o v, by rw [StdNN.wr, if_pos (by omega)], by simpa using hz⟩

end Prog
end StdNN
