import Verif.Lemmas.ThreadOps
import Verif.Props.Shared
import Verif.Props.PoolPolicy
/-!
# Operators called by several threads at once

A thread makes calls one after another (`Thread`); threads share one memory and take turns after every element they read or
write (`Prog.play`). Threads are kept apart if no cell that one of them writes is read or written by another.
-/
namespace StdNN
open Outcome Spec IntTy
variable {R : Type}
namespace Prog

/-! ## Specification -/

/-- A call of an operator: its inputs in memory of the thread or in the shared memory, and the address of its output. -/
inductive Call (R : Type) : Type 1 where
  | unary (f : R → R) (n : Nat) (x : Src R) (z : Nat)
  | binary (f : R → R → R) (n : Nat) (x y : Src R) (z : Nat)
  | bias (f : R → R → R) (rows cols : Nat) (x y : Src R) (z : Nat)
  | biasAt (f : R → R → R) (p : Nat) (dims : List Nat) (x y : Src R) (z : Nat)
  | copy (n : Nat) (x : Src R) (z : Nat)
  | sumRows (rows cols : Nat) (x : Src R) (z : Nat)
  | xentropyGrad (rows n : Nat) (gz : List R) (x y : Src R) (z : Nat)
  | softmaxGrad (junk : Nat → R) (rows n : Nat) (gy y : Src R) (z : Nat)
  | softmax (exp : R → R) (eps : R) (rows n : Nat) (x : Src R) (z : Nat)
  | mm (ad bd cd : List Nat) (a b : Src R) (z : Nat)
  | mmt (ad bd cd : List Nat) (a b : Src R) (z : Nat)
  | mtm (ad bd cd : List Nat) (a b : Src R) (z : Nat)
  | mv (ad bd cd : List Nat) (a b : Src R) (z : Nat)
  | vm (ad bd cd : List Nat) (a b : Src R) (z : Nat)
  | conv (t : ConvTrait) (junkI : Nat → Int) (junk : Nat → R) (zd xd yd : List Nat) (x y : Src R) (z : Nat)
  | toFirst (f : R → R) (n h w c : Nat) (x : Src R) (z : Nat)
  | toLast (f : R → R) (n h w c : Nat) (x : Src R) (z : Nat)
  | poolHw (acc : Acc R) (H W : Axis) (x : Src R) (z : Nat)
  | poolHwc (acc : Acc R) (H W : Axis) (c : Nat) (x : Src R) (z : Nat)
  | poolNhwc (acc : Acc R) (H W : Axis) (n c : Nat) (x : Src R) (z : Nat)
  | poolNchw (acc : Acc R) (H W : Axis) (n c : Nat) (x : Src R) (z : Nat)

namespace Call

/-- The cells of the shared memory that hold the inputs. -/
def reads : Call R → Nat → Prop
  | unary _ n x _, q => x.uses n q
  | binary _ n x y _, q => x.uses n q ∨ y.uses n q
  | bias _ rows cols x y _, q => x.uses (rows * cols) q ∨ y.uses cols q
  | biasAt _ p dims x y _, q => x.uses dims.prod q ∨ y.uses (dims.getD p 0) q
  | copy n x _, q => x.uses n q
  | sumRows rows cols x _, q => x.uses (rows * cols) q
  | xentropyGrad rows n _ x y _, q => x.uses (rows * n) q ∨ y.uses (rows * n) q
  | softmaxGrad _ rows n gy y _, q => gy.uses (rows * n) q ∨ y.uses (rows * n) q
  | softmax _ _ rows n x _, q => x.uses (rows * n) q
  | mm ad bd _ a b _, q => a.uses ad.prod q ∨ b.uses bd.prod q
  | mmt ad bd _ a b _, q => a.uses ad.prod q ∨ b.uses bd.prod q
  | mtm ad bd _ a b _, q => a.uses ad.prod q ∨ b.uses bd.prod q
  | mv ad bd _ a b _, q => a.uses ad.prod q ∨ b.uses bd.prod q
  | vm ad bd _ a b _, q => a.uses ad.prod q ∨ b.uses bd.prod q
  | conv _ _ _ _ xd yd x y _, q => x.uses xd.prod q ∨ y.uses yd.prod q
  | toFirst _ n h w c x _, q => x.uses [n, h, w, c].prod q
  | toLast _ n h w c x _, q => x.uses [n, c, h, w].prod q
  | poolHw _ H W x _, q => x.uses [H.n, W.n].prod q
  | poolHwc _ H W c x _, q => x.uses [H.n, W.n, c].prod q
  | poolNhwc _ H W n c x _, q => x.uses [n, H.n, W.n, c].prod q
  | poolNchw _ H W n c x _, q => x.uses [n, c, H.n, W.n].prod q

/-- Where the output begins and how many elements it has. -/
def out : Call R → Nat × Nat
  | unary _ n _ z => (z, n)
  | binary _ n _ _ z => (z, n)
  | bias _ rows cols _ _ z => (z, rows * cols)
  | biasAt _ _ dims _ _ z => (z, dims.prod)
  | copy n _ z => (z, n)
  | sumRows _ cols _ z => (z, cols)
  | xentropyGrad rows n _ _ _ z => (z, rows * n)
  | softmaxGrad _ rows n _ _ z => (z, rows * n)
  | softmax _ _ rows n _ z => (z, rows * n)
  | mm _ _ cd _ _ z => (z, cd.prod)
  | mmt _ _ cd _ _ z => (z, cd.prod)
  | mtm _ _ cd _ _ z => (z, cd.prod)
  | mv _ _ cd _ _ z => (z, cd.prod)
  | vm _ _ cd _ _ z => (z, cd.prod)
  | conv _ _ _ zd _ _ _ _ z => (z, zd.prod)
  | toFirst _ n h w c _ z => (z, [n, c, h, w].prod)
  | toLast _ n h w c _ z => (z, [n, h, w, c].prod)
  | poolHw _ H W _ z => (z, [H.m, W.m].prod)
  | poolHwc _ H W c _ z => (z, [H.m, W.m, c].prod)
  | poolNhwc _ H W n c _ z => (z, [n, H.m, W.m, c].prod)
  | poolNchw _ H W n c _ z => (z, [n, c, H.m, W.m].prod)

/-- The cells of the output. -/
def writes (c : Call R) : Nat → Prop := block c.out.1 c.out.2

/-- The output (and, for a convolution, the image) lies in the memory of `L` cells; pooling windows are those of the axes;
a bias lies along one of the dimensions. -/
def OK (L : Nat) (c : Call R) : Prop :=
  c.out.1 + c.out.2 ≤ L ∧
    match c with
    | biasAt _ p dims _ _ _ => p < dims.length
    | conv _ _ _ _ xd _ x _ _ => ∀ p, x = .mem p → p + xd.prod ≤ L
    | poolHw _ H W _ _ => AxisOK u32 H ∧ AxisOK u32 W
    | poolHwc _ H W _ _ _ => AxisOK u32 H ∧ AxisOK u32 W
    | poolNhwc _ H W _ _ _ _ => AxisOK u32 H ∧ AxisOK u32 W ∧ H.r = 1 ∧ W.r = 1
    | poolNchw _ H W _ _ _ _ => AxisOK u32 H ∧ AxisOK u32 W ∧ H.r = 1 ∧ W.r = 1
    | _ => True

section
variable [Zero R] [One R] [Add R] [Sub R] [Mul R] [Neg R] [Div R] [LT R] [DecidableLT R]

/-- The reads and writes of the call. -/
def prog : Call R → Prog R Unit
  | unary f n x z => transform1 f n x z
  | binary f n x y z => transform2 f n x y z
  | bias f rows cols x y z => applyBiasRows f rows cols x y z
  | biasAt f p dims x y z => Prog.applyBias f p dims x y z
  | copy n x z => Prog.copy n x z
  | sumRows rows cols x z => Prog.sumRows rows cols x z
  | xentropyGrad rows n gz x y z => Prog.xentropyGrad rows n gz x y z
  | softmaxGrad junk rows n gy y z => Prog.softmaxGrad junk rows n gy y z
  | softmax exp eps rows n x z => Prog.softmax exp eps rows n x z
  | mm ad bd cd a b z => Prog.mm ad bd cd a b z
  | mmt ad bd cd a b z => Prog.mmt ad bd cd a b z
  | mtm ad bd cd a b z => Prog.mtm ad bd cd a b z
  | mv ad bd cd a b z => Prog.mv ad bd cd a b z
  | vm ad bd cd a b z => Prog.vm ad bd cd a b z
  | conv t junkI junk zd xd yd x y z => convNhwc t junkI junk zd xd yd x y z
  | toFirst f n h w c x z => Prog.toFirst f [n, h, w, c] [n, c, h, w] x z
  | toLast f n h w c x z => Prog.toLast f [n, c, h, w] [n, h, w, c] x z
  | poolHw acc H W x z => Prog.poolHw acc (poolTrait H W) [H.m, W.m] [H.n, W.n] x z
  | poolHwc acc H W c x z => Prog.poolHwc acc (poolTrait H W) [H.m, W.m, c] [H.n, W.n, c] x z
  | poolNhwc acc H W n c x z => Prog.poolNhwc acc (poolTrait H W) [n, H.m, W.m, c] [n, H.n, W.n, c] x z
  | poolNchw acc H W n c x z => Prog.poolNchw acc (poolTrait H W) [n, c, H.m, W.m] [n, c, H.n, W.n] x z

/-- What the call does in a program with one thread: the models that the other claims are about. -/
def effect : Call R → List R → Outcome (List R)
  | unary f n x z => Kernels.transform1 f n x z
  | binary f n x y z => Kernels.transform2 f n x y z
  | bias f rows cols x y z => forRange rows fun i m => Kernels.transform2 f cols (x.shift (i * cols)) y (z + i * cols) m
  | biasAt f p dims x y z => Shared.applyBias f p dims x y z
  | copy n x z => Shared.copyGrad n x z
  | sumRows rows cols x z => Shared.sumRows rows cols x z
  | xentropyGrad rows n gz x y z => Shared.xentropyGrad rows n gz x y z
  | softmaxGrad junk rows n gy y z => Shared.softmaxGrad junk rows n gy y z
  | softmax exp eps rows n x z => Kernels.softmax exp eps n rows n x z
  | mm ad bd cd a b z => Shared.mm ad bd cd a b z
  | mmt ad bd cd a b z => Shared.mmt ad bd cd a b z
  | mtm ad bd cd a b z => Shared.mtm ad bd cd a b z
  | mv ad bd cd a b z => Shared.mv ad bd cd a b z
  | vm ad bd cd a b z => Shared.vm ad bd cd a b z
  | conv t junkI junk zd xd yd x y z => Shared.convNhwc t junkI junk zd xd yd x y z
  | toFirst f n h w c x z => Shared.toFirst f [n, h, w, c] [n, c, h, w] x z
  | toLast f n h w c x z => Shared.toLast f [n, c, h, w] [n, h, w, c] x z
  | poolHw acc H W x z => Shared.poolHw acc (poolTrait H W) [H.m, W.m] [H.n, W.n] x z
  | poolHwc acc H W c x z => Shared.poolHwc acc (poolTrait H W) [H.m, W.m, c] [H.n, W.n, c] x z
  | poolNhwc acc H W n c x z => Shared.poolNhwc acc (poolTrait H W) [n, H.m, W.m, c] [n, H.n, W.n, c] x z
  | poolNchw acc H W n c x z => Shared.poolNchw acc (poolTrait H W) [n, c, H.m, W.m] [n, c, H.n, W.n] x z

end
end Call

/-- What a thread does: calls, one after another. -/
abbrev Thread (R : Type) := List (Call R)

namespace Thread

/-- The cells that hold inputs of the calls. -/
def reads (t : Thread R) (q : Nat) : Prop := ∃ c ∈ t, c.reads q

/-- The cells of the outputs of the calls. -/
def writes (t : Thread R) (q : Nat) : Prop := ∃ c ∈ t, c.writes q

variable [Zero R] [One R] [Add R] [Sub R] [Mul R] [Neg R] [Div R] [LT R] [DecidableLT R]

/-- The reads and writes of the thread. -/
def prog : Thread R → Prog R Unit
  | [] => pure ()
  | c :: t => c.prog >>= fun _ => prog t

/-- What the calls do in a program with one thread. -/
def effect (t : Thread R) (m : List R) : Outcome (List R) := t.foldlM (fun m c => c.effect m) m

end Thread

/-- No cell written by a thread is read or written by another one. -/
def Apart {ι : Type} (threads : ι → Thread R) : Prop :=
  ∀ i j, i ≠ j → ∀ q, (threads i).writes q → ¬ (threads j).reads q ∧ ¬ (threads j).writes q

/-! ## Calls and threads -/

section
variable [Zero R] [One R] [Add R] [Sub R] [Mul R] [Neg R] [Div R] [LT R] [DecidableLT R]

/-- The reads and writes of a call have the effect of the call, and touch no cell but those of its inputs and output. -/
theorem Call.does {L : Nat} {c : Call R} (h : c.OK L) : Does L (fun q => c.reads q ∨ c.writes q) c.writes c.prog c.effect := by
  cases c with
  | unary f n x z => exact Does.transform1 f (fun _ => .inl) fun _ h => h
  | binary f n x y z => exact Does.transform2 f (fun _ h => .inl (.inl h)) (fun _ h => .inl (.inr h)) fun _ h => h
  | bias f rows cols x y z => exact Does.applyBiasRows f (fun _ h => .inl (.inl h)) (fun _ h => .inl (.inr h)) fun _ h => h
  | biasAt f p dims x y z => exact Does.applyBias f h.2 (fun _ h => .inl (.inl h)) (fun _ h => .inl (.inr h)) fun _ h => h
  | copy n x z => exact Does.copy (fun _ => .inl) fun _ h => h
  | sumRows rows cols x z => exact Does.sumRows h.1 (fun _ => .inl) (fun _ => .inr) fun _ h => h
  | xentropyGrad rows n gz x y z => exact Does.xentropyGrad (fun _ h => .inl (.inl h)) (fun _ h => .inl (.inr h)) fun _ h => h
  | softmaxGrad junk rows n gy y z =>
    exact Does.softmaxGrad junk (fun _ h => .inl (.inl h)) (fun _ h => .inl (.inr h)) fun _ h => h
  | softmax exp eps rows n x z => exact Does.softmax exp eps (fun _ => .inl) fun _ h => h
  | mm ad bd cd a b z =>
    exact Does.mm h.1 (fun _ h => .inl (.inl h)) (fun _ h => .inl (.inr h)) (fun _ => .inr) fun _ h => h
  | mmt ad bd cd a b z => exact Does.mmt (fun _ h => .inl (.inl h)) (fun _ h => .inl (.inr h)) fun _ h => h
  | mtm ad bd cd a b z => exact Does.mtm (fun _ h => .inl (.inl h)) (fun _ h => .inl (.inr h)) fun _ h => h
  | mv ad bd cd a b z => exact Does.mv (fun _ h => .inl (.inl h)) (fun _ h => .inl (.inr h)) fun _ h => h
  | vm ad bd cd a b z => exact Does.vm (fun _ h => .inl (.inl h)) (fun _ h => .inl (.inr h)) fun _ h => h
  | conv t junkI junk zd xd yd x y z =>
    exact Does.convNhwc t junkI junk h.1 h.2 (fun _ h => .inl (.inl h)) (fun _ h => .inl (.inr h)) (fun _ => .inr) fun _ h => h
  | toFirst f n h w c x z => exact Does.toFirst f (fun _ => .inl) fun _ h => h
  | toLast f n h w c x z => exact Does.toLast f (fun _ => .inl) fun _ h => h
  | poolHw acc H W x z => exact Does.poolHw acc h.2.1 h.2.2 (fun _ => .inl) fun _ h => h
  | poolHwc acc H W c x z => exact Does.poolHwc acc h.2.1 h.2.2 (fun _ => .inl) fun _ h => h
  | poolNhwc acc H W n c x z =>
    exact Does.poolNhwc acc h.2.1 h.2.2.1 h.2.2.2.1 h.2.2.2.2 (fun _ => .inl) fun _ h => h
  | poolNchw acc H W n c x z =>
    exact Does.poolNchw acc h.2.1 h.2.2.1 h.2.2.2.1 h.2.2.2.2 (fun _ => .inl) fun _ h => h

theorem Thread.does {L : Nat} {t : Thread R} (h : ∀ c ∈ t, c.OK L) :
    Does L (fun q => t.reads q ∨ t.writes q) t.writes t.prog t.effect := by
  induction t with
  | nil => exact Does.skip
  | cons c t ih =>
    have h1 := (Call.does (h c (by simp))).mono (Rd' := fun q => Thread.reads (c :: t) q ∨ Thread.writes (c :: t) q)
      (Wr' := Thread.writes (c :: t)) (fun q hq => hq.imp (fun h => ⟨c, by simp, h⟩) fun h => ⟨c, by simp, h⟩)
      fun q hq => ⟨c, by simp, hq⟩
    have h2 := (ih fun c hc => h c (by simp [hc])).mono (Rd' := fun q => Thread.reads (c :: t) q ∨ Thread.writes (c :: t) q)
      (Wr' := Thread.writes (c :: t))
      (fun q hq => hq.imp (fun ⟨d, hd, h⟩ => ⟨d, by simp [hd], h⟩) fun ⟨d, hd, h⟩ => ⟨d, by simp [hd], h⟩)
      fun q ⟨d, hd, h⟩ => ⟨d, by simp [hd], h⟩
    refine (Does.seq h1 h2).congr fun m _ => ?_
    simp only [Thread.effect, List.foldlM_cons]
    rfl

section
variable {ι : Type} [DecidableEq ι]

/-- Threads that are kept apart and whose calls succeed when made alone: whatever turns they take, no two of them ever are
about to access one cell of which one writes, none ends but by returning from its last call, a thread that has had as many
turns as it makes accesses has ended and its outputs are those of making its calls alone, and cells that are no thread's output
keep their contents. -/
theorem C168_threads {threads : ι → Thread R} {mem : List R} (ok : ∀ i, ∀ c ∈ threads i, c.OK mem.length)
    (apart : Apart threads) {M : ι → List R} (alone : ∀ i, (threads i).effect mem = .ok (M i)) (turns : List ι)
    {c : (ι → Prog R Unit) × List R} (hc : c = play turns (fun i => (threads i).prog, mem)) :
    (∀ i j, i ≠ j → ∀ q w w', (c.1 i).access = some (q, w) → (c.1 j).access = some (q, w') → w = false ∧ w' = false) ∧
    (∀ i o, c.1 i = .halt o → o = .ok ()) ∧
    (∀ i, (threads i).prog.cost mem ≤ turns.count i →
      c.1 i = .halt (.ok ()) ∧ ∀ q, (threads i).writes q → c.2[q]? = (M i)[q]?) ∧
    c.2.length = mem.length ∧ ∀ q, (∀ i, ¬ (threads i).writes q) → c.2[q]? = mem[q]? := by
  have D := fun i => Thread.does (ok i)
  have hw : ∀ i, ((threads i).prog).Within _ _ := fun i => (D i).within
  have run : ∀ i, (threads i).prog.run mem = .ok (M i, ()) := fun i => by rw [(D i).run mem rfl, alone i]; rfl
  obtain ⟨h1, h2, h3⟩ := play_inv (P := fun i => (threads i).prog) (Rd := fun i q => (threads i).reads q ∨ (threads i).writes q)
    (Wr := fun i => (threads i).writes) hw
    (fun i j hij q hq => ⟨fun h => h.elim (apart i j hij q hq).1 (apart i j hij q hq).2, (apart i j hij q hq).2⟩) mem turns
  subst hc
  refine ⟨fun i j hij q w w' ei ej => ?_, fun i o ho => ?_, fun i hi => ?_, h1, h3⟩
  · have wi := access_within (R := R) (by rw [(h2 i).1]; exact alone_within _ (hw i)) ei
    have wj := access_within (R := R) (by rw [(h2 j).1]; exact alone_within _ (hw j)) ej
    cases w <;> cases w'
    · exact ⟨rfl, rfl⟩
    · simp only [if_true, Bool.false_eq_true, if_false] at wi wj
      exact (wi.elim (apart j i (Ne.symm hij) q wj).1 (apart j i (Ne.symm hij) q wj).2).elim
    · simp only [if_true, Bool.false_eq_true, if_false] at wi wj
      exact (wj.elim (apart i j hij q wi).1 (apart i j hij q wi).2).elim
    · simp only [if_true] at wi wj
      exact ((apart i j hij q wi).2 wj).elim
  · rw [(h2 i).1] at ho
    exact alone_halt (run i) ho
  · have e := alone_done hi (run i)
    refine ⟨by rw [(h2 i).1, e], fun q hq => ?_⟩
    rw [(h2 i).2 q (.inr hq), e]

/-- Once all have ended, the memory is the one left by making the calls of the threads one thread after another in one thread,
in any order. -/
theorem C168_any_order {threads : ι → Thread R} {mem : List R} (ok : ∀ i, ∀ c ∈ threads i, c.OK mem.length)
    (apart : Apart threads) {M : ι → List R} (alone : ∀ i, (threads i).effect mem = .ok (M i)) {turns : List ι}
    (done : ∀ i, (threads i).prog.cost mem ≤ turns.count i) {order : List ι} (nodup : order.Nodup) (all : ∀ i, i ∈ order) :
    order.foldlM (fun m i => (threads i).effect m) mem = .ok (play turns (fun i => (threads i).prog, mem)).2 := by
  have D := fun i => Thread.does (ok i)
  have run : ∀ i, (threads i).prog.run mem = .ok (M i, ()) := fun i => by rw [(D i).run mem rfl, alone i]; rfl
  obtain ⟨-, -, h3, h4, h5⟩ := C168_threads ok apart alone turns rfl
  have key : ∀ (l : List ι), l.Nodup → ∀ m : List R, m.length = mem.length →
      (∀ i ∈ l, ∀ q, ((threads i).reads q ∨ (threads i).writes q) → m[q]? = mem[q]?) →
      ∃ N, l.foldlM (fun m i => (threads i).effect m) m = .ok N ∧ N.length = mem.length ∧
        (∀ i ∈ l, ∀ q, (threads i).writes q → N[q]? = (M i)[q]?) ∧
        ∀ q, (∀ i ∈ l, ¬ (threads i).writes q) → N[q]? = m[q]? := by
    intro l
    induction l with
    | nil => exact fun _ m hm _ => ⟨m, rfl, hm, by simp, fun _ _ => rfl⟩
    | cons i l ih =>
      intro nd m hm ha
      rw [List.nodup_cons] at nd
      obtain ⟨N, n1, n2, n3, n4⟩ := run_agree (D i).within hm
        (fun q hq => ha i (by simp) q (hq.elim (fun h => h) .inr)) (run i)
      have eff : (threads i).effect m = .ok N := by
        have := (D i).run m hm
        rw [n1] at this
        obtain ⟨m', e1, e2⟩ := bind_eq_ok.1 this.symm
        have e2 := Outcome.ok.inj e2
        rw [e1]
        exact congrArg _ (Prod.mk.inj e2).1
      have other : ∀ j ∈ l, j ≠ i := fun j hj e => nd.1 (e ▸ hj)
      obtain ⟨N', m1, m2, m3, m4⟩ := ih nd.2 N n2 fun j hj q hq => by
        rw [n4 q fun h => hq.elim (apart i j (Ne.symm (other j hj)) q h).1 (apart i j (Ne.symm (other j hj)) q h).2]
        exact ha j (by simp [hj]) q hq
      refine ⟨N', by rw [List.foldlM_cons, eff]; exact m1, m2, fun j hj q hq => ?_, fun q hq => ?_⟩
      · rcases List.mem_cons.1 hj with rfl | hj
        · rw [m4 q fun k hk h => (apart j k (Ne.symm (other k hk)) q hq).2 h]
          exact n3 q (.inr hq)
        · exact m3 j hj q hq
      · rw [m4 q fun j hj => hq j (by simp [hj])]
        exact n4 q (hq i (by simp))
  obtain ⟨N, n1, n2, n3, n4⟩ := key order nodup mem rfl fun _ _ _ _ => rfl
  rw [n1]
  refine congrArg _ (List.ext_getElem? fun q => ?_)
  by_cases h : ∃ i, (threads i).writes q
  · obtain ⟨i, hi⟩ := h
    rw [n3 i (all i) q hi, (h3 i (done i)).2 q hi]
  · have h' : ∀ i, ¬ (threads i).writes q := fun i hi => h ⟨i, hi⟩
    rw [n4 q fun i _ => h' i, h5 q h']

/-- Any two interleavings in which all threads end leave the same memory. -/
theorem C168_deterministic {threads : ι → Thread R} {mem : List R} (ok : ∀ i, ∀ c ∈ threads i, c.OK mem.length)
    (apart : Apart threads) {M : ι → List R} (alone : ∀ i, (threads i).effect mem = .ok (M i)) {turns turns' : List ι}
    (done : ∀ i, (threads i).prog.cost mem ≤ turns.count i) (done' : ∀ i, (threads i).prog.cost mem ≤ turns'.count i) :
    (play turns (fun i => (threads i).prog, mem)).2 = (play turns' (fun i => (threads i).prog, mem)).2 := by
  obtain ⟨-, -, h3, h4, h5⟩ := C168_threads ok apart alone turns rfl
  obtain ⟨-, -, g3, g4, g5⟩ := C168_threads ok apart alone turns' rfl
  refine List.ext_getElem? fun q => ?_
  by_cases h : ∃ i, (threads i).writes q
  · obtain ⟨i, hi⟩ := h
    rw [(h3 i (done i)).2 q hi, (g3 i (done' i)).2 q hi]
  · have h' : ∀ i, ¬ (threads i).writes q := fun i hi => h ⟨i, hi⟩
    rw [h5 q h', g5 q h']

end

/-- Alone, the reads and writes of a call have the effect of the call in the other models, and they stay in its inputs and
output. -/
theorem C168_call {L : Nat} {c : Call R} (h : c.OK L) :
    (∀ mem : List R, mem.length = L → c.prog.exec mem = c.effect mem) ∧
      c.prog.Within (fun q => c.reads q ∨ c.writes q) c.writes := by
  have d := Call.does h
  refine ⟨fun mem hm => ?_, d.within⟩
  rw [exec, d.run mem hm]
  cases c.effect mem <;> rfl

end

/-! ## A matrix product by several threads -/

/-- A matrix product whose inputs lie in the memory of its output, but apart from it. -/
theorem mm_inside [Zero R] [Add R] [Mul R] {m l n a b z : Nat} {mem : List R} {A B : List Nat → R}
    (ha : (mem.drop a).take (m * l) = (tab [m, l] A).data) (hb : (mem.drop b).take (l * n) = (tab [l, n] B).data)
    (hz : z + m * n ≤ mem.length) (ha' : a + m * l ≤ z ∨ z + m * n ≤ a) (hb' : b + l * n ≤ z ∨ z + m * n ≤ b) :
    Shared.mm [m, l] [l, n] [m, n] (.mem a) (.mem b) z mem = .ok (store mem z (tab [m, n] (Plain.prod2 l A B)).data) := by
  have pz : [m, n].prod = m * n := by simp
  have e : Shared.mm [m, l] [l, n] [m, n] (.mem a) (.mem b) z mem =
      Shared.mm [m, l] [l, n] [m, n] (.ext (tab [m, l] A).data) (.ext (tab [l, n] B).data) z mem := by
    simp only [Shared.mm, contractAssert_pos, Outcome.ok_bind, pz]
    let I : List R → Prop := fun m' => m'.length = mem.length ∧ ∀ q, q < z ∨ z + m * n ≤ q → m'[q]? = mem[q]?
    have hI : ∀ m1, onSlice z (m * n) (fillAll 0) mem = .ok m1 → I m1 := by
      intro m1 h1
      have h2 := onSlice_ok (g := fillAll 0) hz (s := (cells z (m * n) mem).map fun _ => (0 : R)) rfl
        (by simpa using cells_length hz)
      have h3 := Outcome.ok.inj (h1.symm.trans h2)
      have hl : ((cells z (m * n) mem).map fun _ => (0 : R)).length = m * n := by simpa using cells_length hz
      subst h3
      refine ⟨store_length (by rw [hl]; exact hz), fun q hq => ?_⟩
      rw [store_getElem? (by rw [hl]; exact hz), if_neg (by rw [hl]; omega)]
    cases c : onSlice z (m * n) (fillAll 0) mem with
    | throw x => rfl
    | ub => rfl
    | ok m1 =>
      refine (forRange_same (I := I) (fun i hi s hs => forRange_same (I := I) (fun k hk s hs => ?_) s hs) m1 (hI m1 c)).1
      have oa := offset_lt (v2 hi hk)
      rw [show [m, l].prod = m * l by simp] at oa
      have e1 : (Src.mem a).at_ [m, l] [i, k] s = (Src.ext (tab [m, l] A).data).at_ [m, l] [i, k] s := by
        show StdNN.rd s (a + offset [m, l] [i, k]) = StdNN.rd (tab [m, l] A).data (offset [m, l] [i, k])
        rw [← ha, StdNN.rd, StdNN.rd, hs.2 _ (by omega), List.getElem?_take_of_lt oa, List.getElem?_drop]
      rw [e1]
      cases (Src.ext (tab [m, l] A).data).at_ [m, l] [i, k] s with
      | throw x => exact ⟨rfl, fun s' e => by cases e⟩
      | ub => exact ⟨rfl, fun s' e => by cases e⟩
      | ok aa =>
        refine forRange_same (I := I) (fun j hj s hs => ?_) s hs
        have ob := offset_lt (v2 hk hj)
        rw [show [l, n].prod = l * n by simp] at ob
        have oz := offset_lt (v2 hi hj)
        rw [pz] at oz
        have e2 : (Src.mem b).at_ [l, n] [k, j] s = (Src.ext (tab [l, n] B).data).at_ [l, n] [k, j] s := by
          show StdNN.rd s (b + offset [l, n] [k, j]) = StdNN.rd (tab [l, n] B).data (offset [l, n] [k, j])
          rw [← hb, StdNN.rd, StdNN.rd, hs.2 _ (by omega), List.getElem?_take_of_lt ob, List.getElem?_drop]
        rw [e2]
        refine ⟨rfl, fun s' e => ?_⟩
        obtain ⟨bb, -, e⟩ := bind_eq_ok.1 e
        obtain ⟨v, -, e⟩ := bind_eq_ok.1 e
        unfold StdNN.wr at e
        split at e
        · have e := Outcome.ok.inj e
          subst e
          refine ⟨by rw [List.length_set]; exact hs.1, fun q hq => ?_⟩
          rw [List.getElem?_set, if_neg (by omega)]
          exact hs.2 q hq
        · cases e
  have hz' : z + [m, n].prod ≤ mem.length := by rw [pz]; exact hz
  rw [e, ((Shared.C165_separate m l l n m n _ _ z mem).1 hz').1]
  exact onSlice_ok hz' (Plain.mm_run A B (by rw [← pz]; exact cells_length hz')) (by simp)

/-- A block of rows of a matrix. -/
theorem cells_rows [Zero R] {k r n i : Nat} (hi : i < k) (X : Nat → Nat → R) :
    cells (i * (r * n)) (r * n) (tab [k * r, n] (fn2 X)).data = (tab [r, n] (fn2 fun u => X (i * r + u))).data := by
  have hlen : (tab [k * r, n] (fn2 X)).data.length = k * (r * n) := by simp [Nat.mul_assoc]
  have hb := row_in (n := r * n) hi
  refine List.ext_getElem? fun p => ?_
  by_cases c : p < r * n
  · have hn : 0 < n := by
      rcases Nat.eq_zero_or_pos n with h | h
      · subst h; simp at c
      · exact h
    have hu : p / n < r := by rwa [Nat.div_lt_iff_lt_mul hn]
    have hj : p % n < n := Nat.mod_lt _ hn
    have hp := Nat.div_add_mod' p n
    have hir : i * r + p / n < k * r := by have := row_in (n := r) hi; omega
    have e : i * (r * n) + p = (i * r + p / n) * n + p % n := by
      rw [Nat.add_mul, Nat.mul_assoc]; omega
    rw [cells_getElem? c, e]
    have h1 := tab_getElem? (fn2 X) (v2 hir hj)
    have h2 := tab_getElem? (fn2 fun u => X (i * r + u)) (v2 hu hj)
    rw [show offset [k * r, n] [i * r + p / n, p % n] = (i * r + p / n) * n + p % n by simp] at h1
    rw [show offset [r, n] [p / n, p % n] = p by simpa using hp] at h2
    rw [h1, h2]
    rfl
  · rw [List.getElem?_eq_none (by rw [cells_length (by omega)]; omega), List.getElem?_eq_none (by simp; omega)]

/-- `k` threads that each multiply a block of `r` rows of the left factor with the right factor leave the product of the whole
matrices, as one call for all rows does, whatever turns they take. -/
theorem C168_matmul [Zero R] [One R] [Add R] [Sub R] [Mul R] [Neg R] [Div R] [LT R] [DecidableLT R] {k r l n a b z : Nat}
    {mem : List R} {A B : Nat → Nat → R} (ha : (mem.drop a).take (k * r * l) = (tab [k * r, l] (fn2 A)).data)
    (hb : (mem.drop b).take (l * n) = (tab [l, n] (fn2 B)).data) (hz : z + k * r * n ≤ mem.length)
    (ha' : a + k * r * l ≤ z ∨ z + k * r * n ≤ a) (hb' : b + l * n ≤ z ∨ z + k * r * n ≤ b) {threads : Fin k → Thread R}
    (ht : threads = fun i => [.mm [r, l] [l, n] [r, n] (.mem (a + i * (r * l))) (.mem b) (z + i * (r * n))])
    {turns : List (Fin k)} (done : ∀ i, (threads i).prog.cost mem ≤ turns.count i) :
    (play turns (fun i => (threads i).prog, mem)).2 =
        store mem z (tab [k * r, n] (fn2 fun i j => seqSum l fun q => A i q * B q j)).data ∧
      Shared.mm [k * r, l] [l, n] [k * r, n] (.mem a) (.mem b) z mem =
        .ok (store mem z (tab [k * r, n] (fn2 fun i j => seqSum l fun q => A i q * B q j)).data) := by
  have one := mm_inside ha hb hz ha' hb'
  refine ⟨?_, one⟩
  let Y : Nat → Nat → R := fun i j => seqSum l fun q => A i q * B q j
  let M : Fin k → List R := fun i => store mem (z + i * (r * n)) (tab [r, n] (fn2 fun u => Y (i * r + u))).data
  have e1 : k * r * l = k * (r * l) := Nat.mul_assoc ..
  have e2 : k * r * n = k * (r * n) := Nat.mul_assoc ..
  have bl := fun i : Fin k => row_in (n := r * l) i.2
  have bn := fun i : Fin k => row_in (n := r * n) i.2
  have alone : ∀ i, (threads i).effect mem = .ok (M i) := by
    intro i
    have hi := bl i
    have hi' := bn i
    have hA : (mem.drop (a + i * (r * l))).take (r * l) = (tab [r, l] (fn2 fun u => A (i * r + u))).data := by
      rw [← cells_rows i.2 A, ← ha, cells, List.drop_take, List.take_take, List.drop_drop, Nat.min_eq_left (by omega)]
    have := mm_inside hA hb (z := z + i * (r * n)) (by omega) (by omega) (by omega)
    subst ht
    show (Shared.mm [r, l] [l, n] [r, n] (.mem (a + i * (r * l))) (.mem b) (z + i * (r * n)) mem >>= fun m => .ok m) = _
    rw [this]
    rfl
  have hw : ∀ i q, (threads i).writes q ↔ z + i * (r * n) ≤ q ∧ q < z + i * (r * n) + r * n := by
    intro i q
    subst ht
    simp [Thread.writes, Call.writes, Call.out, block]
  have hr : ∀ i q, (threads i).reads q → (a ≤ q ∧ q < a + k * r * l) ∨ b ≤ q ∧ q < b + l * n := by
    intro i q h
    have hi := bl i
    subst ht
    simp only [Thread.reads, List.mem_singleton, exists_eq_left, Call.reads, Src.uses, List.prod_cons, List.prod_nil,
      Nat.mul_one] at h
    rcases h with h | h
    · left; omega
    · right; exact h
  have ok : ∀ i, ∀ c ∈ threads i, c.OK mem.length := by
    intro i c hc
    have hi := bn i
    subst ht
    simp only [List.mem_singleton] at hc
    subst hc
    refine ⟨?_, trivial⟩
    show z + i * (r * n) + [r, n].prod ≤ mem.length
    rw [show [r, n].prod = r * n by simp]
    omega
  have apart : Apart threads := by
    intro i j hij q hq
    rw [hw] at hq
    have hi := bn i
    refine ⟨fun h => ?_, fun h => ?_⟩
    · have := hr j q h
      omega
    · rw [hw] at h
      rcases Nat.lt_or_gt_of_ne (fun h => hij (Fin.ext h) : (i : Nat) ≠ j) with c | c
      · have := row_in (n := r * n) c
        omega
      · have := row_in (n := r * n) c
        omega
  obtain ⟨-, -, h3, h4, h5⟩ := C168_threads ok apart alone turns rfl
  have hl : (tab [k * r, n] (fn2 Y)).data.length = k * (r * n) := by simp [Nat.mul_assoc]
  refine List.ext_getElem? fun q => ?_
  rw [store_getElem? (by rw [hl]; omega), hl]
  by_cases c : z ≤ q ∧ q < z + k * (r * n)
  · have hpos : 0 < r * n := by
      rcases Nat.eq_zero_or_pos (r * n) with h | h
      · rw [h] at c; omega
      · exact h
    have hik : (q - z) / (r * n) < k := by rw [Nat.div_lt_iff_lt_mul hpos]; omega
    have hd := Nat.div_add_mod' (q - z) (r * n)
    have hm := Nat.mod_lt (q - z) hpos
    have hwq : (threads ⟨_, hik⟩).writes q := by
      rw [hw]
      show z + (q - z) / (r * n) * (r * n) ≤ q ∧ q < z + (q - z) / (r * n) * (r * n) + r * n
      generalize (q - z) / (r * n) * (r * n) = t at *
      omega
    rw [if_pos c, (h3 ⟨_, hik⟩ (done _)).2 q hwq]
    have hi' := bn ⟨_, hik⟩
    have hl' : (tab [r, n] (fn2 fun u => Y ((q - z) / (r * n) * r + u))).data.length = r * n := by simp
    show (store mem (z + (q - z) / (r * n) * (r * n)) (tab [r, n] (fn2 fun u => Y ((q - z) / (r * n) * r + u))).data)[q]? = _
    rw [store_getElem? (by rw [hl']; simp only at hi'; omega), hl', if_pos (by omega), ← cells_rows hik Y,
      cells_getElem? (by omega)]
    congr 1
    omega
  · rw [if_neg c, h5 q fun i h => ?_]
    rw [hw] at h
    have := bn i
    omega

/-! ## Threads that are not apart -/

/-- Two products of 1 by 1 matrices into one cell. -/
def exClash (i : Fin 2) : Thread Int := [.mm [1, 1] [1, 1] [1, 1] (.ext [if i = 0 then 1 else 2]) (.ext [1]) 0]

/-- Threads with one output: the result depends on the turns, and it may be one that no order of the calls gives. Here both
threads clear the cell before either of them adds to it. -/
theorem C168_clash :
    (∀ i, (exClash i).prog.cost [0] ≤ 3) ∧
    (play [0, 0, 0, 1, 1, 1] (fun i => (exClash i).prog, [0])).2 = [2] ∧
    (play [1, 1, 1, 0, 0, 0] (fun i => (exClash i).prog, [0])).2 = [1] ∧
    (play [0, 1, 0, 0, 1, 1] (fun i => (exClash i).prog, [0])).2 = [3] ∧
    ∀ order : List (Fin 2), order.Nodup → (∀ i, i ∈ order) →
      order.foldlM (fun m i => (exClash i).effect m) [0] ≠ .ok [3] := by
  refine ⟨by decide, by decide, by decide, by decide, fun order nd all => ?_⟩
  have h : order.length = 2 := by
    have h1 := nd.length_le_card
    have h2 : ({0, 1} : Finset (Fin 2)).card ≤ order.toFinset.card := Finset.card_le_card fun i _ => by simpa using all i
    have h3 := order.toFinset_card_le
    simp at h1 h2
    omega
  match order, h, nd with
  | [a, b], _, nd =>
    have : (a = 0 ∧ b = 1) ∨ a = 1 ∧ b = 0 := by
      have : a ≠ b := by simpa using nd
      omega
    rcases this with ⟨rfl, rfl⟩ | ⟨rfl, rfl⟩
    · have : [0, 1].foldlM (fun m i => (exClash i).effect m) [0] = .ok [(2 : Int)] := by rfl
      rw [this]
      simp
    · have : [1, 0].foldlM (fun m i => (exClash i).effect m) [0] = .ok [(1 : Int)] := by rfl
      rw [this]
      simp

/-- Thread 0 writes what thread 1 reads. -/
def exRead (i : Fin 2) : Thread Int := if i = 0 then [.unary id 1 (.ext [5]) 0] else [.unary id 1 (.mem 0) 1]

/-- A thread that reads the output of another: there is a state in which one is about to write the cell that the other is about
to read, and the result depends on the turns. -/
theorem C168_read_clash :
    ((play [] (fun i => (exRead i).prog, [1, 2])).1 0).access = some (0, true) ∧
    ((play [] (fun i => (exRead i).prog, [1, 2])).1 1).access = some (0, false) ∧
    (play [0, 1, 1] (fun i => (exRead i).prog, [1, 2])).2 = [5, 5] ∧
    (play [1, 1, 0] (fun i => (exRead i).prog, [1, 2])).2 = [5, 1] := by
  decide

/-! ## Examples -/

/-- Two threads that share an input: a matrix product with `relu` on its output, and a doubling. The memory has the factors in
cells 0 to 7, outputs in 8 to 15. -/
def exThreads (i : Fin 2) : Thread Int :=
  if i = 0 then [.mm [2, 2] [2, 2] [2, 2] (.mem 0) (.mem 4) 8, .unary (fun v => if v > 0 then v else 0) 4 (.mem 8) 8]
  else [.binary (· + ·) 4 (.mem 4) (.mem 4) 12]

/-- The memory of the example. -/
def exMem : List Int := [1, 2, 3, 4, 1, -1, -1, 1, 7, 7, 7, 7, 7, 7, 7, 7]

theorem exThreads_ok : ∀ i, ∀ c ∈ exThreads i, c.OK exMem.length := by
  intro i c hc
  have : i = 0 ∨ i = 1 := by omega
  rcases this with rfl | rfl
  · simp only [exThreads, if_true, List.mem_cons, List.not_mem_nil, or_false] at hc
    rcases hc with rfl | rfl
    · exact ⟨by decide, trivial⟩
    · exact ⟨by decide, trivial⟩
  · have hc : c = .binary (· + ·) 4 (.mem 4) (.mem 4) 12 := by simpa [exThreads] using hc
    subst hc
    exact ⟨by decide, trivial⟩

theorem exThreads_apart : Apart exThreads := by
  intro i j hij q hq
  have : (i = 0 ∧ j = 1) ∨ i = 1 ∧ j = 0 := by omega
  rcases this with ⟨rfl, rfl⟩ | ⟨rfl, rfl⟩
  · simp [exThreads, Thread.writes, Thread.reads, Call.writes, Call.reads, Call.out, block, Src.uses] at hq ⊢
    omega
  · simp [exThreads, Thread.writes, Thread.reads, Call.writes, Call.reads, Call.out, block, Src.uses] at hq ⊢
    omega

set_option maxRecDepth 8000 in
example : (∀ i, ∀ c ∈ exThreads i, c.OK exMem.length) ∧ Apart exThreads ∧
    (exThreads 0).effect exMem = .ok [1, 2, 3, 4, 1, -1, -1, 1, 0, 1, 0, 1, 7, 7, 7, 7] ∧
    (exThreads 1).effect exMem = .ok [1, 2, 3, 4, 1, -1, -1, 1, 7, 7, 7, 7, 2, -2, -2, 2] ∧
    (∀ i, (exThreads i).prog.cost exMem ≤ ((List.replicate 40 [(0 : Fin 2), 1]).flatten).count i) ∧
    (play (List.replicate 40 [0, 1]).flatten (fun i => (exThreads i).prog, exMem)).2 =
      [1, 2, 3, 4, 1, -1, -1, 1, 0, 1, 0, 1, 2, -2, -2, 2] :=
  ⟨exThreads_ok, exThreads_apart, rfl, rfl, by decide, by decide⟩

set_option maxRecDepth 8000 in
example : [1, 0].foldlM (fun m i => (exThreads i).effect m) exMem =
    .ok (play (List.replicate 40 [0, 1]).flatten (fun i => (exThreads i).prog, exMem)).2 :=
  C168_any_order (M := fun i => if i = 0 then [1, 2, 3, 4, 1, -1, -1, 1, 0, 1, 0, 1, 7, 7, 7, 7]
      else [1, 2, 3, 4, 1, -1, -1, 1, 7, 7, 7, 7, 2, -2, -2, 2])
    exThreads_ok exThreads_apart (fun i => by
      have : i = 0 ∨ i = 1 := by omega
      rcases this with rfl | rfl <;> rfl) (by decide) (by decide) (by decide)

/-- Two threads, two rows of the left factor each. -/
def exRows (i : Fin 2) : Thread Int := [.mm [2, 1] [1, 2] [2, 2] (.mem (0 + i * (2 * 1))) (.mem 4) (6 + i * (2 * 2))]

set_option maxRecDepth 8000 in
example : (([1, 2, 3, 4, 5, 6, 0, 0, 0, 0, 0, 0, 0, 0] : List Int).drop 0).take (2 * 2 * 1) =
      (tab [2 * 2, 1] (fn2 fun i _ => (i + 1 : Int))).data ∧
    (([1, 2, 3, 4, 5, 6, 0, 0, 0, 0, 0, 0, 0, 0] : List Int).drop 4).take (1 * 2) =
      (tab [1, 2] (fn2 fun _ j => (j + 5 : Int))).data ∧
    (∀ i, (exRows i).prog.cost [1, 2, 3, 4, 5, 6, 0, 0, 0, 0, 0, 0, 0, 0] ≤ ((List.replicate 20 [(0 : Fin 2), 1]).flatten).count i) ∧
    (play (List.replicate 20 [0, 1]).flatten (fun i => (exRows i).prog, [1, 2, 3, 4, 5, 6, 0, 0, 0, 0, 0, 0, 0, 0])).2 =
      [1, 2, 3, 4, 5, 6, 5, 6, 10, 12, 15, 18, 20, 24] := by
  decide

/-- A pooling of a 3 by 4 image and a convolution of a 3 by 5 image meet the conditions. -/
example : (Call.poolHw (Acc.max (0 : Int)) exPoolH exPoolW (.mem 0) 30).OK 100 ∧
    (Call.poolNchw (Acc.max (0 : Int)) exPoolH exPoolW 1 2 (.mem 0) 50).OK 100 ∧
    (Call.conv (R := Int) (convTrait exH exW) (fun _ => 0) (fun _ => 0) [1, 3, 3, 1] [1, 3, 5, 1] [2, 2, 1, 1] (.mem 0) (.mem 15)
      19).OK 100 := by
  refine ⟨⟨by decide, exPoolH_ok, exPoolW_ok⟩, ⟨by decide, exPoolH_ok, exPoolW_ok, rfl, rfl⟩, by decide, fun p hp => ?_⟩
  cases hp
  decide

end Prog
end StdNN
