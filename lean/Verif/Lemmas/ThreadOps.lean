import Verif.Lemmas.Threads
import Verif.Lemmas.Pool
/-!
# What the programs of the operators do
-/
namespace StdNN
open Outcome Spec IntTy
variable {R : Type}

/-- The addresses of the shared memory that hold an input of `n` elements. -/
def Src.uses (x : Src R) (n q : Nat) : Prop :=
  match x with
  | .ext _ => False
  | .mem p => p ≤ q ∧ q < p + n

/-- The addresses from `z` on for `n` elements. -/
def Prog.block (z n q : Nat) : Prop := z ≤ q ∧ q < z + n

theorem Src.uses_shift {x : Src R} {k n n' q : Nat} (h : k + n ≤ n') (hq : (x.shift k).uses n q) : x.uses n' q := by
  cases x with
  | ext b => exact hq
  | mem p =>
    have : p + k ≤ q ∧ q < p + k + n := hq
    show p ≤ q ∧ q < p + n'
    omega

namespace Prog
variable {L : Nat} {Rd Wr : Nat → Prop}

theorem Reads.src {x : Src R} {n i : Nat} (h : ∀ q, x.uses n q → Rd q) (hi : i < n) :
    Reads L Rd (src x i) fun m => x.rd m i := by
  cases x with
  | ext b => exact Reads.lift _
  | mem p => exact Reads.rd (h _ ⟨by omega, by omega⟩)

theorem Reads.srcAt {x : Src R} {dims idx : List Nat} (h : ∀ q, x.uses dims.prod q → Rd q) (hv : Valid dims idx) :
    Reads L Rd (srcAt x dims idx) fun m => x.at_ dims idx m :=
  Reads.src h (offset_lt hv)

theorem Reads.pure {α : Type} (a : α) : Reads L Rd (Pure.pure a : Prog R α) fun _ => Pure.pure a := ⟨fun _ _ => rfl, trivial⟩

theorem Does.transform1 (f : R → R) {n : Nat} {x : Src R} {z : Nat} (hx : ∀ q, x.uses n q → Rd q) (hz : ∀ q, block z n q → Wr q) :
    Does L Rd Wr (transform1 f n x z) (Kernels.transform1 f n x z) :=
  Does.loop fun i hi => Does.bind (Reads.src hx hi) fun _ => Does.wr (hz _ ⟨by omega, by omega⟩)

theorem Does.transform2 (f : R → R → R) {n : Nat} {x y : Src R} {z : Nat} (hx : ∀ q, x.uses n q → Rd q)
    (hy : ∀ q, y.uses n q → Rd q) (hz : ∀ q, block z n q → Wr q) :
    Does L Rd Wr (transform2 f n x y z) (Kernels.transform2 f n x y z) :=
  Does.loop fun i hi => Does.bind (Reads.src hx hi) fun _ => Does.bind (Reads.src hy hi) fun _ =>
    Does.wr (hz _ ⟨by omega, by omega⟩)

theorem row_in {i rows n : Nat} (hi : i < rows) : i * n + n ≤ rows * n := by
  calc i * n + n = (i + 1) * n := by ring
    _ ≤ rows * n := Nat.mul_le_mul_right _ hi

theorem Does.applyBiasRows (f : R → R → R) {rows cols : Nat} {x y : Src R} {z : Nat} (hx : ∀ q, x.uses (rows * cols) q → Rd q)
    (hy : ∀ q, y.uses cols q → Rd q) (hz : ∀ q, block z (rows * cols) q → Wr q) :
    Does L Rd Wr (applyBiasRows f rows cols x y z)
      (forRange rows fun i m => Kernels.transform2 f cols (x.shift (i * cols)) y (z + i * cols) m) :=
  Does.loop fun _ hi => Does.transform2 f (fun _ hq => hx _ (Src.uses_shift (row_in hi) hq)) hy fun q hq => hz q (by
    have := row_in (n := cols) hi
    obtain ⟨h1, h2⟩ := hq
    exact ⟨by omega, by omega⟩)

section
variable [Zero R] [One R] [Add R] [Sub R] [Div R] [LT R] [DecidableLT R]

theorem Does.softmaxRow (exp : R → R) (eps : R) {n : Nat} {x : Src R} {z : Nat} (hx : ∀ q, x.uses n q → Rd q)
    (hz : ∀ q, block z n q → Wr q) : Does L Rd Wr (softmaxRow exp eps n x z) (Kernels.softmaxRow exp eps n x z) :=
  Does.loop fun i hi => Does.bind (Reads.src hx hi) fun _ =>
    Does.bind (Reads.fold _ fun j hj _ => Reads.bind (Reads.src hx hj) fun _ => Reads.pure _) fun _ =>
      Does.wr (hz _ ⟨by omega, by omega⟩)

theorem Does.softmax (exp : R → R) (eps : R) {rows n : Nat} {x : Src R} {z : Nat} (hx : ∀ q, x.uses (rows * n) q → Rd q)
    (hz : ∀ q, block z (rows * n) q → Wr q) :
    Does L Rd Wr (softmax exp eps rows n x z) (Kernels.softmax exp eps n rows n x z) :=
  Does.loop fun _ hi => Does.softmaxRow exp eps (fun _ hq => hx _ (Src.uses_shift (row_in hi) hq)) fun q hq => hz q (by
    have := row_in (n := n) hi
    obtain ⟨h1, h2⟩ := hq
    exact ⟨by omega, by omega⟩)

end

theorem Does.fill {v : R} {z n : Nat} (hL : z + n ≤ L) (hz : ∀ q, block z n q → Wr q) :
    Does L Rd Wr (Prog.loop n fun i => Prog.wr (z + i) v) (onSlice z n (fillAll v)) := by
  refine (Does.loop fun i hi => Does.wr (hz _ ⟨by omega, by omega⟩)).congr fun m hm => ?_
  have hl : (cells z n m).length = n := cells_length (by omega)
  have e1 : onSlice z n (fillAll v) m = .ok (store m z ((cells z n m).map fun _ => v)) := onSlice_ok (by omega) (by
    rfl) (by simpa using hl)
  rw [e1]
  refine run_store (by simpa using hl) (by omega) fun i hi m' _ _ => ⟨v, ?_, rfl⟩
  rw [List.getElem?_map, List.getElem?_eq_getElem (by omega)]
  rfl

section
variable [Zero R] [Add R] [Mul R]

theorem Does.mm {ad bd cd : List Nat} {a b : Src R} {z : Nat} (hL : z + cd.prod ≤ L) (ha : ∀ q, a.uses ad.prod q → Rd q)
    (hb : ∀ q, b.uses bd.prod q → Rd q) (hr : ∀ q, block z cd.prod q → Rd q) (hz : ∀ q, block z cd.prod q → Wr q) :
    Does L Rd Wr (mm ad bd cd a b z) (Shared.mm ad bd cd a b z) := by
  unfold Prog.mm Shared.mm
  split
  · refine Does.assert fun c1 => Does.assert fun c2 => Does.assert fun c3 => ?_
    subst c1 c2 c3
    refine Does.seq (Does.fill hL hz) ?_
    refine Does.loop fun i hi => Does.loop fun k hk => Does.bind (Reads.srcAt ha (v2 hi hk)) fun aa => ?_
    refine Does.loop fun j hj => Does.bind (Reads.srcAt hb (v2 hk hj)) fun bb => ?_
    have := offset_lt (v2 hi hj)
    exact Does.upd (hr _ ⟨by omega, by omega⟩) (hz _ ⟨by omega, by omega⟩)
  · refine Does.congr Does.ub fun m _ => ?_
    split
    · rename_i h
      exact (h _ _ _ _ _ _ rfl rfl rfl).elim
    · rfl

theorem Does.mmt {ad bd cd : List Nat} {a b : Src R} {z : Nat} (ha : ∀ q, a.uses ad.prod q → Rd q)
    (hb : ∀ q, b.uses bd.prod q → Rd q) (hz : ∀ q, block z cd.prod q → Wr q) :
    Does L Rd Wr (mmt ad bd cd a b z) (Shared.mmt ad bd cd a b z) := by
  unfold Prog.mmt Shared.mmt
  split
  · refine Does.assert fun c1 => Does.assert fun c2 => Does.assert fun c3 => ?_
    subst c1 c2 c3
    refine Does.loop fun i hi => Does.loop fun j hj => Does.bind (Reads.fold _ fun k hk _ =>
      Reads.bind (Reads.srcAt ha (v2 hi hk)) fun _ => Reads.bind (Reads.srcAt hb (v2 hj hk)) fun _ => Reads.pure _) fun _ => ?_
    have := offset_lt (v2 hi hj)
    exact Does.wr (hz _ ⟨by omega, by omega⟩)
  · refine Does.congr Does.ub fun m _ => ?_
    split
    · rename_i h
      exact (h _ _ _ _ _ _ rfl rfl rfl).elim
    · rfl

theorem Does.mtm {ad bd cd : List Nat} {a b : Src R} {z : Nat} (ha : ∀ q, a.uses ad.prod q → Rd q)
    (hb : ∀ q, b.uses bd.prod q → Rd q) (hz : ∀ q, block z cd.prod q → Wr q) :
    Does L Rd Wr (mtm ad bd cd a b z) (Shared.mtm ad bd cd a b z) := by
  unfold Prog.mtm Shared.mtm
  split
  · refine Does.assert fun c1 => Does.assert fun c2 => Does.assert fun c3 => ?_
    subst c1 c2 c3
    refine Does.loop fun i hi => Does.loop fun j hj => Does.bind (Reads.fold _ fun k hk _ =>
      Reads.bind (Reads.srcAt ha (v2 hk hi)) fun _ => Reads.bind (Reads.srcAt hb (v2 hk hj)) fun _ => Reads.pure _) fun _ => ?_
    have := offset_lt (v2 hi hj)
    exact Does.wr (hz _ ⟨by omega, by omega⟩)
  · refine Does.congr Does.ub fun m _ => ?_
    split
    · rename_i h
      exact (h _ _ _ _ _ _ rfl rfl rfl).elim
    · rfl

theorem Does.mv {ad bd cd : List Nat} {a b : Src R} {z : Nat} (ha : ∀ q, a.uses ad.prod q → Rd q)
    (hb : ∀ q, b.uses bd.prod q → Rd q) (hz : ∀ q, block z cd.prod q → Wr q) :
    Does L Rd Wr (mv ad bd cd a b z) (Shared.mv ad bd cd a b z) := by
  unfold Prog.mv Shared.mv
  split
  · refine Does.assert fun c1 => Does.assert fun c2 => ?_
    subst c1 c2
    refine Does.loop fun i hi => Does.bind (Reads.fold _ fun k hk _ =>
      Reads.bind (Reads.srcAt ha (v2 hi hk)) fun _ => Reads.bind (Reads.srcAt hb (v1 hk)) fun _ => Reads.pure _) fun _ => ?_
    have := offset_lt (v1 hi)
    exact Does.wr (hz _ ⟨by omega, by omega⟩)
  · refine Does.congr Does.ub fun m _ => ?_
    split
    · rename_i h
      exact (h _ _ _ _ rfl rfl rfl).elim
    · rfl

theorem Does.vm {ad bd cd : List Nat} {a b : Src R} {z : Nat} (ha : ∀ q, a.uses ad.prod q → Rd q)
    (hb : ∀ q, b.uses bd.prod q → Rd q) (hz : ∀ q, block z cd.prod q → Wr q) :
    Does L Rd Wr (vm ad bd cd a b z) (Shared.vm ad bd cd a b z) := by
  unfold Prog.vm Shared.vm
  split
  · refine Does.assert fun c1 => Does.assert fun c2 => ?_
    subst c1 c2
    refine Does.loop fun i hi => Does.bind (Reads.fold _ fun k hk _ =>
      Reads.bind (Reads.srcAt ha (v1 hk)) fun _ => Reads.bind (Reads.srcAt hb (v2 hk hi)) fun _ => Reads.pure _) fun _ => ?_
    have := offset_lt (v1 hi)
    exact Does.wr (hz _ ⟨by omega, by omega⟩)
  · refine Does.congr Does.ub fun m _ => ?_
    split
    · rename_i h
      exact (h _ _ _ _ rfl rfl rfl).elim
    · rfl

omit [Zero R] [Add R] [Mul R] in
theorem forRange_same {S : Type} {I : S → Prop} {n : Nat} {body body' : Nat → S → Outcome S}
    (h : ∀ i < n, ∀ s, I s → body i s = body' i s ∧ ∀ s', body' i s = .ok s' → I s') (s : S) (hs : I s) :
    forRange n body s = forRange n body' s ∧ ∀ s', forRange n body' s = .ok s' → I s' := by
  induction n with
  | zero => exact ⟨rfl, fun s' e => Outcome.ok.inj e ▸ hs⟩
  | succ n ih =>
    obtain ⟨e, k⟩ := ih fun i hi => h i (by omega)
    rw [forRange_succ, forRange_succ, e]
    cases c : forRange n body' s with
    | throw x => exact ⟨rfl, fun s' e => by cases e⟩
    | ub => exact ⟨rfl, fun s' e => by cases e⟩
    | ok s1 => exact h n (by omega) s1 (k s1 c)

omit [Add R] [Mul R] in
/-- One example's patches: the gather on the slice of the buffer. -/
theorem gather_slice {map : List Int} {len n o Z : Nat} {data : List R} {rdx : Nat → Outcome R} (hz : o + n ≤ Z)
    (hd : ∀ j, StdNN.rd data j = if j < len then rdx j else .ub) :
    Lift o n Z (fun s => StdNN.forRange n (fun i z => do
        let j ← StdNN.rd map i
        if 0 ≤ j then do
          let v ← StdNN.rd data j.toNat
          StdNN.wr z i v
        else StdNN.wr z i 0) s)
      fun z => StdNN.forRange n (fun i z => do
        let j ← StdNN.rd map i
        if 0 ≤ j then
          if j.toNat < len then do
            let v ← rdx j.toNat
            StdNN.wr z (o + i) v
          else .ub
        else StdNN.wr z (o + i) 0) z := by
  refine Lift.forRange hz fun i hi => Lift.bind hz _ fun j => ?_
  by_cases c : 0 ≤ j
  · simp only [if_pos c, hd]
    by_cases c' : j.toNat < len
    · simp only [if_pos c']
      exact Lift.bind hz _ fun v => Lift.wr hz hi v
    · simp only [if_neg c']
      exact ⟨hz, (fun s s' _ e => by cases e), fun b hb => (onSlice_ub (by rfl)).symm⟩
  · simp only [if_neg c]
    exact Lift.wr hz hi 0

omit [Zero R] [Add R] [Mul R] in
theorem onSlice_congr {off len : Nat} {g k : List R → Outcome (List R)} {b : List R} (h : g (cells off len b) = k (cells off len b)) :
    onSlice off len g b = onSlice off len k b := by
  have h' : g ((b.drop off).take len) = k ((b.drop off).take len) := h
  simp only [onSlice, h']

omit [Add R] [Mul R] in
theorem Reads.idxGather {map : List Int} {len n o : Nat} {x : Src R} (hx : ∀ q, x.uses len q → Rd q) (z : List R) :
    Reads L Rd (Prog.idxGather map len n o x z) fun m => StdNN.forRange n (fun i z => do
        let j ← StdNN.rd map i
        if 0 ≤ j then
          if j.toNat < len then do
            let v ← x.rd m j.toNat
            StdNN.wr z (o + i) v
          else .ub
        else StdNN.wr z (o + i) 0) z := by
  refine Reads.fold z fun i hi z => Reads.lift_bind fun j _ => ?_
  by_cases c : 0 ≤ j
  · simp only [if_pos c]
    by_cases c' : j.toNat < len
    · simp only [if_pos c']
      exact Reads.bind (Reads.src hx c') fun v => Reads.lift _
    · simp only [if_neg c']
      exact Reads.lift (.ub : Outcome (List R))
  · simp only [if_neg c]
    exact Reads.lift _

omit [Zero R] [Add R] [Mul R] in
theorem now_sub {x : Src R} {n : Nat} {sub : List Nat} {m : List R} {i : Nat} (hi : i < n)
    (hL : ∀ p, x = .mem p → p + (n :: sub).prod ≤ m.length) (j : Nat) :
    StdNN.rd ((x.now (n :: sub) m).sub i).data j = if j < sub.prod then (x.shift (i * sub.prod)).rd m j else .ub := by
  have hr := row_in (n := sub.prod) hi
  have e : ∀ b : List R, StdNN.rd ((b.drop (i * sub.prod)).take sub.prod) j =
      if j < sub.prod then StdNN.rd (b.drop (i * sub.prod)) j else .ub := by
    intro b
    by_cases c : j < sub.prod
    · simp only [StdNN.rd, List.getElem?_take, if_pos c]
    · simp only [StdNN.rd, List.getElem?_take, if_neg c]
  cases x with
  | ext b => exact e b
  | mem p =>
    refine (e _).trans ?_
    by_cases c : j < sub.prod
    · rw [if_pos c, if_pos c]
      have h1 := hL p rfl
      have h2 : (n :: sub).prod = n * sub.prod := by simp
      show StdNN.rd (((m.drop p).take (n :: sub).prod).drop (i * sub.prod)) j = StdNN.rd m (p + i * sub.prod + j)
      simp only [StdNN.rd, List.getElem?_drop, List.getElem?_take]
      rw [if_pos (by omega), Nat.add_assoc]
    · rw [if_neg c, if_neg c]

omit [Add R] [Mul R] in
theorem Reads.im2colNhwrsc {t : MultiSample} {junk : Nat → Int} {ydims xd : List Nat} {x : Src R} {y : List R}
    (hxL : ∀ p, x = .mem p → p + xd.prod ≤ L) (hx : ∀ q, x.uses xd.prod q → Rd q)
    (hy : ∀ n sub, xd = n :: sub → y.length = n * ydims.tail.prod) :
    Reads L Rd (Prog.im2colNhwrsc t junk ydims xd x y) fun m => Kernels.im2colNhwrsc t junk ydims (x.now xd m) y := by
  have hdims : ∀ m, (x.now xd m).dims = xd := fun m => by cases x <;> rfl
  cases xd with
  | nil =>
    have h : Reads L Rd (Prog.im2colNhwrsc t junk ydims [] x y) _ :=
      Reads.lift_bind fun q _ => Reads.lift (.ub : Outcome (List R))
    refine ⟨fun m hm => (h.run m hm).trans ?_, h.within⟩
    simp only [Kernels.im2colNhwrsc, hdims]
  | cons n sub =>
    have h : Reads L Rd (Prog.im2colNhwrsc t junk ydims (n :: sub) x y) _ :=
      Reads.lift_bind fun q _ => Reads.fold y fun i hi y => Reads.idxGather (fun q hq => hx q (Src.uses_shift
        (show i * sub.prod + sub.prod ≤ (n :: sub).prod from (row_in hi).trans (by simp)) hq)) y
    refine ⟨fun m hm => (h.run m hm).trans ?_, h.within⟩
    simp only [Kernels.im2colNhwrsc, hdims, List.tail_cons]
    refine congrArg (· >>= _) (congrArg (_ >>= ·) (funext fun q => ?_))
    refine (forRange_same (I := fun y => y.length = n * ydims.tail.prod) (fun i hi y hy => ?_) y (hy n sub rfl)).1
    have hz : i * ydims.tail.prod + ydims.tail.prod ≤ n * ydims.tail.prod := row_in hi
    have lf := gather_slice (map := q) hz (now_sub (x := x) (sub := sub) (m := m) hi fun p hp => by rw [hm]; exact hxL p hp)
    have hl := cells_length (show i * ydims.tail.prod + ydims.tail.prod ≤ y.length by omega)
    have e := lf.eq y hy
    have e2 : onSlice (i * ydims.tail.prod) ydims.tail.prod (Kernels.idxGather q ((x.now (n :: sub) m).sub i).data) y = _ :=
      onSlice_congr (k := fun s => StdNN.forRange ydims.tail.prod (fun i_1 z => do
        let j ← StdNN.rd q i_1
        if 0 ≤ j then do
          let v ← StdNN.rd ((x.now (n :: sub) m).sub i).data j.toNat
          StdNN.wr z i_1 v
        else StdNN.wr z i_1 0) s) (by simp only [Kernels.idxGather, hl])
    replace e := e.trans e2.symm
    exact ⟨e, fun s' hs' => onSlice_len (fun s s'' hs he => by
      refine lf.keeps s s'' hs ?_
      rw [← he, Kernels.idxGather, hs]) hz _ _ hy hs'⟩

theorem asMatrix_prod (k : Nat) (dims : List Nat) : (asMatrix k dims).prod = dims.prod := by
  simp only [asMatrix, List.prod_cons, List.prod_nil, Nat.mul_one]
  rw [← List.prod_append, List.take_append_drop]

theorem Does.convNhwc (t : ConvTrait) (junkI : Nat → Int) (junk : Nat → R) {zd xd yd : List Nat} {x y : Src R} {z : Nat}
    (hL : z + zd.prod ≤ L) (hxL : ∀ p, x = .mem p → p + xd.prod ≤ L) (hx : ∀ q, x.uses xd.prod q → Rd q)
    (hy : ∀ q, y.uses yd.prod q → Rd q) (hr : ∀ q, block z zd.prod q → Rd q) (hz : ∀ q, block z zd.prod q → Wr q) :
    Does L Rd Wr (convNhwc t junkI junk zd xd yd x y z) (Shared.convNhwc t junkI junk zd xd yd x y z) := by
  unfold Prog.convNhwc Shared.convNhwc
  refine Does.lift_bind fun rs _ => Does.lift_bind fun hs _ => Does.lift_bind fun ws _ => Does.lift_bind fun upper hup => ?_
  refine Does.bind (Reads.im2colNhwrsc hxL hx fun n sub e => ?_) fun xUpper => ?_
  · subst e
    obtain ⟨s, hs, e⟩ := Outcome.bind_eq_ok.1 hup
    cases e
    simp [fresh]
  exact Does.mm (by rwa [asMatrix_prod]) (fun _ h => h.elim) (by rwa [asMatrix_prod]) (by rwa [asMatrix_prod])
    (by rwa [asMatrix_prod])

end

theorem Does.toFirst (f : R → R) {n h w c : Nat} {x : Src R} {z : Nat} (hx : ∀ q, x.uses [n, h, w, c].prod q → Rd q)
    (hz : ∀ q, block z [n, c, h, w].prod q → Wr q) :
    Does L Rd Wr (toFirst f [n, h, w, c] [n, c, h, w] x z) (Shared.toFirst f [n, h, w, c] [n, c, h, w] x z) := by
  refine Does.loop fun l hl => Does.loop fun k hk => Does.loop fun i hi => Does.loop fun j hj =>
    Does.bind (Reads.srcAt hx (v4 hl hi hj hk)) fun v => ?_
  have := offset_lt (v4 hl hk hi hj)
  exact Does.wr (hz _ ⟨by omega, by omega⟩)

theorem Does.toLast (f : R → R) {n h w c : Nat} {x : Src R} {z : Nat} (hx : ∀ q, x.uses [n, c, h, w].prod q → Rd q)
    (hz : ∀ q, block z [n, h, w, c].prod q → Wr q) :
    Does L Rd Wr (toLast f [n, c, h, w] [n, h, w, c] x z) (Shared.toLast f [n, c, h, w] [n, h, w, c] x z) := by
  refine Does.loop fun l hl => Does.loop fun i hi => Does.loop fun j hj => Does.loop fun k hk =>
    Does.bind (Reads.srcAt hx (v4 hl hk hi hj)) fun v => ?_
  have := offset_lt (v4 hl hi hj hk)
  exact Does.wr (hz _ ⟨by omega, by omega⟩)

theorem Does.poolHw (acc : Acc R) {H W : Axis} (hH : AxisOK u32 H) (hW : AxisOK u32 W) {x : Src R} {z : Nat}
    (hx : ∀ q, x.uses [H.n, W.n].prod q → Rd q) (hz : ∀ q, block z [H.m, W.m].prod q → Wr q) :
    Does L Rd Wr (poolHw acc (poolTrait H W) [H.m, W.m] [H.n, W.n] x z)
      (Shared.poolHw acc (poolTrait H W) [H.m, W.m] [H.n, W.n] x z) := by
  refine Does.loop fun i hi => Does.loop fun j hj => Does.bind (Reads.fold _ fun u hu st => Reads.fold _ fun v hv st =>
    Reads.lift_bind fun o ho => ?_) fun st => Does.lift_bind fun v _ => ?_
  · have hl := locate_run hH hW hi hj hu hv
    have : loc H W i j u v = o := Outcome.ok.inj (hl.symm.trans ho)
    match o, this with
    | none, _ => exact Reads.pure _
    | some (a, b), this =>
      have hv := loc_valid this
      exact Reads.bind (Reads.srcAt hx (v2 hv.1 hv.2)) fun xv => Reads.lift _
  · have := offset_lt (v2 hi hj)
    exact Does.wr (hz _ ⟨by omega, by omega⟩)

theorem Does.poolHwc (acc : Acc R) {H W : Axis} (hH : AxisOK u32 H) (hW : AxisOK u32 W) {c : Nat} {x : Src R} {z : Nat}
    (hx : ∀ q, x.uses [H.n, W.n, c].prod q → Rd q) (hz : ∀ q, block z [H.m, W.m, c].prod q → Wr q) :
    Does L Rd Wr (poolHwc acc (poolTrait H W) [H.m, W.m, c] [H.n, W.n, c] x z)
      (Shared.poolHwc acc (poolTrait H W) [H.m, W.m, c] [H.n, W.n, c] x z) := by
  refine Does.assert fun _ => ?_
  refine Does.loop fun k hk => Does.loop fun i hi => Does.loop fun j hj => Does.bind (Reads.fold _ fun u hu st =>
    Reads.fold _ fun v hv st => Reads.lift_bind fun o ho => ?_) fun st => Does.lift_bind fun v _ => ?_
  · have hl := locate_run hH hW hi hj hu hv
    have : loc H W i j u v = o := Outcome.ok.inj (hl.symm.trans ho)
    match o, this with
    | none, _ => exact Reads.pure _
    | some (a, b), this =>
      have hv := loc_valid this
      exact Reads.bind (Reads.srcAt hx (v3 hv.1 hv.2 hk)) fun xv => Reads.lift _
  · have := offset_lt (v3 hi hj hk)
    exact Does.wr (hz _ ⟨by omega, by omega⟩)

theorem Does.poolNhwc (acc : Acc R) {H W : Axis} (hH : AxisOK u32 H) (hW : AxisOK u32 W) (rH : H.r = 1) (rW : W.r = 1)
    {n c : Nat} {x : Src R} {z : Nat} (hx : ∀ q, x.uses [n, H.n, W.n, c].prod q → Rd q)
    (hz : ∀ q, block z [n, H.m, W.m, c].prod q → Wr q) :
    Does L Rd Wr (poolNhwc acc (poolTrait H W) [n, H.m, W.m, c] [n, H.n, W.n, c] x z)
      (Shared.poolNhwc acc (poolTrait H W) [n, H.m, W.m, c] [n, H.n, W.n, c] x z) := by
  unfold Prog.poolNhwc Shared.poolNhwc
  refine Does.lift_bind fun op ho => ?_
  rw [makeKS_run hH hW rH rW] at ho
  have ho := Outcome.ok.inj ho
  subst ho
  refine Does.loop fun i hi => Does.poolHwc acc (shifted_ok hH) (shifted_ok hW) (fun q hq => hx q (Src.uses_shift ?_ hq))
    fun q hq => hz q ?_
  · exact (row_in hi).trans (by simp)
  · have := row_in (n := [H.m, W.m, c].prod) hi
    have e : [n, H.m, W.m, c].prod = n * [H.m, W.m, c].prod := by simp
    obtain ⟨h1, h2⟩ := hq
    have h2 : q < z + i * [H.m, W.m, c].prod + [H.m, W.m, c].prod := h2
    have h1 : z + i * [H.m, W.m, c].prod ≤ q := h1
    exact ⟨by omega, by omega⟩

theorem Does.poolNchw (acc : Acc R) {H W : Axis} (hH : AxisOK u32 H) (hW : AxisOK u32 W) (rH : H.r = 1) (rW : W.r = 1)
    {n c : Nat} {x : Src R} {z : Nat} (hx : ∀ q, x.uses [n, c, H.n, W.n].prod q → Rd q)
    (hz : ∀ q, block z [n, c, H.m, W.m].prod q → Wr q) :
    Does L Rd Wr (poolNchw acc (poolTrait H W) [n, c, H.m, W.m] [n, c, H.n, W.n] x z)
      (Shared.poolNchw acc (poolTrait H W) [n, c, H.m, W.m] [n, c, H.n, W.n] x z) := by
  unfold Prog.poolNchw Shared.poolNchw
  refine Does.lift_bind fun op ho => ?_
  rw [makeKS_run hH hW rH rW] at ho
  have ho := Outcome.ok.inj ho
  subst ho
  refine Does.loop fun i hi => Does.loop fun j hj => Does.poolHw acc (shifted_ok hH) (shifted_ok hW)
    (fun q hq => hx q (Src.uses_shift ?_ hq)) fun q hq => hz q ?_
  · have h1 := row_in (n := [c, H.n, W.n].prod) hi
    have h2 := row_in (n := [H.n, W.n].prod) hj
    have e1 : [n, c, H.n, W.n].prod = n * [c, H.n, W.n].prod := by simp
    have e2 : [c, H.n, W.n].prod = c * [H.n, W.n].prod := by simp
    show i * [c, H.n, W.n].prod + j * [H.n, W.n].prod + [H.n, W.n].prod ≤ _
    omega
  · have h3 := row_in (n := [c, H.m, W.m].prod) hi
    have h4 := row_in (n := [H.m, W.m].prod) hj
    have e1 : [n, c, H.m, W.m].prod = n * [c, H.m, W.m].prod := by simp
    have e2 : [c, H.m, W.m].prod = c * [H.m, W.m].prod := by simp
    obtain ⟨h1, h2⟩ := hq
    have h2 : q < z + i * [c, H.m, W.m].prod + j * [H.m, W.m].prod + [H.m, W.m].prod := h2
    have h1 : z + i * [c, H.m, W.m].prod + j * [H.m, W.m].prod ≤ q := h1
    exact ⟨by omega, by omega⟩

theorem Does.applyBias (f : R → R → R) {p : Nat} {dims : List Nat} {x y : Src R} {z : Nat} (hp : p < dims.length)
    (hx : ∀ q, x.uses dims.prod q → Rd q) (hy : ∀ q, y.uses (dims.getD p 0) q → Rd q) (hz : ∀ q, block z dims.prod q → Wr q) :
    Does L Rd Wr (applyBias f p dims x y z) (Shared.applyBias f p dims x y z) :=
  Does.loop fun i hi => Does.bind (Reads.src hx hi) fun _ => Does.bind (Reads.src hy (valid_getD (valid_unravel hi) (by
    rw [List.getD_eq_getElem?_getD, List.getElem?_eq_getElem hp, Option.getD_some]))) fun _ => Does.wr (hz _ ⟨by omega, by omega⟩)

theorem Does.copy {n : Nat} {x : Src R} {z : Nat} (hx : ∀ q, x.uses n q → Rd q) (hz : ∀ q, block z n q → Wr q) :
    Does L Rd Wr (copy n x z) (Shared.copyGrad n x z) := by
  unfold Prog.copy Shared.copyGrad Kernels.copy
  cases x with
  | ext b => exact Does.transform1 id hx hz
  | mem p =>
    by_cases c : p ≤ z ∧ z < p + n
    · simp only [if_pos c]
      exact Does.ub
    · simp only [if_neg c]
      exact Does.transform1 id hx hz

theorem Does.sumRows [Zero R] [Add R] {rows cols : Nat} {x : Src R} {z : Nat} (hL : z + cols ≤ L)
    (hx : ∀ q, x.uses (rows * cols) q → Rd q) (hr : ∀ q, block z cols q → Rd q) (hz : ∀ q, block z cols q → Wr q) :
    Does L Rd Wr (sumRows rows cols x z) (Shared.sumRows rows cols x z) :=
  Does.seq (Does.fill hL hz) (Does.loop fun _ hi => Does.transform2 _ hr (fun _ hq => hx _ (Src.uses_shift (row_in hi) hq)) hz)

theorem Does.xentropyGrad [Mul R] [Neg R] [Div R] {rows n : Nat} {gz : List R} {x y : Src R} {z : Nat}
    (hx : ∀ q, x.uses (rows * n) q → Rd q) (hy : ∀ q, y.uses (rows * n) q → Rd q) (hz : ∀ q, block z (rows * n) q → Wr q) :
    Does L Rd Wr (xentropyGrad rows n gz x y z) (Shared.xentropyGrad rows n gz x y z) :=
  Does.loop fun _ hi => Does.loop fun _ hj => Does.bind (Reads.lift _) fun _ =>
    Does.bind (Reads.src (fun _ hq => hx _ (Src.uses_shift (row_in hi) hq)) hj) fun _ =>
      Does.bind (Reads.src (fun _ hq => hy _ (Src.uses_shift (row_in hi) hq)) hj) fun _ => Does.wr (hz _ (by
        have := row_in (n := n) hi
        exact ⟨by omega, by omega⟩))

section
variable [Zero R] [One R] [Add R] [Sub R] [Mul R] [Neg R]

theorem Does.softmaxGradRow (junk : Nat → R) {n : Nat} {gy y : Src R} {z : Nat} (hg : ∀ q, gy.uses n q → Rd q)
    (hy : ∀ q, y.uses n q → Rd q) (hz : ∀ q, block z n q → Wr q) :
    Does L Rd Wr (softmaxGradRow junk n gy y z) (Shared.softmaxGradRow junk n gy y z) := by
  have hp : [n].prod = n := by simp
  refine Does.bind (Reads.fold _ fun i hi g => Reads.fold _ fun j hj g => ?_) fun g => Does.vm (by rwa [hp]) (fun _ h => h.elim)
    (by rwa [hp])
  by_cases c : i = j
  · simp only [if_pos c]
    exact Reads.bind (Reads.srcAt (by rwa [hp]) (v1 hi)) fun _ => Reads.lift _
  · simp only [if_neg c]
    exact Reads.bind (Reads.srcAt (by rwa [hp]) (v1 hi)) fun _ => Reads.bind (Reads.srcAt (by rwa [hp]) (v1 hj)) fun _ =>
      Reads.lift _

theorem Does.softmaxGrad (junk : Nat → R) {rows n : Nat} {gy y : Src R} {z : Nat} (hg : ∀ q, gy.uses (rows * n) q → Rd q)
    (hy : ∀ q, y.uses (rows * n) q → Rd q) (hz : ∀ q, block z (rows * n) q → Wr q) :
    Does L Rd Wr (softmaxGrad junk rows n gy y z) (Shared.softmaxGrad junk rows n gy y z) :=
  Does.loop fun _ hi => Does.softmaxGradRow junk (fun _ hq => hg _ (Src.uses_shift (row_in hi) hq))
    (fun _ hq => hy _ (Src.uses_shift (row_in hi) hq)) fun q hq => hz q (by
      have := row_in (n := n) hi
      obtain ⟨h1, h2⟩ := hq
      exact ⟨by omega, by omega⟩)

end

end Prog
end StdNN
