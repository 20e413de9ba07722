import Verif.Model.Shared
import Verif.Lemmas.Conv
import Verif.Lemmas.Pool
import Verif.Lemmas.Activation
import Verif.Props.InPlace
/-!
# Operators on shared memory: slices and loops
-/
namespace StdNN
open Outcome Spec IntTy
variable {R : Type}

/-- A step that leaves the length of a buffer of `len` cells alone. -/
def KeepsLen (len : Nat) (g : List R → Outcome (List R)) : Prop :=
  ∀ s s', s.length = len → g s = .ok s' → s'.length = len

theorem KeepsLen.wr (len p : Nat) (v : R) : KeepsLen len fun s => StdNN.wr s p v := by
  intro s s' h e
  simp only [StdNN.wr] at e
  split at e
  · cases e
    simpa using h
  · cases e

theorem KeepsLen.upd (len p : Nat) (f : R → R) : KeepsLen len fun s => StdNN.upd s p f := by
  intro s s' h e
  simp only [StdNN.upd] at e
  obtain ⟨r, _, e⟩ := Outcome.bind_eq_ok.1 e
  exact KeepsLen.wr len p _ s s' h e

theorem KeepsLen.bind {S : Type} {len : Nat} {o : Outcome S} {g : S → List R → Outcome (List R)}
    (h : ∀ v, KeepsLen len (g v)) : KeepsLen len fun s => o >>= fun v => g v s := by
  intro s s' hs e
  obtain ⟨v, _, e⟩ := Outcome.bind_eq_ok.1 e
  exact h v s s' hs e

theorem KeepsLen.forRange {n len : Nat} {body : Nat → List R → Outcome (List R)} (h : ∀ i < n, KeepsLen len (body i)) :
    KeepsLen len fun s => StdNN.forRange n body s := by
  induction n with
  | zero =>
    intro s s' hs e
    cases e
    exact hs
  | succ n ih =>
    intro s s' hs e
    simp only at e
    rw [forRange_succ] at e
    obtain ⟨t, e1, e2⟩ := Outcome.bind_eq_ok.1 e
    exact h n (by omega) t s' (ih (fun i hi => h i (by omega)) s t hs e1) e2

/-- The cells `off, ..., off + len - 1` of a memory. -/
def cells (off len : Nat) (b : List R) : List R := (b.drop off).take len

theorem cells_length {off len : Nat} {b : List R} (h : off + len ≤ b.length) : (cells off len b).length = len := by
  simp [cells]; omega

theorem cells_getElem? {off len : Nat} {b : List R} {q : Nat} (h : q < len) : (cells off len b)[q]? = b[off + q]? := by
  rw [cells, List.getElem?_take_of_lt h, List.getElem?_drop]

theorem cells_store {off : Nat} {b s : List R} (h : off + s.length ≤ b.length) : cells off s.length (store b off s) = s := by
  have : (b.take off).length = off := by simp; omega
  rw [cells, store, List.append_assoc, List.drop_left' this, List.take_left' rfl]

theorem store_again {off : Nat} {b s t : List R} (h : off + s.length ≤ b.length) (e : t.length = s.length) :
    store (store b off s) off t = store b off t := by
  refine List.ext_getElem? fun p => ?_
  rw [store_getElem? (by rw [store_length h]; omega), store_getElem? h, store_getElem? (by omega), e]
  split <;> rfl

theorem store_cells {off len : Nat} {b : List R} (h : off + len ≤ b.length) : store b off (cells off len b) = b := by
  refine List.ext_getElem? fun p => ?_
  rw [store_getElem? (by rw [cells_length h]; exact h), cells_length h]
  split
  · rename_i c
    rw [cells_getElem? (by omega)]
    congr 1
    omega
  · rfl

theorem onSlice_ok {off len : Nat} {g : List R → Outcome (List R)} {b s : List R} (h : off + len ≤ b.length)
    (e : g (cells off len b) = .ok s) (hs : s.length = len) : onSlice off len g b = .ok (store b off s) := by
  have e' : g ((b.drop off).take len) = .ok s := e
  simp only [onSlice, if_pos h, e', Outcome.ok_bind, Outcome.pure_eq, store, hs]

theorem onSlice_throw {off len : Nat} {g : List R → Outcome (List R)} {b : List R} {x : Err} (h : off + len ≤ b.length)
    (e : g (cells off len b) = .throw x) : onSlice off len g b = .throw x := by
  have e' : g ((b.drop off).take len) = .throw x := e
  simp only [onSlice, if_pos h, e']
  rfl

theorem onSlice_ub {off len : Nat} {g : List R → Outcome (List R)} {b : List R}
    (e : g (cells off len b) = .ub) : onSlice off len g b = .ub := by
  have e' : g ((b.drop off).take len) = .ub := e
  simp only [onSlice, e']
  split <;> rfl

/-- A loop on a slice is a loop of steps on the slice. -/
theorem onSlice_forRange {n off len : Nat} {body : Nat → List R → Outcome (List R)} {b : List R} (h : off + len ≤ b.length)
    (hb : ∀ i < n, KeepsLen len (body i)) :
    onSlice off len (forRange n body) b = forRange n (fun i b => onSlice off len (body i) b) b := by
  induction n with
  | zero =>
    rw [onSlice_ok (g := forRange 0 body) h (s := cells off len b) rfl (cells_length h), store_cells h]
    rfl
  | succ n ih =>
    rw [forRange_succ, ← ih fun i hi => hb i (by omega)]
    cases e : forRange n body (cells off len b) with
    | throw x =>
      rw [onSlice_throw h e, onSlice_throw h (x := x) (by rw [forRange_succ, e]; rfl)]
      rfl
    | ub =>
      rw [onSlice_ub e, onSlice_ub (by rw [forRange_succ, e]; rfl)]
      rfl
    | ok s =>
      have hs : s.length = len := KeepsLen.forRange (fun i hi => hb i (by omega)) _ _ (cells_length h) e
      have e' : forRange (n + 1) body (cells off len b) = body n s := by rw [forRange_succ, e]; rfl
      have hst : off + s.length ≤ b.length := by omega
      have h' : off + len ≤ (store b off s).length := by rw [store_length hst]; exact h
      have sl : cells off len (store b off s) = s := by rw [← hs]; exact cells_store hst
      rw [onSlice_ok h e hs, Outcome.ok_bind]
      cases e2 : body n s with
      | throw x => rw [onSlice_throw h (e'.trans e2), onSlice_throw h' (by rw [sl]; exact e2)]
      | ub => rw [onSlice_ub (e'.trans e2), onSlice_ub (by rw [sl]; exact e2)]
      | ok t =>
        have ht : t.length = len := hb n (by omega) _ _ hs e2
        rw [onSlice_ok h (e'.trans e2) ht, onSlice_ok h' (by rw [sl]; exact e2) ht, store_again hst (by omega)]

theorem onSlice_wr {off len p : Nat} {v : R} {b : List R} (h : off + len ≤ b.length) (hp : p < len) :
    onSlice off len (fun s => wr s p v) b = wr b (off + p) v := by
  have hl := cells_length h
  have e : wr (cells off len b) p v = .ok ((cells off len b).set p v) := by rw [wr, if_pos (by omega)]
  rw [onSlice_ok (g := fun s => wr s p v) h e (by simpa using hl), wr, if_pos (by omega)]
  refine congrArg Outcome.ok (List.ext_getElem? fun q => ?_)
  have hs : off + ((cells off len b).set p v).length ≤ b.length := by simp [hl]; exact h
  rw [store_getElem? hs, List.getElem?_set, List.getElem?_set, List.length_set, hl]
  by_cases c : off ≤ q ∧ q < off + len
  · rw [if_pos c]
    by_cases c2 : p = q - off
    · rw [if_pos c2, if_pos (by omega), if_pos (by omega), if_pos (by omega)]
    · rw [if_neg c2, if_neg (by omega), cells_getElem? (by omega)]
      congr 1
      omega
  · rw [if_neg c, if_neg (by omega)]

theorem onSlice_upd {off len p : Nat} {f : R → R} {b : List R} (h : off + len ≤ b.length) (hp : p < len) :
    onSlice off len (fun s => upd s p f) b = upd b (off + p) f := by
  have hl := cells_length h
  have hr : b[off + p]? = some b[off + p] := List.getElem?_eq_getElem (by omega)
  have e : rd b (off + p) = .ok b[off + p] := by simp [rd, hr]
  have e2 : rd (cells off len b) p = .ok b[off + p] := by simp [rd, cells_getElem? hp, hr]
  have e3 : ∀ o : Outcome (List R), wr (cells off len b) p (f b[off + p]) = o →
      upd (cells off len b) p f = o := by
    intro o ho
    simp only [upd, e2, Outcome.ok_bind, ho]
  have e4 : wr (cells off len b) p (f b[off + p]) = .ok ((cells off len b).set p (f b[off + p])) := by
    rw [wr, if_pos (by omega)]
  rw [onSlice_ok (g := fun s => upd s p f) h (e3 _ e4) (by simpa using hl)]
  have := onSlice_wr (v := f b[off + p]) h hp
  rw [onSlice_ok (g := fun s => wr s p (f b[off + p])) h e4 (by simpa using hl)] at this
  simp only [upd, e, Outcome.ok_bind, this]

theorem onSlice_bind {S : Type} {off len : Nat} {o : Outcome S} {g : S → List R → Outcome (List R)} {b : List R}
    (h : off + len ≤ b.length) :
    onSlice off len (fun s => o >>= fun v => g v s) b = o >>= fun v => onSlice off len (g v) b := by
  cases o with
  | ok v => rfl
  | throw x => exact onSlice_throw h rfl
  | ub => exact onSlice_ub rfl

/-- A slice of a slice. -/
theorem onSlice_onSlice {off len o l : Nat} {g : List R → Outcome (List R)} {b : List R} (h : off + len ≤ b.length)
    (hl : o + l ≤ len) (hg : KeepsLen l g) : onSlice off len (onSlice o l g) b = onSlice (off + o) l g b := by
  have sl := cells_length h
  have ss : cells o l (cells off len b) = cells (off + o) l b := by
    refine List.ext_getElem? fun q => ?_
    by_cases c : q < l
    · rw [cells_getElem? c, cells_getElem? (by omega), cells_getElem? c, Nat.add_assoc]
    · rw [List.getElem?_eq_none (by rw [cells_length (by omega)]; omega),
        List.getElem?_eq_none (by rw [cells_length (by omega)]; omega)]
  cases e : g (cells (off + o) l b) with
  | throw x => rw [onSlice_throw (by omega) e, onSlice_throw h (onSlice_throw (by omega) (by rw [ss]; exact e))]
  | ub => rw [onSlice_ub e, onSlice_ub (onSlice_ub (by rw [ss]; exact e))]
  | ok s =>
    have hs := hg _ _ (cells_length (by omega)) e
    rw [onSlice_ok (by omega) e hs, onSlice_ok h (onSlice_ok (by omega) (by rw [ss]; exact e) hs)
      (by rw [store_length (by omega)]; exact sl)]
    refine congrArg Outcome.ok (List.ext_getElem? fun q => ?_)
    rw [store_getElem? (by rw [store_length (by omega)]; omega), store_length (by omega),
      store_getElem? (by omega), store_getElem? (by omega), sl]
    by_cases c : off ≤ q ∧ q < off + len
    · rw [if_pos c]
      by_cases c2 : off + o ≤ q ∧ q < off + o + s.length
      · rw [if_pos c2, if_pos (by omega)]
        congr 1
        omega
      · rw [if_neg c2, if_neg (by omega), cells_getElem? (by omega)]
        congr 1
        omega
    · rw [if_neg c, if_neg (by omega)]


theorem KeepsLen.fill (len : Nat) (v : R) : KeepsLen len (fillAll v) := by
  intro s s' h e
  cases e
  simpa using h

theorem onSlice_len {off len L : Nat} {g : List R → Outcome (List R)} (hg : KeepsLen len g) (h : off + len ≤ L) :
    KeepsLen L (onSlice off len g) := by
  intro b b' hb e
  cases e2 : g (cells off len b) with
  | throw x => rw [onSlice_throw (by omega) e2] at e; cases e
  | ub => rw [onSlice_ub e2] at e; cases e
  | ok s =>
    have hs := hg _ _ (cells_length (by omega)) e2
    rw [onSlice_ok (by omega) e2 hs] at e
    cases e
    rw [store_length (by omega), hb]

theorem onSlice_seq {off len : Nat} {g k : List R → Outcome (List R)} {b : List R} (h : off + len ≤ b.length)
    (hg : KeepsLen len g) (hk : KeepsLen len k) :
    onSlice off len (fun s => g s >>= k) b = onSlice off len g b >>= onSlice off len k := by
  cases e : g (cells off len b) with
  | throw x =>
    rw [onSlice_throw h e, onSlice_throw h (x := x) (by rw [e]; rfl)]
    rfl
  | ub =>
    rw [onSlice_ub e, onSlice_ub (by rw [e]; rfl)]
    rfl
  | ok s =>
    have hs := hg _ _ (cells_length h) e
    have hst : off + s.length ≤ b.length := by omega
    have h' : off + len ≤ (store b off s).length := by rw [store_length hst]; exact h
    have sl : cells off len (store b off s) = s := by rw [← hs]; exact cells_store hst
    have e' : (fun s => g s >>= k) (cells off len b) = k s := by simp only [e, Outcome.ok_bind]
    rw [onSlice_ok h e hs, Outcome.ok_bind]
    cases e2 : k s with
    | throw x => rw [onSlice_throw h (e'.trans e2), onSlice_throw h' (by rw [sl]; exact e2)]
    | ub => rw [onSlice_ub (e'.trans e2), onSlice_ub (by rw [sl]; exact e2)]
    | ok t =>
      have ht : t.length = len := hk _ _ hs e2
      rw [onSlice_ok h (e'.trans e2) ht, onSlice_ok h' (by rw [sl]; exact e2) ht, store_again hst (by omega)]

/-- `G` does to a memory of `L` cells what `g` does to the slice of `len` cells at `z`. -/
structure Lift (z len L : Nat) (g G : List R → Outcome (List R)) : Prop where
  inside : z + len ≤ L
  keeps : KeepsLen len g
  eq : ∀ b, b.length = L → G b = onSlice z len g b

namespace Lift
variable {z len L : Nat}

theorem wr (h : z + len ≤ L) {p : Nat} (hp : p < len) (v : R) :
    Lift z len L (fun s => StdNN.wr s p v) fun b => StdNN.wr b (z + p) v :=
  ⟨h, KeepsLen.wr _ _ _, fun b hb => (onSlice_wr (by omega) hp).symm⟩

theorem upd (h : z + len ≤ L) {p : Nat} (hp : p < len) (f : R → R) :
    Lift z len L (fun s => StdNN.upd s p f) fun b => StdNN.upd b (z + p) f :=
  ⟨h, KeepsLen.upd _ _ _, fun b hb => (onSlice_upd (by omega) hp).symm⟩

theorem bind {S : Type} (h : z + len ≤ L) (o : Outcome S) {g G : S → List R → Outcome (List R)}
    (hg : ∀ v, Lift z len L (g v) (G v)) : Lift z len L (fun s => o >>= fun v => g v s) fun b => o >>= fun v => G v b := by
  refine ⟨h, KeepsLen.bind fun v => (hg v).keeps, fun b hb => ?_⟩
  rw [onSlice_bind (by omega)]
  congr 1
  funext v
  exact (hg v).eq b hb

theorem assert (h : z + len ≤ L) {p : Prop} [Decidable p] {g G : List R → Outcome (List R)} (hg : p → Lift z len L g G) :
    Lift z len L (fun s => contractAssert p >>= fun _ => g s) fun b => contractAssert p >>= fun _ => G b := by
  by_cases c : p
  · exact bind h _ fun _ => hg c
  · rw [contractAssert_neg c]
    refine ⟨h, (fun s s' _ e => by cases e), fun b hb => ?_⟩
    rw [onSlice_throw (by omega) rfl]
    rfl

theorem seq {g G k K : List R → Outcome (List R)} (hg : Lift z len L g G) (hk : Lift z len L k K) :
    Lift z len L (fun s => g s >>= k) fun b => G b >>= K := by
  refine ⟨hg.inside, fun s s' hs e => ?_, fun b hb => ?_⟩
  · obtain ⟨t, e1, e2⟩ := Outcome.bind_eq_ok.1 e
    exact hk.keeps _ _ (hg.keeps _ _ hs e1) e2
  · have hi := hg.inside
    rw [onSlice_seq (by omega) hg.keeps hk.keeps, hg.eq b hb]
    cases e : onSlice z len g b with
    | throw x => rfl
    | ub => rfl
    | ok b' => exact hk.eq b' (onSlice_len hg.keeps hg.inside _ _ hb e)

theorem forRange {n : Nat} (h : z + len ≤ L) {g G : Nat → List R → Outcome (List R)}
    (hg : ∀ i < n, Lift z len L (g i) (G i)) :
    Lift z len L (fun s => StdNN.forRange n g s) fun b => StdNN.forRange n G b := by
  refine ⟨h, KeepsLen.forRange fun i hi => (hg i hi).keeps, fun b hb => ?_⟩
  rw [show (fun s => StdNN.forRange n g s) = StdNN.forRange n g from rfl,
    onSlice_forRange (by omega) fun i hi => (hg i hi).keeps]
  induction n with
  | zero => rfl
  | succ n ih =>
    have hi := ih fun i hi => hg i (by omega)
    rw [forRange_succ, forRange_succ, hi]
    cases e : StdNN.forRange n (fun i b => onSlice z len (g i) b) b with
    | throw x => rfl
    | ub => rfl
    | ok b' =>
      refine (hg n (by omega)).eq b' ?_
      exact KeepsLen.forRange (fun i hi => onSlice_len (hg i (by omega)).keeps h) b b' hb e

end Lift

namespace Shared
variable [Add R] [Mul R] [Zero R]

section
variable {m l l' n cm cn : Nat} {a b : List R} {z L : Nat}

theorem mm_lift (hz : z + [cm, cn].prod ≤ L) : Lift z [cm, cn].prod L (Plain.mm ⟨[m, l], a⟩ ⟨[l', n], b⟩ [cm, cn])
    (mm [m, l] [l', n] [cm, cn] (.ext a) (.ext b) z) := by
  unfold Plain.mm mm
  refine Lift.assert hz fun c1 => Lift.assert hz fun c2 => Lift.assert hz fun c3 => ?_
  subst c2 c3
  refine Lift.seq ⟨hz, KeepsLen.fill _ _, fun _ _ => rfl⟩ ?_
  refine Lift.forRange hz fun i hi => Lift.forRange hz fun k hk => ?_
  refine Lift.bind hz _ fun aa => Lift.forRange hz fun j hj => Lift.bind hz _ fun bb => ?_
  exact Lift.upd hz (offset_lt (v2 hi hj)) _

theorem mmt_lift (hz : z + [cm, cn].prod ≤ L) : Lift z [cm, cn].prod L (Plain.mmt ⟨[m, l], a⟩ ⟨[n, l'], b⟩ [cm, cn])
    (mmt [m, l] [n, l'] [cm, cn] (.ext a) (.ext b) z) := by
  unfold Plain.mmt mmt
  refine Lift.assert hz fun c1 => Lift.assert hz fun c2 => Lift.assert hz fun c3 => ?_
  subst c2 c3
  refine Lift.forRange hz fun i hi => Lift.forRange hz fun j hj => Lift.bind hz _ fun tmp => ?_
  exact Lift.wr hz (offset_lt (v2 hi hj)) _

theorem mtm_lift (hz : z + [cm, cn].prod ≤ L) : Lift z [cm, cn].prod L (Plain.mtm ⟨[l, m], a⟩ ⟨[l', n], b⟩ [cm, cn])
    (mtm [l, m] [l', n] [cm, cn] (.ext a) (.ext b) z) := by
  unfold Plain.mtm mtm
  refine Lift.assert hz fun c1 => Lift.assert hz fun c2 => Lift.assert hz fun c3 => ?_
  subst c2 c3
  refine Lift.forRange hz fun i hi => Lift.forRange hz fun j hj => Lift.bind hz _ fun tmp => ?_
  exact Lift.wr hz (offset_lt (v2 hi hj)) _

theorem mv_lift (hz : z + [cm].prod ≤ L) : Lift z [cm].prod L (Plain.mv ⟨[m, n], a⟩ ⟨[l], b⟩ [cm])
    (mv [m, n] [l] [cm] (.ext a) (.ext b) z) := by
  unfold Plain.mv mv
  refine Lift.assert hz fun c1 => Lift.assert hz fun c2 => ?_
  subst c2
  refine Lift.forRange hz fun i hi => Lift.bind hz _ fun tmp => ?_
  exact Lift.wr hz (offset_lt (v1 hi)) _

theorem vm_lift (hz : z + [cn].prod ≤ L) : Lift z [cn].prod L (Plain.vm ⟨[l], a⟩ ⟨[m, n], b⟩ [cn])
    (vm [l] [m, n] [cn] (.ext a) (.ext b) z) := by
  unfold Plain.vm vm
  refine Lift.assert hz fun c1 => Lift.assert hz fun c2 => ?_
  subst c2
  refine Lift.forRange hz fun i hi => Lift.bind hz _ fun tmp => ?_
  exact Lift.wr hz (offset_lt (v1 hi)) _

end

/-! ## Convolution -/

omit [Add R] [Mul R] [Zero R] in
theorem cells_get (o l : Nat) (b : List R) (q : Nat) : (cells o l b)[q]? = if q < l then b[o + q]? else none := by
  split
  · exact cells_getElem? ‹_›
  · refine List.getElem?_eq_none ?_
    simp [cells]
    omega

omit [Add R] [Mul R] [Zero R] in
theorem now_mem (p : Nat) (dims : List Nat) (mem : List R) : (Src.mem p).now dims mem = ⟨dims, cells p dims.prod mem⟩ := rfl

/-- The convolution reads all of its image before it writes anything. -/
theorem convNhwc_lift (t : ConvTrait) (junkI : Nat → Int) (junk : Nat → R) (zd xd yd : List Nat) (x : Src R) (y : List R)
    {z : Nat} {mem : List R} (hz : z + zd.prod ≤ mem.length) :
    convNhwc t junkI junk zd xd yd x (.ext y) z mem =
      onSlice z zd.prod (Kernels.convNhwc t junkI junk zd (x.now xd mem) ⟨yd, y⟩) mem := by
  have dn : (x.now xd mem).dims = xd := by cases x <;> rfl
  have pr : (asMatrix 3 zd).prod = zd.prod := by simp [asMatrix]
  unfold convNhwc Kernels.convNhwc
  simp only [dn]
  rw [onSlice_bind hz]
  congr 1
  funext rs
  rw [onSlice_bind hz]
  congr 1
  funext hs
  rw [onSlice_bind hz]
  congr 1
  funext ws
  rw [onSlice_bind hz]
  congr 1
  funext upper
  rw [onSlice_bind hz]
  congr 1
  funext xu
  rw [← pr] at hz ⊢
  exact (mm_lift hz).eq mem rfl

/-- Each example is read when its turn comes; the results of the examples before it lie in front of it. -/
theorem convNchw_lift (t : ConvTrait) (junk : Nat → R) (n : Nat) (zt xt yd : List Nat) (y : List R)
    {z : Nat} {mem : List R} (hz : z + (n :: zt).prod ≤ mem.length) (hp : zt.prod ≤ xt.prod) :
    convNchw t junk (n :: zt) (n :: xt) yd (.mem z) (.ext y) z mem =
      onSlice z (n :: zt).prod (Kernels.convNchw t junk (n :: zt) ⟨n :: xt, cells z (n :: xt).prod mem⟩ ⟨yd, y⟩) mem := by
  have pr : (asMatrix 1 zt).prod = zt.prod := by cases zt <;> simp [asMatrix]
  have pr' : [(zt.take 1).prod, (zt.drop 1).prod].prod = zt.prod := pr
  unfold convNchw Kernels.convNchw
  simp only [List.tail_cons]
  rw [onSlice_bind hz]
  congr 1
  funext rs
  rw [onSlice_bind hz]
  congr 1
  funext hs
  rw [onSlice_bind hz]
  congr 1
  funext ws
  rw [onSlice_bind hz]
  congr 1
  funext upper
  have hb : batchSize .nchw (n :: zt) = .ok n := rfl
  rw [hb]
  simp only [Outcome.ok_bind]
  generalize hN : (n :: zt).prod = N at hz ⊢
  have hN' : n * zt.prod = N := by rw [← hN]; rfl
  let body1 : Nat → List R × List R → Outcome (List R × List R) := fun l st => do
    let xUpper ← Ops.batched (Kernels.im2colRshw [hs, ws]) upper (((Src.mem z).shift (l * xt.prod)).now xt st.2) st.1
    let mem ← mm (asMatrix 1 yd) (asMatrix 3 upper) (asMatrix 1 zt) (.ext y) (.ext xUpper) (z + l * zt.prod) st.2
    return (xUpper, mem)
  let body2 : Nat → List R × List R → Outcome (List R × List R) := fun l st => do
    let xUpper ← Ops.batched (Kernels.im2colRshw [hs, ws]) upper
      (Tensor.sub ⟨n :: xt, cells z (n :: xt).prod mem⟩ l) st.1
    let z ← onSlice (l * zt.prod) zt.prod
      (Plain.mm ⟨asMatrix 1 yd, y⟩ ⟨asMatrix 3 upper, xUpper⟩ (asMatrix 1 zt)) st.2
    return (xUpper, z)
  have key : ∀ k ≤ n, ∀ f : List R,
      (forRange k body1 (f, mem) = forRange k body2 (f, cells z N mem) >>= fun st => .ok (st.1, store mem z st.2)) ∧
      ∀ st, forRange k body2 (f, cells z N mem) = .ok st → st.2.length = N ∧
        ∀ q, k * zt.prod ≤ q → st.2[q]? = (cells z N mem)[q]? := by
    intro k
    induction k with
    | zero =>
      intro _ f
      refine ⟨?_, fun st e => ?_⟩
      · rw [forRange_zero, forRange_zero, Outcome.ok_bind, store_cells hz]
      · cases e
        exact ⟨cells_length hz, fun q _ => rfl⟩
    | succ k ih =>
      intro hk f
      obtain ⟨ih1, ih2⟩ := ih (by omega) f
      have hkN : k * zt.prod + zt.prod ≤ N := by
        rw [← hN', ← Nat.succ_mul]
        exact Nat.mul_le_mul_right _ hk
      rw [forRange_succ, forRange_succ, ih1]
      cases e : forRange k body2 (f, cells z N mem) with
      | throw x => exact ⟨rfl, fun st h => by cases h⟩
      | ub => exact ⟨rfl, fun st h => by cases h⟩
      | ok st =>
        obtain ⟨xu, c⟩ := st
        obtain ⟨hc, hq⟩ := ih2 _ e
        simp only at hc hq
        simp only [Outcome.ok_bind]
        have hst : z + c.length ≤ mem.length := by omega
        have hx : ((Src.mem z).shift (k * xt.prod)).now xt (store mem z c) =
            Tensor.sub ⟨n :: xt, cells z (n :: xt).prod mem⟩ k := by
          refine congrArg (Tensor.mk xt) (List.ext_getElem? fun q => ?_)
          have hkx : k * xt.prod + xt.prod ≤ (n :: xt).prod := by
            rw [← Nat.succ_mul]
            exact Nat.mul_le_mul_right _ hk
          have hzk : k * zt.prod ≤ k * xt.prod := Nat.mul_le_mul_left _ hp
          refine (cells_get (z + k * xt.prod) xt.prod (store mem z c) q).trans (Eq.trans ?_
            (cells_get (k * xt.prod) xt.prod (cells z (n :: xt).prod mem) q).symm)
          by_cases hqx : q < xt.prod
          · rw [if_pos hqx, if_pos hqx, store_getElem? hst, cells_get,
              if_pos (show k * xt.prod + q < (n :: xt).prod by omega), hc]
            by_cases c1 : z ≤ z + k * xt.prod + q ∧ z + k * xt.prod + q < z + N
            · rw [if_pos c1, hq _ (by omega), cells_get, if_pos (by omega)]
              congr 1
              omega
            · rw [if_neg c1, Nat.add_assoc]
          · rw [if_neg hqx, if_neg hqx]
        simp only [body1, body2, hx]
        cases e2 : Ops.batched (Kernels.im2colRshw [hs, ws]) upper (Tensor.sub ⟨n :: xt, cells z (n :: xt).prod mem⟩ k) xu with
        | throw x => exact ⟨rfl, fun st h => by cases h⟩
        | ub => exact ⟨rfl, fun st h => by cases h⟩
        | ok xu' =>
          simp only [Outcome.ok_bind]
          have hz2 : z + k * zt.prod + (asMatrix 1 zt).prod ≤ (store mem z c).length := by
            rw [store_length hst, pr]
            omega
          have lift := mm_lift (m := (yd.take 1).prod) (l := (yd.drop 1).prod) (l' := (upper.take 3).prod)
            (n := (upper.drop 3).prod) (a := y) (b := xu') hz2
          have e3 := lift.eq _ rfl
          rw [pr'] at e3
          have hk2 := lift.keeps
          rw [pr'] at hk2
          have e4 := onSlice_onSlice (off := z) (len := N) (o := k * zt.prod) (l := zt.prod) (b := store mem z c)
            (by rw [store_length hst]; omega) hkN hk2
          have e5 : mm (asMatrix 1 yd) (asMatrix 3 upper) (asMatrix 1 zt) (.ext y) (.ext xu') (z + k * zt.prod) (store mem z c) =
              onSlice z N (onSlice (k * zt.prod) zt.prod
                (Plain.mm ⟨asMatrix 1 yd, y⟩ ⟨asMatrix 3 upper, xu'⟩ (asMatrix 1 zt))) (store mem z c) := e3.trans e4.symm
          have hsc : cells z N (store mem z c) = c := by rw [← hc]; exact cells_store hst
          have hi : z + N ≤ (store mem z c).length := by rw [store_length hst]; omega
          rw [e5]
          cases e6 : onSlice (k * zt.prod) zt.prod
              (Plain.mm ⟨asMatrix 1 yd, y⟩ ⟨asMatrix 3 upper, xu'⟩ (asMatrix 1 zt)) c with
          | throw x =>
            rw [onSlice_throw hi (by rw [hsc]; exact e6)]
            exact ⟨rfl, fun st h => by cases h⟩
          | ub =>
            rw [onSlice_ub (by rw [hsc]; exact e6)]
            exact ⟨rfl, fun st h => by cases h⟩
          | ok c' =>
            have hc' : c'.length = N := onSlice_len hk2 hkN _ _ hc e6
            rw [onSlice_ok hi (by rw [hsc]; exact e6) hc', store_again hst (by omega)]
            refine ⟨rfl, fun st h => ?_⟩
            cases h
            refine ⟨hc', fun q hqq => ?_⟩
            rw [Nat.succ_mul] at hqq
            rw [← hq q (by omega)]
            cases e7 : Plain.mm ⟨asMatrix 1 yd, y⟩ ⟨asMatrix 3 upper, xu'⟩ (asMatrix 1 zt) (cells (k * zt.prod) zt.prod c) with
            | throw x => rw [onSlice_throw (by omega) e7] at e6; cases e6
            | ub => rw [onSlice_ub e7] at e6; cases e6
            | ok s =>
              have hs := hk2 _ _ (cells_length (by omega)) e7
              rw [onSlice_ok (by omega) e7 hs] at e6
              cases e6
              rw [store_getElem? (by omega), if_neg (by omega)]
  obtain ⟨k1, k2⟩ := key n (Nat.le_refl _) (fresh junk upper.prod)
  let fin : List R × List R → Outcome (List R) := fun st => .ok st.2
  refine Eq.trans (congrArg (fun o => o >>= fin) k1) ?_
  cases e : forRange n body2 (fresh junk upper.prod, cells z N mem) with
  | throw x =>
    have e' : forRange n body2 (fresh junk upper.prod, cells z N mem) >>= fin = .throw x := by rw [e]; rfl
    exact (onSlice_throw hz e').symm
  | ub =>
    have e' : forRange n body2 (fresh junk upper.prod, cells z N mem) >>= fin = .ub := by rw [e]; rfl
    exact (onSlice_ub e').symm
  | ok st =>
    have e' : forRange n body2 (fresh junk upper.prod, cells z N mem) >>= fin = .ok st.2 := by rw [e]; rfl
    exact (onSlice_ok hz e' (k2 st e).1).symm

end Shared
end StdNN
