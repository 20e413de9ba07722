import Verif.Spec.Models
import Verif.Props.Elementwise
/-!
# C75, C76: name scopes and sequential models
-/
namespace StdNN
open Spec Outcome

/-! ## C75 -/

namespace NameScope

theorem push_foldl (sep : List Char) (names : List (List Char)) {ss : List Char} (h : ss ≠ []) :
    names.foldl (push sep) ss = ss ++ (names.map fun s => sep ++ s).flatten := by
  induction names generalizing ss with
  | nil => simp
  | cons s names ih =>
    rw [List.foldl_cons, push, if_neg h, ih (by simp [h])]
    simp

theorem intercalate_cons (sep s : List Char) (names : List (List Char)) :
    List.intercalate sep (s :: names) = s ++ (names.map fun t => sep ++ t).flatten := by
  induction names generalizing s with
  | nil => simp [List.intercalate]
  | cons t names ih =>
    rw [List.map_cons, List.flatten_cons, List.append_assoc, ← ih t]
    simp [List.intercalate, List.intersperse]

theorem foldl_push (sep : List Char) (names : List (List Char)) : names.foldl (push sep) [] = joinPath sep names := by
  induction names with
  | nil => rfl
  | cons s names ih =>
    by_cases hs : s = []
    · subst hs
      simpa [joinPath, push] using ih
    · rw [List.foldl_cons, push, if_pos rfl, List.nil_append, push_foldl sep names hs, joinPath,
        List.dropWhile_cons_of_neg (by simpa using hs), intercalate_cons]

theorem deref_eq (c : NameScope) : c.deref = joinPath c.sep c.names := foldl_push _ _

theorem call_eq (c : NameScope) (name : List Char) : c.call name = joinPath c.sep (c.names ++ [name]) := by
  rw [← foldl_push, List.foldl_append]
  rfl

/-- C75: the push/pop implementation does what the lexical reading says, and always leaves the scope as it was. -/
theorem C75_with (s : Stmt) (c : NameScope) :
    exec s c = ⟨(meaning c.sep c.names s).1, (meaning c.sep c.names s).2, c⟩ := by
  induction s generalizing c with
  | skip => rfl
  | logPath => simp [exec, meaning, deref_eq]
  | logName name => simp [exec, meaning, call_eq]
  | throw e => rfl
  | with_ pre body ih =>
    simp only [exec, ih (c.in_ pre)]
    have e1 : (c.in_ pre).sep = c.sep := rfl
    have e2 : (c.in_ pre).names = c.names ++ [pre] := rfl
    have e3 : (c.in_ pre).out = .ok c := by simp [out, in_]
    rw [e1, e2, e3]
    simp only [meaning]
    cases h : (meaning c.sep (c.names ++ [pre]) body).2 with
    | ok _ => rfl
    | throw _ => rfl
    | ub =>
      exfalso
      have key : ∀ (s : Stmt) (path : List (List Char)), (meaning c.sep path s).2 ≠ .ub := by
        intro s
        induction s with
        | skip => intro _; simp [meaning]
        | logPath => intro _; simp [meaning]
        | logName _ => intro _; simp [meaning]
        | throw _ => intro _; simp [meaning]
        | with_ pre body ih => intro path; exact ih _
        | seq a b iha ihb =>
          intro path
          simp only [meaning]
          split
          · exact ihb path
          · exact iha path
        | tryCatch a b iha ihb =>
          intro path
          simp only [meaning]
          split
          · exact ihb path
          · exact iha path
      exact key _ _ h
  | seq a b iha ihb =>
    simp only [exec, iha c, meaning]
    rcases h : meaning c.sep c.names a with ⟨l, r⟩
    cases r <;> simp [ihb c]
  | tryCatch a b iha ihb =>
    simp only [exec, iha c, meaning]
    rcases h : meaning c.sep c.names a with ⟨l, r⟩
    cases r <;> simp [ihb c]

/-- C75: after `with` the scope is what it was before, whether the callback returned or threw, and popping never hits an
empty stack. -/
theorem C75_restores (pre : List Char) (body : Stmt) (c : NameScope) :
    (exec (.with_ pre body) c).ctx = c ∧ (exec (.with_ pre body) c).res = (exec body (c.in_ pre)).res ∧
      (exec (.with_ pre body) c).log = (exec body (c.in_ pre)).log := by
  rw [C75_with, C75_with]
  exact ⟨rfl, rfl, rfl⟩

/-- C75: with non-empty prefixes the path is the plain join, and a name is appended to it after a separator. -/
theorem C75_join (c : NameScope) (h : ∀ s ∈ c.names, s ≠ []) (name : List Char) :
    c.deref = List.intercalate c.sep c.names ∧
      c.call name = if c.names = [] then name else List.intercalate c.sep c.names ++ c.sep ++ name := by
  have e : c.deref = List.intercalate c.sep c.names := by
    rw [deref_eq, joinPath]
    cases hc : c.names with
    | nil => rfl
    | cons s l => rw [List.dropWhile_cons_of_neg (by simpa using h s (by simp [hc]))]
  refine ⟨e, ?_⟩
  by_cases hn : c.names = []
  · simp [call, deref, hn, push]
  · rw [if_neg hn, call, push, if_neg, e]
    rw [e]
    obtain ⟨s, l, hs⟩ := List.exists_cons_of_ne_nil hn
    rw [hs, intercalate_cons]
    simp [h s (by simp [hs])]

/-- C75 (limit): an empty outer prefix leaves no trace in the names, an inner one does. -/
theorem C75_empty_prefix :
    (⟨['/'], [[], ['a']]⟩ : NameScope).deref = ['a'] ∧ (⟨['/'], [['a'], [], ['b']]⟩ : NameScope).deref = ['a', '/', '/', 'b'] := by
  decide

/-- Non-vacuity: nested scopes, the inner callback throws, the outer one catches and continues under its own prefix. -/
example : exec (.with_ ['a'] (.seq (.tryCatch (.with_ ['b'] (.seq (.logName ['x']) (.throw .logicError))) .logPath)
    (.logName ['y']))) (make) =
    ⟨[['a', '/', 'b', '/', 'x'], ['a'], ['a', '/', 'y']], .ok (), make⟩ ∧
    (∀ s ∈ (⟨['/'], [['a'], ['b']]⟩ : NameScope).names, s ≠ []) := by decide

end NameScope

/-! ## C76 -/

namespace Models
variable {R : Type} [Zero R]

theorem identity_run (junk : Nat → R) {x : Tensor R} (hx : x.WF) : Layers.identity junk x = ⟨1, .ok ⟨x, []⟩⟩ := by
  have hl : (fresh junk x.dims.prod).length = x.data.length := by
    simp [fresh]; exact hx.symm
  have e : Ops.identity x.data.length (.ext x.data) 0 (fresh junk x.dims.prod) = .ok x.data := by
    rw [C21_identity (ext_holds _ _ _) (by simp) (by omega), store_all hl.symm]
  show Alloc.bind _ _ = _
  simp only [Layers.newResult, Ops.endoShape, e, Outcome.ok_bind, Outcome.pure_eq, Alloc.bind]
  rfl

theorem sequential_snoc (junk : Nat → R) (ls : List (LayerFn R)) (l : LayerFn R) :
    sequential junk (ls ++ [l]) = composed (sequential junk ls) l := by
  simp [sequential]

/-- C76: if the layers accept the tensors `t 0, t 1, ...` passed from one to the next, the model returns what the last layer
returns; nothing else stays allocated. -/
theorem C76_sequential (junk : Nat → R) (ls : List (LayerFn R)) (t : Nat → Tensor R) (y : Nat → Layer R) (h0 : (t 0).WF)
    (hl : ∀ i (h : i < ls.length), ls[i] (t i) = ⟨(y i).size, .ok (y i)⟩ ∧ t (i + 1) = (y i).output) :
    sequential junk ls (t 0) =
      if ls = [] then ⟨1, .ok ⟨t 0, []⟩⟩ else ⟨(y (ls.length - 1)).size, .ok (y (ls.length - 1))⟩ := by
  have key : ∃ l : Layer R, sequential junk ls (t 0) = ⟨l.size, .ok l⟩ ∧ l.output = t ls.length ∧
      (ls = [] → l = ⟨t 0, []⟩) ∧ (ls ≠ [] → l = y (ls.length - 1)) := by
    induction ls using List.reverseRecOn with
    | nil => exact ⟨⟨t 0, []⟩, identity_run junk h0, rfl, fun _ => rfl, fun h => absurd rfl h⟩
    | append_singleton ls l ih =>
      obtain ⟨l', e, eo, -, -⟩ := ih fun i h => by
        have := hl i (by simp; omega)
        rwa [List.getElem_append_left h] at this
      obtain ⟨e1, e2⟩ := hl ls.length (by simp)
      rw [List.getElem_concat_length rfl] at e1
      refine ⟨y ls.length, ?_, by simp [e2], by simp, by simp⟩
      rw [sequential_snoc, composed, e]
      simp only [eo, e1, Alloc.freeing]
      congr 1
      omega
  obtain ⟨l, e, -, h1, h2⟩ := key
  by_cases h : ls = []
  · rw [e, if_pos h, h1 h]; rfl
  · rw [e, if_neg h, h2 h]

/-- C76: the first layer that throws ends the run with its exception: later layers do not matter, earlier outputs are
released, and only what that layer leaked stays allocated. -/
theorem C76_stops (junk : Nat → R) (ls : List (LayerFn R)) (t : Nat → Tensor R) (y : Nat → Layer R) (h0 : (t 0).WF)
    (k : Nat) (hk : k < ls.length) {e : Err} {leak : Int} (he : ls[k] (t k) = ⟨leak, .throw e⟩)
    (hl : ∀ i (h : i < k), ls[i] (t i) = ⟨(y i).size, .ok (y i)⟩ ∧ t (i + 1) = (y i).output) :
    sequential junk ls (t 0) = ⟨leak, .throw e⟩ := by
  have split : ls = (ls.take k ++ [ls[k]]) ++ ls.drop (k + 1) := by simp
  have first : sequential junk (ls.take k ++ [ls[k]]) (t 0) = ⟨leak, .throw e⟩ := by
    have := C76_sequential junk (ls.take k) t y h0 fun i h => by
      have hi : i < k := by simp at h; omega
      simpa using hl i hi
    rw [sequential_snoc, composed, this]
    have hlen : (ls.take k).length = k := by simp; omega
    by_cases hn : ls.take k = []
    · have k0 : k = 0 := by rw [hn] at hlen; exact hlen.symm
      subst k0
      simp only [hn, if_true, he, Alloc.freeing, Layer.size, List.length_nil]
      congr 1
      omega
    · rw [if_neg hn]
      have kpos : 0 < k := by
        rcases Nat.eq_zero_or_pos k with h | h
        · subst h; simp at hn
        · exact h
      have := (hl (k - 1) (by omega)).2
      rw [show k - 1 + 1 = k by omega] at this
      simp only [hlen, ← this, he, Alloc.freeing]
      congr 1
      omega
  rw [split, sequential, List.foldl_append, ← sequential]
  have rest : ∀ (rs : List (LayerFn R)) (f : LayerFn R), f (t 0) = ⟨leak, .throw e⟩ →
      rs.foldl composed f (t 0) = ⟨leak, .throw e⟩ := by
    intro rs
    induction rs with
    | nil => exact fun f h => h
    | cons r rs ih =>
      intro f h
      refine ih _ ?_
      simp only [composed, h]
  exact rest _ _ first

end Models

/-! ## Concrete cases -/

example := NameScope.C75_join ⟨['/'], [['a'], ['b']]⟩ (by decide) ['x']
example := Models.C76_sequential (R := Int) (fun _ => 9) [fun x => ⟨1, .ok ⟨⟨x.dims, x.data.map (· + 1)⟩, []⟩⟩,
    fun x => ⟨2, .ok ⟨⟨x.dims, x.data.map (· * 2)⟩, [⟨[1], [5]⟩]⟩⟩]
  (fun i => if i = 0 then ⟨[2], [3, 4]⟩ else if i = 1 then ⟨[2], [4, 5]⟩ else ⟨[2], [8, 10]⟩)
  (fun i => if i = 0 then ⟨⟨[2], [4, 5]⟩, []⟩ else ⟨⟨[2], [8, 10]⟩, [⟨[1], [5]⟩]⟩) rfl (by decide)
example := Models.C76_stops (R := Int) (fun _ => 9) [fun x => ⟨1, .ok ⟨⟨x.dims, x.data.map (· + 1)⟩, []⟩⟩,
    fun _ => ⟨3, .throw .runtimeError⟩, fun x => ⟨1, .ok ⟨x, []⟩⟩]
  (fun i => if i = 0 then ⟨[2], [3, 4]⟩ else ⟨[2], [4, 5]⟩) (fun _ => ⟨⟨[2], [4, 5]⟩, []⟩) rfl 1 (by decide)
  (e := .runtimeError) (leak := 3) (by decide) (by decide)

end StdNN
