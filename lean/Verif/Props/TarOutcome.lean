import Verif.Props.Tar

/-! How indexing a tar archive can end, for every file (C73). -/

namespace StdNN

open Spec

/-- What holds at the head of the loop: either the stream is good, its position is a multiple of 512, or it has failed and the
buffer still holds a whole block of the file that was accepted as a header. -/
def Tar.Inv (f : List Byte) (s : Tar.St) : Prop :=
  s.is.bytes = f ∧ s.buffer.length = 512 ∧
    ((s.is.fail = false ∧ s.is.pos % 512 = 0) ∨
      (s.is.fail = true ∧ ∃ k c cs v, 512 * k + 512 ≤ f.length ∧ (f.drop (512 * k)).take 512 = c :: cs ∧ c ≠ 0 ∧
        s.buffer = (c :: cs).map some ∧ SizeField (sizeOf (c :: cs)) v ∧ -2 ^ 31 ≤ Tar.nBlocks v * 512 ∧ Tar.nBlocks v * 512 < 2 ^ 31))

/-- What one iteration may do. -/
inductive Tar.Did (f : List Byte) (s : Tar.St) : Outcome (Tar.St ⊕ Tar.Index) → Prop
  | on {s' : Tar.St} : Tar.Inv f s' → (s.is.fail = true → s'.is.fail = true) → Tar.Did f s (.ok (.inl s'))
  | done (idx : Tar.Index) : s.is.fail = false → Tar.Did f s (.ok (.inr idx))
  | bad {k : Nat} : s.is.fail = false → 512 * k + 512 ≤ f.length → (∀ v, ¬ SizeField ((f.drop (512 * k + 124)).take 12) v) →
      Tar.Did f s (.throw .invalidArgument)
  | over {k : Nat} {v : Int} : s.is.fail = false → 512 * k + 512 ≤ f.length → SizeField ((f.drop (512 * k + 124)).take 12) v →
      ¬ (-2 ^ 31 ≤ Tar.nBlocks v * 512 ∧ Tar.nBlocks v * 512 < 2 ^ 31) → Tar.Did f s .ub

theorem Tar.did_step {f : List Byte} (hmod : f.length % 512 = 0) {s : Tar.St} (hs : Tar.Inv f s) :
    Tar.Did f s (Tar.step f.length s) := by
  obtain ⟨hb, hbuf, ⟨hf, hp⟩ | ⟨hf, k, c, cs, v, hk, hblk, h0, hbs, hv, hlo, hhi⟩⟩ := hs
  · by_cases hlt : (s.is.pos : Int) < f.length
    · obtain ⟨k, hk⟩ : ∃ k, s.is.pos = 512 * k := ⟨s.is.pos / 512, by omega⟩
      have hlt' : 512 * k + 512 ≤ f.length := by omega
      have hlen : ((f.drop (512 * k)).take 512).length = 512 := by simp; omega
      have hd : s.is.bytes.drop s.is.pos = (f.drop (512 * k)).take 512 ++ (f.drop (512 * k)).drop 512 := by
        rw [hb, hk, List.take_append_drop]
      obtain ⟨c, cs, hc⟩ : ∃ c cs, (f.drop (512 * k)).take 512 = c :: cs := by
        cases hcs : (f.drop (512 * k)).take 512 with
        | nil => rw [hcs] at hlen; simp at hlen
        | cons c cs => exact ⟨c, cs, rfl⟩
      by_cases h0 : c = 0
      · have e : Tar.step f.length s = .ok (.inr s.index) := by
          unfold Tar.step
          rw [if_pos (by simpa [IStream.tellg, hf] using hlt), read_full hf hd hlen]
          dsimp only
          have u0 : Kernels.useByte (Tar.refill s.buffer ((f.drop (512 * k)).take 512)) 0 = .ok c := by
            rw [refill_full hbuf hlen, useByte_map _ 0 (by omega)]
            simp [hc]
          rw [u0, Outcome.ok_bind, if_pos h0]
          rfl
        rw [e]
        exact .done _ hf
      · rcases parseHeader_cases ((f.drop (512 * k)).take 512) with ⟨v, hv, hpar⟩ | ⟨hno, hpar⟩
        · rw [step_block hf hbuf hlt hd hlen hc h0 hpar]
          dsimp only
          split
          · rename_i hfit
            refine .on ⟨?_, by rw [List.length_map]; exact hlen, ?_⟩ (fun h => by rw [hf] at h; exact absurd h (by decide))
            · unfold IStream.seekTo
              simp only [Bool.false_eq_true, if_false]
              split <;> exact hb
            · unfold IStream.seekTo
              simp only [Bool.false_eq_true, if_false]
              split
              · refine .inr ⟨rfl, k, c, cs, v, hlt', hc, h0, by rw [hc], ?_, hfit.1, hfit.2⟩
                rw [← hc]; exact hv
              · refine .inl ⟨rfl, ?_⟩
                dsimp only
                omega
          · rename_i hfit
            rw [sizeOf_block] at hv
            exact .over hf hlt' hv hfit
        · rw [step_throw hf hbuf hlt hd hlen hc h0 hpar]
          refine .bad hf hlt' fun v => ?_
          have := hno v
          rwa [sizeOf_block] at this
    · have e : Tar.step f.length s = .ok (.inr s.index) := by
        unfold Tar.step
        rw [if_neg (by simpa [IStream.tellg, hf] using hlt)]
      rw [e]
      exact .done _ hf
  · have hr : s.is.read 512 = ([], s.is) := by unfold IStream.read; rw [if_pos hf]
    have hre : Tar.refill s.buffer [] = (c :: cs).map some := by unfold Tar.refill; simpa using hbs
    have e : Tar.step f.length s = .ok (.inl ⟨s.is, s.buffer, Function.update s.index (((c :: cs).take 100).takeWhile (· != 0))
        (some ⟨((c :: cs).take 100).takeWhile (· != 0), sizeOf (c :: cs), v, -1⟩)⟩) := by
      unfold Tar.step
      rw [if_pos (by simp only [IStream.tellg, hf, if_true]; omega), hr]
      dsimp only
      have ht : s.is.tellg = -1 := by unfold IStream.tellg; rw [if_pos hf]
      rw [hre, useByte_map _ 0 (by simp), Outcome.ok_bind, if_neg (by simpa using h0), defined_map, Outcome.ok_bind,
        parseHeader_field hv, Outcome.ok_bind, ht]
      dsimp only
      rw [if_pos ⟨hlo, hhi⟩, hbs, IStream.seekTo, if_pos hf]
      rfl
    rw [e]
    exact .on ⟨hb, hbuf, .inr ⟨hf, k, c, cs, v, hk, hblk, h0, hbs, hv, hlo, hhi⟩⟩ fun _ => hf

theorem Tar.start_did (f : List Byte) : Tar.Inv f (Tar.start f) :=
  ⟨rfl, List.length_replicate, .inl ⟨rfl, rfl⟩⟩

/-- The ways in which the loop ends. -/
theorem Tar.loop_ends {f : List Byte} (hmod : f.length % 512 = 0) (fuel : Nat) (s : Tar.St) (hs : Tar.Inv f s) :
    (s.is.fail = true → Tar.loop f.length fuel s = none) ∧
    (∀ e, Tar.loop f.length fuel s = some (.throw e) →
      e = .invalidArgument ∧ ∃ k, 512 * k + 512 ≤ f.length ∧ ∀ v, ¬ SizeField ((f.drop (512 * k + 124)).take 12) v) ∧
    (Tar.loop f.length fuel s = some .ub → ∃ k v, 512 * k + 512 ≤ f.length ∧ SizeField ((f.drop (512 * k + 124)).take 12) v ∧
      ¬ (-2 ^ 31 ≤ Tar.nBlocks v * 512 ∧ Tar.nBlocks v * 512 < 2 ^ 31)) := by
  induction fuel generalizing s with
  | zero => exact ⟨fun _ => rfl, fun e h => absurd h (by simp [Tar.loop]), fun h => absurd h (by simp [Tar.loop])⟩
  | succ fuel ih =>
    have hd := Tar.did_step hmod hs
    rw [Tar.loop]
    revert hd
    generalize Tar.step f.length s = r
    intro hd
    cases hd with
    | on hi hf =>
      obtain ⟨i1, i2, i3⟩ := ih _ hi
      exact ⟨fun h => i1 (hf h), i2, i3⟩
    | done idx hf => exact ⟨fun h => by rw [hf] at h; exact absurd h (by decide), fun e h => by simp at h, fun h => by simp at h⟩
    | bad hf hk hno =>
      refine ⟨fun h => by rw [hf] at h; exact absurd h (by decide), fun e h => ?_, fun h => by simp at h⟩
      simp only [Option.some.injEq, Outcome.throw.injEq] at h
      exact ⟨h.symm, _, hk, hno⟩
    | over hf hk hv hfit =>
      exact ⟨fun h => by rw [hf] at h; exact absurd h (by decide), fun e h => by simp at h, fun _ => ⟨_, _, hk, hv, hfit⟩⟩

theorem nBlocks_over {v : Int} (h : ¬ (-2 ^ 31 ≤ Tar.nBlocks v * 512 ∧ Tar.nBlocks v * 512 < 2 ^ 31)) :
    2 ^ 31 - 512 < v ∨ v < -2 ^ 31 := by
  rcases lt_or_ge v 0 with hv | hv
  · right
    by_contra hc
    obtain ⟨n, rfl⟩ : ∃ n : Nat, v = -(n : Int) := ⟨v.natAbs, by omega⟩
    apply h
    unfold Tar.nBlocks
    rw [Int.neg_tdiv, Int.neg_tmod, Int.tdiv_eq_ediv_of_nonneg (by omega), Int.tmod_eq_emod_of_nonneg (by omega)]
    split <;> omega
  · left
    obtain ⟨n, rfl⟩ := Int.eq_ofNat_of_zero_le hv
    by_contra hc
    apply h
    rw [nBlocks_eq]
    omega

/-- C73: whatever the file, indexing meets undefined behaviour only because a block of the file, read as a header, announces a
size that does not fit; in particular no byte of the buffer is used before it was read. -/
theorem C73_undefined {f : List Byte} {fuel : Nat} (h : Tar.makeIndex fuel (some f) = some .ub) :
    ∃ k v, 512 * k + 512 ≤ f.length ∧ SizeField ((f.drop (512 * k + 124)).take 12) v ∧ (2 ^ 31 - 512 < v ∨ v < -2 ^ 31) := by
  unfold Tar.makeIndex at h
  dsimp only at h
  split at h
  · simp at h
  · rename_i hmod
    obtain ⟨k, v, hk, hv, hfit⟩ := (Tar.loop_ends (by omega) fuel _ (Tar.start_did f)).2.2 h
    exact ⟨k, v, hk, hv, nBlocks_over hfit⟩

/-- C73: whatever the file, indexing throws only because the size of the file is not a multiple of 512, or because a block of it
that is read as a header has no number in its size field. -/
theorem C73_throws {f : List Byte} {fuel : Nat} {e : Err} (h : Tar.makeIndex fuel (some f) = some (.throw e)) :
    (f.length % 512 ≠ 0 ∧ e = .runtimeError) ∨ (f.length % 512 = 0 ∧ e = .invalidArgument ∧
      ∃ k, 512 * k + 512 ≤ f.length ∧ ∀ v, ¬ SizeField ((f.drop (512 * k + 124)).take 12) v) := by
  unfold Tar.makeIndex at h
  dsimp only at h
  split at h
  · rename_i hmod
    simp only [Option.some.injEq, Outcome.throw.injEq] at h
    exact .inl ⟨hmod, h.symm⟩
  · rename_i hmod
    exact .inr ⟨by omega, (Tar.loop_ends (by omega) fuel _ (Tar.start_did f)).2.1 e h⟩

theorem Tar.reach_loop {f : List Byte} {s : Tar.St} (h : Tar.Reach f s) :
    ∃ n, ∀ fuel, Tar.loop f.length (fuel + n) (Tar.start f) = Tar.loop f.length fuel s := by
  induction h with
  | start => exact ⟨0, fun _ => rfl⟩
  | step _ hst ih =>
    obtain ⟨n, hn⟩ := ih
    refine ⟨n + 1, fun fuel => ?_⟩
    rw [show fuel + (n + 1) = fuel + 1 + n by omega, hn, Tar.loop, hst]

theorem Tar.reach_inv {f : List Byte} (hmod : f.length % 512 = 0) {s : Tar.St} (h : Tar.Reach f s) : Tar.Inv f s := by
  induction h with
  | start => exact Tar.start_did f
  | step _ hst ih =>
    have := Tar.did_step hmod ih
    rw [hst] at this
    cases this with
    | on hi _ => exact hi

/-- C73: once the stream has failed, indexing never ends: the same block is read as a header for ever. -/
theorem C73_hangs {f : List Byte} (hmod : f.length % 512 = 0) {s : Tar.St} (h : Tar.Reach f s) (hf : s.is.fail = true) (fuel : Nat) :
    Tar.makeIndex fuel (some f) = none := by
  obtain ⟨n, hn⟩ := Tar.reach_loop h
  refine makeIndex_mono n fuel _ ?_
  unfold Tar.makeIndex
  dsimp only
  rw [if_neg (by omega), hn]
  exact (Tar.loop_ends hmod fuel s (Tar.reach_inv hmod h)).1 hf

/-- C73, the complement of `C73_blocks_partial` for every file: at the head of the loop the stream is good, its position is a
multiple of 512 and the next block is complete — or indexing never ends. -/
theorem C73_blocks_or_hangs {f : List Byte} (hmod : f.length % 512 = 0) {s : Tar.St} (h : Tar.Reach f s) :
    (s.is.fail = false ∧ s.is.pos % 512 = 0 ∧ (s.is.tellg < f.length → (s.is.read 512).1.length = 512)) ∨
      ∀ fuel, Tar.makeIndex fuel (some f) = none := by
  obtain ⟨hb, -, ⟨hf, hp⟩ | ⟨hf, -⟩⟩ := Tar.reach_inv hmod h
  · refine .inl ⟨hf, hp, fun hlt => ?_⟩
    simp only [IStream.tellg, hf, Bool.false_eq_true, if_false] at hlt
    simp only [IStream.read, hf, Bool.false_eq_true, if_false, hb]
    simp
    omega
  · exact .inr fun fuel => C73_hangs hmod h hf fuel

/-- Non-vacuity of `C73_undefined`: `C73_overflow_witness` gives an archive for which indexing is undefined. Of `C73_throws`: a block
without a number. -/
example : Tar.makeIndex 1 (some (exampleBlock [])) = some (.throw .invalidArgument) := by
  have hl := exampleBlock_length [] (by decide)
  unfold Tar.makeIndex
  dsimp only
  rw [if_neg (by rw [hl]; decide), Tar.loop]
  have hno : Tar.parseHeader (exampleBlock []) = .throw .invalidArgument := by
    rcases parseHeader_cases (exampleBlock []) with ⟨v, hv, -⟩ | ⟨-, h⟩
    · exfalso
      have e : sizeOf (exampleBlock []) = List.replicate 12 0 := by
        unfold sizeOf exampleBlock
        decide
      rw [e] at hv
      exact no_number _ _ hv
    · exact h
  rw [step_throw (s := Tar.start (exampleBlock [])) (b := exampleBlock []) (rest := []) (c := 97) rfl List.length_replicate
    (by rw [hl]; decide) (List.append_nil _).symm hl rfl (by decide) hno]

/-- Non-vacuity of `C73_hangs`: one block with the size `-2000` (octal) makes the stream fail. -/
example (fuel : Nat) : Tar.makeIndex fuel (some (exampleBlock [45, 50, 48, 48, 48])) = none := by
  obtain ⟨s, hr, hlt, hg⟩ := C73_seek_fails (f := exampleBlock [45, 50, 48, 48, 48]) (c := 97)
    (List.take_of_length_le (by rw [exampleBlock_length _ (by decide)]))
    (by rw [exampleBlock_length _ (by decide)]) (by decide)
    (exampleBlock_size (sizeField_digits (sign := [45]) (ds := [50, 48, 48, 48]) 7 (by simp) (by decide) (.inr ⟨rfl, by decide⟩))
      (by decide))
  have hmod : (exampleBlock [45, 50, 48, 48, 48]).length % 512 = 0 := by rw [exampleBlock_length _ (by decide)]
  rcases C73_blocks_or_hangs hmod hr with ⟨_, _, h3⟩ | h
  · have := h3 hlt
    rw [hg] at this
    simp at this
  · exact h fuel

end StdNN
