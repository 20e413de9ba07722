import Verif.Model.Im2col
import Verif.Props.Sample
import Verif.Spec.Window
import Verif.Lemmas.Engine
import Mathlib.Algebra.BigOperators.Ring.Finset
/-!
# im2col and col2im on tabulated tensors
-/
namespace StdNN
open IntTy Spec Outcome
variable {R : Type}

/-- The code's sample object for an axis. -/
def _root_.StdNN.Spec.Axis.sample (a : Axis) : Sample := ⟨⟨a.k, a.s, a.r⟩, ⟨a.l, a.q⟩⟩

/-- Parameters in range for dimension type `N`, and windows covering the axis. -/
structure AxisOK (N : IntTy) (a : Axis) : Prop where
  fits : Fits N N a.k a.s a.r a.l a.q a.n
  covers : a.Covers

theorem window_eq [Zero R] (H W : Axis) (X : Nat → Nat → R) (i j u v : Nat) :
    window H W X i j u v =
      if (H.l ≤ H.pos i u ∧ H.pos i u < H.l + H.n) ∧ (W.l ≤ W.pos j v ∧ W.pos j v < W.l + W.n)
      then X (H.pos i u - H.l) (W.pos j v - W.l) else 0 := by
  unfold window padded
  by_cases c1 : H.l ≤ H.pos i u ∧ H.pos i u < H.l + H.n
  · simp [c1]
  · simp [c1]

section axis
variable {N : IntTy} {a : Axis}

theorem AxisOK.tap (h : AxisOK N a) {j u : Nat} (hj : j < a.m) (hu : u < a.k) :
    a.sample.tap N j u = .ok (a.pos j u : Nat) := (C02_taps h.fits h.fits.padded h.covers hj hu).1

theorem AxisOK.inside (h : AxisOK N a) {j u : Nat} (hj : j < a.m) (hu : u < a.k) :
    a.sample.inside N (a.pos j u : Nat) a.n = .ok (decide (a.l ≤ a.pos j u ∧ a.pos j u < a.l + a.n)) := by
  have := (C02_taps h.fits h.fits.padded h.covers hj hu).2.2.1
  unfold Sample.inside Axis.sample
  refine this.trans ?_
  congr 1
  rw [decide_eq_decide]
  constructor
  · rintro ⟨i, hi, e⟩
    unfold Axis.pos
    omega
  · rintro ⟨h1, h2⟩
    unfold Axis.pos at h1 h2
    exact ⟨j * a.s + u * a.r - a.l, by omega, by omega⟩

theorem AxisOK.unpad (h : AxisOK N a) {j u : Nat} (hj : j < a.m) (hu : u < a.k)
    (h1 : a.l ≤ a.pos j u ∧ a.pos j u < a.l + a.n) :
    a.sample.unpad N (a.pos j u : Nat) = .ok ((a.pos j u - a.l : Nat) : Int) := by
  refine (C02_taps h.fits h.fits.padded h.covers hj hu).2.2.2 (a.pos j u - a.l) (by omega) ?_
  unfold Axis.pos at h1 ⊢
  omega
end axis

/-- Where a tap of the two-dimensional sample falls. -/
def loc (H W : Axis) (i j u v : Nat) : Option (Nat × Nat) :=
  if (H.l ≤ H.pos i u ∧ H.pos i u < H.l + H.n) ∧ (W.l ≤ W.pos j v ∧ W.pos j v < W.l + W.n)
  then some (H.pos i u - H.l, W.pos j v - W.l) else none

theorem loc_some {H W : Axis} {i j u v a b : Nat} :
    loc H W i j u v = some (a, b) ↔ H.Hits i u a ∧ W.Hits j v b := by
  unfold loc Axis.Hits
  split
  · simp only [Option.some.injEq, Prod.mk.injEq]
    omega
  · simp only [reduceCtorEq, false_iff]
    omega

theorem loc_valid {H W : Axis} {i j u v a b : Nat} (h : loc H W i j u v = some (a, b)) : a < H.n ∧ b < W.n := by
  rw [loc_some] at h
  exact ⟨h.1.1, h.2.1⟩

theorem window_loc [Zero R] (H W : Axis) (X : Nat → Nat → R) (i j u v : Nat) :
    window H W X i j u v = match loc H W i j u v with
      | some (a, b) => X a b
      | none => 0 := by
  rw [window_eq]
  unfold loc
  by_cases c : (H.l ≤ H.pos i u ∧ H.pos i u < H.l + H.n) ∧ (W.l ≤ W.pos j v ∧ W.pos j v < W.l + W.n)
  · simp only [if_pos c]
  · simp only [if_neg c]

theorem locate_run {H W : Axis} (hH : AxisOK u32 H) (hW : AxisOK u32 W) {i j u v : Nat} (hi : i < H.m) (hj : j < W.m)
    (hu : u < H.k) (hv : v < W.k) :
    Kernels.locate H.sample W.sample H.n W.n i j u v = .ok (loc H W i j u v) := by
  simp only [Kernels.locate, hH.tap hi hu, hW.tap hj hv, Outcome.ok_bind, hH.inside hi hu, decide_eq_true_eq]
  unfold loc
  by_cases c1 : H.l ≤ H.pos i u ∧ H.pos i u < H.l + H.n
  · simp only [if_pos c1, hW.inside hj hv, Outcome.ok_bind, decide_eq_true_eq]
    by_cases c2 : W.l ≤ W.pos j v ∧ W.pos j v < W.l + W.n
    · rw [if_pos c2, if_pos ⟨c1, c2⟩, hH.unpad hi hu c1, hW.unpad hj hv c2]
      simp
    · rw [if_neg c2, if_neg (fun h => c2 h.2)]
      rfl
  · simp only [if_neg (fun h => c1 h.1 : ¬ ((H.l ≤ H.pos i u ∧ H.pos i u < H.l + H.n) ∧ (W.l ≤ W.pos j v ∧
      W.pos j v < W.l + W.n))), if_neg c1, Outcome.pure_eq, Outcome.ok_bind, Bool.false_eq_true, if_false]

/-! ## Store loops of rank 4 and 5 -/

section store
variable [Zero R]

theorem run_store4 {a b c d : Nat} {val : Nat → Nat → Nat → Nat → R} {y : List R}
    (hy : y.length = [a, b, c, d].prod) :
    forRange a (fun i y => forRange b (fun j y => forRange c (fun k y => forRange d (fun l y =>
      wr y (offset [a, b, c, d] [i, j, k, l]) (val i j k l)) y) y) y) y = .ok (tab [a, b, c, d] (fn4 val)).data := by
  refine WS.run_tab (dims := [a, b, c, d])
    (S := fun p => ∃ i < a, ∃ j < b, ∃ k < c, ∃ l < d, p = offset [a, b, c, d] [i, j, k, l]) ?_ ?_ hy
  · exact WS.forRange fun i hi => WS.forRange fun j hj => WS.forRange fun k hk => WS.forRange fun l hl =>
      WS.wr_idx (v4 hi hj hk hl) rfl
  · intro idx hv
    match idx, hv with
    | [i, j, k, l], hv => exact ⟨i, hv.1, j, hv.2.1, k, hv.2.2.1, l, hv.2.2.2.1, rfl⟩

theorem run_store5 {a b c d e : Nat} {val : Nat → Nat → Nat → Nat → Nat → R} {y : List R}
    (hy : y.length = [a, b, c, d, e].prod) :
    forRange a (fun i y => forRange b (fun j y => forRange c (fun k y => forRange d (fun l y => forRange e (fun o y =>
      wr y (offset [a, b, c, d, e] [i, j, k, l, o]) (val i j k l o)) y) y) y) y) y =
      .ok (tab [a, b, c, d, e] (fn5 val)).data := by
  refine WS.run_tab (dims := [a, b, c, d, e])
    (S := fun p => ∃ i < a, ∃ j < b, ∃ k < c, ∃ l < d, ∃ o < e, p = offset [a, b, c, d, e] [i, j, k, l, o]) ?_ ?_ hy
  · exact WS.forRange fun i hi => WS.forRange fun j hj => WS.forRange fun k hk => WS.forRange fun l hl =>
      WS.forRange fun o ho => WS.wr_idx (v5 hi hj hk hl ho) rfl
  · intro idx hv
    match idx, hv with
    | [i, j, k, l, o], hv => exact ⟨i, hv.1, j, hv.2.1, k, hv.2.2.1, l, hv.2.2.2.1, o, hv.2.2.2.2.1, rfl⟩
end store

/-- Flat store loop. -/
theorem run_storeFlat {n : Nat} {val : Nat → R} {y : List R} (hy : y.length = n) :
    forRange n (fun i y => wr y i (val i)) y = .ok ((List.range n).map val) := by
  have h : WS (forRange n (fun i y => wr y i (val i))) n (fun p => ∃ i < n, p = i) val :=
    WS.forRange fun i hi => WS.wr hi rfl
  obtain ⟨b', e1, l1, s1⟩ := h y hy
  rw [e1]
  congr 1
  apply List.ext_getElem?
  intro p
  by_cases hp : p < n
  · rw [(s1 p).1 ⟨p, hp, rfl⟩ hp]
    simp [hp]
  · rw [List.getElem?_eq_none (by omega), List.getElem?_eq_none (by simp; omega)]

theorem WS.onSlice {off l len : Nat} (hle : off + l ≤ len) {g : List R → Outcome (List R)} {S : Nat → Prop}
    {v v' : Nat → R} (h : WS g l S v) (hv : ∀ p < l, v' (off + p) = v p) :
    WS (StdNN.onSlice off l g) len (fun p => off ≤ p ∧ p < off + l ∧ S (p - off)) v' := by
  intro b hb
  have hle' : off + l ≤ b.length := by omega
  obtain ⟨s', e1, l1, s1⟩ := h ((b.drop off).take l) (by rw [List.length_take, List.length_drop]; omega)
  refine ⟨b.take off ++ s' ++ b.drop (off + l), ?_, ?_, ?_⟩
  · simp only [StdNN.onSlice, hle', if_true, e1, Outcome.ok_bind, Outcome.pure_eq]
  · simp [l1]; omega
  · intro p
    have ht : (b.take off).length = off := by simp; omega
    by_cases c1 : p < off
    · refine ⟨fun hs => absurd hs.1 (by omega), fun _ => ?_⟩
      rw [List.append_assoc, List.getElem?_append_left (by omega), List.getElem?_take_of_lt c1]
    · by_cases c2 : p < off + l
      · rw [List.append_assoc, List.getElem?_append_right (by omega), ht,
          List.getElem?_append_left (by omega)]
        constructor
        · rintro ⟨_, _, hs⟩ _
          rw [(s1 (p - off)).1 hs (by omega)]
          have := hv (p - off) (by omega)
          rw [← this]
          congr 2
          omega
        · intro hn
          rw [(s1 (p - off)).2 (fun hs => hn ⟨by omega, c2, hs⟩), List.getElem?_take_of_lt (by omega),
            List.getElem?_drop]
          congr 1
          omega
      · refine ⟨fun hs => absurd hs.2.1 (by omega), fun _ => ?_⟩
        rw [List.getElem?_append_right (by simp [l1]; omega), List.getElem?_drop]
        congr 1
        simp only [List.length_append, ht, l1]
        omega

/-- A loop over the leading dimension whose body overwrites the sub-tensor. -/
theorem run_slices {n : Nat} {sub : List Nat} {g : Nat → List R → Outcome (List R)} {F : Nat → List Nat → R}
    (hg : ∀ i < n, ∀ s : List R, s.length = sub.prod → g i s = .ok (tab sub (F i)).data) {y : List R}
    (hy : y.length = n * sub.prod) :
    forRange n (fun i y => onSlice (i * sub.prod) sub.prod (g i) y) y =
      .ok (tab (n :: sub) (fun idx => F (idx.headD 0) idx.tail)).data := by
  refine WS.run_tab (dims := n :: sub) (f := fun idx => F (idx.headD 0) idx.tail)
    (S := fun p => ∃ i < n, i * sub.prod ≤ p ∧ p < i * sub.prod + sub.prod ∧ True) ?_ ?_ (by simpa using hy)
  · refine WS.forRange fun i hi => ?_
    have hle : (i + 1) * sub.prod ≤ n * sub.prod := Nat.mul_le_mul_right _ hi
    rw [Nat.succ_mul] at hle
    refine WS.onSlice (v := fun p => F i (unravel sub p)) (by simpa using hle) (S := fun _ => True) ?_ ?_
    · intro s hs
      refine ⟨_, hg i hi s hs, by simp, fun p => ⟨fun _ hp => ?_, fun h => absurd trivial h⟩⟩
      simp [tab, hp]
    · intro p hp
      have hpos : 0 < sub.prod := by omega
      simp only [unravel, List.headD_cons, List.tail_cons]
      rw [Nat.mul_comm, Nat.mul_add_div hpos, Nat.mul_add_mod, Nat.div_eq_of_lt hp, Nat.mod_eq_of_lt hp]
      rfl
  · intro idx hv
    match idx, hv with
    | i :: is, hv =>
      have := offset_lt hv.2
      refine ⟨i, hv.1, ?_, ?_, trivial⟩ <;> simp only [offset_cons] <;> omega

namespace Kernels

section gather
variable [Zero R]

theorem im2colHwrs_run {H W : Axis} (hH : AxisOK u32 H) (hW : AxisOK u32 W) (X : Nat → Nat → R) {y : List R}
    (hy : y.length = [H.m, W.m, H.k, W.k].prod) :
    im2colHwrs [H.sample, W.sample] [H.m, W.m, H.k, W.k] (tab [H.n, W.n] (fn2 X)) y =
      .ok (tab [H.m, W.m, H.k, W.k] (fn4 (window H W X))).data := by
  simp only [im2colHwrs, tab_dims]
  rw [← run_store4 hy]
  refine forRange_congr (fun i hi s => forRange_congr (fun j hj s => forRange_congr (fun u hu s =>
    forRange_congr (fun v hv s => ?_) s) s) s) y
  rw [locate_run hH hW hi hj hu hv, window_loc]
  simp only [Outcome.ok_bind]
  cases h : loc H W i j u v with
  | none => rfl
  | some ab =>
    obtain ⟨a, b⟩ := ab
    have := loc_valid h
    simp only [tab_at _ (v2 this.1 this.2), fn2_apply, Outcome.ok_bind]

theorem im2colRshw_run {H W : Axis} (hH : AxisOK u32 H) (hW : AxisOK u32 W) (X : Nat → Nat → R) {y : List R}
    (hy : y.length = [H.k, W.k, H.m, W.m].prod) :
    im2colRshw [H.sample, W.sample] [H.k, W.k, H.m, W.m] (tab [H.n, W.n] (fn2 X)) y =
      .ok (tab [H.k, W.k, H.m, W.m] (fn4 fun u v i j => window H W X i j u v)).data := by
  simp only [im2colRshw, tab_dims]
  rw [← run_store4 hy]
  refine forRange_congr (fun u hu s => forRange_congr (fun v hv s => forRange_congr (fun i hi s =>
    forRange_congr (fun j hj s => ?_) s) s) s) y
  rw [locate_run hH hW hi hj hu hv, window_loc]
  simp only [Outcome.ok_bind]
  cases h : loc H W i j u v with
  | none => rfl
  | some ab =>
    obtain ⟨a, b⟩ := ab
    have := loc_valid h
    simp only [tab_at _ (v2 this.1 this.2), fn2_apply, Outcome.ok_bind]

theorem im2colHwrsc_run {H W : Axis} (hH : AxisOK u32 H) (hW : AxisOK u32 W) {c : Nat} (X : Nat → Nat → Nat → R)
    {y : List R} (hy : y.length = [H.m, W.m, H.k, W.k, c].prod) :
    im2colHwrsc [H.sample, W.sample] [H.m, W.m, H.k, W.k, c] (tab [H.n, W.n, c] (fn3 X)) y =
      .ok (tab [H.m, W.m, H.k, W.k, c] (fn5 fun i j u v k => window H W (fun a b => X a b k) i j u v)).data := by
  simp only [im2colHwrsc, tab_dims, contractAssert_pos, Outcome.ok_bind]
  rw [← run_store5 hy]
  refine forRange_congr (fun i hi s => forRange_congr (fun j hj s => forRange_congr (fun u hu s =>
    forRange_congr (fun v hv s => forRange_congr (fun k hk s => ?_) s) s) s) s) y
  rw [locate_run hH hW hi hj hu hv, window_loc]
  simp only [Outcome.ok_bind]
  cases h : loc H W i j u v with
  | none => rfl
  | some ab =>
    obtain ⟨a, b⟩ := ab
    have := loc_valid h
    simp only [tab_at _ (v3 this.1 this.2 hk), fn3_apply, Outcome.ok_bind]

/-- The table of offsets as stored in `int`. -/
def offs (H W : Axis) (c : Nat) : List Nat → Int := fn5 fun i j u v k =>
  match loc H W i j u v with
  | some (a, b) => i32.conv (offset [H.n, W.n, c] [a, b, k])
  | none => -1

theorem i32_conv_u32 {o : Nat} (h : o < 2 ^ 32) :
    i32.conv o = if o < 2 ^ 31 then (o : Int) else o - 2 ^ 32 := by
  have h32 : (2 : Nat) ^ 32 = 4294967296 := by norm_num
  have h31 : (2 : Nat) ^ 31 = 2147483648 := by norm_num
  have i32' : (2 : Int) ^ 32 = 4294967296 := by norm_num
  simp only [conv, i32, if_true, Int.bmod, h32, h31, i32'] at *
  split <;> split <;> omega

theorem idxMap_run {H W : Axis} (hH : AxisOK u32 H) (hW : AxisOK u32 W) {c : Nat}
    {y : List Int} (hy : y.length = [H.m, W.m, H.k, W.k, c].prod) :
    idxMap [H.sample, W.sample] [H.m, W.m, H.k, W.k, c] [H.n, W.n, c] y =
      .ok (tab [H.m, W.m, H.k, W.k, c] (offs H W c)).data := by
  simp only [idxMap]
  have e := run_storeFlat (val := fun p => offs H W c (unravel [H.m, W.m, H.k, W.k, c] p)) hy
  unfold tab
  rw [← e]
  refine forRange_congr (fun p hp s => ?_) y
  have hv := valid_unravel hp
  generalize unravel [H.m, W.m, H.k, W.k, c] p = idx at hv
  match idx, hv with
  | [i, j, u, v, k], hv =>
    obtain ⟨hi, hj, hu, hv, hk, -⟩ := hv
    simp only [locate_run hH hW hi hj hu hv, Outcome.ok_bind, offs, fn5_apply]
    cases h : loc H W i j u v with
    | none => rfl
    | some ab => rfl

/-- What the gather yields for a table truncated to `int`. -/
def gathered (H W : Axis) (c : Nat) (X : Nat → Nat → Nat → R) (i j u v k : Nat) : R :=
  match loc H W i j u v with
  | some (a, b) => if offset [H.n, W.n, c] [a, b, k] < 2 ^ 31 then X a b k else 0
  | none => 0

theorem gathered_eq {H W : Axis} {c : Nat} (hsz : [H.n, W.n, c].prod ≤ 2 ^ 31) (X : Nat → Nat → Nat → R)
    {i j u v k : Nat} (hk : k < c) : gathered H W c X i j u v k = window H W (fun a b => X a b k) i j u v := by
  rw [window_loc]
  unfold gathered
  rcases h : loc H W i j u v with _ | ⟨a, b⟩
  · rfl
  · have hb := loc_valid h
    simp only
    rw [if_pos (lt_of_lt_of_le (offset_lt (v3 hb.1 hb.2 hk)) hsz)]

theorem idxGather_run {H W : Axis} {c : Nat} (hsz : [H.n, W.n, c].prod ≤ 2 ^ 32) (X : Nat → Nat → Nat → R)
    {y : List R} (hy : y.length = [H.m, W.m, H.k, W.k, c].prod) :
    idxGather (tab [H.m, W.m, H.k, W.k, c] (offs H W c)).data (tab [H.n, W.n, c] (fn3 X)).data y =
      .ok (tab [H.m, W.m, H.k, W.k, c] (fn5 (gathered H W c X))).data := by
  unfold idxGather
  rw [hy]
  have e := run_storeFlat (val := fun p => fn5 (gathered H W c X) (unravel [H.m, W.m, H.k, W.k, c] p)) hy
  conv_rhs => unfold tab
  rw [← e]
  refine forRange_congr (fun p hp s => ?_) y
  obtain ⟨idx, hv, rfl⟩ := exists_offset hp
  have e1 := tab_getElem? (offs H W c) hv
  simp only [rd, e1, Outcome.ok_bind, unravel_offset hv]
  match idx, hv with
  | [i, j, u, v, k], hv =>
    obtain ⟨hi, hj, hu, hv, hk, -⟩ := hv
    rcases h : loc H W i j u v with _ | ⟨a, b⟩
    · simp only [offs, fn5_apply, gathered, h]
      rfl
    · simp only [offs, fn5_apply, gathered, h]
      have hb := loc_valid h
      have hlt := offset_lt (v3 hb.1 hb.2 hk)
      have e2 := tab_getElem? (fn3 X) (v3 hb.1 hb.2 hk)
      rw [i32_conv_u32 (lt_of_lt_of_le hlt hsz)]
      by_cases c1 : offset [H.n, W.n, c] [a, b, k] < 2 ^ 31
      · simp only [if_pos c1]
        rw [if_pos (Int.natCast_nonneg _)]
        simp only [Int.toNat_natCast, e2, Outcome.ok_bind, fn3_apply]
      · simp only [if_neg c1]
        rw [if_neg]
        have := lt_of_lt_of_le hlt hsz
        have i32' : (2 : Int) ^ 32 = 4294967296 := by norm_num
        have h32 : (2 : Nat) ^ 32 = 4294967296 := by norm_num
        omega

theorem im2colNhwrsc_run_gen {H W : Axis} (hH : AxisOK u32 H) (hW : AxisOK u32 W) {n c : Nat}
    (hsz : [H.n, W.n, c].prod ≤ 2 ^ 32) (X : Nat → Nat → Nat → Nat → R) (junk : Nat → Int) {y : List R}
    (hy : y.length = [n, H.m, W.m, H.k, W.k, c].prod) :
    im2colNhwrsc [H.sample, W.sample] junk [n, H.m, W.m, H.k, W.k, c] (tab [n, H.n, W.n, c] (fn4 X)) y =
      .ok (tab [n, H.m, W.m, H.k, W.k, c] (fn6 fun b => gathered H W c (X b))).data := by
  simp only [im2colNhwrsc, tab_dims, List.tail_cons]
  rw [idxMap_run hH hW (by simp [fresh])]
  simp only [Outcome.ok_bind]
  rw [run_slices (sub := [H.m, W.m, H.k, W.k, c]) (F := fun b => fn5 (gathered H W c (X b))) ?_ (by simpa using hy)]
  · refine congrArg (fun t => Outcome.ok (Tensor.data t)) (tab_congr fun idx hv => ?_)
    match idx, hv with
    | [b, i, j, u, v, k], hv => rfl
  · intro b hb s hs
    rw [tab_sub _ hb]
    have : tab [H.n, W.n, c] (fun idx => fn4 X (b :: idx)) = tab [H.n, W.n, c] (fn3 (X b)) := by
      apply tab_congr
      intro idx hv
      match idx, hv with
      | [a, a', k], hv => rfl
    rw [this, idxGather_run hsz _ hs]

theorem im2colNhwrsc_run {H W : Axis} (hH : AxisOK u32 H) (hW : AxisOK u32 W) {n c : Nat}
    (hsz : [H.n, W.n, c].prod ≤ 2 ^ 31) (X : Nat → Nat → Nat → Nat → R) (junk : Nat → Int) {y : List R}
    (hy : y.length = [n, H.m, W.m, H.k, W.k, c].prod) :
    im2colNhwrsc [H.sample, W.sample] junk [n, H.m, W.m, H.k, W.k, c] (tab [n, H.n, W.n, c] (fn4 X)) y =
      .ok (tab [n, H.m, W.m, H.k, W.k, c]
        (fn6 fun b i j u v k => window H W (fun a a' => X b a a' k) i j u v)).data := by
  rw [im2colNhwrsc_run_gen hH hW (le_trans hsz (by norm_num)) X junk hy]
  refine congrArg (fun t => Outcome.ok (Tensor.data t)) (tab_congr fun idx hv => ?_)
  match idx, hv with
  | [b, i, j, u, v, k], hv => exact gathered_eq hsz (X b) hv.2.2.2.2.2.1

end gather

section scatter
variable [AddCommMonoid R]
open Finset

theorem foldl_add_range {n : Nat} {f : R → Nat → R} {G : Nat → R} (h : ∀ i < n, ∀ a, f a i = a + G i) (a : R) :
    (List.range n).foldl f a = a + ∑ i ∈ range n, G i := by
  induction n with
  | zero => simp
  | succ n ih =>
    rw [List.range_succ, List.foldl_append, ih fun i hi => h i (by omega), sum_range_succ]
    simp only [List.foldl_cons, List.foldl_nil, h n (by omega)]
    rw [add_assoc]

/-- The sum scattered into pixel `(a, b)` of channel `k`. -/
def scatter (H W : Axis) (X : Nat → Nat → Nat → Nat → R) (a b : Nat) : R :=
  ∑ i ∈ range H.m, ∑ j ∈ range W.m, ∑ u ∈ range H.k, ∑ v ∈ range W.k,
    if H.Hits i u a ∧ W.Hits j v b then X i j u v else 0

theorem col2imHwrsc_run {H W : Axis} (hH : AxisOK u32 H) (hW : AxisOK u32 W) {c : Nat}
    (X : Nat → Nat → Nat → Nat → Nat → R) {y : List R} (hy : y.length = [H.n, W.n, c].prod) :
    col2imHwrsc [H.sample, W.sample] [H.n, W.n, c] (tab [H.m, W.m, H.k, W.k, c] (fn5 X)) y =
      .ok (tab [H.n, W.n, c] (fn3 fun a b k => scatter H W (fun i j u v => X i j u v k) a b)).data := by
  simp only [col2imHwrsc, tab_dims, contractAssert_pos, Outcome.ok_bind]
  let A : Nat → Nat → Nat → Nat → Nat → Nat → R → R := fun i j u v k p r =>
    match loc H W i j u v with
    | some (a, b) => if p = offset [H.n, W.n, c] [a, b, k] then r + X i j u v k else r
    | none => r
  have key := PW.seq (len := [H.n, W.n, c].prod) (PW.fill _ (0 : R))
    (PW.forRange (n := H.m) fun i hi => PW.forRange (n := W.m) fun j hj => PW.forRange (n := H.k) fun u hu =>
      PW.forRange (n := W.k) fun v hv => PW.forRange (n := c) (A := fun k p r => A i j u v k p r) (body := fun k y => do
        let o ← locate H.sample W.sample H.n W.n i j u v
        match o with
        | some (a, b) => do
          let xv ← (tab [H.m, W.m, H.k, W.k, c] (fn5 X)).at_ [i, j, u, v, k]
          upd y (offset [H.n, W.n, c] [a, b, k]) (fun r => r + xv)
        | none => .ok y) fun k hk => by
          rw [locate_run hH hW hi hj hu hv]
          simp only [Outcome.ok_bind, tab_at _ (v5 hi hj hu hv hk), fn5_apply, A]
          cases h : loc H W i j u v with
          | none => exact PW.pure _
          | some ab =>
            obtain ⟨a, b⟩ := ab
            have hb := loc_valid h
            exact PW.upd (offset_lt (v3 hb.1 hb.2 hk)) _)
  refine PW.run_tab (dims := [H.n, W.n, c]) key ?_ hy
  intro idx hv r
  match idx, hv with
  | [a, b, k], hv =>
    simp only [fn3_apply, scatter]
    refine (foldl_add_range (fun i hi r => foldl_add_range (fun j hj r => foldl_add_range (fun u hu r =>
      foldl_add_range (G := fun v => if H.Hits i u a ∧ W.Hits j v b then X i j u v k else 0) (fun w hw r => ?_)
        r) r) r) 0).trans (zero_add _)
    rw [foldl_range_single hv.2.2.1]
    · simp only [A]
      cases h : loc H W i j u w with
      | none =>
        have : ¬ (H.Hits i u a ∧ W.Hits j w b) := by rw [← loc_some, h]; simp
        simp [this]
      | some ab =>
        obtain ⟨a', b'⟩ := ab
        have hb := loc_valid h
        by_cases e : a' = a ∧ b' = b
        · obtain ⟨rfl, rfl⟩ := e
          rw [if_pos (loc_some.1 h)]
          simp
        · have : ¬ (H.Hits i u a ∧ W.Hits j w b) := by
            rw [← loc_some, h]; simpa using e
          rw [if_neg this, add_zero]
          simp only
          rw [if_neg]
          intro e2
          have := offset_inj hv (v3 hb.1 hb.2 hv.2.2.1) e2
          simp at this
          exact e ⟨this.1.symm, this.2.symm⟩
    · intro k' hk' hne r
      simp only [A]
      cases h : loc H W i j u w with
      | none => rfl
      | some ab =>
        obtain ⟨a', b'⟩ := ab
        have hb := loc_valid h
        simp only
        rw [if_neg]
        intro e2
        have := offset_inj hv (v3 hb.1 hb.2 hk') e2
        simp at this
        exact hne this.2.2.symm

end scatter
end Kernels
end StdNN
