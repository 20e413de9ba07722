import Verif.Model.Pool
import Verif.Spec.Pool
import Verif.Spec.Sum
import Verif.Lemmas.Im2col
/-!
# Pooling kernels on tabulated tensors
-/
namespace StdNN
open IntTy Spec Outcome
variable {R : Type}

/-- The value an accumulator reports after seeing the elements of a list. -/
def Acc.run (acc : Acc R) (l : List R) : Outcome R := l.foldlM acc.step acc.init >>= acc.result

theorem forRange_flatMap {σ : Type} (n : Nat) (f : Nat → List R) (step : σ → R → Outcome σ) (s : σ) :
    forRange n (fun u s => (f u).foldlM step s) s = ((List.range n).flatMap f).foldlM step s := by
  induction n with
  | zero => rfl
  | succ n ih =>
    rw [forRange_succ, ih, List.range_succ, List.flatMap_append, List.foldlM_append]
    congr 1
    funext t
    simp

theorem forRange_filterMap {σ : Type} (n : Nat) (g : Nat → Option R) (step : σ → R → Outcome σ) (s : σ) :
    forRange n (fun v s => match g v with
      | some x => step s x
      | none => .ok s) s = ((List.range n).filterMap g).foldlM step s := by
  induction n with
  | zero => rfl
  | succ n ih =>
    rw [forRange_succ, ih, List.range_succ, List.filterMap_append, List.foldlM_append]
    congr 1
    funext t
    cases h : g n with
    | none => simp [h]
    | some x => simp only [h, List.filterMap_cons, List.filterMap_nil, List.foldlM_cons, List.foldlM_nil, bind_pure]

/-- The accumulation over one window. -/
theorem pool_window {H W : Axis} (hH : AxisOK u32 H) (hW : AxisOK u32 W) (X : Nat → Nat → R) (acc : Acc R)
    (get : Nat → Nat → Outcome R) (hg : ∀ a < H.n, ∀ b < W.n, get a b = .ok (X a b))
    {i j : Nat} (hi : i < H.m) (hj : j < W.m) (s : acc.S) :
    forRange H.k (fun u st => forRange W.k (fun v st => do
        let o ← Kernels.locate H.sample W.sample H.n W.n i j u v
        match o with
        | some (a, b) => do
          let xv ← get a b
          acc.step st xv
        | none => .ok st) st) s = (pixels H W X i j).foldlM acc.step s := by
  unfold pixels
  rw [← forRange_flatMap]
  refine forRange_congr (fun u hu st => ?_) s
  rw [← forRange_filterMap]
  refine forRange_congr (fun v hv st => ?_) st
  rw [locate_run hH hW hi hj hu hv, Outcome.ok_bind]
  unfold loc
  by_cases c : (H.l ≤ H.pos i u ∧ H.pos i u < H.l + H.n) ∧ W.l ≤ W.pos j v ∧ W.pos j v < W.l + W.n
  · simp only [if_pos c]
    rw [hg _ (by omega) _ (by omega)]
    rfl
  · simp only [if_neg c]

/-- Pooling trait of two axes. -/
def poolTrait (H W : Axis) : PoolTrait := ⟨H.sample, W.sample⟩

namespace Kernels
variable [Zero R]

theorem poolHw_run {H W : Axis} (hH : AxisOK u32 H) (hW : AxisOK u32 W) (acc : Acc R) (X Z : Nat → Nat → R)
    (hZ : ∀ i < H.m, ∀ j < W.m, acc.run (pixels H W X i j) = .ok (Z i j)) {y : List R}
    (hy : y.length = [H.m, W.m].prod) :
    poolHw acc (poolTrait H W) [H.m, W.m] (tab [H.n, W.n] (fn2 X)) y = .ok (tab [H.m, W.m] (fn2 Z)).data := by
  simp only [poolHw, tab_dims]
  rw [← Plain.run_store2 (by simpa using hy)]
  refine forRange_congr (fun i hi s => forRange_congr (fun j hj s => ?_) s) y
  have := pool_window hH hW X acc (fun a b => (tab [H.n, W.n] (fn2 X)).at_ [a, b])
    (fun a ha b hb => by rw [tab_at _ (v2 ha hb)]; rfl) hi hj acc.init
  have hz := hZ i hi j hj
  unfold Acc.run at hz
  rw [← this] at hz
  obtain ⟨st, h1, h2⟩ := Outcome.bind_eq_ok.1 hz
  refine (congrArg (fun o => o >>= fun st => acc.result st >>= fun v => wr s (offset [H.m, W.m] [i, j]) v) h1).trans ?_
  simp only [Outcome.ok_bind, h2]

theorem poolHwc_run {H W : Axis} (hH : AxisOK u32 H) (hW : AxisOK u32 W) (acc : Acc R) {c : Nat}
    (X Z : Nat → Nat → Nat → R)
    (hZ : ∀ i < H.m, ∀ j < W.m, ∀ k < c, acc.run (pixels H W (fun a b => X a b k) i j) = .ok (Z i j k)) {y : List R}
    (hy : y.length = [H.m, W.m, c].prod) :
    poolHwc acc (poolTrait H W) [H.m, W.m, c] (tab [H.n, W.n, c] (fn3 X)) y =
      .ok (tab [H.m, W.m, c] (fn3 Z)).data := by
  simp only [poolHwc, tab_dims, contractAssert_pos, Outcome.ok_bind]
  have key : forRange c (fun k y => forRange H.m (fun i y => forRange W.m (fun j y =>
      wr y (offset [H.m, W.m, c] [i, j, k]) (Z i j k)) y) y) y = .ok (tab [H.m, W.m, c] (fn3 Z)).data := by
    refine WS.run_tab (dims := [H.m, W.m, c])
      (S := fun p => ∃ k < c, ∃ i < H.m, ∃ j < W.m, p = offset [H.m, W.m, c] [i, j, k]) ?_ ?_ hy
    · exact WS.forRange fun k hk => WS.forRange fun i hi => WS.forRange fun j hj => WS.wr_idx (v3 hi hj hk) rfl
    · intro idx hv
      match idx, hv with
      | [i, j, k], hv => exact ⟨k, hv.2.2.1, i, hv.1, j, hv.2.1, rfl⟩
  rw [← key]
  refine forRange_congr (fun k hk s => forRange_congr (fun i hi s => forRange_congr (fun j hj s => ?_) s) s) y
  have := pool_window hH hW (fun a b => X a b k) acc (fun a b => (tab [H.n, W.n, c] (fn3 X)).at_ [a, b, k])
    (fun a ha b hb => by rw [tab_at _ (v3 ha hb hk)]; rfl) hi hj acc.init
  have hz := hZ i hi j hj k hk
  unfold Acc.run at hz
  rw [← this] at hz
  obtain ⟨st, h1, h2⟩ := Outcome.bind_eq_ok.1 hz
  refine (congrArg (fun o => o >>= fun st => acc.result st >>= fun v => wr s (offset [H.m, W.m, c] [i, j, k]) v) h1).trans ?_
  simp only [Outcome.ok_bind, h2]

end Kernels

/-! ## Four-dimensional wrappers -/

/-- The windows that the four-dimensional operators use: all padding moved behind the axis. -/
def shifted (a : Axis) : Axis := { a with l := 0, q := a.l + a.q }

theorem shifted_ok {a : Axis} (h : AxisOK u32 a) : AxisOK u32 (shifted a) := by
  have f := h.fits
  have hp := f.padded
  have e : 0 + a.n + (a.l + a.q) = a.l + a.n + a.q := by omega
  refine ⟨⟨f.hN, f.hD, f.k1, f.s1, f.r1, f.hk, f.hs, f.hr, ?_, ?_, f.hn, ?_, f.patchN, f.patchD⟩, ?_⟩
  · exact hp.mono (by unfold shifted; simp only; omega) (by unfold shifted; simp only; omega)
  · exact hp.mono (by unfold shifted; simp only; omega) (by unfold shifted; simp only; omega)
  · exact hp.mono (by unfold shifted; simp only; omega) (by unfold shifted; simp only; omega)
  · have := h.covers
    unfold Axis.Covers OutLen at this ⊢
    simp only [shifted, e]
    exact this

theorem makeKS_run {H W : Axis} (hH : AxisOK u32 H) (hW : AxisOK u32 W) (rH : H.r = 1) (rW : W.r = 1) :
    PoolTrait.makeKS (poolTrait H W).ksize (poolTrait H W).stride =
      .ok ⟨⟨⟨H.k, H.s, H.r⟩, ⟨0, 0⟩⟩, ⟨⟨W.k, W.s, W.r⟩, ⟨0, 0⟩⟩⟩ := by
  have f := hH.fits
  have g := hW.fits
  have h1 := f.k1; have h2 := f.s1; have h3 := g.k1; have h4 := g.s1
  unfold PoolTrait.makeKS PoolTrait.make Sample.make
  have e1 : (poolTrait H W).ksize = (H.k, W.k) := rfl
  have e2 : (poolTrait H W).stride = (H.s, W.s) := rfl
  rw [e1, e2]
  have m1 := Filter.make_ok f.hN f.hk f.hs f.hr (by omega) (by omega) (by omega)
  have m2 := Filter.make_ok g.hN g.hk g.hs g.hr (by omega) (by omega) (by omega)
  rw [rH] at m1
  rw [rW] at m2
  have m1' : Filter.make u32 ((H.k, W.k).1 : Nat) ((H.s, W.s).1 : Nat) 1 = .ok ⟨H.k, H.s, 1⟩ := m1
  have m2' : Filter.make u32 ((H.k, W.k).2 : Nat) ((H.s, W.s).2 : Nat) 1 = .ok ⟨W.k, W.s, 1⟩ := m2
  rw [m1', m2', rH, rW]
  rfl

theorem poolHw_pad (acc : Acc R) (f g : Filter) (l q q' l2 q2 q2' : Int) (ydims : List Nat) (x : Tensor R) (y : List R) :
    Kernels.poolHw acc ⟨⟨f, ⟨l, q⟩⟩, ⟨g, ⟨l2, q2⟩⟩⟩ ydims x y = Kernels.poolHw acc ⟨⟨f, ⟨l, q'⟩⟩, ⟨g, ⟨l2, q2'⟩⟩⟩ ydims x y :=
  rfl

theorem poolHwc_pad (acc : Acc R) (f g : Filter) (l q q' l2 q2 q2' : Int) (ydims : List Nat) (x : Tensor R) (y : List R) :
    Kernels.poolHwc acc ⟨⟨f, ⟨l, q⟩⟩, ⟨g, ⟨l2, q2⟩⟩⟩ ydims x y = Kernels.poolHwc acc ⟨⟨f, ⟨l, q'⟩⟩, ⟨g, ⟨l2, q2'⟩⟩⟩ ydims x y :=
  rfl

/-- Two nested loops over sub-tensors. -/
theorem run_slices2 {n c : Nat} {sub : List Nat} {g : Nat → Nat → List R → Outcome (List R)}
    {F : Nat → Nat → List Nat → R}
    (hg : ∀ i < n, ∀ j < c, ∀ s : List R, s.length = sub.prod → g i j s = .ok (tab sub (F i j)).data) {y : List R}
    (hy : y.length = (n :: c :: sub).prod) :
    forRange n (fun i y => forRange c (fun j y => onSlice (i * (c :: sub).prod) (c :: sub).prod
      (onSlice (j * sub.prod) sub.prod (g i j)) y) y) y =
      .ok (tab (n :: c :: sub) (fun idx => F (idx.headD 0) (idx.tail.headD 0) idx.tail.tail)).data := by
  refine WS.run_tab (dims := n :: c :: sub) (f := fun idx => F (idx.headD 0) (idx.tail.headD 0) idx.tail.tail)
    (S := fun p => ∃ i < n, ∃ j < c, i * (c :: sub).prod ≤ p ∧ p < i * (c :: sub).prod + (c :: sub).prod ∧
      (j * sub.prod ≤ p - i * (c :: sub).prod ∧ p - i * (c :: sub).prod < j * sub.prod + sub.prod ∧ True)) ?_ ?_ hy
  · refine WS.forRange fun i hi => WS.forRange fun j hj => ?_
    have hle : (i + 1) * (c :: sub).prod ≤ n * (c :: sub).prod := Nat.mul_le_mul_right _ hi
    have hle2 : (j + 1) * sub.prod ≤ c * sub.prod := Nat.mul_le_mul_right _ hj
    rw [Nat.succ_mul] at hle hle2
    refine WS.onSlice (v := fun p => F i (p / sub.prod) (unravel sub (p % sub.prod)))
      (by rw [List.prod_cons (a := n)]; exact hle)
      (S := fun p => j * sub.prod ≤ p ∧ p < j * sub.prod + sub.prod ∧ True) ?_ ?_
    · refine WS.onSlice (v := fun p => F i j (unravel sub p)) (by rw [List.prod_cons]; exact hle2)
        (S := fun _ => True) ?_ ?_
      · intro s hs
        refine ⟨_, hg i hi j hj s hs, by simp, fun p => ⟨fun _ hp => ?_, fun h => absurd trivial h⟩⟩
        simp [tab, hp]
      · intro p hp
        have hpos : 0 < sub.prod := by omega
        rw [Nat.mul_comm, Nat.mul_add_div hpos, Nat.mul_add_mod, Nat.div_eq_of_lt hp, Nat.mod_eq_of_lt hp]
        rfl
    · intro p hp
      have hpos : 0 < (c :: sub).prod := by omega
      have e1 : (i * (c :: sub).prod + p) / (c :: sub).prod = i := by
        rw [Nat.mul_comm, Nat.mul_add_div hpos, Nat.div_eq_of_lt hp]; rfl
      have e2 : (i * (c :: sub).prod + p) % (c :: sub).prod = p := by
        rw [Nat.mul_comm, Nat.mul_add_mod, Nat.mod_eq_of_lt hp]
      simp only [unravel, List.headD_cons, List.tail_cons, e1, e2]
  · intro idx hv
    match idx, hv with
    | i :: j :: is, hv =>
      have h2 := offset_lt hv.2.2
      have hle2 : (j + 1) * sub.prod ≤ c * sub.prod := Nat.mul_le_mul_right _ hv.2.1
      rw [Nat.succ_mul] at hle2
      refine ⟨i, hv.1, j, hv.2.1, ?_⟩
      simp only [offset_cons, List.prod_cons]
      refine ⟨?_, ?_, ?_, ?_, trivial⟩ <;> omega

namespace Ops
variable [Zero R]

/-- What `pool<algo, nhwc>` computes, for any padding. -/
theorem poolNhwc_run {H W : Axis} (hH : AxisOK u32 H) (hW : AxisOK u32 W) (rH : H.r = 1) (rW : W.r = 1) (acc : Acc R)
    {n c : Nat} (X Z : Nat → Nat → Nat → Nat → R)
    (hZ : ∀ b < n, ∀ i < H.m, ∀ j < W.m, ∀ k < c,
      acc.run (pixels (shifted H) (shifted W) (fun a a' => X b a a' k) i j) = .ok (Z b i j k)) {y : List R}
    (hy : y.length = [n, H.m, W.m, c].prod) :
    poolNhwc acc (poolTrait H W) [n, H.m, W.m, c] (tab [n, H.n, W.n, c] (fn4 X)) y =
      .ok (tab [n, H.m, W.m, c] (fn4 Z)).data := by
  unfold poolNhwc
  rw [makeKS_run hH hW rH rW, Outcome.ok_bind]
  simp only [tab_dims, List.tail_cons]
  rw [run_slices (sub := [H.m, W.m, c]) (F := fun b => fn3 (Z b)) ?_ (by simpa using hy)]
  · refine congrArg (fun t => Outcome.ok (Tensor.data t)) (tab_congr fun idx hv => ?_)
    match idx, hv with
    | [b, i, j, k], hv => rfl
  · intro b hb s hs
    rw [tab_sub _ hb]
    have : tab [H.n, W.n, c] (fun idx => fn4 X (b :: idx)) = tab [H.n, W.n, c] (fn3 (X b)) := by
      apply tab_congr
      intro idx hv
      match idx, hv with
      | [a, a', k], hv => rfl
    rw [this]
    exact Kernels.poolHwc_run (shifted_ok hH) (shifted_ok hW) acc (X b) (Z b) (hZ b hb) hs

theorem poolNchw_run {H W : Axis} (hH : AxisOK u32 H) (hW : AxisOK u32 W) (rH : H.r = 1) (rW : W.r = 1) (acc : Acc R)
    {n c : Nat} (X Z : Nat → Nat → Nat → Nat → R)
    (hZ : ∀ b < n, ∀ k < c, ∀ i < H.m, ∀ j < W.m,
      acc.run (pixels (shifted H) (shifted W) (X b k) i j) = .ok (Z b k i j)) {y : List R}
    (hy : y.length = [n, c, H.m, W.m].prod) :
    poolNchw acc (poolTrait H W) [n, c, H.m, W.m] (tab [n, c, H.n, W.n] (fn4 X)) y =
      .ok (tab [n, c, H.m, W.m] (fn4 Z)).data := by
  unfold poolNchw
  rw [makeKS_run hH hW rH rW, Outcome.ok_bind]
  simp only [tab_dims, List.tail_cons]
  refine (run_slices2 (sub := [H.m, W.m]) (F := fun b k => fn2 (Z b k)) ?_ hy).trans ?_
  · intro b hb k hk s hs
    rw [tab_sub _ hb, tab_sub _ hk]
    have : tab [H.n, W.n] (fun idx => fn4 X (b :: k :: idx)) = tab [H.n, W.n] (fn2 (X b k)) := by
      apply tab_congr
      intro idx hv
      match idx, hv with
      | [a, a'], hv => rfl
    rw [this]
    exact Kernels.poolHw_run (shifted_ok hH) (shifted_ok hW) acc (X b k) (Z b k) (hZ b hb k hk) hs
  · refine congrArg (fun t => Outcome.ok (Tensor.data t)) (tab_congr fun idx hv => ?_)
    match idx, hv with
    | [b, i, j, k], hv => rfl

end Ops
end StdNN
