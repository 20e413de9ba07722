import Verif.Lemmas.Scatter
import Verif.Props.Binary
import Verif.Props.Rounding
import Verif.Props.RoundingLayers
/-!
# C163: the gradients of convolution in the arithmetic of the machine
-/
namespace StdNN
open IntTy Spec Outcome Finset
variable {R : Type}

namespace Spec

/-- The derivative of a loss by channel `k` of pixel `(a, b)`: every tap on the pixel contributes the derivatives by the
outputs of its window times the weights of the tap. -/
def imageGrad [CommSemiring R] (H W : Axis) (d : Nat) (G : Nat → Nat → Nat → R) (Y : Nat → Nat → Nat → Nat → R) (a b k : Nat) :
    R :=
  ∑ i ∈ range H.m, ∑ j ∈ range W.m, ∑ u ∈ range H.k, ∑ v ∈ range W.k,
    if H.Hits i u a ∧ W.Hits j v b then ∑ o ∈ range d, G i j o * Y u v k o else 0

/-- The derivative of a loss by the weight of tap `(u, v)`, input channel `k`, output channel `o`. -/
def filterGrad [CommSemiring R] (H W : Axis) (n : Nat) (X G : Nat → Nat → Nat → Nat → R) (u v k o : Nat) : R :=
  ∑ e ∈ range n, ∑ i ∈ range H.m, ∑ j ∈ range W.m, window H W (fun a b => X e a b k) i j u v * G e i j o

end Spec

/-! ## Order -/

/-- C163: bit for bit, with no law assumed of `+`: `col2im` writes into every pixel the sum, started at 0, of the entries whose
tap falls on the pixel, windows row by row, then taps row by row; taps on the padding add nothing, whatever the output held. -/
theorem C163_col2im [Zero R] [Add R] {H W : Axis} (hH : AxisOK u32 H) (hW : AxisOK u32 W) {c : Nat}
    (X : Nat → Nat → Nat → Nat → Nat → R) {y : List R} (hy : y.length = [H.n, W.n, c].prod) :
    Kernels.col2imHwrsc [H.sample, W.sample] [H.n, W.n, c] (tab [H.m, W.m, H.k, W.k, c] (fn5 X)) y =
      .ok (tab [H.n, W.n, c] (fn3 fun a b k => listSum (tapsOn H W a b) fun t => X t.1 t.2.1 t.2.2.1 t.2.2.2 k)).data :=
  Kernels.col2imHwrsc_order hH hW X hy

/-- C163 (one dimension). -/
theorem C163_col2im1d [Zero R] [Add R] {a : Axis} (h : AxisOK i32 a) (X : Nat → Nat → R) {y : List R} (hy : y.length = a.n) :
    Ops.col2im1d a.sample [a.n] (tab [a.m, a.k] (fn2 X)) y =
      .ok (tab [a.n] (fn1 fun i => listSum (tapsOn1 a i) fun t => X t.1 t.2)).data :=
  col2im1d_order h X (by simpa using hy)

/-- C163: the gradient of a convolution by the image, bit for bit: the taps on a pixel are added in the order of C163_col2im,
each of them the sum over the output channels in order, started at 0, of gradient times weight. -/
theorem C163_image [Zero R] [Add R] [Mul R] {H W : Axis} (hH : AxisOK u32 H) (hW : AxisOK u32 W) {n c d : Nat}
    (G Y : Nat → Nat → Nat → Nat → R) (junk : Nat → R) {gx : List R} (hgx : gx.length = [n, H.n, W.n, c].prod) :
    Kernels.convGradX (convTrait H W) junk [n, H.n, W.n, c] (tab [n, H.m, W.m, d] (fn4 G))
        (tab [H.k, W.k, c, d] (fn4 Y)) gx =
      .ok (tab [n, H.n, W.n, c] (fn4 fun e a b k => listSum (tapsOn H W a b) fun t =>
        seqSum d fun o => G e t.1 t.2.1 o * Y t.2.2.1 t.2.2.2 k o)).data :=
  Kernels.convGradX_order hH hW G Y junk hgx

/-- C163: the gradient of a convolution by the filter, bit for bit: the sum, started at 0, over images, window rows and
window columns of pixel times gradient; taps in the padding contribute the product of 0 and the gradient. -/
theorem C163_filter [Zero R] [Add R] [Mul R] {H W : Axis} (hH : AxisOK u32 H) (hW : AxisOK u32 W) {n c d : Nat}
    (G X : Nat → Nat → Nat → Nat → R) (junk : Nat → R) {gy : List R} (hgy : gy.length = [H.k, W.k, c, d].prod) :
    Kernels.convGradY (convTrait H W) junk [H.k, W.k, c, d] (tab [n, H.m, W.m, d] (fn4 G))
        (tab [n, H.n, W.n, c] (fn4 X)) gy =
      .ok (tab [H.k, W.k, c, d] (fn4 fun u v k o => seqSum (n * (H.m * W.m)) fun p =>
        let e := p / (H.m * W.m)
        let i := p % (H.m * W.m) / W.m
        let j := p % (H.m * W.m) % W.m
        window H W (fun a a' => X e a a' k) i j u v * G e i j o)).data :=
  Kernels.convGradY_order hH hW G X junk hgy

/-! ## The taps on a pixel -/

theorem listSum_scatter [AddCommMonoid R] (H W : Axis) (X : Nat → Nat → Nat → Nat → R) (a b : Nat) :
    (listSum (tapsOn H W a b) fun t => X t.1 t.2.1 t.2.2.1 t.2.2.2) =
      ∑ i ∈ range H.m, ∑ j ∈ range W.m, ∑ u ∈ range H.k, ∑ v ∈ range W.k,
        if H.Hits i u a ∧ W.Hits j v b then X i j u v else 0 := by
  simp only [listSum, tapsOn, foldl_flatMap, foldl_filterMap_ite]
  refine (Kernels.foldl_add_range (fun i hi r => Kernels.foldl_add_range (fun j hj r => Kernels.foldl_add_range
    (fun u hu r => Kernels.foldl_add_range (G := fun v => if H.Hits i u a ∧ W.Hits j v b then X i j u v else 0)
      (fun w hw r => ?_) r) r) r) 0).trans (zero_add _)
  by_cases h : H.Hits i u a ∧ W.Hits j w b
  · simp [h]
  · simp [h]

theorem listSum_eq_sum [AddCommMonoid R] {T : Type} (l : List T) (f : T → R) : listSum l f = (l.map f).sum := by
  induction l using List.reverseRecOn with
  | nil => rfl
  | append_singleton l t ih =>
    unfold listSum at ih ⊢
    rw [List.foldl_append, ih]
    simp

theorem hits_once {a : Axis} (hs : 1 ≤ a.s) (u i m : Nat) : ∑ j ∈ range m, (if a.Hits j u i then 1 else 0) ≤ 1 := by
  rw [sum_boole, Nat.cast_id]
  refine card_le_one.2 fun j hj j' hj' => ?_
  have h := (mem_filter.1 hj).2.2
  have h' := (mem_filter.1 hj').2.2
  unfold Axis.pos at h h'
  have e : j * a.s = j' * a.s := by omega
  exact Nat.eq_of_mul_eq_mul_right (by omega) e

theorem tapsOn_length {H W : Axis} (sH : 1 ≤ H.s) (sW : 1 ≤ W.s) (a b : Nat) : (tapsOn H W a b).length ≤ H.k * W.k := by
  have e : (tapsOn H W a b).length = listSum (tapsOn H W a b) fun _ => 1 := by
    rw [listSum_eq_sum, List.map_const', List.sum_replicate, smul_eq_mul, mul_one]
  rw [e, listSum_scatter H W (fun _ _ _ _ => 1)]
  have s : ∀ i j, ∑ u ∈ range H.k, ∑ v ∈ range W.k, (if H.Hits i u a ∧ W.Hits j v b then 1 else 0) =
      ∑ u ∈ range H.k, ∑ v ∈ range W.k, (if H.Hits i u a then 1 else 0) * (if W.Hits j v b then 1 else 0) := fun i j =>
    sum_congr rfl fun u _ => sum_congr rfl fun v _ => by
      by_cases h : H.Hits i u a <;> by_cases h' : W.Hits j v b <;> simp [h, h']
  have t : ∑ i ∈ range H.m, ∑ j ∈ range W.m, ∑ u ∈ range H.k, ∑ v ∈ range W.k,
      (if H.Hits i u a then 1 else 0) * (if W.Hits j v b then 1 else 0) =
      (∑ u ∈ range H.k, ∑ i ∈ range H.m, if H.Hits i u a then 1 else 0) *
        ∑ v ∈ range W.k, ∑ j ∈ range W.m, if W.Hits j v b then 1 else 0 := by
    rw [sum_comm (s := range H.k), sum_comm (s := range W.k), sum_mul_sum]
    refine sum_congr rfl fun i _ => sum_congr rfl fun j _ => ?_
    rw [sum_mul_sum]
  simp only [s]
  rw [t]
  refine Nat.mul_le_mul ?_ ?_
  · exact (sum_le_sum fun u _ => hits_once sH u a H.m).trans (by simp)
  · exact (sum_le_sum fun v _ => hits_once sW v b W.m).trans (by simp)

/-- C163: the list of C163_col2im holds exactly the windows and taps on the pixel, strictly ordered by window row, window
column, tap row and tap column, and has at most one element per tap of the kernel. -/
theorem C163_taps {H W : Axis} (hH : AxisOK u32 H) (hW : AxisOK u32 W) (a b : Nat) :
    (∀ i j u v, (i, j, u, v) ∈ tapsOn H W a b ↔
      (i < H.m ∧ u < H.k ∧ H.Hits i u a) ∧ j < W.m ∧ v < W.k ∧ W.Hits j v b) ∧
    (tapsOn H W a b).Pairwise (fun s t => s.1 < t.1 ∨ s.1 = t.1 ∧ (s.2.1 < t.2.1 ∨ s.2.1 = t.2.1 ∧
      (s.2.2.1 < t.2.2.1 ∨ s.2.2.1 = t.2.2.1 ∧ s.2.2.2 < t.2.2.2))) ∧
    (tapsOn H W a b).length ≤ H.k * W.k := by
  refine ⟨fun i j u v => ?_, ?_, tapsOn_length hH.fits.s1 hW.fits.s1 a b⟩
  · simp only [tapsOn, List.mem_flatMap, List.mem_filterMap, List.mem_range]
    constructor
    · rintro ⟨i', hi, j', hj, u', hu, v', hv, e⟩
      split at e
      · rename_i h
        injection e with e
        injection e with e1 e
        injection e with e2 e
        injection e with e3 e4
        subst e1 e2 e3 e4
        exact ⟨⟨hi, hu, h.1⟩, hj, hv, h.2⟩
      · exact absurd e (by simp)
    · rintro ⟨⟨hi, hu, h⟩, hj, hv, h'⟩
      exact ⟨i, hi, j, hj, u, hu, v, hv, if_pos ⟨h, h'⟩⟩
  · have L : ∀ n, (List.range n).Pairwise (· < ·) := fun n => List.pairwise_lt_range
    unfold tapsOn
    refine List.pairwise_flatMap.2 ⟨fun i _ => List.pairwise_flatMap.2 ⟨fun j _ => List.pairwise_flatMap.2 ⟨fun u _ =>
      List.pairwise_filterMap.2 ((L _).imp fun {v v'} hv x hx y hy => ?_), (L _).imp fun {u u'} hu x hx y hy => ?_⟩,
      (L _).imp fun {j j'} hj x hx y hy => ?_⟩, (L _).imp fun {i i'} hi x hx y hy => ?_⟩
    · split at hx
      · split at hy
        · injection hx with hx; injection hy with hy; subst hx hy
          simp [hv]
        · exact absurd hy (by simp)
      · exact absurd hx (by simp)
    · obtain ⟨v, _, e⟩ := List.mem_filterMap.1 hx
      obtain ⟨v', _, e'⟩ := List.mem_filterMap.1 hy
      split at e
      · split at e'
        · injection e with e; injection e' with e'; subst e e'
          simp [hu]
        · exact absurd e' (by simp)
      · exact absurd e (by simp)
    · obtain ⟨u, _, hx⟩ := List.mem_flatMap.1 hx
      obtain ⟨u', _, hy⟩ := List.mem_flatMap.1 hy
      obtain ⟨v, _, e⟩ := List.mem_filterMap.1 hx
      obtain ⟨v', _, e'⟩ := List.mem_filterMap.1 hy
      split at e
      · split at e'
        · injection e with e; injection e' with e'; subst e e'
          simp [hj]
        · exact absurd e' (by simp)
      · exact absurd e (by simp)
    · obtain ⟨j, _, hx⟩ := List.mem_flatMap.1 hx
      obtain ⟨j', _, hy⟩ := List.mem_flatMap.1 hy
      obtain ⟨u, _, hx⟩ := List.mem_flatMap.1 hx
      obtain ⟨u', _, hy⟩ := List.mem_flatMap.1 hy
      obtain ⟨v, _, e⟩ := List.mem_filterMap.1 hx
      obtain ⟨v', _, e'⟩ := List.mem_filterMap.1 hy
      split at e
      · split at e'
        · injection e with e; injection e' with e'; subst e e'
          simp [hi]
        · exact absurd e' (by simp)
      · exact absurd e (by simp)

/-! ## Rounding -/
section rounding
variable {u : ℝ} {rnd : ℝ → ℝ}

/-- A sum of terms that carry errors themselves. -/
theorem listSum_error (hu : 0 ≤ u) (h : RelErr u rnd) {T : Type} (l : List T) (w : T → Fl rnd) (t M : T → ℝ) {g : ℝ} (hg : 1 ≤ g)
    (hw : ∀ x, |(w x).val - t x| ≤ (g - 1) * M x) (ht : ∀ x, |t x| ≤ M x) :
    |(listSum l w).val - (l.map t).sum| ≤ (g * (1 + u) ^ l.length - 1) * (l.map M).sum ∧
      |(l.map t).sum| ≤ (l.map M).sum := by
  induction l using List.reverseRecOn with
  | nil => simp [listSum, Fl.val_zero]
  | append_singleton l x ih =>
    obtain ⟨ih, ib⟩ := ih
    have e : listSum (l ++ [x]) w = listSum l w + w x := by simp [listSum]
    rw [e, Fl.val_add]
    simp only [List.map_append, List.map_cons, List.map_nil, List.sum_append, List.sum_cons, List.sum_nil, add_zero,
      List.length_append, List.length_cons, List.length_nil, zero_add]
    have hx := hw x
    have tx := ht x
    have r := h ((listSum l w).val + (w x).val)
    set S := (listSum l w).val
    set q := (w x).val
    set A := (l.map t).sum
    set N := (l.map M).sum
    have N0 : 0 ≤ N := (abs_nonneg _).trans ib
    have m0 : 0 ≤ M x := (abs_nonneg _).trans tx
    have p1 : 1 ≤ (1 + u) ^ l.length := one_le_pow₀ (by linarith)
    rw [pow_succ]
    set p := (1 + u) ^ l.length
    have d : |S + q - (A + t x)| ≤ (g * p - 1) * N + (g - 1) * M x := by
      have : S + q - (A + t x) = (S - A) + (q - t x) := by ring
      rw [this]
      exact (abs_add_le _ _).trans (add_le_add ih hx)
    have b : |A + t x| ≤ N + M x := (abs_add_le _ _).trans (add_le_add ib tx)
    refine ⟨?_, b⟩
    have s : |S + q| ≤ N + M x + ((g * p - 1) * N + (g - 1) * M x) := by
      have : S + q = (A + t x) + (S + q - (A + t x)) := by ring
      rw [this]
      exact (abs_add_le _ _).trans (add_le_add b d)
    have f : |rnd (S + q) - (A + t x)| ≤ u * (N + M x + ((g * p - 1) * N + (g - 1) * M x)) +
        ((g * p - 1) * N + (g - 1) * M x) := by
      have : rnd (S + q) - (A + t x) = (rnd (S + q) - (S + q)) + (S + q - (A + t x)) := by ring
      rw [this]
      exact (abs_add_le _ _).trans (add_le_add (r.trans (mul_le_mul_of_nonneg_left s hu)) d)
    refine f.trans ?_
    have k : g ≤ g * p := le_mul_of_one_le_right (by linarith) p1
    have k2 : 0 ≤ (g * p - g) * M x * (1 + u) := mul_nonneg (mul_nonneg (by linarith) m0) (by linarith)
    nlinarith

theorem sum_taps (H W : Axis) (X : Nat → Nat → Nat → Nat → ℝ) (a b : Nat) :
    ((tapsOn H W a b).map fun t => X t.1 t.2.1 t.2.2.1 t.2.2.2).sum =
      ∑ i ∈ range H.m, ∑ j ∈ range W.m, ∑ u ∈ range H.k, ∑ v ∈ range W.k,
        if H.Hits i u a ∧ W.Hits j v b then X i j u v else 0 := by
  rw [← listSum_eq_sum, listSum_scatter]

/-- C163: in rounded arithmetic every entry of the gradient by the image is within `(1+u)^(d+1+rs) - 1` times the gradient of
the absolute values of the exact one, `d` being the number of output channels and `rs` the number of taps. -/
theorem C163_image_error (hu : 0 ≤ u) (h : RelErr u rnd) {H W : Axis} (hH : AxisOK u32 H) (hW : AxisOK u32 W) {n c d : Nat}
    (G Y : Nat → Nat → Nat → Nat → Fl rnd) (junk : Nat → Fl rnd) {gx : List (Fl rnd)}
    (hgx : gx.length = [n, H.n, W.n, c].prod) :
    ∃ D : Nat → Nat → Nat → Nat → Fl rnd,
      Kernels.convGradX (convTrait H W) junk [n, H.n, W.n, c] (tab [n, H.m, W.m, d] (fn4 G))
          (tab [H.k, W.k, c, d] (fn4 Y)) gx = .ok (tab [n, H.n, W.n, c] (fn4 D)).data ∧
      ∀ e a b k,
        |(D e a b k).val - imageGrad H W d (fun i j o => (G e i j o).val) (fun u v k o => (Y u v k o).val) a b k| ≤
          ((1 + u) ^ (d + 1 + H.k * W.k) - 1) *
            imageGrad H W d (fun i j o => |(G e i j o).val|) (fun u v k o => |(Y u v k o).val|) a b k := by
  refine ⟨_, C163_image hH hW G Y junk hgx, fun e a b k => ?_⟩
  have g1 : 1 ≤ (1 + u) ^ (d + 1) := one_le_pow₀ (by linarith)
  have key := (listSum_error hu h (tapsOn H W a b)
    (fun t => seqSum d fun o => G e t.1 t.2.1 o * Y t.2.2.1 t.2.2.2 k o)
    (fun t => ∑ o ∈ range d, (G e t.1 t.2.1 o).val * (Y t.2.2.1 t.2.2.2 k o).val)
    (fun t => ∑ o ∈ range d, |(G e t.1 t.2.1 o).val| * |(Y t.2.2.1 t.2.2.2 k o).val|) g1
    (fun t => seqSum_error hu h d (fun o => G e t.1 t.2.1 o) (fun o => Y t.2.2.1 t.2.2.2 k o))
    (fun t => (abs_sum_le_sum_abs _ _).trans (le_of_eq (sum_congr rfl fun o _ => abs_mul _ _))))
  rw [sum_taps H W (fun i j u v => ∑ o ∈ range d, (G e i j o).val * (Y u v k o).val),
    sum_taps H W (fun i j u v => ∑ o ∈ range d, |(G e i j o).val| * |(Y u v k o).val|)] at key
  refine key.1.trans (mul_le_mul_of_nonneg_right ?_ ((abs_nonneg _).trans key.2))
  rw [pow_add _ (d + 1)]
  have := pow_le_pow_right₀ (show 1 ≤ 1 + u by linarith) (tapsOn_length hH.fits.s1 hW.fits.s1 a b)
  have := mul_le_mul_of_nonneg_left this (show 0 ≤ (1 + u) ^ (d + 1) by linarith)
  linarith

theorem filterGrad_flat {S : Type} [CommSemiring S] (H W : Axis) (n : Nat) (X G : Nat → Nat → Nat → Nat → S) (u v k o : Nat) :
    ∑ p ∈ range (n * (H.m * W.m)), window H W (fun a a' => X (p / (H.m * W.m)) a a' k) (p % (H.m * W.m) / W.m)
        (p % (H.m * W.m) % W.m) u v * G (p / (H.m * W.m)) (p % (H.m * W.m) / W.m) (p % (H.m * W.m) % W.m) o =
      filterGrad H W n X G u v k o := by
  have hU : ∀ p, unravel [n, H.m, W.m] p = [p / (H.m * W.m), p % (H.m * W.m) / W.m, p % (H.m * W.m) % W.m] := by
    intro p; simp [unravel]
  have := sum_unravel3 n H.m W.m (fn3 fun e i j => window H W (fun a a' => X e a a' k) i j u v * G e i j o)
  simp only [hU, fn3_apply] at this
  rw [filterGrad, ← this]
  exact sum_congr (by simp) fun _ _ => rfl

/-- C163: in rounded arithmetic every entry of the gradient by the filter is within `(1+u)^(nhw+1) - 1` times the gradient of
the absolute values of the exact one, `nhw` being the number of windows of the batch. -/
theorem C163_filter_error (hu : 0 ≤ u) (h : RelErr u rnd) {H W : Axis} (hH : AxisOK u32 H) (hW : AxisOK u32 W) {n c d : Nat}
    (G X : Nat → Nat → Nat → Nat → Fl rnd) (junk : Nat → Fl rnd) {gy : List (Fl rnd)}
    (hgy : gy.length = [H.k, W.k, c, d].prod) :
    ∃ D : Nat → Nat → Nat → Nat → Fl rnd,
      Kernels.convGradY (convTrait H W) junk [H.k, W.k, c, d] (tab [n, H.m, W.m, d] (fn4 G))
          (tab [n, H.n, W.n, c] (fn4 X)) gy = .ok (tab [H.k, W.k, c, d] (fn4 D)).data ∧
      ∀ p q k o,
        |(D p q k o).val - filterGrad H W n (fun e a b k => (X e a b k).val) (fun e i j o => (G e i j o).val) p q k o| ≤
          ((1 + u) ^ (n * (H.m * W.m) + 1) - 1) *
            filterGrad H W n (fun e a b k => |(X e a b k).val|) (fun e i j o => |(G e i j o).val|) p q k o := by
  refine ⟨_, C163_filter hH hW G X junk hgy, fun p q k o => ?_⟩
  have key := seqSum_error hu h (n * (H.m * W.m))
    (fun t => window H W (fun a a' => X (t / (H.m * W.m)) a a' k) (t % (H.m * W.m) / W.m) (t % (H.m * W.m) % W.m) p q)
    (fun t => G (t / (H.m * W.m)) (t % (H.m * W.m) / W.m) (t % (H.m * W.m) % W.m) o)
  simp only [window_val, window_abs] at key
  rw [filterGrad_flat H W n (fun e a b k => (X e a b k).val) (fun e i j o => (G e i j o).val),
    filterGrad_flat H W n (fun e a b k => |(X e a b k).val|) (fun e i j o => |(G e i j o).val|)] at key
  exact key

end rounding

/-! ## Float and double -/
section ieee
open Spec.Format
variable {F : Format} {bz : EReal → Option EReal}

/-- A sum in a format of terms that carry errors themselves. -/
theorem listSum_err {T : Type} (l : List T) (w : T → Ieee (F.arith bz)) (t M : T → ℝ) {r k : Nat}
    (hw : ∀ x ∈ l, ∃ q : ℝ, w x = fin F bz q ∧ |q - t x| ≤ F.err r k (M x)) (ht : ∀ x, |t x| ≤ M x)
    (h : (l.map M).sum + F.err (r + l.length) ((k + 1) * l.length) (l.map M).sum < F.limit) :
    (∃ v : ℝ, listSum l w = fin F bz v ∧
      |v - (l.map t).sum| ≤ F.err (r + l.length) ((k + 1) * l.length) (l.map M).sum) ∧
      |(l.map t).sum| ≤ (l.map M).sum := by
  induction l using List.reverseRecOn with
  | nil =>
    refine ⟨⟨0, fin_zero.symm, ?_⟩, by simp⟩
    simp [err]
  | append_singleton l x ih =>
    have e : listSum (l ++ [x]) w = listSum l w + w x := by simp [listSum]
    rw [e]
    simp only [List.map_append, List.map_cons, List.map_nil, List.sum_append, List.sum_cons, List.sum_nil, add_zero,
      List.length_append, List.length_cons, List.length_nil, zero_add] at h ⊢
    have hM : ∀ l : List T, 0 ≤ (l.map M).sum := fun l => List.sum_nonneg fun y hy => by
      obtain ⟨z, _, rfl⟩ := List.mem_map.1 hy
      exact (abs_nonneg _).trans (ht z)
    have N0 := hM l
    have tx := ht x
    have m0 : 0 ≤ M x := (abs_nonneg _).trans tx
    have mono := F.err_mono (show r + l.length ≤ r + (l.length + 1) by omega)
      (show (k + 1) * l.length ≤ (k + 1) * (l.length + 1) from Nat.mul_le_mul_left _ (by omega)) N0
      (show (l.map M).sum ≤ (l.map M).sum + M x by linarith)
    obtain ⟨⟨v, ev, hv⟩, ib⟩ := ih (fun y hy => hw y (List.mem_append_left _ hy)) (by linarith)
    obtain ⟨q, eq, hq⟩ := hw x (List.mem_append_right _ (List.mem_singleton.2 rfl))
    have st := step_err (F := F) hv ib hq
    have u0 := F.u_pos
    have e0 := F.eta_pos
    have b : |(l.map t).sum + t x| ≤ (l.map M).sum + M x := (abs_add_le _ _).trans (add_le_add ib tx)
    have key : (1 + F.u) * (F.err (r + l.length) ((k + 1) * l.length) (l.map M).sum + F.err r k (M x)) +
          F.u * ((l.map M).sum + |t x|) + F.eta ≤
        F.err (r + (l.length + 1)) ((k + 1) * (l.length + 1)) ((l.map M).sum + M x) := by
      unfold err
      have e1 : (1 + F.u) ^ (r + (l.length + 1)) = (1 + F.u) ^ (r + l.length) * (1 + F.u) := by ring
      rw [e1]
      have g1 := F.one_le_pow (r + l.length)
      have g2 : (1 + F.u) ^ r ≤ (1 + F.u) ^ (r + l.length) := pow_le_pow_right₀ (by linarith) (by omega)
      generalize (1 + F.u) ^ (r + l.length) = g at *
      generalize (1 + F.u) ^ r = g' at *
      generalize (l.map M).sum = N at *
      generalize |t x| = p at *
      push_cast
      have t1 : 0 ≤ (g - g') * M x * (1 + F.u) := mul_nonneg (mul_nonneg (by linarith) m0) (by linarith)
      have t2 : 0 ≤ (g - g') * ((k : ℝ) * F.eta) * (1 + F.u) :=
        mul_nonneg (mul_nonneg (by linarith) (by positivity)) (by linarith)
      have t3 : F.eta * 1 ≤ F.eta * (g * (1 + F.u)) := mul_le_mul_of_nonneg_left (by nlinarith) e0.le
      have t4 : F.u * p ≤ F.u * M x := mul_le_mul_of_nonneg_left tx u0.le
      nlinarith
    refine ⟨⟨F.nearest (v + q), ?_, st.trans key⟩, b⟩
    rw [ev, eq]
    exact fin_add (lt_of_le_of_lt (abs_le_of_err (st.trans key) b) h)

theorem term_le {T : Type} {l : List T} {M : T → ℝ} (h0 : ∀ x, 0 ≤ M x) {x : T} (hx : x ∈ l) : M x ≤ (l.map M).sum :=
  List.single_le_sum (fun y hy => by obtain ⟨z, _, rfl⟩ := List.mem_map.1 hy; exact h0 z) _ (List.mem_map_of_mem hx)

/-- C163 in a format of IEEE 754: if the gradients of the absolute values plus the error bound stay below the overflow limit,
all entries of the gradient by the image are finite and within the error bound, underflow included. -/
theorem C163_image_ieee {H W : Axis} (hH : AxisOK u32 H) (hW : AxisOK u32 W) {n c d : Nat} (G Y : Nat → Nat → Nat → Nat → ℝ)
    (junk : Nat → Ieee (F.arith bz)) {gx : List (Ieee (F.arith bz))} (hgx : gx.length = [n, H.n, W.n, c].prod)
    (h : ∀ e < n, ∀ a < H.n, ∀ b < W.n, ∀ k < c,
      imageGrad H W d (fun i j o => |G e i j o|) (fun u v k o => |Y u v k o|) a b k +
        F.err (d + 1 + H.k * W.k) ((2 * d + 1) * (H.k * W.k))
          (imageGrad H W d (fun i j o => |G e i j o|) (fun u v k o => |Y u v k o|) a b k) < F.limit) :
    ∃ D : Nat → Nat → Nat → Nat → ℝ,
      Kernels.convGradX (convTrait H W) junk [n, H.n, W.n, c]
          (tab [n, H.m, W.m, d] (fn4 fun e i j o => fin F bz (G e i j o)))
          (tab [H.k, W.k, c, d] (fn4 fun u v k o => fin F bz (Y u v k o))) gx =
        .ok (tab [n, H.n, W.n, c] (fn4 fun e a b k => fin F bz (D e a b k))).data ∧
      ∀ e < n, ∀ a < H.n, ∀ b < W.n, ∀ k < c, |D e a b k - imageGrad H W d (G e) Y a b k| ≤
        F.err (d + 1 + H.k * W.k) ((2 * d + 1) * (H.k * W.k))
          (imageGrad H W d (fun i j o => |G e i j o|) (fun u v k o => |Y u v k o|) a b k) := by
  obtain ⟨D, hD⟩ := choose4 (n₁ := n) (n₂ := H.n) (n₃ := W.n) (n₄ := c)
    (P := fun e a b k v => (listSum (tapsOn H W a b) fun t =>
        seqSum d fun o => fin F bz (G e t.1 t.2.1 o) * fin F bz (Y t.2.2.1 t.2.2.2 k o)) = fin F bz v ∧
      |v - imageGrad H W d (G e) Y a b k| ≤ F.err (d + 1 + H.k * W.k) ((2 * d + 1) * (H.k * W.k))
          (imageGrad H W d (fun i j o => |G e i j o|) (fun u v k o => |Y u v k o|) a b k)) fun e he a ha b hb k hk => by
    have hfit := h e he a ha b hb k hk
    have eM : imageGrad H W d (fun i j o => |G e i j o|) (fun u v k o => |Y u v k o|) a b k =
        ((tapsOn H W a b).map fun t => ∑ o ∈ range d, |G e t.1 t.2.1 o| * |Y t.2.2.1 t.2.2.2 k o|).sum :=
      (sum_taps H W (fun i j u v => ∑ o ∈ range d, |G e i j o| * |Y u v k o|) a b).symm
    have eT : imageGrad H W d (G e) Y a b k =
        ((tapsOn H W a b).map fun t => ∑ o ∈ range d, G e t.1 t.2.1 o * Y t.2.2.1 t.2.2.2 k o).sum :=
      (sum_taps H W (fun i j u v => ∑ o ∈ range d, G e i j o * Y u v k o) a b).symm
    rw [eM] at hfit ⊢
    rw [eT]
    have len := tapsOn_length hH.fits.s1 hW.fits.s1 a b
    have t0 : ∀ t : Nat × Nat × Nat × Nat, 0 ≤ ∑ o ∈ range d, |G e t.1 t.2.1 o| * |Y t.2.2.1 t.2.2.2 k o| := fun t =>
      sum_nonneg fun _ _ => mul_nonneg (abs_nonneg _) (abs_nonneg _)
    have s0 : 0 ≤ ((tapsOn H W a b).map fun t => ∑ o ∈ range d, |G e t.1 t.2.1 o| * |Y t.2.2.1 t.2.2.2 k o|).sum :=
      List.sum_nonneg fun y hy => by
        obtain ⟨z, _, rfl⟩ := List.mem_map.1 hy
        exact t0 z
    have mono := F.err_mono (show d + 1 + (tapsOn H W a b).length ≤ d + 1 + H.k * W.k by omega)
      (show (2 * d + 1) * (tapsOn H W a b).length ≤ (2 * d + 1) * (H.k * W.k) from Nat.mul_le_mul_left _ len) s0 le_rfl
    obtain ⟨⟨v, ev, hv⟩, -⟩ := listSum_err (F := F) (bz := bz) (tapsOn H W a b)
      (fun t => seqSum d fun o => fin F bz (G e t.1 t.2.1 o) * fin F bz (Y t.2.2.1 t.2.2.2 k o))
      (fun t => ∑ o ∈ range d, G e t.1 t.2.1 o * Y t.2.2.1 t.2.2.2 k o)
      (fun t => ∑ o ∈ range d, |G e t.1 t.2.1 o| * |Y t.2.2.1 t.2.2.2 k o|) (r := d + 1) (k := 2 * d)
      (fun t ht => by
        have l1 : 1 ≤ (tapsOn H W a b).length := List.length_pos_of_mem ht
        have le := term_le t0 ht
        have m2 := F.err_mono (show d + 1 ≤ d + 1 + H.k * W.k by omega)
          (show 2 * d ≤ (2 * d + 1) * (H.k * W.k) by
            have : 1 ≤ H.k * W.k := l1.trans len
            nlinarith) (t0 t) le
        exact dot_err (bz := bz) d (fun o => G e t.1 t.2.1 o) (fun o => Y t.2.2.1 t.2.2.2 k o) (by linarith))
      (fun t => (sum_abs_le d _).trans (le_of_eq (sum_congr rfl fun o _ => abs_mul _ _))) (by linarith)
    exact ⟨v, ev, hv.trans mono⟩
  refine ⟨D, (C163_image hH hW _ _ junk hgx).trans ?_, fun e he a ha b hb k hk => (hD e he a ha b hb k hk).2⟩
  exact ok_tab4 fun e he a ha b hb k hk => (hD e he a ha b hb k hk).1

/-- C163 in a format of IEEE 754, the gradient by the filter. -/
theorem C163_filter_ieee {H W : Axis} (hH : AxisOK u32 H) (hW : AxisOK u32 W) {n c d : Nat} (G X : Nat → Nat → Nat → Nat → ℝ)
    (junk : Nat → Ieee (F.arith bz)) {gy : List (Ieee (F.arith bz))} (hgy : gy.length = [H.k, W.k, c, d].prod)
    (h : ∀ p < H.k, ∀ q < W.k, ∀ k < c, ∀ o < d,
      filterGrad H W n (fun e a b k => |X e a b k|) (fun e i j o => |G e i j o|) p q k o +
        F.err (n * (H.m * W.m) + 1) (2 * (n * (H.m * W.m)))
          (filterGrad H W n (fun e a b k => |X e a b k|) (fun e i j o => |G e i j o|) p q k o) < F.limit) :
    ∃ D : Nat → Nat → Nat → Nat → ℝ,
      Kernels.convGradY (convTrait H W) junk [H.k, W.k, c, d]
          (tab [n, H.m, W.m, d] (fn4 fun e i j o => fin F bz (G e i j o)))
          (tab [n, H.n, W.n, c] (fn4 fun e a b k => fin F bz (X e a b k))) gy =
        .ok (tab [H.k, W.k, c, d] (fn4 fun p q k o => fin F bz (D p q k o))).data ∧
      ∀ p < H.k, ∀ q < W.k, ∀ k < c, ∀ o < d, |D p q k o - filterGrad H W n X G p q k o| ≤
        F.err (n * (H.m * W.m) + 1) (2 * (n * (H.m * W.m)))
          (filterGrad H W n (fun e a b k => |X e a b k|) (fun e i j o => |G e i j o|) p q k o) := by
  obtain ⟨D, hD⟩ := choose4 (n₁ := H.k) (n₂ := W.k) (n₃ := c) (n₄ := d) fun p hp q hq k hk o ho => by
    have hfit := h p hp q hq k hk o ho
    rw [← filterGrad_flat] at hfit
    simp only [← window_abs] at hfit
    exact dot_err (bz := bz) (n * (H.m * W.m))
      (fun t => window H W (fun a a' => X (t / (H.m * W.m)) a a' k) (t % (H.m * W.m) / W.m) (t % (H.m * W.m) % W.m) p q)
      (fun t => G (t / (H.m * W.m)) (t % (H.m * W.m) / W.m) (t % (H.m * W.m) % W.m) o) hfit
  refine ⟨D, (C163_filter hH hW _ _ junk hgy).trans ?_, fun p hp q hq k hk o ho => ?_⟩
  · refine ok_tab4 fun p hp q hq k hk o ho => ?_
    simp only [← window_hom (f := fin F bz) fin_zero]
    exact (hD p hp q hq k hk o ho).1
  · have := (hD p hp q hq k hk o ho).2
    simp only [window_abs] at this
    rwa [filterGrad_flat, filterGrad_flat H W n (fun e a b k => |X e a b k|) (fun e i j o => |G e i j o|)] at this

end ieee

/-! ## Concrete cases

The padded 3 × 5 image of the other examples; a 2 × 2 kernel. -/

/-- Pixel (1, 3) of the example: the taps on it, in order. -/
example : tapsOn exH exW 1 3 = [(1, 1, 1, 1), (1, 2, 1, 0), (2, 1, 0, 1), (2, 2, 0, 0)] := by decide

theorem exImage {H W : Axis} {d : Nat} (hn : H.m * (W.m * (H.k * (W.k * d))) ≤ 1000) {G : Nat → Nat → Nat → ℝ}
    {Y : Nat → Nat → Nat → Nat → ℝ} (hG : ∀ i j o, |G i j o| ≤ 1) (hY : ∀ r s k e, |Y r s k e| ≤ 1) (a b k : Nat) :
    0 ≤ imageGrad H W d (fun i j o => |G i j o|) (fun u v k o => |Y u v k o|) a b k ∧
      imageGrad H W d (fun i j o => |G i j o|) (fun u v k o => |Y u v k o|) a b k ≤ 1000 := by
  have t : ∀ i j u v, 0 ≤ (if H.Hits i u a ∧ W.Hits j v b then ∑ o ∈ range d, |G i j o| * |Y u v k o| else 0) ∧
      (if H.Hits i u a ∧ W.Hits j v b then ∑ o ∈ range d, |G i j o| * |Y u v k o| else 0) ≤ (d : ℝ) := fun i j u v => by
    have s0 : 0 ≤ ∑ o ∈ range d, |G i j o| * |Y u v k o| := sum_nonneg fun _ _ => mul_nonneg (abs_nonneg _) (abs_nonneg _)
    have s1 : ∑ o ∈ range d, |G i j o| * |Y u v k o| ≤ d :=
      (sum_le_sum fun o _ => mul_le_one₀ (hG i j o) (abs_nonneg _) (hY u v k o)).trans (by simp)
    split
    · exact ⟨s0, s1⟩
    · exact ⟨le_rfl, s0.trans s1⟩
  refine ⟨sum_nonneg fun i _ => sum_nonneg fun j _ => sum_nonneg fun u _ => sum_nonneg fun v _ => (t i j u v).1,
    (sum_le_sum fun i _ => sum_le_sum fun j _ => sum_le_sum fun u _ => sum_le_sum fun v _ => (t i j u v).2).trans ?_⟩
  simp only [sum_const, card_range, nsmul_eq_mul]
  exact_mod_cast hn

theorem exFilter {H W : Axis} {n : Nat} (hn : n * (H.m * W.m) ≤ 1000) {X G : Nat → Nat → Nat → Nat → ℝ}
    (hX : ∀ e a b k, |X e a b k| ≤ 1) (hG : ∀ e i j o, |G e i j o| ≤ 1) (u v k o : Nat) :
    0 ≤ filterGrad H W n (fun e a b k => |X e a b k|) (fun e i j o => |G e i j o|) u v k o ∧
      filterGrad H W n (fun e a b k => |X e a b k|) (fun e i j o => |G e i j o|) u v k o ≤ 1000 := by
  have t : ∀ e i j, 0 ≤ window H W (fun a b => |X e a b k|) i j u v * |G e i j o| ∧
      window H W (fun a b => |X e a b k|) i j u v * |G e i j o| ≤ 1 := fun e i j => by
    have w : 0 ≤ window H W (fun a b => |X e a b k|) i j u v ∧ window H W (fun a b => |X e a b k|) i j u v ≤ 1 :=
      exPadded (fun a => exPadded (fun b => ⟨abs_nonneg _, hX e a b k⟩) _) _
    exact ⟨mul_nonneg w.1 (abs_nonneg _), mul_le_one₀ w.2 (abs_nonneg _) (hG e i j o)⟩
  refine ⟨sum_nonneg fun u _ => sum_nonneg fun v _ => sum_nonneg fun k _ => (t u v k).1,
    (sum_le_sum fun u _ => sum_le_sum fun v _ => sum_le_sum fun k _ => (t u v k).2).trans ?_⟩
  simp only [sum_const, card_range, nsmul_eq_mul, mul_one]
  exact_mod_cast hn

example := C163_col2im (R := Float) exH_ok exW_ok (c := 2) (fun i j u v k => Float.ofNat (i + 2 * j + u * v + k))
  (y := List.replicate 30 1.5) rfl
example := C163_col2im1d (R := Float) exW_ok32 (fun j u => Float.ofNat (j + 2 * u)) (y := [1, 2, 3, 4, 5]) rfl
example := C163_image (R := Float) exH_ok exW_ok (n := 2) (c := 1) (d := 2) (fun e i j o => Float.ofNat (e + i * j + o))
  (fun u v k o => Float.ofNat (u + v * o + k)) (fun _ => 7) (gx := List.replicate 30 1.5) rfl
example := C163_filter (R := Float) exH_ok exW_ok (n := 2) (c := 1) (d := 2) (fun e i j o => Float.ofNat (e + i * j + o))
  (fun u v k o => Float.ofNat (u + v * o + k)) (fun _ => 7) (gy := List.replicate 8 1.5) rfl
example := C163_taps exH_ok exW_ok 1 3
example := C163_image_error exU chop24_err exH_ok exW_ok (n := 2) (c := 1) (d := 2)
  (fun b i j k => exReal ((b : ℝ) + i * j - k / 3)) (fun r s k e => exReal ((r : ℝ) - s + k / (e + 1))) (fun _ => (5 : ℝ))
  (gx := List.replicate 30 (0 : ℝ)) rfl
example := C163_filter_error exU chop24_err exH_ok exW_ok (n := 2) (c := 1) (d := 2)
  (fun b i j k => exReal ((b : ℝ) + i * j - k / 3)) (fun r s k e => exReal ((r : ℝ) - s + k / (e + 1))) (fun _ => (5 : ℝ))
  (gy := List.replicate 8 (0 : ℝ)) rfl
example (x : Ieee (Format.binary32.arith bz)) := C163_image_ieee exH_ok exW_ok (n := 2) (c := 1) (d := 2) exOf exOf (fun _ => x)
  (gx := List.replicate 30 x) rfl
  fun _ _ _ _ _ _ _ _ => have h := exImage (H := exH) (W := exW) (d := 2) (by decide) (fun _ _ _ => exOf_le ..) exOf_le _ _ _
    exBinFits (by decide) (by decide) h.1 h.2
example (x : Ieee (Format.binary32.arith bz)) := C163_filter_ieee exH_ok exW_ok (n := 2) (c := 1) (d := 2) exOf exOf (fun _ => x)
  (gy := List.replicate 8 x) rfl
  fun _ _ _ _ _ _ _ _ => have h := exFilter (H := exH) (W := exW) (n := 2) (by decide) exOf_le exOf_le _ _ _ _
    exBinFits (by decide) (by decide) h.1 h.2

end StdNN
