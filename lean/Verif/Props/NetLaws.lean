import Verif.Props.LayerMemory
import Verif.Props.Models
import Verif.Props.Utility
import Verif.Props.ConvLaws
import Mathlib.Tactic.FieldSimp
/-!
# C107-C109: layers that can be merged
-/
namespace StdNN
open IntTy Spec Outcome Layers Models Finset
variable {R : Type}

/-- Two layers in a row: the second one works on the output of the first, whose tensors are released. -/
theorem composed_run {f g : LayerFn R} {x : Tensor R} {a b : Int} {u v : Tensor R} {us vs : List (Tensor R)}
    (hf : f x = ⟨a, .ok ⟨u, us⟩⟩) (hg : g u = ⟨b, .ok ⟨v, vs⟩⟩) (ha : a = 1 + us.length) :
    composed f g x = ⟨b, .ok ⟨v, vs⟩⟩ := by
  unfold composed
  rw [hf]
  simp only [hg, Alloc.freeing, Layer.size]
  congr 1
  push_cast
  omega

theorem same_output {a : Int} {u v : Tensor R} {ws : List (Tensor R)} (h : u = v) :
    (⟨a, .ok ⟨u, ws⟩⟩ : Alloc (Layer R)) = ⟨a, .ok ⟨v, ws⟩⟩ := by rw [h]

/-! ## C107: batch normalisation folded into a convolution -/
section fold
variable {F : Type} [Field F]

theorem conv2_scale (H W : Axis) (c : Nat) (X : Nat → Nat → Nat → F) (Y : Nat → Nat → Nat → Nat → F) (s : Nat → F)
    (i j e : Nat) : conv2 H W c X (fun u v k e => Y u v k e * s e) i j e = conv2 H W c X Y i j e * s e := by
  simp only [conv2, sum_mul]
  refine sum_congr rfl fun u _ => sum_congr rfl fun v _ => sum_congr rfl fun k _ => ?_
  ring

theorem fold_value (x b m d g t : F) : (x + b - m) / d * g + t = x * (g / d) + ((b - m) / d * g + t) := by
  rw [div_eq_mul_inv, div_eq_mul_inv, div_eq_mul_inv]
  ring

/-- C107 (`nhwc`): a convolution layer without activation followed by a batch normalisation layer with activation `f` gives
the same image as one convolution layer with activation `f` whose filter is scaled by `γ / (√V + ε)` and whose bias is
`(b - M) / (√V + ε) * γ + β`. The divisors are not zero, so that division means what it says. -/
theorem C107_nhwc (sqrt : F → F) (eps : F) (J : Nat → Nat → F) (junkI junkI' : Nat → Int) {act : Act F} {f : F → F}
    (hact : ActsAs act f) {H W : Axis} (hH : AxisOK u32 H) (hW : AxisOK u32 W) {t : ConvLayer} (ht : HasAxes t H W)
    {n c : Nat} (hsz : [H.n, W.n, c].prod ≤ 2 ^ 31) (X Y : Nat → Nat → Nat → Nat → F) (B M V β γ : Nat → F)
    (_hd : ∀ e < t.filters, sqrt (V e) + eps ≠ 0) {wInit bInit wInit' bInit' mInit vInit betaInit gammaInit : Init F}
    (hw : ∀ m, wInit [H.k, W.k, c, t.filters] m = .ok (tab [H.k, W.k, c, t.filters] (fn4 Y)).data)
    (hb : ∀ m, bInit [t.filters] m = .ok (tab [t.filters] (fn1 B)).data)
    (hM : ∀ m, mInit [t.filters] m = .ok (tab [t.filters] (fn1 M)).data)
    (hV : ∀ m, vInit [t.filters] m = .ok (tab [t.filters] (fn1 V)).data)
    (hβ : ∀ m, betaInit [t.filters] m = .ok (tab [t.filters] (fn1 β)).data)
    (hγ : ∀ m, gammaInit [t.filters] m = .ok (tab [t.filters] (fn1 γ)).data)
    (hw' : ∀ m, wInit' [H.k, W.k, c, t.filters] m = .ok (tab [H.k, W.k, c, t.filters]
      (fn4 fun u v k e => Y u v k e * (γ e / (sqrt (V e) + eps)))).data)
    (hb' : ∀ m, bInit' [t.filters] m = .ok (tab [t.filters]
      (fn1 fun e => (B e - M e) / (sqrt (V e) + eps) * γ e + β e)).data) :
    ∃ (y : Tensor F) (ws ws' : List (Tensor F)),
      composed (fun x => Layers.conv .nhwc .rscd (J 0) (J 1) (J 2) junkI (J 3) noopAct t x wInit bInit)
          (fun x => Layers.batchNorm sqrt eps .nhwc (J 4) (J 5) (J 6) (J 7) (J 8) act x mInit vInit betaInit gammaInit)
          (tab [n, H.n, W.n, c] (fn4 X)) = ⟨5, .ok ⟨y, ws⟩⟩ ∧
      Layers.conv .nhwc .rscd (J 9) (J 10) (J 11) junkI' (J 12) act t (tab [n, H.n, W.n, c] (fn4 X)) wInit' bInit' =
        ⟨3, .ok ⟨y, ws'⟩⟩ := by
  refine ⟨_, _, _, composed_run (C78_conv_nhwc (J 0) (J 1) (J 2) junkI (J 3) noop_acts hH hW ht hsz X Y B (hw _) (hb _))
    (C86_bn_nhwc sqrt eps (J 4) (J 5) (J 6) (J 7) (J 8) hact _ M V β γ (hM _) (hV _) (hβ _) (hγ _)) rfl,
    (C78_conv_nhwc (J 9) (J 10) (J 11) junkI' (J 12) hact hH hW ht hsz X _ _ (hw' _) (hb' _)).trans (same_output ?_)⟩
  refine tab_congr fun idx hv => ?_
  match idx, hv with
  | [b, i, j, e], _ =>
    simp only [fn4, id]
    rw [fold_value, conv2_scale]

/-- C107 (`nchw`). -/
theorem C107_nchw (sqrt : F → F) (eps : F) (J : Nat → Nat → F) (junkI junkI' : Nat → Int) {act : Act F} {f : F → F}
    (hact : ActsAs act f) {H W : Axis} (hH : AxisOK u32 H) (hW : AxisOK u32 W) {t : ConvLayer} (ht : HasAxes t H W)
    {n c : Nat} (X Y : Nat → Nat → Nat → Nat → F) (B M V β γ : Nat → F)
    (_hd : ∀ e < t.filters, sqrt (V e) + eps ≠ 0) {wInit bInit wInit' bInit' mInit vInit betaInit gammaInit : Init F}
    (hw : ∀ m, wInit [t.filters, c, H.k, W.k] m = .ok (tab [t.filters, c, H.k, W.k] (fn4 Y)).data)
    (hb : ∀ m, bInit [t.filters] m = .ok (tab [t.filters] (fn1 B)).data)
    (hM : ∀ m, mInit [t.filters] m = .ok (tab [t.filters] (fn1 M)).data)
    (hV : ∀ m, vInit [t.filters] m = .ok (tab [t.filters] (fn1 V)).data)
    (hβ : ∀ m, betaInit [t.filters] m = .ok (tab [t.filters] (fn1 β)).data)
    (hγ : ∀ m, gammaInit [t.filters] m = .ok (tab [t.filters] (fn1 γ)).data)
    (hw' : ∀ m, wInit' [t.filters, c, H.k, W.k] m = .ok (tab [t.filters, c, H.k, W.k]
      (fn4 fun e k u v => Y e k u v * (γ e / (sqrt (V e) + eps)))).data)
    (hb' : ∀ m, bInit' [t.filters] m = .ok (tab [t.filters]
      (fn1 fun e => (B e - M e) / (sqrt (V e) + eps) * γ e + β e)).data) :
    ∃ (y : Tensor F) (ws ws' : List (Tensor F)),
      composed (fun x => Layers.conv .nchw .dcrs (J 0) (J 1) (J 2) junkI (J 3) noopAct t x wInit bInit)
          (fun x => Layers.batchNorm sqrt eps .nchw (J 4) (J 5) (J 6) (J 7) (J 8) act x mInit vInit betaInit gammaInit)
          (tab [n, c, H.n, W.n] (fn4 X)) = ⟨5, .ok ⟨y, ws⟩⟩ ∧
      Layers.conv .nchw .dcrs (J 9) (J 10) (J 11) junkI' (J 12) act t (tab [n, c, H.n, W.n] (fn4 X)) wInit' bInit' =
        ⟨3, .ok ⟨y, ws'⟩⟩ := by
  refine ⟨_, _, _, composed_run (C78_conv_nchw (J 0) (J 1) (J 2) junkI (J 3) noop_acts hH hW ht X Y B (hw _) (hb _))
    (C86_bn_nchw sqrt eps (J 4) (J 5) (J 6) (J 7) (J 8) hact _ M V β γ (hM _) (hV _) (hβ _) (hγ _)) rfl,
    (C78_conv_nchw (J 9) (J 10) (J 11) junkI' (J 12) hact hH hW ht X _ _ (hw' _) (hb' _)).trans (same_output ?_)⟩
  refine tab_congr fun idx hv => ?_
  match idx, hv with
  | [b, e, i, j], _ =>
    simp only [fn4, id]
    rw [fold_value, conv2_scale H W c (fun a a' k => X b k a a') (fun u v k e => Y e k u v)
      (fun e => γ e / (sqrt (V e) + eps))]

/-- Non-vacuity: a 2 × 1 kernel on a 3 × 1 image, over the rationals. -/
example : composed (fun x => Layers.conv .nhwc .rscd (fun _ => 0) (fun _ => 0) (fun _ => 0) (fun _ => 0) (fun _ => 0) noopAct
        (ConvLayer.makeK 1 (2, 1)) x (fun _ _ => .ok [1, 2]) (fun _ _ => .ok [7]))
      (fun x => Layers.batchNorm (fun v => v) 1 .nhwc (fun _ => 0) (fun _ => 0) (fun _ => 0) (fun _ => 0) (fun _ => 0) reluAct x
        (fun _ _ => .ok [4]) (fun _ _ => .ok [1]) (fun _ _ => .ok [-5]) (fun _ _ => .ok [3]))
      (⟨[1, 3, 1, 1], [1, 2, -9]⟩ : Tensor Rat) =
      ⟨5, .ok ⟨⟨[1, 2, 1, 1], [7, 0]⟩, [⟨[1], [4]⟩, ⟨[1], [1]⟩, ⟨[1], [-5]⟩, ⟨[1], [3]⟩]⟩⟩ ∧
    Layers.conv .nhwc .rscd (fun _ => 0) (fun _ => 0) (fun _ => 0) (fun _ => 0) (fun _ => 0) reluAct
        (ConvLayer.makeK 1 (2, 1)) (⟨[1, 3, 1, 1], [1, 2, -9]⟩ : Tensor Rat) (fun _ _ => .ok [1 * (3 / 2), 2 * (3 / 2)])
        (fun _ _ => .ok [(7 - 4) / 2 * 3 + -5]) =
      ⟨3, .ok ⟨⟨[1, 2, 1, 1], [7, 0]⟩, [⟨[2, 1, 1, 1], [3 / 2, 3]⟩, ⟨[1], [-1 / 2]⟩]⟩⟩ := by
  decide +kernel

end fold

/-! ## C108: dense layers without activation in between -/

/-- C108: a dense layer without activation followed by a dense layer is one dense layer, with the product of the matrices
and the image of the first bias plus the second bias. -/
theorem C108_dense [Semiring R] (J : Nat → Nat → R) {act : Act R} {f : R → R} (hact : ActsAs act f) {n a b c : Nat}
    (hb : b < 2 ^ 32) (hc : c < 2 ^ 32) (X U W : Nat → Nat → R) (A B : Nat → R) {uInit aInit wInit bInit vInit cInit : Init R}
    (hU : ∀ m, uInit [a, b] m = .ok (tab [a, b] (fn2 U)).data) (hA : ∀ m, aInit [b] m = .ok (tab [b] (fn1 A)).data)
    (hW : ∀ m, wInit [b, c] m = .ok (tab [b, c] (fn2 W)).data) (hB : ∀ m, bInit [c] m = .ok (tab [c] (fn1 B)).data)
    (hV : ∀ m, vInit [a, c] m = .ok (tab [a, c] (fn2 fun i k => ∑ j ∈ range b, U i j * W j k)).data)
    (hC : ∀ m, cInit [c] m = .ok (tab [c] (fn1 fun k => (∑ j ∈ range b, A j * W j k) + B k)).data) :
    ∃ (y : Tensor R) (ws ws' : List (Tensor R)),
      composed (fun x => dense (J 0) (J 1) (J 2) noopAct b x uInit aInit)
          (fun x => dense (J 3) (J 4) (J 5) act c x wInit bInit) (tab [n, a] (fn2 X)) = ⟨3, .ok ⟨y, ws⟩⟩ ∧
      dense (J 6) (J 7) (J 8) act c (tab [n, a] (fn2 X)) vInit cInit = ⟨3, .ok ⟨y, ws'⟩⟩ := by
  refine ⟨_, _, _, composed_run (C77_dense (J 0) (J 1) (J 2) noop_acts hb X U A (hU _) (hA _))
    (C77_dense (J 3) (J 4) (J 5) hact hc _ W B (hW _) (hB _)) rfl,
    (C77_dense (J 6) (J 7) (J 8) hact hc X _ _ (hV _) (hC _)).trans (same_output ?_)⟩
  refine tab_congr fun idx hv => ?_
  match idx, hv with
  | [r, k], _ =>
    simp only [fn2, id, seqSum_eq_sum]
    congr 1
    simp only [add_mul, sum_add_distrib, sum_mul, mul_sum, mul_assoc]
    rw [sum_comm, add_assoc]

/-- Non-vacuity. -/
example : composed (fun x => dense (fun _ => (0 : Int)) (fun _ => 0) (fun _ => 0) noopAct 2 x (fun _ _ => .ok [1, 2]) (fun _ _ => .ok [5, 6]))
      (fun x => dense (fun _ => 0) (fun _ => 0) (fun _ => 0) reluAct 1 x (fun _ _ => .ok [3, 4]) (fun _ _ => .ok [-30]))
      ⟨[2, 1], [-10, 1]⟩ = ⟨3, .ok ⟨⟨[2, 1], [0, 20]⟩, [⟨[2, 1], [3, 4]⟩, ⟨[1], [-30]⟩]⟩⟩ ∧
    dense (fun _ => (0 : Int)) (fun _ => 0) (fun _ => 0) reluAct 1 ⟨[2, 1], [-10, 1]⟩ (fun _ _ => .ok [11]) (fun _ _ => .ok [9]) =
      ⟨3, .ok ⟨⟨[2, 1], [0, 20]⟩, [⟨[1, 1], [11]⟩, ⟨[1], [9]⟩]⟩⟩ := by
  decide +kernel

/-! ## C109: a one-hot matrix selects rows -/

theorem sum_ite_row [Semiring R] (k : Nat) (p : Nat → Prop) [DecidablePred p] (g : Nat → R) (q : Nat)
    (hp : ∀ j < k, p j ↔ j = q) : ∑ j ∈ range k, (if p j then (1 : R) else 0) * g j = if q < k then g q else 0 := by
  rw [sum_congr rfl (fun j hj => by
    rw [show (if p j then (1 : R) else 0) * g j = if j = q then g j else 0 by
      by_cases c : j = q
      · rw [if_pos ((hp j (mem_range.1 hj)).2 c), if_pos c, one_mul]
      · rw [if_neg (fun h => c ((hp j (mem_range.1 hj)).1 h)), if_neg c, zero_mul]])]
  rw [sum_ite_eq']
  simp only [mem_range]

/-- C109: multiplying the one-hot encoding of a vector of labels with a matrix looks up, for every label in range, the row
of that label; a label out of range gives a row of zeros. -/
theorem C109_lookup [Semiring R] (t : IntTy) (ht : 1 ≤ t.bits) {k n : Nat} (hk : t.In k) (x : List Int)
    (T : Nat → Nat → R) {o y : List R} (ho : o.length = x.length * k) (hy : y.length = x.length * n) :
    (do let e ← Kernels.onehot t k x o
        Ops.matmul [x.length, n] ⟨[x.length, k], e⟩ (tab [k, n] (fn2 T)) y) =
      .ok (tab [x.length, n] (fn2 fun i j => match x[i]? with
        | some l => if 0 ≤ l ∧ l < k then T l.toNat j else 0
        | none => 0)).data := by
  rw [C56_onehot t ht hk x ho, Outcome.ok_bind]
  show Plain.mm (tab [x.length, k] _) _ _ _ = _
  rw [Plain.mm_run _ _ (by simpa using hy)]
  refine congrArg Outcome.ok (congrArg Tensor.data (tab_congr fun idx hv => ?_))
  match idx, hv with
  | [i, j], hv =>
    obtain ⟨hi, hj, -⟩ := hv
    simp only [Plain.prod2, fn2, seqSum_eq_sum]
    have e : x[i]? = some x[i] := List.getElem?_eq_getElem hi
    rw [e]
    simp only [Option.some.injEq]
    by_cases c : 0 ≤ x[i] ∧ x[i] < k
    · rw [if_pos c, sum_ite_row k (fun j => x[i] = (j : Int)) (fun l => T l j) x[i].toNat (fun j hj => by omega),
        if_pos (by omega)]
    · rw [if_neg c, sum_eq_zero fun l hl => ?_]
      have hl' := mem_range.1 hl
      rw [if_neg (by omega), zero_mul]

/-- Non-vacuity: labels 2, 0 and 7 with a table of three rows. -/
example : ((Kernels.onehot ⟨false, 8⟩ 3 [2, 0, 7] (List.replicate 9 (-1 : Int))).bind fun e =>
      Ops.matmul [3, 2] ⟨[3, 3], e⟩ ⟨[3, 2], [1, 2, 3, 4, 5, 6]⟩ (List.replicate 6 0)) =
    .ok [5, 6, 1, 2, 0, 0] := by decide +kernel

/-! ## Concrete cases -/

example := C107_nhwc (F := ℚ) id (1 / 8) (fun _ _ => 7) (fun _ => 1) (fun _ => 2) relu_acts exL_ok exW_ok exLayer_axes (n := 2)
  (c := 3) (by decide) (fun l i j k => l + i - j * k) (fun r s k e => r - s + k * e) (fun e => 9 * e) (fun e => e) (fun e => e + 1)
  (fun e => 2 * e) (fun e => 5 - e) (fun e _ => by simp only [id]; positivity)
  (wInit := exInit (fn4 fun r s k e => r - s + k * e)) (bInit := exInit (fn1 fun e => 9 * e))
  (mInit := exInit (fn1 fun e => e)) (vInit := exInit (fn1 fun e => e + 1)) (betaInit := exInit (fn1 fun e => 2 * e))
  (gammaInit := exInit (fn1 fun e => 5 - e))
  (wInit' := exInit (fn4 fun r s k e => (r - s + k * e) * ((5 - e) / (id ((e : ℚ) + 1) + 1 / 8))))
  (bInit' := exInit (fn1 fun e => (9 * e - e) / (id ((e : ℚ) + 1) + 1 / 8) * (5 - e) + 2 * e))
  (fun _ => rfl) (fun _ => rfl) (fun _ => rfl) (fun _ => rfl) (fun _ => rfl) (fun _ => rfl) (fun _ => rfl) (fun _ => rfl)
example := C107_nchw (F := ℚ) id (1 / 8) (fun _ _ => 7) (fun _ => 1) (fun _ => 2) relu_acts exL_ok exW_ok exLayer_axes (n := 2)
  (c := 3) (fun l i j k => l + i - j * k) (fun e k r s => r - s + k * e) (fun e => 9 * e) (fun e => e) (fun e => e + 1)
  (fun e => 2 * e) (fun e => 5 - e) (fun e _ => by simp only [id]; positivity)
  (wInit := exInit (fn4 fun e k r s => r - s + k * e)) (bInit := exInit (fn1 fun e => 9 * e))
  (mInit := exInit (fn1 fun e => e)) (vInit := exInit (fn1 fun e => e + 1)) (betaInit := exInit (fn1 fun e => 2 * e))
  (gammaInit := exInit (fn1 fun e => 5 - e))
  (wInit' := exInit (fn4 fun e k r s => (r - s + k * e) * ((5 - e) / (id ((e : ℚ) + 1) + 1 / 8))))
  (bInit' := exInit (fn1 fun e => (9 * e - e) / (id ((e : ℚ) + 1) + 1 / 8) * (5 - e) + 2 * e))
  (fun _ => rfl) (fun _ => rfl) (fun _ => rfl) (fun _ => rfl) (fun _ => rfl) (fun _ => rfl) (fun _ => rfl) (fun _ => rfl)
example := C108_dense (R := Int) (fun _ _ => 7) relu_acts (n := 2) (a := 3) (b := 2) (c := 2) (by decide) (by decide)
  (fun i j => i - j) (fun i j => i + 2 * j) (fun i j => 3 * i - j) (fun j => j) (fun k => 1 - k)
  (uInit := exInit (fn2 fun i j => i + 2 * j)) (aInit := exInit (fn1 fun j => j)) (wInit := exInit (fn2 fun i j => 3 * i - j))
  (bInit := exInit (fn1 fun k => 1 - k))
  (vInit := exInit (fn2 fun i k => ∑ j ∈ range 2, ((i : Int) + 2 * j) * (3 * j - k)))
  (cInit := exInit (fn1 fun k => (∑ j ∈ range 2, (j : Int) * (3 * j - k)) + (1 - k)))
  (fun _ => rfl) (fun _ => rfl) (fun _ => rfl) (fun _ => rfl) (fun _ => rfl) (fun _ => rfl)
example := C109_lookup (R := Int) ⟨false, 8⟩ (by decide) (k := 3) (n := 2) (by decide) [2, 0, 7] (fun i j => 10 * i + j)
  (o := List.replicate 9 5) (y := List.replicate 6 5) rfl rfl

end StdNN
