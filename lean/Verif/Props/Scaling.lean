import Verif.Props.Relational
import Verif.Props.BinaryLayers
/-!
# C154: scaling by powers of two is exact

On the numbers of IEEE 754, networks of dense, convolution, pooling and `relu` layers give for inputs and biases multiplied by a
power of two exactly the multiplied outputs, bit for bit, as long as no operation underflows or overflows.
-/
namespace StdNN
open IntTy Spec Outcome Layers Models Finset Spec.Format

namespace Spec.Format
variable (F : Format)

/-- `x` rounded to `p` significant bits, ties to even, were there no least and no greatest exponent. -/
noncomputable def free (x : ℝ) : ℝ :=
  roundEven (x / 2 ^ (Int.log 2 |x| - (F.p - 1))) * 2 ^ (Int.log 2 |x| - (F.p - 1))

/-- An operation with the exact result `x` neither underflows nor overflows. -/
def InRange (x : ℝ) : Prop := x = 0 ∨ 2 ^ F.emin ≤ |x| ∧ |F.nearest x| < F.limit

variable {F}

theorem log_two_mul (k : ℤ) {x : ℝ} (hx : 0 < x) : Int.log 2 (2 ^ k * x) = k + Int.log 2 x := by
  have h2 : (0 : ℝ) < 2 ^ k * x := mul_pos (two_pos k) hx
  have b : 1 < 2 := by norm_num
  refine le_antisymm ?_ ?_
  · have h : 2 ^ k * x < ((2 : ℕ) : ℝ) ^ (k + Int.log 2 x + 1) := by
      rw [add_assoc, zpow_add₀ (by norm_num)]
      exact mul_lt_mul_of_pos_left (Int.lt_zpow_succ_log_self b x) (two_pos k)
    have := (Int.lt_zpow_iff_log_lt b h2).1 h
    omega
  · refine (Int.zpow_le_iff_le_log b h2).1 ?_
    rw [zpow_add₀ (by norm_num)]
    exact mul_le_mul_of_nonneg_left (Int.zpow_log_le_self b hx) (two_pos k).le

theorem free_two_pow (k : ℤ) (x : ℝ) : F.free (2 ^ k * x) = 2 ^ k * F.free x := by
  by_cases hx : x = 0
  · subst hx
    unfold free
    simp [show roundEven (0 : ℝ) = 0 by simpa using roundEven_int 0]
  · unfold free
    rw [abs_mul, abs_of_pos (two_pos k), log_two_mul k (abs_pos.2 hx), add_sub_assoc, zpow_add₀ (by norm_num : (2 : ℝ) ≠ 0),
      mul_div_mul_left _ _ (two_pos k).ne']
    ring

theorem free_zero : F.free 0 = 0 := by
  unfold free
  simp [show roundEven (0 : ℝ) = 0 by simpa using roundEven_int 0]

theorem nearest_free {x : ℝ} (h : F.InRange x) : F.nearest x = F.free x ∧ |F.nearest x| < F.limit := by
  rcases h with rfl | ⟨h, hl⟩
  · rw [nearest_zero, free_zero, abs_zero]
    exact ⟨rfl, F.limit_pos⟩
  · refine ⟨?_, hl⟩
    have h0 : 0 < |x| := (two_pos _).trans_le h
    have : F.emin ≤ Int.log 2 |x| := (Int.zpow_le_iff_le_log (by norm_num) h0).1 (by exact_mod_cast h)
    unfold nearest free place
    rw [max_eq_left this]

end Spec.Format

/-- C154 (rounding): without limits on the exponent, rounding commutes with powers of two. -/
theorem C154_free (F : Format) (k : ℤ) (x : ℝ) : F.free (2 ^ k * x) = 2 ^ k * F.free x := free_two_pow k x

/-- C154 (rounding): for zero and normal numbers that is the rounding of the format. -/
theorem C154_nearest {F : Format} {x : ℝ} (h : F.InRange x) : F.nearest x = F.free x ∧ |F.nearest x| < F.limit := nearest_free h

/-- A number computed without limits on the exponent, and whether all operations it was computed by stayed within the limits
of the format. -/
structure Watched (F : Format) where
  val : ℝ
  ok : Prop

namespace Watched
variable {F : Format} {bz : EReal → Option EReal}

noncomputable instance : Zero (Watched F) := ⟨⟨0, True⟩⟩
noncomputable instance : Add (Watched F) := ⟨fun a b => ⟨F.free (a.val + b.val), a.ok ∧ b.ok ∧ F.InRange (a.val + b.val)⟩⟩
noncomputable instance : Mul (Watched F) := ⟨fun a b => ⟨F.free (a.val * b.val), a.ok ∧ b.ok ∧ F.InRange (a.val * b.val)⟩⟩

/-- The watched number is what is computed in the format, if nothing left the range. -/
def Sees (a : Watched F) (x : Ieee (F.arith bz)) : Prop := a.ok → x = fin F bz a.val

/-- `b` is `2^k` times `a`. -/
def Scaled (k : ℤ) (a b : Watched F) : Prop := b.val = 2 ^ k * a.val

/-- `relu`. -/
noncomputable def relu (a : Watched F) : Watched F := ⟨max 0 a.val, a.ok⟩

/-- Division by the number of pixels. -/
noncomputable def divn (a : Watched F) (n : Nat) : Watched F :=
  ⟨F.free (a.val / F.nearest n), a.ok ∧ F.nearest n ≠ 0 ∧ F.InRange (a.val / F.nearest n)⟩

/-- The greater one of two. -/
noncomputable def top (a b : Watched F) : Watched F := ⟨max a.val b.val, a.ok ∧ b.ok⟩

/-- The greatest pixel of a window: there has to be one, and it must not be less than `lo`. -/
noncomputable def tops (lo : ℝ) : List (Watched F) → Watched F
  | [] => ⟨0, False⟩
  | x :: l => l.foldl top ⟨x.val, x.ok ∧ lo ≤ x.val⟩

/-- The accumulator that yields `tops`. -/
noncomputable def topAcc (lo : ℝ) : Acc (Watched F) where
  S := List (Watched F)
  init := []
  step l x := .ok (l ++ [x])
  result l := .ok (tops lo l)

theorem topAcc_run (lo : ℝ) (l : List (Watched F)) : (topAcc lo).run l = .ok (tops lo l) := by
  have : ∀ s : List (Watched F), l.foldlM (m := Outcome) (fun s x => .ok (s ++ [x])) s = .ok (s ++ l) := by
    induction l with
    | nil => intro s; simp only [List.append_nil]; rfl
    | cons x l ih => intro s; simp only [List.foldlM_cons, Outcome.ok_bind, ih]; simp
  unfold Acc.run topAcc
  simp only [this, Outcome.ok_bind, List.nil_append]

end Watched

open Watched

variable {F : Format} {bz : EReal → Option EReal}

/-! ## Operations -/

/-- C154 (operations): sums of products within the range are those of the format. -/
theorem C154_sees : KeepsSums (Sees (F := F) (bz := bz)) Sees Sees where
  zero _ := fin_zero.symm
  add h h' := fun ⟨k, k', r⟩ => by
    obtain ⟨e, l⟩ := C154_nearest r
    rw [h k, h' k', fin_add l, e]
    rfl
  mul_right h h' := fun ⟨k, k', r⟩ => by
    obtain ⟨e, l⟩ := C154_nearest r
    rw [h k, h' k', fin_mul l, e]
    rfl
  mul_left h h' := fun ⟨k, k', r⟩ => by
    obtain ⟨e, l⟩ := C154_nearest r
    rw [h k', h' k, fin_mul l, e]
    rfl

/-- C154 (operations): inputs times `2^i`, weights times `2^j` and biases times `2^(i+j)` give sums times `2^(i+j)`. -/
theorem C154_scaled (i j : ℤ) : KeepsSums (Scaled (F := F) i) (Scaled j) (Scaled (i + j)) where
  zero := (mul_zero _).symm
  add {a a' b b'} h h' := by
    show F.free (a'.val + b'.val) = _ * F.free (a.val + b.val)
    rw [h, h', ← mul_add, C154_free]
  mul_right {a a' b b'} h h' := by
    show F.free (a'.val * b'.val) = _ * F.free (a.val * b.val)
    rw [h, h', ← C154_free, zpow_add₀ (by norm_num)]
    congr 1
    ring
  mul_left {a a' b b'} h h' := by
    show F.free (b'.val * a'.val) = _ * F.free (b.val * a.val)
    rw [h, h', ← C154_free, zpow_add₀ (by norm_num)]
    congr 1
    ring

theorem scaled_zero (k : ℤ) : Scaled (F := F) k 0 0 := (mul_zero _).symm
theorem sees_zero : Sees (F := F) (bz := bz) 0 0 := fun _ => fin_zero.symm

/-- The activation `f'` of numbers of the format is `f`, which commutes with powers of two. -/
structure FollowsScaled (f : Watched F → Watched F) (f' : Ieee (F.arith bz) → Ieee (F.arith bz)) : Prop where
  sees : ∀ a x, Sees a x → Sees (f a) (f' x)
  scaled : ∀ k a b, Scaled k a b → Scaled k (f a) (f b)

/-- C154 (activations): none. -/
theorem C154_id : FollowsScaled (F := F) (bz := bz) id id := ⟨fun _ _ => id, fun _ _ _ => id⟩

/-- C154 (activations): `relu`. -/
theorem C154_relu : FollowsScaled (F := F) (bz := bz) Watched.relu fun a => if 0 < a then a else 0 where
  sees a x h k := by
    rw [h k]
    exact relu_keepsFin.1 _
  scaled k a b h := by
    show max 0 b.val = _ * max 0 a.val
    rw [h, mul_max_of_nonneg _ _ (two_pos k).le, mul_zero]

/-! ## Layers -/

/-- The layers `g` and `g'` compute on the numbers of the format what `t` and `t'` compute on watched numbers, and on inputs
multiplied by `2^i` the layer `t'` gives the outputs of `t` multiplied by `2^j`. -/
structure Scales (i j : ℤ) (t t' : LayerFn (Watched F)) (g g' : LayerFn (Ieee (F.arith bz))) (ds es : List Nat) : Prop where
  first : Carries Sees Sees t g ds es
  second : Carries Sees Sees t' g' ds es
  both : Carries (Scaled i) (Scaled j) t t' ds es

/-- C154 (networks): one layer after the other. -/
theorem C154_composed {i j k : ℤ} {t t' u u' : LayerFn (Watched F)} {g g' h h' : LayerFn (Ieee (F.arith bz))} {ds es fs : List Nat}
    (a : Scales i j t t' g g' ds es) (b : Scales j k u u' h h' es fs) :
    Scales i k (composed t u) (composed t' u') (composed g h) (composed g' h') ds fs :=
  ⟨C149_composed a.first b.first, C149_composed a.second b.second, C149_composed a.both b.both⟩

/-- C154 (sequential models): before layer `l` the factor is `2^(k l)` and the shape `shapes l`. -/
theorem C154_sequential (junk junk' : Nat → Ieee (F.arith bz)) (k : Nat → ℤ) (ts ts' : List (LayerFn (Watched F)))
    (gs gs' : List (LayerFn (Ieee (F.arith bz)))) (h1 : ts.length = ts'.length) (h2 : ts.length = gs.length)
    (h3 : ts.length = gs'.length) (shapes : Nat → List Nat)
    (h : ∀ l (hl : l < ts.length), Scales (k l) (k (l + 1)) ts[l] (ts'[l]'(h1 ▸ hl)) (gs[l]'(h2 ▸ hl)) (gs'[l]'(h3 ▸ hl))
      (shapes l) (shapes (l + 1))) :
    Scales (k 0) (k ts.length) (sequential (fun _ => 0) ts) (sequential (fun _ => 0) ts') (sequential junk gs) (sequential junk' gs')
      (shapes 0) (shapes ts.length) where
  first := C149_sequential _ junk (fun _ => Sees) ts gs h2 shapes fun l hl => (h l hl).first
  second := by
    have := C149_sequential (fun _ => 0) junk' (fun _ => Sees) ts' gs' (h1 ▸ h3) shapes fun l hl => (h l (h1 ▸ hl)).second
    rwa [← h1] at this
  both := C149_sequential _ _ (fun l => Scaled (k l)) ts ts' h1 shapes fun l hl => (h l hl).both

/-- A given number. -/
noncomputable def given (x : ℝ) : Watched F := ⟨x, True⟩

theorem given_sees (x : ℝ) : Sees (bz := bz) (given (F := F) x) (fin F bz x) := fun _ => rfl
theorem given_scaled (k : ℤ) (x : ℝ) : Scaled k (given (F := F) x) (given (2 ^ k * x)) := rfl

/-- An initializer that stores given numbers. -/
noncomputable def stores (f : List Nat → ℝ) : Init (Watched F) := fun s _ => .ok (tab s fun i => given (f i)).data

/-- The dense layer with weights `W` and biases `B` on watched numbers. -/
noncomputable def watchedDense (f : Watched F → Watched F) (k : Nat) (W : Nat → Nat → ℝ) (B : Nat → ℝ) : LayerFn (Watched F) :=
  fun x => dense (fun _ => 0) (fun _ => 0) (fun _ => 0) (pointwiseAct f) k x (stores (fn2 W)) (stores (fn1 B))

theorem stores2 (W : Nat → Nat → ℝ) (m k : Nat) (l : List (Watched F)) :
    stores (fn2 W) [m, k] l = .ok (tab [m, k] (fn2 fun a b => given (F := F) (W a b))).data :=
  congrArg (fun t : Tensor (Watched F) => Outcome.ok t.data) (tab_congr fun idx hv => by
    match idx, hv with
    | [i, l], _ => rfl)

theorem stores1 (B : Nat → ℝ) (k : Nat) (l : List (Watched F)) :
    stores (fn1 B) [k] l = .ok (tab [k] (fn1 fun b => given (F := F) (B b))).data :=
  congrArg (fun t : Tensor (Watched F) => Outcome.ok t.data) (tab_congr fun idx hv => by
    match idx, hv with
    | [i], _ => rfl)

theorem stores4 (Y : Nat → Nat → Nat → Nat → ℝ) (a b c d : Nat) (l : List (Watched F)) :
    stores (fn4 Y) [a, b, c, d] l = .ok (tab [a, b, c, d] (fn4 fun p q r s => given (F := F) (Y p q r s))).data :=
  congrArg (fun t : Tensor (Watched F) => Outcome.ok t.data) (tab_congr fun idx hv => by
    match idx, hv with
    | [i, j, k, l], _ => rfl)

section
variable {f : Watched F → Watched F} {f' : Ieee (F.arith bz) → Ieee (F.arith bz)} {act : Act (Ieee (F.arith bz))}
  (junkW junkY junkB : Nat → Ieee (F.arith bz)) (junkI : Nat → Int) (junk : Nat → Ieee (F.arith bz))
  {wInit bInit wInit' bInit' : Init (Ieee (F.arith bz))}

/-- C154 (dense layers): weights times `2^j` and biases times `2^(i+j)`. -/
theorem C154_dense (i j : ℤ) (hf : FollowsScaled f f') (hact : ActsAs act f') {m k : Nat} (hk : k < 2 ^ 32) (W : Nat → Nat → ℝ)
    (B : Nat → ℝ) (hw : wInit [m, k] (fresh junkW [m, k].prod) = .ok (tab [m, k] (fn2 fun a b => fin F bz (W a b))).data)
    (hb : bInit [k] (fresh junkB [k].prod) = .ok (tab [k] (fn1 fun b => fin F bz (B b))).data)
    (hw' : wInit' [m, k] (fresh junkW [m, k].prod) = .ok (tab [m, k] (fn2 fun a b => fin F bz (2 ^ j * W a b))).data)
    (hb' : bInit' [k] (fresh junkB [k].prod) = .ok (tab [k] (fn1 fun b => fin F bz (2 ^ (i + j) * B b))).data) (n : Nat) :
    Scales i (i + j) (watchedDense f k W B) (watchedDense f k (fun a b => 2 ^ j * W a b) fun b => 2 ^ (i + j) * B b)
      (fun x => dense junkW junkY junkB act k x wInit bInit) (fun x => dense junkW junkY junkB act k x wInit' bInit')
      [n, m] [n, k] where
  first := C149_dense _ _ _ _ _ _ C154_sees (pointwise_acts f) hact hf.sees hk _ _ _ _ (fun _ _ _ _ => given_sees _)
    (fun _ _ => given_sees _) (stores2 _ _ _ _) (stores1 _ _ _) hw hb n
  second := C149_dense _ _ _ _ _ _ C154_sees (pointwise_acts f) hact hf.sees hk _ _ _ _ (fun _ _ _ _ => given_sees _)
    (fun _ _ => given_sees _) (stores2 _ _ _ _) (stores1 _ _ _) hw' hb' n
  both := C149_dense _ _ _ _ _ _ (C154_scaled i j) (pointwise_acts f) (pointwise_acts f) (hf.scaled _) hk _ _ _ _
    (fun _ _ _ _ => given_scaled _ _) (fun _ _ => given_scaled _ _) (stores2 _ _ _ _) (stores1 _ _ _) (stores2 _ _ _ _)
    (stores1 _ _ _) n

/-- The convolution layer with filters `Y` and biases `B` on watched numbers. -/
noncomputable def watchedConv (il : Order) (fl : FOrder) (f : Watched F → Watched F) (t : ConvLayer)
    (Y : Nat → Nat → Nat → Nat → ℝ) (B : Nat → ℝ) : LayerFn (Watched F) :=
  fun x => Layers.conv il fl (fun _ => 0) (fun _ => 0) (fun _ => 0) (fun _ => 0) (fun _ => 0) (pointwiseAct f) t x
    (stores (fn4 Y)) (stores (fn1 B))

/-- C154 (convolution layers, `nhwc`). -/
theorem C154_conv_nhwc (i j : ℤ) (hf : FollowsScaled f f') (hact : ActsAs act f') {H W : Axis} (hH : AxisOK u32 H) (hW : AxisOK u32 W)
    {t : ConvLayer} (ht : HasAxes t H W) {c : Nat} (hsz : [H.n, W.n, c].prod ≤ 2 ^ 31) (Y : Nat → Nat → Nat → Nat → ℝ) (B : Nat → ℝ)
    (hw : wInit [H.k, W.k, c, t.filters] (fresh junkW [H.k, W.k, c, t.filters].prod) =
      .ok (tab [H.k, W.k, c, t.filters] (fn4 fun p q r s => fin F bz (Y p q r s))).data)
    (hb : bInit [t.filters] (fresh junkB [t.filters].prod) = .ok (tab [t.filters] (fn1 fun b => fin F bz (B b))).data)
    (hw' : wInit' [H.k, W.k, c, t.filters] (fresh junkW [H.k, W.k, c, t.filters].prod) =
      .ok (tab [H.k, W.k, c, t.filters] (fn4 fun p q r s => fin F bz (2 ^ j * Y p q r s))).data)
    (hb' : bInit' [t.filters] (fresh junkB [t.filters].prod) = .ok (tab [t.filters] (fn1 fun b => fin F bz (2 ^ (i + j) * B b))).data)
    (n : Nat) :
    Scales i (i + j) (watchedConv .nhwc .rscd f t Y B)
      (watchedConv .nhwc .rscd f t (fun p q r s => 2 ^ j * Y p q r s) fun b => 2 ^ (i + j) * B b)
      (fun x => Layers.conv .nhwc .rscd junkW junkY junkB junkI junk act t x wInit bInit)
      (fun x => Layers.conv .nhwc .rscd junkW junkY junkB junkI junk act t x wInit' bInit')
      [n, H.n, W.n, c] [n, H.m, W.m, t.filters] where
  first := C149_conv_nhwc _ _ _ _ _ _ _ _ _ _ sees_zero C154_sees (pointwise_acts f) hact hf.sees hH hW ht hsz _ _ _ _
    (fun _ _ _ _ _ _ _ _ => given_sees _) (fun _ _ => given_sees _) (stores4 _ _ _ _ _ _) (stores1 _ _ _) hw hb n
  second := C149_conv_nhwc _ _ _ _ _ _ _ _ _ _ sees_zero C154_sees (pointwise_acts f) hact hf.sees hH hW ht hsz _ _ _ _
    (fun _ _ _ _ _ _ _ _ => given_sees _) (fun _ _ => given_sees _) (stores4 _ _ _ _ _ _) (stores1 _ _ _) hw' hb' n
  both := C149_conv_nhwc _ _ _ _ _ _ _ _ _ _ (scaled_zero i) (C154_scaled i j) (pointwise_acts f) (pointwise_acts f) (hf.scaled _)
    hH hW ht hsz _ _ _ _ (fun _ _ _ _ _ _ _ _ => given_scaled _ _) (fun _ _ => given_scaled _ _) (stores4 _ _ _ _ _ _)
    (stores1 _ _ _) (stores4 _ _ _ _ _ _) (stores1 _ _ _) n

/-- C154 (convolution layers, `nchw`). -/
theorem C154_conv_nchw (i j : ℤ) (hf : FollowsScaled f f') (hact : ActsAs act f') {H W : Axis} (hH : AxisOK u32 H) (hW : AxisOK u32 W)
    {t : ConvLayer} (ht : HasAxes t H W) {c : Nat} (Y : Nat → Nat → Nat → Nat → ℝ) (B : Nat → ℝ)
    (hw : wInit [t.filters, c, H.k, W.k] (fresh junkW [t.filters, c, H.k, W.k].prod) =
      .ok (tab [t.filters, c, H.k, W.k] (fn4 fun p q r s => fin F bz (Y p q r s))).data)
    (hb : bInit [t.filters] (fresh junkB [t.filters].prod) = .ok (tab [t.filters] (fn1 fun b => fin F bz (B b))).data)
    (hw' : wInit' [t.filters, c, H.k, W.k] (fresh junkW [t.filters, c, H.k, W.k].prod) =
      .ok (tab [t.filters, c, H.k, W.k] (fn4 fun p q r s => fin F bz (2 ^ j * Y p q r s))).data)
    (hb' : bInit' [t.filters] (fresh junkB [t.filters].prod) = .ok (tab [t.filters] (fn1 fun b => fin F bz (2 ^ (i + j) * B b))).data)
    (n : Nat) :
    Scales i (i + j) (watchedConv .nchw .dcrs f t Y B)
      (watchedConv .nchw .dcrs f t (fun p q r s => 2 ^ j * Y p q r s) fun b => 2 ^ (i + j) * B b)
      (fun x => Layers.conv .nchw .dcrs junkW junkY junkB junkI junk act t x wInit bInit)
      (fun x => Layers.conv .nchw .dcrs junkW junkY junkB junkI junk act t x wInit' bInit')
      [n, c, H.n, W.n] [n, t.filters, H.m, W.m] where
  first := C149_conv_nchw _ _ _ _ _ _ _ _ _ _ sees_zero C154_sees (pointwise_acts f) hact hf.sees hH hW ht _ _ _ _
    (fun _ _ _ _ _ _ _ _ => given_sees _) (fun _ _ => given_sees _) (stores4 _ _ _ _ _ _) (stores1 _ _ _) hw hb n
  second := C149_conv_nchw _ _ _ _ _ _ _ _ _ _ sees_zero C154_sees (pointwise_acts f) hact hf.sees hH hW ht _ _ _ _
    (fun _ _ _ _ _ _ _ _ => given_sees _) (fun _ _ => given_sees _) (stores4 _ _ _ _ _ _) (stores1 _ _ _) hw' hb' n
  both := C149_conv_nchw _ _ _ _ _ _ _ _ _ _ (scaled_zero i) (C154_scaled i j) (pointwise_acts f) (pointwise_acts f) (hf.scaled _)
    hH hW ht _ _ _ _ (fun _ _ _ _ _ _ _ _ => given_scaled _ _) (fun _ _ => given_scaled _ _) (stores4 _ _ _ _ _ _)
    (stores1 _ _ _) (stores4 _ _ _ _ _ _) (stores1 _ _ _) n

/-- C154 (activation layers). -/
theorem C154_activation (hf : FollowsScaled f f') (i : ℤ) (ds : List Nat) :
    Scales i i (activationOf (fun _ => 0) f) (activationOf (fun _ => 0) f) (activationOf junk f') (activationOf junk f') ds ds :=
  ⟨C149_activation _ _ hf.sees ds, C149_activation _ _ hf.sees ds, C149_activation _ _ (hf.scaled i) ds⟩

end

theorem tops_sees (lo : ℝ) (l : List (Watched F)) (l' : List (Ieee (F.arith bz))) (h : List.Forall₂ Sees l l') :
    Sees (tops lo l) (l'.foldl (fun v x => if x > v then x else v) (fin F bz lo)) := by
  have key : ∀ {l : List (Watched F)} {l' : List (Ieee (F.arith bz))} {m s}, List.Forall₂ Sees l l' → Sees m s →
      Sees (l.foldl top m) (l'.foldl (fun v x => if x > v then x else v) s) := by
    intro l l' m s h
    induction h generalizing m s with
    | nil => exact id
    | @cons a x l l' h1 _ ih =>
      refine fun hm => ih fun hk => ?_
      rw [hm hk.1, h1 hk.2]
      show (if fin F bz a.val > fin F bz m.val then fin F bz a.val else fin F bz m.val) = fin F bz (max m.val a.val)
      by_cases c : a.val > m.val
      · rw [if_pos (fin_lt.2 c), max_eq_right c.le]
      · rw [if_neg fun d => c (fin_lt.1 d), max_eq_left (not_lt.1 c)]
  cases h with
  | nil => exact False.elim
  | @cons a x l l' h1 h2 =>
    refine key (s := if x > fin F bz lo then x else fin F bz lo) h2 fun hk => ?_
    rw [h1 hk.1]
    show (if fin F bz a.val > fin F bz lo then fin F bz a.val else fin F bz lo) = fin F bz a.val
    by_cases c : a.val > lo
    · rw [if_pos (fin_lt.2 c)]
    · rw [if_neg fun d => c (fin_lt.1 d), le_antisymm hk.2 (not_lt.1 c)]

theorem tops_scaled (lo : ℝ) (k : ℤ) (l l' : List (Watched F)) (h : List.Forall₂ (Scaled k) l l') :
    Scaled k (tops lo l) (tops lo l') := by
  have key : ∀ {l l' : List (Watched F)} {m m'}, List.Forall₂ (Scaled k) l l' → Scaled k m m' →
      Scaled k (l.foldl top m) (l'.foldl top m') := by
    intro l l' m s h
    induction h generalizing m s with
    | nil => exact id
    | @cons a x l l' h1 _ ih =>
      refine fun hm => ih ?_
      show max s.val x.val = _ * max m.val a.val
      rw [h1, hm, mul_max_of_nonneg _ _ (two_pos k).le]
  cases h with
  | nil => exact (mul_zero _).symm
  | cons h1 h2 => exact key h2 h1

/-- C154 (max pooling layers). -/
theorem C154_max_pool (junk : Nat → Ieee (F.arith bz)) (lo : ℝ) {H W : Axis} (hH : AxisOK u32 H) (hW : AxisOK u32 W)
    {t : PoolLayer} (ht : PoolHasAxes t H W) (i : ℤ) (n c : Nat) :
    Scales i i (pool .nhwc (fun _ => 0) (topAcc lo) t) (pool .nhwc (fun _ => 0) (topAcc lo) t)
      (pool .nhwc junk (Acc.max (fin F bz lo)) t) (pool .nhwc junk (Acc.max (fin F bz lo)) t) [n, H.n, W.n, c] [n, H.m, W.m, c] ∧
    Scales i i (pool .nchw (fun _ => 0) (topAcc lo) t) (pool .nchw (fun _ => 0) (topAcc lo) t)
      (pool .nchw junk (Acc.max (fin F bz lo)) t) (pool .nchw junk (Acc.max (fin F bz lo)) t) [n, c, H.n, W.n] [n, c, H.m, W.m] := by
  have a := C149_pool (ρ := Sees) (fun _ => 0) junk (topAcc lo) (Acc.max (fin F bz lo)) hH hW ht _ _ (fun l _ => topAcc_run lo l)
    (fun l _ => max_run _ l) (tops_sees lo) n c
  have b := C149_pool (ρ := Scaled i) (fun _ => 0) (fun _ => 0) (topAcc (F := F) lo) (topAcc lo) hH hW ht _ _
    (fun l _ => topAcc_run lo l) (fun l _ => topAcc_run lo l) (tops_scaled lo i) n c
  exact ⟨⟨a.1, a.1, b.1⟩, ⟨a.2, a.2, b.2⟩⟩

/-- C154 (mean pooling layers). -/
theorem C154_mean_pool (junk : Nat → Ieee (F.arith bz)) {H W : Axis} (hH : AxisOK u32 H) (hW : AxisOK u32 W)
    {t : PoolLayer} (ht : PoolHasAxes t H W) (hk : H.k * W.k < 2 ^ 32) (i : ℤ) (n c : Nat) :
    Scales i i (pool .nhwc (fun _ => 0) (Acc.mean Watched.divn) t) (pool .nhwc (fun _ => 0) (Acc.mean Watched.divn) t)
      (pool .nhwc junk (Acc.mean (divCount F bz)) t) (pool .nhwc junk (Acc.mean (divCount F bz)) t)
      [n, H.n, W.n, c] [n, H.m, W.m, c] ∧
    Scales i i (pool .nchw (fun _ => 0) (Acc.mean Watched.divn) t) (pool .nchw (fun _ => 0) (Acc.mean Watched.divn) t)
      (pool .nchw junk (Acc.mean (divCount F bz)) t) (pool .nchw junk (Acc.mean (divCount F bz)) t)
      [n, c, H.n, W.n] [n, c, H.m, W.m] := by
  have a := C149_mean_pool (ρ := Sees) (ρ' := Sees) (fun _ => 0) junk Watched.divn (divCount F bz) sees_zero C154_sees.add
    (fun {a x} m h hok => by
      obtain ⟨h1, h2, h3⟩ := hok
      obtain ⟨e, l⟩ := C154_nearest h3
      rw [h h1]
      unfold divCount fin
      rw [Ieee.num_div (by exact_mod_cast h2) (by
        rintro ⟨h | h, -⟩
        · exact EReal.coe_ne_top _ h
        · exact EReal.coe_ne_bot _ h), ← EReal.coe_div]
      refine congrArg _ ((F.round_real l).trans ?_)
      rw [e]
      rfl) hH hW ht hk n c
  have b := C149_mean_pool (ρ := Scaled i) (ρ' := Scaled i) (fun _ => 0) (fun _ => 0) (Watched.divn (F := F)) Watched.divn
    (scaled_zero i) (fun {a a' b b'} h h' => by simpa using (C154_scaled (F := F) i 0).add (a := a) (a' := a') (b := b) (b' := b') (by simpa using h) (by simpa using h'))
    (fun {a b} m h => by
      show F.free (b.val / _) = _ * F.free (a.val / _)
      rw [h, mul_div_assoc, C154_free]) hH hW ht hk n c
  exact ⟨⟨a.1, a.1, b.1⟩, ⟨a.2, a.2, b.2⟩⟩

/-! ## Networks in the format -/

/-- C154: if for the inputs `X` and for the inputs `2^i X` no operation leaves the range of the format, the outputs of the second
network are exactly `2^j` times those of the first. -/
theorem C154_exact {i j : ℤ} {t t' : LayerFn (Watched F)} {g g' : LayerFn (Ieee (F.arith bz))} {ds es : List Nat}
    (h : Scales i j t t' g g' ds es) (X : List Nat → ℝ) {Y Y' : List Nat → Watched F}
    (hY : Gives t (tab ds fun l => given (X l)) (tab es Y)) (hY' : Gives t' (tab ds fun l => given (2 ^ i * X l)) (tab es Y'))
    (ok : ∀ l, Valid es l → (Y l).ok ∧ (Y' l).ok) :
    ∃ Z : List Nat → ℝ, Gives g (tab ds fun l => fin F bz (X l)) (tab es fun l => fin F bz (Z l)) ∧
      Gives g' (tab ds fun l => fin F bz (2 ^ i * X l)) (tab es fun l => fin F bz (2 ^ j * Z l)) := by
  obtain ⟨A, A', a1, a2, a3⟩ := h.first (fun l => given (X l)) (fun l => fin F bz (X l)) fun _ _ => given_sees _
  obtain ⟨B, B', b1, b2, b3⟩ := h.second (fun l => given (2 ^ i * X l)) (fun l => fin F bz (2 ^ i * X l)) fun _ _ => given_sees _
  obtain ⟨C, C', c1, c2, c3⟩ := h.both (fun l => given (X l)) (fun l => given (2 ^ i * X l)) fun _ _ => given_scaled _ _
  have e1 := tab_eq_iff.1 (hY.unique a1)
  have e2 := tab_eq_iff.1 (hY'.unique b1)
  have e3 := tab_eq_iff.1 (hY.unique c1)
  have e4 := tab_eq_iff.1 (hY'.unique c2)
  have f1 : tab es A' = tab es fun l => fin F bz (Y l).val := tab_congr fun l hl => by
    rw [a3 l hl (e1 l hl ▸ (ok l hl).1), e1 l hl]
  have f2 : tab es B' = tab es fun l => fin F bz (2 ^ j * (Y l).val) := tab_congr fun l hl => by
    rw [b3 l hl (e2 l hl ▸ (ok l hl).2), ← e2 l hl, e4 l hl, e3 l hl, c3 l hl]
  exact ⟨fun l => (Y l).val, f1 ▸ a2, f2 ▸ b2⟩

/-- C154 (classes): so the classes are the same. -/
theorem C154_class (T : IntTy) (j : ℤ) {rows k : Nat} (hk : 1 ≤ k) (Z : Nat → Nat → ℝ) {y : List Int} (hy : y.length = rows) :
    Kernels.argmax T k (tab [rows, k] (fn2 fun b l => fin F bz (2 ^ j * Z b l))).data y =
      Kernels.argmax T k (tab [rows, k] (fn2 fun b l => fin F bz (Z b l))).data y := by
  obtain ⟨a, ea, ha⟩ := C96_argmax T hk (fun b l => fin F bz (2 ^ j * Z b l)) hy
  obtain ⟨c, ec, hc⟩ := C96_argmax T hk (fun b l => fin F bz (Z b l)) hy
  rw [ea, ec]
  refine congrArg Outcome.ok (List.map_congr_left fun b hb => ?_)
  have hb' : b < rows := by simpa using hb
  obtain ⟨a1, -, a2⟩ := ha b hb'
  obtain ⟨c1, -, c2⟩ := hc b hb'
  obtain ⟨v, ev, hv⟩ := a2 (by unfold fin; intro h; cases h)
  obtain ⟨w, ew, hw⟩ := c2 (by unfold fin; intro h; cases h)
  have ev' : v = ((2 ^ j * Z b (a b) : ℝ) : EReal) := by
    unfold fin at ev
    injection ev with ev
    exact ev.symm
  have ew' : w = (Z b (c b) : EReal) := by
    unfold fin at ew
    injection ew with ew
    exact ew.symm
  subst ev' ew'
  have p := hv (c b) c1 _ rfl
  have q := hw (a b) a1 _ rfl
  simp only [EReal.coe_le_coe_iff, EReal.coe_lt_coe_iff] at p q
  have t : a b = c b := by
    rcases lt_trichotomy (a b) (c b) with h | h | h
    · exact absurd (le_of_mul_le_mul_left p.1 (two_pos j)) (not_le.2 (q.2 h))
    · exact h
    · exact absurd (lt_of_mul_lt_mul_left (p.2 h) (two_pos j).le) (not_lt.2 q.1)
  rw [t]

/-- C154 (the condition is needed): a dense layer with weight `2^(-p-1)` gives 0 for the input `2^emin`, for four times the input
it does not give 0. -/
theorem C154_underflow (junkW junkY junkB : Nat → Ieee (F.arith bz)) {act : Act (Ieee (F.arith bz))} (hact : ActsAs act id)
    {wInit bInit : Init (Ieee (F.arith bz))}
    (hw : wInit [1, 1] (fresh junkW [1, 1].prod) = .ok (tab [1, 1] (fn2 fun _ _ => fin F bz (2 ^ (-(F.p : ℤ) - 1)))).data)
    (hb : bInit [1] (fresh junkB [1].prod) = .ok (tab [1] (fn1 fun _ => fin F bz 0)).data) :
    Gives (fun x => dense junkW junkY junkB act 1 x wInit bInit) (tab [1, 1] (fn2 fun _ _ => fin F bz (2 ^ F.emin)))
      (tab [1, 1] (fn2 fun _ _ => fin F bz 0)) ∧
    Gives (fun x => dense junkW junkY junkB act 1 x wInit bInit) (tab [1, 1] (fn2 fun _ _ => fin F bz (2 ^ (2 : ℤ) * 2 ^ F.emin)))
      (tab [1, 1] (fn2 fun _ _ => fin F bz (2 * F.eta))) ∧ 2 * F.eta ≠ 2 ^ (2 : ℤ) * 0 := by
  have two : (2 : ℝ) ≠ 0 := by norm_num
  have e1 : (2 : ℝ) ^ F.emin * 2 ^ (-(F.p : ℤ) - 1) = F.eta / 2 := by
    unfold eta
    rw [← zpow_add₀ two, eq_div_iff two, ← zpow_add_one₀ two]
    congr 1
    ring
  have e2 : (2 : ℝ) ^ (2 : ℤ) * 2 ^ F.emin * 2 ^ (-(F.p : ℤ) - 1) = 2 * F.eta := by
    rw [mul_assoc, e1]
    norm_num
    ring
  have eta0 := F.eta_pos
  have n1 : F.nearest (F.eta / 2) = 0 := nearest_small (by rw [abs_of_pos (by linarith)]; linarith)
  have n2 : F.nearest (2 * F.eta) = 2 * F.eta := by
    refine F.nearest_mem ?_
    unfold eta
    rw [← zpow_one_add₀ two]
    exact F.mem_two_pow (by omega)
  have lim : |2 * F.eta| < F.limit := by
    rw [abs_of_pos (by linarith)]
    unfold eta limit
    rw [← zpow_one_add₀ two]
    refine zpow_lt_zpow_right₀ (by norm_num) ?_
    have := F.p1
    have := F.min0
    have := F.max0
    omega
  have n0 : |F.nearest 0| < F.limit := by rw [nearest_zero, abs_zero]; exact F.limit_pos
  refine ⟨.of (C77_dense (n := 1) junkW junkY junkB hact (by norm_num) (fun _ _ => _) _ _ hw hb) rfl (tab_congr fun idx hv => ?_),
    .of (C77_dense (n := 1) junkW junkY junkB hact (by norm_num) (fun _ _ => _) _ _ hw hb) rfl (tab_congr fun idx hv => ?_), by
      rw [mul_zero]
      exact (by linarith : (0 : ℝ) < 2 * F.eta).ne'⟩
  · match idx, hv with
    | [i, j], _ =>
      show (0 + fin F bz (2 ^ F.emin) * fin F bz (2 ^ (-(F.p : ℤ) - 1))) + fin F bz 0 = fin F bz 0
      rw [fin_mul (by rw [e1, n1, abs_zero]; exact F.limit_pos), e1, n1, ← fin_zero, fin_add (by rw [add_zero]; exact n0), add_zero,
        nearest_zero, fin_add (by rw [add_zero]; exact n0), add_zero, nearest_zero]
  · match idx, hv with
    | [i, j], _ =>
      show (0 + fin F bz (2 ^ (2 : ℤ) * 2 ^ F.emin) * fin F bz (2 ^ (-(F.p : ℤ) - 1))) + fin F bz 0 = fin F bz (2 * F.eta)
      rw [fin_mul (by rw [e2, n2]; exact lim), e2, n2, ← fin_zero, fin_add (by rw [zero_add, n2]; exact lim), zero_add,
        n2, fin_add (by rw [add_zero, n2]; exact lim), add_zero, n2]

/-! ## Concrete cases -/

/-- A whole number computed without leaving the range. -/
def IsInt (a : Watched binary32) (z : ℤ) : Prop := a.ok ∧ a.val = z

theorem exInt_range {z : ℤ} (h : |z| < 2 ^ 24) : binary32.InRange z ∧ binary32.free z = z := by
  have hm : binary32.nearest z = z := binary32.nearest_mem (binary32.mem_int h)
  have hz : |(z : ℝ)| < 2 ^ 24 := by exact_mod_cast h
  have r : binary32.InRange z := by
    by_cases c : z = 0
    · left
      rw [c, Int.cast_zero]
    · right
      have h1 : (1 : ℝ) ≤ |(z : ℝ)| := by exact_mod_cast Int.one_le_abs c
      refine ⟨?_, ?_⟩
      · refine le_trans ?_ h1
        show (2 : ℝ) ^ (-126 : ℤ) ≤ 1
        norm_num
      · rw [hm]
        refine hz.trans ?_
        show (2 : ℝ) ^ 24 < 2 ^ ((127 : ℤ) + 1)
        norm_num
  exact ⟨r, ((C154_nearest r).1.symm).trans hm⟩

theorem IsInt.add {a b : Watched binary32} {z w : ℤ} (h : IsInt a z) (h' : IsInt b w) (hl : |z + w| < 2 ^ 24) : IsInt (a + b) (z + w) := by
  have e : a.val + b.val = ((z + w : ℤ) : ℝ) := by rw [h.2, h'.2]; push_cast; ring
  obtain ⟨r, f⟩ := exInt_range hl
  refine ⟨⟨h.1, h'.1, ?_⟩, ?_⟩
  · show binary32.InRange (a.val + b.val)
    rwa [e]
  · show binary32.free (a.val + b.val) = _
    rwa [e]

theorem IsInt.mul {a b : Watched binary32} {z w : ℤ} (h : IsInt a z) (h' : IsInt b w) (hl : |z * w| < 2 ^ 24) : IsInt (a * b) (z * w) := by
  have e : a.val * b.val = ((z * w : ℤ) : ℝ) := by rw [h.2, h'.2]; push_cast; ring
  obtain ⟨r, f⟩ := exInt_range hl
  refine ⟨⟨h.1, h'.1, ?_⟩, ?_⟩
  · show binary32.InRange (a.val * b.val)
    rwa [e]
  · show binary32.free (a.val * b.val) = _
    rwa [e]

/-- The watched dense layer of two inputs and two outputs on whole numbers that are not large stays within the range. -/
theorem exWatched {X W : Nat → Nat → ℝ} {B : Nat → ℝ} (x w : Nat → Nat → ℤ) (b : Nat → ℤ) (eX : ∀ i j, X i j = x i j)
    (eW : ∀ i j, W i j = w i j) (eB : ∀ j, B j = b j) (hx : ∀ i < 2, ∀ j < 2, |x i j| ≤ 100) (hw : ∀ i < 2, ∀ j < 2, |w i j| ≤ 100)
    (hb : ∀ j < 2, |b j| ≤ 100) : ∃ Y : List Nat → Watched binary32,
    Gives (watchedDense Watched.relu 2 W B) (tab [2, 2] fun l => given (fn2 X l)) (tab [2, 2] Y) ∧
      ∀ l, Valid [2, 2] l → (Y l).ok := by
  obtain rfl := funext fun i => funext (eX i)
  obtain rfl := funext fun i => funext (eW i)
  obtain rfl := funext eB
  have e : (tab [2, 2] fun l => given (F := binary32) (fn2 (fun i j => (x i j : ℝ)) l)) = tab [2, 2] (fn2 fun i j => given (x i j)) :=
    tab_congr fun idx hv => by
      match idx, hv with
      | [i, l], _ => rfl
  refine ⟨_, .at e (.of (C77_dense _ _ _ (pointwise_acts _) (by norm_num) (fun i j => given (x i j)) _ _ (stores2 _ _ _ _) (stores1 _ _ _))
    rfl rfl), fun l hv => ?_⟩
  match l, hv with
  | [i, j], hv =>
    have m : ∀ {a b : ℤ}, |a| ≤ 100 → |b| ≤ 100 → |a * b| ≤ 10000 := fun h h' => by
      rw [abs_mul]
      exact (mul_le_mul h h' (abs_nonneg _) (by norm_num)).trans (by norm_num)
    have m0 := m (hx i hv.1 0 (by norm_num)) (hw 0 (by norm_num) j hv.2.1)
    have m1 := m (hx i hv.1 1 (by norm_num)) (hw 1 (by norm_num) j hv.2.1)
    have h0 : IsInt 0 0 := ⟨trivial, Int.cast_zero.symm⟩
    have h1 : IsInt (given (x i 0) * given (w 0 j)) (x i 0 * w 0 j) := IsInt.mul ⟨trivial, rfl⟩ ⟨trivial, rfl⟩ (by omega)
    have h2 : IsInt (given (x i 1) * given (w 1 j)) (x i 1 * w 1 j) := IsInt.mul ⟨trivial, rfl⟩ ⟨trivial, rfl⟩ (by omega)
    have a1 := h0.add h1 (by rw [zero_add]; omega)
    have b2 := abs_add_le (x i 0 * w 0 j) (x i 1 * w 1 j)
    have a2 := a1.add h2 (by rw [zero_add]; omega)
    have b3 := abs_add_le (x i 0 * w 0 j + x i 1 * w 1 j) (b j)
    have := hb j hv.2.1
    exact (a2.add (b := given (b j)) (w := b j) ⟨trivial, rfl⟩ (by rw [zero_add]; omega)).1

/-- A dense layer in `float`, with weights `i - 2j` and biases `3j`, and the one with biases times 8. -/
theorem exScales (x : Ieee (binary32.arith bz)) : Scales 3 (3 + 0)
    (watchedDense (F := binary32) Watched.relu 2 (fun i j => (i : ℝ) - 2 * j) fun j => 3 * (j : ℝ))
    (watchedDense Watched.relu 2 (fun i j => 2 ^ (0 : ℤ) * ((i : ℝ) - 2 * j)) fun j => 2 ^ ((3 : ℤ) + 0) * (3 * (j : ℝ)))
    (fun t => dense (fun _ => x) (fun _ => x) (fun _ => x) reluAct 2 t (exInit (fn2 fun i j => fin binary32 bz ((i : ℝ) - 2 * j)))
      (exInit (fn1 fun j => fin binary32 bz (3 * (j : ℝ)))))
    (fun t => dense (fun _ => x) (fun _ => x) (fun _ => x) reluAct 2 t
      (exInit (fn2 fun i j => fin binary32 bz (2 ^ (0 : ℤ) * ((i : ℝ) - 2 * j))))
      (exInit (fn1 fun j => fin binary32 bz (2 ^ ((3 : ℤ) + 0) * (3 * (j : ℝ)))))) [2, 2] [2, 2] :=
  C154_dense _ _ _ 3 0 C154_relu relu_acts (by norm_num) (fun i j => (i : ℝ) - 2 * j) (fun j => 3 * (j : ℝ)) rfl rfl rfl rfl 2

example (x : Ieee (binary32.arith bz)) := C154_composed (exScales x) (C154_activation (fun _ => x) C154_relu (3 + 0) [2, 2])
example (x : Ieee (binary32.arith bz)) := C154_sequential (fun _ => x) (fun _ => x) (fun _ => 3)
  [activationOf (fun _ => 0) Watched.relu, activationOf (fun _ => 0) id] [activationOf (fun _ => 0) Watched.relu, activationOf (fun _ => 0) id]
  [activationOf (fun _ => x) fun a => if 0 < a then a else 0, activationOf (fun _ => x) id]
  [activationOf (fun _ => x) fun a => if 0 < a then a else 0, activationOf (fun _ => x) id] rfl rfl rfl
  (fun _ => [2, 2]) fun l hl => by
    match l, hl with
    | 0, _ => exact C154_activation (fun _ => x) C154_relu 3 [2, 2]
    | 1, _ => exact C154_activation (fun _ => x) C154_id 3 [2, 2]
example (x : Ieee (binary32.arith bz)) := C154_conv_nhwc (fun _ => x) (fun _ => x) (fun _ => x) (fun _ => 4) (fun _ => x) 5 (-2) C154_relu
  relu_acts exL_ok exW_ok exLayer_axes (c := 3) (by decide) (fun r s k e => (r : ℝ) - s + k * e) (fun e => 9 * (e : ℝ))
  (wInit := exInit (fn4 fun r s k e => fin binary32 bz ((r : ℝ) - s + k * e))) (bInit := exInit (fn1 fun e => fin binary32 bz (9 * (e : ℝ))))
  (wInit' := exInit (fn4 fun r s k e => fin binary32 bz (2 ^ (-2 : ℤ) * ((r : ℝ) - s + k * e))))
  (bInit' := exInit (fn1 fun e => fin binary32 bz (2 ^ ((5 : ℤ) + -2) * (9 * (e : ℝ))))) rfl rfl rfl rfl 2
example (x : Ieee (binary32.arith bz)) := C154_conv_nchw (fun _ => x) (fun _ => x) (fun _ => x) (fun _ => 4) (fun _ => x) 5 (-2) C154_id
  noop_acts exL_ok exW_ok exLayer_axes (c := 3) (fun e k r s => (r : ℝ) - s + k * e) (fun e => 9 * (e : ℝ))
  (wInit := exInit (fn4 fun e k r s => fin binary32 bz ((r : ℝ) - s + k * e))) (bInit := exInit (fn1 fun e => fin binary32 bz (9 * (e : ℝ))))
  (wInit' := exInit (fn4 fun e k r s => fin binary32 bz (2 ^ (-2 : ℤ) * ((r : ℝ) - s + k * e))))
  (bInit' := exInit (fn1 fun e => fin binary32 bz (2 ^ ((5 : ℤ) + -2) * (9 * (e : ℝ))))) rfl rfl rfl rfl 2
example (x : Ieee (binary64.arith bz)) := C154_max_pool (fun _ => x) (-1000) exPadH_ok exPadW_ok exPad_axes 7 2 3
example (x : Ieee (binary64.arith bz)) := C154_mean_pool (fun _ => x) exPoolH_ok exPoolW_ok exPool_axes (by decide) (-7) 2 3
example (x : Ieee (binary32.arith bz)) := C154_underflow (fun _ => x) (fun _ => x) (fun _ => x) noop_acts
  (wInit := exInit (fn2 fun _ _ => fin binary32 bz (2 ^ (-(binary32.p : ℤ) - 1)))) (bInit := exInit (fn1 fun _ => fin binary32 bz 0)) rfl rfl
example := C154_class (F := binary32) (bz := bz) u32 (-5) (rows := 2) (k := 3) (by norm_num) (fun b l => (b : ℝ) - l) (y := [7, 8]) rfl
example := C154_nearest (exInt_range (z := 3) (by norm_num)).1

/-- Nothing leaves the range on the rows `(0, 3), (1, 4)` and on 8 times these. -/
example (x : Ieee (binary32.arith bz)) : ∃ Z : List Nat → ℝ,
    Gives (fun t => dense (fun _ => x) (fun _ => x) (fun _ => x) reluAct 2 t (exInit (fn2 fun i j => fin binary32 bz ((i : ℝ) - 2 * j)))
        (exInit (fn1 fun j => fin binary32 bz (3 * (j : ℝ)))))
      (tab [2, 2] fun l => fin binary32 bz (fn2 (fun i j => (i : ℝ) + 3 * j) l)) (tab [2, 2] fun l => fin binary32 bz (Z l)) ∧
    Gives (fun t => dense (fun _ => x) (fun _ => x) (fun _ => x) reluAct 2 t
        (exInit (fn2 fun i j => fin binary32 bz (2 ^ (0 : ℤ) * ((i : ℝ) - 2 * j))))
        (exInit (fn1 fun j => fin binary32 bz (2 ^ ((3 : ℤ) + 0) * (3 * (j : ℝ))))))
      (tab [2, 2] fun l => fin binary32 bz (2 ^ (3 : ℤ) * fn2 (fun i j => (i : ℝ) + 3 * j) l))
      (tab [2, 2] fun l => fin binary32 bz (2 ^ ((3 : ℤ) + 0) * Z l)) := by
  obtain ⟨Y, y1, y2⟩ := exWatched (X := fun i j => (i : ℝ) + 3 * j) (W := fun i j => (i : ℝ) - 2 * j) (B := fun j => 3 * (j : ℝ))
    (fun i j => i + 3 * j) (fun i j => i - 2 * j) (fun j => 3 * j) (fun i j => by push_cast; rfl) (fun i j => by push_cast; rfl)
    (fun j => by push_cast; rfl) (by decide) (by decide) (by decide)
  obtain ⟨Y', z1, z2⟩ := exWatched (X := fun i j => 2 ^ (3 : ℤ) * ((i : ℝ) + 3 * j))
    (W := fun i j => 2 ^ (0 : ℤ) * ((i : ℝ) - 2 * j)) (B := fun j => 2 ^ ((3 : ℤ) + 0) * (3 * (j : ℝ)))
    (fun i j => 8 * (i + 3 * j)) (fun i j => i - 2 * j) (fun j => 8 * (3 * j)) (fun i j => by push_cast; norm_num)
    (fun i j => by push_cast; norm_num) (fun j => by push_cast; norm_num) (by decide) (by decide) (by decide)
  have e : (tab [2, 2] fun l => given (F := binary32) (fn2 (fun i j => 2 ^ (3 : ℤ) * ((i : ℝ) + 3 * j)) l)) =
      tab [2, 2] fun l => given (2 ^ (3 : ℤ) * fn2 (fun i j => (i : ℝ) + 3 * j) l) := tab_congr fun idx hv => by
    match idx, hv with
    | [i, l], _ => rfl
  exact C154_exact (exScales x) _ y1 (e ▸ z1) fun l hl => ⟨y2 l hl, z2 l hl⟩

end StdNN
