import Verif.Props.PoolLayer
/-!
# C84-C86: ownership, fused activations, batch normalisation layers
-/
namespace StdNN
open Spec Outcome IntTy Layers
variable {R : Type}

/-! ## C84 -/

namespace Alloc
variable {α β : Type}

theorem bind_out_ok {x : Alloc α} {f : α → Alloc β} {b : β} (h : (x >>= f).out = .ok b) :
    ∃ a, x.out = .ok a ∧ (f a).out = .ok b ∧ (x >>= f).live = x.live + (f a).live := by
  obtain ⟨n, o⟩ := x
  cases o with
  | ok a => exact ⟨a, rfl, h, rfl⟩
  | throw e => exact absurd h (by rw [throw_bind]; simp)
  | ub => exact absurd (show (Outcome.ub : Outcome β) = .ok b from h) (by simp)

theorem bind_live_le {x : Alloc α} {f : α → Alloc β} {n : Int} (hf : ∀ a, 0 ≤ (f a).live) (h : n ≤ x.live) :
    n ≤ (x >>= f).live := by
  obtain ⟨k, o⟩ := x
  cases o with
  | ok a => rw [ok_bind]; have := hf a; simp only at h ⊢; omega
  | throw e => exact h
  | ub => exact h

theorem lift_live (o : Outcome α) : (lift o).live = 0 := rfl

end Alloc

namespace Layers

theorem newParameter_live (junk : Nat → R) (s : List Nat) (init : Init R) : (newParameter junk s init).live = 1 := rfl

theorem newResult_live (junk : Nat → R) (s : Outcome (List Nat)) (op : List Nat → List R → Outcome (List R)) :
    0 ≤ (newResult junk s op).live := by
  unfold newResult
  split <;> simp

theorem newResult_live_ok {junk : Nat → R} {s : Outcome (List Nat)} {op : List Nat → List R → Outcome (List R)}
    {t : Tensor R} (h : (newResult junk s op).out = .ok t) : (newResult junk s op).live = 1 := by
  unfold newResult at h ⊢
  split
  · rfl
  · simp at h
  · simp at h

end Layers

section
variable [Zero R] [Add R] [Mul R]

/-- C84 (what holds): a dense layer that returns leaves exactly the tensors owned by the returned object allocated, for any
input, initialisers and activation. -/
theorem C84_dense_owned_partial (junkW junkY junkB : Nat → R) (act : Act R) (logits : Nat) (x : Tensor R)
    (wInit bInit : Init R) {l : Layer R} (h : (dense junkW junkY junkB act logits x wInit bInit).out = .ok l) :
    (dense junkW junkY junkB act logits x wInit bInit).live = l.size := by
  unfold dense at h ⊢
  obtain ⟨a1, o1, h, e⟩ := Alloc.bind_out_ok h; rw [e]
  obtain ⟨a2, o2, h, e⟩ := Alloc.bind_out_ok h; rw [e]
  obtain ⟨a3, o3, h, e⟩ := Alloc.bind_out_ok h; rw [e]
  obtain ⟨a4, o4, h, e⟩ := Alloc.bind_out_ok h; rw [e]
  obtain ⟨a5, o5, h, e⟩ := Alloc.bind_out_ok h; rw [e]
  obtain ⟨a6, o6, h, e⟩ := Alloc.bind_out_ok h; rw [e]
  rw [Alloc.pure_eq] at h ⊢
  injection h with h
  subst h
  rw [newResult_live_ok o3]
  rfl

/-- C84 (what holds, convolution with bias). -/
theorem C84_conv_owned_partial (io : Order) (fo : FOrder) (junkW junkY junkB : Nat → R) (junkI : Nat → Int)
    (junk : Nat → R) (act : Act R) (t : ConvLayer) (x : Tensor R) (wInit bInit : Init R) {l : Layer R}
    (h : (Layers.conv io fo junkW junkY junkB junkI junk act t x wInit bInit).out = .ok l) :
    (Layers.conv io fo junkW junkY junkB junkI junk act t x wInit bInit).live = l.size := by
  unfold Layers.conv at h ⊢
  obtain ⟨a1, o1, h, e⟩ := Alloc.bind_out_ok h; rw [e]
  obtain ⟨a2, o2, h, e⟩ := Alloc.bind_out_ok h; rw [e]
  obtain ⟨a3, o3, h, e⟩ := Alloc.bind_out_ok h; rw [e]
  obtain ⟨a4, o4, h, e⟩ := Alloc.bind_out_ok h; rw [e]
  obtain ⟨a5, o5, h, e⟩ := Alloc.bind_out_ok h; rw [e]
  obtain ⟨a6, o6, h, e⟩ := Alloc.bind_out_ok h; rw [e]
  obtain ⟨a7, o7, h, e⟩ := Alloc.bind_out_ok h; rw [e]
  obtain ⟨a8, o8, h, e⟩ := Alloc.bind_out_ok h; rw [e]
  rw [Alloc.pure_eq] at h ⊢
  injection h with h
  subst h
  rw [newResult_live_ok o5]
  rfl

/-- C84 (what holds, convolution without bias). -/
theorem C84_conv_no_bias_owned_partial (io : Order) (fo : FOrder) (junkW junkY : Nat → R) (junkI : Nat → Int)
    (junk : Nat → R) (act : Act R) (t : ConvLayer) (x : Tensor R) (wInit : Init R) {l : Layer R}
    (h : (Layers.convNoBias io fo junkW junkY junkI junk act t x wInit).out = .ok l) :
    (Layers.convNoBias io fo junkW junkY junkI junk act t x wInit).live = l.size := by
  unfold Layers.convNoBias at h ⊢
  obtain ⟨a1, o1, h, e⟩ := Alloc.bind_out_ok h; rw [e]
  obtain ⟨a2, o2, h, e⟩ := Alloc.bind_out_ok h; rw [e]
  obtain ⟨a3, o3, h, e⟩ := Alloc.bind_out_ok h; rw [e]
  obtain ⟨a4, o4, h, e⟩ := Alloc.bind_out_ok h; rw [e]
  obtain ⟨a5, o5, h, e⟩ := Alloc.bind_out_ok h; rw [e]
  obtain ⟨a6, o6, h, e⟩ := Alloc.bind_out_ok h; rw [e]
  rw [Alloc.pure_eq] at h ⊢
  injection h with h
  subst h
  rw [newResult_live_ok o5]
  rfl

/-- C84 (false as stated): every exception that leaves a dense layer leaks at least one tensor. -/
theorem C84_dense_leaks (junkW junkY junkB : Nat → R) (act : Act R) (logits n m : Nat) (d : List R)
    (wInit bInit : Init R) {e : Err} (_h : (dense junkW junkY junkB act logits ⟨[n, m], d⟩ wInit bInit).out = .throw e) :
    1 ≤ (dense junkW junkY junkB act logits ⟨[n, m], d⟩ wInit bInit).live := by
  have hs : weightShape logits (⟨[n, m], d⟩ : Tensor R).dims = .ok [m, logits % 2 ^ 32] := rfl
  unfold dense
  rw [hs, Alloc.lift_ok, Alloc.ok_bind]
  refine le_of_le_of_eq ?_ (zero_add _).symm
  refine Alloc.bind_live_le (fun w => ?_) (newParameter_live _ _ _).ge
  refine Alloc.bind_live_le (fun y => ?_) (newResult_live _ _ _)
  refine Alloc.bind_live_le (fun b => ?_) (by rw [newParameter_live]; omega)
  refine Alloc.bind_live_le (fun y => ?_) (Alloc.lift_live _).ge
  exact Alloc.bind_live_le (fun y => le_refl _) (Alloc.lift_live _).ge

/-- C84 (false as stated): a bias initialiser that throws makes a dense layer leak all three tensors. -/
theorem C84_bias_init_leaks (junkW junkY junkB : Nat → R) (act : Act R) {n m k : Nat} (hk : k < 2 ^ 32) (X W : Nat → Nat → R)
    {wInit bInit : Init R} {e : Err} (hw : wInit [m, k] (fresh junkW [m, k].prod) = .ok (tab [m, k] (fn2 W)).data)
    (hb : bInit [k] (fresh junkB [k].prod) = .throw e) :
    dense junkW junkY junkB act k (tab [n, m] (fn2 X)) wInit bInit = ⟨3, .throw e⟩ := by
  have e1 : weightShape k (tab [n, m] (fn2 X)).dims = .ok [m, k] := by
    rw [tab_dims, weightShape, Nat.mod_eq_of_lt hk]
  have e2 : newParameter junkW [m, k] wInit = ⟨1, .ok (tab [m, k] (fn2 W))⟩ := newParameter_run hw
  have e3 : Ops.matmulShape [n, m] [m, k] = .ok [n, k] := by simp [Ops.matmulShape]
  have e4 := Plain.mm_run (m := n) (l := m) (n := k) (fn2 X) (fn2 W) (c := fresh junkY [n, k].prod)
    (by simp [fresh_length])
  have e5 : newResult junkY (.ok [n, k]) (fun s z => Ops.matmul s (tab [n, m] (fn2 X)) (tab [m, k] (fn2 W)) z) =
      ⟨1, .ok (tab [n, k] (fn2 fun i j => seqSum m fun l => X i l * W l j))⟩ := newResult_run e4
  have e6 : newParameter junkB (denseBiasShape k) bInit = ⟨1, .throw e⟩ := by
    rw [denseBiasShape, Nat.mod_eq_of_lt hk, newParameter, hb, Outcome.throw_bind]
  unfold dense
  rw [e1, Alloc.lift_ok, Alloc.ok_bind, e2, Alloc.ok_bind, tab_dims, tab_dims, e3, e5, Alloc.ok_bind, e6, Alloc.throw_bind]
  rfl

/-- C84 (false as stated): every exception that leaves a convolution layer after the filter shape has been found leaks at
least one tensor; in particular an image smaller than the kernel. -/
theorem C84_conv_leaks (io : Order) (fo : FOrder) (junkW junkY junkB : Nat → R) (junkI : Nat → Int)
    (junk : Nat → R) (act : Act R) (t : ConvLayer) (x : Tensor R) (wInit bInit : Init R) {ws : List Nat}
    (hs : t.filterShape io fo x.dims = .ok ws) :
    1 ≤ (Layers.conv io fo junkW junkY junkB junkI junk act t x wInit bInit).live ∧
    1 ≤ (Layers.convNoBias io fo junkW junkY junkI junk act t x wInit).live := by
  constructor
  · unfold Layers.conv
    rw [hs, Alloc.lift_ok, Alloc.ok_bind]
    refine le_of_le_of_eq ?_ (zero_add _).symm
    refine Alloc.bind_live_le (fun w => ?_) (newParameter_live _ _ _).ge
    refine Alloc.bind_live_le (fun y => ?_) (Alloc.lift_live _).ge
    refine Alloc.bind_live_le (fun y => ?_) (Alloc.lift_live _).ge
    refine Alloc.bind_live_le (fun y => ?_) (newResult_live _ _ _)
    refine Alloc.bind_live_le (fun b => ?_) (by rw [newParameter_live]; omega)
    refine Alloc.bind_live_le (fun y => ?_) (Alloc.lift_live _).ge
    exact Alloc.bind_live_le (fun y => le_refl _) (Alloc.lift_live _).ge
  · unfold Layers.convNoBias
    rw [hs, Alloc.lift_ok, Alloc.ok_bind]
    refine le_of_le_of_eq ?_ (zero_add _).symm
    refine Alloc.bind_live_le (fun w => ?_) (newParameter_live _ _ _).ge
    refine Alloc.bind_live_le (fun y => ?_) (Alloc.lift_live _).ge
    refine Alloc.bind_live_le (fun y => ?_) (Alloc.lift_live _).ge
    refine Alloc.bind_live_le (fun y => ?_) (newResult_live _ _ _)
    exact Alloc.bind_live_le (fun y => le_refl _) (Alloc.lift_live _).ge

/-- C84 (false as stated): an initialiser of the weights that throws makes a dense layer leak exactly the weights. -/
theorem C84_weight_init_leaks (junkW junkY junkB : Nat → R) (act : Act R) {n m k : Nat} (hk : k < 2 ^ 32) (d : List R)
    {wInit bInit : Init R} {e : Err} (hw : wInit [m, k] (fresh junkW [m, k].prod) = .throw e) :
    dense junkW junkY junkB act k ⟨[n, m], d⟩ wInit bInit = ⟨1, .throw e⟩ := by
  have e1 : weightShape k (⟨[n, m], d⟩ : Tensor R).dims = .ok [m, k] := by
    show Outcome.ok [m, k % 2 ^ 32] = _
    rw [Nat.mod_eq_of_lt hk]
  have e2 : newParameter junkW [m, k] wInit = ⟨1, .throw e⟩ := by rw [newParameter, hw, Outcome.throw_bind]
  unfold dense
  rw [e1, Alloc.lift_ok, Alloc.ok_bind, e2, Alloc.throw_bind]
  rfl

/-- C84 (false as stated): an initialiser of the filter that throws makes a convolution layer leak exactly the filter. -/
theorem C84_filter_init_leaks (io : Order) (fo : FOrder) (junkW junkY junkB : Nat → R) (junkI : Nat → Int)
    (junk : Nat → R) (act : Act R) (t : ConvLayer) (x : Tensor R) {wInit : Init R} (bInit : Init R) {ws : List Nat} {e : Err}
    (hs : t.filterShape io fo x.dims = .ok ws) (hw : wInit ws (fresh junkW ws.prod) = .throw e) :
    Layers.conv io fo junkW junkY junkB junkI junk act t x wInit bInit = ⟨1, .throw e⟩ ∧
    Layers.convNoBias io fo junkW junkY junkI junk act t x wInit = ⟨1, .throw e⟩ := by
  have e2 : newParameter junkW ws wInit = ⟨1, .throw e⟩ := by rw [newParameter, hw, Outcome.throw_bind]
  constructor
  · unfold Layers.conv
    rw [hs, Alloc.lift_ok, Alloc.ok_bind, e2, Alloc.throw_bind]
    rfl
  · unfold Layers.convNoBias
    rw [hs, Alloc.lift_ok, Alloc.ok_bind, e2, Alloc.throw_bind]
    rfl

/-- C84 (false as stated): an image that the padding policy or the shape function refuses makes a convolution layer leak
exactly the filter, which is allocated before the sizes are checked. -/
theorem C84_refused_image_leaks (io : Order) (fo : FOrder) (junkW junkY junkB : Nat → R) (junkI : Nat → Int)
    (junk : Nat → R) (act : Act R) (t : ConvLayer) (x : Tensor R) {wInit : Init R} (bInit : Init R) {ws : List Nat}
    {d : List R} {hw : Nat × Nat} {e : Err} (hs : t.filterShape io fo x.dims = .ok ws)
    (hd : wInit ws (fresh junkW ws.prod) = .ok d) (hi : imageShape io x.dims = .ok hw)
    (hr : (do let op ← t.opTrait hw
              op.infer io fo x.dims ws) = .throw e) :
    Layers.conv io fo junkW junkY junkB junkI junk act t x wInit bInit = ⟨1, .throw e⟩ ∧
    Layers.convNoBias io fo junkW junkY junkI junk act t x wInit = ⟨1, .throw e⟩ := by
  have e2 : newParameter junkW ws wInit = ⟨1, .ok ⟨ws, d⟩⟩ := by rw [newParameter, hd, Outcome.ok_bind]; rfl
  cases ho : t.opTrait hw with
  | ub => rw [ho, Outcome.ub_bind] at hr; exact absurd hr (by simp)
  | throw e' =>
    rw [ho, Outcome.throw_bind] at hr
    injection hr with hr
    subst hr
    constructor
    · unfold Layers.conv
      rw [hs, Alloc.lift_ok, Alloc.ok_bind, e2, Alloc.ok_bind, hi, Alloc.lift_ok, Alloc.ok_bind, ho, Alloc.lift_throw,
        Alloc.throw_bind]
      rfl
    · unfold Layers.convNoBias
      rw [hs, Alloc.lift_ok, Alloc.ok_bind, e2, Alloc.ok_bind, hi, Alloc.lift_ok, Alloc.ok_bind, ho, Alloc.lift_throw,
        Alloc.throw_bind]
      rfl
  | ok op =>
    rw [ho, Outcome.ok_bind] at hr
    have e3 : ∀ f : List Nat → List R → Outcome (List R), newResult junkY (op.infer io fo x.dims ws) f = ⟨0, .throw e⟩ := by
      intro f
      rw [hr]
      rfl
    constructor
    · unfold Layers.conv
      rw [hs, Alloc.lift_ok, Alloc.ok_bind, e2, Alloc.ok_bind, hi, Alloc.lift_ok, Alloc.ok_bind, ho, Alloc.lift_ok,
        Alloc.ok_bind, e3, Alloc.throw_bind]
      rfl
    · unfold Layers.convNoBias
      rw [hs, Alloc.lift_ok, Alloc.ok_bind, e2, Alloc.ok_bind, hi, Alloc.lift_ok, Alloc.ok_bind, ho, Alloc.lift_ok,
        Alloc.ok_bind, e3, Alloc.throw_bind]
      rfl

end

/-- C84 (what holds, pooling): the result of a pooling layer owns what stays allocated, and an exception before the output
exists leaks nothing. -/
theorem C84_pool_owned_partial (o : Order) (junk : Nat → R) (acc : Acc R) (t : PoolLayer) (x : Tensor R) :
    (∀ {l : Layer R}, (pool o junk acc t x).out = .ok l → (pool o junk acc t x).live = l.size) ∧
    (∀ {e : Err}, (do let hw ← imageShape o x.dims
                      let op ← t.opTrait hw
                      Ops.pooledShape o op x.dims) = .throw e → pool o junk acc t x = ⟨0, .throw e⟩) := by
  constructor
  · intro l h
    unfold pool at h ⊢
    obtain ⟨a1, o1, h, e⟩ := Alloc.bind_out_ok h; rw [e]
    obtain ⟨a2, o2, h, e⟩ := Alloc.bind_out_ok h; rw [e]
    obtain ⟨a3, o3, h, e⟩ := Alloc.bind_out_ok h; rw [e]
    rw [Alloc.pure_eq] at h ⊢
    injection h with h
    subst h
    rw [newResult_live_ok o3]
    rfl
  · intro e h
    unfold pool
    cases e1 : imageShape o x.dims with
    | throw e' => rw [e1, Outcome.throw_bind] at h; injection h with h; subst h; rfl
    | ub => rw [e1, Outcome.ub_bind] at h; exact absurd h (by simp)
    | ok hw =>
      rw [e1, Outcome.ok_bind] at h
      rw [Alloc.lift_ok, Alloc.ok_bind]
      cases e2 : t.opTrait hw with
      | throw e' => rw [e2, Outcome.throw_bind] at h; injection h with h; subst h; rfl
      | ub => rw [e2, Outcome.ub_bind] at h; exact absurd h (by simp)
      | ok op =>
        rw [e2, Outcome.ok_bind] at h
        rw [Alloc.lift_ok, Alloc.ok_bind, h]
        rfl

/-- Non-vacuity: a bias initialiser that throws; a 3 × 3 kernel on a 2 × 2 image; both leak. Pooling a 3 × 3 image throws
without a leak. -/
example :
    dense (fun _ => (1 : Int)) (fun _ => 2) (fun _ => 3) noopAct 2 ⟨[1, 1], [5]⟩ noopInit (fun _ _ => .throw .runtimeError) =
      ⟨3, .throw .runtimeError⟩ ∧
    Layers.conv .nhwc .rscd (fun _ => (1 : Int)) (fun _ => 2) (fun _ => 3) (fun _ => 0) (fun _ => 0) noopAct
      (ConvLayer.makeK 1 (3, 3)) ⟨[1, 2, 2, 1], [1, 2, 3, 4]⟩ noopInit noopInit = ⟨1, .throw .invalidArgument⟩ ∧
    pool .nhwc (fun _ => (0 : Int)) (Acc.max (-99)) PoolLayer.default ⟨[1, 3, 3, 1], [1, 2, 3, 4, 5, 6, 7, 8, 9]⟩ =
      ⟨0, .throw .runtimeError⟩ := by decide

/-! ## C85 -/

theorem Alloc.bind_assoc {α β γ : Type} (x : Alloc α) (f : α → Alloc β) (g : β → Alloc γ) :
    (x >>= f >>= g) = x >>= fun a => f a >>= g := by
  obtain ⟨n, o⟩ := x
  cases o with
  | ok a =>
    rw [Alloc.ok_bind, Alloc.ok_bind]
    obtain ⟨k, o⟩ := f a
    cases o with
    | ok b => rw [Alloc.ok_bind, Alloc.ok_bind]; simp only [Alloc.mk.injEq, and_true]; omega
    | throw e => rfl
    | ub => rfl
  | throw e => rfl
  | ub => rfl

/-- A dense layer is the layer without activation followed by the activation in place. -/
theorem dense_act [Zero R] [Add R] [Mul R] (junkW junkY junkB : Nat → R) (act : Act R) (logits : Nat) (x : Tensor R)
    (wInit bInit : Init R) : dense junkW junkY junkB act logits x wInit bInit =
      (dense junkW junkY junkB noopAct logits x wInit bInit >>= fun l =>
        Alloc.lift (act l.output.dims l.output.data) >>= fun m => pure ⟨⟨l.output.dims, m⟩, l.weights⟩) := by
  unfold dense
  simp only [Alloc.bind_assoc, noopAct, Alloc.lift_ok, Alloc.ok_bind, Alloc.pure_eq, zero_add]


/-- `layers::activation` of an elementwise operator. -/
def activationOf [Zero R] (junk : Nat → R) (f : R → R) (x : Tensor R) : Alloc (Layer R) :=
  activation junk (fun s x y => Ops.pointwise f s.prod (.ext x.data) 0 y) x

theorem activationOf_run [Zero R] (junk : Nat → R) (f : R → R) (t : Tensor R) (ht : t.data.length = t.dims.prod) :
    activationOf junk f t = ⟨1, .ok ⟨⟨t.dims, t.data.map f⟩, []⟩⟩ := by
  have e : newResult junk (.ok t.dims) (fun s y => Ops.pointwise f s.prod (.ext t.data) 0 y) =
      ⟨1, .ok ⟨t.dims, t.data.map f⟩⟩ := by
    refine newResult_run ?_
    have := C21_pointwise f (ext_holds t.data (fresh junk t.dims.prod) 0) (by rw [fresh_length]; omega)
    rw [ht, store_all (by simp [fresh_length, ht])] at this
    exact this
  unfold activationOf activation
  simp only [Ops.endoShape]
  rw [e, Alloc.ok_bind]
  rfl

/-- C85 (partial: elementwise activations, see `C85_softmax` for one where it fails): a dense layer with activation equals
the layer without, followed by the activation layer, for every input and every pair of initialisers that succeed. -/
theorem C85_dense_partial [Zero R] [Add R] [Mul R] (junkW junkY junkB junk : Nat → R) (f : R → R) {n m k : Nat}
    (hk : k < 2 ^ 32) (X W : Nat → Nat → R) (B : Nat → R) {wInit bInit : Init R}
    (hw : wInit [m, k] (fresh junkW [m, k].prod) = .ok (tab [m, k] (fn2 W)).data)
    (hb : bInit [k] (fresh junkB [k].prod) = .ok (tab [k] (fn1 B)).data) :
    ∃ (y z : Tensor R) (ws : List (Tensor R)),
      (dense junkW junkY junkB (pointwiseAct f) k (tab [n, m] (fn2 X)) wInit bInit).out = .ok ⟨y, ws⟩ ∧
      (dense junkW junkY junkB noopAct k (tab [n, m] (fn2 X)) wInit bInit).out = .ok ⟨z, ws⟩ ∧
      (activationOf junk f z).out = .ok ⟨y, []⟩ := by
  refine ⟨_, _, _, by rw [C77_dense junkW junkY junkB (pointwise_acts f) hk X W B hw hb],
    by rw [C77_dense junkW junkY junkB noop_acts hk X W B hw hb], ?_⟩
  rw [activationOf_run _ _ _ (by simp), tab_map]
  simp only [Outcome.ok.injEq, tab_dims, Layer.mk.injEq, and_true]
  refine mk_tab_eq fun idx hv => ?_
  match idx, hv with
  | [i, j], _ => rfl

/-- C85 (partial: elementwise activations): convolution layers, `nhwc`. -/
theorem C85_conv_nhwc_partial [Semiring R] (junkW junkY junkB : Nat → R) (junkI : Nat → Int) (junk junkA : Nat → R)
    (f : R → R) {H W : Axis} (hH : AxisOK u32 H) (hW : AxisOK u32 W) {t : ConvLayer}
    (ht : HasAxes t H W) {n c : Nat} (hsz : [H.n, W.n, c].prod ≤ 2 ^ 31) (X Y : Nat → Nat → Nat → Nat → R) (B : Nat → R)
    {wInit bInit : Init R}
    (hw : wInit [H.k, W.k, c, t.filters] (fresh junkW [H.k, W.k, c, t.filters].prod) =
      .ok (tab [H.k, W.k, c, t.filters] (fn4 Y)).data)
    (hb : bInit [t.filters] (fresh junkB [t.filters].prod) = .ok (tab [t.filters] (fn1 B)).data) :
    ∃ (y z : Tensor R) (ws : List (Tensor R)),
      (Layers.conv .nhwc .rscd junkW junkY junkB junkI junk (pointwiseAct f) t (tab [n, H.n, W.n, c] (fn4 X)) wInit
        bInit).out = .ok ⟨y, ws⟩ ∧
      (Layers.conv .nhwc .rscd junkW junkY junkB junkI junk noopAct t (tab [n, H.n, W.n, c] (fn4 X)) wInit
        bInit).out = .ok ⟨z, ws⟩ ∧
      (activationOf junkA f z).out = .ok ⟨y, []⟩ := by
  refine ⟨_, _, _, by rw [C78_conv_nhwc junkW junkY junkB junkI junk (pointwise_acts f) hH hW ht hsz X Y B hw hb],
    by rw [C78_conv_nhwc junkW junkY junkB junkI junk noop_acts hH hW ht hsz X Y B hw hb], ?_⟩
  rw [activationOf_run _ _ _ (by rw [tab_length, tab_dims]), tab_map]
  simp only [Outcome.ok.injEq, tab_dims, Layer.mk.injEq, and_true]
  refine mk_tab_eq fun idx hv => ?_
  match idx, hv with
  | [b, i, j, e], _ => rfl

/-- C85 (partial: elementwise activations): convolution layers, `nchw`. -/
theorem C85_conv_nchw_partial [CommSemiring R] (junkW junkY junkB : Nat → R) (junkI : Nat → Int) (junk junkA : Nat → R)
    (f : R → R) {H W : Axis} (hH : AxisOK u32 H) (hW : AxisOK u32 W) {t : ConvLayer}
    (ht : HasAxes t H W) {n c : Nat} (X Y : Nat → Nat → Nat → Nat → R) (B : Nat → R) {wInit bInit : Init R}
    (hw : wInit [t.filters, c, H.k, W.k] (fresh junkW [t.filters, c, H.k, W.k].prod) =
      .ok (tab [t.filters, c, H.k, W.k] (fn4 Y)).data)
    (hb : bInit [t.filters] (fresh junkB [t.filters].prod) = .ok (tab [t.filters] (fn1 B)).data) :
    ∃ (y z : Tensor R) (ws : List (Tensor R)),
      (Layers.conv .nchw .dcrs junkW junkY junkB junkI junk (pointwiseAct f) t (tab [n, c, H.n, W.n] (fn4 X)) wInit
        bInit).out = .ok ⟨y, ws⟩ ∧
      (Layers.conv .nchw .dcrs junkW junkY junkB junkI junk noopAct t (tab [n, c, H.n, W.n] (fn4 X)) wInit
        bInit).out = .ok ⟨z, ws⟩ ∧
      (activationOf junkA f z).out = .ok ⟨y, []⟩ := by
  refine ⟨_, _, _, by rw [C78_conv_nchw junkW junkY junkB junkI junk (pointwise_acts f) hH hW ht X Y B hw hb],
    by rw [C78_conv_nchw junkW junkY junkB junkI junk noop_acts hH hW ht X Y B hw hb], ?_⟩
  rw [activationOf_run _ _ _ (by rw [tab_length, tab_dims]), tab_map]
  simp only [Outcome.ok.injEq, tab_dims, Layer.mk.injEq, and_true]
  refine mk_tab_eq fun idx hv => ?_
  match idx, hv with
  | [b, i, j, e], _ => rfl

/-- C85 (false as stated): softmax as the activation of a layer is run in place and gives something else than the softmax
layer. One input, two outputs, zero weights and bias, over the reals. -/
theorem C85_softmax (junkW junkY junkB junk : Nat → ℝ) :
    (dense junkW junkY junkB (softmaxAct Real.exp 0) 2 ⟨[1, 1], [1]⟩ (fun _ _ => .ok [0, 0]) (fun _ _ => .ok [0, 0])).out =
      .ok ⟨⟨[1, 2], [1 / 2, 1 / (Real.exp (1 / 2) + 1)]⟩, [⟨[1, 2], [0, 0]⟩, ⟨[2], [0, 0]⟩]⟩ ∧
    (do let l ← dense junkW junkY junkB noopAct 2 ⟨[1, 1], [1]⟩ (fun _ _ => .ok [0, 0]) (fun _ _ => .ok [0, 0])
        let a ← activation junk (fun s x y => Ops.softmax Real.exp 0 s x.dims (.ext x.data) 0 y) l.output
        return a.output : Alloc (Tensor ℝ)).out = .ok ⟨[1, 2], [1 / 2, 1 / 2]⟩ ∧
    1 / (Real.exp (1 / 2) + 1) < (1 / 2 : ℝ) := by
  have hlt := C81_not_in_place.2.2
  have hd : ∀ act : Act ℝ, dense junkW junkY junkB act 2 ⟨[1, 1], [1]⟩ (fun _ _ => .ok [0, 0]) (fun _ _ => .ok [0, 0]) =
      (dense junkW junkY junkB noopAct 2 ⟨[1, 1], [1]⟩ (fun _ _ => .ok [0, 0]) (fun _ _ => .ok [0, 0]) >>= fun l =>
        Alloc.lift (act l.output.dims l.output.data) >>= fun m => pure ⟨⟨l.output.dims, m⟩, l.weights⟩) := fun act =>
    dense_act junkW junkY junkB act 2 _ _ _
  have h0 : dense junkW junkY junkB noopAct 2 ⟨[1, 1], [1]⟩ (fun _ _ => .ok [0, 0]) (fun _ _ => .ok [0, 0]) =
      ⟨3, .ok ⟨⟨[1, 2], [0, 0]⟩, [⟨[1, 2], [0, 0]⟩, ⟨[2], [0, 0]⟩]⟩⟩ := by
    have := C77_dense junkW junkY junkB (act := noopAct) (f := id) noop_acts (n := 1) (m := 1) (k := 2) (by norm_num)
      (fun _ _ => (1 : ℝ)) (fun _ _ => 0) (fun _ => 0) (wInit := fun _ _ => .ok [0, 0]) (bInit := fun _ _ => .ok [0, 0])
      (by simp [tab, List.range_succ, unravel]) (by simp [tab, List.range_succ, unravel])
    simpa [tab, List.range_succ, unravel, seqSum] using this
  have s1 : softmaxAct Real.exp 0 [1, 2] [0, 0] = .ok [1 / 2, 1 / (Real.exp (1 / 2) + 1)] := C81_not_in_place.1
  refine ⟨?_, ?_, hlt⟩
  · rw [hd, h0, Alloc.ok_bind, s1]
    rfl
  · rw [h0, Alloc.ok_bind]
    unfold activation
    have s2 : newResult junk (.ok [1, 2]) (fun s y => Ops.softmax Real.exp 0 s [1, 2] (.ext [0, 0]) 0 y) =
        ⟨1, .ok ⟨[1, 2], [1 / 2, 1 / 2]⟩⟩ := by
      refine newResult_run ?_
      simp [fresh, Ops.softmax, rowsOf, Kernels.softmax, Kernels.softmaxRow, forRange, List.range_succ, Src.shift, Src.rd,
        StdNN.rd, wr, stdMax, Outcome.ok_bind, Outcome.pure_eq, one_add_one_eq_two]
    simp only [Ops.endoShape]
    rw [s2]
    rfl

/-- Non-vacuity of C85: a dense layer with the square as activation. -/
example :
    (dense (fun _ => (1 : Int)) (fun _ => 2) (fun _ => 3) (pointwiseAct fun a => a * a) 2 ⟨[1, 2], [3, 4]⟩
      (fun _ _ => .ok [1, 0, 0, 2]) (fun _ _ => .ok [1, -1])).out =
        .ok ⟨⟨[1, 2], [16, 49]⟩, [⟨[2, 2], [1, 0, 0, 2]⟩, ⟨[2], [1, -1]⟩]⟩ ∧
    (activationOf (fun _ => (0 : Int)) (fun a => a * a) ⟨[1, 2], [4, 7]⟩).out = .ok ⟨⟨[1, 2], [16, 49]⟩, []⟩ := by
  decide

/-! ## C86 -/

section
variable [Zero R] [Add R] [Sub R] [Mul R] [Div R]

/-- C86 (`nhwc`): the batch normalisation layer: the four initialisers fill mean, variance, beta and gamma, each with one
entry per channel, and the output normalises with the first two, scales by gamma and shifts by beta, then activates. -/
theorem C86_bn_nhwc (sqrt : R → R) (eps : R) (junkM junkV junkB junkG junkY : Nat → R) {act : Act R} {f : R → R}
    (hact : ActsAs act f) {n h w c : Nat} (X : Nat → Nat → Nat → Nat → R) (M V β γ : Nat → R)
    {meanInit varInit betaInit gammaInit : Init R}
    (h1 : meanInit [c] (fresh junkM [c].prod) = .ok (tab [c] (fn1 M)).data)
    (h2 : varInit [c] (fresh junkV [c].prod) = .ok (tab [c] (fn1 V)).data)
    (h3 : betaInit [c] (fresh junkB [c].prod) = .ok (tab [c] (fn1 β)).data)
    (h4 : gammaInit [c] (fresh junkG [c].prod) = .ok (tab [c] (fn1 γ)).data) :
    Layers.batchNorm sqrt eps .nhwc junkM junkV junkB junkG junkY act (tab [n, h, w, c] (fn4 X)) meanInit varInit betaInit
        gammaInit =
      ⟨5, .ok ⟨tab [n, h, w, c] (fn4 fun l i j k => f ((X l i j k - M k) / (sqrt (V k) + eps) * γ k + β k)),
        [tab [c] (fn1 M), tab [c] (fn1 V), tab [c] (fn1 β), tab [c] (fn1 γ)]⟩⟩ := by
  have e0 : channelSize .nhwc (tab [n, h, w, c] (fn4 X)).dims = .ok c := rfl
  have e1 : newParameter junkM [c] meanInit = ⟨1, .ok (tab [c] (fn1 M))⟩ := newParameter_run h1
  have e2 : newParameter junkV [c] varInit = ⟨1, .ok (tab [c] (fn1 V))⟩ := newParameter_run h2
  have e3 : newParameter junkB [c] betaInit = ⟨1, .ok (tab [c] (fn1 β))⟩ := newParameter_run h3
  have e4 : newParameter junkG [c] gammaInit = ⟨1, .ok (tab [c] (fn1 γ))⟩ := newParameter_run h4
  have e5 : Ops.batchNormWithBiasShape .nhwc [n, h, w, c] [c] [c] [c] [c] = .ok [n, h, w, c] := by
    rw [(C55_shape n h w c c c c c).2.2.1]; simp
  have e6 := C55_bias_nhwc sqrt eps X M V β γ (ext_holds (tab [n, h, w, c] (fn4 X)).data (fresh junkY [n, h, w, c].prod) 0)
    (by rw [fresh_length]; omega)
  rw [store_all (by rw [fresh_length, tab_length])] at e6
  have e7 : newResult junkY (.ok [n, h, w, c]) (fun s m => Ops.batchNormWithBias sqrt eps .nhwc s [n, h, w, c]
      (.ext (tab [n, h, w, c] (fn4 X)).data) (tab [c] (fn1 M)).data (tab [c] (fn1 V)).data (tab [c] (fn1 β)).data
      (tab [c] (fn1 γ)).data 0 m) = ⟨1, .ok (tab [n, h, w, c] (fn4 fun l i j k =>
        (X l i j k - M k) / (sqrt (V k) + eps) * γ k + β k))⟩ := newResult_run e6
  unfold Layers.batchNorm
  rw [e0, Alloc.lift_ok, Alloc.ok_bind, e1, Alloc.ok_bind, e2, Alloc.ok_bind, e3, Alloc.ok_bind, e4, Alloc.ok_bind,
    tab_dims, tab_dims, tab_dims, tab_dims, tab_dims, e5, e7, Alloc.ok_bind, hact _ _ (by rw [tab_length, tab_dims]),
    Alloc.lift_ok, Alloc.ok_bind, Alloc.pure_eq, tab_map]
  simp only [Alloc.mk.injEq, Outcome.ok.injEq, Layer.mk.injEq, and_true]
  refine ⟨by omega, ?_⟩
  refine mk_tab_eq fun idx hv => ?_
  match idx, hv with
  | [b, i, j, e], _ => rfl

/-- C86 (`nchw`). -/
theorem C86_bn_nchw (sqrt : R → R) (eps : R) (junkM junkV junkB junkG junkY : Nat → R) {act : Act R} {f : R → R}
    (hact : ActsAs act f) {n c h w : Nat} (X : Nat → Nat → Nat → Nat → R) (M V β γ : Nat → R)
    {meanInit varInit betaInit gammaInit : Init R}
    (h1 : meanInit [c] (fresh junkM [c].prod) = .ok (tab [c] (fn1 M)).data)
    (h2 : varInit [c] (fresh junkV [c].prod) = .ok (tab [c] (fn1 V)).data)
    (h3 : betaInit [c] (fresh junkB [c].prod) = .ok (tab [c] (fn1 β)).data)
    (h4 : gammaInit [c] (fresh junkG [c].prod) = .ok (tab [c] (fn1 γ)).data) :
    Layers.batchNorm sqrt eps .nchw junkM junkV junkB junkG junkY act (tab [n, c, h, w] (fn4 X)) meanInit varInit betaInit
        gammaInit =
      ⟨5, .ok ⟨tab [n, c, h, w] (fn4 fun l k i j => f ((X l k i j - M k) / (sqrt (V k) + eps) * γ k + β k)),
        [tab [c] (fn1 M), tab [c] (fn1 V), tab [c] (fn1 β), tab [c] (fn1 γ)]⟩⟩ := by
  have e0 : channelSize .nchw (tab [n, c, h, w] (fn4 X)).dims = .ok c := rfl
  have e1 : newParameter junkM [c] meanInit = ⟨1, .ok (tab [c] (fn1 M))⟩ := newParameter_run h1
  have e2 : newParameter junkV [c] varInit = ⟨1, .ok (tab [c] (fn1 V))⟩ := newParameter_run h2
  have e3 : newParameter junkB [c] betaInit = ⟨1, .ok (tab [c] (fn1 β))⟩ := newParameter_run h3
  have e4 : newParameter junkG [c] gammaInit = ⟨1, .ok (tab [c] (fn1 γ))⟩ := newParameter_run h4
  have e5 : Ops.batchNormWithBiasShape .nchw [n, c, h, w] [c] [c] [c] [c] = .ok [n, c, h, w] := by
    rw [(C55_shape n c h w c c c c).2.2.2]; simp
  have e6 := C55_bias_nchw sqrt eps X M V β γ (ext_holds (tab [n, c, h, w] (fn4 X)).data (fresh junkY [n, c, h, w].prod) 0)
    (by rw [fresh_length]; omega)
  rw [store_all (by rw [fresh_length, tab_length])] at e6
  have e7 : newResult junkY (.ok [n, c, h, w]) (fun s m => Ops.batchNormWithBias sqrt eps .nchw s [n, c, h, w]
      (.ext (tab [n, c, h, w] (fn4 X)).data) (tab [c] (fn1 M)).data (tab [c] (fn1 V)).data (tab [c] (fn1 β)).data
      (tab [c] (fn1 γ)).data 0 m) = ⟨1, .ok (tab [n, c, h, w] (fn4 fun l k i j =>
        (X l k i j - M k) / (sqrt (V k) + eps) * γ k + β k))⟩ := newResult_run e6
  unfold Layers.batchNorm
  rw [e0, Alloc.lift_ok, Alloc.ok_bind, e1, Alloc.ok_bind, e2, Alloc.ok_bind, e3, Alloc.ok_bind, e4, Alloc.ok_bind,
    tab_dims, tab_dims, tab_dims, tab_dims, tab_dims, e5, e7, Alloc.ok_bind, hact _ _ (by rw [tab_length, tab_dims]),
    Alloc.lift_ok, Alloc.ok_bind, Alloc.pure_eq, tab_map]
  simp only [Alloc.mk.injEq, Outcome.ok.injEq, Layer.mk.injEq, and_true]
  refine ⟨by omega, ?_⟩
  refine mk_tab_eq fun idx hv => ?_
  match idx, hv with
  | [b, i, j, e], _ => rfl

end

/-- Non-vacuity: one image, one pixel, two channels, integer arithmetic with `sqrt` the identity and `eps = 1`. -/
example :
    Layers.batchNorm (R := Int) id 1 .nhwc (fun _ => 7) (fun _ => 7) (fun _ => 7) (fun _ => 7) (fun _ => 7) noopAct
      ⟨[1, 1, 1, 2], [10, 30]⟩ (fun _ _ => .ok [4, 6]) (fun _ _ => .ok [1, 2]) (fun _ _ => .ok [100, 200])
      (fun _ _ => .ok [5, -1]) =
    ⟨5, .ok ⟨⟨[1, 1, 1, 2], [115, 192]⟩, [⟨[2], [4, 6]⟩, ⟨[2], [1, 2]⟩, ⟨[2], [100, 200]⟩, ⟨[2], [5, -1]⟩]⟩⟩ := by decide

/-! ## Concrete cases -/

example := C84_dense_owned_partial (R := Int) (fun _ => 1) (fun _ => 2) (fun _ => 3) noopAct 1 ⟨[1, 2], [3, 4]⟩
  (fun _ _ => .ok [1, 2]) (fun _ _ => .ok [5]) (l := ⟨⟨[1, 1], [16]⟩, [⟨[2, 1], [1, 2]⟩, ⟨[1], [5]⟩]⟩) (by decide)
example := C84_conv_owned_partial (R := Int) .nhwc .rscd (fun _ => 1) (fun _ => 2) (fun _ => 3) (fun _ => 0) (fun _ => 0)
  noopAct (ConvLayer.makeK 1 (1, 2)) ⟨[1, 1, 3, 1], [1, 2, 3]⟩ (fun _ _ => .ok [10, 1]) (fun _ _ => .ok [5])
  (l := ⟨⟨[1, 1, 2, 1], [17, 28]⟩, [⟨[1, 2, 1, 1], [10, 1]⟩, ⟨[1], [5]⟩]⟩) (by decide)
example := C84_conv_no_bias_owned_partial (R := Int) .nhwc .rscd (fun _ => 1) (fun _ => 2) (fun _ => 0) (fun _ => 0)
  noopAct (ConvLayer.makeK 1 (1, 2)) ⟨[1, 1, 3, 1], [1, 2, 3]⟩ (fun _ _ => .ok [10, 1])
  (l := ⟨⟨[1, 1, 2, 1], [12, 23]⟩, [⟨[1, 2, 1, 1], [10, 1]⟩]⟩) (by decide)
example := C84_dense_leaks (R := Int) (fun _ => 1) (fun _ => 2) (fun _ => 3) noopAct 1 1 2 [3, 4]
  (fun _ _ => .throw .runtimeError) (fun _ _ => .ok [5]) (e := .runtimeError) (by decide)
example := C84_bias_init_leaks (R := Int) (fun _ => 1) (fun _ => 2) (fun _ => 3) noopAct (n := 2) (m := 3) (k := 2)
  (by decide) (fun i l => i - 4 * l) (fun l j => l + j) (wInit := exInit (fn2 fun l j => l + j))
  (bInit := fun _ _ => .throw .runtimeError) rfl rfl
example := C84_weight_init_leaks (R := Int) (fun _ => 1) (fun _ => 2) (fun _ => 3) noopAct (n := 2) (m := 3) (k := 2)
  (by decide) [1, 2, 3, 4, 5, 6] (wInit := fun _ _ => .throw .runtimeError) (bInit := fun _ _ => .ok [5, 6]) rfl
example := C84_filter_init_leaks (R := Int) .nhwc .rscd (fun _ => 1) (fun _ => 2) (fun _ => 3) (fun _ => 0) (fun _ => 0)
  noopAct (ConvLayer.makeK 1 (1, 2)) ⟨[1, 1, 3, 1], [1, 2, 3]⟩ (wInit := fun _ _ => .throw .runtimeError)
  (fun _ _ => .ok [5]) (ws := [1, 2, 1, 1]) (e := .runtimeError) (by decide) rfl
/-- A kernel wider than the image, with a fixed padding of 0: refused by the shape function. -/
example := C84_refused_image_leaks (R := Int) .nhwc .rscd (fun _ => 1) (fun _ => 2) (fun _ => 3) (fun _ => 0) (fun _ => 0)
  noopAct (ConvLayer.makeP 1 (1, 4) (Sample.paddingFixed ⟨0, 0⟩)) ⟨[1, 1, 3, 1], [1, 2, 3]⟩
  (wInit := fun _ _ => .ok [1, 2, 3, 4]) (fun _ _ => .ok [5]) (ws := [1, 4, 1, 1]) (d := [1, 2, 3, 4]) (hw := (1, 3))
  (e := .invalidArgument) (by decide) rfl (by decide) (by decide)
example := C84_conv_leaks (R := Int) .nhwc .rscd (fun _ => 1) (fun _ => 2) (fun _ => 3) (fun _ => 0) (fun _ => 0)
  noopAct (ConvLayer.makeK 1 (1, 2)) ⟨[1, 1, 3, 1], [1, 2, 3]⟩ (fun _ _ => .throw .runtimeError) (fun _ _ => .ok [5])
  (ws := [1, 2, 1, 1]) (by decide)
example := C85_dense_partial (R := Int) (fun _ => 1) (fun _ => 2) (fun _ => 3) (fun _ => 4) (fun a => a * a) (n := 2) (m := 3)
  (k := 2) (by decide) (fun i l => i - 4 * l) (fun l j => l + j) (fun j => 7 - j) (wInit := exInit (fn2 fun l j => l + j))
  (bInit := exInit (fn1 fun j => 7 - j)) rfl rfl
example := C85_conv_nhwc_partial (R := Int) (fun _ => 1) (fun _ => 2) (fun _ => 3) (fun _ => 4) (fun _ => 5) (fun _ => 6)
  (fun a => a * a) exL_ok exW_ok exLayer_axes (n := 2) (c := 3) (by decide) (fun b p q k => b + p - q * k)
  (fun r s k e => r - s + k * e) (fun e => 9 * e)
  (wInit := exInit (fn4 fun r s k e => r - s + k * e)) (bInit := exInit (fn1 fun e => 9 * e)) rfl rfl
example := C85_conv_nchw_partial (R := Int) (fun _ => 1) (fun _ => 2) (fun _ => 3) (fun _ => 4) (fun _ => 5) (fun _ => 6)
  (fun a => a * a) exL_ok exW_ok exLayer_axes (n := 2) (c := 3) (fun b k p q => b + p - q * k)
  (fun e k r s => r - s + k * e) (fun e => 9 * e)
  (wInit := exInit (fn4 fun e k r s => r - s + k * e)) (bInit := exInit (fn1 fun e => 9 * e)) rfl rfl
example := C86_bn_nhwc (R := ℚ) id (1 / 8) (fun _ => 1) (fun _ => 2) (fun _ => 3) (fun _ => 4) (fun _ => 5) relu_acts
  (n := 2) (h := 2) (w := 3) (c := 2) (fun b i j k => b + i - j * k) (fun k => k) (fun k => 1 + k) (fun k => 2 - k)
  (fun k => 3 * k) (meanInit := exInit (fn1 fun k => k)) (varInit := exInit (fn1 fun k => 1 + k))
  (betaInit := exInit (fn1 fun k => 2 - k)) (gammaInit := exInit (fn1 fun k => 3 * k)) rfl rfl rfl rfl
example := C86_bn_nchw (R := ℚ) id (1 / 8) (fun _ => 1) (fun _ => 2) (fun _ => 3) (fun _ => 4) (fun _ => 5) relu_acts
  (n := 2) (h := 2) (w := 3) (c := 2) (fun b k i j => b + i - j * k) (fun k => k) (fun k => 1 + k) (fun k => 2 - k)
  (fun k => 3 * k) (meanInit := exInit (fn1 fun k => k)) (varInit := exInit (fn1 fun k => 1 + k))
  (betaInit := exInit (fn1 fun k => 2 - k)) (gammaInit := exInit (fn1 fun k => 3 * k)) rfl rfl rfl rfl

end StdNN
