import Verif.Props.Locality
import Verif.Props.Batch
/-!
# C142: networks without dense layers evaluate every patch of an image

A network of convolution, pooling, normalisation and activation layers without padding, run on a large image, computes at each
place what it computes for the patch of the image seen from that place. Extent and distance of the patches are given by the usual
formulas for the receptive field.
-/
namespace StdNN
open IntTy Spec Outcome Layers Models
variable {R : Type} [Zero R]

/-- A batch of images of either layout. -/
def img (nchw : Bool) (n h w c : Nat) (X : Nat → Nat → Nat → Nat → R) : Tensor R :=
  if nchw then tab [n, c, h, w] (fn4 fun b k i j => X b i j k) else tab [n, h, w, c] (fn4 X)

/-- The number of pixels seen by `m` neighbouring windows of extent `k` at distance `s`. -/
def span (k s m : Nat) : Nat := (m - 1) * s + k

/-- On every image of at most `B` pixels that is tiled by windows of `kh x kw` pixels at distances `sh`, `sw`, the layer has one
result per window: what it computes for the window alone. -/
def Patchwise (nchw : Bool) (f : LayerFn R) (B kh sh kw sw c d : Nat) : Prop :=
  ∀ (n m m' : Nat) (X : Nat → Nat → Nat → Nat → R), 1 ≤ m → 1 ≤ m' → span kh sh m * span kw sw m' ≤ B →
    ∃ Z : Nat → Nat → Nat → Nat → R,
      Gives f (img nchw n (span kh sh m) (span kw sw m') c X) (img nchw n m m' d Z) ∧
      ∀ i < m, ∀ j < m', Gives f (img nchw n kh kw c fun b u v k => X b (i * sh + u) (j * sw + v) k)
        (img nchw n 1 1 d fun b _ _ e => Z b i j e)

theorem img_congr {nchw : Bool} {n h w c : Nat} {X Y : Nat → Nat → Nat → Nat → R}
    (hX : ∀ b < n, ∀ i < h, ∀ j < w, ∀ k < c, X b i j k = Y b i j k) : img nchw n h w c X = img nchw n h w c Y := by
  unfold img
  cases nchw
  · exact tab_congr fun idx hv => by
      match idx, hv with
      | [b, i, j, k], hv => exact hX b hv.1 i hv.2.1 j hv.2.2.1 k hv.2.2.2.1
  · exact tab_congr fun idx hv => by
      match idx, hv with
      | [b, k, i, j], hv => exact hX b hv.1 i hv.2.2.1 j hv.2.2.2.1 k hv.2.1

theorem img_inj {nchw : Bool} {n h w c : Nat} {X Y : Nat → Nat → Nat → Nat → R} (e : img nchw n h w c X = img nchw n h w c Y)
    {b i j k : Nat} (hb : b < n) (hi : i < h) (hj : j < w) (hk : k < c) : X b i j k = Y b i j k := by
  unfold img at e
  cases nchw
  · have v : Valid [n, h, w, c] [b, i, j, k] := ⟨hb, hi, hj, hk, trivial⟩
    have e1 : (tab [n, h, w, c] (fn4 X)).data[offset [n, h, w, c] [b, i, j, k]]? = (tab [n, h, w, c] (fn4 Y)).data[_]? :=
      congrArg (fun t : Tensor R => t.data[offset [n, h, w, c] [b, i, j, k]]?) e
    rw [tab_getElem? _ v, tab_getElem? _ v] at e1
    exact Option.some.inj e1
  · have v : Valid [n, c, h, w] [b, k, i, j] := ⟨hb, hk, hi, hj, trivial⟩
    have e1 : (tab [n, c, h, w] (fn4 fun b k i j => X b i j k)).data[offset [n, c, h, w] [b, k, i, j]]? =
        (tab [n, c, h, w] (fn4 fun b k i j => Y b i j k)).data[_]? :=
      congrArg (fun t : Tensor R => t.data[offset [n, c, h, w] [b, k, i, j]]?) e
    rw [tab_getElem? _ v, tab_getElem? _ v] at e1
    exact Option.some.inj e1

theorem span_span {k s k' s' : Nat} (m : Nat) (hk : 1 ≤ k') : span (span k s k') (s' * s) m = span k s (span k' s' m) := by
  unfold span
  have : (m - 1) * s' + k' - 1 = (m - 1) * s' + (k' - 1) := by omega
  rw [this, Nat.add_mul, Nat.mul_assoc]
  omega

theorem le_span {k s m : Nat} (hk : 1 ≤ k) (hs : 1 ≤ s) : m ≤ span k s m := by
  unfold span
  have : (m - 1) * 1 ≤ (m - 1) * s := Nat.mul_le_mul_left _ hs
  omega

theorem span_mono {k s m m' : Nat} (h : m ≤ m') : span k s m ≤ span k s m' :=
  Nat.add_le_add_right (Nat.mul_le_mul_right _ (by omega)) _

theorem span_one (k s : Nat) : span k s 1 = k := by unfold span; omega

/-- C142 (two layers): the extent of the second counts in windows of the first, the distances multiply. -/
theorem C142_composed {nchw : Bool} {f g : LayerFn R} {B kh sh kw sw c d kh' sh' kw' sw' e : Nat} (k1 : 1 ≤ kh) (s1 : 1 ≤ sh)
    (k2 : 1 ≤ kw) (s2 : 1 ≤ sw) (k3 : 1 ≤ kh') (k4 : 1 ≤ kw') (hf : Patchwise nchw f B kh sh kw sw c d)
    (hg : Patchwise nchw g B kh' sh' kw' sw' d e) :
    Patchwise nchw (composed f g) B (span kh sh kh') (sh' * sh) (span kw sw kw') (sw' * sw) c e := by
  intro n m m' X hm hm' hB
  rw [span_span m k3, span_span m' k4] at *
  have p1 : 1 ≤ span kh' sh' m := by unfold span; omega
  have p2 : 1 ≤ span kw' sw' m' := by unfold span; omega
  obtain ⟨Z, f1, f2⟩ := hf n _ _ X p1 p2 hB
  obtain ⟨V, g1, g2⟩ := hg n m m' Z hm hm' (le_trans (Nat.mul_le_mul (le_span k1 s1) (le_span k2 s2)) hB)
  refine ⟨V, f1.comp g1, fun i hi j hj => Gives.comp ?_ (g2 i hi j hj)⟩
  have q1 : kh' ≤ span kh' sh' m := by unfold span; omega
  have q2 : kw' ≤ span kw' sw' m' := by unfold span; omega
  obtain ⟨Z', f3, f4⟩ := hf n kh' kw' (fun b u v k => X b (i * (sh' * sh) + u) (j * (sw' * sw) + v) k) k3 k4
    (le_trans (Nat.mul_le_mul (span_mono q1) (span_mono q2)) hB)
  have e : img nchw n kh' kw' d Z' = img nchw n kh' kw' d fun b u v k => Z b (i * sh' + u) (j * sw' + v) k := by
    refine img_congr fun b hb u hu v hv k hk => ?_
    have r1 : i * sh' + u < span kh' sh' m := by
      have : i * sh' ≤ (m - 1) * sh' := Nat.mul_le_mul_right _ (by omega)
      unfold span; omega
    have r2 : j * sw' + v < span kw' sw' m' := by
      have : j * sw' ≤ (m' - 1) * sw' := Nat.mul_le_mul_right _ (by omega)
      unfold span; omega
    have h1 := f4 u hu v hv
    have h2 := f2 _ r1 _ r2
    have h3 : (fun b' u' v' k' => X b' (i * (sh' * sh) + (u * sh + u')) (j * (sw' * sw) + (v * sw + v')) k') =
        fun b' u' v' k' => X b' ((i * sh' + u) * sh + u') ((j * sw' + v) * sw + v') k' := by
      funext b' u' v' k'
      rw [Nat.add_mul, Nat.add_mul, Nat.mul_assoc, Nat.mul_assoc, Nat.add_assoc, Nat.add_assoc]
    rw [h3] at h1
    exact img_inj (h1.unique h2) hb Nat.one_pos Nat.one_pos hk
  rw [← e]
  exact f3

theorem identity_patchwise (nchw : Bool) (junk : Nat → R) (B c : Nat) :
    Patchwise nchw (Layers.identity junk) B 1 1 1 1 c c := by
  intro n m m' X hm hm' hB
  have h1 : span 1 1 m = m := by unfold span; omega
  have h2 : span 1 1 m' = m' := by unfold span; omega
  rw [h1, h2]
  have w : ∀ h w Y, (img nchw n h w c Y : Tensor R).WF := fun h w Y => by
    unfold img; cases nchw <;> exact tab_length ..
  refine ⟨X, ⟨[], identity_run junk (w ..)⟩, fun i _ j _ => ?_⟩
  have e : (img nchw n 1 1 c fun b u v k => X b (i * 1 + u) (j * 1 + v) k) = img nchw n 1 1 c fun b _ _ e => X b i j e :=
    img_congr fun b _ u hu v hv k _ => by
      obtain rfl : u = 0 := by omega
      obtain rfl : v = 0 := by omega
      simp
  rw [e]
  exact ⟨[], identity_run junk (w ..)⟩

/-- Distance of the patches seen from neighbouring results after `L` layers with strides `s`. -/
def fieldStep (s : Nat → Nat) (L : Nat) : Nat := ∏ j ∈ Finset.range L, s j

/-- Extent of the patch seen from one result after `L` layers with extents `k` and strides `s`. -/
def fieldSize (k s : Nat → Nat) (L : Nat) : Nat := 1 + ∑ i ∈ Finset.range L, (k i - 1) * ∏ j ∈ Finset.range i, s j

/-- C142 (networks): the receptive field of a sequential model. -/
theorem C142_sequential {nchw : Bool} (junk : Nat → R) {B : Nat} (ls : List (LayerFn R)) (kh sh kw sw c : Nat → Nat)
    (h1 : ∀ i < ls.length, 1 ≤ kh i ∧ 1 ≤ sh i ∧ 1 ≤ kw i ∧ 1 ≤ sw i)
    (h : ∀ i (hi : i < ls.length), Patchwise nchw ls[i] B (kh i) (sh i) (kw i) (sw i) (c i) (c (i + 1))) :
    Patchwise nchw (sequential junk ls) B (fieldSize kh sh ls.length) (fieldStep sh ls.length) (fieldSize kw sw ls.length)
      (fieldStep sw ls.length) (c 0) (c ls.length) := by
  induction ls using List.reverseRecOn with
  | nil => exact identity_patchwise nchw junk B _
  | append_singleton ls l ih =>
    rw [sequential_snoc]
    have hl := h ls.length (by simp)
    simp only [List.getElem_append_right (le_refl _), Nat.sub_self, List.getElem_cons_zero] at hl
    have hr := ih (fun i hi => h1 i (by simp; omega)) fun i hi => by
      have := h i (by simp; omega)
      rwa [List.getElem_append_left hi] at this
    obtain ⟨a1, a2, a3, a4⟩ := h1 ls.length (by simp)
    have st : ∀ s : Nat → Nat, (∀ i < ls.length, 1 ≤ s i) → 1 ≤ fieldStep s ls.length := fun s hs =>
      Finset.prod_pos (s := Finset.range ls.length) (f := s) fun j hj => hs j (Finset.mem_range.1 hj)
    have := C142_composed (by unfold fieldSize; omega) (st _ fun i hi => (h1 i (by simp; omega)).2.1) (by unfold fieldSize; omega)
      (st _ fun i hi => (h1 i (by simp; omega)).2.2.2) a1 a3 hr hl
    have e1 : ∀ k s : Nat → Nat, 1 ≤ k ls.length →
        span (fieldSize k s ls.length) (fieldStep s ls.length) (k ls.length) = fieldSize k s (ls.length + 1) := fun k s _ => by
      unfold span fieldSize fieldStep
      rw [Finset.sum_range_succ]
      omega
    have e2 : ∀ s : Nat → Nat, s ls.length * fieldStep s ls.length = fieldStep s (ls.length + 1) := fun s => by
      unfold fieldStep
      rw [Finset.prod_range_succ, Nat.mul_comm]
    rw [e1 _ _ a1, e1 _ _ a3, e2, e2] at this
    simpa using this

/-! ## The layers -/

/-- The axis of `m` windows without padding. -/
def bare (k s r m : Nat) : Axis := ⟨k, s, r, 0, 0, span (patch k r) s m, m⟩

theorem bare_ok {k s r m : Nat} (k1 : 1 ≤ k) (s1 : 1 ≤ s) (r1 : 1 ≤ r) (hs : s < 2 ^ 32) (hr : r < 2 ^ 32) (m1 : 1 ≤ m)
    (h : span (patch k r) s m < 2 ^ 32) : AxisOK u32 (bare k s r m) := by
  have hp : patch k r ≤ span (patch k r) s m := by unfold span; omega
  have hk : k ≤ patch k r := by
    have : (k - 1) * 1 ≤ (k - 1) * r := Nat.mul_le_mul_left _ r1
    unfold patch
    omega
  have inn : ∀ x : Nat, x < 2 ^ 32 → u32.In x := fun x hx => by
    constructor
    · exact Int.natCast_nonneg x
    · have : u32.hi = 2 ^ 32 := by decide
      omega
  refine ⟨⟨by decide, by decide, k1, s1, r1, inn _ ?_, inn _ hs, inn _ hr, inn 0 (by decide), inn 0 (by decide), inn _ ?_, inn _ ?_,
    inn _ ?_, inn _ ?_⟩, m1, ?_⟩
  all_goals simp only [bare]
  all_goals first | omega | skip
  all_goals (unfold span; omega)

theorem bare_part {k s r m i : Nat} (hi : i < m) : PartOf (bare k s r m) (bare k s r 1) i (i * s) := by
  refine ⟨rfl, rfl, rfl, rfl, rfl, rfl, ?_⟩
  have : i * s ≤ (m - 1) * s := Nat.mul_le_mul_right _ (by omega)
  simp only [bare, span]
  omega

/-- The padding policy adds nothing to images of at most `B` pixels per side that the windows tile. -/
def NoPad (p : Sample.Policy) (k s r B : Nat) : Prop :=
  ∀ m : Nat, 1 ≤ m → span (patch k r) s m ≤ B → p k s r (span (patch k r) s m : Nat) = .ok ⟨0, 0⟩

theorem noPad_fixed (k s r B : Nat) : NoPad (Sample.paddingFixed ⟨0, 0⟩) k s r B := fun _ _ _ => rfl

theorem u32_in {x : Nat} (hx : x < 2 ^ 32) : u32.In x := by
  constructor
  · exact Int.natCast_nonneg x
  · have : u32.hi = 2 ^ 32 := by decide
    omega

/-- The policy `valid` adds only what is missing. -/
theorem noPad_valid {k s r B : Nat} (k1 : 1 ≤ k) (s1 : 1 ≤ s) (r1 : 1 ≤ r) (hk : k < 2 ^ 32) (hs : s < 2 ^ 32) (hr : r < 2 ^ 32)
    (hB : B < 2 ^ 32) (h : patch k r + s < 2 ^ 32) : NoPad (Sample.paddingValid u32) k s r B := by
  intro m m1 hm
  obtain ⟨p, e, -, -, least⟩ := C04_valid_padding_least (N := u32) (by decide) k1 s1 r1 (u32_in hk) (u32_in hs) (u32_in hr)
    (u32_in (lt_of_le_of_lt hm hB)) (u32_in h)
  have : p ≤ 0 := least 0 ⟨((m - 1 : Nat) : Int), by unfold span; push_cast; ring⟩
  obtain rfl : p = 0 := by omega
  exact e

variable [Add R] [Mul R]

/-- C142 (convolution layers, nhwc), with any pointwise activation. -/
theorem C142_conv_nhwc (junkW junkY junkB : Nat → R) (junkI : Nat → Int) (junk : Nat → R) {act : Act R} {f : R → R}
    (hact : ActsAs act f) {t : ConvLayer} {kh kw sh sw rh rw B c : Nat} (hk : t.ksize = (kh, kw)) (hs : t.stride = (sh, sw))
    (hr : t.rate = (rh, rw)) (k1 : 1 ≤ kh) (k2 : 1 ≤ kw) (s1 : 1 ≤ sh) (s2 : 1 ≤ sw) (r1 : 1 ≤ rh) (r2 : 1 ≤ rw)
    (s3 : sh < 2 ^ 32) (s4 : sw < 2 ^ 32) (r3 : rh < 2 ^ 32) (r4 : rw < 2 ^ 32)
    (pH : NoPad t.padding kh sh rh B) (pW : NoPad t.padding kw sw rw B) (hB : B < 2 ^ 32) (hc : B * c ≤ 2 ^ 31)
    (Y : Nat → Nat → Nat → Nat → R) (Bi : Nat → R) {wInit bInit : Init R}
    (hw : wInit [kh, kw, c, t.filters] (fresh junkW [kh, kw, c, t.filters].prod) = .ok (tab [kh, kw, c, t.filters] (fn4 Y)).data)
    (hb : bInit [t.filters] (fresh junkB [t.filters].prod) = .ok (tab [t.filters] (fn1 Bi)).data) :
    Patchwise false (fun x => Layers.conv .nhwc .rscd junkW junkY junkB junkI junk act t x wInit bInit) B (patch kh rh) sh (patch kw rw)
      sw c t.filters := by
  intro n m m' X hm hm' hsize
  have p1 : 1 ≤ patch kh rh := by unfold patch; omega
  have p2 : 1 ≤ patch kw rw := by unfold patch; omega
  have run : ∀ (q q' : Nat) (V : Nat → Nat → Nat → Nat → R), 1 ≤ q → 1 ≤ q' → span (patch kh rh) sh q * span (patch kw rw) sw q' ≤ B →
      Gives (fun x => Layers.conv .nhwc .rscd junkW junkY junkB junkI junk act t x wInit bInit)
        (img false n (span (patch kh rh) sh q) (span (patch kw rw) sw q') c V)
        (img false n q q' t.filters fun b i j e => f ((seqSum (kh * (kw * c)) fun p =>
          window (bare kh sh rh q) (bare kw sw rw q') (fun a a' => V b a a' (p % (kw * c) % c)) i j (p / (kw * c))
            (p % (kw * c) / c) * Y (p / (kw * c)) (p % (kw * c) / c) (p % (kw * c) % c) e) + Bi e)) := by
    intro q q' V hq hq' hsz
    have l1 : span (patch kh rh) sh q ≤ B := le_trans (Nat.le_mul_of_pos_right _ (by unfold span; omega)) hsz
    have l2 : span (patch kw rw) sw q' ≤ B := le_trans (Nat.le_mul_of_pos_left _ (by unfold span; omega)) hsz
    have oH := bare_ok k1 s1 r1 s3 r3 hq (lt_of_le_of_lt l1 hB)
    have oW := bare_ok k2 s2 r2 s4 r4 hq' (lt_of_le_of_lt l2 hB)
    have ht : HasAxes t (bare kh sh rh q) (bare kw sw rw q') := ⟨hk, hs, hr, pH q hq l1, pW q' hq' l2⟩
    refine .of (conv_layer_nhwc junkW junkY junkB junkI junk hact oH oW ht (n := n) (c := c) V Y _ Bi
      (fun z hz => C91_conv_order oH oW ?_ _ Y junkI junk hz) hw hb) rfl rfl
    refine le_trans ?_ hc
    simp only [List.prod_cons, List.prod_nil, Nat.mul_one, ← Nat.mul_assoc]
    exact Nat.mul_le_mul_right _ hsz
  refine ⟨_, run m m' X hm hm' hsize, fun i hi j hj => ?_⟩
  have small := run 1 1 (fun b u v k => X b (i * sh + u) (j * sw + v) k) le_rfl le_rfl
    (le_trans (Nat.mul_le_mul (span_mono hm) (span_mono hm')) hsize)
  rw [span_one, span_one] at small
  refine Eq.mp (congrArg (Gives _ _) (img_congr fun b _ u hu v hv e _ => ?_)) small
  obtain rfl : u = 0 := by omega
  obtain rfl : v = 0 := by omega
  refine congrArg (fun x => f (x + Bi e)) (seqSum_congr fun p hp => ?_)
  have l1 : span (patch kh rh) sh 1 * span (patch kw rw) sw 1 ≤ B :=
    le_trans (Nat.mul_le_mul (span_mono hm) (span_mono hm')) hsize
  have l2 : span (patch kh rh) sh 1 ≤ B := le_trans (Nat.le_mul_of_pos_right _ (by unfold span; omega)) l1
  have l3 : span (patch kw rw) sw 1 ≤ B := le_trans (Nat.le_mul_of_pos_left _ (by unfold span; omega)) l1
  have hc : 0 < kw * c := Nat.pos_of_ne_zero fun h0 => by rw [h0] at hp; omega
  have h1 : p / (kw * c) < kh := Nat.div_lt_of_lt_mul (by rw [Nat.mul_comm]; exact hp)
  have h2 : p % (kw * c) / c < kw := Nat.div_lt_of_lt_mul (by rw [Nat.mul_comm c]; exact Nat.mod_lt _ hc)
  have e := (bare_part (k := kh) (s := sh) (r := rh) hi).window (N := u32) (bare_ok k1 s1 r1 s3 r3 le_rfl (lt_of_le_of_lt l2 hB))
    (bare_ok k2 s2 r2 s4 r4 le_rfl (lt_of_le_of_lt l3 hB)) (bare_part (k := kw) (s := sw) (r := rw) hj)
    (fun a a' => X b a a' (p % (kw * c) % c)) Nat.one_pos Nat.one_pos h1 h2
  rw [e]
  rfl

/-- C142 (convolution layers, nchw), with any pointwise activation. -/
theorem C142_conv_nchw (junkW junkY junkB : Nat → R) (junkI : Nat → Int) (junk : Nat → R) {act : Act R} {f : R → R}
    (hact : ActsAs act f) {t : ConvLayer} {kh kw sh sw rh rw B c : Nat} (hk : t.ksize = (kh, kw)) (hs : t.stride = (sh, sw))
    (hr : t.rate = (rh, rw)) (k1 : 1 ≤ kh) (k2 : 1 ≤ kw) (s1 : 1 ≤ sh) (s2 : 1 ≤ sw) (r1 : 1 ≤ rh) (r2 : 1 ≤ rw)
    (s3 : sh < 2 ^ 32) (s4 : sw < 2 ^ 32) (r3 : rh < 2 ^ 32) (r4 : rw < 2 ^ 32)
    (pH : NoPad t.padding kh sh rh B) (pW : NoPad t.padding kw sw rw B) (hB : B < 2 ^ 32)
    (Y : Nat → Nat → Nat → Nat → R) (Bi : Nat → R) {wInit bInit : Init R}
    (hw : wInit [t.filters, c, kh, kw] (fresh junkW [t.filters, c, kh, kw].prod) = .ok (tab [t.filters, c, kh, kw] (fn4 Y)).data)
    (hb : bInit [t.filters] (fresh junkB [t.filters].prod) = .ok (tab [t.filters] (fn1 Bi)).data) :
    Patchwise true (fun x => Layers.conv .nchw .dcrs junkW junkY junkB junkI junk act t x wInit bInit) B (patch kh rh) sh (patch kw rw)
      sw c t.filters := by
  intro n m m' X hm hm' hsize
  have p1 : 1 ≤ patch kh rh := by unfold patch; omega
  have p2 : 1 ≤ patch kw rw := by unfold patch; omega
  have run : ∀ (q q' : Nat) (V : Nat → Nat → Nat → Nat → R), 1 ≤ q → 1 ≤ q' → span (patch kh rh) sh q * span (patch kw rw) sw q' ≤ B →
      Gives (fun x => Layers.conv .nchw .dcrs junkW junkY junkB junkI junk act t x wInit bInit)
        (img true n (span (patch kh rh) sh q) (span (patch kw rw) sw q') c V)
        (img true n q q' t.filters fun b i j e => f ((seqSum (c * (kh * kw)) fun p =>
          Y e (p / (kh * kw)) (p % (kh * kw) / kw) (p % (kh * kw) % kw) *
            window (bare kh sh rh q) (bare kw sw rw q') (fun a a' => V b a a' (p / (kh * kw))) i j (p % (kh * kw) / kw)
              (p % (kh * kw) % kw)) + Bi e)) := by
    intro q q' V hq hq' hsz
    have l1 : span (patch kh rh) sh q ≤ B := le_trans (Nat.le_mul_of_pos_right _ (by unfold span; omega)) hsz
    have l2 : span (patch kw rw) sw q' ≤ B := le_trans (Nat.le_mul_of_pos_left _ (by unfold span; omega)) hsz
    have oH := bare_ok k1 s1 r1 s3 r3 hq (lt_of_le_of_lt l1 hB)
    have oW := bare_ok k2 s2 r2 s4 r4 hq' (lt_of_le_of_lt l2 hB)
    have ht : HasAxes t (bare kh sh rh q) (bare kw sw rw q') := ⟨hk, hs, hr, pH q hq l1, pW q' hq' l2⟩
    exact .of (conv_layer_nchw junkW junkY junkB junkI junk hact oH oW ht (n := n) (c := c) (fun b k i j => V b i j k) Y _ Bi
      (fun z hz => C91_conv_order_nchw oH oW _ Y junk hz) hw hb) rfl rfl
  refine ⟨_, run m m' X hm hm' hsize, fun i hi j hj => ?_⟩
  have small := run 1 1 (fun b u v k => X b (i * sh + u) (j * sw + v) k) le_rfl le_rfl
    (le_trans (Nat.mul_le_mul (span_mono hm) (span_mono hm')) hsize)
  rw [span_one, span_one] at small
  refine Eq.mp (congrArg (Gives _ _) (img_congr fun b _ u hu v hv e _ => ?_)) small
  obtain rfl : u = 0 := by omega
  obtain rfl : v = 0 := by omega
  refine congrArg (fun x => f (x + Bi e)) (seqSum_congr fun p hp => ?_)
  have l1 : span (patch kh rh) sh 1 * span (patch kw rw) sw 1 ≤ B :=
    le_trans (Nat.mul_le_mul (span_mono hm) (span_mono hm')) hsize
  have l2 : span (patch kh rh) sh 1 ≤ B := le_trans (Nat.le_mul_of_pos_right _ (by unfold span; omega)) l1
  have l3 : span (patch kw rw) sw 1 ≤ B := le_trans (Nat.le_mul_of_pos_left _ (by unfold span; omega)) l1
  have h1 : p % (kh * kw) / kw < kh := Nat.div_lt_of_lt_mul (by rw [Nat.mul_comm kw]; exact Nat.mod_lt _ (Nat.mul_pos k1 k2))
  have h2 : p % (kh * kw) % kw < kw := Nat.mod_lt _ k2
  have e := (bare_part (k := kh) (s := sh) (r := rh) hi).window (N := u32) (bare_ok k1 s1 r1 s3 r3 le_rfl (lt_of_le_of_lt l2 hB))
    (bare_ok k2 s2 r2 s4 r4 le_rfl (lt_of_le_of_lt l3 hB)) (bare_part (k := kw) (s := sw) (r := rw) hj)
    (fun a a' => X b a a' (p / (kh * kw))) Nat.one_pos Nat.one_pos h1 h2
  rw [e]
  rfl

omit [Add R] [Mul R] in
/-- C142 (pooling layers) for any summary of the pixels under the window. -/
theorem C142_pool (nchw : Bool) (junk : Nat → R) (acc : Acc R) {t : PoolLayer} {kh kw sh sw B c : Nat} (hk : t.ksize = (kh, kw))
    (hs : t.stride = (sh, sw)) (k1 : 1 ≤ kh) (k2 : 1 ≤ kw) (s1 : 1 ≤ sh) (s2 : 1 ≤ sw) (s3 : sh < 2 ^ 32) (s4 : sw < 2 ^ 32)
    (pH : NoPad t.padding kh sh 1 B) (pW : NoPad t.padding kw sw 1 B) (hB : B < 2 ^ 32) (v : List R → R)
    (hv : ∀ l, l.length ≤ kh * kw → acc.run l = .ok (v l)) :
    Patchwise nchw (pool (if nchw then .nchw else .nhwc) junk acc t) B kh sh kw sw c c := by
  intro n m m' X hm hm' hsize
  have pe : ∀ k, 1 ≤ k → patch k 1 = k := fun k hk => by unfold patch; omega
  have run : ∀ (q q' : Nat) (V : Nat → Nat → Nat → Nat → R), 1 ≤ q → 1 ≤ q' → span kh sh q * span kw sw q' ≤ B →
      Gives (pool (if nchw then .nchw else .nhwc) junk acc t) (img nchw n (span kh sh q) (span kw sw q') c V)
        (img nchw n q q' c fun b i j k => v (pixels (bare kh sh 1 q) (bare kw sw 1 q') (fun a a' => V b a a' k) i j)) := by
    intro q q' V hq hq' hsz
    have l1 : span kh sh q ≤ B := le_trans (Nat.le_mul_of_pos_right _ (by unfold span; omega)) hsz
    have l2 : span kw sw q' ≤ B := le_trans (Nat.le_mul_of_pos_left _ (by unfold span; omega)) hsz
    have l1' : span (patch kh 1) sh q ≤ B := by rw [pe kh k1]; exact l1
    have l2' : span (patch kw 1) sw q' ≤ B := by rw [pe kw k2]; exact l2
    have oH := bare_ok k1 s1 le_rfl s3 (by decide) hq (lt_of_le_of_lt l1' hB)
    have oW := bare_ok k2 s2 le_rfl s4 (by decide) hq' (lt_of_le_of_lt l2' hB)
    have ht : PoolHasAxes t (bare kh sh 1 q) (bare kw sw 1 q') := ⟨hk, hs, rfl, rfl, pH q hq l1', pW q' hq' l2'⟩
    have g := poolLayer_gen junk acc oH oW ht (n := n) (c := c) V (fun b i j k => v (pixels (bare kh sh 1 q) (bare kw sw 1 q')
      (fun a a' => V b a a' k) i j)) fun b _ i _ j _ k _ => by
        rw [shifted_eq rfl, shifted_eq rfl]
        refine hv _ ?_
        rw [pixels_length oH.fits.r1 oW.fits.r1]
        exact win_card_le oH.fits.r1 oW.fits.r1 i j
    have e1 : (bare kh sh 1 q).n = span kh sh q := by simp only [bare, pe kh k1]
    have e2 : (bare kw sw 1 q').n = span kw sw q' := by simp only [bare, pe kw k2]
    rw [e1, e2] at g
    cases nchw
    · exact .of g.1 rfl rfl
    · exact .of g.2 rfl rfl
  refine ⟨_, run m m' X hm hm' hsize, fun i hi j hj => ?_⟩
  have l1 : span kh sh 1 * span kw sw 1 ≤ B := le_trans (Nat.mul_le_mul (span_mono hm) (span_mono hm')) hsize
  have small := run 1 1 (fun b u v k => X b (i * sh + u) (j * sw + v) k) le_rfl le_rfl l1
  rw [span_one, span_one] at small l1
  refine Eq.mp (congrArg (Gives _ _) (img_congr fun b _ u hu w hw k _ => ?_)) small
  obtain rfl : u = 0 := by omega
  obtain rfl : w = 0 := by omega
  have l2 : kh ≤ B := le_trans (Nat.le_mul_of_pos_right _ k2) l1
  have l3 : kw ≤ B := le_trans (Nat.le_mul_of_pos_left _ k1) l1
  have e := (bare_part (k := kh) (s := sh) (r := 1) hi).pixels (N := u32)
    (bare_ok k1 s1 le_rfl s3 (by decide) le_rfl (by rw [span_one, pe kh k1]; omega))
    (bare_ok k2 s2 le_rfl s4 (by decide) le_rfl (by rw [span_one, pe kw k2]; omega)) (bare_part (k := kw) (s := sw) (r := 1) hj)
    (fun a a' => X b a a' k) (i := 0) (j := 0) Nat.one_pos Nat.one_pos
  exact congrArg v e

omit [Add R] [Mul R] in
/-- Layers that act on every pixel on its own have windows of one pixel. -/
theorem pixelwise_patchwise {nchw : Bool} {f : LayerFn R} {B c d : Nat} (F : (Nat → R) → Nat → R)
    (h : ∀ n h w X, Gives f (img nchw n h w c X) (img nchw n h w d fun b i j e => F (X b i j) e)) :
    Patchwise nchw f B 1 1 1 1 c d := by
  intro n m m' X hm hm' hB
  have h1 : span 1 1 m = m := by unfold span; omega
  have h2 : span 1 1 m' = m' := by unfold span; omega
  rw [h1, h2]
  refine ⟨_, h n m m' X, fun i hi j hj => Eq.mp (congrArg (Gives _ _) (img_congr fun b _ u hu v hv e _ => ?_)) (h n 1 1 _)⟩
  obtain rfl : u = 0 := by omega
  obtain rfl : v = 0 := by omega
  simp

omit [Add R] [Mul R] in
/-- C142 (activation layers). -/
theorem C142_activation (nchw : Bool) (junk : Nat → R) (f : R → R) (B c : Nat) : Patchwise nchw (activationOf junk f) B 1 1 1 1 c c := by
  refine pixelwise_patchwise (fun x k => f (x k)) fun n h w X => ?_
  have e := activationOf_run junk f (img nchw n h w c X) (by unfold img; cases nchw <;> exact tab_length ..)
  refine .of e rfl ?_
  unfold img
  cases nchw
  · exact congrArg (Tensor.mk _) ((tab_map f _ _).trans (congrArg Tensor.data (tab_congr fun idx hv => by
      match idx, hv with
      | [a, b, i, j], _ => rfl)))
  · exact congrArg (Tensor.mk _) ((tab_map f _ _).trans (congrArg Tensor.data (tab_congr fun idx hv => by
      match idx, hv with
      | [a, b, i, j], _ => rfl)))

/-- C142 (batch normalisation layers), with any pointwise activation. -/
theorem C142_batch_norm [Sub R] [Div R] (nchw : Bool) (sqrt : R → R) (eps : R) (junkM junkV junkB junkG junkY : Nat → R) {act : Act R}
    {f : R → R} (hact : ActsAs act f) {B c : Nat} (M V β γ : Nat → R) {meanInit varInit betaInit gammaInit : Init R}
    (h1 : meanInit [c] (fresh junkM [c].prod) = .ok (tab [c] (fn1 M)).data)
    (h2 : varInit [c] (fresh junkV [c].prod) = .ok (tab [c] (fn1 V)).data)
    (h3 : betaInit [c] (fresh junkB [c].prod) = .ok (tab [c] (fn1 β)).data)
    (h4 : gammaInit [c] (fresh junkG [c].prod) = .ok (tab [c] (fn1 γ)).data) :
    Patchwise nchw (fun x => Layers.batchNorm sqrt eps (if nchw then .nchw else .nhwc) junkM junkV junkB junkG junkY act x meanInit
      varInit betaInit gammaInit) B 1 1 1 1 c c := by
  refine pixelwise_patchwise (fun x k => f ((x k - M k) / (sqrt (V k) + eps) * γ k + β k)) fun n h w X => ?_
  cases nchw
  · exact .of (C86_bn_nhwc sqrt eps junkM junkV junkB junkG junkY hact X M V β γ h1 h2 h3 h4) rfl rfl
  · exact .of (C86_bn_nchw sqrt eps junkM junkV junkB junkG junkY hact (fun b k i j => X b i j k) M V β γ h1 h2 h3 h4) rfl rfl

/-! ## Concrete cases -/

theorem relu_patchwise_ex : Patchwise (R := Int) true (activationOf (fun _ => 3) fun x => max x 0) 1000 1 1 1 1 2 2 :=
  C142_activation true _ _ _ _

/-- A 3 x 3 convolution with stride 1 and relu, 2 channels to 4; images of up to 10^6 pixels. -/
def exConvLayer : ConvLayer := ⟨4, (3, 3), Sample.paddingFixed ⟨0, 0⟩, (1, 1), (1, 1)⟩
/-- 2 x 2 max pooling with the policy of the library's default. -/
def exPoolLayer : PoolLayer := ⟨(2, 2), Sample.paddingValid u32, (2, 2)⟩
/-- A dilated convolution, 4 channels to 5. -/
def exConvLayer' : ConvLayer := ⟨5, (3, 3), Sample.paddingValid u32, (1, 1), (2, 2)⟩

def exConvFn : LayerFn Int := fun x => Layers.conv .nhwc .rscd (fun _ => 7) (fun _ => 8) (fun _ => 9) (fun _ => 1) (fun _ => 2)
  (pointwiseAct fun x => max x 0) exConvLayer x (fun s _ => .ok (tab s (fn4 fun u _ _ e => (u : Int) - e)).data)
  (fun s _ => .ok (tab s (fn1 fun e => (e : Int))).data)
def exPoolFn : LayerFn Int := pool .nhwc (fun _ => 5) (Acc.max (-1000)) exPoolLayer
def exConvFn' : LayerFn Int := fun x => Layers.conv .nhwc .rscd (fun _ => 7) (fun _ => 8) (fun _ => 9) (fun _ => 1) (fun _ => 2) noopAct
  exConvLayer' x (fun s _ => .ok (tab s (fn4 fun u _ _ e => (u : Int) + e)).data)
  (fun s _ => .ok (tab s (fn1 fun e => (e : Int))).data)

theorem exConvFn_patchwise : Patchwise false exConvFn 1000000 3 1 3 1 2 4 :=
  C142_conv_nhwc (c := 2) _ _ _ _ _ (pointwise_acts _) (t := exConvLayer) rfl rfl rfl (by decide) (by decide) (by decide) (by decide)
    (by decide) (by decide) (by decide) (by decide) (by decide) (by decide) (noPad_fixed _ _ _ _) (noPad_fixed _ _ _ _) (by decide) (by decide)
    (fun u _ _ e => (u : Int) - e) (fun e => (e : Int)) rfl rfl

theorem exPoolFn_patchwise : Patchwise false exPoolFn 1000000 2 2 2 2 4 4 :=
  C142_pool false _ _ (t := exPoolLayer) rfl rfl (by decide) (by decide) (by decide) (by decide) (by decide) (by decide)
    (noPad_valid (by decide) (by decide) (by decide) (by decide) (by decide) (by decide) (by decide) (by decide))
    (noPad_valid (by decide) (by decide) (by decide) (by decide) (by decide) (by decide) (by decide) (by decide)) (by decide) _
    (fun l _ => max_run _ l)

theorem exConvFn'_patchwise : Patchwise false exConvFn' 1000000 5 1 5 1 4 5 :=
  C142_conv_nhwc (c := 4) _ _ _ _ _ noop_acts (t := exConvLayer') rfl rfl rfl (by decide) (by decide) (by decide) (by decide)
    (by decide) (by decide) (by decide) (by decide) (by decide) (by decide)
    (noPad_valid (by decide) (by decide) (by decide) (by decide) (by decide) (by decide) (by decide) (by decide))
    (noPad_valid (by decide) (by decide) (by decide) (by decide) (by decide) (by decide) (by decide) (by decide)) (by decide) (by decide)
    (fun u _ _ e => (u : Int) + e) (fun e => (e : Int)) rfl rfl

/-- The three layers one after the other see patches of 12 x 12 pixels at distance 2. -/
theorem exNet_patchwise : Patchwise false (sequential (fun _ => 0) [exConvFn, exPoolFn, exConvFn']) 1000000 12 2 12 2 2 5 := by
  have h := C142_sequential (nchw := false) (fun _ => (0 : Int)) (B := 1000000) [exConvFn, exPoolFn, exConvFn']
    (fun i => [3, 2, 5].getD i 1) (fun i => [1, 2, 1].getD i 1) (fun i => [3, 2, 5].getD i 1) (fun i => [1, 2, 1].getD i 1)
    (fun i => [2, 4, 4, 5].getD i 0) (fun i hi => by
      match i, hi with
      | 0, _ => decide
      | 1, _ => decide
      | 2, _ => decide) (fun i hi => by
      match i, hi with
      | 0, _ => exact exConvFn_patchwise
      | 1, _ => exact exPoolFn_patchwise
      | 2, _ => exact exConvFn'_patchwise)
  exact h

example := C142_composed (by decide) (by decide) (by decide) (by decide) (by decide) (by decide) exConvFn_patchwise exPoolFn_patchwise
example := C142_batch_norm (R := Int) true id 1 (fun _ => 0) (fun _ => 0) (fun _ => 0) (fun _ => 0) (fun _ => 0) noop_acts (B := 100)
  (c := 2) (fun k => (k : Int)) (fun k => (k : Int) + 3) (fun _ => 1) (fun _ => 2) (meanInit := fun _ _ => .ok [0, 1])
  (varInit := fun _ _ => .ok [3, 4]) (betaInit := fun _ _ => .ok [1, 1]) (gammaInit := fun _ _ => .ok [2, 2]) rfl rfl rfl rfl
example := C142_conv_nchw (R := Int) (c := 2) (fun _ => 1) (fun _ => 1) (fun _ => 1) (fun _ => 1) (fun _ => 1) noop_acts (t := exConvLayer)
  rfl rfl rfl (by decide) (by decide) (by decide) (by decide) (by decide) (by decide) (by decide) (by decide) (by decide) (by decide)
  (B := 1000) (noPad_fixed _ _ _ _) (noPad_fixed _ _ _ _) (by decide) (fun e _ u _ => (u : Int) - e) (fun e => (e : Int))
  (wInit := fun s _ => .ok (tab s (fn4 fun e _ u _ => (u : Int) - e)).data) (bInit := fun s _ => .ok (tab s (fn1 fun e => (e : Int))).data)
  rfl rfl

end StdNN
