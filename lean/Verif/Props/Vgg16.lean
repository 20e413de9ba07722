import Verif.Model.Vgg16
import Verif.Spec.Vgg16
import Verif.Props.Models
import Verif.Props.Layers
import Verif.Props.PoolLayer
import Verif.Props.Activation
import Verif.Props.Utility
/-!
# The image classification example

C101: what the network computes and which images it accepts. C102: reading the class names and the image.
-/
namespace StdNN
open Outcome Finset Spec IntTy Models

namespace Vgg16

/-- Called on `x` the layer returns `y` and keeps exactly what the returned object owns. -/
def Runs (f : LayerFn ℝ) (x y : Tensor ℝ) : Prop := ∃ l : Layer ℝ, f x = ⟨l.size, .ok l⟩ ∧ l.output = y

theorem Runs.of {f : LayerFn ℝ} {x y z : Tensor ℝ} {ws : List (Tensor ℝ)} {k : Int} (h : f x = ⟨k, .ok ⟨y, ws⟩⟩)
    (hk : k = ((1 + ws.length : Nat) : Int)) (hz : y = z) : Runs f x z := ⟨⟨y, ws⟩, by rw [h, hk]; rfl, hz⟩

theorem Runs.comp {f g : LayerFn ℝ} {x y z : Tensor ℝ} (hf : Runs f x y) (hg : Runs g y z) : Runs (composed f g) x z := by
  obtain ⟨l, e, rfl⟩ := hf
  obtain ⟨l', e', rfl⟩ := hg
  refine ⟨l', ?_, rfl⟩
  unfold composed
  rw [e]
  dsimp only
  rw [e', Alloc.freeing]
  congr 1
  push_cast
  omega

theorem Runs.fail {f g : LayerFn ℝ} {x y : Tensor ℝ} {e : Err} (hf : Runs f x y) (hg : g y = ⟨0, .throw e⟩) :
    composed f g x = ⟨0, .throw e⟩ := by
  obtain ⟨l, el, rfl⟩ := hf
  unfold composed
  rw [el]
  dsimp only
  rw [hg, Alloc.freeing]
  simp

theorem fail_comp {f g : LayerFn ℝ} {x : Tensor ℝ} {e : Err} (hf : f x = ⟨0, .throw e⟩) :
    composed f g x = ⟨0, .throw e⟩ := by
  unfold composed
  rw [hf]

/-- The axis of a 3-tap filter with one pixel of padding on both sides. -/
def axis3 (n : Nat) : Axis := ⟨3, 1, 1, 1, 1, n, n⟩

theorem axis3_ok {n : Nat} (n1 : 1 ≤ n) (h : u32.In ((n + 3 : Nat) : Int)) :
    Sample.samePadding u32 3 1 1 n = .ok ⟨1, 1⟩ ∧ AxisOK u32 (axis3 n) := by
  obtain ⟨l, q, e, h1, h2, h3, ok⟩ := same_axis (k := 3) (s := 1) (r := 1) (n := n) (by decide) (by decide) (by decide)
    (by decide) (by decide) (by decide) h (by decide) (by rw [Nat.mod_one]; decide) n1
  rw [Nat.mod_one] at h3
  have hp : patch 3 1 = 3 := rfl
  rw [hp] at h3
  obtain ⟨rfl, rfl⟩ : l = 1 ∧ q = 1 := by omega
  rw [Nat.div_one] at ok
  exact ⟨e, ok⟩

theorem u32_in {n : Nat} (h : n < 2 ^ 32) : u32.In (n : Int) := by
  constructor
  · simp [IntTy.lo, IntTy.u32]
  · simp [IntTy.hi, IntTy.u32]; omega

theorem conv_runs (J : Nat → Nat → ℝ) (junkI : Nat → Int) (p : String → Init ℝ) (i d : Nat) (name : String) {n h w c : Nat}
    (hd : d < 2 ^ 32) (h1 : 1 ≤ h) (w1 : 1 ≤ w) (hh : h < 2 ^ 31) (hw : w < 2 ^ 31) (hsz : h * w * c ≤ 2 ^ 31)
    {F : Nat → Nat → Nat → Nat → ℝ} {B : Nat → ℝ}
    (hF : ∀ m : List ℝ, m.length = [3, 3, c, d].prod → p (name ++ "_W") [3, 3, c, d] m = .ok (tab [3, 3, c, d] (fn4 F)).data)
    (hB : ∀ m : List ℝ, m.length = [d].prod → p (name ++ "_b") [d] m = .ok (tab [d] (fn1 B)).data) (X : Nat → Vgg.Img) :
    Runs (conv J junkI p i d name) (tab [n, h, w, c] (fn4 X)) (tab [n, h, w, d] (fn4 fun b => Vgg.conv h w c F B (X b))) := by
  obtain ⟨e1, o1⟩ := axis3_ok h1 (u32_in (by omega))
  obtain ⟨e2, o2⟩ := axis3_ok w1 (u32_in (by omega))
  have hf : (ConvLayer.makeP d (3, 3) (Sample.paddingSame u32)).filters = d := Nat.mod_eq_of_lt hd
  have ha : HasAxes (ConvLayer.makeP d (3, 3) (Sample.paddingSame u32)) (axis3 h) (axis3 w) :=
    ⟨rfl, rfl, rfl, e1, e2⟩
  have key := C78_conv_nhwc (J (4 * i)) (J (4 * i + 1)) (J (4 * i + 2)) junkI (J (4 * i + 3)) relu_acts o1 o2 ha (n := n)
    (c := c) (by simpa [axis3, mul_assoc] using hsz) X F B (by rw [hf]; exact hF _ (Layers.fresh_length ..)) (by rw [hf]; exact hB _ (Layers.fresh_length ..))
  rw [hf] at key
  refine Runs.of (f := conv J junkI p i d name) key rfl ?_
  refine tab_congr fun idx hv => ?_
  match idx, hv with
  | [b, a, a', e], hv =>
    simp only [fn4_apply, Vgg.conv]
    have : ∀ v : ℝ, (if 0 < v then v else 0) = max 0 v := fun v => by
      rcases lt_or_ge 0 v with h | h
      · rw [if_pos h, max_eq_right h.le]
      · rw [if_neg (not_lt.2 h), max_eq_left h]
    rw [this]
    have e : conv2 (axis3 h) (axis3 w) c (X b) F a a' e = ∑ u ∈ range 3, ∑ v ∈ range 3, ∑ k ∈ range c,
        (if (1 ≤ a + u ∧ a + u < 1 + h) ∧ 1 ≤ a' + v ∧ a' + v < 1 + w then X b (a + u - 1) (a' + v - 1) k else 0) *
          F u v k e := by
      unfold conv2
      simp only [window_eq, axis3, Axis.pos, mul_one]
    rw [e]

theorem pool_runs (J : Nat → Nat → ℝ) {lowest : ℝ} (i : Nat) {n h w c h' w' : Nat} (eh : h / 2 = h') (ew : w / 2 = w')
    (h1 : 1 ≤ h) (w1 : 1 ≤ w) (hh : h < 2 ^ 31) (hw : w < 2 ^ 31) (d1 : 2 ∣ h) (d2 : 2 ∣ w) (X : Nat → Vgg.Img)
    (hlow : ∀ b i j k, lowest ≤ X b i j k) :
    Runs (pool J lowest i) (tab [n, h, w, c] (fn4 X)) (tab [n, h', w', c] (fn4 fun b => Vgg.pool (X b))) := by
  subst eh ew
  obtain ⟨Z, e, -, hZ⟩ := C79_max_partial (J (4 * i)) (k1 := 2) (k2 := 2) (n := n) (c := c) (by decide) (by decide) h1 w1 d1 d2
    (u32_in (by omega)) (u32_in (by omega)) (by decide) (by decide) X (fun b _ i _ j _ k _ => hlow b i j k)
  refine Runs.of (f := pool J lowest i) e rfl ?_
  refine tab_congr fun idx hv => ?_
  match idx, hv with
  | [b, a, a', k], hv =>
    simp only [fn4_apply, Vgg.pool]
    obtain ⟨u, v⟩ := hZ b hv.1 a hv.2.1 a' hv.2.2.1 k hv.2.2.2.1
    have ha : a < h / 2 := hv.2.1
    have ha' : a' < w / 2 := hv.2.2.1
    have q : ∀ s < 2, ∀ t < 2, X b (2 * a + s) (2 * a' + t) k ≤ Z b a a' k := fun s hs t ht =>
      u _ (by omega) _ (by omega) (by omega) (by omega)
    refine le_antisymm ?_ (max_le (max_le (q 0 (by decide) 0 (by decide)) (q 0 (by decide) 1 (by decide)))
      (max_le (q 1 (by decide) 0 (by decide)) (q 1 (by decide) 1 (by decide))))
    obtain ⟨x, _, y, _, ex, ey, ez⟩ := v
    rw [ez]
    rcases (by omega : x = 2 * a ∨ x = 2 * a + 1) with rfl | rfl <;>
    rcases (by omega : y = 2 * a' ∨ y = 2 * a' + 1) with rfl | rfl <;> simp

theorem pool_fails (J : Nat → Nat → ℝ) (lowest : ℝ) (i : Nat) {n h w c : Nat} (hh : h < 2 ^ 31) (hw : w < 2 ^ 31)
    (hn : ¬ (2 ∣ h ∧ 2 ∣ w)) (X : Nat → Vgg.Img) :
    pool J lowest i (tab [n, h, w, c] (fn4 X)) = ⟨0, .throw .runtimeError⟩ :=
  C79_rejects (o := .nhwc) (J (4 * i)) (Acc.max lowest) (k1 := 2) (k2 := 2) (n := n) (h := h) (w := w) (c := c) (by decide)
    (by decide) (by decide) (by decide) (u32_in (by omega)) (u32_in (by omega)) rfl hn _

theorem conv_nonneg (h w c : Nat) (F : Nat → Nat → Nat → Nat → ℝ) (B : Nat → ℝ) (X : Vgg.Img) (i j k : Nat) :
    0 ≤ Vgg.conv h w c F B X i j k := le_max_left _ _

/-- The convolution layers: name, channels in, channels out. -/
def convTable : List (String × Nat × Nat) :=
  [("conv1_1", 3, 64), ("conv1_2", 64, 64), ("conv2_1", 64, 128), ("conv2_2", 128, 128), ("conv3_1", 128, 256),
    ("conv3_2", 256, 256), ("conv3_3", 256, 256), ("conv4_1", 256, 512), ("conv4_2", 512, 512), ("conv4_3", 512, 512),
    ("conv5_1", 512, 512), ("conv5_2", 512, 512), ("conv5_3", 512, 512)]

/-- The dense layers for `m` features: name, inputs, outputs. -/
def denseTable (m : Nat) : List (String × Nat × Nat) := [("fc6", m, 4096), ("fc7", 4096, 4096), ("fc8", 4096, 1000)]

/-- The initialisers of the convolutions write the filters `F` and the biases `B`. -/
def LoadsConv (p : String → Init ℝ) (F : String → Nat → Nat → Nat → Nat → ℝ) (B : String → Nat → ℝ) : Prop :=
  ∀ e ∈ convTable,
    (∀ m : List ℝ, m.length = [3, 3, e.2.1, e.2.2].prod →
      p (e.1 ++ "_W") [3, 3, e.2.1, e.2.2] m = .ok (tab [3, 3, e.2.1, e.2.2] (fn4 (F e.1))).data) ∧
    ∀ m : List ℝ, m.length = [e.2.2].prod → p (e.1 ++ "_b") [e.2.2] m = .ok (tab [e.2.2] (fn1 (B e.1))).data

/-- The initialisers of the dense layers write the weights `D` and the biases `B`. -/
def LoadsDense (p : String → Init ℝ) (D : String → Nat → Nat → ℝ) (B : String → Nat → ℝ) (k : Nat) : Prop :=
  ∀ e ∈ denseTable k,
    (∀ m : List ℝ, m.length = [e.2.1, e.2.2].prod →
      p (e.1 ++ "_W") [e.2.1, e.2.2] m = .ok (tab [e.2.1, e.2.2] (fn2 (D e.1))).data) ∧
    ∀ m : List ℝ, m.length = [e.2.2].prod → p (e.1 ++ "_b") [e.2.2] m = .ok (tab [e.2.2] (fn1 (B e.1))).data

section
variable (J : Nat → Nat → ℝ) (junkI : Nat → Int) {lowest : ℝ} {p : String → Init ℝ}
  {F : String → Nat → Nat → Nat → Nat → ℝ} {B : String → Nat → ℝ}

theorem conv_stage (hp : LoadsConv p F B) (i d c : Nat) (name : String) (hm : (name, c, d) ∈ convTable) {n h w : Nat}
    (h1 : 1 ≤ h) (w1 : 1 ≤ w) (hh : h < 2 ^ 31) (hw : w < 2 ^ 31) (hsz : h * w * c ≤ 2 ^ 31) (X : Nat → Vgg.Img) :
    Runs (conv J junkI p i d name) (tab [n, h, w, c] (fn4 X))
      (tab [n, h, w, d] (fn4 fun b => Vgg.conv h w c (F name) (B name) (X b))) := by
  have hd : d < 2 ^ 32 := by
    have : ∀ e ∈ convTable, e.2.2 < 2 ^ 32 := by decide
    exact this _ hm
  exact conv_runs J junkI p i d name hd h1 w1 hh hw hsz (hp _ hm).1 (hp _ hm).2 X

/-- What is computed up to the first pooling. -/
noncomputable def pre0 (F : String → Nat → Nat → Nat → Nat → ℝ) (B : String → Nat → ℝ) (h w : Nat) (X : Vgg.Img) : Vgg.Img :=
  Vgg.conv h w 64 (F "conv1_2") (B "conv1_2") (Vgg.conv h w 3 (F "conv1_1") (B "conv1_1") X)

/-- What is computed up to the second pooling. -/
noncomputable def pre1 (F : String → Nat → Nat → Nat → Nat → ℝ) (B : String → Nat → ℝ) (h w : Nat) (X : Vgg.Img) : Vgg.Img :=
  Vgg.conv (h / 2) (w / 2) 128 (F "conv2_2") (B "conv2_2")
    (Vgg.conv (h / 2) (w / 2) 64 (F "conv2_1") (B "conv2_1") (Vgg.pool (pre0 F B h w X)))

/-- What is computed up to the third pooling. -/
noncomputable def pre2 (F : String → Nat → Nat → Nat → Nat → ℝ) (B : String → Nat → ℝ) (h w : Nat) (X : Vgg.Img) : Vgg.Img :=
  Vgg.conv (h / 4) (w / 4) 256 (F "conv3_3") (B "conv3_3") (Vgg.conv (h / 4) (w / 4) 256 (F "conv3_2") (B "conv3_2")
    (Vgg.conv (h / 4) (w / 4) 128 (F "conv3_1") (B "conv3_1") (Vgg.pool (pre1 F B h w X))))

/-- What is computed up to the fourth pooling. -/
noncomputable def pre3 (F : String → Nat → Nat → Nat → Nat → ℝ) (B : String → Nat → ℝ) (h w : Nat) (X : Vgg.Img) : Vgg.Img :=
  Vgg.conv (h / 8) (w / 8) 512 (F "conv4_3") (B "conv4_3") (Vgg.conv (h / 8) (w / 8) 512 (F "conv4_2") (B "conv4_2")
    (Vgg.conv (h / 8) (w / 8) 256 (F "conv4_1") (B "conv4_1") (Vgg.pool (pre2 F B h w X))))

/-- What is computed up to the fifth pooling. -/
noncomputable def pre4 (F : String → Nat → Nat → Nat → Nat → ℝ) (B : String → Nat → ℝ) (h w : Nat) (X : Vgg.Img) : Vgg.Img :=
  Vgg.conv (h / 16) (w / 16) 512 (F "conv5_3") (B "conv5_3") (Vgg.conv (h / 16) (w / 16) 512 (F "conv5_2") (B "conv5_2")
    (Vgg.conv (h / 16) (w / 16) 512 (F "conv5_1") (B "conv5_1") (Vgg.pool (pre3 F B h w X))))

theorem features_eq (h w : Nat) (X : Vgg.Img) : Vgg.features F B h w X = Vgg.pool (pre4 F B h w X) := rfl

theorem side_le {h w : Nat} (hsz : h * w ≤ 2 ^ 25) (s : Nat) : h / s * (w / s) * (s * s) ≤ 2 ^ 25 := by
  calc h / s * (w / s) * (s * s) = h / s * s * (w / s * s) := by ring
    _ ≤ h * w := Nat.mul_le_mul (Nat.div_mul_le_self h s) (Nat.div_mul_le_self w s)
    _ ≤ 2 ^ 25 := hsz

/-- The layers up to the first pooling. -/
noncomputable def seq0 (p : String → Init ℝ) : LayerFn ℝ :=
  composed (composed (Layers.identity (J 0)) (conv J junkI p 1 64 "conv1_1")) (conv J junkI p 2 64 "conv1_2")

/-- The layers up to the second pooling. -/
noncomputable def seq1 (lowest : ℝ) (p : String → Init ℝ) : LayerFn ℝ :=
  composed (composed (composed (seq0 J junkI p) (pool J lowest 3)) (conv J junkI p 4 128 "conv2_1"))
    (conv J junkI p 5 128 "conv2_2")

/-- The layers up to the third pooling. -/
noncomputable def seq2 (lowest : ℝ) (p : String → Init ℝ) : LayerFn ℝ :=
  composed (composed (composed (composed (seq1 J junkI lowest p) (pool J lowest 6)) (conv J junkI p 7 256 "conv3_1"))
    (conv J junkI p 8 256 "conv3_2")) (conv J junkI p 9 256 "conv3_3")

/-- The layers up to the fourth pooling. -/
noncomputable def seq3 (lowest : ℝ) (p : String → Init ℝ) : LayerFn ℝ :=
  composed (composed (composed (composed (seq2 J junkI lowest p) (pool J lowest 10)) (conv J junkI p 11 512 "conv4_1"))
    (conv J junkI p 12 512 "conv4_2")) (conv J junkI p 13 512 "conv4_3")

/-- The layers up to the fifth pooling. -/
noncomputable def seq4 (lowest : ℝ) (p : String → Init ℝ) : LayerFn ℝ :=
  composed (composed (composed (composed (seq3 J junkI lowest p) (pool J lowest 14)) (conv J junkI p 15 512 "conv5_1"))
    (conv J junkI p 16 512 "conv5_2")) (conv J junkI p 17 512 "conv5_3")

theorem convLayers_eq (lowest : ℝ) (p : String → Init ℝ) :
    convLayers J junkI lowest p = composed (seq4 J junkI lowest p) (pool J lowest 18) := by
  unfold convLayers sequential makeSequential seq4 seq3 seq2 seq1 seq0
  simp only [List.foldl_cons, List.foldl_nil]

theorem fail_seq {lowest : ℝ} {x : Tensor ℝ} {e : Err} :
    (composed (seq0 J junkI p) (pool J lowest 3) x = ⟨0, .throw e⟩ → seq1 J junkI lowest p x = ⟨0, .throw e⟩) ∧
    (composed (seq1 J junkI lowest p) (pool J lowest 6) x = ⟨0, .throw e⟩ → seq2 J junkI lowest p x = ⟨0, .throw e⟩) ∧
    (composed (seq2 J junkI lowest p) (pool J lowest 10) x = ⟨0, .throw e⟩ → seq3 J junkI lowest p x = ⟨0, .throw e⟩) ∧
    (composed (seq3 J junkI lowest p) (pool J lowest 14) x = ⟨0, .throw e⟩ → seq4 J junkI lowest p x = ⟨0, .throw e⟩) :=
  ⟨fun h => fail_comp (fail_comp h), fun h => fail_comp (fail_comp (fail_comp h)),
    fun h => fail_comp (fail_comp (fail_comp h)), fun h => fail_comp (fail_comp (fail_comp h))⟩

variable {n h w : Nat} (X : Nat → Vgg.Img) (hp : LoadsConv p F B) (hl : lowest ≤ 0) (h1 : 1 ≤ h) (w1 : 1 ≤ w)
  (hh : h < 2 ^ 31) (hw : w < 2 ^ 31) (hsz : h * w ≤ 2 ^ 25)
include hp h1 w1 hh hw hsz

theorem seq0_runs : Runs (seq0 J junkI p) (tab [n, h, w, 3] (fn4 X)) (tab [n, h, w, 64] (fn4 fun b => pre0 F B h w (X b))) := by
  have r0 : Runs (Layers.identity (J 0)) (tab [n, h, w, 3] (fn4 X)) (tab [n, h, w, 3] (fn4 X)) :=
    Runs.of (identity_run (J 0) (tab_wf _ _)) rfl rfl
  exact (r0.comp (conv_stage J junkI hp 1 64 3 "conv1_1" (by decide) h1 w1 hh hw (by omega) X)).comp
    (conv_stage J junkI hp 2 64 64 "conv1_2" (by decide) h1 w1 hh hw (by omega) _)

include hl

theorem seq1_runs (d : 2 ∣ h ∧ 2 ∣ w) : Runs (seq1 J junkI lowest p) (tab [n, h, w, 3] (fn4 X))
    (tab [n, h / 2, w / 2, 128] (fn4 fun b => pre1 F B h w (X b))) := by
  have hq := side_le hsz 2
  refine ((((seq0_runs J junkI X hp h1 w1 hh hw hsz).comp (pool_runs J 3 rfl rfl h1 w1 hh hw d.1 d.2 _ ?_)).comp
    (conv_stage J junkI hp 4 128 64 "conv2_1" (by decide) ?_ ?_ ?_ ?_ ?_ _)).comp
    (conv_stage J junkI hp 5 128 128 "conv2_2" (by decide) ?_ ?_ ?_ ?_ ?_ _)) <;> try omega
  exact fun b i j k => hl.trans (conv_nonneg ..)

theorem seq2_runs (d : 4 ∣ h ∧ 4 ∣ w) : Runs (seq2 J junkI lowest p) (tab [n, h, w, 3] (fn4 X))
    (tab [n, h / 4, w / 4, 256] (fn4 fun b => pre2 F B h w (X b))) := by
  have hq := side_le hsz 4
  refine (((((seq1_runs J junkI X hp hl h1 w1 hh hw hsz (by omega)).comp
    (pool_runs J 6 (h' := h / 4) (w' := w / 4) ?_ ?_ ?_ ?_ ?_ ?_ ?_ ?_ _ ?_)).comp
    (conv_stage J junkI hp 7 256 128 "conv3_1" (by decide) ?_ ?_ ?_ ?_ ?_ _)).comp
    (conv_stage J junkI hp 8 256 256 "conv3_2" (by decide) ?_ ?_ ?_ ?_ ?_ _)).comp
    (conv_stage J junkI hp 9 256 256 "conv3_3" (by decide) ?_ ?_ ?_ ?_ ?_ _)) <;> try omega
  exact fun b i j k => hl.trans (conv_nonneg ..)

theorem seq3_runs (d : 8 ∣ h ∧ 8 ∣ w) : Runs (seq3 J junkI lowest p) (tab [n, h, w, 3] (fn4 X))
    (tab [n, h / 8, w / 8, 512] (fn4 fun b => pre3 F B h w (X b))) := by
  have hq := side_le hsz 8
  refine (((((seq2_runs J junkI X hp hl h1 w1 hh hw hsz (by omega)).comp
    (pool_runs J 10 (h' := h / 8) (w' := w / 8) ?_ ?_ ?_ ?_ ?_ ?_ ?_ ?_ _ ?_)).comp
    (conv_stage J junkI hp 11 512 256 "conv4_1" (by decide) ?_ ?_ ?_ ?_ ?_ _)).comp
    (conv_stage J junkI hp 12 512 512 "conv4_2" (by decide) ?_ ?_ ?_ ?_ ?_ _)).comp
    (conv_stage J junkI hp 13 512 512 "conv4_3" (by decide) ?_ ?_ ?_ ?_ ?_ _)) <;> try omega
  exact fun b i j k => hl.trans (conv_nonneg ..)

theorem seq4_runs (d : 16 ∣ h ∧ 16 ∣ w) : Runs (seq4 J junkI lowest p) (tab [n, h, w, 3] (fn4 X))
    (tab [n, h / 16, w / 16, 512] (fn4 fun b => pre4 F B h w (X b))) := by
  have hq : h / 16 * (w / 16) * 512 ≤ 2 ^ 31 := by
    have := side_le hsz 16
    calc h / 16 * (w / 16) * 512 = h / 16 * (w / 16) * (16 * 16) * 2 := by ring
      _ ≤ 2 ^ 25 * 2 := Nat.mul_le_mul_right _ this
      _ ≤ 2 ^ 31 := by norm_num
  refine (((((seq3_runs J junkI X hp hl h1 w1 hh hw hsz (by omega)).comp
    (pool_runs J 14 (h' := h / 16) (w' := w / 16) ?_ ?_ ?_ ?_ ?_ ?_ ?_ ?_ _ ?_)).comp
    (conv_stage J junkI hp 15 512 512 "conv5_1" (by decide) ?_ ?_ ?_ ?_ ?_ _)).comp
    (conv_stage J junkI hp 16 512 512 "conv5_2" (by decide) ?_ ?_ ?_ ?_ ?_ _)).comp
    (conv_stage J junkI hp 17 512 512 "conv5_3" (by decide) ?_ ?_ ?_ ?_ ?_ _)) <;> try omega
  exact fun b i j k => hl.trans (conv_nonneg ..)

theorem convLayers_runs (d : 32 ∣ h ∧ 32 ∣ w) : Runs (convLayers J junkI lowest p) (tab [n, h, w, 3] (fn4 X))
    (tab [n, h / 32, w / 32, 512] (fn4 fun b => Vgg.features F B h w (X b))) := by
  rw [convLayers_eq]
  refine (seq4_runs J junkI X hp hl h1 w1 hh hw hsz (by omega)).comp
    (pool_runs J 18 (h' := h / 32) (w' := w / 32) ?_ ?_ ?_ ?_ ?_ ?_ ?_ ?_ _ ?_) <;> try omega
  exact fun b i j k => hl.trans (conv_nonneg ..)

theorem convLayers_fails (d : ¬ (32 ∣ h ∧ 32 ∣ w)) :
    convLayers J junkI lowest p (tab [n, h, w, 3] (fn4 X)) = ⟨0, .throw .runtimeError⟩ := by
  rw [convLayers_eq]
  obtain ⟨f1, f2, f3, f4⟩ := fail_seq J junkI (p := p) (lowest := lowest) (x := tab [n, h, w, 3] (fn4 X))
    (e := .runtimeError)
  by_cases d4 : 16 ∣ h ∧ 16 ∣ w
  · exact (seq4_runs J junkI X hp hl h1 w1 hh hw hsz d4).fail (pool_fails J lowest 18 (by omega) (by omega) (by omega) _)
  refine fail_comp (f4 ?_)
  by_cases d3 : 8 ∣ h ∧ 8 ∣ w
  · exact (seq3_runs J junkI X hp hl h1 w1 hh hw hsz d3).fail (pool_fails J lowest 14 (by omega) (by omega) (by omega) _)
  refine fail_comp (f3 ?_)
  by_cases d2 : 4 ∣ h ∧ 4 ∣ w
  · exact (seq2_runs J junkI X hp hl h1 w1 hh hw hsz d2).fail (pool_fails J lowest 10 (by omega) (by omega) (by omega) _)
  refine fail_comp (f2 ?_)
  by_cases d1 : 2 ∣ h ∧ 2 ∣ w
  · exact (seq1_runs J junkI X hp hl h1 w1 hh hw hsz d1).fail (pool_fails J lowest 6 (by omega) (by omega) (by omega) _)
  refine fail_comp (f1 ?_)
  exact (seq0_runs J junkI X hp h1 w1 hh hw hsz).fail (pool_fails J lowest 3 (by omega) (by omega) (by omega) _)

end

theorem dense_runs (J : Nat → Nat → ℝ) {act : Act ℝ} {f : ℝ → ℝ} (ha : ActsAs act f) {p : String → Init ℝ} {i k m : Nat}
    {name : String} (hk : k < 2 ^ 32) {W : Nat → Nat → ℝ} {B : Nat → ℝ}
    (hl : (∀ s : List ℝ, s.length = [m, k].prod → p (name ++ "_W") [m, k] s = .ok (tab [m, k] (fn2 W)).data) ∧
      ∀ s : List ℝ, s.length = [k].prod → p (name ++ "_b") [k] s = .ok (tab [k] (fn1 B)).data)
    {n : Nat} (X : Nat → Nat → ℝ) :
    Runs (dense J act p i k name) (tab [n, m] (fn2 X)) (tab [n, k] (fn2 fun b j => f (Vgg.affine m W B (X b) j))) := by
  refine Runs.of (f := dense J act p i k name)
    (C77_dense (J (4 * i)) (J (4 * i + 1)) (J (4 * i + 2)) ha hk X W B (hl.1 _ (Layers.fresh_length ..)) (hl.2 _ (Layers.fresh_length ..))) rfl ?_
  simp only [seqSum_eq_sum, Vgg.affine]

theorem softmax_runs (J : Nat → Nat → ℝ) (eps : ℝ) (i n k : Nat) (X : Nat → Nat → ℝ) :
    Runs (softmax J Real.exp eps i) (tab [n, k] (fn2 X)) (tab [n, k] (fn2 fun b j => max eps (Spec.softmax k (X b) j))) := by
  have h := C51_value eps [n] k (fn2 X) 0 (fresh (J (4 * i)) [n, k].prod) (by simp [Layers.fresh_length])
  rw [store_all (by simp [Layers.fresh_length])] at h
  have e : Layers.newResult (J (4 * i)) (.ok [n, k])
      (fun s m => Ops.softmax Real.exp eps s [n, k] (.ext (tab [n, k] (fn2 X)).data) 0 m) = _ := Layers.newResult_run h
  refine ⟨⟨tab [n, k] (fn2 fun b j => max eps (Spec.softmax k (X b) j)), []⟩, ?_, rfl⟩
  have et : (tab [n, k] fun idx => max eps (Spec.softmax k (fun j => fn2 X (idx.dropLast ++ [j])) (idx.getLastD 0))) =
      tab [n, k] (fn2 fun b j => max eps (Spec.softmax k (X b) j)) := tab_congr fun idx hv => by
    match idx, hv with
    | [b, j], hv => simp
  rw [← et]
  show Alloc.bind _ _ = _
  simp only [Ops.endoShape, tab_dims]
  rw [e]
  rfl

theorem getDim_one (n k : Nat) : getDim (some 1) [n, k] = .ok k := rfl

theorem flatten (n a b c : Nat) (X : Nat → Vgg.Img) :
    (⟨asMatrix 1 [n, a, b, c], (tab [n, a, b, c] (fn4 X)).data⟩ : Tensor ℝ) =
      tab [n, a * b * c] (fn2 fun i => Vgg.flat b c (X i)) := by
  have h := tab_asMatrix (d1 := [n]) (d2 := [a, b, c]) (fn4 X)
  have e1 : asMatrix 1 [n, a, b, c] = [[n].prod, [a, b, c].prod] := rfl
  have e2 : [[n].prod, [a, b, c].prod] = [n, a * b * c] := by simp [mul_assoc]
  rw [e1]
  refine h.trans ?_
  rw [e2]
  refine tab_congr fun idx hv => ?_
  match idx, hv with
  | [i, q], hv =>
    simp only [unravel, List.headD_cons, List.tail_cons, List.prod_cons, List.prod_nil, mul_one, Nat.div_one, List.cons_append,
      List.nil_append, fn4_apply, fn2_apply, Vgg.flat]
    rw [Nat.mod_mul_left_mod, mul_comm b c, Nat.mod_mul_right_div_self]

theorem scoped_runs {β : Type} {f : LayerFn ℝ} {x y : Tensor ℝ} (h : Runs f x y) {k : Layer ℝ → Alloc β} {r : Outcome β}
    (hk : ∀ l : Layer ℝ, l.output = y → k l = ⟨0, r⟩) : Alloc.scoped (f x) k = ⟨0, r⟩ := by
  obtain ⟨l, e, el⟩ := h
  simp [Alloc.scoped, e, hk l el, Alloc.freeing]

section
variable (J : Nat → Nat → ℝ) (junkI : Nat → Int) {lowest : ℝ} (eps : ℝ) {p : String → Init ℝ}
  {F : String → Nat → Nat → Nat → Nat → ℝ} {D : String → Nat → Nat → ℝ} {B : String → Nat → ℝ}

theorem denseLayers_runs {k n : Nat} (hp : LoadsDense p D B k) (X : Nat → Nat → ℝ) :
    Runs (denseLayers J Real.exp eps p) (tab [n, k] (fn2 X)) (tab [n, 1000] (fn2 fun b j => max eps (Spec.softmax 1000
      (Vgg.affine 4096 (D "fc8") (B "fc8") fun j => max 0 (Vgg.affine 4096 (D "fc7") (B "fc7")
        (fun j => max 0 (Vgg.affine k (D "fc6") (B "fc6") (X b) j)) j)) j))) := by
  have hr : ActsAs (Layers.reluAct (R := ℝ)) (max 0) := by
    have : (fun v : ℝ => if 0 < v then v else 0) = max 0 := funext fun v => by
      rcases lt_or_ge 0 v with h | h
      · rw [if_pos h, max_eq_right h.le]
      · rw [if_neg (not_lt.2 h), max_eq_left h]
    exact this ▸ relu_acts
  have r0 : Runs (Layers.identity (J 1)) (tab [n, k] (fn2 X)) (tab [n, k] (fn2 X)) :=
    Runs.of (identity_run (J 1) (tab_wf _ _)) rfl rfl
  have l6 := hp ("fc6", k, 4096) (by simp [denseTable])
  have l7 := hp ("fc7", 4096, 4096) (by simp [denseTable])
  have l8 := hp ("fc8", 4096, 1000) (by simp [denseTable])
  have r := (((r0.comp (dense_runs J hr (i := 19) (by norm_num) l6 _)).comp
    (dense_runs J hr (i := 20) (by norm_num) l7 _)).comp (dense_runs J noop_acts (i := 21) (by norm_num) l8 _)).comp
    (softmax_runs J eps 22 n 1000 _)
  unfold denseLayers sequential makeSequential
  simp only [List.foldl_cons, List.foldl_nil]
  exact r

variable {n h w : Nat} (X : Nat → Vgg.Img) (hp : LoadsConv p F B) (hl : lowest ≤ 0) (h1 : 1 ≤ h) (w1 : 1 ≤ w)
  (hh : h < 2 ^ 31) (hw : w < 2 ^ 31) (hsz : h * w ≤ 2 ^ 25) {sort : List (ℝ × Int) → List (ℝ × Int)} (jz : Nat → Int) (m : Nat)
include hp hl h1 w1 hh hw hsz

/-- C101: on a batch of images with sides that are multiples of 32, and with parameter files that hold the filters `F`, the
weights `D` and the biases `B`, the program keeps no memory and reports, of the probabilities (not below `eps`) that VGG16
gives to the 1000 classes for the first image, the `m` greatest with their classes: bigger first, equal ones from the right. -/
theorem C101_run (hd : LoadsDense p D B (h / 32 * (w / 32) * 512)) (hs : IsSort sort) (hn : 1 ≤ n) (hm : m < 2 ^ 32)
    (d : 32 ∣ h ∧ 32 ∣ w) :
    let P := fun j => max eps (Spec.softmax 1000 (Vgg.logits F D B h w (X 0)) j)
    ∃ (σ : Nat → Nat) (y : List ℝ) (z : List Int),
      run J junkI lowest Real.exp eps p sort jz (tab [n, h, w, 3] (fn4 X)) m = ⟨0, .ok (y, z)⟩ ∧
      y.length = m ∧ z.length = m ∧
      (∀ i < min 1000 m, σ i < 1000 ∧ y[i]? = some (P (σ i)) ∧ z[i]? = some (σ i : Int)) ∧
      (∀ i j, i < j → j < min 1000 m → P (σ j) < P (σ i) ∨ P (σ j) = P (σ i) ∧ σ j < σ i) ∧
      ∀ q < 1000, (∀ i < min 1000 m, σ i ≠ q) → ∀ i < min 1000 m, P q < P (σ i) ∨ P q = P (σ i) ∧ q < σ i := by
  intro P
  have hc := convLayers_runs J junkI X hp hl h1 w1 hh hw hsz (n := n) d
  have hD := denseLayers_runs J eps (n := n) hd fun b => Vgg.flat (w / 32) 512 (Vgg.features F B h w (X b))
  obtain ⟨σ, y, z, et, ly, lz, e1, -, e3, e4⟩ := C58_top u32 (by decide) hs (x := (tab [1000] (fn1 P)).data)
    (y := (List.range m).map (J 2)) (z := (List.range m).map jz) (by simp; exact u32_in (by norm_num))
    (by simp; exact u32_in hm) (by simp)
  have hx : (tab [1000] (fn1 P)).data.length = 1000 := by simp
  have gx : ∀ j < 1000, (tab [1000] (fn1 P)).data[j]? = some (P j) := fun j hj => by
    have := tab_getElem? (dims := [1000]) (idx := [j]) (fn1 P) ⟨hj, trivial⟩
    simpa [offset] using this
  have bf : ∀ a b, a < 1000 → b < 1000 → Before (tab [1000] (fn1 P)).data a b → P b < P a ∨ P b = P a ∧ b < a := by
    rintro a b ha hb ⟨u, v, hu, hv, h⟩
    rw [gx a ha] at hu
    rw [gx b hb] at hv
    cases hu
    cases hv
    exact h
  simp only [hx, List.length_map, List.length_range] at e1 e3 e4 ly lz
  refine ⟨σ, y, z, ?_, ly, lz, fun i hi => ?_, fun i j hij hj => ?_, fun q hq hne i hi => ?_⟩
  · refine scoped_runs hc fun l el => ?_
    rw [el, tab_dims, flatten]
    refine scoped_runs hD fun o eo => ?_
    rw [eo]
    rw [tab_dims, getDim_one, Outcome.ok_bind, rowOf_tab _ (by omega), Outcome.ok_bind]
    exact congrArg (fun r => (⟨0, r⟩ : Alloc _)) et
  · obtain ⟨a, b, c⟩ := e1 i hi
    exact ⟨a, b.trans (gx _ a), c⟩
  · exact bf _ _ (e1 i (by omega)).1 (e1 j hj).1 (e3 i j hij hj)
  · exact bf _ _ (e1 i hi).1 hq (e4 q hq hne i hi)

/-- C101 (rejection): if a side is not a multiple of 32 the program throws before any dense layer is made and keeps no
memory; the dense parameters may be anything. -/
theorem C101_rejects (d : ¬ (32 ∣ h ∧ 32 ∣ w)) :
    run J junkI lowest Real.exp eps p sort jz (tab [n, h, w, 3] (fn4 X)) m = ⟨0, .throw .runtimeError⟩ := by
  unfold run Alloc.scoped
  rw [convLayers_fails J junkI X hp hl h1 w1 hh hw hsz d]

/-- C101 (ranking): if no probability is below `eps`, the classes are reported in order of their logits, and every class left
out has a logit at most that of every reported one. -/
theorem C101_ranking (hd : LoadsDense p D B (h / 32 * (w / 32) * 512)) (hs : IsSort sort) (hn : 1 ≤ n) (hm : m < 2 ^ 32)
    (d : 32 ∣ h ∧ 32 ∣ w) (he : ∀ j < 1000, eps ≤ Spec.softmax 1000 (Vgg.logits F D B h w (X 0)) j) :
    let L := Vgg.logits F D B h w (X 0)
    ∃ (σ : Nat → Nat) (y : List ℝ) (z : List Int),
      run J junkI lowest Real.exp eps p sort jz (tab [n, h, w, 3] (fn4 X)) m = ⟨0, .ok (y, z)⟩ ∧
      (∀ i < min 1000 m, σ i < 1000 ∧ z[i]? = some (σ i : Int) ∧ y[i]? = some (Spec.softmax 1000 L (σ i))) ∧
      (∀ i j, i < j → j < min 1000 m → L (σ j) ≤ L (σ i)) ∧
      ∀ q < 1000, (∀ i < min 1000 m, σ i ≠ q) → ∀ i < min 1000 m, L q ≤ L (σ i) := by
  intro L
  obtain ⟨σ, y, z, e, -, -, e1, e2, e3⟩ := C101_run J junkI eps X hp hl h1 w1 hh hw hsz jz m hd hs hn hm d
  have mono : ∀ a b, a < 1000 → b < 1000 → (max eps (Spec.softmax 1000 L a) < max eps (Spec.softmax 1000 L b) ∨
      max eps (Spec.softmax 1000 L a) = max eps (Spec.softmax 1000 L b) ∧ a < b) → L a ≤ L b := by
    intro a b ha hb h
    rw [max_eq_right (he a ha), max_eq_right (he b hb)] at h
    have h' : Spec.softmax 1000 L a ≤ Spec.softmax 1000 L b := h.elim le_of_lt fun h => h.1.le
    unfold Spec.softmax at h'
    have hpos : 0 < ∑ j ∈ range 1000, Real.exp (L j) :=
      Finset.sum_pos (fun _ _ => Real.exp_pos _) ⟨0, mem_range.2 (by norm_num)⟩
    exact Real.exp_le_exp.1 ((div_le_div_iff_of_pos_right hpos).1 h')
  refine ⟨σ, y, z, e, fun i hi => ?_, fun i j hij hj => ?_, fun q hq hne i hi => ?_⟩
  · obtain ⟨a, b, c⟩ := e1 i hi
    exact ⟨a, c, b.trans (congrArg some (max_eq_right (he _ a)))⟩
  · exact mono _ _ (e1 j hj).1 (e1 i (by omega)).1 (e2 i j hij hj)
  · exact mono _ _ hq (e1 i hi).1 (e3 q hq hne i hi)

end

/-- Non-vacuity of C101: parameter files with arbitrary contents (the entry `name` holds `F' name`, `D' name` or `B' name`
according to its rank), the image size of the program, and `std::sort` as merge sort. -/
example (F' : String → Nat → Nat → Nat → Nat → ℝ) (D' : String → Nat → Nat → ℝ) (B' : String → Nat → ℝ) :
    let p : String → Init ℝ := fun s dims _ =>
      match dims with
      | [a, b, c, d] => .ok (tab [a, b, c, d] (fn4 (F' s))).data
      | [a, b] => .ok (tab [a, b] (fn2 (D' s))).data
      | [a] => .ok (tab [a] (fn1 (B' s))).data
      | _ => .ub
    LoadsConv p (fun e => F' (e ++ "_W")) (fun e => B' (e ++ "_b")) ∧
    LoadsDense p (fun e => D' (e ++ "_W")) (fun e => B' (e ++ "_b")) (224 / 32 * (224 / 32) * 512) ∧
    (224 * 224 ≤ 2 ^ 25 ∧ 32 ∣ 224) ∧ ¬ 32 ∣ 100 :=
  ⟨fun _ _ => ⟨fun _ _ => rfl, fun _ _ => rfl⟩, fun _ _ => ⟨fun _ _ => rfl, fun _ _ => rfl⟩, by decide, by decide⟩

theorem scoped_composed {β : Type} {R : Type} (f g : LayerFn R) (x : Tensor R) (K : Tensor R → Alloc β) :
    Alloc.scoped (composed f g x) (fun l => K l.output) =
      Alloc.scoped (f x) fun l => Alloc.scoped (g l.output) fun l => K l.output := by
  unfold composed Alloc.scoped Alloc.freeing
  rcases hf : f x with ⟨k, (l | e | _)⟩
  · rcases hg : g l.output with ⟨k', (l' | e | _)⟩
    · simp only [hg, Alloc.mk.injEq, and_true]
      omega
    · simp only [hg]
    · simp only [hg]
  · rfl
  · rfl

theorem scoped_identity {β : Type} {R : Type} [Zero R] (junk : Nat → R) {x : Tensor R} (hx : x.WF) (K : Tensor R → Alloc β) :
    Alloc.scoped (Layers.identity junk x) (fun l => K l.output) = K x := by
  rw [identity_run junk hx]
  show (⟨1 + (K x).live - ((1 : Nat) : Int), (K x).out⟩ : Alloc β) = K x
  rcases K x with ⟨k, o⟩
  simp

theorem scoped_congr {β : Type} {R : Type} {a : Alloc (Layer R)} {k k' : Layer R → Alloc β}
    (h : ∀ l, a.out = .ok l → k l = k' l) : Alloc.scoped a k = Alloc.scoped a k' := by
  unfold Alloc.scoped
  rcases e : a.out with l | e | _
  · simp only [h l e]
  · rfl
  · rfl

theorem forRange_keeps {σ : Type} {n : Nat} {f : Nat → σ → Outcome σ} (P : σ → Prop)
    (hf : ∀ i s s', P s → f i s = .ok s' → P s') {s s' : σ} (h0 : P s) (h : forRange n f s = .ok s') : P s' := by
  induction n generalizing s' with
  | zero => cases h; exact h0
  | succ n ih =>
    rw [forRange_succ] at h
    rcases e : forRange n f s with t | _ | _ <;> rw [e] at h
    · exact hf n t s' (ih e) h
    · cases h
    · cases h

theorem onSlice_keeps {R : Type} {off len : Nat} {g : List R → Outcome (List R)}
    (hg : ∀ s s', g s = .ok s' → s'.length = s.length) {b b' : List R} (h : onSlice off len g b = .ok b') :
    b'.length = b.length := by
  unfold onSlice at h
  split at h
  · rename_i hle
    rcases e : g ((b.drop off).take len) with t | _ | _ <;> rw [e] at h
    · cases h
      have := hg _ _ e
      simp at this ⊢
      omega
    · cases h
    · cases h
  · cases h

theorem poolHwc_keeps {R : Type} (acc : Acc R) (t : PoolTrait) (ydims : List Nat) (x : Tensor R) {y y' : List R}
    (h : Kernels.poolHwc acc t ydims x y = .ok y') : y'.length = y.length := by
  unfold Kernels.poolHwc at h
  split at h
  · obtain ⟨_, -, h⟩ := Outcome.bind_eq_ok.1 h
    refine forRange_keeps (fun s => s.length = y.length) (fun k s s' hs h => ?_) rfl h
    refine forRange_keeps (fun s => s.length = y.length) (fun k s s' hs h => ?_) hs h
    refine forRange_keeps (fun s => s.length = y.length) (fun k s s' hs h => ?_) hs h
    obtain ⟨st, -, h⟩ := Outcome.bind_eq_ok.1 h
    obtain ⟨v, -, h⟩ := Outcome.bind_eq_ok.1 h
    unfold wr at h
    split at h
    · cases h; simpa using hs
    · cases h
  · cases h

theorem newResult_wf {R : Type} {junk : Nat → R} {shape : Outcome (List Nat)} {op : List Nat → List R → Outcome (List R)}
    (hop : ∀ s m m', op s m = .ok m' → m'.length = m.length) {y : Tensor R} (h : (Layers.newResult junk shape op).out = .ok y) :
    y.WF := by
  unfold Layers.newResult at h
  rcases shape with s | _ | _
  · obtain ⟨d, e, h⟩ := Outcome.bind_eq_ok.1 h
    cases h
    exact (hop _ _ _ e).trans (Layers.fresh_length _ _)
  · cases h
  · cases h

theorem alloc_bind_ok {α β : Type} {x : Alloc α} {f : α → Alloc β} {b : β} (h : (Alloc.bind x f).out = .ok b) :
    ∃ a, x.out = .ok a ∧ (f a).out = .ok b := by
  unfold Alloc.bind at h
  rcases e : x.out with a | _ | _ <;> rw [e] at h
  · exact ⟨a, rfl, h⟩
  · cases h
  · cases h

theorem poolNhwc_keeps {R : Type} (acc : Acc R) (t : PoolTrait) (s : List Nat) (x : Tensor R) {y y' : List R}
    (h : Ops.poolNhwc acc t s x y = .ok y') : y'.length = y.length := by
  unfold Ops.poolNhwc at h
  obtain ⟨op, -, h⟩ := Outcome.bind_eq_ok.1 h
  split at h
  · exact forRange_keeps (fun z => z.length = y.length) (fun k y y' hy h =>
      (onSlice_keeps (fun _ _ h => poolHwc_keeps _ _ _ _ h) h).trans hy) rfl h
  · cases h

theorem pool_wf {R : Type} (junk : Nat → R) (acc : Acc R) (t : PoolLayer) {x : Tensor R} {l : Layer R}
    (h : (Layers.pool .nhwc junk acc t x).out = .ok l) : l.output.WF := by
  obtain ⟨_, -, h⟩ := alloc_bind_ok h
  obtain ⟨op, -, h⟩ := alloc_bind_ok h
  obtain ⟨y, e, h⟩ := alloc_bind_ok h
  cases h
  exact newResult_wf (fun s m m' h => poolNhwc_keeps acc op s x h) e

theorem composed_out {R : Type} {f g : LayerFn R} {x : Tensor R} {l : Layer R} (h : (composed f g x).out = .ok l) :
    ∃ y, (g y).out = .ok l := by
  unfold composed at h
  dsimp only at h
  split at h
  · exact ⟨_, h⟩
  · cases h
  · cases h

/-- Layers called one after the other, all kept to the end. -/
def chain {R β : Type} (K : Tensor R → Alloc β) : List (LayerFn R) → Tensor R → Alloc β
  | [] => K
  | f :: ls => fun x => Alloc.scoped (f x) fun l => chain K ls l.output

theorem chain_foldl {R β : Type} (K : Tensor R → Alloc β) (ls : List (LayerFn R)) (f : LayerFn R) (x : Tensor R) :
    Alloc.scoped (ls.foldl composed f x) (fun l => K l.output) = Alloc.scoped (f x) fun l => chain K ls l.output := by
  induction ls generalizing f with
  | nil => rfl
  | cons g ls ih => rw [List.foldl_cons, ih, scoped_composed f g x (chain K ls)]; rfl

theorem chain_sequential {R β : Type} [Zero R] (junk : Nat → R) (K : Tensor R → Alloc β) (ls : List (LayerFn R)) {x : Tensor R}
    (hx : x.WF) : Alloc.scoped (sequential junk ls x) (fun l => K l.output) = chain K ls x := by
  unfold sequential makeSequential
  rw [chain_foldl, scoped_identity junk hx]

section
variable {R : Type} [Zero R] [One R] [Add R] [Sub R] [Mul R] [Div R] [LT R] [DecidableLT R] (J : Nat → Nat → R)
  (junkI : Nat → Int) (lowest : R) (exp : R → R) (eps : R) (p : String → Init R)

/-- C103: the program written layer by layer and the program written with sequential models behave the same, for every image,
every contents of the parameter files (also missing or malformed ones) and every number type: same result or same exception,
and the same amount of memory left behind. -/
theorem C103_same (sort : List (R × Int) → List (R × Int)) (jz : Nat → Int) {x : Tensor R} (hx : x.WF) (m : Nat) :
    runLayers J junkI lowest exp eps p sort jz x m = run J junkI lowest exp eps p sort jz x m := by
  let K2 : Tensor R → Alloc (List R × List Int) := fun out => Alloc.lift (do
    let k ← getDim (some 1) out.dims
    let row ← rowOf k out.data 0
    Kernels.top u32 sort row ((List.range m).map (J 2)) ((List.range m).map jz))
  let K1 : Tensor R → Alloc (List R × List Int) := fun l5 =>
    chain K2 [dense J Layers.reluAct p 19 4096 "fc6", dense J Layers.reluAct p 20 4096 "fc7",
      dense J Layers.noopAct p 21 1000 "fc8", softmax J exp eps 22] ⟨asMatrix 1 l5.dims, l5.data⟩
  have e : run J junkI lowest exp eps p sort jz x m = Alloc.scoped (convLayers J junkI lowest p x) fun l => K1 l.output := by
    refine scoped_congr fun l hl => ?_
    have hw : l.output.WF := by
      unfold convLayers sequential makeSequential at hl
      simp only [List.foldl_cons, List.foldl_nil] at hl
      obtain ⟨y, hy⟩ := composed_out hl
      exact pool_wf _ _ _ hy
    refine chain_sequential (J 1) K2 _ ?_
    show l.output.data.length = (asMatrix 1 l.output.dims).prod
    have : (asMatrix 1 l.output.dims).prod = l.output.dims.prod := by
      rw [asMatrix, List.prod_cons, List.prod_singleton, List.prod_take_mul_prod_drop]
    rw [this]
    exact hw
  rw [e]
  unfold convLayers
  rw [chain_sequential (J 0) K1 _ hx]
  rfl

end

/-- Non-vacuity of C103: two programs that fail in the same way, for parameter files that do not exist. -/
example : run (fun _ _ => (0 : Int)) (fun _ => 0) (-9) id 0 (fun _ _ _ => .throw .runtimeError) id (fun _ => 0)
      ⟨[1, 1, 1, 1], [5]⟩ 1 = runLayers (fun _ _ => (0 : Int)) (fun _ => 0) (-9) id 0 (fun _ _ _ => .throw .runtimeError) id
      (fun _ => 0) ⟨[1, 1, 1, 1], [5]⟩ 1 :=
  (C103_same _ _ _ _ _ _ _ _ (x := ⟨[1, 1, 1, 1], [5]⟩) (by simp [Tensor.WF]) _).symm

/-- C102: the names read from a file of lines, each ended by a line feed, followed by a rest without one, are the lines, and
the rest unless it is empty. -/
theorem C102_lines (ls : List (List Char)) (rest : List Char) (hl : ∀ l ∈ ls, '\n' ∉ l) (hr : '\n' ∉ rest) :
    lines (ls.flatMap (· ++ ['\n']) ++ rest) = ls ++ if rest = [] then [] else [rest] := by
  have skip : ∀ (a cur cs : List Char), '\n' ∉ a → lines.go cur (a ++ cs) = lines.go (cur ++ a) cs := by
    intro a
    induction a with
    | nil => intro cur cs _; simp
    | cons c a ih =>
      intro cur cs h
      simp only [List.mem_cons, not_or] at h
      rw [List.cons_append, lines.go, if_neg (Ne.symm h.1), ih _ _ h.2, List.append_assoc]
      rfl
  unfold lines
  induction ls with
  | nil =>
    have := skip rest [] [] hr
    simp only [List.append_nil, List.nil_append] at this
    simp [this, lines.go]
  | cons l ls ih =>
    rw [List.flatMap_cons, List.append_assoc, List.append_assoc, skip _ _ _ (hl l (by simp))]
    simp only [List.nil_append, List.cons_append, lines.go, if_true]
    rw [ih fun l h => hl l (by simp [h])]

/-- C102: every file is of this form, in one way: `lines` returns its lines whatever the contents. -/
theorem C102_every (cs : List Char) : ∃ (ls : List (List Char)) (rest : List Char), (∀ l ∈ ls, '\n' ∉ l) ∧ '\n' ∉ rest ∧
    cs = ls.flatMap (· ++ ['\n']) ++ rest ∧ ls.length = cs.count '\n' ∧ lines cs = ls ++ if rest = [] then [] else [rest] := by
  have key : ∃ (ls : List (List Char)) (rest : List Char), (∀ l ∈ ls, '\n' ∉ l) ∧ '\n' ∉ rest ∧
      cs = ls.flatMap (· ++ ['\n']) ++ rest ∧ ls.length = cs.count '\n' := by
    induction cs with
    | nil => exact ⟨[], [], by simp, by simp, rfl, rfl⟩
    | cons c cs ih =>
      obtain ⟨ls, rest, h1, h2, h3, h4⟩ := ih
      by_cases hc : c = '\n'
      · exact ⟨[] :: ls, rest, by simpa using h1, h2, by simp [hc, h3], by simp [hc, h4]⟩
      · match ls, h1, h3, h4 with
        | [], h1, h3, h4 => exact ⟨[], c :: rest, by simp, by simp [h2, Ne.symm hc], by simp [h3], by
            rw [List.count_cons_of_ne (by simpa using hc)]; exact h4⟩
        | l :: ls, h1, h3, h4 => exact ⟨(c :: l) :: ls, rest, by
            intro l' hl'
            rcases List.mem_cons.1 hl' with rfl | h
            · simp [Ne.symm hc, h1 l]
            · exact h1 l' (by simp [h]), h2, by simp [h3], by
            rw [List.count_cons_of_ne (by simpa using hc)]; exact h4⟩
  obtain ⟨ls, rest, h1, h2, rfl, h4⟩ := key
  exact ⟨ls, rest, h1, h2, rfl, h4, C102_lines ls rest h1 h2⟩

example : lines "tench\ngoldfish\n\nshark".toList = ["tench".toList, "goldfish".toList, [], "shark".toList] := by decide

/-- C102: the picture read is the contents of the file with the mean colour subtracted from every pixel. -/
theorem C102_image {R : Type} [Zero R] [Sub R] {h w c : Nat} {file : Init R} (X : Nat → Nat → Nat → R) (M : Nat → R)
    {x : List R} (hx : x.length = [1, h, w, c].prod) (hf : file [h, w, c] x = .ok (tab [h, w, c] (fn3 X)).data) :
    readImage file (tab [c] (fn1 M)).data [1, h, w, c] x =
      .ok (tab [1, h, w, c] (fn4 fun _ i j k => X i j k - M k)).data := by
  unfold readImage
  simp only
  have e : onSlice 0 [h, w, c].prod (file [h, w, c]) x = .ok (tab [h, w, c] (fn3 X)).data := by
    have hl : x.length = [h, w, c].prod := by simpa using hx
    unfold onSlice
    rw [if_pos (by omega), List.drop_zero, ← hl, List.take_length, hf]
    simp
  rw [e, Outcome.ok_bind]
  have e2 : (tab [h, w, c] (fn3 X)).data = (tab [1, h, w, c] (fn4 fun _ i j k => X i j k)).data := by
    refine data_eq_tab (by simp) fun idx hv => ?_
    match idx, hv with
    | [0, i, j, k], hv =>
      have := tab_getElem? (dims := [h, w, c]) (idx := [i, j, k]) (fn3 X) hv.2
      simpa [offset] using this
    | [b + 1, i, j, k], hv => exact absurd hv.1 (by omega)
  rw [e2]
  refine (C22_bias_nhwc (· - ·) (x := .mem 0) (z := 0) (fun _ i j k => X i j k) M ?_ ?_).trans ?_
  · exact ⟨.inl rfl, fun i _ => by rw [Nat.zero_add]⟩
  · simp
  · rw [store_all (by simp)]

/-- Non-vacuity: a picture of one row and two pixels of two channels. -/
example : readImage (fun _ _ => .ok [10, 20, 30, 40]) [1, 2] [1, 1, 2, 2] [0, 0, 0, (0 : Int)] = .ok [9, 18, 29, 38] := by
  decide

end Vgg16
end StdNN
