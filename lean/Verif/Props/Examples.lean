import Verif.Model.Examples
import Verif.Spec.Examples
import Verif.Props.Vgg16
import Verif.Props.Safety
/-!
# The small example programs

C125: they run to the end for every contents of the memory they do not initialise, and what they compute.
-/
namespace StdNN
open Outcome Finset Spec IntTy Models

namespace Examples

/-- The axis of a `k`-tap filter with stride `s` and `p` zeros on both sides. -/
def axis (k s p n m : Nat) : Axis := ⟨k, s, 1, p, p, n, m⟩

theorem axis_ok {k s p n m : Nat} (k1 : 1 ≤ k) (s1 : 1 ≤ s) (hk : k < 2 ^ 16) (hs : s < 2 ^ 16) (hp : p < 2 ^ 16)
    (hn : n < 2 ^ 31) (m1 : 1 ≤ m) (e : (m - 1) * s + k = p + n + p) : AxisOK u32 (axis k s p n m) := by
  have i : ∀ {a : Nat}, a < 2 ^ 32 → u32.In (a : Int) := fun h => Vgg16.u32_in h
  have ep : patch k 1 = k := patch_one k k1
  have f : Fits u32 u32 k s 1 p p n := ⟨u32_std, u32_std, k1, s1, le_refl 1, i (by omega), i (by omega), i (by decide),
    i (by omega), i (by omega), i (by omega), i (by omega), by rw [ep]; exact i (by omega), by rw [ep]; exact i (by omega)⟩
  exact ⟨f, m1, by show (m - 1) * s + patch k 1 = p + n + p; rw [ep]; exact e⟩

theorem conv2_corr (k s p h w c m m' : Nat) (F : Nat → Nat → Nat → Nat → ℝ) (X : Nat → Nat → Nat → ℝ) :
    conv2 (axis k s p h m) (axis k s p w m') c X F = corr k s p h w c F X := by
  funext i j e
  unfold conv2 corr
  simp only [window_eq, axis, Axis.pos, mul_one, Nat.mul_comm s]

theorem conv_run {k s p n h w c d m m' : Nat} {t : ConvTrait} (hH : AxisOK u32 (axis k s p h m))
    (hW : AxisOK u32 (axis k s p w m')) (ht : t = convTrait (axis k s p h m) (axis k s p w m'))
    (hsz : h * w * c ≤ 2 ^ 31) (junkZ : Nat → ℝ) (junkI : Nat → Int) (junk : Nat → ℝ) (X : Nat → Nat → Nat → Nat → ℝ)
    (F : Nat → Nat → Nat → Nat → ℝ) :
    conv t junkZ junkI junk (tab [n, h, w, c] (fn4 X)) (tab [k, k, c, d] (fn4 F)) =
      .ok (tab [n, m, m', d] (fn4 fun b => corr k s p h w c F (X b))) := by
  subst ht
  have e1 : (convTrait (axis k s p h m) (axis k s p w m')).infer .nhwc .rscd [n, h, w, c] [k, k, c, d] = .ok [n, m, m', d] :=
    C09_conv_shape (io := .nhwc) (fo := .rscd) (.inl ⟨rfl, rfl⟩) hH hW (c := c) (xs := [n, h, w, c]) rfl
  have e2 := C31_conv_nhwc hH hW (n := n) (c := c) (d := d) (by simpa [axis, mul_assoc] using hsz) X F junkI junk
    (z := fresh junkZ [n, m, m', d].prod) (Layers.fresh_length ..)
  simp only [conv2_corr] at e2
  unfold conv
  simp only [tab_dims]
  rw [e1, Outcome.ok_bind]
  simp only [axis] at e2 ⊢
  rw [e2, Outcome.ok_bind]
  rfl

theorem pool_run {n h w c : Nat} (d1 : 2 ∣ h) (d2 : 2 ∣ w) (h1 : 1 ≤ h) (w1 : 1 ≤ w) (hh : h < 2 ^ 31) (hw : w < 2 ^ 31)
    {lowest : ℝ} (junkZ : Nat → ℝ) (X : Nat → Nat → Nat → Nat → ℝ)
    (hlow : ∀ b < n, ∀ i < h, ∀ j < w, ∀ k < c, lowest ≤ X b i j k) :
    ∃ (t : PoolTrait) (Z : Nat → Nat → Nat → Nat → ℝ), PoolTrait.default = .ok t ∧
      pool t (Acc.max lowest) junkZ (tab [n, h, w, c] (fn4 X)) = .ok (tab [n, h / 2, w / 2, c] (fn4 Z)) ∧
      ∀ b < n, ∀ i < h / 2, ∀ j < w / 2, ∀ k < c, IsTileMax 2 h w (fun a a' => X b a a' k) i j (Z b i j k) := by
  obtain ⟨-, hH⟩ := tile_ok (k := 2) (by decide) d1 h1 (Vgg16.u32_in (by omega)) (by decide)
  obtain ⟨-, hW⟩ := tile_ok (k := 2) (by decide) d2 w1 (Vgg16.u32_in (by omega)) (by decide)
  have mk := pool_make hH hW rfl rfl
  refine ⟨poolTrait (tileAxis 2 h) (tileAxis 2 w), _, mk, ?_, fun b hb i hi j hj k hk => fold_tile (lowest := lowest)
    (by decide) (by decide) d1 d2 (fun a a' => X b a a' k) (fun a ha a' ha' => hlow b hb a ha a' ha' k hk) hi hj⟩
  have s : Ops.pooledShape .nhwc (poolTrait (tileAxis 2 h) (tileAxis 2 w)) [n, h, w, c] = .ok [n, h / 2, w / 2, c] := by
    have := (C10_pool_shape hH hW rfl rfl (o := .nhwc) (n := n) (c := c) (xs := [n, h, w, c]) rfl).1
    rw [mk, Outcome.ok_bind] at this
    exact this
  have r := Ops.poolNhwc_run hH hW rfl rfl (Acc.max lowest) (n := n) (c := c) X _ (fun b _ i _ j _ k _ => max_run lowest _)
    (Layers.fresh_length junkZ _)
  unfold pool
  simp only [tab_dims]
  rw [s, Outcome.ok_bind]
  simp only [tileAxis] at r ⊢
  rw [r]
  rfl

theorem default_eq (h w : Nat) : PoolTrait.default = .ok (poolTrait (tileAxis 2 h) (tileAxis 2 w)) := by
  obtain ⟨-, hH⟩ := tile_ok (k := 2) (n := 2) (by decide) (by decide) (by decide) (by decide) (by decide)
  have mk := pool_make hH hH rfl rfl
  have e : poolTrait (tileAxis 2 2) (tileAxis 2 2) = poolTrait (tileAxis 2 h) (tileAxis 2 w) := rfl
  rw [← e]
  exact mk

theorem tile_fits {h : Nat} (hh : h < 2 ^ 31) : Fits u32 u32 2 2 1 0 0 h := by
  have i : ∀ {a : Nat}, a < 2 ^ 32 → u32.In (a : Int) := fun h => Vgg16.u32_in h
  exact ⟨u32_std, u32_std, by decide, by decide, le_refl 1, i (by decide), i (by decide), i (by decide),
    i (by decide), i (by decide), i (by omega), i (by omega), i (by decide), i (by decide)⟩

theorem odd_tile {h : Nat} (hd : ¬ 2 ∣ h) (m : Nat) : ¬ OutLen 2 2 1 0 0 h m := by
  rintro ⟨h1, h2⟩
  have : patch 2 1 = 2 := rfl
  omega

theorem pool_fails {n h w c : Nat} (hh : h < 2 ^ 31) (hw : w < 2 ^ 31) (hd : ¬ (2 ∣ h ∧ 2 ∣ w)) {t : PoolTrait}
    (ht : PoolTrait.default = .ok t) (acc : Acc ℝ) (junkZ : Nat → ℝ) (d : List ℝ) :
    pool t acc junkZ ⟨[n, h, w, c], d⟩ = .throw .invalidArgument := by
  rw [default_eq h w] at ht
  cases ht
  have r := (C10_rejects (H := tileAxis 2 h) (W := tileAxis 2 w) (tile_fits hh) (tile_fits hw)
    ((not_and_or.1 hd).imp odd_tile odd_tile) (o := .nhwc) (n := n) (c := c) (xs := [n, h, w, c]) rfl).1
  unfold pool
  simp only
  rw [r]
  rfl

theorem half {h : Nat} (d : 4 ∣ h) : 2 ∣ h ∧ 2 ∣ h / 2 ∧ h / 2 / 2 = h / 4 := by omega

theorem two_tiles {h w : Nat} (dh : 4 ∣ h) (dw : 4 ∣ w) {X Z : Nat → Nat → ℝ}
    (hZ : ∀ i < h / 2, ∀ j < w / 2, IsTileMax 2 h w X i j (Z i j)) {i j : Nat} {z : ℝ}
    (hz : IsTileMax 2 (h / 2) (w / 2) Z i j z) : IsTileMax 4 h w X i j z := by
  obtain ⟨u, a, ha, b, hb, ea, eb, rfl⟩ := hz
  constructor
  · intro p hp q hq ep eq
    exact le_trans ((hZ (p / 2) (by omega) (q / 2) (by omega)).1 p hp q hq rfl rfl)
      (u (p / 2) (by omega) (q / 2) (by omega) (by omega) (by omega))
  · obtain ⟨-, p, hp, q, hq, ep, eq, e⟩ := hZ a ha b hb
    exact ⟨p, hp, q, hq, by omega, by omega, e⟩

theorem tab_eta (ds : List Nat) (f : List Nat → ℝ) : (⟨ds, (tab ds f).data⟩ : Tensor ℝ) = tab ds f := rfl

section
variable (J : Nat → Nat → ℝ) (junkI : Nat → Int) {lowest : ℝ} {n h w c : Nat}

theorem pad1_ok {h : Nat} (h1 : 1 ≤ h) (hh : h < 2 ^ 31) : AxisOK u32 (axis 3 1 1 h h) :=
  axis_ok (by decide) (by decide) (by decide) (by decide) (by decide) hh h1 (by omega)

/-- C125: the program of two convolutions and two poolings runs to the end on every batch of images whose sides are multiples
of four, whatever its images and filters contain. The convolutions keep the image size, and the last result holds the greatest
value of every 4 × 4 tile of the second convolution. -/
theorem C125_mlp (h1 : 1 ≤ h) (w1 : 1 ≤ w) (hh : h < 2 ^ 31) (hw : w < 2 ^ 31) (dh : 4 ∣ h) (dw : 4 ∣ w)
    (hc : h * w * c ≤ 2 ^ 31) (h32 : h * w * 32 ≤ 2 ^ 31) (X F G : Nat → Nat → Nat → Nat → ℝ) :
    let L1 := fun b => corr 3 1 1 h w c F (X b)
    let L2 := fun b => corr 3 1 1 h w 32 G (L1 b)
    (∀ b < n, ∀ i < h, ∀ j < w, ∀ k < 64, lowest ≤ L2 b i j k) →
    ∃ Z3 Z4 : Nat → Nat → Nat → Nat → ℝ,
      mlp J junkI lowest n h w c (tab [n, h, w, c] (fn4 X)).data (tab [3, 3, c, 32] (fn4 F)).data
          (tab [3, 3, 32, 64] (fn4 G)).data =
        .ok (tab [n, h, w, 32] (fn4 L1), tab [n, h, w, 64] (fn4 L2), tab [n, h / 2, w / 2, 64] (fn4 Z3),
          tab [n, h / 4, w / 4, 64] (fn4 Z4)) ∧
      (∀ b < n, ∀ i < h / 2, ∀ j < w / 2, ∀ k < 64, IsTileMax 2 h w (fun p q => L2 b p q k) i j (Z3 b i j k)) ∧
      ∀ b < n, ∀ i < h / 4, ∀ j < w / 4, ∀ k < 64, IsTileMax 4 h w (fun p q => L2 b p q k) i j (Z4 b i j k) := by
  intro L1 L2 hlow
  obtain ⟨a1, a2, a3⟩ := half dh
  obtain ⟨b1, b2, b3⟩ := half dw
  obtain ⟨t, Z3, et, e3, t3⟩ := pool_run (n := n) (c := 64) a1 b1 h1 w1 hh hw (J 4) L2 hlow
  have low3 : ∀ b < n, ∀ i < h / 2, ∀ j < w / 2, ∀ k < 64, lowest ≤ Z3 b i j k := by
    intro b hb i hi j hj k hk
    obtain ⟨-, p, hp, q, hq, -, -, e⟩ := t3 b hb i hi j hj k hk
    rw [e]
    exact hlow b hb p hp q hq k hk
  obtain ⟨t', Z4, et', e4, t4⟩ := pool_run (n := n) (c := 64) a2 b2 (by omega) (by omega) (by omega) (by omega) (J 5) Z3 low3
  obtain rfl : t = t' := by rw [et] at et'; exact Outcome.ok.inj et'
  rw [a3, b3] at e4
  rw [a3, b3] at t4
  refine ⟨Z3, Z4, ?_, t3, fun b hb i hi j hj k hk => two_tiles dh dw (fun i hi j hj => t3 b hb i hi j hj k hk)
    (t4 b hb i hi j hj k hk)⟩
  have c1 := conv_run (k := 3) (s := 1) (p := 1) (n := n) (d := 32) (c := c) (t := ConvTrait.makeP (Padding.same 1, Padding.same 1))
    (pad1_ok h1 hh) (pad1_ok w1 hw) rfl hc (J 0) junkI (J 1) X F
  have c2 := conv_run (k := 3) (s := 1) (p := 1) (n := n) (d := 64) (c := 32) (t := ConvTrait.makeP (Padding.same 1, Padding.same 1))
    (pad1_ok h1 hh) (pad1_ok w1 hw) rfl h32 (J 2) junkI (J 3) L1 G
  unfold mlp
  simp only [tab_eta]
  rw [et, Outcome.ok_bind, c1, Outcome.ok_bind, c2, Outcome.ok_bind, e3, Outcome.ok_bind, e4]
  rfl

/-- C125: on all other sides `std::invalid_argument` is thrown. -/
theorem C125_mlp_rejects (h1 : 1 ≤ h) (w1 : 1 ≤ w) (hh : h < 2 ^ 31) (hw : w < 2 ^ 31) (hd : ¬ (4 ∣ h ∧ 4 ∣ w))
    (hc : h * w * c ≤ 2 ^ 31) (h32 : h * w * 32 ≤ 2 ^ 31) (X F G : Nat → Nat → Nat → Nat → ℝ)
    (hlow : ∀ b < n, ∀ i < h, ∀ j < w, ∀ k < 64,
      lowest ≤ corr 3 1 1 h w 32 G (corr 3 1 1 h w c F (X b)) i j k) :
    mlp J junkI lowest n h w c (tab [n, h, w, c] (fn4 X)).data (tab [3, 3, c, 32] (fn4 F)).data
      (tab [3, 3, 32, 64] (fn4 G)).data = .throw .invalidArgument := by
  have c1 := conv_run (k := 3) (s := 1) (p := 1) (n := n) (d := 32) (c := c) (t := ConvTrait.makeP (Padding.same 1, Padding.same 1))
    (pad1_ok h1 hh) (pad1_ok w1 hw) rfl hc (J 0) junkI (J 1) X F
  have c2 := conv_run (k := 3) (s := 1) (p := 1) (n := n) (d := 64) (c := 32) (t := ConvTrait.makeP (Padding.same 1, Padding.same 1))
    (pad1_ok h1 hh) (pad1_ok w1 hw) rfl h32 (J 2) junkI (J 3) (fun b => corr 3 1 1 h w c F (X b)) G
  have et := default_eq h w
  unfold mlp
  simp only [tab_eta]
  rw [et, Outcome.ok_bind, c1, Outcome.ok_bind, c2, Outcome.ok_bind]
  by_cases d2 : 2 ∣ h ∧ 2 ∣ w
  · obtain ⟨t, Z3, et', e3, t3⟩ := pool_run (n := n) (c := 64) d2.1 d2.2 h1 w1 hh hw (J 4) _ hlow
    obtain rfl : poolTrait (tileAxis 2 h) (tileAxis 2 w) = t := by rw [et] at et'; exact Outcome.ok.inj et'
    rw [e3, Outcome.ok_bind]
    have := pool_fails (n := n) (h := h / 2) (w := w / 2) (c := 64) (by omega) (by omega) (by omega) et (Acc.max lowest) (J 5)
      (tab [n, h / 2, w / 2, 64] (fn4 Z3)).data
    rw [tab_eta] at this
    rw [this]
    rfl
  · have := pool_fails (n := n) (h := h) (w := w) (c := 64) (by omega) (by omega) d2 et (Acc.max lowest) (J 4)
      (tab [n, h, w, 64] (fn4 fun b => corr 3 1 1 h w 32 G (corr 3 1 1 h w c F (X b)))).data
    rw [tab_eta] at this
    rw [this]
    rfl

/-- C125: the three convolutions of the first example, on images of at least 3 × 3 pixels with sides that are multiples of
four: without padding, with one row and column of zeros, and 4 × 4 filters in steps of four with two rows of zeros. -/
theorem C125_convs {d : Nat} (h3 : 3 ≤ h) (w3 : 3 ≤ w) (hh : h < 2 ^ 31) (hw : w < 2 ^ 31) (dh : 4 ∣ h) (dw : 4 ∣ w)
    (hc : h * w * c ≤ 2 ^ 31) (X Y Y4 : Nat → Nat → Nat → Nat → ℝ) :
    convs J junkI n h w c d (tab [n, h, w, c] (fn4 X)).data (tab [3, 3, c, d] (fn4 Y)).data (tab [4, 4, c, d] (fn4 Y4)).data =
      .ok (tab [n, h - 2, w - 2, d] (fn4 fun b => corr 3 1 0 h w c Y (X b)),
        tab [n, h, w, d] (fn4 fun b => corr 3 1 1 h w c Y (X b)),
        tab [n, h / 4 + 1, w / 4 + 1, d] (fn4 fun b => corr 4 4 2 h w c Y4 (X b))) := by
  have k0 : ∀ {h : Nat}, 3 ≤ h → h < 2 ^ 31 → AxisOK u32 (axis 3 1 0 h (h - 2)) := fun {h} h3 hh =>
    axis_ok (by decide) (by decide) (by decide) (by decide) (by decide) hh (by omega) (by omega)
  have k4 : ∀ {h : Nat}, 4 ∣ h → h < 2 ^ 31 → AxisOK u32 (axis 4 4 2 h (h / 4 + 1)) := fun {h} dh hh =>
    axis_ok (by decide) (by decide) (by decide) (by decide) (by decide) hh (by omega) (by omega)
  have c1 := conv_run (n := n) (d := d) (c := c) (t := ConvTrait.default) (k0 h3 hh) (k0 w3 hw) rfl hc (J 0) junkI (J 1) X Y
  have c2 := conv_run (n := n) (d := d) (c := c) (t := ConvTrait.makeP (Padding.same 1, Padding.same 1))
    (pad1_ok (by omega) hh) (pad1_ok (by omega) hw) rfl hc (J 2) junkI (J 3) X Y
  have c3 := conv_run (n := n) (d := d) (c := c) (t := ConvTrait.makePS (Padding.same 2, Padding.same 2) (4, 4))
    (k4 dh hh) (k4 dw hw) rfl hc (J 4) junkI (J 5) X Y4
  unfold convs
  simp only [tab_eta]
  rw [c1, Outcome.ok_bind, c2, Outcome.ok_bind, c3]
  rfl
end

theorem scoped_ok {β : Type} {x : Alloc (Layer ℝ)} {l : Layer ℝ} {q : Int} (hx : x = ⟨q, .ok l⟩) (hq : q = l.size)
    {k : Layer ℝ → Alloc β} {r : Outcome β} (hk : k l = ⟨0, r⟩) : Alloc.scoped x k = ⟨0, r⟩ := by
  subst hx hq
  unfold Alloc.scoped
  simp only [hk, Alloc.freeing]
  simp

theorem scoped_throw {β : Type} {x : Alloc (Layer ℝ)} {e : Err} (hx : x = ⟨0, .throw e⟩) {k : Layer ℝ → Alloc β} :
    Alloc.scoped x k = ⟨0, .throw e⟩ := by
  subst hx
  rfl

theorem valid3 {n : Nat} (h3 : 3 ≤ n) (hn : n < 2 ^ 31) :
    Sample.validPadding u32 3 1 1 n = .ok ⟨0, 0⟩ ∧ AxisOK u32 (axis 3 1 0 n (n - 2)) := by
  refine ⟨?_, axis_ok (by decide) (by decide) (by decide) (by decide) (by decide) hn (by omega) (by omega)⟩
  obtain ⟨l, q, e, hlt, -⟩ := valid_axis (k := 3) (s := 1) (r := 1) (n := n) (by decide) (by decide) (by decide) (by decide)
    (by decide) (by decide) (Vgg16.u32_in (by omega)) h3
  obtain ⟨rfl, rfl⟩ : l = 0 ∧ q = 0 := by omega
  exact e

theorem convLayer_run (JW JY JB : Nat → ℝ) (junkI : Nat → Int) (junk : Nat → ℝ) {n h w c d : Nat} (hd : d < 2 ^ 32) (h3 : 3 ≤ h)
    (w3 : 3 ≤ w) (hh : h < 2 ^ 31) (hw : w < 2 ^ 31) (hc : h * w * c ≤ 2 ^ 31) (X F : Nat → Nat → Nat → Nat → ℝ) (B : Nat → ℝ)
    (hF : fresh JW [3, 3, c, d].prod = (tab [3, 3, c, d] (fn4 F)).data) (hB : fresh JB [d].prod = (tab [d] (fn1 B)).data) :
    Layers.conv .nhwc .rscd JW JY JB junkI junk Layers.noopAct (ConvLayer.makeK d (3, 3)) (tab [n, h, w, c] (fn4 X))
        Layers.noopInit Layers.noopInit =
      ⟨3, .ok ⟨tab [n, h - 2, w - 2, d] (fn4 fun b i j e => corr 3 1 0 h w c F (X b) i j e + B e),
        [tab [3, 3, c, d] (fn4 F), tab [d] (fn1 B)]⟩⟩ := by
  obtain ⟨e1, o1⟩ := valid3 h3 hh
  obtain ⟨e2, o2⟩ := valid3 w3 hw
  have hf : (ConvLayer.makeK d (3, 3)).filters = d := Nat.mod_eq_of_lt hd
  have ha : HasAxes (ConvLayer.makeK d (3, 3)) (axis 3 1 0 h (h - 2)) (axis 3 1 0 w (w - 2)) := ⟨rfl, rfl, rfl, e1, e2⟩
  have key := C78_conv_nhwc JW JY JB junkI junk noop_acts o1 o2 ha (n := n) (c := c)
    (by simpa [axis, mul_assoc] using hc) X F B (wInit := Layers.noopInit) (bInit := Layers.noopInit)
    (by rw [hf]; exact congrArg Outcome.ok hF) (by rw [hf]; exact congrArg Outcome.ok hB)
  rw [hf] at key
  simp only [conv2_corr] at key
  exact key

theorem softmaxLayer_run (junk : Nat → ℝ) (eps : ℝ) (n k : Nat) (X : Nat → Nat → ℝ) :
    Layers.activation junk (fun s x m => Ops.softmax Real.exp eps s x.dims (.ext x.data) 0 m) (tab [n, k] (fn2 X)) =
      ⟨1, .ok ⟨tab [n, k] (fn2 fun b j => max eps (Spec.softmax k (X b) j)), []⟩⟩ := by
  have h := C51_value eps [n] k (fn2 X) 0 (fresh junk [n, k].prod) (by simp [Layers.fresh_length])
  rw [store_all (by simp [Layers.fresh_length])] at h
  have e : Layers.newResult junk (.ok [n, k])
      (fun s m => Ops.softmax Real.exp eps s [n, k] (.ext (tab [n, k] (fn2 X)).data) 0 m) = _ := Layers.newResult_run h
  have et : (tab [n, k] fun idx => max eps (Spec.softmax k (fun j => fn2 X (idx.dropLast ++ [j])) (idx.getLastD 0))) =
      tab [n, k] (fn2 fun b j => max eps (Spec.softmax k (X b) j)) := tab_congr fun idx hv => by
    match idx, hv with
    | [b, j], hv => simp
  rw [← et]
  show Alloc.bind _ _ = _
  simp only [Ops.endoShape, tab_dims]
  rw [e]
  rfl

section
variable (J : Nat → Nat → ℝ) (junkI : Nat → Int) {lowest eps : ℝ} {n h w c : Nat}

/-- C125: the program of layers runs to the end on every batch of images whose sides are multiples of four and at least eight,
whatever the memory of its weights holds (`F`, `B`, `G`, `C`, `D`, `E`), and releases all it allocated. The returned layers
hold these weights, and their outputs are two convolutions without padding plus bias, the greatest values of 4 × 4 tiles, an
affine map of these, and its softmax bounded below by `eps`; the loss has one entry per image. -/
theorem C125_layers (h8 : 8 ≤ h) (w8 : 8 ≤ w) (hh : h < 2 ^ 31) (hw : w < 2 ^ 31) (dh : 4 ∣ h) (dw : 4 ∣ w)
    (hc : h * w * c ≤ 2 ^ 31) (h32 : h * w * 32 ≤ 2 ^ 31) (X F G : Nat → Nat → Nat → Nat → ℝ) (B C : Nat → ℝ)
    (D : Nat → Nat → ℝ) (E : Nat → ℝ) (hF : fresh (J 0) [3, 3, c, 32].prod = (tab [3, 3, c, 32] (fn4 F)).data)
    (hB : fresh (J 2) [32].prod = (tab [32] (fn1 B)).data) (hG : fresh (J 4) [3, 3, 32, 64].prod = (tab [3, 3, 32, 64] (fn4 G)).data)
    (hC : fresh (J 6) [64].prod = (tab [64] (fn1 C)).data)
    (hD : fresh (J 9) [(h - 4) / 4 * ((w - 4) / 4) * 64, 1000].prod =
      (tab [(h - 4) / 4 * ((w - 4) / 4) * 64, 1000] (fn2 D)).data)
    (hE : fresh (J 11) [1000].prod = (tab [1000] (fn1 E)).data) :
    let m := (h - 4) / 4 * ((w - 4) / 4) * 64
    let L1 := fun b i j e => corr 3 1 0 h w c F (X b) i j e + B e
    let L2 := fun b i j e => corr 3 1 0 (h - 2) (w - 2) 32 G (L1 b) i j e + C e
    (∀ b < n, ∀ i < h - 4, ∀ j < w - 4, ∀ k < 64, lowest ≤ L2 b i j k) →
    ∃ Z : Nat → Nat → Nat → Nat → ℝ,
      let L4 := fun b => Vgg.affine m D E (Vgg.flat ((w - 4) / 4) 64 (Z b))
      layerMlp J junkI lowest Real.exp eps (tab [n, h, w, c] (fn4 X)) =
        ⟨0, .ok ([⟨tab [n, h - 2, w - 2, 32] (fn4 L1), [tab [3, 3, c, 32] (fn4 F), tab [32] (fn1 B)]⟩,
          ⟨tab [n, h - 4, w - 4, 64] (fn4 L2), [tab [3, 3, 32, 64] (fn4 G), tab [64] (fn1 C)]⟩,
          ⟨tab [n, (h - 4) / 4, (w - 4) / 4, 64] (fn4 Z), []⟩,
          ⟨tab [n, 1000] (fn2 L4), [tab [m, 1000] (fn2 D), tab [1000] (fn1 E)]⟩,
          ⟨tab [n, 1000] (fn2 fun b j => max eps (Spec.softmax 1000 (L4 b) j)), []⟩], [n])⟩ ∧
      ∀ b < n, ∀ i < (h - 4) / 4, ∀ j < (w - 4) / 4, ∀ k < 64,
        IsTileMax 4 (h - 4) (w - 4) (fun p q => L2 b p q k) i j (Z b i j k) := by
  intro m L1 L2 hlow
  obtain ⟨Z, e3, -, hZ⟩ := C79_max_partial (J 8) (k1 := 4) (k2 := 4) (n := n) (h := h - 4) (w := w - 4) (c := 64) (by decide)
    (by decide) (by omega) (by omega) (by omega) (by omega) (Vgg16.u32_in (by omega)) (Vgg16.u32_in (by omega)) (by decide)
    (by decide) L2 hlow
  refine ⟨Z, ?_, hZ⟩
  have c1 := convLayer_run (J 0) (J 1) (J 2) junkI (J 3) (n := n) (d := 32) (by decide) (by omega) (by omega) hh hw hc X F B hF hB
  have sz : (h - 2) * (w - 2) * 32 ≤ 2 ^ 31 :=
    (Nat.mul_le_mul_right _ (Nat.mul_le_mul (Nat.sub_le _ _) (Nat.sub_le _ _))).trans h32
  have c2 := convLayer_run (J 4) (J 5) (J 6) junkI (J 7) (n := n) (h := h - 2) (w := w - 2) (d := 64) (by decide) (by omega)
    (by omega) (by omega) (by omega) sz L1 G C hG hC
  have q1 : h - 2 - 2 = h - 4 := by omega
  have q2 : w - 2 - 2 = w - 4 := by omega
  rw [q1, q2] at c2
  have d := C77_dense (J 9) (J 10) (J 11) noop_acts (n := n) (m := m) (k := 1000) (by decide)
    (fun b => Vgg.flat ((w - 4) / 4) 64 (Z b)) D E (wInit := Layers.noopInit) (bInit := Layers.noopInit)
    (congrArg Outcome.ok hD) (congrArg Outcome.ok hE)
  simp only [seqSum_eq_sum] at d
  have sm := softmaxLayer_run (J 12) eps n 1000 fun b => Vgg.affine m D E (Vgg.flat ((w - 4) / 4) 64 (Z b))
  have fl := Vgg16.flatten n ((h - 4) / 4) ((w - 4) / 4) 64 Z
  refine scoped_ok c1 rfl ?_
  refine scoped_ok c2 rfl ?_
  refine scoped_ok e3 rfl ?_
  dsimp only [tab_dims]
  rw [fl]
  refine scoped_ok d rfl ?_
  refine scoped_ok sm rfl ?_
  dsimp only [tab_dims]
  rw [Ops.binaryReduceShape, if_neg (by simp), if_neg (by simp)]
  rfl

/-- C125: on images of at least 5 × 5 pixels whose sides are not multiples of four the pooling layer throws
`std::runtime_error`; everything is released. -/
theorem C125_layers_rejects (h5 : 5 ≤ h) (w5 : 5 ≤ w) (hh : h < 2 ^ 31) (hw : w < 2 ^ 31) (hd : ¬ (4 ∣ h ∧ 4 ∣ w))
    (hc : h * w * c ≤ 2 ^ 31) (h32 : h * w * 32 ≤ 2 ^ 31) (X F G : Nat → Nat → Nat → Nat → ℝ) (B C : Nat → ℝ)
    (hF : fresh (J 0) [3, 3, c, 32].prod = (tab [3, 3, c, 32] (fn4 F)).data)
    (hB : fresh (J 2) [32].prod = (tab [32] (fn1 B)).data) (hG : fresh (J 4) [3, 3, 32, 64].prod = (tab [3, 3, 32, 64] (fn4 G)).data)
    (hC : fresh (J 6) [64].prod = (tab [64] (fn1 C)).data) (exp : ℝ → ℝ) :
    layerMlp J junkI lowest exp eps (tab [n, h, w, c] (fn4 X)) = ⟨0, .throw .runtimeError⟩ := by
  have c1 := convLayer_run (J 0) (J 1) (J 2) junkI (J 3) (n := n) (d := 32) (by decide) (by omega) (by omega) hh hw hc X F B hF hB
  have sz : (h - 2) * (w - 2) * 32 ≤ 2 ^ 31 :=
    (Nat.mul_le_mul_right _ (Nat.mul_le_mul (Nat.sub_le _ _) (Nat.sub_le _ _))).trans h32
  have c2 := convLayer_run (J 4) (J 5) (J 6) junkI (J 7) (n := n) (h := h - 2) (w := w - 2) (d := 64) (by decide) (by omega)
    (by omega) (by omega) (by omega) sz (fun b i j e => corr 3 1 0 h w c F (X b) i j e + B e) G C hG hC
  refine scoped_ok c1 rfl ?_
  refine scoped_ok c2 rfl ?_
  have r := C79_rejects (o := .nhwc) (J 8) (Acc.max lowest) (k1 := 4) (k2 := 4) (n := n) (h := h - 2 - 2) (w := w - 2 - 2)
    (c := 64) (xs := [n, h - 2 - 2, w - 2 - 2, 64]) (by decide) (by decide) (by decide) (by decide) (Vgg16.u32_in (by omega))
    (Vgg16.u32_in (by omega)) rfl (by omega)
    (tab [n, h - 2 - 2, w - 2 - 2, 64] (fn4 fun b i j e => corr 3 1 0 (h - 2) (w - 2) 32 G (fun i j e =>
      corr 3 1 0 h w c F (X b) i j e + B e) i j e + C e)).data
  rw [tab_eta] at r
  exact scoped_throw r

/-- The hypotheses about memory in `C125_layers` exclude nothing: whatever it holds is the contents of some tensor. -/
theorem C125_any_memory (junk : Nat → ℝ) (a b p q : Nat) :
    (∃ F : Nat → Nat → Nat → Nat → ℝ, fresh junk [a, b, p, q].prod = (tab [a, b, p, q] (fn4 F)).data) ∧
    (∃ W : Nat → Nat → ℝ, fresh junk [a, b].prod = (tab [a, b] (fn2 W)).data) ∧
    ∃ B : Nat → ℝ, fresh junk [a].prod = (tab [a] (fn1 B)).data := by
  have wf : ∀ d : List Nat, (⟨d, fresh junk d.prod⟩ : Tensor ℝ).WF := fun d => Layers.fresh_length junk d.prod
  obtain ⟨F, e⟩ := as4 (wf [a, b, p, q]) rfl
  obtain ⟨W, e2⟩ := as2 (wf [a, b]) rfl
  obtain ⟨B, e1⟩ := as1 (wf [a]) rfl
  exact ⟨⟨F, congrArg Tensor.data e⟩, ⟨W, congrArg Tensor.data e2⟩, B, congrArg Tensor.data e1⟩
end

theorem corr_nonneg {k s p h w c : Nat} {F : Nat → Nat → Nat → Nat → ℝ} {X : Nat → Nat → Nat → ℝ} (hF : ∀ u v a e, 0 ≤ F u v a e)
    (hX : ∀ i j a, 0 ≤ X i j a) (i j e : Nat) : 0 ≤ corr k s p h w c F X i j e :=
  sum_nonneg fun u _ => sum_nonneg fun v _ => sum_nonneg fun a _ => mul_nonneg (by split; exacts [hX _ _ _, le_refl _]) (hF _ _ _ _)

/-- Non-vacuity: the sizes of the programs, images of brightness row + column, filters of ones, numbers from zero up. -/
example (J : Nat → Nat → ℝ) :
    (1 ≤ 28 ∧ 28 < 2 ^ 31 ∧ 4 ∣ 28 ∧ 28 * 28 * 3 ≤ 2 ^ 31 ∧ 28 * 28 * 32 ≤ 2 ^ 31) ∧
    (∀ b < 10, ∀ i < 28, ∀ j < 28, ∀ k < 64, (0 : ℝ) ≤ corr 3 1 1 28 28 32 (fun _ _ _ _ => 1)
      (corr 3 1 1 28 28 3 (fun _ _ _ _ => 1) ((fun _ i j _ => (i : ℝ) + j : Nat → Nat → Nat → Nat → ℝ) b)) i j k) ∧
    ¬ (4 ∣ 30 ∧ 4 ∣ 28) ∧ (3 ≤ 512 ∧ 512 < 2 ^ 31 ∧ 4 ∣ 512 ∧ 512 * 512 * 3 ≤ 2 ^ 31) ∧
    (8 ≤ 32 ∧ 32 < 2 ^ 31 ∧ 4 ∣ 32 ∧ 32 * 32 * 3 ≤ 2 ^ 31 ∧ 32 * 32 * 32 ≤ 2 ^ 31 ∧ (32 - 4) / 4 = 7) ∧
    (∃ F : Nat → Nat → Nat → Nat → ℝ, fresh (J 0) [3, 3, 3, 32].prod = (tab [3, 3, 3, 32] (fn4 F)).data) ∧
    (∃ D : Nat → Nat → ℝ, fresh (J 9) [7 * 7 * 64, 1000].prod = (tab [7 * 7 * 64, 1000] (fn2 D)).data) :=
  ⟨by decide, fun b _ i _ j _ k _ => corr_nonneg (fun _ _ _ _ => zero_le_one)
    (corr_nonneg (fun _ _ _ _ => zero_le_one) fun _ _ _ => by positivity) i j k, by decide, by decide, by decide,
    (C125_any_memory (J 0) 3 3 3 32).1, (C125_any_memory (J 9) (7 * 7 * 64) 1000 0 0).2.1⟩

end Examples
end StdNN
