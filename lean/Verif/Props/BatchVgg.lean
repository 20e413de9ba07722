import Verif.Props.Batch
import Verif.Props.Vgg16
/-!
# C111 for the image classification example
-/
namespace StdNN
open IntTy Spec Outcome Layers Models

namespace Vgg16
variable {R : Type} [Zero R] [One R] [Add R] [Sub R] [Mul R] [Div R] [LT R] [DecidableLT R]

/-- The initialisers write the same complete contents whenever they are called: files that do not change. -/
def Steady (p : String → Init R) (k : Nat) : Prop :=
  (∀ e ∈ convTable, ∃ w b : List R, w.length = [3, 3, e.2.1, e.2.2].prod ∧ b.length = [e.2.2].prod ∧
    ∀ m, p (e.1 ++ "_W") [3, 3, e.2.1, e.2.2] m = .ok w ∧ p (e.1 ++ "_b") [e.2.2] m = .ok b) ∧
  ∀ e ∈ denseTable k, ∃ w b : List R, w.length = [e.2.1, e.2.2].prod ∧ b.length = [e.2.2].prod ∧
    ∀ m, p (e.1 ++ "_W") [e.2.1, e.2.2] m = .ok w ∧ p (e.1 ++ "_b") [e.2.2] m = .ok b

omit [One R] [Add R] [Sub R] [Mul R] [Div R] [LT R] [DecidableLT R] in
theorem list4 {a b c d : Nat} {v : List R} (h : v.length = [a, b, c, d].prod) :
    ∃ Y : Nat → Nat → Nat → Nat → R, v = (tab [a, b, c, d] (fn4 Y)).data := by
  obtain ⟨X, hX⟩ := tab_rows (a := a) (ds := [b, c, d]) (x := v) (by simpa using h)
  exact ⟨_, hX.trans (congrArg Tensor.data (tab4_rows a b c d X))⟩

omit [One R] [Add R] [Sub R] [Mul R] [Div R] [LT R] [DecidableLT R] in
theorem list2 {a b : Nat} {v : List R} (h : v.length = [a, b].prod) :
    ∃ Y : Nat → Nat → R, v = (tab [a, b] (fn2 Y)).data := by
  obtain ⟨X, hX⟩ := tab_rows (a := a) (ds := [b]) (x := v) (by simpa using h)
  refine ⟨fun i j => X i [j], hX.trans (congrArg Tensor.data (tab_congr fun idx hv => ?_))⟩
  match idx, hv with
  | [i, j], _ => rfl

omit [One R] [Add R] [Sub R] [Mul R] [Div R] [LT R] [DecidableLT R] in
theorem list1 {a : Nat} {v : List R} (h : v.length = [a].prod) :
    ∃ Y : Nat → R, v = (tab [a] (fn1 Y)).data := by
  obtain ⟨X, hX⟩ := tab_rows (a := a) (ds := []) (x := v) (by simpa using h)
  refine ⟨fun i => X i [], hX.trans (congrArg Tensor.data (tab_congr fun idx hv => ?_))⟩
  match idx, hv with
  | [i], _ => rfl

variable (J : Nat → Nat → R) (junkI : Nat → Int) (lowest : R) (exp : R → R) (eps : R) {p : String → Init R} {k : Nat}

omit [One R] [Sub R] [Div R] in
theorem conv_batchwise (hp : Steady p k) (i d c : Nat) (name : String) (hm : (name, c, d) ∈ convTable) {h w : Nat}
    (h1 : 1 ≤ h) (w1 : 1 ≤ w) (hh : h < 2 ^ 31) (hw : w < 2 ^ 31) (hsz : h * w * c ≤ 2 ^ 31) :
    Batchwise (conv J junkI p i d name) [h, w, c] [h, w, d] := by
  have hd : d < 2 ^ 32 := by
    have : ∀ e ∈ convTable, e.2.2 < 2 ^ 32 := by decide
    exact this _ hm
  obtain ⟨e1, o1⟩ := axis3_ok h1 (u32_in (by omega))
  obtain ⟨e2, o2⟩ := axis3_ok w1 (u32_in (by omega))
  have hf : (ConvLayer.makeP d (3, 3) (Sample.paddingSame u32)).filters = d := Nat.mod_eq_of_lt hd
  have ha : HasAxes (ConvLayer.makeP d (3, 3) (Sample.paddingSame u32)) (axis3 h) (axis3 w) :=
    ⟨rfl, rfl, rfl, e1, e2⟩
  obtain ⟨v, b, lv, lb, hl⟩ := hp.1 _ hm
  obtain ⟨Y, rfl⟩ := list4 lv
  obtain ⟨B, rfl⟩ := list1 lb
  have key := C111_conv_nhwc (J (4 * i)) (J (4 * i + 1)) (J (4 * i + 2)) junkI (J (4 * i + 3)) relu_acts o1 o2 ha
    (c := c) (by simpa [axis3, mul_assoc] using hsz) Y B (by rw [hf]; exact (hl _).1) (by rw [hf]; exact (hl _).2)
  rw [hf] at key
  exact key

omit [One R] [Add R] [Sub R] [Mul R] [Div R] in
theorem pool_batchwise (i c : Nat) {h w h' w' : Nat} (eh : h / 2 = h') (ew : w / 2 = w') (h1 : 1 ≤ h) (w1 : 1 ≤ w)
    (hh : h < 2 ^ 31) (hw : w < 2 ^ 31) (d1 : 2 ∣ h) (d2 : 2 ∣ w) :
    Batchwise (pool J lowest i) [h, w, c] [h', w', c] := by
  subst eh ew
  obtain ⟨e1, hH⟩ := tile_ok (k := 2) (by decide) d1 h1 (u32_in (by omega)) (by decide)
  obtain ⟨e2, hW⟩ := tile_ok (k := 2) (by decide) d2 w1 (u32_in (by omega)) (by decide)
  exact (C111_max_pool (J (4 * i)) lowest hH hW (t := PoolLayer.makeK (2, 2)) ⟨rfl, rfl, rfl, rfl, e1, e2⟩ c).1

omit [One R] [Sub R] [Div R] [LT R] [DecidableLT R] in
theorem dense_batchwise (hp : Steady p k) {act : Act R} {f : R → R} (ha : ActsAs act f) (i d c : Nat) (name : String)
    (hm : (name, c, d) ∈ denseTable k) : Batchwise (dense J act p i d name) [c] [d] := by
  have hd : d < 2 ^ 32 := by
    simp only [denseTable, List.mem_cons, List.not_mem_nil, or_false, Prod.mk.injEq] at hm
    omega
  obtain ⟨v, b, lv, lb, hl⟩ := hp.2 _ hm
  obtain ⟨Y, rfl⟩ := list2 lv
  obtain ⟨B, rfl⟩ := list1 lb
  exact C111_dense (J (4 * i)) (J (4 * i + 1)) (J (4 * i + 2)) ha hd Y B (hl _).1 (hl _).2

section
variable {h w : Nat} (h1 : 1 ≤ h) (w1 : 1 ≤ w) (hsz : h * w ≤ 2 ^ 25) (dh : 32 ∣ h) (dw : 32 ∣ w)
include h1 w1 hsz dh dw

omit [One R] [Sub R] [Div R] in
/-- C111 (the convolution part of the example), any arithmetic. -/
theorem C111_vgg16_features (hp : Steady p k) :
    Batchwise (convLayers J junkI lowest p) [h, w, 3] [h / 32, w / 32, 512] := by
  have hh : h ≤ 2 ^ 25 := le_trans (Nat.le_mul_of_pos_right h w1) hsz
  have hw : w ≤ 2 ^ 25 := le_trans (Nat.le_mul_of_pos_left w h1) hsz
  have s1 : h / 1 * (w / 1) ≤ 2 ^ 25 / 1 := (Nat.le_div_iff_mul_le (by decide)).2 (side_le hsz 1)
  have s2 : h / 2 * (w / 2) ≤ 2 ^ 25 / 4 := (Nat.le_div_iff_mul_le (by decide)).2 (side_le hsz 2)
  have s4 : h / 4 * (w / 4) ≤ 2 ^ 25 / 16 := (Nat.le_div_iff_mul_le (by decide)).2 (side_le hsz 4)
  have s8 : h / 8 * (w / 8) ≤ 2 ^ 25 / 64 := (Nat.le_div_iff_mul_le (by decide)).2 (side_le hsz 8)
  have s16 : h / 16 * (w / 16) ≤ 2 ^ 25 / 256 := (Nat.le_div_iff_mul_le (by decide)).2 (side_le hsz 16)
  have cv := fun i d c name (hm : (name, c, d) ∈ convTable) {a b : Nat} (q1 : 1 ≤ a) (q2 : 1 ≤ b) q3 q4 (q5 : a * b * c ≤ 2 ^ 31) =>
    conv_batchwise J junkI hp i d c name hm (h := a) (w := b) q1 q2 q3 q4 q5
  have fin {P q : Nat} (c : Nat) (hP : P ≤ q) (hq : q * c ≤ 2 ^ 31) : P * c ≤ 2 ^ 31 := (Nat.mul_le_mul_right c hP).trans hq
  unfold convLayers sequential
  simp only [List.foldl_cons, List.foldl_nil]
  have t {f g : LayerFn R} {ds es fs : List Nat} (hg : Batchwise g es fs) (hf : Batchwise f ds es) :
    Batchwise (composed f g) ds fs := C111_composed hf hg
  have e2 : h / 2 / 2 = h / 4 ∧ w / 2 / 2 = w / 4 := by omega
  have e4 : h / 4 / 2 = h / 8 ∧ w / 4 / 2 = w / 8 := by omega
  have e8 : h / 8 / 2 = h / 16 ∧ w / 8 / 2 = w / 16 := by omega
  have e16 : h / 16 / 2 = h / 32 ∧ w / 16 / 2 = w / 32 := by omega
  refine t (pool_batchwise J lowest 18 512 e16.1 e16.2 (by omega) (by omega) (by omega) (by omega) (by omega) (by omega)) ?_
  refine t (cv 17 512 512 "conv5_3" (by decide) (by omega) (by omega) (by omega) (by omega)
    (fin _ s16 (by decide))) ?_
  refine t (cv 16 512 512 "conv5_2" (by decide) (by omega) (by omega) (by omega) (by omega)
    (fin _ s16 (by decide))) ?_
  refine t (cv 15 512 512 "conv5_1" (by decide) (by omega) (by omega) (by omega) (by omega)
    (fin _ s16 (by decide))) ?_
  refine t (pool_batchwise J lowest 14 512 e8.1 e8.2 (by omega) (by omega) (by omega) (by omega) (by omega) (by omega)) ?_
  refine t (cv 13 512 512 "conv4_3" (by decide) (by omega) (by omega) (by omega) (by omega)
    (fin _ s8 (by decide))) ?_
  refine t (cv 12 512 512 "conv4_2" (by decide) (by omega) (by omega) (by omega) (by omega)
    (fin _ s8 (by decide))) ?_
  refine t (cv 11 512 256 "conv4_1" (by decide) (by omega) (by omega) (by omega) (by omega)
    (fin _ s8 (by decide))) ?_
  refine t (pool_batchwise J lowest 10 256 e4.1 e4.2 (by omega) (by omega) (by omega) (by omega) (by omega) (by omega)) ?_
  refine t (cv 9 256 256 "conv3_3" (by decide) (by omega) (by omega) (by omega) (by omega)
    (fin _ s4 (by decide))) ?_
  refine t (cv 8 256 256 "conv3_2" (by decide) (by omega) (by omega) (by omega) (by omega)
    (fin _ s4 (by decide))) ?_
  refine t (cv 7 256 128 "conv3_1" (by decide) (by omega) (by omega) (by omega) (by omega)
    (fin _ s4 (by decide))) ?_
  refine t (pool_batchwise J lowest 6 128 e2.1 e2.2 (by omega) (by omega) (by omega) (by omega) (by omega) (by omega)) ?_
  refine t (cv 5 128 128 "conv2_2" (by decide) (by omega) (by omega) (by omega) (by omega)
    (fin _ s2 (by decide))) ?_
  refine t (cv 4 128 64 "conv2_1" (by decide) (by omega) (by omega) (by omega) (by omega)
    (fin _ s2 (by decide))) ?_
  refine t (pool_batchwise J lowest 3 64 rfl rfl h1 w1 (by omega) (by omega) (by omega) (by omega)) ?_
  refine t (cv 2 64 64 "conv1_2" (by decide) h1 w1 (by omega) (by omega) (by omega)) ?_
  refine t (cv 1 64 3 "conv1_1" (by decide) h1 w1 (by omega) (by omega) (by omega)) ?_
  exact identity_batchwise (J 0) _

end

/-- C111 (the dense part of the example), any arithmetic. -/
theorem C111_vgg16_classifier (hp : Steady p k) : Batchwise (denseLayers J exp eps p) [k] [1000] := by
  unfold denseLayers sequential
  simp only [List.foldl_cons, List.foldl_nil]
  refine C111_composed (C111_composed (C111_composed (C111_composed (identity_batchwise (J 1) _)
    (dense_batchwise J hp relu_acts 19 4096 k "fc6" ?_)) (dense_batchwise J hp relu_acts 20 4096 4096 "fc7" ?_))
    (dense_batchwise J hp noop_acts 21 1000 4096 "fc8" ?_)) (C111_softmax (J (4 * 22)) exp eps [] 1000) <;>
  simp [denseTable]

omit [Zero R] [One R] [Add R] [Sub R] [Mul R] [Div R] [LT R] [DecidableLT R] in
theorem scoped_gives {β : Type} {f : LayerFn R} {x y : Tensor R} (h : Gives f x y) (K : Tensor R → Alloc β) :
    Alloc.scoped (f x) (fun l => K l.output) = K y := by
  obtain ⟨ws, h⟩ := h
  unfold Alloc.scoped
  rw [h]
  simp only [Alloc.freeing, Layer.size]
  have : (1 + (ws.length : Int) + (K y).live - ((1 + ws.length : Nat) : Int)) = (K y).live := by push_cast; omega
  rw [this]

/-- C111 (the whole example): the report for a batch is the report for its first image alone, whatever the other images are,
bit for bit. -/
theorem C111_vgg16 {h w : Nat} (h1 : 1 ≤ h) (w1 : 1 ≤ w) (hsz : h * w ≤ 2 ^ 25) (dh : 32 ∣ h) (dw : 32 ∣ w)
    (hp : Steady p (h / 32 * (w / 32) * 512)) (sort : List (R × Int) → List (R × Int)) (jz : Nat → Int) (m n : Nat)
    {x y : List R} (hx : x.length = h * w * 3) (hy : y.length = n * (h * w * 3)) :
    run J junkI lowest exp eps p sort jz ⟨[1 + n, h, w, 3], x ++ y⟩ m =
      run J junkI lowest exp eps p sort jz ⟨[1, h, w, 3], x⟩ m := by
  obtain ⟨u, v, hu, hv, g1, -, g3⟩ := C111_vgg16_features J junkI lowest h1 w1 hsz dh dw hp 1 n x y
    (by simp [hx, mul_assoc]) (by simp [hy, mul_assoc])
  have e : [h / 32, w / 32, 512].prod = h / 32 * (w / 32) * 512 := by simp [mul_assoc]
  rw [e] at hu hv
  obtain ⟨r, s, hr, hs, d1, -, d3⟩ := C111_vgg16_classifier J exp eps hp 1 n u v (by simpa using hu) (by simpa using hv)
  have em : ∀ a, asMatrix 1 [a, h / 32, w / 32, 512] = [a, h / 32 * (w / 32) * 512] := fun a => by
    simp [asMatrix, mul_assoc]
  unfold run
  rw [scoped_gives g1 (fun o => Alloc.scoped (denseLayers J exp eps p ⟨asMatrix 1 o.dims, o.data⟩) _),
    scoped_gives g3 (fun o => Alloc.scoped (denseLayers J exp eps p ⟨asMatrix 1 o.dims, o.data⟩) _)]
  simp only [em]
  have lr : r.length = 1000 := by simpa using hr
  have row : rowOf 1000 (r ++ s) 0 = rowOf 1000 r 0 := by
    simp [rowOf, lr]
  rw [scoped_gives d1 (fun o => Alloc.lift (do
    let k ← getDim (some 1) o.dims
    let row ← rowOf k o.data 0
    Kernels.top u32 sort row ((List.range m).map (J 2)) ((List.range m).map jz))),
    scoped_gives d3 (fun o => Alloc.lift (do
    let k ← getDim (some 1) o.dims
    let row ← rowOf k o.data 0
    Kernels.top u32 sort row ((List.range m).map (J 2)) ((List.range m).map jz)))]
  simp only [getDim_one, Outcome.ok_bind, row]

/-- Non-vacuity: initialisers that fill with ones. -/
example : Steady (R := Int) (fun _ s _ => .ok (List.replicate s.prod 1)) (7 * 7 * 512) :=
  ⟨fun _ _ => ⟨_, _, List.length_replicate, List.length_replicate, fun _ => ⟨rfl, rfl⟩⟩,
    fun _ _ => ⟨_, _, List.length_replicate, List.length_replicate, fun _ => ⟨rfl, rfl⟩⟩⟩

end Vgg16

/-! ## Concrete cases

Initialisers that fill every tensor with ones, and images of 224 by 224 pixels. -/

theorem exOnes_steady (k : Nat) : Vgg16.Steady (R := Int) (fun _ s _ => .ok (List.replicate s.prod 1)) k :=
  ⟨fun _ _ => ⟨_, _, List.length_replicate, List.length_replicate, fun _ => ⟨rfl, rfl⟩⟩,
    fun _ _ => ⟨_, _, List.length_replicate, List.length_replicate, fun _ => ⟨rfl, rfl⟩⟩⟩

example := Vgg16.C111_vgg16_features (R := Int) (fun _ _ => 9) (fun _ => 9) (-128) (h := 224) (w := 224) (by decide) (by decide)
  (by decide) (by decide) (by decide) (exOnes_steady 25088)
example := Vgg16.C111_vgg16_classifier (R := Int) (fun _ _ => 9) id 1 (exOnes_steady 25088)
example := Vgg16.C111_vgg16 (R := Int) (fun _ _ => 9) (fun _ => 9) (-128) id 1 (h := 224) (w := 224) (by decide) (by decide)
  (by decide) (by decide) (by decide) (exOnes_steady 25088) id (fun _ => 9) 5 2 (x := List.replicate (224 * 224 * 3) 7)
  (y := List.replicate (2 * (224 * 224 * 3)) 8) List.length_replicate List.length_replicate

end StdNN
