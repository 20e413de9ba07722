import Verif.Model.Files
import Verif.Props.Tar
import Verif.Props.Vgg16
/-!
# Parameters restored from files: C118

The classification program of C101 takes its parameters from a tar archive of idx files.
-/
namespace StdNN
open Outcome Spec Models

/-- The bytes `bs` are those of the elements `vals`, each of `w` bytes of which `dec` gives the value. -/
def Encodes {R : Type} (w : Nat) (dec : List Byte → R) (bs : List Byte) (vals : List R) : Prop :=
  bs.length = vals.length * w ∧ ∀ i (h : i < vals.length), dec ((bs.drop (i * w)).take w) = vals[i]

/-- The last member of that name holds a tensor of the element type `code` with these dimensions and elements. -/
def Stored {R : Type} (ms : List Member) (w : Nat) (dec : List Byte → R) (code : Byte) (name : String) (dims : List Nat)
    (vals : List R) : Prop :=
  ∃ pre m post bs, ms = pre ++ m :: post ∧ m.name = bytesOf name ∧ (∀ m' ∈ post, m'.name ≠ m.name) ∧
    m.content = idxFile code (dims.map (BitVec.ofNat 32)) bs ∧ Encodes w dec bs vals

/-- A disk with a well formed archive of that name. -/
structure HasArchive (d : Disk) (filename : String) (ms : List Member) : Prop where
  wf : ∀ m ∈ ms, m.WF
  size : ∀ m ∈ ms, m.content.length ≤ 2 ^ 31 - 512
  file : ∃ trailer, (trailer = [] ∨ ∃ z, trailer = 0 :: z) ∧ trailer.length % 512 = 0 ∧
    d.files filename = some (archive ms trailer)

theorem flatMap_enc_length {R : Type} {w : Nat} {enc : R → List Byte} (he : ∀ v, (enc v).length = w) (m : List R) :
    (m.flatMap enc).length = m.length * w := by
  induction m with
  | nil => simp
  | cons v m ih => rw [List.flatMap_cons, List.length_append, ih, he, List.length_cons, Nat.succ_mul, Nat.add_comm]

theorem decodeAll_eq {R : Type} {w : Nat} (hw : 0 < w) {dec : List Byte → R} {bs : List Byte} {vals : List R}
    (h : Encodes w dec bs vals) : decodeAll w dec bs = vals := by
  unfold decodeAll
  rw [h.1, Nat.mul_div_cancel _ hw]
  refine List.ext_getElem (by simp) fun i h1 h2 => ?_
  rw [List.getElem_map, List.getElem_range, h.2 i h2]

/-- C118: a parameter initialised from an archive gets exactly the stored elements, whatever it held before. -/
theorem C118_parameter {R : Type} {w : Nat} (hw : 0 < w) {enc : R → List Byte} (he : ∀ v, (enc v).length = w)
    {dec : List Byte → R} {code : Byte} {d : Disk} {filename name : String} {ms : List Member} (ha : HasArchive d filename ms)
    {fuel : Nat} (hf : ms.length < fuel) {dims : List Nat} (hr : dims.length < 256) {vals : List R}
    (hs : Stored ms w dec code name dims vals) {m : List R} (hm : m.length = vals.length) :
    Ops.tarInit fuel .little w enc dec code d filename name dims m = .ok vals := by
  obtain ⟨pre, q, post, bs, e1, e2, e3, e4, e5⟩ := hs
  obtain ⟨trailer, t1, t2, t3⟩ := ha.file
  have := C72_read ha.wf ha.size t1 t2 hf t3 e1 e3 (by simpa using hr) (y := m.flatMap enc) e4
    (by rw [flatMap_enc_length he, hm, e5.1])
  rw [e2] at this
  simp only [Ops.tarInit, this, decodeAll_eq hw e5]

/-- C118 (file): the same for a file of its own. -/
theorem C118_file {R : Type} {w : Nat} (hw : 0 < w) {enc : R → List Byte} (he : ∀ v, (enc v).length = w)
    {dec : List Byte → R} {code : Byte} {d : Disk} {filename : String} {dims : List Nat} (hr : dims.length < 256)
    {bs : List Byte} {vals : List R} (hd : d.files filename = some (idxFile code (dims.map (BitVec.ofNat 32)) bs))
    (hs : Encodes w dec bs vals) {m : List R} (hm : m.length = vals.length) :
    Ops.fileInit .little w enc dec code d filename dims m = .ok vals := by
  have hl : (m.flatMap enc).length = bs.length := by rw [flatMap_enc_length he, hm, hs.1]
  simp only [Ops.fileInit, Ops.readfile, Kernels.readfile, hd]
  rw [serializerRead_ok (data := bs) (by simpa using hr) rfl (by rw [fileHeader_little]; rfl), hl,
    List.take_of_length_le (Nat.le_refl _), List.drop_of_length_le (by omega), List.append_nil]
  simp only [decodeAll_eq hw hs]

/-- C118 (file, refused): without the file, or with a file that has a whole header but not the one of the parameter's type and
shape, the exception of the reader leaves the initialiser. -/
theorem C118_file_refused {R : Type} (w : Nat) (enc : R → List Byte) (dec : List Byte → R) (code : Byte) (d : Disk)
    (filename : String) {dims : List Nat} (m : List R) :
    (∀ e, d.files filename = none → Ops.fileInit e w enc dec code d filename dims m = .throw .runtimeError) ∧
    ∀ f, d.files filename = some f → dims.length < 256 → 4 + 4 * dims.length ≤ f.length →
      ¬ idxHeader code (dims.map (BitVec.ofNat 32)) <+: f →
      Ops.fileInit .little w enc dec code d filename dims m = .throw .runtimeError := by
  refine ⟨fun e h => ?_, fun f hf hr hl hne => ?_⟩
  · simp only [Ops.fileInit, C69_missing e code _ _ d filename h]
  · simp only [Ops.fileInit, C69_mismatch code (by simpa using hr) _ d filename hf (by simpa using hl) hne]

example : Ops.fileInit .little 1 (fun v : Byte => [v]) (fun l => l.headD 0) 0x08 exDisk "u" [2] [0, 0] = .throw .runtimeError ∧
    Ops.fileInit .little 1 (fun v : Byte => [v]) (fun l => l.headD 0) 0x08 exDisk "t" [2, 2] [0, 0, 0, 0] = .throw .runtimeError :=
  ⟨(C118_file_refused _ _ _ _ _ _ _).1 _ rfl, (C118_file_refused _ _ _ _ _ _ _).2 _ rfl (by decide) (by decide) (by decide)⟩

/-- C118 (missing): a parameter that is not in the archive is refused. -/
theorem C118_absent {R : Type} {w : Nat} {enc : R → List Byte} {dec : List Byte → R} {code : Byte} {d : Disk}
    {filename name : String} {ms : List Member} (ha : HasArchive d filename ms) {fuel : Nat} (hf : ms.length < fuel)
    (hn : ∀ m ∈ ms, m.name ≠ bytesOf name) (e : Endian) (dims : List Nat) (m : List R) :
    Ops.tarInit fuel e w enc dec code d filename name dims m = .throw .invalidArgument := by
  obtain ⟨trailer, t1, t2, t3⟩ := ha.file
  simp only [Ops.tarInit, C72_missing ha.wf ha.size t1 t2 hf t3 hn]

/-- C118 (no archive): so is every parameter if there is no such file. -/
theorem C118_no_file {R : Type} (w : Nat) (enc : R → List Byte) (dec : List Byte → R) (code : Byte) {d : Disk}
    {filename : String} (h : d.files filename = none) (fuel : Nat) (e : Endian) (name : String) (dims : List Nat) (m : List R) :
    ∃ err, Ops.tarInit fuel e w enc dec code d filename name dims m = .throw err := by
  simp only [Ops.tarInit, Ops.readtar, h, Tar.makeIndex]
  exact ⟨_, rfl⟩

/-- C118 (saved): a tensor written to a file, put under the name of that file into an archive, comes back unchanged from the
archive, into a tensor of any contents. -/
theorem C118_saved {R : Type} {w : Nat} (hw : 0 < w) {enc : R → List Byte} (he : ∀ v, (enc v).length = w) {dec : List Byte → R}
    (hdec : ∀ v, dec (enc v) = v) {code : Byte} {dims : List Nat} (hr : dims.length < 256) {vals : List R} {d : Disk}
    {name : String} (hc : d.creatable name = true) (hroom : d.room name = none) :
    ∃ d', Ops.writefile .little name code (dims.map (BitVec.ofNat 32)) (vals.flatMap enc) d = (d', .ok ⟨⟩) ∧
      ∀ (d2 : Disk) (filename : String) (pre post : List Member) (m : Member), HasArchive d2 filename (pre ++ m :: post) →
        m.name = bytesOf name → (∀ m' ∈ post, m'.name ≠ m.name) → d'.files name = some m.content →
        ∀ (fuel : Nat) (old : List R), (pre ++ m :: post).length < fuel → old.length = vals.length →
          Ops.tarInit fuel .little w enc dec code d2 filename name dims old = .ok vals := by
  refine ⟨_, writefile_ok .little code _ _ d name hc hroom, fun d2 filename pre post m ha e1 e2 e3 fuel old hf ho => ?_⟩
  refine C118_parameter hw he ha hf hr ⟨pre, m, post, vals.flatMap enc, rfl, e1, e2, ?_, flatMap_enc_length he _, fun i hi => ?_⟩ ho
  · simp only [Function.update_self, Option.some.injEq] at e3
    rw [← e3, fileHeader_little]
    rfl
  · rw [flatMap_split enc w he vals i hi, hdec]

namespace Vgg16

/-- The archive holds the parameters of all layers for `k` features. -/
def Complete (ms : List Member) (w : Nat) (dec : List Byte → ℝ) (code : Byte) (F : String → Nat → Nat → Nat → Nat → ℝ)
    (D : String → Nat → Nat → ℝ) (B : String → Nat → ℝ) (k : Nat) : Prop :=
  (∀ e ∈ convTable, Stored ms w dec code (e.1 ++ "_W") [3, 3, e.2.1, e.2.2] (tab [3, 3, e.2.1, e.2.2] (fn4 (F e.1))).data ∧
    Stored ms w dec code (e.1 ++ "_b") [e.2.2] (tab [e.2.2] (fn1 (B e.1))).data) ∧
  ∀ e ∈ denseTable k, Stored ms w dec code (e.1 ++ "_W") [e.2.1, e.2.2] (tab [e.2.1, e.2.2] (fn2 (D e.1))).data ∧
    Stored ms w dec code (e.1 ++ "_b") [e.2.2] (tab [e.2.2] (fn1 (B e.1))).data

theorem Complete.loads {ms : List Member} {w : Nat} (hw : 0 < w) {enc : ℝ → List Byte} (he : ∀ v, (enc v).length = w)
    {dec : List Byte → ℝ} {code : Byte} {F : String → Nat → Nat → Nat → Nat → ℝ} {D : String → Nat → Nat → ℝ}
    {B : String → Nat → ℝ} {k : Nat} (h : Complete ms w dec code F D B k) {d : Disk} {filename : String}
    (ha : HasArchive d filename ms) {fuel : Nat} (hf : ms.length < fuel) :
    LoadsConv (Ops.tarInit fuel .little w enc dec code d filename) F B ∧
      LoadsDense (Ops.tarInit fuel .little w enc dec code d filename) D B k := by
  refine ⟨fun e he' => ⟨fun m hm => ?_, fun m hm => ?_⟩, fun e he' => ⟨fun m hm => ?_, fun m hm => ?_⟩⟩
  · exact C118_parameter hw he ha hf (by simp) (h.1 e he').1 (by rw [hm, tab_length])
  · exact C118_parameter hw he ha hf (by simp) (h.1 e he').2 (by rw [hm, tab_length])
  · exact C118_parameter hw he ha hf (by simp) (h.2 e he').1 (by rw [hm, tab_length])
  · exact C118_parameter hw he ha hf (by simp) (h.2 e he').2 (by rw [hm, tab_length])

/-- C118 (picture): the picture read from a file is the stored one with the mean colour subtracted from every pixel. -/
theorem C118_image {R : Type} [Zero R] [Sub R] {b : Nat} (hb : 0 < b) {enc : R → List Byte} (he : ∀ v, (enc v).length = b)
    {dec : List Byte → R} {code : Byte} {d : Disk} {filename : String} {h w c : Nat} {bs : List Byte} (X : Nat → Nat → Nat → R)
    (hd : d.files filename = some (idxFile code ([h, w, c].map (BitVec.ofNat 32)) bs))
    (hs : Encodes b dec bs (tab [h, w, c] (fn3 X)).data) (M : Nat → R) {x : List R} (hx : x.length = [1, h, w, c].prod) :
    readImage (Ops.fileInit .little b enc dec code d filename) (tab [c] (fn1 M)).data [1, h, w, c] x =
      .ok (tab [1, h, w, c] (fn4 fun _ i j k => X i j k - M k)).data :=
  C102_image X M hx (C118_file hb he (by simp) hd hs (by rw [hx, tab_length]; simp))

/-- Non-vacuity of C118 (picture): a file of one pixel of three colours. -/
example : (⟨fun _ => some (idxFile 0x08 [1, 1, 3] [10, 20, 30]), fun _ => true, fun _ => none⟩ : Disk).files "laska.idx" =
      some (idxFile 0x08 ([1, 1, 3].map (BitVec.ofNat 32)) [10, 20, 30]) ∧
    Encodes 1 (fun l => ((l.headD 0).toNat : Int)) [10, 20, 30] (tab [1, 1, 3] (fn3 fun _ _ k => 10 * ((k : Int) + 1))).data :=
  ⟨rfl, by decide, by decide⟩

section
variable (J : Nat → Nat → ℝ) (junkI : Nat → Int) {lowest : ℝ} (eps : ℝ) {ms : List Member} {b : Nat} {enc : ℝ → List Byte}
  {dec : List Byte → ℝ} {code : Byte} {d : Disk} {filename : String} {fuel : Nat}

/-- C118 (classification): run with an archive of all parameters, the program reports the `m` greatest probabilities that the
network with the archived parameters gives to the classes of the first image. -/
theorem C118_run {F : String → Nat → Nat → Nat → Nat → ℝ} {D : String → Nat → Nat → ℝ} {B : String → Nat → ℝ} {n h w : Nat}
    (hb : 0 < b) (he : ∀ v, (enc v).length = b) (hc : Complete ms b dec code F D B (h / 32 * (w / 32) * 512))
    (ha : HasArchive d filename ms) (hf : ms.length < fuel) (X : Nat → Vgg.Img) (hl : lowest ≤ 0) (h1 : 1 ≤ h) (w1 : 1 ≤ w)
    (hh : h < 2 ^ 31) (hw : w < 2 ^ 31) (hsz : h * w ≤ 2 ^ 25) (hd : 32 ∣ h ∧ 32 ∣ w)
    {sort : List (ℝ × Int) → List (ℝ × Int)} (hs : IsSort sort) (jz : Nat → Int) {m : Nat} (hn : 1 ≤ n) (hm : m < 2 ^ 32) :
    let P := fun j => max eps (Spec.softmax 1000 (Vgg.logits F D B h w (X 0)) j)
    ∃ (σ : Nat → Nat) (y : List ℝ) (z : List Int),
      run J junkI lowest Real.exp eps (Ops.tarInit fuel .little b enc dec code d filename) sort jz
        (tab [n, h, w, 3] (fn4 X)) m = ⟨0, .ok (y, z)⟩ ∧
      y.length = m ∧ z.length = m ∧
      (∀ i < min 1000 m, σ i < 1000 ∧ y[i]? = some (P (σ i)) ∧ z[i]? = some (σ i : Int)) ∧
      (∀ i j, i < j → j < min 1000 m → P (σ j) < P (σ i) ∨ P (σ j) = P (σ i) ∧ σ j < σ i) ∧
      ∀ q < 1000, (∀ i < min 1000 m, σ i ≠ q) → ∀ i < min 1000 m, P q < P (σ i) ∨ P q = P (σ i) ∧ q < σ i :=
  C101_run J junkI eps X (hc.loads hb he ha hf).1 hl h1 w1 hh hw hsz jz m (hc.loads hb he ha hf).2 hs hn hm hd

end

theorem scoped_ok {R β : Type} {x : Alloc (Layer R)} {k : Layer R → Alloc β} {r : β} (h : (Alloc.scoped x k).out = .ok r) :
    ∃ l, x.out = .ok l ∧ (k l).out = .ok r := by
  unfold Alloc.scoped at h
  rcases e : x.out with l | e' | _ <;> rw [e] at h
  · exact ⟨l, rfl, h⟩
  · cases h
  · cases h

theorem foldl_ok {R : Type} {ls : List (LayerFn R)} {f : LayerFn R} {x : Tensor R} {l : Layer R}
    (h : (ls.foldl composed f x).out = .ok l) : (∃ l', (f x).out = .ok l') ∧ ∀ g ∈ ls, ∃ y l', (g y).out = .ok l' := by
  induction ls generalizing f with
  | nil => exact ⟨⟨l, h⟩, by simp⟩
  | cons g ls ih =>
    obtain ⟨⟨l', h1⟩, h2⟩ := ih h
    unfold composed at h1
    rcases e : (f x).out with l1 | e' | _ <;> simp only [e] at h1
    · exact ⟨⟨l1, rfl⟩, fun q hq => by
        rcases List.mem_cons.1 hq with rfl | hq
        · exact ⟨_, l', h1⟩
        · exact h2 q hq⟩
    · cases h1
    · cases h1

theorem bind_ok {α β : Type} {x : Alloc α} {f : α → Alloc β} {r : β} (h : (x >>= f).out = .ok r) :
    ∃ a, x.out = .ok a ∧ (f a).out = .ok r := by
  change (Alloc.bind x f).out = _ at h
  unfold Alloc.bind at h
  rcases e : x.out with l | e' | _ <;> rw [e] at h
  · exact ⟨l, rfl, h⟩
  · cases h
  · cases h

theorem newParameter_ok {R : Type} {junk : Nat → R} {s : List Nat} {init : Init R} {t : Tensor R}
    (h : (Layers.newParameter junk s init).out = .ok t) : ∃ dims m r, init dims m = .ok r := by
  obtain ⟨r, hr, -⟩ := bind_eq_ok.1 h
  exact ⟨_, _, _, hr⟩

theorem layer_ok {R : Type} [Zero R] [Add R] [Mul R] {io : Order} {fo : FOrder} {junkW junkY junkB junk : Nat → R}
    {junkI : Nat → Int} {act : Act R} {t : ConvLayer} {x : Tensor R} {wInit bInit : Init R} {l : Layer R}
    (h : (Layers.conv io fo junkW junkY junkB junkI junk act t x wInit bInit).out = .ok l) :
    (∃ dims m r, wInit dims m = .ok r) ∧ ∃ dims m r, bInit dims m = .ok r := by
  unfold Layers.conv at h
  obtain ⟨_, -, h⟩ := bind_ok h
  obtain ⟨_, hW, h⟩ := bind_ok h
  obtain ⟨_, -, h⟩ := bind_ok h
  obtain ⟨_, -, h⟩ := bind_ok h
  obtain ⟨_, -, h⟩ := bind_ok h
  obtain ⟨_, hB, h⟩ := bind_ok h
  exact ⟨newParameter_ok hW, newParameter_ok hB⟩

section
variable {R : Type} [Zero R] [Add R] [Mul R] (J : Nat → Nat → R) (junkI : Nat → Int)

theorem conv_ok [LT R] [DecidableLT R] {p : String → Init R} {i c : Nat} {name : String} {x : Tensor R} {l : Layer R}
    (h : (conv J junkI p i c name x).out = .ok l) :
    (∃ dims m r, p (name ++ "_W") dims m = .ok r) ∧ ∃ dims m r, p (name ++ "_b") dims m = .ok r := by
  exact layer_ok h

theorem dense_ok {act : Act R} {p : String → Init R} {i k : Nat} {name : String} {x : Tensor R} {l : Layer R}
    (h : (dense J act p i k name x).out = .ok l) :
    (∃ dims m r, p (name ++ "_W") dims m = .ok r) ∧ ∃ dims m r, p (name ++ "_b") dims m = .ok r := by
  unfold dense withInit denseWith Layers.dense at h
  obtain ⟨_, -, h⟩ := bind_ok h
  obtain ⟨_, hW, h⟩ := bind_ok h
  obtain ⟨_, -, h⟩ := bind_ok h
  obtain ⟨_, hB, h⟩ := bind_ok h
  exact ⟨newParameter_ok hW, newParameter_ok hB⟩

/-- The names of the parameters of the network. -/
def parameterNames : List String :=
  ["conv1_1_W", "conv1_1_b", "conv1_2_W", "conv1_2_b", "conv2_1_W", "conv2_1_b", "conv2_2_W", "conv2_2_b", "conv3_1_W",
    "conv3_1_b", "conv3_2_W", "conv3_2_b", "conv3_3_W", "conv3_3_b", "conv4_1_W", "conv4_1_b", "conv4_2_W", "conv4_2_b",
    "conv4_3_W", "conv4_3_b", "conv5_1_W", "conv5_1_b", "conv5_2_W", "conv5_2_b", "conv5_3_W", "conv5_3_b", "fc6_W", "fc6_b",
    "fc7_W", "fc7_b", "fc8_W", "fc8_b"]

variable [One R] [Sub R] [Div R] [LT R] [DecidableLT R]

theorem run_ok {lowest : R} {exp : R → R} {eps : R} {p : String → Init R} {sort : List (R × Int) → List (R × Int)}
    {jz : Nat → Int} {x : Tensor R} {m : Nat} {r : List R × List Int}
    (h : (run J junkI lowest exp eps p sort jz x m).out = .ok r) : ∀ s ∈ parameterNames, ∃ dims m r, p s dims m = .ok r := by
  obtain ⟨l, h1, h2⟩ := scoped_ok h
  obtain ⟨l', h2, -⟩ := scoped_ok h2
  have c := (foldl_ok h1).2
  have e := (foldl_ok h2).2
  have hc : ∀ (i k : Nat) (name : String), (∀ q, (q = conv J junkI p i k name) → ∃ y l', (q y).out = .ok l') →
      (∃ dims m r, p (name ++ "_W") dims m = .ok r) ∧ ∃ dims m r, p (name ++ "_b") dims m = .ok r := fun i k name hq => by
    obtain ⟨y, l', hy⟩ := hq _ rfl
    exact conv_ok J junkI hy
  have he : ∀ (act : Act R) (i k : Nat) (name : String), (∀ q, (q = dense J act p i k name) → ∃ y l', (q y).out = .ok l') →
      (∃ dims m r, p (name ++ "_W") dims m = .ok r) ∧ ∃ dims m r, p (name ++ "_b") dims m = .ok r := fun act i k name hq => by
    obtain ⟨y, l', hy⟩ := hq _ rfl
    exact dense_ok J hy
  simp only [List.forall_mem_cons, List.not_mem_nil, false_implies, implies_true, and_true] at c e
  obtain ⟨c1, c2, -, c3, c4, -, c5, c6, c7, -, c8, c9, c10, -, c11, c12, c13, -⟩ := c
  obtain ⟨e1, e2, e3, -⟩ := e
  have k1 := hc 1 64 "conv1_1" (fun q hq => hq ▸ c1)
  have k2 := hc 2 64 "conv1_2" (fun q hq => hq ▸ c2)
  have k3 := hc 4 128 "conv2_1" (fun q hq => hq ▸ c3)
  have k4 := hc 5 128 "conv2_2" (fun q hq => hq ▸ c4)
  have k5 := hc 7 256 "conv3_1" (fun q hq => hq ▸ c5)
  have k6 := hc 8 256 "conv3_2" (fun q hq => hq ▸ c6)
  have k7 := hc 9 256 "conv3_3" (fun q hq => hq ▸ c7)
  have k8 := hc 11 512 "conv4_1" (fun q hq => hq ▸ c8)
  have k9 := hc 12 512 "conv4_2" (fun q hq => hq ▸ c9)
  have k10 := hc 13 512 "conv4_3" (fun q hq => hq ▸ c10)
  have k11 := hc 15 512 "conv5_1" (fun q hq => hq ▸ c11)
  have k12 := hc 16 512 "conv5_2" (fun q hq => hq ▸ c12)
  have k13 := hc 17 512 "conv5_3" (fun q hq => hq ▸ c13)
  have k14 := he _ 19 4096 "fc6" (fun q hq => hq ▸ e1)
  have k15 := he _ 20 4096 "fc7" (fun q hq => hq ▸ e2)
  have k16 := he _ 21 1000 "fc8" (fun q hq => hq ▸ e3)
  simp only [parameterNames, List.forall_mem_cons, List.not_mem_nil, false_implies, implies_true, and_true]
  exact ⟨k1.1, k1.2, k2.1, k2.2, k3.1, k3.2, k4.1, k4.2, k5.1, k5.2, k6.1, k6.2, k7.1, k7.2, k8.1, k8.2, k9.1, k9.2, k10.1,
    k10.2, k11.1, k11.2, k12.1, k12.2, k13.1, k13.2, k14.1, k14.2, k15.1, k15.2, k16.1, k16.2⟩

/-- C118 (incomplete archive): if the archive lacks any of the parameters the program never reports classes, whatever the
image and the other members. -/
theorem C118_incomplete {ms : List Member} {b : Nat} {enc : R → List Byte} {dec : List Byte → R} {code : Byte} {d : Disk}
    {filename : String} {fuel : Nat} (ha : HasArchive d filename ms) (hf : ms.length < fuel) {name : String}
    (hp : name ∈ parameterNames) (hn : ∀ m ∈ ms, m.name ≠ bytesOf name) (lowest : R) (exp : R → R) (eps : R) (e : Endian)
    (sort : List (R × Int) → List (R × Int)) (jz : Nat → Int) (x : Tensor R) (m : Nat) (r : List R × List Int) :
    (run J junkI lowest exp eps (Ops.tarInit fuel e b enc dec code d filename) sort jz x m).out ≠ .ok r := by
  intro h
  obtain ⟨dims, o, r', hr⟩ := run_ok J junkI h name hp
  rw [C118_absent ha hf hn] at hr
  cases hr

end

/-! ## Non-vacuity -/

/-- The parameters by name and shape, for `k` features. -/
def exampleTable (k : Nat) : List (String × List Nat) :=
  (convTable.flatMap fun e => [(e.1 ++ "_W", [3, 3, e.2.1, e.2.2]), (e.1 ++ "_b", [e.2.2])]) ++
    (denseTable k).flatMap fun e => [(e.1 ++ "_W", [e.2.1, e.2.2]), (e.1 ++ "_b", [e.2.2])]

/-- The member of a parameter with bytes as elements: `g` gives the element at an index. -/
def exampleEntry (g : String → List Nat → Byte) (e : String × List Nat) : Member :=
  exampleMember (bytesOf e.1) (idxFile 0x08 (e.2.map (BitVec.ofNat 32)) (tab e.2 (g e.1)).data)

/-- An archive of all parameters -/
def exampleArchive (g : String → List Nat → Byte) (k : Nat) : List Member :=
  (exampleTable k).map (exampleEntry g)

/-- The number of a byte. -/
def byteValue (bs : List Byte) : ℝ := ((bs.headD 0).toNat : ℝ)

theorem exampleStored (g : String → List Nat → Byte) {k : Nat} (hn : ((exampleTable k).map fun e => bytesOf e.1).Nodup)
    {name : String} {dims : List Nat} (h : (name, dims) ∈ exampleTable k) :
    Stored (exampleArchive g k) 1 byteValue 0x08 name dims (tab dims fun i => ((g name i).toNat : ℝ)).data := by
  obtain ⟨pre, post, e⟩ := List.append_of_mem h
  refine ⟨pre.map (exampleEntry g), exampleEntry g (name, dims), post.map (exampleEntry g), (tab dims (g name)).data, ?_, rfl,
    ?_, rfl, by simp, fun i hi => ?_⟩
  · rw [exampleArchive, e, List.map_append, List.map_cons]
  · intro m' hm'
    obtain ⟨q, hq, rfl⟩ := List.mem_map.1 hm'
    rw [e, List.map_append, List.map_cons] at hn
    have := (List.nodup_cons.1 (List.nodup_append.1 hn).2.1).1
    exact fun h => this (List.mem_map.2 ⟨q, hq, h⟩)
  · have hi' : i < (tab dims (g name)).data.length := by simpa using hi
    rw [tab_getElem _ hi, byteValue, Nat.mul_one, List.headD_eq_head?_getD, List.head?_take, List.head?_drop]
    simp [List.getElem?_eq_getElem hi', tab_getElem _ hi']

/-- Non-vacuity of C118: an archive of parameters with arbitrary bytes as elements, for images of 224 × 224. -/
example (g : String → List Nat → Byte) :
    Complete (exampleArchive g 25088) 1 byteValue 0x08 (fun s a b c d => ((g (s ++ "_W") [a, b, c, d]).toNat : ℝ))
      (fun s a b => ((g (s ++ "_W") [a, b]).toNat : ℝ)) (fun s a => ((g (s ++ "_b") [a]).toNat : ℝ)) (224 / 32 * (224 / 32) * 512) ∧
    HasArchive ⟨fun _ => some (archive (exampleArchive g 25088) (List.replicate 1024 0)), fun _ => true, fun _ => none⟩ "vgg16.tar"
      (exampleArchive g 25088) := by
  have hn : ((exampleTable 25088).map fun e => bytesOf e.1).Nodup := by decide +kernel
  have hs : ∀ e ∈ exampleTable 25088, bytesOf e.1 ≠ [] ∧ (bytesOf e.1).length ≤ 100 ∧ (∀ c ∈ bytesOf e.1, c ≠ 0) ∧
      e.2.length ≤ 4 ∧ e.2.prod ≤ 2 ^ 30 := by decide +kernel
  have hl : ∀ e ∈ exampleTable 25088, (exampleEntry g e).content.length ≤ 20 + 2 ^ 30 := fun e he => by
    obtain ⟨-, -, -, h4, h5⟩ := hs e he
    show (idxFile 0x08 (e.2.map (BitVec.ofNat 32)) (tab e.2 (g e.1)).data).length ≤ _
    have hb : ∀ l : List (BitVec 32), (l.flatMap fun d => bigEndian d.toNat).length = 4 * l.length := fun l => by
      induction l with
      | nil => rfl
      | cons a l ih => rw [List.flatMap_cons, List.length_append, ih, List.length_cons]; simp [bigEndian]; omega
    simp only [idxFile, idxHeader, List.length_append, List.length_cons, List.length_nil, hb, List.length_map, tab_length]
    omega
  refine ⟨⟨fun e he => ⟨?_, ?_⟩, fun e he => ⟨?_, ?_⟩⟩, fun m hm => ?_, fun m hm => ?_, List.replicate 1024 0, .inr ⟨List.replicate 1023 0, rfl⟩,
    by rw [List.length_replicate], rfl⟩
  · refine cast (congrArg _ (congrArg Tensor.data (tab_congr fun idx hv => ?_))) (exampleStored g hn
      (dims := [3, 3, e.2.1, e.2.2]) (List.mem_append_left _ (List.mem_flatMap.2 ⟨e, he, by simp⟩)))
    match idx, hv with
    | [a, b, c, d], hv => rfl
  · refine cast (congrArg _ (congrArg Tensor.data (tab_congr fun idx hv => ?_))) (exampleStored g hn
      (dims := [e.2.2]) (List.mem_append_left _ (List.mem_flatMap.2 ⟨e, he, by simp⟩)))
    match idx, hv with
    | [a], hv => rfl
  · refine cast (congrArg _ (congrArg Tensor.data (tab_congr fun idx hv => ?_))) (exampleStored g hn
      (dims := [e.2.1, e.2.2]) (List.mem_append_right _ (List.mem_flatMap.2 ⟨e, he, by simp⟩)))
    match idx, hv with
    | [a, b], hv => rfl
  · refine cast (congrArg _ (congrArg Tensor.data (tab_congr fun idx hv => ?_))) (exampleStored g hn
      (dims := [e.2.2]) (List.mem_append_right _ (List.mem_flatMap.2 ⟨e, he, by simp⟩)))
    match idx, hv with
    | [a], hv => rfl
  · obtain ⟨e, he, rfl⟩ := List.mem_map.1 hm
    obtain ⟨h1, h2, h3, -⟩ := hs e he
    exact exampleMember_wf h1 h2 h3 (lt_of_le_of_lt (hl e he) (by norm_num))
  · obtain ⟨e, he, rfl⟩ := List.mem_map.1 hm
    exact (hl e he).trans (by norm_num)

/-- Non-vacuity of C118 (incomplete archive): an archive of one member lacks the first parameter. -/
example : HasArchive ⟨fun _ => some (archive [exampleMember [97] [1, 2]] (List.replicate 1024 0)), fun _ => true, fun _ => none⟩
      "vgg16.tar" [exampleMember [97] [1, 2]] ∧
    "conv1_1_W" ∈ parameterNames ∧ ∀ m ∈ [exampleMember [97] [1, 2]], m.name ≠ bytesOf "conv1_1_W" := by
  refine ⟨⟨?_, ?_, List.replicate 1024 0, .inr ⟨List.replicate 1023 0, rfl⟩, by rw [List.length_replicate], rfl⟩, by decide, ?_⟩
  · intro m hm
    rw [List.mem_singleton.1 hm]
    exact exampleMember_wf (List.cons_ne_nil _ _) (by decide : 1 ≤ 100) (by decide) (by decide)
  · intro m hm
    rw [List.mem_singleton.1 hm]
    decide
  · intro m hm
    rw [List.mem_singleton.1 hm]
    exact (by decide +kernel : ([97] : List Byte) ≠ bytesOf "conv1_1_W")

/-- Non-vacuity of C118 (saved): the vector 5, 6 of bytes is written to `w.idx`, archived and restored. -/
example : ∃ d', Ops.writefile .little "w.idx" 0x08 [2] [5, 6] ⟨fun _ => none, fun _ => true, fun _ => none⟩ = (d', .ok ⟨⟩) ∧
    Ops.tarInit 2 .little 1 (fun v => [v]) (fun l => l.headD 0) 0x08
      ⟨fun _ => some (archive [exampleMember (bytesOf "w.idx") (idxFile 0x08 [2] [5, 6])] (List.replicate 1024 0)), fun _ => true,
        fun _ => none⟩ "params.tar" "w.idx" [2] [0, 0] = .ok ([5, 6] : List Byte) := by
  obtain ⟨d', h1, h2⟩ := C118_saved (R := Byte) (w := 1) (by decide) (enc := fun v => [v]) (fun _ => rfl)
    (dec := fun l => l.headD 0) (fun _ => rfl) (code := 0x08) (dims := [2]) (by decide) (vals := [5, 6])
    (d := ⟨fun _ => none, fun _ => true, fun _ => none⟩) (name := "w.idx") rfl rfl
  refine ⟨d', h1, h2 _ _ [] [] _ ⟨?_, ?_, List.replicate 1024 0, .inr ⟨List.replicate 1023 0, rfl⟩, by rw [List.length_replicate],
    rfl⟩ rfl (by simp) ?_ 2 _ (by simp) rfl⟩
  · intro m hm
    rw [List.mem_singleton.1 hm]
    exact exampleMember_wf (by decide +kernel : bytesOf "w.idx" ≠ []) (by decide +kernel : (bytesOf "w.idx").length ≤ 100)
      (by decide +kernel : ∀ c ∈ bytesOf "w.idx", c ≠ 0) (by decide)
  · intro m hm
    rw [List.mem_singleton.1 hm]
    decide
  · have e := writefile_ok .little 0x08 [2] [5, 6] ⟨fun _ => none, fun _ => true, fun _ => none⟩ "w.idx" rfl rfl
    have e' : d' = _ := (congrArg Prod.fst (h1.symm.trans e))
    rw [e']
    rfl

end Vgg16
end StdNN
