import Verif.Lemmas.Elementwise
import Verif.Model.Shape
import Verif.Props.Im2col
/-!
# C07-C09, C11-C15: shape functions
-/
namespace StdNN
open IntTy Spec Outcome

/-! ## C07 -/
section multi
variable {N : IntTy}

/-- The constructor arguments of a multi-dimensional sample for the given axes, and the call on their input lengths. -/
def multiCall (N : IntTy) (A : List Axis) : Outcome (List Int) := do
  let t ← MultiSample.make N (A.map fun a => (a.k : Int)) (A.map fun a => ⟨a.l, a.q⟩) (A.map fun a => (a.s : Int))
    (A.map fun a => (a.r : Int))
  t.outShape N (A.map fun a => (a.n : Int))

theorem multi_make {A : List Axis} (h : ∀ a ∈ A, Fits N N a.k a.s a.r a.l a.q a.n) :
    MultiSample.make N (A.map fun a => (a.k : Int)) (A.map fun a => ⟨a.l, a.q⟩) (A.map fun a => (a.s : Int))
      (A.map fun a => (a.r : Int)) = .ok (A.map Axis.sample) := by
  induction A with
  | nil => rfl
  | cons a A ih =>
    have f := h a (by simp)
    have k1 := f.k1; have s1 := f.s1; have r1 := f.r1
    simp only [List.map_cons, MultiSample.make, Sample.make,
      Filter.make_ok f.hN f.hk f.hs f.hr (by omega) (by omega) (by omega), Outcome.ok_bind, Outcome.pure_eq,
      ih fun b hb => h b (by simp [hb])]
    rfl

/-- C07: a multi-dimensional sample maps a shape axis by axis, as C01 says for each axis. -/
theorem C07_per_axis {A : List Axis} (h : ∀ a ∈ A, Fits N N a.k a.s a.r a.l a.q a.n) :
    ((∀ a ∈ A, a.Covers) → multiCall N A = .ok (A.map fun a => (a.m : Int))) ∧
    ((∃ a ∈ A, ∀ m, ¬ OutLen a.k a.s a.r a.l a.q a.n m) → multiCall N A = .throw .invalidArgument) := by
  have one : ∀ a : Axis, Fits N N a.k a.s a.r a.l a.q a.n →
      sampleCall N N a.k a.s a.r a.l a.q a.n = a.sample.outSize N a.n := by
    intro a f
    have k1 := f.k1; have s1 := f.s1; have r1 := f.r1
    rw [sampleCall, Filter.make_ok f.hN f.hk f.hs f.hr (by omega) (by omega) (by omega)]
    rfl
  simp only [multiCall, multi_make h, Outcome.ok_bind]
  constructor
  · intro hc
    clear one
    induction A with
    | nil => rfl
    | cons a A ih =>
      simp only [List.map_cons, MultiSample.outShape]
      rw [sample_outSize ⟨h a (by simp), hc a (by simp)⟩, Outcome.ok_bind, ih (fun b hb => h b (by simp [hb]))
        fun b hb => hc b (by simp [hb])]
      rfl
  · rintro ⟨a, ha, hno⟩
    induction A with
    | nil => simp at ha
    | cons b A ih =>
      simp only [List.map_cons, MultiSample.outShape]
      have fb := h b (by simp)
      rw [← one b fb]
      rcases C01_total fb with ⟨m, -, e⟩ | ⟨-, e⟩
      · rw [e, Outcome.ok_bind]
        rcases List.mem_cons.1 ha with rfl | ha'
        · exact absurd ((C01_output_length fb m).1 e) (hno m)
        · rw [ih (fun b hb => h b (by simp [hb])) ha']
          rfl
      · rw [e]; rfl

/-- C07: every successfully built sample reports the kernel shape it was built from. -/
theorem C07_ksize {ks ss rs : List Int} {ps : List Padding} {t : MultiSample}
    (h : MultiSample.make N ks ps ss rs = .ok t) : t.getKsize = ks ∧ t.length = ks.length := by
  induction ks generalizing ps ss rs t with
  | nil =>
    match ps, ss, rs, h with
    | [], [], [], h => cases h; exact ⟨rfl, rfl⟩
  | cons k ks ih =>
    match ps, ss, rs, h with
    | p :: ps, s :: ss, r :: rs, h =>
      simp only [MultiSample.make, Sample.make, Outcome.bind_eq_ok, Outcome.pure_eq] at h
      obtain ⟨a, ⟨f, hf, ha⟩, ts, hts, e⟩ := h
      obtain ⟨e1, e2⟩ := ih hts
      cases e
      cases ha
      have : f.ksize = k := by
        unfold Filter.make at hf
        split at hf
        · simp at hf
        split at hf
        · simp at hf
        split at hf
        · simp at hf
        cases hf; rfl
      refine ⟨?_, by simp [e2]⟩
      unfold MultiSample.getKsize at e1 ⊢
      rw [List.map_cons, e1]
      exact congrArg (· :: ks) this

/-- C07: building throws `std::invalid_argument` exactly when some axis has a kernel size, stride or rate below 1. -/
theorem C07_constructor_throws (hN : N.Std) {A : List (Int × Padding × Int × Int)}
    (h : ∀ a ∈ A, N.In a.1 ∧ N.In a.2.2.1 ∧ N.In a.2.2.2) :
    MultiSample.make N (A.map fun a => a.1) (A.map fun a => a.2.1) (A.map fun a => a.2.2.1) (A.map fun a => a.2.2.2) =
      .throw .invalidArgument ↔ ∃ a ∈ A, a.1 < 1 ∨ a.2.2.1 < 1 ∨ a.2.2.2 < 1 := by
  induction A with
  | nil => simp [MultiSample.make]
  | cons a A ih =>
    have ih := ih fun b hb => h b (by simp [hb])
    obtain ⟨hk, hs, hr⟩ := h a (by simp)
    have c3 := C03_constructor hN hk hs hr
    simp only [List.map_cons, MultiSample.make, Sample.make]
    by_cases hb : a.1 < 1 ∨ a.2.2.1 < 1 ∨ a.2.2.2 < 1
    · rw [c3.1.2 hb]
      simp only [Outcome.throw_bind, List.mem_cons, exists_eq_or_imp, hb, true_or]
    · rw [c3.2 hb]
      simp only [Outcome.ok_bind, Outcome.pure_eq, List.mem_cons, exists_eq_or_imp, hb, false_or, ← ih]
      cases MultiSample.make N (A.map fun a => a.1) (A.map fun a => a.2.1) (A.map fun a => a.2.2.1)
        (A.map fun a => a.2.2.2) <;> simp

/-- C07: omitted arguments mean stride 1, rate 1 and no padding on every axis. -/
theorem C07_defaults (ks ss : List Int) (ps : List Padding) :
    MultiSample.makeK N ks =
      MultiSample.make N ks (ks.map fun _ => ⟨0, 0⟩) (ks.map fun _ => 1) (ks.map fun _ => 1) ∧
    MultiSample.makeKP N ks ps = MultiSample.make N ks ps (ks.map fun _ => 1) (ks.map fun _ => 1) ∧
    MultiSample.makeKS N ks ss = MultiSample.make N ks (ks.map fun _ => ⟨0, 0⟩) ss (ks.map fun _ => 1) ∧
    MultiSample.makeKPS N ks ps ss = MultiSample.make N ks ps ss (ks.map fun _ => 1) := ⟨rfl, rfl, rfl, rfl⟩

end multi

/-- Non-vacuity: three axes, all accepted; then the last one (kernel 3, stride 2 on 6 cells) cannot be sampled. -/
example : (∀ a ∈ [exH, exW, exH], Fits u32 u32 a.k a.s a.r a.l a.q a.n ∧ a.Covers) ∧
    multiCall u32 [exH, exW, exH] = .ok [3, 3, 3] ∧
    multiCall u32 [exH, exW, ⟨3, 2, 1, 0, 0, 6, 0⟩] = .throw .invalidArgument ∧
    ∀ m, ¬ OutLen 3 2 1 0 0 6 m := by
  refine ⟨?_, by decide, by decide, ?_⟩
  · intro a ha
    simp only [List.mem_cons, List.not_mem_nil, or_false] at ha
    rcases ha with rfl | rfl | rfl
    · exact ⟨exH_ok.fits, exH_ok.covers⟩
    · exact ⟨exW_ok.fits, exW_ok.covers⟩
    · exact ⟨exH_ok.fits, exH_ok.covers⟩
  · rintro m ⟨h1, h2⟩
    unfold patch at h2
    omega

/-! ## C08 -/

/-- C08: the positions of both batched image layouts recover exactly what `batched_image_shape` put in. -/
theorem C08_image_positions {o : Order} (ho : o = .nhwc ∨ o = .nchw) (n h w c : Nat) :
    ∃ s, batchedImageShape o n (h, w) c = .ok s ∧ o.rankOf = some s.length ∧ batchSize o s = .ok n ∧
      imageShape o s = .ok (h, w) ∧ channelSize o s = .ok c ∧ getDim o.biasPos s = .ok c := by
  rcases ho with rfl | rfl <;> exact ⟨_, rfl, rfl, rfl, rfl, rfl, rfl⟩

/-- C08: likewise for both filter layouts. -/
theorem C08_filter_positions (o : FOrder) (r s c d : Nat) :
    filterShape o (convFilterShape o c (r, s) d) = .ok (r, s) ∧ filterIn o (convFilterShape o c (r, s) d) = .ok c ∧
      filterOut o (convFilterShape o c (r, s) d) = .ok d ∧ (convFilterShape o c (r, s) d).length = 4 := by
  cases o <;> exact ⟨rfl, rfl, rfl, rfl⟩

/-- C08: the two image layouts differ by the transposes; unbatched positions are those of a batched shape without the
batch dimension. -/
theorem C08_transpose (n h w c : Nat) :
    (batchedImageShape .nhwc n (h, w) c >>= Ops.toFirstShape) = batchedImageShape .nchw n (h, w) c ∧
      (batchedImageShape .nchw n (h, w) c >>= Ops.toLastShape) = batchedImageShape .nhwc n (h, w) c ∧
      imageShape .hwc [h, w, c] = .ok (h, w) ∧ channelSize .hwc [h, w, c] = .ok c ∧
      imageShape .chw [c, h, w] = .ok (h, w) ∧ channelSize .chw [c, h, w] = .ok c := ⟨rfl, rfl, rfl, rfl, rfl, rfl⟩

/-- C08: different arguments give different shapes (no dimension is dropped or duplicated). -/
theorem C08_injective {o : Order} {n h w c n' h' w' c' : Nat} {s : List Nat}
    (h1 : batchedImageShape o n (h, w) c = .ok s) (h2 : batchedImageShape o n' (h', w') c' = .ok s) :
    n = n' ∧ h = h' ∧ w = w' ∧ c = c' := by
  cases o <;> simp only [batchedImageShape, reduceCtorEq, Outcome.ok.injEq] at h1 h2 <;> subst h1 <;> simp_all

example : batchedImageShape .nchw 8 (28, 27) 3 = .ok [8, 3, 28, 27] ∧
    convFilterShape .dcrs 3 (5, 4) 64 = [64, 3, 5, 4] := by decide

/-! ## C09 -/

/-- A filter axis whose kernel size, stride and rate are representable; they may be 0. -/
structure Repr0 (a : Axis) : Prop where
  hk : u32.In a.k
  hs : u32.In a.s
  hr : u32.In a.r

theorem linconv_outSize {a : Axis} (h : Fits u32 u32 a.k a.s a.r a.l a.q a.n) :
    LinConv.outSize ⟨a.l, a.q, a.r, a.s⟩ a.n a.k = sampleCall u32 u32 a.k a.s a.r a.l a.q a.n := by
  have k1 := h.k1; have s1 := h.s1; have r1 := h.r1
  unfold LinConv.outSize LinConv.getSample Sample.make sampleCall
  rw [Filter.make_ok h.hN h.hk h.hs h.hr (by omega) (by omega) (by omega)]
  rfl

/-- The two supported pairs of layouts. -/
def SameFamily (io : Order) (fo : FOrder) : Prop := (io = .nhwc ∧ fo = .rscd) ∨ (io = .nchw ∧ fo = .dcrs)

theorem infer_eval {io : Order} {fo : FOrder} (ho : SameFamily io fo) {H W : Axis} {n c c' d : Nat} {xs : List Nat}
    (hx : batchedImageShape io n (H.n, W.n) c = .ok xs) :
    (convTrait H W).infer io fo xs (convFilterShape fo c' (H.k, W.k) d) = (do
      contractAssert (c' = c)
      let a ← LinConv.outSize ⟨H.l, H.q, H.r, H.s⟩ H.n H.k
      let b ← LinConv.outSize ⟨W.l, W.q, W.r, W.s⟩ W.n W.k
      batchedImageShape io n (a.toNat, b.toNat) d) := by
  rcases ho with ⟨rfl, rfl⟩ | ⟨rfl, rfl⟩ <;> cases hx <;> rfl

/-- C09: accepted convolutions get the batch size of `x`, the output channels of the filter and the sampled height and
width, in the image layout. -/
theorem C09_conv_shape {io : Order} {fo : FOrder} (ho : SameFamily io fo) {H W : Axis} (hH : AxisOK u32 H)
    (hW : AxisOK u32 W) {n c d : Nat} {xs : List Nat} (hx : batchedImageShape io n (H.n, W.n) c = .ok xs) :
    (convTrait H W).infer io fo xs (convFilterShape fo c (H.k, W.k) d) = batchedImageShape io n (H.m, W.m) d := by
  have e1 := linconv_outSize hH.fits
  have e2 := linconv_outSize hW.fits
  rw [(C01_output_length hH.fits H.m).2 hH.covers] at e1
  rw [(C01_output_length hW.fits W.m).2 hW.covers] at e2
  rw [infer_eval ho hx, contractAssert_pos rfl, e1, e2]
  rfl

/-- C09: `std::runtime_error` when the channels disagree, whatever the geometry. -/
theorem C09_channel_mismatch {io : Order} {fo : FOrder} (ho : SameFamily io fo) {H W : Axis} {n c c' d : Nat}
    (hne : c' ≠ c) {xs : List Nat} (hx : batchedImageShape io n (H.n, W.n) c = .ok xs) :
    (convTrait H W).infer io fo xs (convFilterShape fo c' (H.k, W.k) d) = .throw .runtimeError := by
  rw [infer_eval ho hx, contractAssert_neg hne]
  rfl

/-- C09: `std::invalid_argument` when an axis cannot be sampled (no number of windows covers it). -/
theorem C09_not_sampled {io : Order} {fo : FOrder} (ho : SameFamily io fo) {H W : Axis}
    (hH : Fits u32 u32 H.k H.s H.r H.l H.q H.n) (hW : Fits u32 u32 W.k W.s W.r W.l W.q W.n) {n c d : Nat}
    (hno : (∀ m, ¬ OutLen H.k H.s H.r H.l H.q H.n m) ∨ ∀ m, ¬ OutLen W.k W.s W.r W.l W.q W.n m) {xs : List Nat}
    (hx : batchedImageShape io n (H.n, W.n) c = .ok xs) :
    (convTrait H W).infer io fo xs (convFilterShape fo c (H.k, W.k) d) = .throw .invalidArgument := by
  rw [infer_eval ho hx, contractAssert_pos rfl, linconv_outSize hH, linconv_outSize hW]
  rcases C01_total hH with ⟨m, hm, e⟩ | ⟨-, e⟩ <;> rw [e]
  · rcases C01_total hW with ⟨m', hm', e'⟩ | ⟨-, e'⟩ <;> rw [e']
    · rcases hno with hno | hno
      · exact absurd hm (hno m)
      · exact absurd hm' (hno m')
    · rfl
  · rfl

/-- C09: a zero kernel size, stride or rate is rejected the same way. -/
theorem C09_zero_rejected {io : Order} {fo : FOrder} (ho : SameFamily io fo) {H W : Axis}
    (hH : Repr0 H) (hz : H.k = 0 ∨ H.s = 0 ∨ H.r = 0) {n c d : Nat} {xs : List Nat}
    (hx : batchedImageShape io n (H.n, W.n) c = .ok xs) :
    (convTrait H W).infer io fo xs (convFilterShape fo c (H.k, W.k) d) = .throw .invalidArgument := by
  rw [infer_eval ho hx, contractAssert_pos rfl]
  have : Filter.make u32 (H.k : Int) H.s H.r = .throw .invalidArgument :=
    (C03_constructor u32_std hH.hk hH.hs hH.hr).1.2 (by omega)
  simp only [LinConv.outSize, LinConv.getSample, Sample.make]
  rw [this]
  rfl

/-- C09: likewise along the width, whether or not the height can be sampled. -/
theorem C09_zero_rejected_width {io : Order} {fo : FOrder} (ho : SameFamily io fo) {H W : Axis}
    (hH : Fits u32 u32 H.k H.s H.r H.l H.q H.n) (hW : Repr0 W) (hz : W.k = 0 ∨ W.s = 0 ∨ W.r = 0) {n c d : Nat} {xs : List Nat}
    (hx : batchedImageShape io n (H.n, W.n) c = .ok xs) :
    (convTrait H W).infer io fo xs (convFilterShape fo c (H.k, W.k) d) = .throw .invalidArgument := by
  rw [infer_eval ho hx, contractAssert_pos rfl, linconv_outSize hH]
  have : Filter.make u32 (W.k : Int) W.s W.r = .throw .invalidArgument :=
    (C03_constructor u32_std hW.hk hW.hs hW.hr).1.2 (by omega)
  have e : LinConv.outSize ⟨W.l, W.q, W.r, W.s⟩ W.n W.k = .throw .invalidArgument := by
    simp only [LinConv.outSize, LinConv.getSample, Sample.make]
    rw [this]
    rfl
  rcases C01_total hH with ⟨m, -, e'⟩ | ⟨-, e'⟩ <;> rw [e']
  · rw [e]
    rfl
  · rfl

/-- C09: the shorter constructors of the convolution mean padding 0, stride 1, rate 1. -/
theorem C09_defaults (p : Padding × Padding) (s : Int × Int) :
    ConvTrait.default = .make (⟨0, 0⟩, ⟨0, 0⟩) (1, 1) (1, 1) ∧ ConvTrait.makeP p = .make p (1, 1) (1, 1) ∧
      ConvTrait.makeS s = .make (⟨0, 0⟩, ⟨0, 0⟩) s (1, 1) ∧ ConvTrait.makePS p s = .make p s (1, 1) :=
  ⟨rfl, rfl, rfl, rfl⟩

/-- Non-vacuity: stride 0 along the width. -/
example : (convTrait exH { exW with s := 0 }).infer .nhwc .rscd [4, 3, 5, 2] [2, 2, 2, 7] = .throw .invalidArgument :=
  C09_zero_rejected_width (n := 4) (c := 2) (d := 7) (Or.inl ⟨rfl, rfl⟩) exH_ok.fits ⟨by decide, by decide, by decide⟩
    (.inr (.inl rfl)) rfl

/-- Non-vacuity: the example axes, four images of 3 × 5 pixels and 2 channels, 7 output channels. -/
example : AxisOK u32 exH ∧ AxisOK u32 exW ∧ SameFamily .nchw .dcrs ∧
    (convTrait exH exW).infer .nchw .dcrs [4, 2, 3, 5] [7, 2, 2, 2] = .ok [4, 7, 3, 3] ∧
    (convTrait exH exW).infer .nhwc .rscd [4, 3, 5, 2] [2, 2, 2, 7] = .ok [4, 3, 3, 7] ∧
    (convTrait exH exW).infer .nhwc .rscd [4, 3, 5, 3] [2, 2, 2, 7] = .throw .runtimeError ∧
    (convTrait exH exW).infer .nhwc .rscd [4, 3, 6, 2] [2, 2, 2, 7] = .throw .invalidArgument := by
  refine ⟨exH_ok, exW_ok, Or.inr ⟨rfl, rfl⟩, ?_, ?_, ?_, ?_⟩ <;> decide

/-! ## C11 -/

theorem u32_i32_conv {v : Int} (h : u32.In v) : u32.conv (i32.conv v) = v := by
  have h1 := h.1
  have h2 := h.2
  rw [u32_lo] at h1
  rw [u32_hi] at h2
  have : u32.conv (i32.conv v) = v % 4294967296 := by
    simp only [IntTy.conv, u32, i32]
    exact Int.bmod_emod
  rw [this]
  omega

theorem origin_run {a : Axis} (h : AxisOK u32 a) : Ops.originSize a.m a.sample = .ok a.n := by
  have f := h.fits
  obtain ⟨m1, e⟩ := h.covers
  have k1 := f.k1; have r1 := f.r1; have s1 := f.s1
  have hp := patch_cast a.r k1
  have hP := f.padded
  have hpat := f.patchN
  rw [hp] at hpat
  have ez : ((a.m : Int) - 1) * a.s + ((a.k - 1) * a.r + 1) = a.l + a.n + a.q := by
    rw [← hp]
    have : ((a.m - 1 : Nat) : Int) = (a.m : Int) - 1 := by omega
    rw [← this]
    exact_mod_cast e
  push_cast at hP
  have p0 : (0 : Int) ≤ ((a.k : Int) - 1) * a.r := Int.mul_nonneg (by omega) (by omega)
  have q0 : (0 : Int) ≤ ((a.m : Int) - 1) * a.s := Int.mul_nonneg (by omega) (by omega)
  have hm0 : ((a.m : Int) - 1) * 1 ≤ ((a.m : Int) - 1) * a.s := Int.mul_le_mul_of_nonneg_left (by omega) (by omega)
  have h1 : u32.In 1 := In.small u32_std (by decide) (by decide)
  have hmm : u32.In ((a.m : Int) - 1) := hP.mono (by omega) (by omega)
  have hms : u32.In (((a.m : Int) - 1) * a.s) := hP.mono (by omega) (by omega)
  have hlq : u32.In ((a.l : Int) + a.q) := hP.mono (by omega) (by omega)
  have hPlt := hP.2
  rw [u32_hi] at hPlt
  have hm : u32.In (a.m : Int) := ⟨by rw [u32_lo]; omega, by
    rw [u32_hi]
    omega⟩
  have hnIn : u32.In (a.n : Int) := f.hn
  unfold Ops.originSize
  rw [sub_eq u32_std hm h1 hmm, Outcome.ok_bind]
  simp only [Axis.sample]
  rw [mul_eq u32_std hmm f.hs hms, Outcome.ok_bind,
    Filter.patchSize_ok u32_std (by omega) (by omega) f.hk f.hr hpat, Outcome.ok_bind,
    add_eq u32_std hms hpat (by rw [ez]; exact hP), Outcome.ok_bind]
  have hc : common u32 i32 = u32 := by decide
  have ea : Padding.apply u32 i32 ⟨a.l, a.q⟩ 0 = .ok (i32.conv ((a.l : Int) + a.q)) := by
    unfold Padding.apply
    simp only [hc]
    rw [add_eq u32_std f.hl (In.zero _) (by simpa using f.hl), Outcome.ok_bind, Int.add_zero,
      add_eq u32_std f.hl f.hq hlq]
    rfl
  rw [ea, Outcome.ok_bind, ez]
  unfold IntTy.sub
  rw [u32_i32_conv hlq, conv_eq u32_std hP, show (a.l : Int) + a.n + a.q - (a.l + a.q) = a.n by omega,
    arith_eq hnIn]

/-- C11 (two dimensions): `col2im` maps the column shape inferred by `im2col` back to the image shape. -/
theorem C11_col2im_inverts {H W : Axis} (hH : AxisOK u32 H) (hW : AxisOK u32 W) (c : Nat) :
    (do let s ← Ops.im2colHwrscShape [H.sample, W.sample] [H.n, W.n, c]
        Ops.col2imHwrscShape [H.sample, W.sample] s) = .ok [H.n, W.n, c] := by
  rw [hwrscShape_run hH hW, Outcome.ok_bind]
  unfold Ops.col2imHwrscShape
  simp only
  rw [ksize_run, contractAssert_pos rfl, Outcome.ok_bind, origin_run hH, Outcome.ok_bind, origin_run hW,
    Outcome.ok_bind, u32_i32_conv hH.fits.hn, u32_i32_conv hW.fits.hn]
  simp

/-- C11 (two dimensions): other kernel dimensions are rejected. -/
theorem C11_rejects (H W : Axis) {h_ w_ r s : Nat} (c : Nat) (hne : ¬ (r = H.k ∧ s = W.k)) :
    Ops.col2imHwrscShape [H.sample, W.sample] [h_, w_, r, s, c] = .throw .runtimeError := by
  unfold Ops.col2imHwrscShape
  simp only
  rw [ksize_run, contractAssert_neg (by simpa [eq_comm] using hne)]
  rfl

/-- C11 (one dimension). -/
theorem C11_col2im1d_inverts {a : Axis} (h : AxisOK i32 a) :
    (do let s ← Ops.im2col1dShape a.sample [a.n]
        Ops.col2im1dShape a.sample s) = .ok [a.n] := by
  have f := h.fits
  obtain ⟨m1, e⟩ := h.covers
  have k1 := f.k1; have r1 := f.r1; have s1 := f.s1
  have hp := patch_cast a.r k1
  have hP := f.padded
  have hpat := f.patchN
  rw [hp] at hpat
  have ez : ((a.m : Int) - 1) * a.s + ((a.k - 1) * a.r + 1) = a.l + a.n + a.q := by
    rw [← hp]
    have : ((a.m - 1 : Nat) : Int) = (a.m : Int) - 1 := by omega
    rw [← this]
    exact_mod_cast e
  push_cast at hP
  have p0 : (0 : Int) ≤ ((a.k : Int) - 1) * a.r := Int.mul_nonneg (by omega) (by omega)
  have q0 : (0 : Int) ≤ ((a.m : Int) - 1) * a.s := Int.mul_nonneg (by omega) (by omega)
  have hm0 : ((a.m : Int) - 1) * 1 ≤ ((a.m : Int) - 1) * a.s := Int.mul_le_mul_of_nonneg_left (by omega) (by omega)
  have h1 : u32.In 1 := In.small u32_std (by decide) (by decide)
  have hm : i32.In (a.m : Int) := hP.mono (by omega) (by omega)
  have hmm : i32.In ((a.m : Int) - 1) := hP.mono (by omega) (by omega)
  have hms : i32.In (((a.m : Int) - 1) * a.s) := hP.mono (by omega) (by omega)
  have hlq : i32.In ((a.l : Int) + a.q) := hP.mono (by omega) (by omega)
  have U : ∀ {v : Int}, 0 ≤ v → i32.In v → u32.In v := fun h0 h => i32_to_u32 h0 h
  unfold Ops.im2col1dShape
  simp only
  rw [conv_eq i32_std f.hn, sample_outSize h, Outcome.ok_bind, Outcome.pure_eq, Outcome.ok_bind]
  simp only [Axis.sample]
  rw [conv_eq u32_std (U (by omega) hm), conv_eq u32_std (U (by omega) f.hk)]
  unfold Ops.col2im1dShape
  simp only [Int.toNat_natCast]
  rw [conv_eq u32_std (U (by omega) f.hk), contractAssert_pos rfl, Outcome.ok_bind,
    sub_eq u32_std (U (by omega) hm) h1 (U (by omega) hmm), Outcome.ok_bind,
    mul_eq u32_std (U (by omega) hmm) (U (by omega) f.hs) (U q0 hms), Outcome.ok_bind,
    Filter.patchSize_ok i32_std (by omega) (by omega) f.hk f.hr hpat, Outcome.ok_bind,
    add_eq u32_std (U q0 hms) (U (by omega) hpat) (by rw [ez]; exact U (by omega) hP), Outcome.ok_bind, ez,
    conv_eq i32_std hP]
  rw [Padding.apply_ok i32_std i32_std (by omega) (by omega) (by omega) f.hl f.hq (In.zero _) (by simpa using hlq),
    Outcome.ok_bind]
  rw [sub_eq i32_std hP (by simpa using hlq)
    (by rw [show (a.l : Int) + a.n + a.q - (a.l + 0 + a.q) = a.n by omega]; exact f.hn), Outcome.ok_bind]
  rw [show (a.l : Int) + a.n + a.q - (a.l + 0 + a.q) = a.n by omega, conv_eq u32_std (U (by omega) f.hn)]
  rfl

/-- C11 (one dimension): another kernel dimension is rejected. -/
theorem C11_rejects1d {a : Axis} (hk : u32.In a.k) {m k : Nat} (hne : k ≠ a.k) :
    Ops.col2im1dShape a.sample [m, k] = .throw .runtimeError := by
  unfold Ops.col2im1dShape
  simp only
  have : ¬ u32.conv a.sample.filter.ksize = (k : Int) := by
    rw [show a.sample.filter.ksize = (a.k : Int) from rfl, conv_eq u32_std hk]
    omega
  rw [contractAssert_neg this]
  rfl

/-- Non-vacuity. -/
example : AxisOK u32 exH ∧ AxisOK u32 exW ∧ AxisOK i32 exW ∧
    Ops.im2colHwrscShape [exH.sample, exW.sample] [3, 5, 4] = .ok [3, 3, 2, 2, 4] ∧
    Ops.col2imHwrscShape [exH.sample, exW.sample] [3, 3, 2, 2, 4] = .ok [3, 5, 4] ∧
    Ops.col2imHwrscShape [exH.sample, exW.sample] [3, 3, 2, 3, 4] = .throw .runtimeError := by
  refine ⟨exH_ok, exW_ok, exW_ok32, ?_, ?_, ?_⟩ <;> decide

/-! ## C12 -/

/-- C12: the gradient's shape function succeeds exactly when `y` is the inferred shape and `gy` equals it; the result is the
shape of the argument differentiated. -/
theorem C12_gradient_shape (infer : List (List Nat) → Outcome (List Nat)) (i : Nat) (gy y s : List Nat)
    (xs : List (List Nat)) :
    Ops.gradientShape infer i gy y xs = .ok s ↔ infer xs = .ok y ∧ gy = y ∧ xs[i]? = some s := by
  unfold Ops.gradientShape
  cases e : infer xs with
  | throw _ => simp
  | ub => simp
  | ok y' =>
    simp only [Outcome.ok_bind, contractAssert]
    by_cases h1 : y = y'
    · subst h1
      by_cases h2 : y = gy
      · subst h2
        cases xs[i]? <;> simp
      · simp [h2, Ne.symm h2]
    · simp [h1, Ne.symm h1]

/-- C12: otherwise it throws: `std::runtime_error` on a mismatch, or whatever the operator's own inference throws. -/
theorem C12_gradient_throws (infer : List (List Nat) → Outcome (List Nat)) (i : Nat) (gy y : List Nat)
    (xs : List (List Nat)) :
    (∀ y', infer xs = .ok y' → (y ≠ y' ∨ gy ≠ y) → Ops.gradientShape infer i gy y xs = .throw .runtimeError) ∧
      ∀ e, infer xs = .throw e → Ops.gradientShape infer i gy y xs = .throw e := by
  refine ⟨fun y' e h => ?_, fun e h => ?_⟩
  · unfold Ops.gradientShape
    simp only [e, Outcome.ok_bind]
    by_cases h1 : y = y'
    · rw [contractAssert_pos h1, Outcome.ok_bind, contractAssert_neg (by rcases h with h | h <;> tauto)]
      rfl
    · rw [contractAssert_neg h1]; rfl
  · unfold Ops.gradientShape
    rw [h]; rfl

/-- C12: `check_shape` accepts exactly the inferred shape, and throws `std::logic_error` for any other. -/
theorem C12_check_shape (infer : List (List Nat) → Outcome (List Nat)) {y y' : List Nat} {xs : List (List Nat)}
    (h : infer xs = .ok y') : Ops.checkShape infer y xs = if y = y' then .ok ⟨⟩ else .throw .logicError := by
  unfold Ops.checkShape
  simp only [h, Outcome.ok_bind]
  by_cases e : y = y' <;> simp [e]

/-- Non-vacuity, with the shape function of `add`. -/
example : Ops.gradientShape (fun xs => match xs with | [a, b] => Ops.binaryEndoShape a b | _ => .ub) 1 [2, 3] [2, 3]
    [[2, 3], [2, 3]] = .ok [2, 3] ∧
    Ops.gradientShape (fun xs => match xs with | [a, b] => Ops.binaryEndoShape a b | _ => .ub) 1 [2, 4] [2, 3]
    [[2, 3], [2, 3]] = .throw .runtimeError ∧
    Ops.gradientShape (fun xs => match xs with | [a, b] => Ops.binaryEndoShape a b | _ => .ub) 1 [2, 3] [2, 3]
    [[2, 3], [2, 4]] = .throw .invalidArgument := by decide

/-! ## C13 -/

/-- C13: unary maps keep the shape, reductions drop the last dimension, vectorising appends one. -/
theorem C13_unary (x : List Nat) (d k : Nat) :
    Ops.endoShape x = .ok x ∧ Ops.reduceShape (x ++ [d]) = .ok x ∧ Ops.vectorizeShape k x = .ok (x ++ [k]) := by
  refine ⟨rfl, ?_, rfl⟩
  simp [Ops.reduceShape]

/-- C13: binary maps of equal rank: the common shape, or `std::invalid_argument` exactly when the shapes differ. -/
theorem C13_binary {x y : List Nat} (hr : x.length = y.length) :
    (x = y → Ops.binaryEndoShape x y = .ok x) ∧
      (Ops.binaryEndoShape x y = .throw .invalidArgument ↔ x ≠ y) := by
  unfold Ops.binaryEndoShape
  by_cases h : x = y <;> simp [hr, h]

/-- C13: binary reductions likewise. -/
theorem C13_binary_reduce {x y : List Nat} {a b : Nat} (hr : x.length = y.length) :
    (x = y ∧ a = b → Ops.binaryReduceShape (x ++ [a]) (y ++ [b]) = .ok x) ∧
      (Ops.binaryReduceShape (x ++ [a]) (y ++ [b]) = .throw .invalidArgument ↔ ¬ (x = y ∧ a = b)) := by
  unfold Ops.binaryReduceShape
  by_cases h : x = y ∧ a = b
  · obtain ⟨rfl, rfl⟩ := h
    simp
  · have : x ++ [a] ≠ y ++ [b] := by
      intro e
      have := List.append_inj' e rfl
      simp_all
    simp [hr, this, h]

/-- C13: `axpy` requires equal shapes as well, with `std::runtime_error`. -/
theorem C13_axpy {x y : List Nat} (hr : x.length = y.length) :
    Ops.axpyShape x y = if x = y then .ok x else .throw .runtimeError := by
  unfold Ops.axpyShape
  by_cases h : x = y <;> simp [hr, h]

example : Ops.binaryEndoShape [2, 3] [2, 4] = .throw .invalidArgument ∧ Ops.binaryReduceShape [2, 3] [2, 3] = .ok [2] ∧
    Ops.reduceShape [4, 5, 6] = .ok [4, 5] := by decide

/-! ## C14 -/

theorem u32_add_ok (a b : Nat) (ha : a < 2 ^ 32) (hb : b < 2 ^ 32) :
    u32.add a b = .ok (((a + b) % 2 ^ 32 : Nat) : Int) := by
  unfold IntTy.add
  have h1 : u32.In (a : Int) := ⟨by rw [u32_lo]; omega, by rw [u32_hi]; omega⟩
  have h2 : u32.In (b : Int) := ⟨by rw [u32_lo]; omega, by rw [u32_hi]; omega⟩
  rw [conv_eq u32_std h1, conv_eq u32_std h2]
  simp [IntTy.arith, u32]

theorem u32_add_some (a b : Nat) : ∃ d : Int, u32.add a b = .ok d := ⟨_, rfl⟩

theorem concatDims_same (p i : Nat) (s : List Nat) (h : p < i) : Ops.concatDims p i s s = .ok s := by
  induction s generalizing i with
  | nil => rfl
  | cons a s ih =>
    simp only [Ops.concatDims]
    rw [if_neg (by omega), contractAssert_pos trivial, Outcome.ok_bind, ih (i + 1) (by omega)]
    rfl

theorem concatDims_run (p i : Nat) (pre post : List Nat) (a b : Nat) (hi : i + pre.length = p) (ha : a < 2 ^ 32)
    (hb : b < 2 ^ 32) :
    Ops.concatDims p i (pre ++ a :: post) (pre ++ b :: post) = .ok (pre ++ ((a + b) % 2 ^ 32) :: post) := by
  induction pre generalizing i with
  | nil =>
    simp only [List.nil_append, Ops.concatDims]
    rw [if_pos (by simpa using hi), u32_add_ok a b ha hb, Outcome.ok_bind,
      concatDims_same p (i + 1) post (by simp at hi; omega)]
    rfl
  | cons c pre ih =>
    simp only [List.cons_append, Ops.concatDims]
    simp only [List.length_cons] at hi
    rw [if_neg (by omega), contractAssert_pos trivial, Outcome.ok_bind, ih (i + 1) (by omega)]
    rfl

/-- The general form: the concatenated dimension is the sum modulo 2^32. -/
theorem concatShape_run (pre post : List Nat) (cs : List Nat) (hne : cs ≠ []) (hc : ∀ c ∈ cs, c < 2 ^ 32) :
    Ops.concatShape pre.length (cs.map fun c => pre ++ c :: post) = .ok (pre ++ (cs.sum % 2 ^ 32) :: post) := by
  match cs, hne with
  | [c], _ =>
    have := hc c (by simp)
    simp only [List.map_cons, List.map_nil, Ops.concatShape, List.sum_cons, List.sum_nil, Nat.add_zero]
    rw [Nat.mod_eq_of_lt this]
  | c :: d :: cs, _ =>
    have ih := concatShape_run pre post (d :: cs) (by simp) fun x hx => hc x (by simp [hx])
    simp only [List.map_cons, Ops.concatShape] at ih ⊢
    rw [ih, Outcome.ok_bind]
    unfold Ops.concat2
    rw [concatDims_run _ _ _ _ _ _ (by omega) (hc c (by simp)) (Nat.mod_lt _ (by decide))]
    simp [Nat.add_mod]

/-- C14: any number of operands that agree outside the concatenated axis. -/
theorem C14_concat (pre post : List Nat) {cs : List Nat} (hne : cs ≠ []) (hsum : cs.sum < 2 ^ 32) :
    Ops.concatShape pre.length (cs.map fun c => pre ++ c :: post) = .ok (pre ++ cs.sum :: post) := by
  have := concatShape_run pre post cs hne fun c hc => lt_of_le_of_lt (List.single_le_sum (by simp) c hc) hsum
  rwa [Nat.mod_eq_of_lt hsum] at this

/-- C14 (limit): the dimension type is 32 bits wide; a larger sum wraps without an error. -/
theorem C14_wraps (pre post : List Nat) {cs : List Nat} (hne : cs ≠ []) (hc : ∀ c ∈ cs, c < 2 ^ 32)
    (hsum : 2 ^ 32 ≤ cs.sum) :
    ∃ k, k ≠ cs.sum ∧ Ops.concatShape pre.length (cs.map fun c => pre ++ c :: post) = .ok (pre ++ k :: post) :=
  ⟨_, by omega, concatShape_run pre post cs hne hc⟩

theorem concatDims_total (p : Nat) (s t : List Nat) (i : Nat) (hl : s.length = t.length) :
    (∃ r, Ops.concatDims p i s t = .ok r ∧ r.length = s.length ∧ ∀ j, i + j ≠ p → s[j]? = t[j]? ∧ r[j]? = s[j]?) ∨
      (Ops.concatDims p i s t = .throw .runtimeError ∧ ∃ j, i + j ≠ p ∧ s[j]? ≠ t[j]?) := by
  induction s generalizing t i with
  | nil =>
    match t, hl with
    | [], _ => exact .inl ⟨[], rfl, rfl, fun j _ => ⟨rfl, rfl⟩⟩
  | cons a s ih =>
    match t, hl with
    | b :: t, hl =>
      simp only [Ops.concatDims]
      have hl' : s.length = t.length := by simpa using hl
      have ih := ih t (i + 1) hl'
      by_cases hp : i = p
      · rw [if_pos hp]
        obtain ⟨d, hd⟩ := u32_add_some a b
        rw [hd, Outcome.ok_bind]
        rcases ih with ⟨r, e, el, h⟩ | ⟨e, j, hj, hne⟩
        · refine .inl ⟨d.toNat :: r, by rw [e]; rfl, by simp [el], fun j hj => ?_⟩
          cases j with
          | zero => omega
          | succ j => exact h j (by omega)
        · refine .inr ⟨by rw [e]; rfl, j + 1, by omega, by simpa using hne⟩
      · rw [if_neg hp]
        by_cases hab : a = b
        · subst hab
          rw [contractAssert_pos rfl, Outcome.ok_bind]
          rcases ih with ⟨r, e, el, h⟩ | ⟨e, j, hj, hne⟩
          · refine .inl ⟨a :: r, by rw [e]; rfl, by simp [el], fun j hj => ?_⟩
            cases j with
            | zero => exact ⟨rfl, rfl⟩
            | succ j => exact h j (by omega)
          · refine .inr ⟨by rw [e]; rfl, j + 1, by omega, by simpa using hne⟩
        · exact .inr ⟨by rw [contractAssert_neg hab]; rfl, 0, by omega, by simpa using hab⟩

theorem concatShape_total (p n : Nat) (ss : List (List Nat)) (hne : ss ≠ []) (hl : ∀ s ∈ ss, s.length = n) :
    (∃ r, Ops.concatShape p ss = .ok r ∧ r.length = n ∧ ∀ s ∈ ss, ∀ j ≠ p, s[j]? = r[j]?) ∨
      (Ops.concatShape p ss = .throw .runtimeError ∧ ∃ s ∈ ss, ∃ t ∈ ss, ∃ j ≠ p, s[j]? ≠ t[j]?) := by
  match ss, hne with
  | [s], _ => exact .inl ⟨s, rfl, hl s (by simp), fun t ht j _ => by simp at ht; rw [ht]⟩
  | s :: t :: ss, _ =>
    simp only [Ops.concatShape]
    rcases concatShape_total p n (t :: ss) (by simp) fun x hx => hl x (by simp [hx]) with
      ⟨r, e, el, h⟩ | ⟨e, a, ha, b, hb, j, hj, hne⟩
    · rw [e, Outcome.ok_bind]
      rcases concatDims_total p s r 0 (by rw [el, hl s (by simp)]) with ⟨q, e', el', h'⟩ | ⟨e', j, hj, hne⟩
      · refine .inl ⟨q, e', by rw [el', hl s (by simp)], fun x hx j hj => ?_⟩
        rcases List.mem_cons.1 hx with rfl | hx
        · exact (h' j (by omega)).2.symm
        · rw [h x hx j hj, (h' j (by omega)).2, (h' j (by omega)).1]
      · exact .inr ⟨e', s, by simp, t, by simp, j, by omega, by rwa [h t (by simp) j (by omega)]⟩
    · exact .inr ⟨by rw [e]; rfl, a, by simp [ha], b, by simp [hb], j, hj, hne⟩

/-- C14: among operands of the same rank, `std::runtime_error` exactly when two of them differ in another dimension. -/
theorem C14_rejects {p n : Nat} {ss : List (List Nat)} (hne : ss ≠ []) (hl : ∀ s ∈ ss, s.length = n) :
    Ops.concatShape p ss = .throw .runtimeError ↔ ∃ s ∈ ss, ∃ t ∈ ss, ∃ j ≠ p, s[j]? ≠ t[j]? := by
  rcases concatShape_total p n ss hne hl with ⟨r, e, -, h⟩ | ⟨e, h⟩
  · rw [e]
    simp only [reduceCtorEq, false_iff]
    rintro ⟨s, hs, t, ht, j, hj, hne⟩
    exact hne ((h s hs j hj).trans (h t ht j hj).symm)
  · exact ⟨fun _ => h, fun _ => e⟩

/-- C14: the operator concatenates along the channel dimension of its layout. -/
theorem C14_channel (n h w : Nat) {cs : List Nat} (hne : cs ≠ []) (hsum : cs.sum < 2 ^ 32) :
    Ops.concatChannelShape .nchw (cs.map fun c => [n, c, h, w]) = .ok [n, cs.sum, h, w] ∧
      Ops.concatChannelShape .nhwc (cs.map fun c => [n, h, w, c]) = .ok [n, h, w, cs.sum] :=
  ⟨C14_concat [n] [h, w] hne hsum, C14_concat [n, h, w] [] hne hsum⟩

example : Ops.concatChannelShape .nchw [[2, 3, 4, 5], [2, 1, 4, 5], [2, 6, 4, 5]] = .ok [2, 10, 4, 5] ∧
    Ops.concatChannelShape .nchw [[2, 3, 4, 5], [2, 1, 4, 5], [2, 6, 3, 5]] = .throw .runtimeError ∧
    (∀ s ∈ [[2, 3, 4, 5], [2, 1, 4, 5], [2, 6, 3, 5]], s.length = 4) := by
  refine ⟨?_, ?_, ?_⟩ <;> decide

/-! ## C15 -/

/-- C15: grouping the dimensions multiplies them group by group; the number of elements stays. -/
theorem C15_flatten_shape (gs : List (List Nat)) :
    Ops.flattenShape (gs.map List.length) gs.flatten = .ok (gs.map List.prod) ∧
      (gs.map List.prod).prod = gs.flatten.prod := by
  constructor
  · induction gs with
    | nil => rfl
    | cons g gs ih =>
      simp only [List.map_cons, List.flatten_cons, Ops.flattenShape]
      rw [if_neg (by simp), List.drop_left, List.take_left, ih]
      rfl
  · induction gs with
    | nil => rfl
    | cons g gs ih => rw [List.map_cons, List.prod_cons, List.flatten_cons, List.prod_append, ih]

/-- C15: the flat position of a multi-index is unchanged: the new index is the row-major position within each group. -/
theorem C15_flatten_index (gs is : List (List Nat)) (h : List.Forall₂ Valid gs is) :
    offset (gs.map List.prod) (List.zipWith offset gs is) = offset gs.flatten is.flatten := by
  induction h with
  | nil => rfl
  | @cons g i gs is hv ht ih =>
    simp only [List.map_cons, List.zipWith_cons_cons, List.flatten_cons, offset_cons]
    rw [offset_append _ _ hv, ih, (C15_flatten_shape gs).2]

/-- C15 (`as_matrix`): the element of the matrix view at the row-major positions of the two index groups is the element of
the tensor. -/
theorem C15_as_matrix {R : Type} {d1 d2 i1 i2 : List Nat} (t : List R) (h1 : Valid d1 i1) (h2 : Valid d2 i2) :
    (⟨asMatrix d1.length (d1 ++ d2), t⟩ : Tensor R).at_ [offset d1 i1, offset d2 i2] =
      (⟨d1 ++ d2, t⟩ : Tensor R).at_ (i1 ++ i2) := by
  have := C15_flatten_index [d1, d2] [i1, i2] (.cons h1 (.cons h2 .nil))
  simp only [List.map_cons, List.map_nil, List.zipWith_cons_cons, List.zipWith_nil_left, List.flatten_cons,
    List.flatten_nil, List.append_nil] at this
  have e : asMatrix d1.length (d1 ++ d2) = [d1.prod, d2.prod] := by simp [asMatrix]
  unfold Tensor.at_
  simp only [e, this]

/-- C15 (`copy_flatten` and its gradient): the flat contents are copied unchanged. -/
theorem C15_copy_flatten {R : Type} [Zero R] (x : Tensor R) {y : List R} (hy : y.length = x.data.length) :
    Ops.copyFlatten x y = .ok x.data ∧ Grad.copyFlatten x y = .ok x.data :=
  ⟨Kernels.copy_ext hy.symm, Kernels.copy_ext hy.symm⟩

/-- Non-vacuity: a 2 × 3 × 4 tensor as a 6 × 4 matrix; element (1, 2, 3) is element (5, 3). -/
example : Valid [2, 3] [1, 2] ∧ Valid [4] [3] ∧ offset [2, 3] [1, 2] = 5 ∧ offset [2, 3, 4] [1, 2, 3] = 23 ∧
    Ops.flattenShape [2, 1] [2, 3, 4] = .ok [6, 4] := by
  refine ⟨⟨by decide, by decide, trivial⟩, ⟨by decide, trivial⟩, ?_, ?_, ?_⟩ <;> decide

/-! ## Concrete cases of the theorems above: images of 3 × 5 pixels, padded windows, stride 2 along the width -/

example := (C07_per_axis (N := u32) (A := [exH, exW]) (by
  intro a ha
  simp only [List.mem_cons, List.not_mem_nil, or_false] at ha
  rcases ha with rfl | rfl
  · exact exH_ok.fits
  · exact exW_ok.fits)).1
example := C07_ksize (N := u32) (ks := [3, 2]) (ps := [⟨1, 1⟩, ⟨0, 2⟩]) (ss := [1, 2]) (rs := [1, 1])
  (t := [⟨⟨3, 1, 1⟩, ⟨1, 1⟩⟩, ⟨⟨2, 2, 1⟩, ⟨0, 2⟩⟩]) (by decide)
example : MultiSample.make u32 [3, 2] [⟨1, 1⟩, ⟨0, 2⟩] [1, 0] [1, 1] = .throw .invalidArgument :=
  (C07_constructor_throws u32_std (A := [(3, ⟨1, 1⟩, 1, 1), (2, ⟨0, 2⟩, 0, 1)]) (by decide)).mpr (by decide)
example := C08_image_positions (o := .nchw) (.inr rfl) 8 28 27 3
example : (8, 3) = (8, 3) := by
  obtain ⟨h1, -, -, h2⟩ := C08_injective (o := .nchw) (n := 8) (h := 28) (w := 27) (c := 3) (n' := 8) (h' := 28) (w' := 27)
    (c' := 3) rfl rfl
  exact Prod.ext h1 h2
example : (convTrait exH exW).infer .nchw .dcrs [4, 2, 3, 5] [7, 2, 2, 2] = .ok [4, 7, 3, 3] :=
  C09_conv_shape (n := 4) (c := 2) (d := 7) (Or.inr ⟨rfl, rfl⟩) exH_ok exW_ok rfl
example : (convTrait exH exW).infer .nhwc .rscd [4, 3, 5, 3] [2, 2, 2, 7] = .throw .runtimeError :=
  C09_channel_mismatch (n := 4) (c := 3) (c' := 2) (d := 7) (H := exH) (W := exW) (Or.inl ⟨rfl, rfl⟩) (by decide) rfl
example : (convTrait exH ⟨3, 2, 1, 0, 0, 6, 0⟩).infer .nhwc .rscd [4, 3, 6, 2] [2, 3, 2, 7] = .throw .invalidArgument :=
  C09_not_sampled (n := 4) (c := 2) (d := 7) (W := ⟨3, 2, 1, 0, 0, 6, 0⟩) (Or.inl ⟨rfl, rfl⟩) exH_ok.fits
    (by constructor <;> decide) (.inr (by intro m; unfold OutLen patch; dsimp only; omega)) rfl
example : (convTrait { exH with r := 0 } exW).infer .nhwc .rscd [4, 3, 5, 2] [2, 2, 2, 7] = .throw .invalidArgument :=
  C09_zero_rejected (n := 4) (c := 2) (d := 7) (Or.inl ⟨rfl, rfl⟩) ⟨by decide, by decide, by decide⟩ (.inr (.inr rfl)) rfl
example := C11_col2im_inverts exH_ok exW_ok 4
example : Ops.col2imHwrscShape [exH.sample, exW.sample] [3, 3, 2, 3, 4] = .throw .runtimeError :=
  C11_rejects exH exW 4 (by decide)
example := C11_col2im1d_inverts exW_ok32
example : Ops.col2im1dShape exW.sample [3, 5] = .throw .runtimeError := C11_rejects1d (by decide) (by decide)
example : Ops.checkShape (fun xs => match xs with | [a, b] => Ops.binaryEndoShape a b | _ => .ub) [2, 4] [[2, 3], [2, 3]] =
    .throw .logicError := C12_check_shape _ (y := [2, 4]) (y' := [2, 3]) (by decide)
example : Ops.concatShape 1 [[2, 3, 4, 5], [2, 1, 4, 5], [2, 6, 4, 5]] = .ok [2, 10, 4, 5] :=
  C14_concat [2] [4, 5] (cs := [3, 1, 6]) (by decide) (by decide)
example := C14_wraps [2] [4, 5] (cs := [2 ^ 31, 2 ^ 31, 7]) (by decide) (by decide) (by decide)
example : Ops.concatShape 1 [[2, 3, 4, 5], [2, 1, 4, 5], [2, 6, 3, 5]] = .throw .runtimeError :=
  (C14_rejects (n := 4) (by decide) (by decide)).mpr
    ⟨[2, 3, 4, 5], by decide, [2, 6, 3, 5], by decide, 2, by decide, by decide⟩
example := C14_channel 2 4 5 (cs := [3, 1, 6]) (by decide) (by decide)
example := C15_flatten_index [[2, 3], [4]] [[1, 2], [3]] (.cons ⟨by decide, by decide, trivial⟩ (.cons ⟨by decide, trivial⟩ .nil))
example := C15_as_matrix (d1 := [2, 3]) (d2 := [4]) (i1 := [1, 2]) (i2 := [3]) (List.range 24) ⟨by decide, by decide, trivial⟩
  ⟨by decide, trivial⟩

end StdNN
