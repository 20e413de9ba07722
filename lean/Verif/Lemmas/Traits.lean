import Verif.Model.Traits
import Verif.Lemmas.IntTy
import Mathlib.Tactic.Ring
import Mathlib.Data.Nat.Cast.Order.Basic
/-!
# Exactness of the linear-sample arithmetic on representable values
-/
namespace StdNN
open IntTy

theorem Filter.make_ok {N : IntTy} (hN : N.Std) {k s r : Int} (hk : N.In k) (hs : N.In s) (hr : N.In r)
    (k1 : 1 ≤ k) (s1 : 1 ≤ s) (r1 : 1 ≤ r) : Filter.make N k s r = .ok ⟨k, s, r⟩ := by
  have h1 : N.In 1 := In.small hN (by decide) (by decide)
  simp only [Filter.make, lt_eq hN hk h1, lt_eq hN hs h1, lt_eq hN hr h1]
  have a : ¬ k < 1 := by omega
  have b : ¬ s < 1 := by omega
  have c : ¬ r < 1 := by omega
  simp [a, b, c]

theorem Padding.apply_ok {N D : IntTy} (hN : N.Std) (hD : D.Std) {l q n : Int}
    (l0 : 0 ≤ l) (q0 : 0 ≤ q) (n0 : 0 ≤ n) (hl : N.In l) (hq : N.In q) (hn : D.In n) (h : D.In (l + n + q)) :
    Padding.apply N D ⟨l, q⟩ n = .ok (l + n + q) := by
  have hC := common_std hN hD
  have hl' : (common N D).In l := hl.common_left l0
  have hq' : (common N D).In q := hq.common_left q0
  have hn' : (common N D).In n := hn.common_right n0
  have h' : (common N D).In (l + n + q) := h.common_right (by omega)
  have h'' : (common N D).In (l + n) := h'.mono (by omega) (by omega)
  simp [Padding.apply, add_eq hC hl' hn' h'', add_eq hC h'' hq' h', conv_eq hD h]

theorem patch_ok_aux {N : IntTy} (hN : N.Std) {k r : Int} (k1 : 1 ≤ k) (r1 : 1 ≤ r)
    (hk : N.In k) (hr : N.In r) (h : N.In ((k - 1) * r + 1)) :
    N.sub k 1 = .ok (k - 1) ∧ N.mul (k - 1) r = .ok ((k - 1) * r) ∧ N.mul r (k - 1) = .ok ((k - 1) * r) ∧
      N.add ((k - 1) * r) 1 = .ok ((k - 1) * r + 1) := by
  have h1 : N.In 1 := In.small hN (by decide) (by decide)
  have p0 : 0 ≤ (k - 1) * r := Int.mul_nonneg (by omega) (by omega)
  have hk' : N.In (k - 1) := hk.mono (by omega) (by omega)
  have hm : N.In ((k - 1) * r) := h.mono p0 (by omega)
  refine ⟨sub_eq hN hk h1 hk', mul_eq hN hk' hr hm, ?_, add_eq hN hm h1 h⟩
  rw [mul_eq hN hr hk' (by rwa [Int.mul_comm]), Int.mul_comm]

theorem Filter.patchSize_ok {N : IntTy} (hN : N.Std) {k s r : Int} (k1 : 1 ≤ k) (r1 : 1 ≤ r)
    (hk : N.In k) (hr : N.In r) (h : N.In ((k - 1) * r + 1)) :
    Filter.patchSize N ⟨k, s, r⟩ = .ok ((k - 1) * r + 1) := by
  obtain ⟨a, b, _, c⟩ := patch_ok_aux hN k1 r1 hk hr h
  simp [Filter.patchSize, a, b, c]

theorem Sample.patchSize_ok {N : IntTy} (hN : N.Std) {k r : Int} (k1 : 1 ≤ k) (r1 : 1 ≤ r)
    (hk : N.In k) (hr : N.In r) (h : N.In ((k - 1) * r + 1)) :
    Sample.patchSize N k r = .ok ((k - 1) * r + 1) := by
  obtain ⟨a, _, b, c⟩ := patch_ok_aux hN k1 r1 hk hr h
  simp [Sample.patchSize, a, b, c]

/-- Value of the output length computation when nothing overflows. -/
theorem Filter.outSize_eval {N D : IntTy} (hN : N.Std) (hD : D.Std) {k s r l q n : Int}
    (k1 : 1 ≤ k) (s1 : 1 ≤ s) (r1 : 1 ≤ r) (l0 : 0 ≤ l) (q0 : 0 ≤ q) (n0 : 0 ≤ n)
    (hk : N.In k) (hs : N.In s) (hr : N.In r) (hl : N.In l) (hq : N.In q) (hn : D.In n)
    (hp : D.In (l + n + q)) (hps : N.In ((k - 1) * r + 1)) (hps' : D.In ((k - 1) * r + 1)) :
    Filter.outSize N D ⟨k, s, r⟩ ⟨l, q⟩ n =
      if l + n + q < (k - 1) * r + 1 then .throw .invalidArgument
      else if (l + n + q - ((k - 1) * r + 1)) % s ≠ 0 then .throw .invalidArgument
      else .ok ((l + n + q - ((k - 1) * r + 1)) / s + 1) := by
  have hC := common_std hN hD
  have p0 : 0 ≤ (k - 1) * r := Int.mul_nonneg (by omega) (by omega)
  simp only [Filter.outSize, Padding.apply_ok hN hD l0 q0 n0 hl hq hn hp,
    Filter.patchSize_ok hN k1 r1 hk hr hps, Outcome.ok_bind, conv_eq hD hps', lt_eq hD hp hps',
    decide_eq_true_eq]
  split
  · rfl
  · rename_i hge
    generalize (k - 1) * r = u at *
    have hd : D.In (l + n + q - (u + 1)) := hp.mono (by omega) (by omega)
    have hdC : (common N D).In (l + n + q - (u + 1)) := hd.common_right (by omega)
    have hsC : (common N D).In s := hs.common_left (by omega)
    have h1C : (common N D).In 1 := In.small hC (by decide) (by decide)
    have hqle : (l + n + q - (u + 1)) / s ≤ (l + n + q - (u + 1)) := Int.ediv_le_self _ (by omega)
    have hq0 : 0 ≤ (l + n + q - (u + 1)) / s := Int.ediv_nonneg (by omega) (by omega)
    have hqC : (common N D).In ((l + n + q - (u + 1)) / s) := hdC.mono hq0 hqle
    have hrD : D.In ((l + n + q - (u + 1)) / s + 1) := hp.mono (by omega) (by omega)
    have hrC : (common N D).In ((l + n + q - (u + 1)) / s + 1) := hrD.common_right (by omega)
    simp only [sub_eq hD hp hps' hd, Outcome.ok_bind,
      mod_eq hC hdC hsC (by omega) (by omega), div_eq hC hdC hsC (by omega) (by omega),
      add_eq hC hqC h1C hrC, conv_eq hD hrD, Outcome.pure_eq]

theorem Filter.tap_ok {N D : IntTy} (hN : N.Std) (hD : D.Std) {k s r j u : Int}
    (s0 : 1 ≤ s) (r0 : 1 ≤ r) (j0 : 0 ≤ j) (u0 : 0 ≤ u)
    (hs : N.In s) (hr : N.In r) (hj : D.In j) (hu : D.In u) (h : D.In (j * s + u * r)) :
    Filter.tap N D ⟨k, s, r⟩ j u = .ok (j * s + u * r) := by
  have hC := common_std hN hD
  have js0 : 0 ≤ j * s := Int.mul_nonneg j0 (by omega)
  have ur0 : 0 ≤ u * r := Int.mul_nonneg u0 (by omega)
  have hC3 : (common N D).In (j * s + u * r) := h.common_right (by omega)
  have hC1 : (common N D).In (j * s) := hC3.mono js0 (by omega)
  have hC2 : (common N D).In (u * r) := hC3.mono ur0 (by omega)
  have hsC : (common N D).In s := hs.common_left (by omega)
  have hrC : (common N D).In r := hr.common_left (by omega)
  have hjC : (common N D).In j := hj.common_right (by omega)
  have huC : (common N D).In u := hu.common_right (by omega)
  simp [Filter.tap, mul_eq hC hjC hsC hC1, mul_eq hC huC hrC hC2, add_eq hC hC1 hC2 hC3, conv_eq hD h]

theorem Padding.inside_ok {N : IntTy} (hN : N.Std) {l q i n : Int} (l0 : 0 ≤ l) (n0 : 0 ≤ n)
    (hl : N.In l) (hi : N.In i) (h : N.In (l + n)) :
    Padding.inside N ⟨l, q⟩ i n = .ok (decide (l ≤ i ∧ i < l + n)) := by
  have hn : N.In n := h.mono n0 (by omega)
  simp only [Padding.inside, conv_eq hN hi, conv_eq hN hn, le_eq hN hl hi, add_eq hN hl hn h,
    lt_eq hN hi h, Outcome.ok_bind, Outcome.pure_eq, decide_eq_true_eq]
  split <;> simp_all

theorem Padding.unpad_ok {N D : IntTy} (hN : N.Std) (hD : D.Std) {l q i : Int} (l0 : 0 ≤ l) (hi : l ≤ i)
    (hl : N.In l) (hiD : D.In i) : Padding.unpad N D ⟨l, q⟩ i = .ok (i - l) := by
  have hC := common_std hN hD
  have hlC : (common N D).In l := hl.common_left (by omega)
  have hiC : (common N D).In i := hiD.common_right (by omega)
  have hd : D.In (i - l) := hiD.mono (by omega) (by omega)
  have hdC : (common N D).In (i - l) := hd.common_right (by omega)
  simp [Padding.unpad, sub_eq hC hiC hlC hdC, conv_eq hD hd]

theorem Sample.evenPadding_ok {N : IntTy} (hN : N.Std) {p : Int} (p0 : 0 ≤ p) (hp : N.In p) :
    Sample.evenPadding N p = .ok ⟨p / 2, p - p / 2⟩ := by
  have h2 : N.In 2 := In.small hN (by decide) (by decide)
  have hh : N.In (p / 2) := hp.mono (by omega) (by omega)
  have hr : N.In (p - p / 2) := hp.mono (by omega) (by omega)
  simp [Sample.evenPadding, div_eq hN hp h2 p0 (by decide), sub_eq hN hp hh hr]

theorem Sample.validPadding_eval {N : IntTy} (hN : N.Std) {k s r n : Int} (k1 : 1 ≤ k) (s1 : 1 ≤ s) (r1 : 1 ≤ r)
    (n0 : 0 ≤ n) (hk : N.In k) (hs : N.In s) (hr : N.In r) (hn : N.In n) (h : N.In ((k - 1) * r + 1 + s)) :
    Sample.validPadding N k s r n =
      Sample.evenPadding N (((k - 1) * r + 1 + s - n % s) % s) := by
  have p0 : 0 ≤ (k - 1) * r := Int.mul_nonneg (by omega) (by omega)
  have hps : N.In ((k - 1) * r + 1) := h.mono (by omega) (by omega)
  have m0 : 0 ≤ n % s := Int.emod_nonneg _ (by omega)
  have m1 : n % s < s := Int.emod_lt_of_pos _ (by omega)
  have hm : N.In (n % s) := hs.mono m0 (by omega)
  have hd : N.In ((k - 1) * r + 1 + s - n % s) := h.mono (by omega) (by omega)
  simp [Sample.validPadding, Sample.patchSize_ok hN k1 r1 hk hr hps, add_eq hN hps hs h,
    mod_eq hN hn hs n0 (by omega), sub_eq hN h hm hd, mod_eq hN hd hs (by omega) (by omega)]

theorem Sample.samePadding_eval {N : IntTy} (hN : N.Std) {k s r n : Int} (k1 : 1 ≤ k) (s1 : 1 ≤ s) (r1 : 1 ≤ r)
    (n0 : 0 ≤ n) (hk : N.In k) (hs : N.In s) (hr : N.In r) (hn : N.In n)
    (hps : N.In ((k - 1) * r + 1)) (h : N.In (2 * s)) :
    Sample.samePadding N k s r n =
      if s + n % s ≤ (k - 1) * r + 1 then Sample.evenPadding N ((k - 1) * r + 1 - s - n % s)
      else .throw .runtimeError := by
  have p0 : 0 ≤ (k - 1) * r := Int.mul_nonneg (by omega) (by omega)
  have m0 : 0 ≤ n % s := Int.emod_nonneg _ (by omega)
  have m1 : n % s < s := Int.emod_lt_of_pos _ (by omega)
  have hm : N.In (n % s) := hs.mono m0 (by omega)
  have he : N.In (s + n % s) := h.mono (by omega) (by omega)
  simp only [Sample.samePadding, Sample.patchSize_ok hN k1 r1 hk hr hps, mod_eq hN hn hs n0 (by omega : 0 < s),
    add_eq hN hs hm he, le_eq hN he hps, Outcome.ok_bind, decide_eq_true_eq]
  split
  · rename_i hle
    have hd : N.In ((k - 1) * r + 1 - s) := hps.mono (by omega) (by omega)
    have hd2 : N.In ((k - 1) * r + 1 - s - n % s) := hps.mono (by omega) (by omega)
    simp only [Outcome.contractAssert_pos hle, Outcome.ok_bind, sub_eq hN hps hs hd, sub_eq hN hd hm hd2]
  · rename_i hle
    simp [Outcome.contractAssert_neg hle]

end StdNN
