import Verif.Model.PoolInt
import Verif.Props.Pool
import Verif.Props.Summary
/-!
# C134: averages of built-in integers of every width and signedness
-/
namespace StdNN
open Spec Outcome Finset IntTy

namespace IntTy

theorem conv_in {t : IntTy} (h1 : 1 ≤ t.bits) {v : Int} (h : t.In v) : t.conv v = v := by
  have h2 := two_pow_split h1
  unfold In lo hi at h
  unfold conv
  by_cases hs : t.signed
  · simp only [hs, if_true] at h ⊢
    have hp : (0 : Int) < 2 ^ (t.bits - 1) := Int.pow_pos (by decide)
    rw [Int.bmod_eq_of_le]
    · push_cast; omega
    · push_cast; omega
  · simp only [hs] at h ⊢
    exact Int.emod_eq_of_lt h.1 h.2

theorem in_conv {t : IntTy} (h1 : 1 ≤ t.bits) (v : Int) : t.In (t.conv v) := by
  have h2 := two_pow_split h1
  have hp : (0 : Int) < 2 ^ (t.bits - 1) := Int.pow_pos (by decide)
  have hp' : 0 < 2 ^ t.bits := Nat.pow_pos (n := t.bits) (by decide : 0 < 2)
  unfold In lo hi conv
  by_cases hs : t.signed
  · simp only [hs, if_true]
    have a := Int.le_bmod (x := v) hp'
    have b := Int.bmod_lt (x := v) hp'
    push_cast at a b
    constructor <;> omega
  · simp only [hs]
    exact ⟨Int.emod_nonneg _ (by simp), Int.emod_lt_of_pos _ (Int.pow_pos (by decide))⟩

theorem conv_add {t : IntTy} (a b : Int) : t.conv (t.conv a + b) = t.conv (a + b) := by
  unfold conv
  by_cases hs : t.signed
  · simp only [hs, if_true]; exact Int.bmod_add_bmod
  · simp [hs]

theorem conv_conv {t : IntTy} (a : Int) : t.conv (t.conv a) = t.conv a := by
  simpa using conv_add (t := t) a 0

/-- The types whose additions never overflow: those promoted to `int`, and the unsigned ones. -/
def Wraps (t : IntTy) : Prop := 1 ≤ t.bits ∧ (t.bits ≤ 30 ∨ 32 ≤ t.bits ∧ t.signed = false)

instance (t : IntTy) : Decidable t.Wraps := by unfold Wraps; infer_instance

theorem pow_le_pow2 {a b : Nat} (h : a ≤ b) : (2 : Int) ^ a ≤ 2 ^ b := pow_le_pow_right₀ (by decide) h

theorem In.wide {t : IntTy} (h : t.bits ≤ 30) {v : Int} (hv : t.In v) : -(2 ^ 30) ≤ v ∧ v < 2 ^ 30 := by
  have a := pow_le_pow2 h
  have b := pow_le_pow2 (show t.bits - 1 ≤ 30 by omega)
  have c : (0 : Int) < 2 ^ (t.bits - 1) := Int.pow_pos (by decide)
  unfold In lo hi at hv
  by_cases hs : t.signed <;> simp only [hs, if_true] at hv
  · constructor <;> omega
  · constructor
    · omega
    · have := hv.2; simp at this; omega

theorem addTo_wraps {t : IntTy} (ht : t.Wraps) {S x : Int} (hx : t.In x) :
    t.addTo (t.conv S) x = .ok (t.conv (S + x)) := by
  unfold addTo promote
  obtain ⟨h1, h | ⟨h, hs⟩⟩ := ht
  · rw [if_pos (by omega)]
    have a := In.wide h hx
    have b := In.wide h (in_conv h1 S)
    norm_num at a b
    have hh := i32_hi
    have hl : i32.lo = -2147483648 := by decide
    rw [add_eq i32_std ⟨by omega, by omega⟩ ⟨by omega, by omega⟩ ⟨by omega, by omega⟩]
    simp only [ok_bind, pure_eq, conv_add]
  · rw [if_neg (by omega)]
    unfold IntTy.add
    rw [conv_conv, conv_in h1 hx]
    have : t.arith (t.conv S + x) = .ok (t.conv (t.conv S + x)) := by simp [arith, conv, hs]
    rw [this]
    simp only [ok_bind, pure_eq, conv_conv, conv_add]

theorem sumInt_from {t : IntTy} (ht : t.Wraps) : ∀ (l : List Int) (S : Int), (∀ x ∈ l, t.In x) →
    l.foldlM (fun s a => t.addTo s a) (t.conv S) = .ok (t.conv (S + l.sum)) := by
  intro l
  induction l with
  | nil => intro S _; simp
  | cons x l ih =>
    intro S h
    rw [List.foldlM_cons, addTo_wraps ht (h x (by simp)), ok_bind, ih _ fun y hy => h y (by simp [hy]), List.sum_cons,
      add_assoc]

theorem sumInt_wraps {t : IntTy} (ht : t.Wraps) {l : List Int} (h : ∀ x ∈ l, t.In x) :
    Ops.Summaries.sumInt t l = .ok (t.conv l.sum) := by
  have := sumInt_from ht l 0 h
  rw [conv_in ht.1 (In.zero t), zero_add] at this
  exact this

theorem abs_list_nonneg (l : List Int) : 0 ≤ (l.map fun x => |x|).sum := List.sum_nonneg (by
  intro a ha
  obtain ⟨b, -, rfl⟩ := List.mem_map.1 ha
  exact abs_nonneg b)

theorem abs_list_sum (l : List Int) : |l.sum| ≤ (l.map fun x => |x|).sum := by
  induction l with
  | nil => simp
  | cons x l ih =>
    simp only [List.sum_cons, List.map_cons]
    have := abs_add_le x l.sum
    omega

theorem in_of_abs {t : IntTy} (hs : t.signed = true) {v : Int} (h : |v| < 2 ^ (t.bits - 1)) : t.In v := by
  obtain ⟨a, b⟩ := abs_lt.1 h
  unfold In lo hi
  simp only [hs, if_true]
  exact ⟨a.le, b⟩

theorem sumInt_signed_from {t : IntTy} (hs : t.signed = true) (h32 : 32 ≤ t.bits) : ∀ (l : List Int) (S : Int),
    |S| + (l.map fun x => |x|).sum < 2 ^ (t.bits - 1) →
    l.foldlM (fun s a => t.addTo s a) S = .ok (S + l.sum) := by
  intro l
  induction l with
  | nil => intro S _; simp
  | cons x l ih =>
    intro S h
    simp only [List.map_cons, List.sum_cons] at h
    have p := abs_list_nonneg l
    have a := abs_add_le S x
    have b := abs_nonneg S
    have c := abs_nonneg x
    have e : t.addTo S x = .ok (S + x) := by
      have i := in_of_abs hs (show |S + x| < 2 ^ (t.bits - 1) by omega)
      unfold addTo promote
      rw [if_neg (by omega), add_eq h32 (in_of_abs hs (by omega)) (in_of_abs hs (by omega)) i]
      simp only [ok_bind, pure_eq, conv_eq h32 i]
    rw [List.foldlM_cons, e, ok_bind, ih _ (by omega), List.sum_cons, add_assoc]

theorem sumInt_signed {t : IntTy} (hs : t.signed = true) (h32 : 32 ≤ t.bits) {l : List Int}
    (h : (l.map fun x => |x|).sum < 2 ^ (t.bits - 1)) : Ops.Summaries.sumInt t l = .ok l.sum := by
  have := sumInt_signed_from hs h32 l 0 (by simpa using h)
  rwa [zero_add] at this

theorem divCount_unsigned {t : IntTy} (ht : t.Wraps) (hs : t.signed = false) (S : Int) {n : Nat} (h1 : 1 ≤ n)
    (h2 : n < 2 ^ 32) : t.divCount (S % 2 ^ t.bits) n = .ok (S % 2 ^ t.bits / n) := by
  have p : (0 : Int) < 2 ^ t.bits := Int.pow_pos (by decide)
  have a := Int.emod_nonneg S p.ne'
  have b := Int.emod_lt_of_pos S p
  have n2 : (n : Int) < 2 ^ 32 := by exact_mod_cast h2
  have key : ∃ k, common t.promote u32 = ⟨false, k⟩ ∧ 32 ≤ k ∧ t.bits ≤ k := by
    unfold promote
    obtain ⟨h1, h | ⟨h, -⟩⟩ := ht
    · rw [if_pos (by omega)]; exact ⟨32, rfl, le_rfl, by omega⟩
    · rw [if_neg (by omega)]
      refine ⟨t.bits, ?_, h, le_rfl⟩
      unfold common
      by_cases c : u32.bits < t.bits
      · rw [if_pos c]; cases t; simp_all
      · rw [if_neg c, if_neg (by unfold u32; simp; omega)]; simp [hs]
  obtain ⟨k, e, k1, k2⟩ := key
  have q1 := pow_le_pow2 k1
  have q2 := pow_le_pow2 k2
  have inS : (⟨false, k⟩ : IntTy).In (S % 2 ^ t.bits) := ⟨a, by unfold hi; simp only; simp; omega⟩
  have inN : (⟨false, k⟩ : IntTy).In n := ⟨by unfold lo; simp, by unfold hi; simp only; simp; omega⟩
  unfold divCount
  rw [e, div_eq (t := ⟨false, k⟩) k1 inS inN a (by omega), ok_bind, pure_eq]
  congr 1
  refine conv_in ht.1 ⟨?_, ?_⟩
  · unfold lo; simp only [hs]; exact Int.ediv_nonneg a (by omega)
  · have := Int.ediv_le_self (n : Int) a
    unfold hi; simp only [hs]; simp; omega

theorem divCount_signed {t : IntTy} (hs : t.signed = true) (h32 : 32 < t.bits) {S : Int} (hS : |S| < 2 ^ (t.bits - 1))
    {n : Nat} (h1 : 1 ≤ n) (h2 : n < 2 ^ 32) : t.divCount S n = .ok (S.tdiv n) := by
  have e : common t.promote u32 = t := by
    unfold promote
    rw [if_neg (by omega)]
    unfold common
    exact if_pos h32
  have q := pow_le_pow2 (show 32 ≤ t.bits - 1 by omega)
  have n2 : (n : Int) < 2 ^ 32 := by exact_mod_cast h2
  have hb : |S.tdiv n| < 2 ^ (t.bits - 1) := by
    have h := Int.natAbs_tdiv_le_natAbs S n
    rw [Int.abs_eq_natAbs] at hS ⊢
    omega
  have i := in_of_abs hs hb
  have c1 := conv_eq (t := t) h32.le (in_of_abs hs hS)
  have c2 := conv_eq (t := t) h32.le (in_of_abs hs (show |(n : Int)| < _ by rw [abs_of_nonneg (by omega)]; omega))
  unfold divCount
  rw [e]
  unfold IntTy.div
  rw [c1, c2, if_neg (by omega), arith_eq i, ok_bind, pure_eq, conv_eq h32.le i]

theorem divCount_narrow {t : IntTy} (h30 : t.bits ≤ 30) (S : Int) {n : Nat} (h1 : 1 ≤ n) (h2 : n < 2 ^ 32) :
    t.divCount S n = .ok (t.conv (S % 2 ^ 32 / n)) := by
  have e : common t.promote u32 = u32 := by
    unfold promote; rw [if_pos (by omega)]; rfl
  have n2 : (n : Int) < 2 ^ 32 := by exact_mod_cast h2
  norm_num at n2
  unfold divCount
  have c : u32.conv S = S % 4294967296 := by unfold conv u32; norm_num
  have d : u32.div S n = u32.div (S % 4294967296) n := by
    unfold IntTy.div; rw [← c, conv_conv]
  rw [e, d, div_eq u32_std ⟨by rw [u32_lo]; omega, by rw [u32_hi]; omega⟩ ⟨by rw [u32_lo]; omega, by rw [u32_hi]; omega⟩
    (by omega) (by omega)]
  norm_num

end IntTy

/-- Pooling a window and `summaries::mean` of its pixels are the same computation. -/
theorem meanInt_run (t : IntTy) {l : List Int} (hl : l.length < 2 ^ 32) :
    (Acc.meanInt t).run l = Ops.Summaries.meanInt t l := by
  let step : Int × Nat → Int → Outcome (Int × Nat) := fun st x => do
    let s ← t.addTo st.1 x
    let n ← u32.add st.2 1
    return (s, n.toNat)
  have key : ∀ (l : List Int) (s : Int) (n : Nat), n + l.length < 2 ^ 32 →
      l.foldlM (m := Outcome) step (s, n) =
        (l.foldlM (fun s a => t.addTo s a) s >>= fun s => Outcome.ok (s, n + l.length)) := by
    intro l
    induction l with
    | nil => intro s n _; rfl
    | cons x l ih =>
      intro s n hn
      simp only [List.length_cons] at hn
      rw [List.foldlM_cons, List.foldlM_cons]
      have e : step (s, n) x = (t.addTo s x >>= fun v => Outcome.ok (v, n + 1)) := by
        simp only [step, u32_count (show n + 1 < 2 ^ 32 by omega), ok_bind, pure_eq, Int.toNat_natCast]
      rw [e]
      cases h : t.addTo s x with
      | ok v =>
        simp only [ok_bind]
        rw [ih v (n + 1) (by omega)]
        have : n + 1 + l.length = n + (x :: l).length := by simp; omega
        rw [this]
      | _ => rfl
  have := key l 0 0 (by omega)
  rw [Nat.zero_add] at this
  have e : (Acc.meanInt t).run l = (l.foldlM (m := Outcome) step (0, 0) >>= fun st => t.divCount st.1 st.2) := rfl
  rw [e, this]
  unfold Ops.Summaries.meanInt Ops.Summaries.sumInt
  cases l.foldlM (fun s a => t.addTo s a) 0 <;> rfl

/-- The elements of an image are values of its element type. -/
def ImageIn (t : IntTy) (h w : Nat) (X : Nat → Nat → Int) : Prop := ∀ a < h, ∀ b < w, t.In (X a b)

theorem pixels_in {t : IntTy} {H W : Axis} {X : Nat → Nat → Int} (hX : ImageIn t H.n W.n X) {i j : Nat} :
    ∀ x ∈ pixels H W X i j, t.In x := by
  intro x hx
  obtain ⟨a, b, hu, rfl⟩ := mem_pixels.1 hx
  obtain ⟨⟨u, -, h, -⟩, v, -, h', -⟩ := hu
  exact hX a h b h'

theorem window_facts {H W : Axis} (hH : AxisOK u32 H) (hW : AxisOK u32 W) (hk : H.k * W.k < 2 ^ 32)
    (X : Nat → Nat → Int) {i j : Nat} (hne : (win H W i j).Nonempty) :
    (pixels H W X i j).sum = ∑ p ∈ win H W i j, X p.1 p.2 ∧ (pixels H W X i j).length = (win H W i j).card ∧
      ((pixels H W X i j).map fun x => |x|).sum = ∑ p ∈ win H W i j, |X p.1 p.2| ∧
      1 ≤ (win H W i j).card ∧ (win H W i j).card < 2 ^ 32 := by
  have ha := pixels_sum hH.fits.r1 hW.fits.r1 (fun a b => |X a b|) i j
  rw [pixels_map H W X (fun x => |x|)] at ha
  have hc := win_card_le hH.fits.r1 hW.fits.r1 i j
  exact ⟨pixels_sum hH.fits.r1 hW.fits.r1 X i j, pixels_length hH.fits.r1 hW.fits.r1 X i j, ha, Finset.card_pos.2 hne,
    by omega⟩

/-- C134: mean pooling of any unsigned element type divides the sum of the window modulo `2 ^ bits`. -/
theorem C134_unsigned {t : IntTy} (ht : t.Wraps) (hs : t.signed = false) {H W : Axis} (hH : AxisOK u32 H)
    (hW : AxisOK u32 W) (hk : H.k * W.k < 2 ^ 32) {X : Nat → Nat → Int} (hX : ImageIn t H.n W.n X) {y : List Int}
    (hy : y.length = [H.m, W.m].prod) (hne : ∀ i < H.m, ∀ j < W.m, (win H W i j).Nonempty) :
    Kernels.poolHw (Acc.meanInt t) (poolTrait H W) [H.m, W.m] (tab [H.n, W.n] (fn2 X)) y =
      .ok (tab [H.m, W.m] (fn2 fun i j =>
        (∑ p ∈ win H W i j, X p.1 p.2) % 2 ^ t.bits / ((win H W i j).card : Int))).data := by
  refine Kernels.poolHw_run hH hW _ X _ (fun i hi j hj => ?_) hy
  obtain ⟨e1, e2, -, c1, c2⟩ := window_facts hH hW hk X (hne i hi j hj)
  rw [meanInt_run t (by omega)]
  unfold Ops.Summaries.meanInt
  rw [sumInt_wraps ht (pixels_in hX), ok_bind, e1, e2]
  have : t.conv (∑ p ∈ win H W i j, X p.1 p.2) = (∑ p ∈ win H W i j, X p.1 p.2) % 2 ^ t.bits := by simp [conv, hs]
  rw [this]
  exact divCount_unsigned ht hs _ c1 c2

/-- C134: that value is the mean (rounded down) exactly when the sum of the window is a value of the element type. -/
theorem C134_unsigned_right {w n : Nat} {S : Int} (h0 : 0 ≤ S) (h1 : 1 ≤ n) (hn : (n : Int) ≤ 2 ^ w) :
    S % 2 ^ w / (n : Int) = S / n ↔ S < 2 ^ w := by
  have p : (0 : Int) < 2 ^ w := Int.pow_pos (by decide)
  constructor
  · intro h
    by_contra c
    have d := Int.emod_add_mul_ediv S (2 ^ w)
    have q : 1 ≤ S / 2 ^ w := (Int.le_ediv_iff_mul_le p).2 (by omega)
    have le : S % 2 ^ w + 1 * n ≤ S := by
      have : (2 : Int) ^ w * 1 ≤ 2 ^ w * (S / 2 ^ w) := Int.mul_le_mul_of_nonneg_left q p.le
      omega
    have a := Int.ediv_le_ediv (show (0 : Int) < n by omega) le
    rw [Int.add_mul_ediv_right _ _ (by omega)] at a
    omega
  · intro h
    rw [Int.emod_eq_of_lt h0 h]

/-- C134: mean pooling of a signed type wider than `int` rounds the mean towards zero, for sums of either sign. -/
theorem C134_signed {t : IntTy} (hs : t.signed = true) (h32 : 32 < t.bits) {H W : Axis} (hH : AxisOK u32 H)
    (hW : AxisOK u32 W) (hk : H.k * W.k < 2 ^ 32) (X : Nat → Nat → Int) {y : List Int}
    (hy : y.length = [H.m, W.m].prod) (hne : ∀ i < H.m, ∀ j < W.m, (win H W i j).Nonempty)
    (hb : ∀ i < H.m, ∀ j < W.m, ∑ p ∈ win H W i j, |X p.1 p.2| < 2 ^ (t.bits - 1)) :
    Kernels.poolHw (Acc.meanInt t) (poolTrait H W) [H.m, W.m] (tab [H.n, W.n] (fn2 X)) y =
      .ok (tab [H.m, W.m] (fn2 fun i j =>
        (∑ p ∈ win H W i j, X p.1 p.2).tdiv ((win H W i j).card : Int))).data := by
  refine Kernels.poolHw_run hH hW _ X _ (fun i hi j hj => ?_) hy
  obtain ⟨e1, e2, e3, c1, c2⟩ := window_facts hH hW hk X (hne i hi j hj)
  rw [meanInt_run t (by omega)]
  unfold Ops.Summaries.meanInt
  rw [sumInt_signed hs h32.le (by rw [e3]; exact hb i hi j hj), ok_bind, e1, e2]
  refine divCount_signed hs h32 (lt_of_le_of_lt ?_ (hb i hi j hj)) c1 c2
  exact Finset.abs_sum_le_sum_abs _ _

/-- C134: mean pooling of a type narrower than `int`: the sum is reduced to the element type, divided as a `uint32_t` and
reduced again. -/
theorem C134_narrow {t : IntTy} (h1 : 1 ≤ t.bits) (h30 : t.bits ≤ 30) {H W : Axis} (hH : AxisOK u32 H)
    (hW : AxisOK u32 W) (hk : H.k * W.k < 2 ^ 32) {X : Nat → Nat → Int} (hX : ImageIn t H.n W.n X) {y : List Int}
    (hy : y.length = [H.m, W.m].prod) (hne : ∀ i < H.m, ∀ j < W.m, (win H W i j).Nonempty) :
    Kernels.poolHw (Acc.meanInt t) (poolTrait H W) [H.m, W.m] (tab [H.n, W.n] (fn2 X)) y =
      .ok (tab [H.m, W.m] (fn2 fun i j =>
        t.conv (t.conv (∑ p ∈ win H W i j, X p.1 p.2) % 2 ^ 32 / ((win H W i j).card : Int)))).data := by
  refine Kernels.poolHw_run hH hW _ X _ (fun i hi j hj => ?_) hy
  obtain ⟨e1, e2, -, c1, c2⟩ := window_facts hH hW hk X (hne i hi j hj)
  rw [meanInt_run t (by omega)]
  unfold Ops.Summaries.meanInt
  rw [sumInt_wraps ⟨h1, .inl h30⟩ (pixels_in hX), ok_bind, e1, e2]
  exact divCount_narrow h30 _ c1 c2

/-- C134: for a narrow type that value is the mean rounded down if the sum is a non-negative value of the type. -/
theorem C134_narrow_right {t : IntTy} (h1 : 1 ≤ t.bits) (h30 : t.bits ≤ 30) {n : Nat} {S : Int} (h0 : 0 ≤ S)
    (hS : t.In S) : t.conv (t.conv S % 2 ^ 32 / (n : Int)) = S / n := by
  have a := In.wide h30 hS
  norm_num at a
  rw [conv_in h1 hS, Int.emod_eq_of_lt h0 (by norm_num; omega)]
  exact conv_in h1 (hS.mono (Int.ediv_nonneg h0 (by omega)) (Int.ediv_le_self _ h0))

/-- C134: and if the window has `2 ^ k` pixels (a full 2 by 2 window, say) it is the mean rounded down for sums of either
sign, as the multiple of `2 ^ 32` added by the conversion is still a multiple of `2 ^ bits` after the division. -/
theorem C134_narrow_pow2 {t : IntTy} (h1 : 1 ≤ t.bits) {k : Nat} (hk : k + t.bits ≤ 32) {S : Int} (hS : t.In S) :
    t.conv (t.conv S % 2 ^ 32 / 2 ^ k) = S / 2 ^ k := by
  have pk : (0 : Int) < 2 ^ k := Int.pow_pos (by decide)
  rw [conv_in h1 hS, Int.emod_def, sub_eq_add_neg]
  have e : -((2 : Int) ^ 32 * (S / 2 ^ 32)) = (-(S / 2 ^ 32) * 2 ^ (32 - k - t.bits) * 2 ^ t.bits) * 2 ^ k := by
    have : (2 : Int) ^ 32 = 2 ^ (32 - k - t.bits) * 2 ^ t.bits * 2 ^ k := by
      rw [← pow_add, ← pow_add]; congr 1; omega
    rw [this]; ring
  rw [e, Int.add_mul_ediv_right _ _ pk.ne']
  have c : ∀ m v : Int, t.conv (v + m * 2 ^ t.bits) = t.conv v := by
    intro m v
    unfold conv
    by_cases hs : t.signed
    · simp only [hs, if_true]
      have := Int.add_mul_bmod_self_right v m (2 ^ t.bits)
      push_cast at this
      exact this
    · simp [hs]
  rw [c]
  have hl : t.lo ≤ S / 2 ^ k := by
    refine (Int.le_ediv_iff_mul_le pk).2 ?_
    have := hS.1
    have l0 : t.lo ≤ 0 := (In.zero t).1
    nlinarith
  have hh : S / 2 ^ k < t.hi := by
    by_cases c : 0 ≤ S
    · exact lt_of_le_of_lt (Int.ediv_le_self _ c) hS.2
    · have := Int.ediv_neg_of_neg_of_pos (show S < 0 by omega) pk
      have := (In.zero t).2
      omega
  exact conv_in h1 ⟨hl, hh⟩

/-- C134: for `int32_t` this is the accumulator of C38. -/
theorem C134_i32 : Acc.meanInt i32 = Acc.meanI32 := by
  unfold Acc.meanInt Acc.meanI32
  have a : ∀ s x, i32.addTo s x = i32.add s x := by
    intro s x
    unfold addTo
    have : i32.promote = i32 := rfl
    rw [this]
    unfold IntTy.add arith
    have hsg : i32.signed = true := rfl
    simp only [hsg, if_true]
    split
    · rename_i h; simp only [ok_bind, pure_eq, conv_eq i32_std h]
    · rfl
  have b : ∀ s (n : Nat), i32.divCount s n = (do
      let q ← u32.div (u32.conv s) n
      return i32.conv q) := by
    intro s n
    unfold divCount
    have : common i32.promote u32 = u32 := rfl
    rw [this]
    unfold IntTy.div
    rw [conv_conv]
  simp only [a, b]

theorem rows_run {t : IntTy} {rows n : Nat} {X : Nat → Nat → Int} {z : Nat → Int} {y : List Int} (hy : y.length = rows)
    (h : ∀ i < rows, Ops.Summaries.meanInt t (tab [n] (fn1 (X i))).data = .ok (z i)) :
    Ops.mean (Ops.Summaries.meanInt t) rows n (tab [rows, n] (fn2 X)).data y = .ok ((List.range rows).map z) := by
  unfold Ops.mean
  rw [← run_storeFlat (val := z) hy]
  refine forRange_congr (fun i hi s => ?_) y
  rw [rowOf_tab X hi, ok_bind, h i hi, ok_bind]

theorem vec_data (n : Nat) (f : Nat → Int) : (tab [n] (fn1 f)).data = (List.range n).map f := by
  apply List.ext_getElem?
  intro j
  by_cases c : j < n
  · have := tab_getElem? (fn1 f) (v1 c)
    have e1 : offset [n] [j] = j := by simp
    rw [e1] at this
    rw [this]
    simp [c]
  · rw [List.getElem?_eq_none (by simp; omega), List.getElem?_eq_none (by simp; omega)]

theorem range_map_sum (n : Nat) (f : Nat → Int) : ((List.range n).map f).sum = ∑ j ∈ range n, f j := by
  induction n with
  | zero => rfl
  | succ n ih => rw [List.range_succ, List.map_append, List.sum_append, ih, Finset.sum_range_succ]; simp

/-- C134: `ops::mean` of the rows of a matrix with any unsigned element type. -/
theorem C134_rows_unsigned {t : IntTy} (ht : t.Wraps) (hs : t.signed = false) {rows n : Nat} (h1 : 1 ≤ n)
    (h2 : n < 2 ^ 32) {X : Nat → Nat → Int} (hX : ImageIn t rows n X) {y : List Int} (hy : y.length = rows) :
    Ops.mean (Ops.Summaries.meanInt t) rows n (tab [rows, n] (fn2 X)).data y =
      .ok ((List.range rows).map fun i => (∑ j ∈ range n, X i j) % 2 ^ t.bits / n) := by
  refine rows_run hy fun i hi => ?_
  rw [vec_data]
  unfold Ops.Summaries.meanInt
  rw [sumInt_wraps ht (by simpa using hX i hi), ok_bind, range_map_sum, List.length_map, List.length_range]
  have : t.conv (∑ j ∈ range n, X i j) = (∑ j ∈ range n, X i j) % 2 ^ t.bits := by simp [conv, hs]
  rw [this]
  exact divCount_unsigned ht hs _ h1 h2

/-- C134: `ops::mean` of the rows of a matrix with a signed element type wider than `int`. -/
theorem C134_rows_signed {t : IntTy} (hs : t.signed = true) (h32 : 32 < t.bits) {rows n : Nat} (h1 : 1 ≤ n)
    (h2 : n < 2 ^ 32) {X : Nat → Nat → Int} (hb : ∀ i < rows, ∑ j ∈ range n, |X i j| < 2 ^ (t.bits - 1)) {y : List Int}
    (hy : y.length = rows) :
    Ops.mean (Ops.Summaries.meanInt t) rows n (tab [rows, n] (fn2 X)).data y =
      .ok ((List.range rows).map fun i => (∑ j ∈ range n, X i j).tdiv n) := by
  refine rows_run hy fun i hi => ?_
  rw [vec_data]
  unfold Ops.Summaries.meanInt
  rw [sumInt_signed hs h32.le (by rw [List.map_map, range_map_sum]; exact hb i hi), ok_bind, range_map_sum,
    List.length_map, List.length_range]
  exact divCount_signed hs h32 (lt_of_le_of_lt (Finset.abs_sum_le_sum_abs _ _) (hb i hi)) h1 h2

/-- C134: a narrow signed type, a window of three pixels each −1: the result is 84, not −1. -/
theorem C134_narrow_wrong :
    Kernels.poolHw (Acc.meanInt ⟨true, 8⟩) (poolTrait ⟨1, 1, 1, 0, 0, 1, 1⟩ ⟨3, 1, 1, 0, 0, 3, 1⟩) [1, 1]
      ⟨[1, 3], [-1, -1, -1]⟩ [0] = .ok [84] := by decide +kernel

/-- Non-vacuity: four white pixels of an 8 bit image average to 63, of a 16 bit image to 255; signed bytes of either sign
in a window of four; 64 bit integers of either sign; matrices of both kinds. -/
example : IntTy.Wraps ⟨false, 8⟩ ∧ IntTy.Wraps ⟨false, 16⟩ ∧ IntTy.Wraps ⟨false, 64⟩ ∧
    Kernels.poolHw (Acc.meanInt ⟨false, 8⟩) (poolTrait ⟨2, 1, 1, 0, 0, 2, 1⟩ ⟨2, 1, 1, 0, 0, 2, 1⟩) [1, 1]
      ⟨[2, 2], [255, 255, 255, 255]⟩ [0] = .ok [63] ∧
    Kernels.poolHw (Acc.meanInt ⟨false, 16⟩) (poolTrait ⟨2, 1, 1, 0, 0, 2, 1⟩ ⟨2, 1, 1, 0, 0, 2, 1⟩) [1, 1]
      ⟨[2, 2], [255, 255, 255, 255]⟩ [0] = .ok [255] ∧
    Kernels.poolHw (Acc.meanInt ⟨true, 8⟩) (poolTrait ⟨2, 1, 1, 0, 0, 2, 1⟩ ⟨2, 1, 1, 0, 0, 2, 1⟩) [1, 1]
      ⟨[2, 2], [-5, -6, 3, 1]⟩ [0] = .ok [-2] ∧
    Kernels.poolHw (Acc.meanInt ⟨true, 64⟩) (poolTrait ⟨2, 1, 1, 0, 0, 2, 1⟩ ⟨2, 1, 1, 0, 0, 2, 1⟩) [1, 1]
      ⟨[2, 2], [-5, -6, 3, 1]⟩ [0] = .ok [-1] ∧
    Ops.mean (Ops.Summaries.meanInt ⟨false, 8⟩) 2 2 [200, 100, 7, 4] [0, 0] = .ok [22, 5] ∧
    Ops.mean (Ops.Summaries.meanInt ⟨true, 64⟩) 2 2 [-3, -2, 7, 4] [0, 0] = .ok [-2, 5] := by
  refine ⟨by decide, by decide, by decide, ?_, ?_, ?_, ?_, ?_, ?_⟩ <;> decide +kernel

/-! ## Concrete cases -/

example := C134_unsigned (t := ⟨false, 8⟩) (by decide) rfl exH_ok exW_ok (by decide) (X := fun i j => 100 * i + j)
  (by unfold ImageIn; decide) (y := List.replicate 9 0) rfl (by decide)
example := C134_unsigned_right (w := 8) (n := 9) (S := 300) (by decide) (by decide) (by decide)
example := C134_signed (t := ⟨true, 64⟩) rfl (by decide) exH_ok exW_ok (by decide) (fun i j => 100 * i - j)
  (y := List.replicate 9 0) rfl (by decide) (by decide)
example := C134_narrow (t := ⟨true, 8⟩) (by decide) (by decide) exH_ok exW_ok (by decide) (X := fun i j => 50 * i - j)
  (by unfold ImageIn; decide) (y := List.replicate 9 0) rfl (by decide)
example := C134_narrow_right (t := ⟨true, 8⟩) (by decide) (by decide) (n := 3) (S := 100) (by decide) (by decide)
example := C134_narrow_pow2 (t := ⟨true, 8⟩) (by decide) (k := 2) (by decide) (S := -101) (by decide)
example := C134_rows_unsigned (t := ⟨false, 16⟩) (by decide) rfl (rows := 2) (n := 3) (by decide) (by decide)
  (X := fun i j => 30000 * i + j) (by unfold ImageIn; decide) (y := [0, 0]) rfl
example := C134_rows_signed (t := ⟨true, 64⟩) rfl (by decide) (rows := 2) (n := 3) (by decide) (by decide)
  (X := fun i j => 30000 * i - 7 * j) (by decide) (y := [0, 0]) rfl

end StdNN
