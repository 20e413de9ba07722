import Verif.Model.Layers
import Verif.Props.Norm
import Verif.Props.Conv
import Verif.Props.Pool
import Verif.Props.Shapes
/-!
# Helper lemmas about layers
-/
namespace StdNN
open Spec Outcome IntTy

namespace Alloc
variable {α β : Type}

theorem ok_bind (n : Int) (a : α) (f : α → Alloc β) :
    ((⟨n, .ok a⟩ : Alloc α) >>= f) = ⟨n + (f a).live, (f a).out⟩ := by exact id rfl
theorem throw_bind (n : Int) (e : Err) (f : α → Alloc β) : ((⟨n, .throw e⟩ : Alloc α) >>= f) = ⟨n, .throw e⟩ := by
  exact id rfl
theorem pure_eq (a : α) : (pure a : Alloc α) = ⟨0, .ok a⟩ := rfl
theorem lift_ok (a : α) : (lift (.ok a) : Alloc α) = ⟨0, .ok a⟩ := rfl
theorem lift_throw (e : Err) : (lift (.throw e) : Alloc α) = ⟨0, .throw e⟩ := rfl

end Alloc

namespace Layers
variable {R : Type}

theorem fresh_length (junk : Nat → R) (n : Nat) : (fresh junk n).length = n := by simp [fresh]

theorem newParameter_run {junk : Nat → R} {s : List Nat} {init : Init R} {d : List R}
    (h : init s (fresh junk s.prod) = .ok d) : newParameter junk s init = ⟨1, .ok ⟨s, d⟩⟩ := by
  simp [newParameter, h]

theorem newResult_run {junk : Nat → R} {s : List Nat} {op : List Nat → List R → Outcome (List R)} {d : List R}
    (h : op s (fresh junk s.prod) = .ok d) : newResult junk (.ok s) op = ⟨1, .ok ⟨s, d⟩⟩ := by
  simp [newResult, h]

end Layers

theorem tab_map {R S : Type} (f : R → S) (dims : List Nat) (F : List Nat → R) :
    (tab dims F).data.map f = (tab dims fun idx => f (F idx)).data := by
  simp [tab]

theorem mk_tab_eq {R : Type} {dims : List Nat} {F G : List Nat → R} (h : ∀ idx, Valid dims idx → F idx = G idx) :
    (⟨dims, (tab dims F).data⟩ : Tensor R) = tab dims G := tab_congr h

/-- The whole memory is the operand and the output. -/
theorem mem_holds_all {R : Type} (v : List R) : (Src.mem 0).Holds v 0 v :=
  ⟨.inl rfl, fun i _ => by simp⟩

/-! ## Axes made by the padding policies -/

theorem same_axis {k s r n : Nat} (k1 : 1 ≤ k) (s1 : 1 ≤ s) (r1 : 1 ≤ r) (hk : u32.In k) (hs : u32.In s) (hr : u32.In r)
    (h : u32.In ((n + patch k r : Nat) : Int)) (h2 : u32.In ((2 * s : Nat) : Int)) (hge : s + n % s ≤ patch k r)
    (hsn : s ≤ n) :
    ∃ l q : Nat, Sample.samePadding u32 k s r n = .ok ⟨l, q⟩ ∧ l ≤ q ∧ q ≤ l + 1 ∧ l + q = patch k r - s - n % s ∧
      AxisOK u32 ⟨k, s, r, l, q, n, n / s⟩ := by
  have hn : u32.In (n : Int) := h.mono (by omega) (by omega)
  have hps : u32.In ((patch k r : Nat) : Int) := h.mono (by omega) (by omega)
  have hp := patch_cast r k1
  have hps' := hps
  rw [hp] at hps'
  push_cast at h2
  have e := Sample.samePadding_eval u32_std (by omega) (by omega) (by omega) (by omega) hk hs hr hn hps' h2
  rw [← hp] at e
  have hge' : (s : Int) + (n : Int) % s ≤ (patch k r : Nat) := by exact_mod_cast hge
  rw [e, if_pos hge']
  obtain ⟨p, hpp⟩ : ∃ p : Nat, p = patch k r - s - n % s := ⟨_, rfl⟩
  have hpi : ((patch k r : Nat) : Int) - s - (n : Int) % s = (p : Nat) := by
    rw [hpp]; omega
  have hIn : u32.In (p : Int) := hps.mono (by omega) (by omega)
  rw [hpi, Sample.evenPadding_ok u32_std (by omega) hIn]
  refine ⟨p / 2, p - p / 2, ?_, by omega, by omega, by omega, ?_, ?_⟩
  · congr 2; omega
  · have hf : Fits u32 u32 k s r (p / 2) (p - p / 2) n :=
    { hN := u32_std, hD := u32_std, k1 := k1, s1 := s1, r1 := r1, hk := hk, hs := hs, hr := hr
      hl := hIn.mono (by omega) (by omega)
      hq := hIn.mono (by omega) (by omega)
      hn := hn
      padded := h.mono (by omega) (by omega)
      patchN := hps
      patchD := hps }
    exact hf
  · have hdm := Nat.div_add_mod n s
    have q1 : 1 ≤ n / s := Nat.div_pos hsn (by omega)
    refine ⟨q1, ?_⟩
    simp only
    have : (n / s - 1) * s = s * (n / s) - s := by rw [Nat.sub_mul, Nat.mul_comm]; omega
    have : s * 1 ≤ s * (n / s) := Nat.mul_le_mul_left _ q1
    omega

theorem valid_axis {k s r n : Nat} (k1 : 1 ≤ k) (s1 : 1 ≤ s) (r1 : 1 ≤ r) (hk : u32.In k) (hs : u32.In s) (hr : u32.In r)
    (h : u32.In ((n + s : Nat) : Int)) (hle : patch k r ≤ n) :
    ∃ l q : Nat, Sample.validPadding u32 k s r n = .ok ⟨l, q⟩ ∧ l + q < s ∧
      AxisOK u32 ⟨k, s, r, l, q, n, (n - patch k r + s - 1) / s + 1⟩ := by
  have hn : u32.In (n : Int) := h.mono (by omega) (by omega)
  obtain ⟨p, hp, hps, ⟨c, hc⟩, -⟩ := C04_valid_padding_least u32_std k1 s1 r1 hk hs hr hn
    (h.mono (by omega) (by omega))
  refine ⟨p / 2, p - p / 2, hp, by omega, ?_, ?_⟩
  · have hf : Fits u32 u32 k s r (p / 2) (p - p / 2) n :=
    { hN := u32_std, hD := u32_std, k1 := k1, s1 := s1, r1 := r1, hk := hk, hs := hs, hr := hr
      hl := hs.mono (by omega) (by omega)
      hq := hs.mono (by omega) (by omega)
      hn := hn
      padded := h.mono (by omega) (by omega)
      patchN := hn.mono (by omega) (by omega)
      patchD := hn.mono (by omega) (by omega) }
    exact hf
  · refine ⟨Nat.le_add_left 1 _, ?_⟩
    simp only
    rw [Nat.add_sub_cancel]
    have hc0 : 0 ≤ c := by
      by_contra hz
      have : c * (s : Int) < 0 := Int.mul_neg_of_neg_of_pos (by omega) (by omega)
      have : c * (s : Int) ≤ -1 * s := Int.mul_le_mul_of_nonneg_right (by omega) (by omega)
      omega
    obtain ⟨c, rfl⟩ := Int.eq_ofNat_of_zero_le hc0
    have hc' : n + p = patch k r + c * s := by exact_mod_cast hc
    have : (n - patch k r + s - 1) / s = c := by
      rw [Nat.div_eq_iff (by omega)]
      constructor
      · omega
      · omega
    rw [this]
    omega

end StdNN
