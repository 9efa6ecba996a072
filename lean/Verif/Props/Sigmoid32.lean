import Verif.Model.Sigmoid32
import Verif.Spec.Sigmoid32
import Verif.Props.Softmax32
import Verif.Lemmas.F32Recip
import Mathlib.Data.List.GetD

set_option autoImplicit false
set_option linter.unusedSimpArgs false

/-!
# C89: the logistic function of float32, from the instructions to the real numbers
-/

namespace Verif.Sigmoid32
open Verif.F32 Verif.Asm Verif.Spec Verif.Spec.Kernels Verif.Spec.Sigmoid32 Verif.Softmax32

/-- The vector routines are good. -/
theorem full_kernel (cpu : Cpu) (j : ExpLog.Lane) : FullExp (expKernel cpu j).2 := by
  have key : FullExp (ExpLog.lane ieee ExpLog.expAVX j) := by
    intro z hz
    have hpos : 0 ≤ val (ExpLog.lane ieee ExpLog.expAVX j z) := by
      obtain ⟨-, ha, hb⟩ := ExpLog.exp_clamped j z
      obtain ⟨e1, e2⟩ := ExpLog.exponent_range z
      by_cases h : -126 ≤ ⌊val (ExpLog.scaled ieee z)⌋
      · have h1 := abs_le.mp (ha h)
        have := Real.exp_pos (val (ExpLog.clamp z))
        norm_num at h1
        linarith
      · exact (hb (by omega)).1.ge
    refine ⟨fun hle => ?_, fun hgt => .inr ?_⟩
    · have hacc := (ExpLog.exp_accurate_below j hz hle).1
      refine ⟨(ExpLog.exp_finite j z).1, hpos, ?_, hacc⟩
      have hexp : Real.exp (val z) ≤ 2 ^ 127 * (16 / 10) := by
        have hd : val z - 127 * Real.log 2 ≤ 35 / 100 := by
          have := Real.log_two_gt_d9
          norm_num at this hle ⊢; linarith
        have h1 : Real.exp (val z - 127 * Real.log 2) ≤ 16 / 10 := by
          refine (Real.exp_le_exp.mpr hd).trans ?_
          have h2 := Real.one_sub_le_exp_neg (35 / 100 : ℝ)
          rw [Real.exp_neg] at h2
          have h3 := Real.exp_pos (35 / 100 : ℝ)
          have h4 : (1 - 35 / 100 : ℝ) * Real.exp (35 / 100) ≤ 1 := by
            calc _ ≤ (Real.exp (35 / 100))⁻¹ * Real.exp (35 / 100) := mul_le_mul_of_nonneg_right h2 h3.le
              _ = 1 := inv_mul_cancel₀ h3.ne'
          linarith
        have h2 : Real.exp (127 * Real.log 2) = 2 ^ 127 := by
          rw [show (127 : ℝ) = ((127 : Nat) : ℝ) by norm_num, Real.exp_nat_mul, Real.exp_log (by norm_num)]
        calc Real.exp (val z) = Real.exp (127 * Real.log 2) * Real.exp (val z - 127 * Real.log 2) := by
              rw [← Real.exp_add]; congr 1; ring
          _ ≤ 2 ^ 127 * (16 / 10) := by rw [h2]; gcongr
      have ht : (2 : ℝ) ^ (-126 : Int) ≤ 1 := by norm_num
      have := (abs_le.mp hacc).2
      generalize (2 : ℝ) ^ (-126 : Int) = t at *
      norm_num at hexp this ⊢
      linarith
    · have hl : lt ExpLog.expHi z = true := (lt_iff ExpLog.fin_hi.1 hz).mpr (by rw [ExpLog.fin_hi.2]; exact hgt)
      rw [(ExpLog.exp_lane_nan ieee j z (.inr hl)).1, (ExpLog.exp_lane_hi_ieee j).1]
      have hv : val 0x7f3504a4 = 11863204 * 2 ^ 104 := by simp [val, unpack]
      refine ⟨by unfold F32.Finite; decide, ?_, ?_⟩ <;> rw [hv] <;> norm_num
  unfold expKernel
  split
  · exact key
  · have : ExpLog.lane ieee ExpLog.expSSE j = ExpLog.lane ieee ExpLog.expAVX j :=
      funext fun z => (ExpLog.exp_avx_eq_sse_ieee j j z).symm
    show FullExp (ExpLog.lane ieee ExpLog.expSSE j)
    rw [this]; exact key

/-- Multiplying by -1. -/
theorem neg_mul {x : F32.W} (hx : F32.Finite x) : F32.Finite (mulIeee x 0xbf800000) ∧ val (mulIeee x 0xbf800000) = -val x := by
  have hf : F32.Finite 0xbf800000 := by unfold F32.Finite; decide
  have hv : val 0xbf800000 = -1 := by simp [val, unpack]; norm_num
  obtain ⟨e1, e2⟩ := finite_exact (flip_finite hx)
  rw [flip_val] at e1 e2
  have := mul_near hx hf (by rw [hv, mul_neg_one]; exact e2)
  rw [hv, mul_neg_one] at this
  exact ⟨this.1.1, this.2 e1⟩

/-- The last step, for the exponential `e` of `-x`. -/
theorem last_step {f : F32.W → F32.W} (hf : FullExp f) {z : F32.W} (hz : F32.Finite z) :
    F32.Finite (divIeee one (addIeee one (f z))) ∧ 0 ≤ val (divIeee one (addIeee one (f z))) ∧
    val (divIeee one (addIeee one (f z))) ≤ 1 ∧
    |val (divIeee one (addIeee one (f z))) - sigmoid (-val z)| ≤ 1 / 2 ^ 20 := by
  obtain ⟨h1, h2⟩ := hf z hz
  unfold sigmoid
  rw [neg_neg]
  have hE := Real.exp_pos (val z)
  -- a finite exponential
  have fin : F32.Finite (f z) → 0 ≤ val (f z) → val (f z) ≤ 2 ^ 128 - 2 ^ 108 →
      F32.Finite (addIeee one (f z)) ∧ 1 ≤ val (addIeee one (f z)) ∧
      |val (addIeee one (f z)) - (1 + val (f z))| ≤ (1 + val (f z)) / 2 ^ 24 := by
    intro a1 a2 a3
    have hfin : F32.Finite (addIeee one (f z)) := add_fin one_fin a1 (by
      rw [one_val, abs_of_nonneg (by linarith)]; unfold maxFin; norm_num at a3 ⊢; linarith)
    refine ⟨hfin, add_ge hfin one_exact (by rw [one_val]; linarith), ?_⟩
    have := add_near_fin hfin
    rw [one_val] at this
    refine this.trans ?_
    unfold slack
    rw [abs_of_nonneg (by linarith)]
    refine div_le_div_of_nonneg_right (max_le le_rfl ?_) (by positivity)
    have : (2 : ℝ) ^ (-126 : Int) ≤ 1 := by norm_num
    linarith
  rcases le_or_gt (val z) (11583653 / 131072) with hle | hgt
  · obtain ⟨a1, a2, a3, a4⟩ := h1 hle
    obtain ⟨b1, b2, b3⟩ := fin a1 a2 (a3.trans (by norm_num))
    obtain ⟨c1, c2, c3, c4⟩ := recip_unit b1 b2
    refine ⟨c1, c2, c3, ?_⟩
    generalize val (divIeee one (addIeee one (f z))) = R at *
    generalize val (addIeee one (f z)) = S at *
    generalize val (f z) = V at *
    generalize Real.exp (val z) = e at *
    have hS : |S - (1 + e)| ≤ (1 + e) / 2 ^ 20 * (6 / 10) := by
      have ht : (2 : ℝ) ^ (-126 : Int) ≤ 1 / 2 ^ 40 := by norm_num
      generalize (2 : ℝ) ^ (-126 : Int) = t at *
      obtain ⟨p1, p2⟩ := abs_le.mp a4
      obtain ⟨p3, p4⟩ := abs_le.mp b3
      rw [abs_le]
      constructor <;> norm_num at * <;> linarith
    have hd : |1 / S - 1 / (1 + e)| ≤ 1 / 2 ^ 20 * (6 / 10) := by
      have hS0 : 0 < S := by linarith
      have he0 : 0 < 1 + e := by linarith
      rw [div_sub_div _ _ hS0.ne' he0.ne', one_mul, mul_one, abs_div, abs_of_pos (mul_pos hS0 he0), div_le_iff₀ (mul_pos hS0 he0)]
      rw [abs_sub_comm]
      refine hS.trans ?_
      have : (1 + e) / 2 ^ 20 * (6 / 10) = 1 / 2 ^ 20 * (6 / 10) * (1 * (1 + e)) := by ring
      rw [this]
      gcongr
    have := abs_sub_le R (1 / S) (1 / (1 + e))
    norm_num at *; linarith
  · have hbig : 1 / (1 + Real.exp (val z)) ≤ 1 / 2 ^ 40 := by
      refine one_div_le_one_div_of_le (by positivity) ?_
      have : (2 : ℝ) ^ 40 ≤ Real.exp 40 := by
        rw [show (40 : ℝ) = ((40 : Nat) : ℝ) * 1 by norm_num, Real.exp_nat_mul]
        gcongr
        linarith [Real.add_one_le_exp (1 : ℝ)]
      have h3 : Real.exp 40 ≤ Real.exp (val z) := Real.exp_le_exp.mpr (by norm_num at hgt; linarith)
      linarith
    have hpos : 0 < 1 / (1 + Real.exp (val z)) := by positivity
    rcases h2 hgt with h | ⟨a1, a2, a3⟩
    · rw [h, one_add_inf, recip_inf, val_zero]
      refine ⟨by unfold F32.Finite; decide, le_rfl, zero_le_one, ?_⟩
      rw [zero_sub, abs_neg, abs_of_pos hpos]
      norm_num at hbig ⊢; linarith
    · obtain ⟨b1, b2, b3⟩ := fin a1 (by linarith [show (0:ℝ) < 2 ^ 120 by positivity]) a3
      obtain ⟨c1, c2, c3, c4⟩ := recip_unit b1 b2
      refine ⟨c1, c2, c3, ?_⟩
      have hS : (2 : ℝ) ^ 100 ≤ val (addIeee one (f z)) := by
        have := (abs_le.mp b3).1
        norm_num at *; linarith
      have hi : 1 / val (addIeee one (f z)) ≤ 1 / 2 ^ 100 := one_div_le_one_div_of_le (by positivity) hS
      have hi0 : 0 < 1 / val (addIeee one (f z)) := by
        have : 0 < val (addIeee one (f z)) := by linarith
        positivity
      obtain ⟨p1, p2⟩ := abs_le.mp c4
      generalize 1 / (1 + Real.exp (val z)) = a at *
      generalize 1 / val (addIeee one (f z)) = b at *
      rw [abs_le]
      constructor <;> norm_num at * <;> linarith

/-- **C89.** For every list of finite numbers `Sigmoid` ends, and whatever it ends with, element by element, is a finite number
from 0 to 1, within `2^-20` of the logistic function. -/
theorem sigmoid_close (cpu : Cpu) (j : ExpLog.Lane) {scalar : F32.W → F32.W} (hs : FullExp scalar) {x : List F32.W}
    (hx : ∀ v ∈ x, F32.Finite v) :
    (∃ z, Runs cpu j scalar x z) ∧ ∀ z, Runs cpu j scalar x z → z.length = x.length ∧
      ∀ i < x.length, F32.Finite (z.getD i 0) ∧ 0 ≤ val (z.getD i 0) ∧ val (z.getD i 0) ≤ 1 ∧
        |val (z.getD i 0) - sigmoid (val (x.getD i 0))| ≤ 1 / 2 ^ 20 := by
  have main : ∀ (p q : Nat) (s : St F32.W), q % 4 = 0 → Apart 4 x.length p q → elems 4 s.mem p x.length = x →
      ∃ s₁ m₂, (∀ t, Call (frameC 4 (F32.alu divIeee) 0xbf800000 ⟨p, x.length⟩ ⟨q, x.length⟩) (mulConstFn cpu .f32) s t ↔ t = s₁) ∧
        ExpLog.exp32 (expKernel cpu j).1 (expKernel cpu j).2 scalar ⟨q / 4, x.length⟩ ⟨q / 4, x.length⟩ (words s₁.mem) = some m₂ ∧
        ∀ i < x.length, ∃ f, FullExp f ∧ putWords s₁.mem m₂ (q + 4 * i) = f (mulIeee (x.getD i 0) 0xbf800000) := by
    intro p q s hq ha hp
    obtain ⟨s₁, hc₁, he₁, -⟩ := mulConst_kernel cpu .f32 (F32.alu divIeee) (c := 0xbf800000) (x := ⟨p, x.length⟩)
      (y := ⟨q, x.length⟩) (fun a => F32.mul_comm' a 0xbf800000) le_rfl (.inr ha) s
    obtain ⟨m₂, hex, hm₂, -⟩ := exp_place cpu j scalar (out := ⟨q, x.length⟩) hq s₁.mem
    refine ⟨s₁, m₂, hc₁, hex, fun i hi =>
      ⟨if i < x.length / (expKernel cpu j).1 * (expKernel cpu j).1 then (expKernel cpu j).2 else scalar, ?_, ?_⟩⟩
    rotate_left
    · have hl : (elems 4 s₁.mem q x.length)[i]? = some (s₁.mem (q + 4 * i)) := by simp [elems, hi]
      have he : elems 4 s₁.mem q x.length = (elems 4 s.mem p x.length).map (fun v => mulIeee v 0xbf800000) := he₁
      rw [he, hp, List.getElem?_map, List.getElem?_eq_getElem hi] at hl
      rw [List.getD_eq_getElem _ _ hi]
      exact (hm₂ i hi).trans (congrArg _ (Option.some.inj hl).symm)
    · split
      · exact full_kernel cpu j
      · exact hs
  constructor
  · obtain ⟨s₁, m₂, h1, h2, -⟩ := main 0 (4 * x.length) 
      { r := fun _ => 0, zf := false, lt := false, v := fun _ _ => 0, mem := fun a => x.getD (a / 4) 0, out := none }
      (by omega) (by unfold Apart; omega) (by
        apply List.ext_getElem
        · simp [elems]
        · intro i h1 h2
          have : (0 + 4 * i) / 4 = i := by omega
          simp only [elems, List.getElem_map, List.getElem_range, this]
          rw [List.getD_eq_getElem _ _ h2])
    exact ⟨_, 0, 4 * x.length, _, s₁, m₂, by omega, by unfold Apart; omega, by
        apply List.ext_getElem
        · simp [elems]
        · intro i h1 h2
          have : (0 + 4 * i) / 4 = i := by omega
          simp only [elems, List.getElem_map, List.getElem_range, this]
          rw [List.getD_eq_getElem _ _ h2], (h1 s₁).mpr rfl, h2, rfl⟩
  · rintro z ⟨p, q, s, s₁', m₂', hq, ha, hp, hc, he, rfl⟩
    obtain ⟨s₁, m₂, h1, h2, h3⟩ := main p q s hq ha hp
    obtain rfl := (h1 s₁').mp hc
    obtain rfl := Option.some.inj (h2.symm.trans he)
    refine ⟨by simp [elems], fun i hi => ?_⟩
    obtain ⟨f, hf, hv⟩ := h3 i hi
    have hz : ((elems 4 (putWords s₁'.mem m₂) q x.length).map fun v => divIeee 0x3f800000 (addIeee 0x3f800000 v)).getD i 0 =
        divIeee one (addIeee one (f (mulIeee (x.getD i 0) 0xbf800000))) := by
      rw [List.getD_eq_getElem _ _ (by simp [elems, hi])]
      simp only [elems, List.map_map, List.getElem_map, List.getElem_range, Function.comp, hv, one]
    have hxi : F32.Finite (x.getD i 0) := by rw [List.getD_eq_getElem _ _ hi]; exact hx _ (List.getElem_mem hi)
    obtain ⟨n1, n2⟩ := neg_mul hxi
    have := last_step hf n1
    rw [n2, neg_neg] at this
    rw [hz]; exact this

end Verif.Sigmoid32
