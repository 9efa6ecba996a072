import Verif.Spec.Softmax32
import Verif.Props.RoundingDense
import Verif.Props.ExpAccuracy
import Verif.Props.SumFinite
import Mathlib.Algebra.BigOperators.Field
import Mathlib.Analysis.Complex.ExponentialBounds

set_option autoImplicit false
set_option linter.unusedSimpArgs false

/-!
# The errors of the steps of the softmax
-/

namespace Verif.Softmax32
open Verif.F32 Verif.Spec.Softmax32 Verif.Spec

/-- Below -87.9 the exponential is below the normal numbers. -/
theorem exp_low {y : ℝ} (h : y ≤ -(879 / 10)) : Real.exp y ≤ 5 / 8 * (2 : ℝ) ^ (-126 : Int) := by
  refine (Real.exp_le_exp.mpr h).trans ?_
  have h1 : Real.exp (-(879 / 10)) = Real.exp (1 / 10) / Real.exp 1 ^ 88 := by
    rw [← Real.exp_nat_mul, ← Real.exp_sub]; norm_num
  have h2 : Real.exp (1 / 10 : ℝ) ≤ 10 / 9 := by
    have := Real.one_sub_le_exp_neg (1 / 10)
    rw [Real.exp_neg] at this
    have hp := Real.exp_pos (1 / 10)
    rw [le_inv_comm₀ (by norm_num) hp] at this
    norm_num at this ⊢
    exact this
  have h3 : (2718 / 1000 : ℝ) ^ 88 ≤ Real.exp 1 ^ 88 := by
    have := Real.exp_one_gt_d9
    gcongr
    linarith
  rw [h1, div_le_iff₀ (by positivity)]
  refine h2.trans (le_trans ?_ (mul_le_mul_of_nonneg_left h3 (by positivity)))
  norm_num

/-- The relative error of one exponential. -/
noncomputable def α : ℝ := 58 / 10000000

/-- Element minus maximum, then the exponential. -/
theorem exp_step {f : W → W} (hf : GoodExp f) {x m : W} (hx : Score x) (hm : F32.Finite m) (hle : F32.Finite x → val x ≤ val m) :
    F32.Finite (f (addIeee x (flip m))) ∧ 0 ≤ val (f (addIeee x (flip m))) ∧
    (x = negInf → val (f (addIeee x (flip m))) = 0) ∧
    |val (f (addIeee x (flip m))) - weight x / Real.exp (val m)| ≤
      α * (weight x / Real.exp (val m)) + (2 : ℝ) ^ (-125 : Int) := by
  obtain ⟨⟨hi1, hi2⟩, hg⟩ := hf
  have ht : (0 : ℝ) < (2 : ℝ) ^ (-126 : Int) := by positivity
  have h125 : (2 : ℝ) ^ (-125 : Int) = 2 * (2 : ℝ) ^ (-126 : Int) := by norm_num
  by_cases hxi : x = negInf
  · subst hxi
    have hfm := flip_finite hm
    have e : addIeee negInf (flip m) = negInf := by
      unfold addIeee
      rw [hfm.not_nan, hfm.not_inf]
      simp [isNaN, isInf, negInf]
    rw [e, hi2]
    refine ⟨hi1, le_rfl, fun _ => rfl, ?_⟩
    simp [weight]
  have hxf : F32.Finite x := hx.resolve_right hxi
  have hw : weight x / Real.exp (val m) = Real.exp (val x - val m) := by
    rw [weight, if_neg hxi, Real.exp_sub]
  rw [hw]
  have hv : val x + val (flip m) = val x - val m := by rw [flip_val, ← sub_eq_add_neg]
  have hR := hle hxf
  generalize hd : addIeee x (flip m) = d
  set R := val x - val m with hRd
  have hR0 : R ≤ 0 := by linarith
  have hp := Real.exp_pos R
  by_cases hdf : F32.Finite d
  swap
  · have : d = negInf := by
      rw [← hd] at hdf ⊢
      exact add_neg_overflow hxf (flip_finite hm) (by rw [hv]; exact hR0) hdf
    rw [this, hi2]
    refine ⟨hi1, le_rfl, fun h => absurd h hxi, ?_⟩
    have hbig : ¬ |R| ≤ maxFin := fun h => hdf (hd ▸ add_fin hxf (flip_finite hm) (by rw [hv]; exact h))
    have hRlow : R ≤ -(879 / 10) := by
      rw [abs_of_nonpos hR0] at hbig
      unfold maxFin at hbig
      push Not at hbig
      norm_num at hbig ⊢
      linarith
    have := exp_low hRlow
    rw [zero_sub, abs_neg, abs_of_pos hp, h125]
    have hα : 0 ≤ α * Real.exp R := by unfold α; positivity
    have h2 : Real.exp R ≤ 5 / 8 * (2 : ℝ) ^ (-126 : Int) := this
    generalize (2 : ℝ) ^ (-126 : Int) = t at ht h2 ⊢
    linarith
  have hnear : |val d - R| ≤ slack R := by
    have := add_near_fin (hd.symm ▸ hdf : F32.Finite (addIeee x (flip m)))
    rwa [hd, hv] at this
  obtain ⟨n1, n2⟩ := abs_le.mp hnear
  by_cases hlow : R ≤ -88
  · have hs : slack R ≤ -R / 2 ^ 24 := by
      unfold slack
      rw [abs_of_nonpos hR0]
      gcongr
      refine max_le le_rfl (le_trans (b := 1) ?_ (by linarith))
      norm_num
    have hdl : val d ≤ -(879 / 10) := by
      norm_num at hs ⊢
      linarith
    obtain ⟨g1, g2, g3⟩ := hg d hdf (by linarith)
    refine ⟨g1, g2, fun h => absurd h hxi, ?_⟩
    have e1 := exp_low hdl
    have e2 := exp_low (show R ≤ -(879 / 10) by linarith)
    have hpd := Real.exp_pos (val d)
    have hα : 0 ≤ α * Real.exp R := by unfold α; positivity
    rw [h125]
    obtain ⟨g4, g5⟩ := abs_le.mp g3
    rw [abs_le]
    norm_num at g5 e1 e2 ht hpd ⊢
    constructor
    · linarith
    · linarith
  · push Not at hlow
    have hs : slack R ≤ 88 / 2 ^ 24 := by
      unfold slack
      gcongr
      rw [abs_of_nonpos hR0]
      refine max_le (by linarith) (le_trans (b := 1) ?_ (by norm_num))
      norm_num
    obtain ⟨g1, g2, g3⟩ := hg d hdf (by norm_num at hs; linarith)
    refine ⟨g1, g2, fun h => absurd h hxi, ?_⟩
    set δ := val d - R with hδ
    have hδ1 : |δ| ≤ 88 / 2 ^ 24 := hnear.trans hs
    have he : Real.exp (val d) = Real.exp R * Real.exp δ := by rw [← Real.exp_add, hδ]; congr 1; ring
    have hq := Real.abs_exp_sub_one_sub_id_le (x := δ) (hδ1.trans (by norm_num))
    have hδ2 : δ ^ 2 ≤ (88 / 2 ^ 24) ^ 2 := by rw [← sq_abs]; gcongr
    obtain ⟨q1, q2⟩ := abs_le.mp hq
    obtain ⟨d1, d2⟩ := abs_le.mp hδ1
    have k1 : Real.exp δ - 1 ≤ 53 / 10000000 := by norm_num at *; linarith
    have k2 : -(53 / 10000000) ≤ Real.exp δ - 1 := by norm_num at *; linarith
    rw [he] at g3
    obtain ⟨g4, g5⟩ := abs_le.mp g3
    have m1 : Real.exp R * Real.exp δ ≤ Real.exp R * (1 + 53 / 10000000) := by gcongr; linarith
    have m2 : Real.exp R * (1 - 53 / 10000000) ≤ Real.exp R * Real.exp δ := by gcongr; linarith
    rw [h125, abs_le]
    unfold α
    constructor <;> nlinarith

/-- The vector routines are good. -/
theorem good_kernel (cpu : Asm.Cpu) (j : ExpLog.Lane) : GoodExp (expKernel cpu j).2 := by
  have key : GoodExp (ExpLog.lane ieee ExpLog.expAVX j) := by
    constructor
    · have : ExpLog.lane ieee ExpLog.expAVX j negInf = 0 := by
        rw [ExpLog.lane_junk ieee j ⟨0, 0, 0, 0, 0, 0, 0⟩ negInf _ List.mem_cons_self]
        decide +kernel
      rw [this]
      exact ⟨by unfold F32.Finite; decide, val_zero⟩
    · intro z hz hz1
      refine ⟨(ExpLog.exp_finite j z).1, ?_, (ExpLog.exp_accurate_below j hz (by linarith)).1⟩
      obtain ⟨-, ha, hb⟩ := ExpLog.exp_clamped j z
      obtain ⟨e1, e2⟩ := ExpLog.exponent_range z
      by_cases h : -126 ≤ ⌊val (ExpLog.scaled ieee z)⌋
      · have h1 := abs_le.mp (ha h)
        have := Real.exp_pos (val (ExpLog.clamp z))
        norm_num at h1
        linarith
      · exact (hb (by omega)).1.ge
  unfold expKernel
  split
  · exact key
  · have : ExpLog.lane ieee ExpLog.expSSE j = ExpLog.lane ieee ExpLog.expAVX j :=
      funext fun z => (ExpLog.exp_avx_eq_sse_ieee j j z).symm
    show GoodExp (ExpLog.lane ieee ExpLog.expSSE j)
    rw [this]; exact key

/-- The weights and the maximum. -/
theorem softmax_shift (n : Nat) (x : Nat → W) (M : ℝ) (i : Nat) :
    softmax n x i = (weight (x i) / Real.exp M) / ∑ j ∈ Finset.range n, weight (x j) / Real.exp M := by
  rw [softmax, ← Finset.sum_div, div_div_div_cancel_right₀ (Real.exp_ne_zero M)]

theorem growth_small {n : Nat} (h : n ≤ 2 ^ 20) : growth Asm.ulp (n - 1) ≤ 16 / 15 * (n / 2 ^ 24) := by
  have hn : (n : ℝ) ≤ 2 ^ 20 := by exact_mod_cast h
  have h0 : (0 : ℝ) ≤ n := Nat.cast_nonneg n
  have hu : (n : ℝ) * Asm.ulp = n / 2 ^ 24 := by unfold Asm.ulp; ring
  have h1 : (n : ℝ) / 2 ^ 24 ≤ 1 / 16 := by rw [div_le_iff₀ (by positivity)]; norm_num at hn ⊢; linarith
  have h2 : (0 : ℝ) ≤ n / 2 ^ 24 := by positivity
  refine (Asm.growth_mono Asm.ulp_nonneg (Nat.sub_le n 1)).trans ((Dense.growth_le Asm.ulp_nonneg (by rw [hu]; linarith)).trans ?_)
  rw [hu, div_le_iff₀ (by linarith)]
  nlinarith

theorem mul_zero_val {x y : W} (hx : F32.Finite x) (hy : F32.Finite y) (h : val x * val y = 0) : val (mulIeee x y) = 0 := by
  have := (mul_near hx hy (by rw [h, abs_zero]; unfold maxFin; positivity)).2 (by rw [h]; exact Asm.exact_zero)
  rw [this, h]

theorem sign_of_pos {x : W} (h : 0 < val x) : (unpack x).1 = false := by
  cases hs : (unpack x).1
  · rfl
  · exfalso
    unfold val at h
    rw [hs, if_pos rfl, mul_assoc, neg_one_mul] at h
    have : (0 : ℝ) ≤ ((unpack x).2.1 : ℝ) * (2 : ℝ) ^ (unpack x).2.2 := by positivity
    linarith

theorem mul_nonneg_val {x y : W} (hx : F32.Finite x) (hy : F32.Finite y) (h1 : 0 ≤ val x) (h2 : 0 ≤ val y)
    (hlt : val x * val y ≤ maxFin) : 0 ≤ val (mulIeee x y) := by
  rcases h1.eq_or_lt with h | h1
  · rw [mul_zero_val hx hy (by rw [← h, zero_mul])]
  rcases h2.eq_or_lt with h | h2
  · rw [mul_zero_val hx hy (by rw [← h, mul_zero])]
  have hm : mulIeee x y = round false ((unpack x).2.1 * (unpack y).2.1) ((unpack x).2.2 + (unpack y).2.2) := by
    unfold mulIeee
    rw [hx.not_nan, hy.not_nan, hx.not_inf, hy.not_inf]
    simp only [Bool.or_self, Bool.false_eq_true, if_false, sign_of_pos h1, sign_of_pos h2]
    rfl
  have hval : val x * val y = (((unpack x).2.1 * (unpack y).2.1 : Nat) : ℝ) * (2 : ℝ) ^ ((unpack x).2.2 + (unpack y).2.2) := by
    unfold val
    rw [zpow_add₀ (by norm_num), sign_of_pos h1, sign_of_pos h2]
    push_cast
    ring
  have h0 : (unpack x).2.1 * (unpack y).2.1 ≠ 0 := fun h => by
    rw [h] at hval
    have := mul_pos h1 h2
    rw [Nat.cast_zero, zero_mul] at hval
    linarith
  rw [hm, (round_val false h0 (by rw [← hval]; exact hlt)).2]
  simp only [Bool.false_eq_true, if_false]
  positivity

theorem one_word : F32.Finite 0x3f800000 ∧ val 0x3f800000 = 1 := by
  constructor
  · unfold F32.Finite; decide
  · have : unpack 0x3f800000 = (false, 0x800000, -23) := by decide
    unfold val
    rw [this]
    norm_num

/-- The last two roundings. -/
theorem last_step {w T S r e o τ κ : ℝ} (hw0 : 0 ≤ w) (hwT : w ≤ T) (hT1 : 1 ≤ T) (he0 : 0 ≤ e)
    (he : |e - w| ≤ α * w + (2 : ℝ) ^ (-125 : Int)) (hST : |S - T| ≤ κ * T) (hκ1 : κ ≤ 1 / 10)
    (hr : |r - 1 / S| ≤ 1 / S / 2 ^ 23) (ho : |o - e * r| ≤ max (e * r) ((2 : ℝ) ^ (-126 : Int)) / 2 ^ 24)
    (hup : (1 + α) * ((1 + 1 / 2 ^ 23) * (1 + 1 / 2 ^ 24)) ≤ (1 + τ) * (1 - κ)) (hτ : 0 ≤ τ) (hτ1 : τ ≤ 1)
    (hlo : (1 - τ) * (1 + κ) ≤ (1 - α) * ((1 - 1 / 2 ^ 23) * (1 - 1 / 2 ^ 24))) :
    |o - w / T| ≤ τ * (w / T) + (2 : ℝ) ^ (-124 : Int) := by
  obtain ⟨s1, s2⟩ := abs_le.mp hST
  obtain ⟨e1, e2⟩ := abs_le.mp he
  obtain ⟨r1, r2⟩ := abs_le.mp hr
  obtain ⟨o1, o2⟩ := abs_le.mp ho
  have hT0 : 0 < T := by linarith
  have hS1 : (1 - κ) * T ≤ S := by linarith
  have hS2 : S ≤ (1 + κ) * T := by linarith
  have hS9 : 9 / 10 ≤ S := by nlinarith
  have hS0 : 0 < S := by linarith
  have hq0 : 0 < 1 / S := by positivity
  have hq1 : 1 / S ≤ 10 / 9 := by rw [div_le_iff₀ hS0]; linarith
  have hr0 : 0 ≤ r := by
    generalize 1 / S = q at r1 hq0
    norm_num at r1; linarith
  have her : 0 ≤ e * r := mul_nonneg he0 hr0
  have ht : (0 : ℝ) < (2 : ℝ) ^ (-126 : Int) := by positivity
  have h125 : (2 : ℝ) ^ (-125 : Int) = 2 * (2 : ℝ) ^ (-126 : Int) := by norm_num
  have h124 : (2 : ℝ) ^ (-124 : Int) = 4 * (2 : ℝ) ^ (-126 : Int) := by norm_num
  rw [h125] at e1 e2
  rw [h124]
  set t := (2 : ℝ) ^ (-126 : Int) with htd
  have hmax : max (e * r) t ≤ e * r + t := max_le (by linarith) (by linarith)
  have hmax' : max (e * r) t / 2 ^ 24 ≤ (e * r + t) / 2 ^ 24 := by gcongr
  -- above
  have u1 : e * r ≤ ((1 + α) * w + 2 * t) * ((1 + 1 / 2 ^ 23) * (1 / S)) := by
    refine mul_le_mul (by linarith) ?_ hr0 ?_
    · have : (1 + 1 / 2 ^ 23) * (1 / S) = 1 / S + 1 / S / 2 ^ 23 := by ring
      linarith
    · unfold α; positivity
  have hp0 : 0 ≤ w / T := by positivity
  have u2 : (1 + α) * ((1 + 1 / 2 ^ 23) * (1 + 1 / 2 ^ 24)) * (w * (1 / S)) ≤ (1 + τ) * (w / T) := by
    have h1 : (1 + α) * ((1 + 1 / 2 ^ 23) * (1 + 1 / 2 ^ 24)) * T ≤ (1 + τ) * S := by
      have a := mul_le_mul_of_nonneg_right hup hT0.le
      have b := mul_le_mul_of_nonneg_left hS1 (by linarith : 0 ≤ 1 + τ)
      linarith
    have h2 : (1 + α) * ((1 + 1 / 2 ^ 23) * (1 + 1 / 2 ^ 24)) * (1 / S) ≤ (1 + τ) * (1 / T) := by
      rw [mul_one_div, mul_one_div, div_le_div_iff₀ hS0 hT0]; exact h1
    have := mul_le_mul_of_nonneg_left h2 hw0
    calc _ = w * ((1 + α) * ((1 + 1 / 2 ^ 23) * (1 + 1 / 2 ^ 24)) * (1 / S)) := by ring
      _ ≤ _ := this
      _ = _ := by ring
  have l1 : ((1 - α) * w - 2 * t) * ((1 - 1 / 2 ^ 23) * (1 / S)) ≤ e * r := by
    have hF : 0 ≤ (1 - 1 / 2 ^ 23) * (1 / S) := mul_nonneg (by norm_num) hq0.le
    have a : ((1 - α) * w - 2 * t) * ((1 - 1 / 2 ^ 23) * (1 / S)) ≤ e * ((1 - 1 / 2 ^ 23) * (1 / S)) :=
      mul_le_mul_of_nonneg_right (by linarith) hF
    refine a.trans (mul_le_mul_of_nonneg_left ?_ he0)
    have : (1 - 1 / 2 ^ 23) * (1 / S) = 1 / S - 1 / S / 2 ^ 23 := by ring
    linarith
  have l2 : (1 - τ) * (w / T) ≤ (1 - α) * ((1 - 1 / 2 ^ 23) * (1 - 1 / 2 ^ 24)) * (w * (1 / S)) := by
    have h1 : (1 - τ) * S ≤ (1 - α) * ((1 - 1 / 2 ^ 23) * (1 - 1 / 2 ^ 24)) * T := by
      have a := mul_le_mul_of_nonneg_right hlo hT0.le
      have b := mul_le_mul_of_nonneg_left hS2 (by linarith : 0 ≤ 1 - τ)
      linarith
    have h2 : (1 - τ) * (1 / T) ≤ (1 - α) * ((1 - 1 / 2 ^ 23) * (1 - 1 / 2 ^ 24)) * (1 / S) := by
      rw [mul_one_div, mul_one_div, div_le_div_iff₀ hT0 hS0]; exact h1
    have := mul_le_mul_of_nonneg_left h2 hw0
    calc _ = w * ((1 - τ) * (1 / T)) := by ring
      _ ≤ _ := this
      _ = _ := by ring
  have hq2 : t * (1 / S) ≤ t * (10 / 9) := mul_le_mul_of_nonneg_left hq1 ht.le
  have hq3 : 0 ≤ t * (1 / S) := by positivity
  rw [abs_le]
  constructor
  · have a : e * r * (1 - 1 / 2 ^ 24) - t / 2 ^ 24 ≤ o := by
      have : (e * r + t) / 2 ^ 24 = e * r * (1 / 2 ^ 24) + t / 2 ^ 24 := by ring
      linarith
    have b := mul_le_mul_of_nonneg_right l1 (show (0 : ℝ) ≤ 1 - 1 / 2 ^ 24 by norm_num)
    have c : ((1 - α) * w - 2 * t) * ((1 - 1 / 2 ^ 23) * (1 / S)) * (1 - 1 / 2 ^ 24) =
      (1 - α) * ((1 - 1 / 2 ^ 23) * (1 - 1 / 2 ^ 24)) * (w * (1 / S)) -
        2 * ((1 - 1 / 2 ^ 23) * (1 - 1 / 2 ^ 24)) * (t * (1 / S)) := by ring
    have d : 2 * ((1 - 1 / 2 ^ 23) * (1 - 1 / 2 ^ 24)) * (t * (1 / S)) ≤ 2 * (t * (1 / S)) := by
      refine mul_le_mul_of_nonneg_right ?_ hq3; norm_num
    have d' : t / 2 ^ 24 ≤ t := by rw [div_le_iff₀ (by positivity)]; linarith
    linarith
  · have a : o ≤ e * r * (1 + 1 / 2 ^ 24) + t / 2 ^ 24 := by
      have : (e * r + t) / 2 ^ 24 = e * r * (1 / 2 ^ 24) + t / 2 ^ 24 := by ring
      linarith
    have b := mul_le_mul_of_nonneg_right u1 (show (0 : ℝ) ≤ 1 + 1 / 2 ^ 24 by norm_num)
    have c : ((1 + α) * w + 2 * t) * ((1 + 1 / 2 ^ 23) * (1 / S)) * (1 + 1 / 2 ^ 24) =
      (1 + α) * ((1 + 1 / 2 ^ 23) * (1 + 1 / 2 ^ 24)) * (w * (1 / S)) +
        2 * ((1 + 1 / 2 ^ 23) * (1 + 1 / 2 ^ 24)) * (t * (1 / S)) := by ring
    have d : 2 * ((1 + 1 / 2 ^ 23) * (1 + 1 / 2 ^ 24)) * (t * (1 / S)) ≤ 21 / 10 * (t * (1 / S)) := by
      refine mul_le_mul_of_nonneg_right ?_ hq3; norm_num
    have d' : t / 2 ^ 24 ≤ t := by rw [div_le_iff₀ (by positivity)]; linarith
    linarith

/-- The sum of the exponentials is near the exact one. -/
theorem sum_near {E T S g y c d : ℝ} (hT1 : 1 ≤ T) (hE0 : 0 ≤ E) (hET : |E - T| ≤ α * T + c) (hc : c ≤ 1 / 10 ^ 12)
    (hd0 : 0 ≤ d) (hd : d ≤ 1 / 10 ^ 12) (hS : |S - E| ≤ g * (E + d)) (hg : g ≤ 16 / 15 * y) (hy0 : 0 ≤ y) :
    |S - T| ≤ (5802 / 1000000000 + 1067 / 1000 * y) * T := by
  unfold α at hET
  obtain ⟨a1, a2⟩ := abs_le.mp hET
  have hE2 : E ≤ (1 + 58 / 10000000 + 1 / 10 ^ 12) * T := by norm_num at *; linarith
  have hEn : E + d ≤ (1 + 58 / 10000000 + 2 / 10 ^ 12) * T := by norm_num at *; linarith
  have h1 : g * (E + d) ≤ 16 / 15 * y * ((1 + 58 / 10000000 + 2 / 10 ^ 12) * T) :=
    mul_le_mul hg hEn (by linarith) (by positivity)
  have h2 := abs_sub_le S E T
  have hyT : 0 ≤ y * T := by positivity
  have h3 : 16 / 15 * y * ((1 + 58 / 10000000 + 2 / 10 ^ 12) * T) ≤ 1067 / 1000 * (y * T) := by
    have : 16 / 15 * y * ((1 + 58 / 10000000 + 2 / 10 ^ 12) * T) = 16 / 15 * (1 + 58 / 10000000 + 2 / 10 ^ 12) * (y * T) := by ring
    rw [this]
    exact mul_le_mul_of_nonneg_right (by norm_num) hyT
  have h4 : |E - T| ≤ 5802 / 1000000000 * T := by norm_num at *; linarith
  have h5 : (5802 / 1000000000 + 1067 / 1000 * y) * T = 5802 / 1000000000 * T + 1067 / 1000 * (y * T) := by ring
  rw [h5]
  linarith

/-- The relative errors together. -/
theorem tol_room {y : ℝ} (hy0 : 0 ≤ y) (hy1 : y ≤ 1 / 16) :
    (1 + α) * ((1 + 1 / 2 ^ 23) * (1 + 1 / 2 ^ 24)) ≤
      (1 + (1 / 2 ^ 16 + 2 * y)) * (1 - (5802 / 1000000000 + 1067 / 1000 * y)) ∧
    (1 - (1 / 2 ^ 16 + 2 * y)) * (1 + (5802 / 1000000000 + 1067 / 1000 * y)) ≤
      (1 - α) * ((1 - 1 / 2 ^ 23) * (1 - 1 / 2 ^ 24)) := by
  have hyy : y * y ≤ 1 / 16 * y := mul_le_mul_of_nonneg_right hy1 hy0
  have hyy0 : 0 ≤ y * y := by positivity
  unfold α
  constructor
  · norm_num; ring_nf at hyy hyy0 ⊢; linarith
  · norm_num; ring_nf at hyy hyy0 ⊢; linarith

/-- **From the exponentials to the result.** -/
theorem normalise {n : Nat} (hn : n ≤ 2 ^ 20) {x : Nat → W} {m : W} {e : Nat → W} {S : W}
    (hmax : ∃ k < n, x k = m) (hm : F32.Finite m) (hle : ∀ i < n, weight (x i) ≤ Real.exp (val m))
    (he : ∀ i < n, F32.Finite (e i) ∧ 0 ≤ val (e i) ∧ (x i = negInf → val (e i) = 0) ∧
      |val (e i) - weight (x i) / Real.exp (val m)| ≤ α * (weight (x i) / Real.exp (val m)) + (2 : ℝ) ^ (-125 : Int))
    (hSf : F32.Finite S)
    (hS : |val S - ∑ i ∈ Finset.range n, val (e i)| ≤
      growth Asm.ulp (n - 1) * ∑ i ∈ Finset.range n, (|val (e i)| + Asm.tiny)) :
    ∀ i < n, F32.Finite (mulIeee (e i) (divIeee 0x3f800000 S)) ∧ 0 ≤ val (mulIeee (e i) (divIeee 0x3f800000 S)) ∧
      (x i = negInf → val (mulIeee (e i) (divIeee 0x3f800000 S)) = 0) ∧
      |val (mulIeee (e i) (divIeee 0x3f800000 S)) - softmax n x i| ≤ tol n * softmax n x i + (2 : ℝ) ^ (-124 : Int) := by
  set w : Nat → ℝ := fun i => weight (x i) / Real.exp (val m) with hw
  set T := ∑ j ∈ Finset.range n, w j with hT
  set E := ∑ j ∈ Finset.range n, val (e j) with hE
  have hw0 : ∀ i, 0 ≤ w i := fun i => by
    refine div_nonneg ?_ (Real.exp_pos _).le
    unfold weight; split
    · exact le_rfl
    · exact (Real.exp_pos _).le
  have hnr : (n : ℝ) ≤ 2 ^ 20 := by exact_mod_cast hn
  have hn0 : (0 : ℝ) ≤ n := Nat.cast_nonneg n
  -- the largest weight is 1
  have hT1 : 1 ≤ T := by
    obtain ⟨k, hk, hxk⟩ := hmax
    have h1 : w k = 1 := by
      have : x k ≠ negInf := fun h => not_finite_inf.2 (h ▸ hxk ▸ hm)
      rw [hxk] at this
      simp only [hw, weight, hxk, if_neg this]
      exact div_self (Real.exp_ne_zero _)
    rw [← h1]
    exact Finset.single_le_sum (fun j _ => hw0 j) (Finset.mem_range.mpr hk)
  have hw1 : ∀ i < n, w i ≤ T := fun i hi => Finset.single_le_sum (fun j _ => hw0 j) (Finset.mem_range.mpr hi)
  -- the sum of the exponentials
  have hET : |E - T| ≤ α * T + n * (2 : ℝ) ^ (-125 : Int) := by
    rw [hE, hT, ← Finset.sum_sub_distrib]
    refine (Finset.abs_sum_le_sum_abs _ _).trans ((Finset.sum_le_sum fun i hi => (he i (Finset.mem_range.mp hi)).2.2.2).trans ?_)
    rw [Finset.sum_add_distrib, ← Finset.mul_sum]
    simp [hT, hw]
  have habsE : ∑ i ∈ Finset.range n, (|val (e i)| + Asm.tiny) = E + n * Asm.tiny := by
    rw [Finset.sum_add_distrib]
    simp only [Finset.sum_const, Finset.card_range, nsmul_eq_mul, hE]
    congr 1
    exact Finset.sum_congr rfl fun i hi => abs_of_nonneg (he i (Finset.mem_range.mp hi)).2.1
  rw [habsE] at hS
  have hg := growth_small hn
  have hg0 := Asm.growth_nonneg Asm.ulp_nonneg (n - 1)
  set g := growth Asm.ulp (n - 1) with hgd
  set y : ℝ := n / 2 ^ 24 with hy
  have hy0 : 0 ≤ y := by positivity
  have hy1 : y ≤ 1 / 16 := by rw [hy, div_le_iff₀ (by positivity)]; norm_num at hnr ⊢; linarith
  have hnt : n * Asm.tiny ≤ 1 / 10 ^ 12 := by unfold Asm.tiny; norm_num at hnr ⊢; linarith
  have hn125 : n * (2 : ℝ) ^ (-125 : Int) ≤ 1 / 10 ^ 12 := by norm_num at hnr ⊢; linarith
  have hnt0 : 0 ≤ n * Asm.tiny := mul_nonneg hn0 Asm.tiny_pos.le
  -- the sum is near the exact one
  set κ : ℝ := 5802 / 1000000000 + 1067 / 1000 * y with hκ
  have hST : |val S - T| ≤ κ * T :=
    sum_near hT1 (Finset.sum_nonneg fun i hi => (he i (Finset.mem_range.mp hi)).2.1) hET hn125 hnt0 hnt hS hg hy0
  have hκ1 : κ ≤ 1 / 10 := by rw [hκ]; linarith
  have hκ0 : 0 ≤ κ := by positivity
  obtain ⟨s1, s2⟩ := abs_le.mp hST
  have hT0 : 0 < T := by linarith
  have hTn : T ≤ n := by
    have : T ≤ ∑ j ∈ Finset.range n, (1 : ℝ) :=
      Finset.sum_le_sum fun i hi => (div_le_one (Real.exp_pos _)).mpr (hle i (Finset.mem_range.mp hi))
    simpa using this
  have hS9 : 9 / 10 ≤ val S := by nlinarith
  have hS2 : val S ≤ 2 ^ 21 := by norm_num at hnr ⊢; nlinarith
  have hS0 : 0 < val S := by linarith
  obtain ⟨f1, v1⟩ := one_word
  have hq1 : 1 / val S ≤ 10 / 9 := by rw [div_le_iff₀ hS0]; linarith
  have hq0 : 0 < 1 / val S := by positivity
  obtain ⟨fr, hr⟩ := div_near f1 hSf (by rw [v1]; exact one_ne_zero) hS0.ne'
    (by rw [v1, abs_of_pos hq0]; norm_num at hq1 ⊢; linarith)
    (by
      rw [v1, abs_of_pos hq0, div_le_div_iff₀ (by positivity) hS0]
      norm_num at hS2 ⊢; linarith)
  rw [v1, abs_of_pos hq0] at hr
  intro i hi
  obtain ⟨i1, i2, i3, i4⟩ := he i hi
  obtain ⟨r1, r2⟩ := abs_le.mp hr
  set r := val (divIeee 0x3f800000 S) with hrd
  have hr0 : 0 ≤ r := by
    generalize 1 / val S = q at r1 hq0
    norm_num at r1; linarith
  have hr3 : r ≤ 2 := by
    generalize 1 / val S = q at r2 hq1
    norm_num at r2; linarith
  have hei : val (e i) ≤ 2 ^ 22 := by
    have h1 := (abs_le.mp i4).2
    have h2 : weight (x i) / Real.exp (val m) ≤ 1 := (div_le_one (Real.exp_pos _)).mpr (hle i hi)
    have h3 : α * (weight (x i) / Real.exp (val m)) ≤ 1 := by
      have : α * (weight (x i) / Real.exp (val m)) ≤ α * 1 := mul_le_mul_of_nonneg_left h2 (by unfold α; positivity)
      refine this.trans ?_
      unfold α; norm_num
    norm_num at h1 ⊢
    linarith
  have hprod : val (e i) * r ≤ maxFin := by
    refine (mul_le_mul hei hr3 hr0 (by positivity)).trans ?_
    unfold maxFin; norm_num
  have hpos : 0 ≤ val (e i) * r := mul_nonneg i2 hr0
  obtain ⟨fo, ho⟩ := (mul_near i1 fr (by rw [abs_of_nonneg hpos]; exact hprod)).1
  refine ⟨fo, mul_nonneg_val i1 fr i2 hr0 hprod, fun h => mul_zero_val i1 fr (by rw [i3 h, zero_mul]), ?_⟩
  rw [abs_of_nonneg hpos] at ho
  rw [softmax_shift n x (val m) i]
  have hτ : tol n = 1 / 2 ^ 16 + 2 * y := by rw [hy, tol]; ring
  obtain ⟨room1, room2⟩ := tol_room hy0 hy1
  rw [← hκ, ← hτ] at room1 room2
  exact last_step (κ := κ) (hw0 i) (hw1 i hi) hT1 i2 i4 hST hκ1 hr ho room1 (by rw [hτ]; positivity)
    (by rw [hτ]; norm_num; linarith) room2

end Verif.Softmax32
