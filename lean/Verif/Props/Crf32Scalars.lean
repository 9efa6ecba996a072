import Verif.Props.Crf32

set_option autoImplicit false
set_option linter.unusedSimpArgs false

/-!
# C85: functions as asked for exist, and an example
-/

namespace Verif.Crf32
open Verif.F32 Verif.Asm Verif.Spec Verif.Spec.Kernels Verif.Spec.Crf32 CrfSpec Loop Dense

/-- Every real number in the range of the normal numbers has a float32 next to it. -/
theorem exists_near {r : ℝ} (h1 : (2 : ℝ) ^ (-126 : Int) ≤ |r|) (h2 : |r| ≤ 2 ^ 127) :
    ∃ w, F32.Finite w ∧ |val w - r| ≤ |r| / 2 ^ 23 := by
  have hp : (0 : ℝ) < (2 : ℝ) ^ (-126 : Int) := by positivity
  have hr0 : 0 < |r| := hp.trans_le h1
  set m : Nat := ⌊|r| * 2 ^ 200⌋₊ with hm
  have hlo : |r| * 2 ^ 200 < m + 1 := Nat.lt_floor_add_one _
  have hhi : (m : ℝ) ≤ |r| * 2 ^ 200 := Nat.floor_le (by positivity)
  have hbig : (2 : ℝ) ^ 74 ≤ |r| * 2 ^ 200 := by
    have : (2 : ℝ) ^ 74 = (2 : ℝ) ^ (-126 : Int) * 2 ^ 200 := by norm_num
    rw [this]
    exact mul_le_mul_of_nonneg_right h1 (by positivity)
  have hm0 : m ≠ 0 := by
    intro h
    rw [h] at hlo
    norm_num at hlo hbig
    linarith
  have hz : (2 : ℝ) ^ (-200 : Int) = 1 / 2 ^ 200 := by norm_num
  have hq : (m : ℝ) * (2 : ℝ) ^ (-200 : Int) ≤ |r| := by
    rw [hz, mul_one_div, div_le_iff₀ (by positivity)]; exact hhi
  have hq' : |r| - |r| / 2 ^ 74 ≤ (m : ℝ) * (2 : ℝ) ^ (-200 : Int) := by
    rw [hz, mul_one_div, le_div_iff₀ (by positivity)]
    have : |r| / 2 ^ 74 * 2 ^ 200 ≥ 1 := by
      rw [ge_iff_le, div_mul_eq_mul_div, le_div_iff₀ (by positivity)]
      linarith
    rw [sub_mul]
    linarith
  have hmax : (m : ℝ) * (2 : ℝ) ^ (-200 : Int) ≤ maxFin := hq.trans (h2.trans (by unfold maxFin; norm_num))
  have hn := round_near (decide (r < 0)) hm0 hmax
  obtain ⟨hf, hd⟩ := hn
  refine ⟨_, hf, ?_⟩
  have hs : |(if decide (r < 0) = true then (-1 : ℝ) else 1) * (m * (2 : ℝ) ^ (-200 : Int)) - r| ≤ |r| / 2 ^ 74 := by
    by_cases h0 : r < 0
    · rw [abs_of_neg h0] at hq hq' ⊢
      simp only [h0, decide_true, if_true]
      generalize (m : ℝ) * (2 : ℝ) ^ (-200 : Int) = q at hq hq' ⊢
      rw [abs_le]; constructor <;> linarith
    · rw [abs_of_nonneg (not_lt.mp h0)] at hq hq' ⊢
      simp only [h0, decide_false, Bool.false_eq_true, if_false]
      generalize (m : ℝ) * (2 : ℝ) ^ (-200 : Int) = q at hq hq' ⊢
      rw [abs_le]; constructor <;> linarith
  have hmx : max |(if decide (r < 0) = true then (-1 : ℝ) else 1) * (m * (2 : ℝ) ^ (-200 : Int))| ((2 : ℝ) ^ (-126 : Int)) ≤ |r| := by
    refine max_le ?_ h1
    rw [sign_abs _ _ (by positivity)]
    exact hq
  have hd' : |val (F32.round (decide (r < 0)) m (-200)) -
      (if decide (r < 0) = true then (-1 : ℝ) else 1) * (m * (2 : ℝ) ^ (-200 : Int))| ≤ |r| / 2 ^ 24 := by
    refine (le_trans ?_ (div_le_div_of_nonneg_right hmx (by positivity)))
    convert hd using 2
  have e : val (F32.round (decide (r < 0)) m (-200)) - r = (val (F32.round (decide (r < 0)) m (-200)) -
      (if decide (r < 0) = true then (-1 : ℝ) else 1) * (m * (2 : ℝ) ^ (-200 : Int))) +
      ((if decide (r < 0) = true then (-1 : ℝ) else 1) * (m * (2 : ℝ) ^ (-200 : Int)) - r) := by ring
  rw [e]
  refine (abs_add_le _ _).trans ((add_le_add hd' hs).trans ?_)
  norm_num
  linarith

theorem exp_88 : Real.exp 88 ≤ 2 ^ 127 := by
  have h1 : Real.exp 88 = Real.exp 1 ^ 88 := by rw [← Real.exp_nat_mul]; norm_num
  rw [h1]
  have h2 : Real.exp 1 ^ 88 ≤ (27183 / 10000 : ℝ) ^ 88 := by
    have := Real.exp_one_lt_d9
    have h0 := (Real.exp_pos 1).le
    gcongr
    linarith
  refine h2.trans ?_
  norm_num

theorem exp_neg_87 : (2 : ℝ) ^ (-126 : Int) ≤ Real.exp (-87) := by
  have h1 : Real.exp 87 = Real.exp 1 ^ 87 := by rw [← Real.exp_nat_mul]; norm_num
  have h2 : Real.exp 1 ^ 87 ≤ (27183 / 10000 : ℝ) ^ 87 := by
    have := Real.exp_one_lt_d9
    have h0 := (Real.exp_pos 1).le
    gcongr
    linarith
  rw [Real.exp_neg, zpow_neg]
  refine inv_anti₀ (Real.exp_pos _) ?_
  rw [h1]
  refine h2.trans ?_
  norm_num

open Classical in
/-- The hypotheses about `math.Exp` and `math.Log` can be met. -/
theorem exists_scalars : ∃ exp log, Scalars exp log := by
  have hexp : ∀ z : F32.W, ∃ w, (F32.Finite z → -87 ≤ val z → val z ≤ 88 →
      F32.Finite w ∧ |val w - Real.exp (val z)| ≤ Real.exp (val z) / 2 ^ 23) ∧
      (¬ (F32.Finite z ∧ val z ≤ 88) → w = posInf) := by
    intro z
    by_cases h : F32.Finite z ∧ -87 ≤ val z ∧ val z ≤ 88
    · have he := Real.exp_pos (val z)
      obtain ⟨w, h1, h2⟩ := exists_near (r := Real.exp (val z))
        (by rw [abs_of_pos he]; exact exp_neg_87.trans (Real.exp_le_exp.mpr h.2.1))
        (by rw [abs_of_pos he]; exact (Real.exp_le_exp.mpr h.2.2).trans exp_88)
      rw [abs_of_pos he] at h2
      exact ⟨w, fun _ _ _ => ⟨h1, h2⟩, fun hn => absurd ⟨h.1, h.2.2⟩ hn⟩
    · exact ⟨posInf, fun h1 h2 h3 => absurd ⟨h1, h2, h3⟩ h, fun _ => rfl⟩
  have hlog : ∀ z : F32.W, ∃ w, (F32.Finite z → (2 : ℝ) ^ (-126 : Int) ≤ val z →
      F32.Finite w ∧ |val w - Real.log (val z)| ≤ |Real.log (val z)| / 2 ^ 23 + (2 : ℝ) ^ (-126 : Int)) ∧
      (¬ F32.Finite z → w = posInf) := by
    intro z
    by_cases h : F32.Finite z ∧ (2 : ℝ) ^ (-126 : Int) ≤ val z
    · have hp : (0 : ℝ) < (2 : ℝ) ^ (-126 : Int) := by positivity
      have hz : 0 < val z := hp.trans_le h.2
      by_cases hs : (2 : ℝ) ^ (-126 : Int) ≤ |Real.log (val z)|
      · have hle : |Real.log (val z)| ≤ 2 ^ 127 := by
          have l2 := Real.log_two_lt_d9
          have l0 : 0 < Real.log 2 := Real.log_pos (by norm_num)
          have hlo : Real.log ((2 : ℝ) ^ (-126 : Int)) ≤ Real.log (val z) := Real.log_le_log hp h.2
          have hhi : Real.log (val z) ≤ Real.log ((2 : ℝ) ^ (128 : Int)) := by
            refine Real.log_le_log hz (((abs_le.mp (finite_exact h.1).2).2).trans ?_)
            unfold maxFin; norm_num
          rw [Real.log_zpow] at hlo hhi
          push_cast at hlo hhi
          rw [abs_le]
          constructor <;> norm_num <;> linarith
        obtain ⟨w, h1, h2⟩ := exists_near hs hle
        exact ⟨w, fun _ _ => ⟨h1, h2.trans (by linarith)⟩, fun hn => absurd h.1 hn⟩
      · refine ⟨0, fun _ _ => ⟨zero_finite.1, ?_⟩, fun hn => absurd h.1 hn⟩
        rw [val_zero, zero_sub, abs_neg]
        have : 0 ≤ |Real.log (val z)| / 2 ^ 23 := by positivity
        have hs' := not_le.mp hs
        generalize (2 : ℝ) ^ (-126 : Int) = u at hs' ⊢
        linarith
    · exact ⟨posInf, fun h1 h2 => absurd ⟨h1, h2⟩ h, fun _ => rfl⟩
  choose exp hexp using hexp
  choose log hlog using hlog
  refine ⟨exp, log, ⟨fun z h1 h2 h3 => (hexp z).1 h1 h2 h3, fun z h1 h2 => ?_, fun z h1 h2 => ?_, ?_,
    fun z h1 h2 => (hlog z).1 h1 h2, ?_⟩⟩
  · rcases eq_or_lt_of_le h2 with h3 | h3
    · exact .inr ((hexp z).1 h1 (by linarith) (by linarith))
    · exact .inl ((hexp z).2 fun h => by linarith [h.2])
  · exact (hexp z).2 fun h => by linarith [h.2]
  · exact (hexp posInf).2 fun h => not_finite_inf.1 h.1
  · exact (hlog posInf).2 not_finite_inf.1

end Verif.Crf32
