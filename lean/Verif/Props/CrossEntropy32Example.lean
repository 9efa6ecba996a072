import Verif.Props.CrossEntropy32
import Verif.Props.Crf32Scalars

set_option autoImplicit false
set_option linter.unusedSimpArgs false

/-!
# C87: a logarithm as asked for exists, and an example
-/

namespace Verif.CrossEntropy32
open Verif.F32 Verif.Asm Verif.Spec Verif.Spec.Kernels Verif.Spec.Softmax32 Verif.Spec.CrossEntropy32 Verif.Softmax32

open Classical in
/-- The hypothesis about `math.Log` can be met. -/
theorem exists_log : ∃ log, GoodLog log := by
  have hlog : ∀ z : F32.W, ∃ w, F32.Finite z → 1 ≤ val z → F32.Finite w ∧ 0 ≤ val w ∧
      |val w - Real.log (val z)| ≤ Real.log (val z) / 2 ^ 23 + (2 : ℝ) ^ (-126 : Int) := by
    intro z
    by_cases h : F32.Finite z ∧ 1 ≤ val z
    · have hp : (0 : ℝ) < (2 : ℝ) ^ (-126 : Int) := by positivity
      have hl0 := Real.log_nonneg h.2
      by_cases hs : (2 : ℝ) ^ (-126 : Int) ≤ Real.log (val z)
      · have hle : Real.log (val z) ≤ 2 ^ 127 := by
          have l2 := Real.log_two_lt_d9
          have hhi : Real.log (val z) ≤ Real.log ((2 : ℝ) ^ (128 : Int)) := by
            refine Real.log_le_log (by linarith [h.2]) (((abs_le.mp (finite_exact h.1).2).2).trans ?_)
            unfold maxFin; norm_num
          rw [Real.log_zpow] at hhi
          push_cast at hhi
          norm_num; linarith
        obtain ⟨w, h1, h2⟩ := Crf32.exists_near (r := Real.log (val z)) (by rwa [abs_of_nonneg hl0]) (by rwa [abs_of_nonneg hl0])
        rw [abs_of_nonneg hl0] at h2
        refine ⟨w, fun _ _ => ⟨h1, ?_, h2.trans (by linarith)⟩⟩
        have h3 := (abs_le.mp h2).1
        have h4 : Real.log (val z) / 2 ^ 23 ≤ Real.log (val z) := div_le_self hl0 (by norm_num)
        linarith
      · refine ⟨0, fun _ _ => ⟨zero_finite.1, val_zero.ge, ?_⟩⟩
        rw [val_zero, zero_sub, abs_neg, abs_of_nonneg hl0]
        have : 0 ≤ Real.log (val z) / 2 ^ 23 := by positivity
        have hs' := not_le.mp hs
        generalize (2 : ℝ) ^ (-126 : Int) = u at hs' ⊢
        linarith
    · exact ⟨0, fun h1 h2 => absurd ⟨h1, h2⟩ h⟩
  choose log hlog using hlog
  exact ⟨log, hlog⟩

/-- Three scores: -10, minus infinity, 10; the loss of the class with the score -10. -/
example (cpu : Cpu) (j : ExpLog.Lane) (r : Reg → Nat) (v : Nat → Nat → F32.W) :
    let s : St F32.W := { r := r, zf := true, lt := false, v := v,
                          mem := fun a => if a = 104 then negInf else if a = 108 then 0x41200000 else 0xc1200000, out := none }
    ∃ log, GoodLog log ∧ ∃ t l, Runs cpu j (expKernel cpu j).2 log ⟨100, 3⟩ ⟨200, 3⟩ ⟨300, 3⟩ 0 s t l ∧ F32.Finite l ∧
      |val l - crossEntropy 3 (fun k => s.mem (100 + 4 * k)) 0| ≤ CrossEntropy32.tol 3 10 := by
  intro s
  obtain ⟨log, hlog⟩ := exists_log
  have f1 : F32.Finite 0xc1200000 := by unfold F32.Finite; decide
  have f2 : F32.Finite 0x41200000 := by unfold F32.Finite; decide
  have v1 : val 0xc1200000 = -10 := by simp [val, unpack]; norm_num
  have v2 : val 0x41200000 = 10 := by simp [val, unpack]; norm_num
  obtain ⟨t, l, h1, -, h3, -, h5⟩ := cross_entropy cpu j (good_kernel cpu j) (one_kernel cpu j) hlog (x := ⟨100, 3⟩) (y := ⟨200, 3⟩)
    (e := ⟨300, 3⟩) rfl rfl (by norm_num) rfl rfl
    (fun i j h1 h2 => by simp only at h1 h2 ⊢; omega) (fun i j h1 h2 => by simp only at h1 h2 ⊢; omega) (c := 0) (by norm_num)
    (A := 10) (by norm_num) s
    (fun i hi => by
      have : i = 0 ∨ i = 1 ∨ i = 2 := by simp only at hi; omega
      rcases this with rfl | rfl | rfl
      · exact .inl f1
      · exact .inr rfl
      · exact .inl f2)
    (fun i hi hf => by
      have : i = 0 ∨ i = 1 ∨ i = 2 := by simp only at hi; omega
      rcases this with rfl | rfl | rfl
      · show |val 0xc1200000| ≤ 10
        rw [v1]; norm_num
      · exact absurd hf not_finite_inf.2
      · show |val 0x41200000| ≤ 10
        rw [v2]; norm_num)
    f1
  exact ⟨log, hlog, t, l, (h1 _ _).mpr ⟨rfl, rfl⟩, h3, h5⟩

end Verif.CrossEntropy32
