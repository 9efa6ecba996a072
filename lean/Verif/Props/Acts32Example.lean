import Verif.Props.Acts32
import Verif.Props.Crf32Scalars
import Verif.Props.Net32Example

set_option autoImplicit false
set_option linter.unusedSimpArgs false

/-!
# C89: a library as asked for exists, and an example
-/

namespace Verif.Net32
open Verif.F32 Verif.Asm Verif.Spec Verif.Spec.Net32

theorem tanh_abs (x : ℝ) : |Real.tanh x| ≤ 1 := by
  rw [tanh_sigmoid]
  unfold Spec.Sigmoid32.sigmoid
  have h := Real.exp_pos (-(2 * x))
  have h0 : 0 < 1 / (1 + Real.exp (-(2 * x))) := by positivity
  have h1 : 1 / (1 + Real.exp (-(2 * x))) ≤ 1 := by rw [div_le_one (by positivity)]; linarith
  exact abs_le.mpr ⟨by linarith, by linarith⟩

/-- A word near a number from -1 to 1. -/
theorem exists_unit {r : ℝ} (hr : |r| ≤ 1) : ∃ w, F32.Finite w ∧ |val w| ≤ 1 ∧ |val w - r| ≤ 1 / 2 ^ 23 := by
  have hz : F32.Finite 0 := by unfold F32.Finite; decide
  by_cases hs : (2 : ℝ) ^ (-126 : Int) ≤ |r|
  · obtain ⟨w, h1, h2⟩ := Crf32.exists_near hs (hr.trans (by norm_num))
    have h2' : |val w - r| ≤ 1 / 2 ^ 23 := h2.trans (by gcongr)
    by_cases hb : |val w| ≤ 1
    · exact ⟨w, h1, hb, h2'⟩
    · obtain ⟨r1, r2⟩ := abs_le.mp hr
      obtain ⟨w1, w2⟩ := abs_le.mp h2'
      rcases lt_abs.mp (not_le.mp hb) with hb | hb
      · refine ⟨Example.p1, by unfold F32.Finite; decide, by rw [Example.v1]; norm_num, ?_⟩
        rw [Example.v1]; exact abs_le.mpr ⟨by linarith [show (0:ℝ) < 1 / 2 ^ 23 by norm_num], by linarith⟩
      · refine ⟨Example.m1, by unfold F32.Finite; decide, by rw [Example.vm]; norm_num, ?_⟩
        rw [Example.vm]; exact abs_le.mpr ⟨by linarith, by linarith [show (0:ℝ) < 1 / 2 ^ 23 by norm_num]⟩
  · refine ⟨0, hz, by rw [val_zero]; norm_num, ?_⟩
    rw [val_zero, zero_sub, abs_neg]
    exact (not_le.mp hs).le.trans (by norm_num)

/-- The hypotheses about the library can be met. -/
theorem exists_lib (cpu : Cpu) (j : ExpLog.Lane) : ∃ lib, GoodLib lib := by
  choose t ht using fun v : F32.W => exists_unit (tanh_abs (val v))
  exact ⟨⟨(Softmax32.expKernel cpu j).2, t⟩, Sigmoid32.full_kernel cpu j, fun v _ => ht v⟩

/-- `x ↦ sigmoid (tanh (2 x))`. -/
def curve : List (Layer Act) := [.lin 1 1 [Example.p2] [0], .act .tanh, .act .sigmoid]

theorem curve_norm : Net32.norm 1 1 [Example.p2] = 2 := by
  simp [Net32.norm, largest, at2, Finset.sum_range_succ, List.range_succ, Example.v2]

theorem curve_bias : bias 1 [0] = 0 := by simp [bias, largest, List.range_succ, Example.v0]

/-- C88 for a network with `Tanh` and `Sigmoid`: of 1 it gives a number within `2^-18` of the exact one. -/
example (cpu : Cpu) (j : ExpLog.Lane) : ∃ lib y, Runs cpu (acts cpu j lib) curve [Example.p1] y ∧ y.length = 1 ∧
    |val (y.getD 0 0) - Spec.Sigmoid32.sigmoid (Real.tanh 2)| ≤ 1 / 2 ^ 18 := by
  obtain ⟨lib, hlib⟩ := exists_lib cpu j
  have fits : Fits real lipOf actErr curve 1 1 0 := by
    simp only [curve, Fits]
    refine ⟨⟨trivial, by norm_num, rfl, rfl, fun v hv => ?_, fun v hv => ?_, by norm_num, ?_⟩, trivial⟩
    · exact Example.fin v (by revert hv; simp; tauto)
    · exact (Example.fin v (by revert hv; simp; tauto)).1
    · simp only [top, dotErr, curve_norm, curve_bias]; unfold maxFin; norm_num
  obtain ⟨⟨y, hy⟩, h⟩ := forward_close cpu (acts_good cpu j hlib) (ls := curve) (x := [Example.p1]) (u := fun _ => 1) (M := 1)
    (E := 0) (by norm_num) le_rfl fits (by
      intro i hi
      obtain rfl : i = 0 := by simpa using hi
      change F32.Finite Example.p1 ∧ |val Example.p1 - 1| ≤ 0 ∧ _
      exact ⟨by unfold F32.Finite; decide, by rw [Example.v1]; norm_num, by norm_num⟩)
  obtain ⟨h1, h2⟩ := h y hy
  refine ⟨lib, y, hy, h1, ?_⟩
  have := (h2 0 (by simp [curve, width])).2
  have hn : network real curve (fun _ => 1) 0 = Spec.Sigmoid32.sigmoid (Real.tanh 2) := by
    simp [curve, network, layer, at2, real, Example.v2, Example.v0]
  rw [hn] at this
  refine this.trans ?_
  simp only [curve, errors, error, range, top, dotErr, curve_norm, curve_bias, lipOf, actErr]
  norm_num

end Verif.Net32
