import Verif.Spec.Acts32
import Verif.Props.Net32
import Verif.Props.Sigmoid32
import Mathlib.Analysis.SpecialFunctions.Sigmoid
import Mathlib.Analysis.Calculus.MeanValue

set_option autoImplicit false
set_option linter.unusedSimpArgs false

/-!
# C89: networks with the logistic function and the hyperbolic tangent
-/

namespace Verif.Net32
open Verif.F32 Verif.Asm Verif.Spec Verif.Spec.Net32

theorem sigmoid_lip (x y : ℝ) : |Spec.Sigmoid32.sigmoid x - Spec.Sigmoid32.sigmoid y| ≤ 1 / 4 * |x - y| := by
  have hs : ∀ x, Spec.Sigmoid32.sigmoid x = Real.sigmoid x := fun x => by
    unfold Spec.Sigmoid32.sigmoid; rw [Real.sigmoid_def, one_div]
  rw [hs, hs]
  have := Convex.norm_image_sub_le_of_norm_deriv_le (f := Real.sigmoid) (C := 1 / 4) (s := Set.univ) (x := y) (y := x)
    (fun z _ => differentiableAt_sigmoid) (fun z _ => ?_) convex_univ (Set.mem_univ _) (Set.mem_univ _)
  · simpa [Real.norm_eq_abs] using this
  · rw [Real.deriv_sigmoid, Real.norm_eq_abs, abs_of_nonneg]
    · nlinarith [sq_nonneg (Real.sigmoid z - 1 / 2)]
    · exact mul_nonneg (Real.sigmoid_nonneg z) (sub_nonneg.mpr (Real.sigmoid_le_one z))

theorem tanh_sigmoid (x : ℝ) : Real.tanh x = 2 * Spec.Sigmoid32.sigmoid (2 * x) - 1 := by
  unfold Spec.Sigmoid32.sigmoid
  rw [Real.tanh_eq_sinh_div_cosh, Real.sinh_eq, Real.cosh_eq]
  have h1 := Real.exp_pos x
  have h2 := Real.exp_pos (-x)
  have h3 : Real.exp (-(2 * x)) = Real.exp (-x) * Real.exp (-x) := by rw [← Real.exp_add]; congr 1; ring
  have h4 : Real.exp x * Real.exp (-x) = 1 := by rw [← Real.exp_add]; simp
  rw [h3]
  have h5 : Real.exp x + Real.exp (-x) ≠ 0 := by positivity
  have h6 : 1 + Real.exp (-x) * Real.exp (-x) ≠ 0 := by positivity
  field_simp
  nlinarith

theorem tanh_lip (x y : ℝ) : |Real.tanh x - Real.tanh y| ≤ 1 * |x - y| := by
  rw [tanh_sigmoid, tanh_sigmoid]
  have := sigmoid_lip (2 * x) (2 * y)
  rw [← mul_sub, abs_mul, abs_two] at this
  rw [show 2 * Spec.Sigmoid32.sigmoid (2 * x) - 1 - (2 * Spec.Sigmoid32.sigmoid (2 * y) - 1) =
    2 * (Spec.Sigmoid32.sigmoid (2 * x) - Spec.Sigmoid32.sigmoid (2 * y)) by ring, abs_mul, abs_two]
  linarith

/-- **C89: networks.** The activations are good, so that C88 holds for networks with them. -/
theorem acts_good (cpu : Cpu) (j : ExpLog.Lane) {lib : Lib} (h : GoodLib lib) :
    Good (acts cpu j lib) real lipOf actErr where
  ends a x hx := by
    cases a with
    | relu => exact ⟨_, rfl⟩
    | sigmoid => exact (Sigmoid32.sigmoid_close cpu j h.exp hx).1
    | tanh => exact ⟨_, rfl⟩
  near a x z hx hz := by
    cases a with
    | relu => exact relu_good.near () x z hx hz
    | sigmoid =>
      obtain ⟨h1, h2⟩ := (Sigmoid32.sigmoid_close cpu j h.exp hx).2 z hz
      exact ⟨h1, fun i hi => ⟨(h2 i hi).1, (h2 i hi).2.2.2⟩⟩
    | tanh =>
      rw [show z = x.map lib.tanh from hz]
      refine ⟨by simp, fun i hi => ?_⟩
      rw [List.getD_eq_getElem _ _ (by simpa using hi), List.getElem_map, List.getD_eq_getElem _ _ hi]
      obtain ⟨h1, -, h2⟩ := h.tanh _ (hx _ (List.getElem_mem hi))
      exact ⟨h1, h2⟩
  lip a x y := by
    cases a with
    | relu => exact relu_good.lip () x y
    | sigmoid => exact sigmoid_lip x y
    | tanh => exact tanh_lip x y
  pos a := by cases a <;> simp [lipOf, actErr]

end Verif.Net32
