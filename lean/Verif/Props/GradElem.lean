import Verif.Lemmas.GradFn
import Verif.Lemmas.Kink
import Verif.Model.Activation
import Mathlib.Analysis.SpecialFunctions.Trigonometric.ArctanDeriv
import Mathlib.Analysis.SpecialFunctions.Trigonometric.DerivHyp
import Mathlib.Analysis.SpecialFunctions.ExpDeriv
import Mathlib.Analysis.SpecialFunctions.Log.Deriv
import Mathlib.Analysis.SpecialFunctions.Pow.Deriv
import Mathlib.Analysis.Calculus.Deriv.Abs
import Mathlib.Analysis.Calculus.Deriv.Pow
import Mathlib.Analysis.Calculus.Deriv.Inv
import Mathlib.Tactic.FieldSimp
import Mathlib.Tactic.NormNum

set_option autoImplicit false
set_option linter.unusedSimpArgs false

/-!
# Element-wise functions (C21)

`df` is right for `f` if it is the derivative of `f` wherever `f` has one.
-/

namespace Verif.GradFn
open Dense
open scoped BigOperators Topology

/-- `df v` is the derivative of `f` at every `v` where `f` is differentiable. -/
def DerivOf (f df : ℝ → ℝ) : Prop := ∀ v, DifferentiableAt ℝ f v → HasDerivAt f (df v) v

/-- An element-wise operator is right at every matrix on whose elements `df` is the derivative of `f`. -/
theorem elementwise_correct {f df : ℝ → ℝ} {x : Dense ℝ} (hx : x.WF)
    (hd : ∀ v ∈ x.data, HasDerivAt f (df v) v) : Correct (elementwise f df) [x] := by
  intro y hy gy hgy
  have hfw : ∀ x' : Dense ℝ, (elementwise f df).forward [x'] = some (x'.map f) := fun x' => by
    simp [elementwise, apply_const]
  have hxg : x.Like gy := by
    have : y = x.map f := by rw [hfw] at hy; exact (Option.some.inj hy).symm
    subst this; exact (like_map (Like.refl hx) f).trans hgy
  have hmap : (x.map df).Like gy := ⟨hxg.wf, hxg.rows, hxg.cols⟩
  have hlen := hxg.len hx
  refine ⟨[some (zip2 (· * ·) (x.map df) gy)], ?_, gradShapes1 ?_,
    isVJP1 (fun x' => x'.map f) (fun v i => df (x.val i) * v i) hx ?_ ?_ ?_⟩
  · simp only [elementwise, apply_const, zipOp_like _ hmap, hxg.sameDims]
    rfl
  · exact (like_map (Like.refl hx) df).trans (zip2_like _ (map_WF hx df) hmap)
  · intro x' h'
    exact ⟨hfw x', (hxg.symm hx).trans (like_map h' f)⟩
  · intro X v hX i hi
    rw [hlen] at hi
    have e : (fun t => ((X t).map f).val i) = fun t => f ((X t).val i) := by
      funext t; exact val_map _ _ (by rw [hX.len]; exact hi)
    rw [e]
    have h1 : HasDerivAt f (df (x.val i)) ((X 0).val i) := by
      rw [hX.start]; exact hd _ (by rw [val_of_lt _ hi]; exact List.getElem_mem _)
    exact HasDerivAt.comp (h := fun t => (X t).val i) (0 : ℝ) h1 (hX.deriv i hi)
  · intro v
    rw [hlen]
    refine Finset.sum_congr rfl fun i hi => ?_
    have hi := Finset.mem_range.mp hi
    rw [val_zip2 _ (by simpa using hi) (by omega), val_map _ _ hi]
    ring

theorem correct_of_derivOf {f df : ℝ → ℝ} (h : DerivOf f df) {x : Dense ℝ} (hx : x.WF)
    (hd : ∀ v ∈ x.data, DifferentiableAt ℝ f v) : Correct (elementwise f df) [x] :=
  elementwise_correct hx fun v hv => h v (hd v hv)

/-! ### the functions -/

theorem tan_derivOf : DerivOf tanF tanD := by
  intro v hv
  have h : Real.cos v ≠ 0 := Real.differentiableAt_tan.mp hv
  refine (Real.hasDerivAt_tan h).congr_deriv ?_
  simp [tanD, pow_two]

theorem tanh_hasDerivAt (v : ℝ) : HasDerivAt Real.tanh (1 - Real.tanh v ^ 2) v := by
  have e : Real.tanh = fun v => Real.sinh v / Real.cosh v := by
    funext v; exact Real.tanh_eq_sinh_div_cosh v
  have hc := (Real.cosh_pos v).ne'
  have := (Real.hasDerivAt_sinh v).div (Real.hasDerivAt_cosh v) hc
  rw [e]
  refine this.congr_deriv ?_
  field_simp

theorem tanh_deriv (v : ℝ) : HasDerivAt tanhF (tanhD v) v := tanh_hasDerivAt v

theorem hardSigmoid_derivOf : DerivOf hardSigmoidF hardSigmoidD := by
  intro v hv
  have lin : ∀ v : ℝ, HasDerivAt (fun v : ℝ => 0.2 * v + 0.5) 0.2 v := fun v => by
    simpa using ((hasDerivAt_id v).const_mul (0.2 : ℝ)).add_const (0.5 : ℝ)
  have hlo : ∀ u < (-2.5 : ℝ), hardSigmoidF u = 0 := fun u hu => by
    rw [hardSigmoidF, if_neg (by norm_num at *; linarith), if_pos hu]
  have hhi : ∀ u > (2.5 : ℝ), hardSigmoidF u = 1 := fun u hu => by rw [hardSigmoidF, if_pos hu]
  have hmid : ∀ u, (-2.5 : ℝ) ≤ u → u ≤ 2.5 → hardSigmoidF u = 0.2 * u + 0.5 := fun u h1 h2 => by
    rw [hardSigmoidF, if_neg (not_lt.mpr h2), if_neg (not_lt.mpr h1)]
  rcases lt_trichotomy v (-2.5) with h | rfl | h
  · rw [hardSigmoidD, if_neg (by rintro ⟨_, h'⟩; linarith)]
    exact Kink.below h hlo (hasDerivAt_const _ _)
  · exact absurd hv (Kink.not_diff (c := -3) (d := 2.5) (by norm_num) (by norm_num)
      (fun u _ hu => hlo u hu) (fun u h1 h2 => hmid u h1.le h2.le) (hasDerivAt_const _ _) (lin _)
      (by norm_num))
  · rcases lt_trichotomy v 2.5 with h' | rfl | h'
    · rw [hardSigmoidD, if_pos ⟨h', h⟩]
      exact Kink.between h h' (fun u h1 h2 => hmid u h1.le h2.le) (lin v)
    · exact absurd hv (Kink.not_diff (c := -2.5) (d := 3) (by norm_num) (by norm_num)
        (fun u h1 h2 => hmid u h1.le h2.le) (fun u hu _ => hhi u hu) (lin _) (hasDerivAt_const _ _)
        (by norm_num))
    · rw [hardSigmoidD, if_neg (by rintro ⟨h1, _⟩; linarith)]
      exact Kink.above h' hhi (hasDerivAt_const _ _)

theorem hardTanh_derivOf : DerivOf hardTanhF hardTanhD := by
  intro v hv
  have hlo : ∀ u < (-1 : ℝ), hardTanhF u = -1 := fun u hu => by
    rw [hardTanhF, if_neg (by linarith), if_pos hu]
  have hhi : ∀ u > (1 : ℝ), hardTanhF u = 1 := fun u hu => by rw [hardTanhF, if_pos hu]
  have hmid : ∀ u, (-1 : ℝ) ≤ u → u ≤ 1 → hardTanhF u = u := fun u h1 h2 => by
    rw [hardTanhF, if_neg (not_lt.mpr h2), if_neg (not_lt.mpr h1)]
  rcases lt_trichotomy v (-1) with h | rfl | h
  · rw [hardTanhD, if_neg (by rintro ⟨_, h'⟩; linarith)]
    exact Kink.below h hlo (hasDerivAt_const _ _)
  · exact absurd hv (Kink.not_diff (c := -3) (d := 1) (by norm_num) (by norm_num)
      (fun u _ hu => hlo u hu) (fun u h1 h2 => hmid u h1.le h2.le) (hasDerivAt_const _ _) (hasDerivAt_id _)
      (by norm_num))
  · rcases lt_trichotomy v 1 with h' | rfl | h'
    · rw [hardTanhD, if_pos ⟨h', h⟩]
      exact Kink.between h h' (fun u h1 h2 => hmid u h1.le h2.le) (hasDerivAt_id v)
    · exact absurd hv (Kink.not_diff (c := -1) (d := 3) (by norm_num) (by norm_num)
        (fun u h1 h2 => hmid u h1.le h2.le) (fun u hu _ => hhi u hu) (hasDerivAt_id _) (hasDerivAt_const _ _)
        (by norm_num))
    · rw [hardTanhD, if_neg (by rintro ⟨h1, _⟩; linarith)]
      exact Kink.above h' hhi (hasDerivAt_const _ _)

theorem relu_derivOf : DerivOf reluF reluD := by
  intro v hv
  have hlo : ∀ u < (0 : ℝ), reluF u = 0 := fun u hu => max_eq_left hu.le
  have hhi : ∀ u > (0 : ℝ), reluF u = u := fun u hu => max_eq_right hu.le
  rcases lt_trichotomy v 0 with h | rfl | h
  · rw [reluD, if_neg (not_le.mpr h)]
    exact Kink.below h hlo (hasDerivAt_const _ _)
  · exact absurd hv (Kink.not_diff (c := -1) (d := 1) (by norm_num) (by norm_num)
      (fun u _ hu => hlo u hu) (fun u hu _ => hhi u hu) (hasDerivAt_const _ _) (hasDerivAt_id _)
      (by norm_num))
  · rw [reluD, if_pos h.le]
    exact Kink.above h hhi (hasDerivAt_id v)

theorem softsign_deriv (v : ℝ) : HasDerivAt softsignF (softsignD v) v := by
  have hpos : ∀ u : ℝ, 0 ≤ u → softsignF u = u / (1 + u) := fun u hu => by rw [softsignF, abs_of_nonneg hu]
  have hneg : ∀ u : ℝ, u ≤ 0 → softsignF u = u / (1 - u) := fun u hu => by
    rw [softsignF, abs_of_nonpos hu]; ring
  have dpos : ∀ u : ℝ, 0 ≤ u → HasDerivAt (fun u : ℝ => u / (1 + u)) (softsignD u) u := fun u hu => by
    refine ((hasDerivAt_id u).div ((hasDerivAt_id u).const_add 1) (by simp; linarith)).congr_deriv ?_
    have : (1 + u) ≠ 0 := by linarith
    simp only [softsignD, hpos u hu, abs_of_nonneg (div_nonneg hu (by linarith : 0 ≤ 1 + u)), id]
    field_simp
    ring
  have dneg : ∀ u : ℝ, u ≤ 0 → HasDerivAt (fun u : ℝ => u / (1 - u)) (softsignD u) u := fun u hu => by
    refine ((hasDerivAt_id u).div ((hasDerivAt_id u).const_sub 1) (by simp; linarith)).congr_deriv ?_
    have : (1 - u) ≠ 0 := by linarith
    simp only [softsignD, hneg u hu, abs_of_nonpos (div_nonpos_of_nonpos_of_nonneg hu (by linarith : 0 ≤ 1 - u)), id]
    field_simp
    ring
  rcases lt_trichotomy v 0 with h | rfl | h
  · exact Kink.below h (fun u hu => hneg u hu.le) (dneg v h.le)
  · exact Kink.join hneg hpos (dneg 0 le_rfl) (dpos 0 le_rfl)
  · exact Kink.above h (fun u hu => hpos u (le_of_lt hu)) (dpos v h.le)

theorem reciprocal_derivOf : DerivOf (fun v => 1 / v) (fun v => -1 / (v * v)) := by
  intro v hv
  simp only [one_div] at hv ⊢
  have h : v ≠ 0 := differentiableAt_inv_iff.mp hv
  refine (hasDerivAt_inv h).congr_deriv ?_
  field_simp

theorem abs_derivOf : DerivOf (fun v => |v|) absD := by
  intro v hv
  rcases lt_trichotomy v 0 with h | rfl | h
  · rw [absD, if_pos h]; exact hasDerivAt_abs_neg h
  · exact absurd hv not_differentiableAt_abs_zero
  · rw [absD, if_neg (by linarith), if_pos h]; exact hasDerivAt_abs_pos h

theorem mish_deriv (v : ℝ) : HasDerivAt mishF (mishD v) v := by
  have hp := Real.exp_pos v
  have h1 : HasDerivAt (fun v => Real.log (1 + Real.exp v)) (Real.exp v / (1 + Real.exp v)) v :=
    ((Real.hasDerivAt_exp v).const_add 1).log (by positivity)
  have h2 := (tanh_hasDerivAt (Real.log (1 + Real.exp v))).comp v h1
  refine ((hasDerivAt_id v).mul h2).congr_deriv ?_
  have ht : Real.tanh (Real.log (1 + Real.exp v)) =
      ((1 + Real.exp v) ^ 2 - 1) / ((1 + Real.exp v) ^ 2 + 1) := by
    rw [Real.tanh_eq, Real.exp_neg, Real.exp_log (by positivity)]
    field_simp
  have e2 : Real.exp (2 * v) = Real.exp v ^ 2 := by rw [← Real.exp_nat_mul]; norm_num
  have e3 : Real.exp (3 * v) = Real.exp v ^ 3 := by rw [← Real.exp_nat_mul]; norm_num
  simp only [Function.comp, id, ht, mishD, e2, e3]
  generalize Real.exp v = e at hp
  field_simp
  ring

theorem sigmoid_deriv (v : ℝ) : HasDerivAt sigmoidF (sigmoidF v * (1 - sigmoidF v)) v := by
  have hp := Real.exp_pos (v * -1)
  have h1 : HasDerivAt (fun v : ℝ => 1 + Real.exp (v * -1)) (Real.exp (v * -1) * -1) v := by
    simpa using (((hasDerivAt_id v).mul_const (-1)).exp).const_add 1
  have h2 := (hasDerivAt_const v (1 : ℝ)).div h1 (by positivity)
  refine h2.congr_deriv ?_
  rw [sigmoidF]
  generalize Real.exp (v * -1) = e at hp
  field_simp
  ring

theorem swish_deriv (v : ℝ) : HasDerivAt swishF (swishD v) v := by
  refine ((sigmoid_deriv v).mul (hasDerivAt_id v)).congr_deriv ?_
  have hp := Real.exp_pos v
  have e : Real.exp (v * -1) = (Real.exp v)⁻¹ := by rw [mul_neg_one, Real.exp_neg]
  simp only [swishD, sigmoidF, e, id]
  generalize Real.exp v = e at hp
  field_simp
  ring

theorem sqrt_deriv {v : ℝ} (h : 0 < v) : HasDerivAt Real.sqrt (v ^ (-0.5 : ℝ) * 0.5) v := by
  refine (Real.hasDerivAt_sqrt h.ne').congr_deriv ?_
  rw [Real.rpow_neg h.le, show (0.5 : ℝ) = 1 / 2 by norm_num, ← Real.sqrt_eq_rpow]
  have := (Real.sqrt_pos.mpr h).ne'
  field_simp

theorem pow_deriv {v p : ℝ} (h : v ≠ 0 ∨ 1 ≤ p) : HasDerivAt (fun v : ℝ => v ^ p) (v ^ (p - 1) * p) v := by
  rw [mul_comm]; exact Real.hasDerivAt_rpow_const h

end Verif.GradFn
