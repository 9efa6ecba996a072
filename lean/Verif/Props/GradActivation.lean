import Verif.Props.GradParams

set_option autoImplicit false
set_option linter.unusedSimpArgs false

/-!
# The element-wise operators (C21)
-/

namespace Verif.GradFn
open Dense
open scoped BigOperators Topology

/-- Operators whose function is differentiable everywhere are right at every matrix. -/
theorem smooth_correct {x : Dense ℝ} (hx : x.WF) :
    Correct tanh [x] ∧ Correct sigmoid [x] ∧ Correct swish [x] ∧ Correct mish [x] ∧ Correct softsign [x] ∧
    Correct exp [x] ∧ Correct cos [x] ∧ Correct sin [x] ∧ Correct neg [x] :=
  ⟨elementwise_correct hx fun v _ => tanh_deriv v, elementwise_correct hx fun v _ => sigmoid_deriv v,
    elementwise_correct hx fun v _ => swish_deriv v, elementwise_correct hx fun v _ => mish_deriv v,
    elementwise_correct hx fun v _ => softsign_deriv v, elementwise_correct hx fun v _ => Real.hasDerivAt_exp v,
    elementwise_correct hx fun v _ => Real.hasDerivAt_cos v,
    elementwise_correct hx fun v _ => Real.hasDerivAt_sin v,
    elementwise_correct hx fun v _ => (hasDerivAt_id v).neg⟩

/-- Operators with kinks or poles are right at every matrix with elements where the function is
differentiable. -/
theorem tan_correct {x : Dense ℝ} (hx : x.WF) (h : ∀ v ∈ x.data, DifferentiableAt ℝ tanF v) :
    Correct tan [x] := correct_of_derivOf tan_derivOf hx h

theorem hardSigmoid_correct {x : Dense ℝ} (hx : x.WF) (h : ∀ v ∈ x.data, DifferentiableAt ℝ hardSigmoidF v) :
    Correct hardSigmoid [x] := correct_of_derivOf hardSigmoid_derivOf hx h

theorem hardTanh_correct {x : Dense ℝ} (hx : x.WF) (h : ∀ v ∈ x.data, DifferentiableAt ℝ hardTanhF v) :
    Correct hardTanh [x] := correct_of_derivOf hardTanh_derivOf hx h

theorem relu_correct {x : Dense ℝ} (hx : x.WF) (h : ∀ v ∈ x.data, DifferentiableAt ℝ reluF v) :
    Correct relu [x] := correct_of_derivOf relu_derivOf hx h

theorem abs_correct {x : Dense ℝ} (hx : x.WF) (h : ∀ v ∈ x.data, DifferentiableAt ℝ (fun v : ℝ => |v|) v) :
    Correct abs [x] := correct_of_derivOf abs_derivOf hx h

theorem reciprocal_correct {x : Dense ℝ} (hx : x.WF) (h : ∀ v ∈ x.data, v ≠ 0) :
    Correct reciprocal [x] :=
  correct_of_derivOf reciprocal_derivOf hx fun v hv => by
    simpa only [one_div] using differentiableAt_inv_iff.mpr (h v hv)

theorem sqrt_correct {x : Dense ℝ} (hx : x.WF) (h : ∀ v ∈ x.data, 0 < v) : Correct sqrt [x] :=
  elementwise_correct hx fun v hv => sqrt_deriv (h v hv)

theorem pow_correct {x : Dense ℝ} (hx : x.WF) {p : ℝ} (h : ∀ v ∈ x.data, v ≠ 0 ∨ 1 ≤ p) :
    Correct (pow p) [x] := elementwise_correct hx fun v hv => pow_deriv (h v hv)

/-- `Log` at positive elements. -/
theorem log_correct {x : Dense ℝ} (hx : x.WF) (h : ∀ v ∈ x.data, 0 < v) : Correct logR [x] := by
  intro y hy gy hgy
  have hc : Correct (elementwise Real.log (fun v => if v > 0 then 1 / v else 1 / 1.0e-08)) [x] :=
    elementwise_correct hx fun v hv => by
      simp only [if_pos (h v hv), one_div]; exact Real.hasDerivAt_log (h v hv).ne'
  have hfw : ∀ x' : List (Dense ℝ), logR.forward x' =
      (elementwise Real.log (fun v => if v > 0 then 1 / v else 1 / 1.0e-08)).forward x' := fun x' => by
    rcases x' with _ | ⟨a, _ | ⟨b, c⟩⟩ <;> simp [logR, log, elementwise, apply_const]
  rw [hfw] at hy
  obtain ⟨gs, h1, h2, h3⟩ := hc y hy gy hgy
  refine ⟨gs, ?_, h2, ?_⟩
  · have hneg : x.data.any (· < 0) = false := by
      rw [List.any_eq_false]; intro v hv; simpa using (h v hv).le
    simp only [logR, log, hneg]
    simpa [elementwise] using h1
  · intro X v hX hc hv
    obtain ⟨Y, hY, hD⟩ := h3 X v hX hc hv
    exact ⟨Y, by simpa only [hfw] using hY, hD⟩

/-- `Log.Backward` panics when an element is negative. -/
theorem log_panics {x gy : Dense ℝ} {v : ℝ} (hv : v ∈ x.data) (h : v < 0) : logR.backward [x] gy = none := by
  have : x.data.any (· < 0) = true := List.any_eq_true.mpr ⟨v, hv, by simpa using h⟩
  simp only [logR, log, this]
  split <;> rfl

theorem elu_correct {x p : Dense ℝ} (hx : x.WF) (hp : p.data.length = 1)
    (h : ∀ v ∈ x.data, DifferentiableAt ℝ (eluF [p.val 0]) v) : CorrectOn (· = 0) elu [x, p] :=
  elementwiseParams_correct hx (by simp [item_of hp]) fun v hv => (elu_derivOf _).1 v (h v hv)

theorem celu_correct {x p : Dense ℝ} (hx : x.WF) (hp : p.data.length = 1) (h : p.val 0 ≠ 0) :
    CorrectOn (· = 0) celu [x, p] :=
  elementwiseParams_correct hx (a := [p.val 0]) (by simp [item_of hp]) fun v _ => celu_deriv _ h v

theorem leakyRelu_correct {x p : Dense ℝ} (hx : x.WF) (hp : p.data.length = 1)
    (h : ∀ v ∈ x.data, DifferentiableAt ℝ (leakyReluF [p.val 0]) v) : CorrectOn (· = 0) leakyRelu [x, p] :=
  elementwiseParams_correct hx (by simp [item_of hp]) fun v hv => (leakyRelu_derivOf _).1 v (h v hv)

theorem selu_correct {x p q : Dense ℝ} (hx : x.WF) (hp : p.data.length = 1) (hq : q.data.length = 1)
    (h : ∀ v ∈ x.data, DifferentiableAt ℝ (seluF [p.val 0, q.val 0]) v) :
    CorrectOn (· = 0) selu [x, p, q] :=
  elementwiseParams_correct hx (by simp [item_of hp, item_of hq]) fun v hv => (selu_derivOf _).1 v (h v hv)

theorem softPlus_correct {x p q : Dense ℝ} (hx : x.WF) (hp : p.data.length = 1) (hq : q.data.length = 1)
    (hb : p.val 0 ≠ 0) (h : ∀ v ∈ x.data, DifferentiableAt ℝ (softPlusF [p.val 0, q.val 0]) v) :
    CorrectOn (· = 0) softPlus [x, p, q] :=
  elementwiseParams_correct hx (a := [p.val 0, q.val 0]) (by simp [item_of hp, item_of hq])
    fun v hv => (softPlus_derivOf [p.val 0, q.val 0] hb).1 v (h v hv)

theorem threshold_correct {x p q : Dense ℝ} (hx : x.WF) (hp : p.data.length = 1) (hq : q.data.length = 1)
    (h : ∀ v ∈ x.data, DifferentiableAt ℝ (thresholdF [p.val 0, q.val 0]) v) :
    CorrectOn (· = 0) threshold [x, p, q] :=
  elementwiseParams_correct hx (by simp [item_of hp, item_of hq]) fun v hv =>
    (threshold_derivOf _).1 v (h v hv)

theorem softShrink_correct_partial {x p : Dense ℝ} (hx : x.WF) (hp : p.data.length = 1) (hl : 0 < p.val 0)
    (h : ∀ v ∈ x.data, DifferentiableAt ℝ (softShrinkF [p.val 0]) v) :
    CorrectOn (· = 0) softShrink [x, p] :=
  elementwiseParams_correct hx (a := [p.val 0]) (by simp [item_of hp]) fun v hv =>
    (softShrink_derivOf_partial _ hl).1 v (h v hv)

/-! ### SwishB -/

theorem swishB_deriv (b v : ℝ) : HasDerivAt (swishBF b) (swishBD b v) v := by
  have hp := Real.exp_pos (b * v)
  have h1 : HasDerivAt (fun v : ℝ => 1 + Real.exp (b * -v)) (Real.exp (b * -v) * (b * -1)) v :=
    (((hasDerivAt_id v).neg.const_mul b).exp).const_add 1
  have h2 := (hasDerivAt_id v).mul ((hasDerivAt_const v (1 : ℝ)).div h1 (by positivity))
  refine h2.congr_deriv ?_
  have e : Real.exp (b * -v) = (Real.exp (b * v))⁻¹ := by rw [mul_neg, Real.exp_neg]
  simp only [swishBD, e, id, mul_comm v b]
  simp only [Pi.div_apply, e]
  generalize Real.exp (b * v) = E at hp
  field_simp
  ring

theorem swishB_beta_deriv (b v : ℝ) : HasDerivAt (fun b => swishBF b v) (swishBBetaD v b) b := by
  have hp := Real.exp_pos (b * v)
  have h1 : HasDerivAt (fun b : ℝ => 1 + Real.exp (b * -v)) (Real.exp (b * -v) * -v) b := by
    simpa using (((hasDerivAt_id b).mul_const (-v)).exp).const_add 1
  have h2 := ((hasDerivAt_const b (1 : ℝ)).div h1 (by positivity)).const_mul v
  refine h2.congr_deriv ?_
  have e : Real.exp (b * -v) = (Real.exp (b * v))⁻¹ := by rw [mul_neg, Real.exp_neg]
  have e' : Real.exp (-(b * v)) = (Real.exp (b * v))⁻¹ := Real.exp_neg _
  simp only [swishBBetaD, e, e', mul_comm v b]
  generalize Real.exp (b * v) = E at hp
  field_simp
  ring

theorem swishB_total (u c : ℝ → ℝ) (u' c' : ℝ) (hu : HasDerivAt u u' 0) (hc : HasDerivAt c c' 0) :
    HasDerivAt (fun t => swishBF (c t) (u t)) (swishBD (c 0) (u 0) * u' + swishBBetaD (u 0) (c 0) * c') 0 := by
  have hp := Real.exp_pos (c 0 * u 0)
  have h1 : HasDerivAt (fun t : ℝ => 1 + Real.exp (c t * -u t))
      (Real.exp (c 0 * -u 0) * (c' * -u 0 + c 0 * -u')) 0 := ((hc.mul hu.neg).exp).const_add 1
  have h2 := hu.mul ((hasDerivAt_const (0 : ℝ) (1 : ℝ)).div h1 (by positivity))
  refine h2.congr_deriv ?_
  have e : Real.exp (c 0 * -u 0) = (Real.exp (c 0 * u 0))⁻¹ := by rw [mul_neg, Real.exp_neg]
  have e' : Real.exp (-(c 0 * u 0)) = (Real.exp (c 0 * u 0))⁻¹ := Real.exp_neg _
  simp only [swishBD, swishBBetaD, e, e', mul_comm (u 0) (c 0)]
  simp only [Pi.div_apply, e]
  generalize Real.exp (c 0 * u 0) = E at hp
  field_simp
  ring

theorem swishBLoop_eq (d : ℝ → ℝ → ℝ) (b : ℝ) {gy : Dense ℝ} (hv : gy.isVector) (l : List ℝ) (k : Nat) (acc : ℝ)
    (h : k + l.length ≤ gy.data.length) :
    swishBLoop d b gy l k acc = some (acc + ∑ i ∈ Finset.range l.length, d (l.getD i 0) b * gy.val (k + i)) := by
  induction l generalizing k acc with
  | nil => simp [swishBLoop]
  | cons v l ih =>
    simp only [List.length_cons] at h
    have e : gy.at1 (k : Int) = some (gy.val k) := by
      have hv' : ¬ (gy.rows ≠ 1 ∧ gy.cols ≠ 1) := by
        simp only [isVector, Bool.or_eq_true, beq_iff_eq] at hv; tauto
      rw [at1, if_neg hv', if_neg (by omega), val_of_lt _ (by omega)]
      simp [show k < gy.data.length by omega]
    rw [swishBLoop, e]
    simp only [Option.bind_eq_bind, Option.bind_some]
    rw [ih (k + 1) _ (by omega), List.length_cons, Finset.sum_range_succ']
    simp only [List.getD_cons_succ, List.getD_cons_zero, Nat.add_zero]
    have : ∀ i, k + 1 + i = k + (i + 1) := fun i => by omega
    simp only [this]
    congr 1; ring

/-- `SwishB` is right for vectors. -/
theorem swishB_correct_partial {x p : Dense ℝ} (hx : x.WF) (hp : p.WF) (hp1 : p.data.length = 1)
    (hv : x.isVector) : Correct swishBR [x, p] := by
  intro y hy gy hgy
  have hfw : ∀ x' p' : Dense ℝ, p'.data.length = 1 →
      swishBR.forward [x', p'] = some (x'.map (swishBF (p'.val 0))) := fun x' p' h' => by
    simp [swishBR, swishB, apply_const, item_of h']
  have hxg : x.Like gy := by
    have : y = x.map (swishBF (p.val 0)) := by rw [hfw _ _ hp1] at hy; exact (Option.some.inj hy).symm
    subst this; exact (like_map (Like.refl hx) _).trans hgy
  have hmap : (x.map (swishBD (p.val 0))).Like gy := ⟨hxg.wf, hxg.rows, hxg.cols⟩
  have hlen := hxg.len hx
  have hgv : gy.isVector := by simpa [isVector, hxg.rows, hxg.cols] using hv
  refine ⟨[some (zip2 (· * ·) (x.map (swishBD (p.val 0))) gy), some (p.map fun _ =>
      ∑ i ∈ Finset.range x.data.length, swishBBetaD (x.val i) (p.val 0) * gy.val i)], ?_, gradShapes2 ?_ ?_,
    isVJP2 (fun x' p' => x'.map (swishBF (p'.val 0)))
      (fun v v' i => swishBD (p.val 0) (x.val i) * v i + swishBBetaD (x.val i) (p.val 0) * v' 0) ?_ ?_ ?_⟩
  · simp only [swishBR, swishB, apply_const, hxg.sameDims, item_of hp1, Option.bind_eq_bind, Option.bind_some,
      zipOp_like _ hmap]
    rw [swishBLoop_eq _ _ hgv _ _ _ (by omega)]
    simp [val]
  · exact (like_map (Like.refl hx) _).trans (zip2_like _ (map_WF hx _) hmap)
  · exact like_map (Like.refl hp) _
  · intro a b ha hb
    exact ⟨hfw _ _ (by rw [hb.len hp, hp1]), (hxg.symm hx).trans (like_map ha _)⟩
  · intro X v X' v' hX hX' i hi
    rw [hlen] at hi
    have e : (fun t => ((X t).map (swishBF ((X' t).val 0))).val i) =
        fun t => swishBF ((X' t).val 0) ((X t).val i) := by
      funext t; exact val_map _ _ (by rw [hX.len]; exact hi)
    rw [e]
    have := swishB_total _ _ _ _ (hX.deriv i hi) (hX'.deriv 0 (by omega))
    rwa [hX.start, hX'.start] at this
  · intro v v'
    rw [hlen, hp1, Finset.sum_range_one, val_map _ _ (by omega), Finset.sum_mul, ← Finset.sum_add_distrib]
    refine Finset.sum_congr rfl fun i hi => ?_
    have hi := Finset.mem_range.mp hi
    rw [val_zip2 _ (by simpa using hi) (by omega), val_map _ _ hi]
    ring

/-- For matrices that are no vectors `SwishB.Backward` panics. -/
theorem swishB_panics {x p gy : Dense ℝ} (hv : ¬ x.isVector) (hne : x.data ≠ []) (hg : x.Like gy) :
    swishBR.backward [x, p] gy = none := by
  have hgv : gy.rows ≠ 1 ∧ gy.cols ≠ 1 := by
    simp only [isVector, Bool.or_eq_true, beq_iff_eq, not_or] at hv
    rw [hg.rows, hg.cols]; exact hv
  obtain ⟨v, l, hl⟩ := List.exists_cons_of_ne_nil hne
  simp only [swishBR, swishB, hg.sameDims]
  rw [if_neg (by simp)]
  rcases item p with _ | b
  · rfl
  · simp only [Option.bind_eq_bind, Option.bind_some, hl, swishBLoop, at1, if_pos hgv, Option.bind_none]
    rcases zipOp _ _ gy with _ | z <;> rfl

/-! ### examples: the hypotheses are met by matrices with elements of both signs -/

def exAct : Dense ℝ := ⟨2, 2, [1, -2, 3, -4]⟩

theorem exAct_WF : exAct.WF := by simp [exAct, WF]

example : Correct mish [exAct] ∧ Correct softsign [exAct] :=
  ⟨(smooth_correct exAct_WF).2.2.2.1, (smooth_correct exAct_WF).2.2.2.2.1⟩

example : Correct abs [exAct] := abs_correct exAct_WF fun v hv => by
  have : v ≠ 0 := by
    simp only [exAct, List.mem_cons, List.not_mem_nil, or_false] at hv
    rcases hv with rfl | rfl | rfl | rfl <;> norm_num
  exact (hasDerivAt_abs this).differentiableAt

example : Correct relu [exAct] := relu_correct exAct_WF fun v hv => by
  have hlo : ∀ u < (0 : ℝ), reluF u = 0 := fun u hu => max_eq_left hu.le
  have hhi : ∀ u > (0 : ℝ), reluF u = u := fun u hu => max_eq_right hu.le
  simp only [exAct, List.mem_cons, List.not_mem_nil, or_false] at hv
  rcases hv with rfl | rfl | rfl | rfl
  · exact (Kink.above (c := 0) (by norm_num) hhi (hasDerivAt_id _)).differentiableAt
  · exact (Kink.below (c := 0) (by norm_num) hlo (hasDerivAt_const _ _)).differentiableAt
  · exact (Kink.above (c := 0) (by norm_num) hhi (hasDerivAt_id _)).differentiableAt
  · exact (Kink.below (c := 0) (by norm_num) hlo (hasDerivAt_const _ _)).differentiableAt

example : CorrectOn (· = 0) elu [exAct, scalar 2] := elu_correct exAct_WF rfl fun v hv => by
  refine (elu_derivOf _).2 v ?_
  simp only [exAct, List.mem_cons, List.not_mem_nil, or_false] at hv
  rcases hv with rfl | rfl | rfl | rfl <;> norm_num

example : ¬ Correct leakyRelu [exAct, scalar 2] :=
  leakyRelu_slope_wrong exAct_WF (by simp [scalar, WF]) rfl (w := -2) (by simp [exAct]) (by norm_num)

example : Correct swishBR [⟨1, 3, [1, -2, 3]⟩, scalar 2] :=
  swishB_correct_partial (by simp [WF]) (by simp [scalar, WF]) rfl rfl

example : swishBR.backward [exAct, scalar 2] ⟨2, 2, [1, 1, 1, 1]⟩ = none :=
  swishB_panics (by simp [exAct, isVector]) (by simp [exAct]) ⟨by simp [WF], rfl, rfl⟩

end Verif.GradFn
