import Verif.Props.GradElem
import Mathlib.Analysis.Real.Pi.Irrational
import Mathlib.Analysis.Real.Pi.Bounds

set_option autoImplicit false
set_option linter.unusedSimpArgs false

/-!
# Element-wise functions with parameters, GELU, Log and SwishB (C21)
-/

namespace Verif.GradFn
open Dense
open scoped BigOperators Topology

/-- Functions with one case up to `c` and another one above. -/
theorem derivOf_split {c : ℝ} {f l r dl dr : ℝ → ℝ} (hl : ∀ u ≤ c, f u = l u) (hr : ∀ u > c, f u = r u)
    (hdl : ∀ u ≤ c, HasDerivAt l (dl u) u) (hdr : ∀ u > c, HasDerivAt r (dr u) u) {df : ℝ → ℝ}
    (hdf : ∀ u ≤ c, df u = dl u) (hdf' : ∀ u > c, df u = dr u) : DerivOf f df := by
  intro v hv
  rcases lt_trichotomy v c with h | rfl | h
  · rw [hdf v h.le]; exact Kink.below h (fun u hu => hl u (le_of_lt hu)) (hdl v h.le)
  · rw [hdf v le_rfl]
    exact Kink.left (c := v - 1) (by linarith) (fun u _ hu => hl u hu.le) (hdl v le_rfl) hv
  · rw [hdf' v h]; exact Kink.above h hr (hdr v h)

/-- They are differentiable away from `c`. -/
theorem diff_split {c : ℝ} {f l r dl dr : ℝ → ℝ} (hl : ∀ u ≤ c, f u = l u) (hr : ∀ u > c, f u = r u)
    (hdl : ∀ u ≤ c, HasDerivAt l (dl u) u) (hdr : ∀ u > c, HasDerivAt r (dr u) u) {v : ℝ} (hv : v ≠ c) :
    DifferentiableAt ℝ f v := by
  rcases lt_or_gt_of_ne hv with h | h
  · exact (Kink.below h (fun u hu => hl u (le_of_lt hu)) (hdl v h.le)).differentiableAt
  · exact (Kink.above h hr (hdr v h)).differentiableAt

theorem elu_derivOf (a : List ℝ) : DerivOf (eluF a) (eluD a) ∧ ∀ v ≠ 0, DifferentiableAt ℝ (eluF a) v := by
  have hl : ∀ u ≤ (0 : ℝ), eluF a u = a.getD 0 0 * (Real.exp u - 1) := fun u hu => by rw [eluF, if_pos hu]
  have hr : ∀ u > (0 : ℝ), eluF a u = u := fun u hu => by rw [eluF, if_neg (not_le.mpr hu), if_pos hu]
  have dl : ∀ u ≤ (0 : ℝ), HasDerivAt (fun u : ℝ => a.getD 0 0 * (Real.exp u - 1)) (a.getD 0 0 * Real.exp u) u :=
    fun u _ => ((Real.hasDerivAt_exp u).sub_const 1).const_mul _
  have dr : ∀ u > (0 : ℝ), HasDerivAt (fun u : ℝ => u) 1 u := fun u _ => hasDerivAt_id u
  exact ⟨derivOf_split hl hr dl dr (fun u hu => by rw [eluD, if_pos hu])
    (fun u hu => by rw [eluD, if_neg (not_le.mpr hu), if_pos hu]), fun v hv => diff_split hl hr dl dr hv⟩

/-- `CELU` is differentiable everywhere. -/
theorem celu_deriv (a : List ℝ) (ha : a.getD 0 0 ≠ 0) (v : ℝ) : HasDerivAt (celuF a) (celuD a v) v := by
  have hl : ∀ u ≤ (0 : ℝ), celuF a u = a.getD 0 0 * (Real.exp (u / a.getD 0 0) - 1) := fun u hu => by
    rw [celuF, if_pos hu]
  have hr : ∀ u ≥ (0 : ℝ), celuF a u = u := fun u hu => by
    rcases eq_or_lt_of_le hu with rfl | hu
    · rw [hl 0 le_rfl]; simp
    · rw [celuF, if_neg (not_le.mpr hu), if_pos hu]
  have dl : ∀ u, HasDerivAt (fun u : ℝ => a.getD 0 0 * (Real.exp (u / a.getD 0 0) - 1))
      (Real.exp (u / a.getD 0 0)) u := fun u => by
    refine ((((hasDerivAt_id u).div_const (a.getD 0 0)).exp.sub_const 1).const_mul _).congr_deriv ?_
    simp only [id]
    field_simp
  rcases lt_trichotomy v 0 with h | rfl | h
  · rw [celuD, if_pos h.le]; exact Kink.below h (fun u hu => hl u (le_of_lt hu)) (dl v)
  · rw [celuD, if_pos le_rfl]
    refine Kink.join hl hr (dl 0) ?_
    simpa using hasDerivAt_id' (0 : ℝ)
  · rw [celuD, if_neg (not_le.mpr h), if_pos h]
    exact Kink.above h (fun u hu => hr u (le_of_lt hu)) (hasDerivAt_id v)

theorem leakyRelu_derivOf (a : List ℝ) :
    DerivOf (leakyReluF a) (leakyReluD a) ∧ ∀ v ≠ 0, DifferentiableAt ℝ (leakyReluF a) v := by
  have hl : ∀ u ≤ (0 : ℝ), leakyReluF a u = a.getD 0 0 * u := fun u hu => by rw [leakyReluF, if_pos hu]
  have hr : ∀ u > (0 : ℝ), leakyReluF a u = u := fun u hu => by
    rw [leakyReluF, if_neg (not_le.mpr hu), if_pos hu]
  have dl : ∀ u ≤ (0 : ℝ), HasDerivAt (fun u : ℝ => a.getD 0 0 * u) (a.getD 0 0) u := fun u _ => by
    simpa using (hasDerivAt_id u).const_mul (a.getD 0 0)
  have dr : ∀ u > (0 : ℝ), HasDerivAt (fun u : ℝ => u) 1 u := fun u _ => hasDerivAt_id u
  exact ⟨derivOf_split hl hr dl dr (fun u hu => by rw [leakyReluD, if_pos hu])
    (fun u hu => by rw [leakyReluD, if_neg (not_le.mpr hu), if_pos hu]),
    fun v hv => diff_split hl hr dl dr hv⟩

theorem selu_derivOf (a : List ℝ) :
    DerivOf (seluF a) (seluD a) ∧ ∀ v ≠ 0, DifferentiableAt ℝ (seluF a) v := by
  have hl : ∀ u ≤ (0 : ℝ), seluF a u = a.getD 1 0 * a.getD 0 0 * (Real.exp u - 1) := fun u hu => by
    simp only [seluF]; rw [if_pos hu]
  have hr : ∀ u > (0 : ℝ), seluF a u = a.getD 1 0 * u := fun u hu => by
    simp only [seluF]; rw [if_neg (not_le.mpr hu), if_pos hu]
  have dl : ∀ u ≤ (0 : ℝ), HasDerivAt (fun u : ℝ => a.getD 1 0 * a.getD 0 0 * (Real.exp u - 1))
      (a.getD 1 0 * a.getD 0 0 * Real.exp u) u :=
    fun u _ => ((Real.hasDerivAt_exp u).sub_const 1).const_mul _
  have dr : ∀ u > (0 : ℝ), HasDerivAt (fun u : ℝ => a.getD 1 0 * u) (a.getD 1 0) u := fun u _ => by
    simpa using (hasDerivAt_id u).const_mul (a.getD 1 0)
  exact ⟨derivOf_split hl hr dl dr (fun u hu => by simp only [seluD]; rw [if_pos hu])
    (fun u hu => by simp only [seluD]; rw [if_neg (not_le.mpr hu), if_pos hu]),
    fun v hv => diff_split hl hr dl dr hv⟩

theorem softPlus_derivOf (a : List ℝ) (ha : a.getD 0 0 ≠ 0) :
    DerivOf (softPlusF a) (softPlusD a) ∧ ∀ v ≠ a.getD 1 0, DifferentiableAt ℝ (softPlusF a) v := by
  have hl : ∀ u ≤ a.getD 1 0, softPlusF a u = 1 / a.getD 0 0 * Real.log (1 + Real.exp (a.getD 0 0 * u)) :=
    fun u hu => by simp only [softPlusF]; rw [if_pos hu]
  have hr : ∀ u > a.getD 1 0, softPlusF a u = u := fun u hu => by
    simp only [softPlusF]; rw [if_neg (not_le.mpr hu), if_pos hu]
  have dl : ∀ u ≤ a.getD 1 0, HasDerivAt
      (fun u : ℝ => 1 / a.getD 0 0 * Real.log (1 + Real.exp (a.getD 0 0 * u)))
      (Real.exp (u * a.getD 0 0) / (Real.exp (u * a.getD 0 0) + 1)) u := fun u _ => by
    have hp := Real.exp_pos (a.getD 0 0 * u)
    refine ((((((hasDerivAt_id u).const_mul (a.getD 0 0)).exp).const_add 1).log
      (by simp only [id]; positivity)).const_mul _).congr_deriv ?_
    simp only [id]
    rw [mul_comm u]
    field_simp
    ring
  have dr : ∀ u > a.getD 1 0, HasDerivAt (fun u : ℝ => u) 1 u := fun u _ => hasDerivAt_id u
  exact ⟨derivOf_split hl hr dl dr (fun u hu => by simp only [softPlusD]; rw [if_pos hu])
    (fun u hu => by simp only [softPlusD]; rw [if_neg (not_le.mpr hu), if_pos hu]),
    fun v hv => diff_split hl hr dl dr hv⟩

theorem threshold_derivOf (a : List ℝ) :
    DerivOf (thresholdF a) (thresholdD a) ∧ ∀ v ≠ a.getD 0 0, DifferentiableAt ℝ (thresholdF a) v := by
  have hl : ∀ u ≤ a.getD 0 0, thresholdF a u = a.getD 1 0 := fun u hu => by
    simp only [thresholdF]; rw [if_pos hu]
  have hr : ∀ u > a.getD 0 0, thresholdF a u = u := fun u hu => by
    simp only [thresholdF]; rw [if_neg (not_le.mpr hu), if_pos hu]
  have dl : ∀ u ≤ a.getD 0 0, HasDerivAt (fun _ : ℝ => a.getD 1 0) 0 u := fun u _ => hasDerivAt_const _ _
  have dr : ∀ u > a.getD 0 0, HasDerivAt (fun u : ℝ => u) 1 u := fun u _ => hasDerivAt_id u
  exact ⟨derivOf_split hl hr dl dr (fun u hu => by simp only [thresholdD]; rw [if_pos hu])
    (fun u hu => by simp only [thresholdD]; rw [if_neg (not_le.mpr hu), if_pos hu]),
    fun v hv => diff_split hl hr dl dr hv⟩

/-- `SoftShrink` with a positive parameter. -/
theorem softShrink_derivOf_partial (a : List ℝ) (ha : 0 < a.getD 0 0) :
    DerivOf (softShrinkF a) (softShrinkD a) ∧
    ∀ v, v ≠ a.getD 0 0 → v ≠ -a.getD 0 0 → DifferentiableAt ℝ (softShrinkF a) v := by
  have hlo : ∀ u < -a.getD 0 0, softShrinkF a u = u + a.getD 0 0 := fun u hu => by
    simp only [softShrinkF]; rw [if_pos hu]
  have hhi : ∀ u > a.getD 0 0, softShrinkF a u = u - a.getD 0 0 := fun u hu => by
    simp only [softShrinkF]; rw [if_neg (by linarith), if_pos hu]
  have hmid : ∀ u, -a.getD 0 0 < u → u < a.getD 0 0 → softShrinkF a u = 0 := fun u h1 h2 => by
    simp only [softShrinkF]; rw [if_neg (by linarith), if_neg (by linarith)]
  have dlo : ∀ u : ℝ, HasDerivAt (fun u : ℝ => u + a.getD 0 0) 1 u := fun u => (hasDerivAt_id u).add_const _
  have dhi : ∀ u : ℝ, HasDerivAt (fun u : ℝ => u - a.getD 0 0) 1 u := fun u => (hasDerivAt_id u).sub_const _
  have hlt : -a.getD 0 0 < a.getD 0 0 := by linarith
  have key : ∀ v, v ≠ a.getD 0 0 → v ≠ -a.getD 0 0 → HasDerivAt (softShrinkF a) (softShrinkD a v) v := by
    intro v h1 h2
    rcases lt_or_gt_of_ne h2 with h | h
    · simp only [softShrinkD]; rw [if_pos h]; exact Kink.below h hlo (dlo v)
    · rcases lt_or_gt_of_ne h1 with h' | h'
      · simp only [softShrinkD]; rw [if_neg (by linarith), if_neg (by linarith)]
        exact Kink.between h h' hmid (hasDerivAt_const _ _)
      · simp only [softShrinkD]; rw [if_neg (by linarith), if_pos h']; exact Kink.above h' hhi (dhi v)
  refine ⟨fun v hv => ?_, fun v h1 h2 => (key v h1 h2).differentiableAt⟩
  by_cases h1 : v = a.getD 0 0
  · rw [h1] at hv
    exact absurd hv (Kink.not_diff (c := -a.getD 0 0) (d := a.getD 0 0 + 1) hlt (by linarith)
      hmid (fun u hu _ => hhi u hu) (hasDerivAt_const _ _) (dhi _) (by norm_num))
  · by_cases h2 : v = -a.getD 0 0
    · rw [h2] at hv
      exact absurd hv (Kink.not_diff (c := -a.getD 0 0 - 1) (d := a.getD 0 0) (by linarith) hlt
        (fun u _ hu => hlo u hu) hmid (dlo _) (hasDerivAt_const _ _) (by norm_num))
    · exact key v h1 h2

/-- With parameter 0 the function is the identity, but the derivative used at 0 is 0. -/
theorem softShrink_zero : (∀ v, softShrinkF [0] v = v) ∧ softShrinkD [0] 0 = 0 ∧
    ¬ DerivOf (softShrinkF [0]) (softShrinkD [0]) := by
  have h1 : ∀ v, softShrinkF [0] v = v := fun v => by
    simp only [softShrinkF, List.getD_cons_zero, neg_zero, add_zero, sub_zero]
    rcases lt_trichotomy v 0 with h | rfl | h
    · rw [if_pos h]
    · simp
    · rw [if_neg (by linarith), if_pos h]
  have h2 : softShrinkD [0] 0 = 0 := by simp [softShrinkD]
  refine ⟨h1, h2, fun h => ?_⟩
  have e : softShrinkF [0] = fun v => v := funext h1
  have hid : HasDerivAt (softShrinkF [0]) 1 0 := by rw [e]; exact hasDerivAt_id 0
  have := (h 0 hid.differentiableAt).unique hid
  rw [h2] at this
  norm_num at this

/-! ### operators with parameters -/

theorem mapM_item_length {ps : List (Dense ℝ)} {a : List ℝ} (h : ps.mapM item = some a) :
    a.length = ps.length := by
  induction ps generalizing a with
  | nil => simp at h; subst h; rfl
  | cons p ps ih =>
    simp only [List.mapM_cons, Option.bind_eq_bind, Option.pure_def, Option.bind_eq_some_iff] at h
    obtain ⟨b, _, c, hc, h⟩ := h
    cases h
    simp [ih hc]

/-- An element-wise operator with parameters gives the right gradient to its first operand. -/
theorem elementwiseParams_correct {f df : List ℝ → ℝ → ℝ} {x : Dense ℝ} {ps : List (Dense ℝ)} {a : List ℝ}
    (hx : x.WF) (ha : ps.mapM item = some a) (hd : ∀ v ∈ x.data, HasDerivAt (f a) (df a v) v) :
    CorrectOn (· = 0) (elementwiseParams f df) (x :: ps) := by
  intro y hy gy hgy
  have hfw : ∀ x' : Dense ℝ, (elementwiseParams f df).forward (x' :: ps) = some (x'.map (f a)) := fun x' => by
    simp [elementwiseParams, apply_const, ha]
  have hxg : x.Like gy := by
    have : y = x.map (f a) := by rw [hfw] at hy; exact (Option.some.inj hy).symm
    subst this; exact (like_map (Like.refl hx) _).trans hgy
  have hmap : (x.map (df a)).Like gy := ⟨hxg.wf, hxg.rows, hxg.cols⟩
  have hlen := hxg.len hx
  refine ⟨some (zip2 (· * ·) (x.map (df a)) gy) :: ps.map fun _ => none, ?_, ⟨by simp, ?_⟩,
    isVJPOn_of_entries ?_⟩
  · simp only [elementwiseParams, apply_const, hxg.sameDims, ha, Option.bind_eq_bind, Option.bind_some,
      zipOp_like _ hmap]
    rfl
  · intro k b g hb hg
    cases k with
    | zero =>
      simp at hb hg; subst hb hg
      exact (like_map (Like.refl hx) _).trans (zip2_like _ (map_WF hx _) hmap)
    | succ k =>
      simp only [List.getElem?_cons_succ, List.getElem?_map, Option.map_eq_some_iff] at hg
      obtain ⟨_, _, h⟩ := hg; cases h
  · intro X v hX hc hv
    have h0 := hX 0 x rfl
    have hps : ∀ t, (List.range ps.length).map (fun k => X (k + 1) t) = ps := by
      intro t
      apply List.ext_getElem?
      intro k
      by_cases hk : k < ps.length
      · simp only [List.getElem?_map, List.getElem?_range hk, Option.map_some]
        rw [hc (k + 1) (by simp), (hX (k + 1) ps[k] (by simp [hk])).start, List.getElem?_eq_getElem hk]
      · rw [List.getElem?_eq_none (by simp; omega), List.getElem?_eq_none (by omega)]
    refine ⟨fun t => (X 0 t).map (f a), fun i => df a (x.val i) * v 0 i,
      Filter.Eventually.of_forall fun t => ⟨?_, ?_⟩, fun i hi => ?_, ?_⟩
    · simp only [List.length_cons, List.range_succ_eq_map, List.map_cons, List.map_map]
      have := hps t
      simp only [Function.comp_def]
      rw [show (List.map (fun k => X k.succ t) (List.range ps.length)) = ps from this]
      exact hfw _
    · exact (hxg.symm hx).trans (like_map (h0.like t) _)
    · rw [hlen] at hi
      have e : (fun t => ((X 0 t).map (f a)).val i) = fun t => f a ((X 0 t).val i) := by
        funext t; exact val_map _ _ (by rw [h0.len]; exact hi)
      rw [e]
      have h1 : HasDerivAt (f a) (df a (x.val i)) ((X 0 0).val i) := by
        rw [h0.start]; exact hd _ (by rw [val_of_lt _ hi]; exact List.getElem_mem _)
      exact HasDerivAt.comp (h := fun t => (X 0 t).val i) (0 : ℝ) h1 (h0.deriv i hi)
    · rw [List.length_cons, Finset.sum_range_succ']
      rw [Finset.sum_eq_zero (s := Finset.range ps.length), zero_add]
      · simp only [List.map_cons, List.getD_cons_zero, gradVal, List.getElem?_cons_zero]
        rw [hlen]
        refine Finset.sum_congr rfl fun i hi => ?_
        have hi := Finset.mem_range.mp hi
        rw [val_zip2 _ (by simpa using hi) (by omega), val_map _ _ hi]
        ring
      · intro k hk
        refine Finset.sum_eq_zero fun i _ => ?_
        rw [hv (k + 1) (by simp), mul_zero]


/-- If a parameter matters, its missing gradient is wrong: `LeakyReLU` with a negative element. -/
theorem leakyRelu_slope_wrong {x p : Dense ℝ} (hx : x.WF) (hp : p.WF) (hp1 : p.data.length = 1)
    {w : ℝ} (hw : w ∈ x.data) (hneg : w < 0) : ¬ Correct leakyRelu [x, p] := by
  intro h
  have hfw : ∀ p' : Dense ℝ, p'.data.length = 1 →
      leakyRelu.forward [x, p'] = some (x.map (leakyReluF [p'.val 0])) := fun p' h' => by
    simp [leakyRelu, elementwiseParams, apply_const, item_of h']
  -- the gradient of the result is 1 for negative elements and 0 otherwise
  let gy : Dense ℝ := x.map fun v => if v < 0 then 1 else 0
  have hgl : gy.data.length = x.data.length := map_length _ _
  obtain ⟨gs, hgs, -, hv⟩ := h _ (hfw p hp1) gy ⟨map_WF hx _, rfl, rfl⟩
  have hgs' : ∃ gx, gs = [some gx, none] := by
    have hmap : (x.map (leakyReluD [p.val 0])).Like gy := ⟨map_WF hx _, rfl, rfl⟩
    have hxg : x.sameDims gy = true := sameDims_iff.mpr ⟨rfl, rfl⟩
    simp [leakyRelu, elementwiseParams, apply_const, item_of hp1, hxg, zipOp_like _ hmap] at hgs
    exact ⟨_, hgs.symm⟩
  obtain ⟨gx, rfl⟩ := hgs'
  -- move the slope only
  have hlen1 : ∀ t : ℝ, (p.map (· + t)).data.length = 1 := fun t => by simpa using hp1
  obtain ⟨Y, hY, hD⟩ := hv (fun k t => if k = 0 then x else p.map (· + t))
    (fun k _ => if k = 0 then 0 else 1)
    (by
      intro k b hb
      rcases k with _ | _ | k
      · simp at hb; subst hb
        exact ⟨by simp, fun t => by simpa using Like.refl hx, fun i _ => by simpa using hasDerivAt_const _ _⟩
      · simp at hb; subst hb
        refine ⟨by simp [Dense.map], fun t => by simpa using like_map (Like.refl hp) _, fun i hi => ?_⟩
        have e : (fun t : ℝ => (p.map (· + t)).val i) = fun t => p.val i + t := by
          funext t; exact val_map _ _ hi
        simpa [e] using (hasDerivAt_id (0 : ℝ)).const_add (p.val i)
      · simp at hb)
    (fun k hk => absurd trivial hk) (fun k hk => absurd trivial hk)
  have hz : HasDerivAt (fun t => ∑ i ∈ Finset.range gy.data.length, gy.val i * (Y t).val i) 0 0 := by
    convert hD using 1
    simp [gradVal, Finset.sum_range_succ]
  have hreal : HasDerivAt (fun t => ∑ i ∈ Finset.range gy.data.length, gy.val i * (Y t).val i)
      (∑ i ∈ Finset.range gy.data.length, gy.val i * (gy.val i * x.val i)) 0 := by
    have : HasDerivAt (fun t => ∑ i ∈ Finset.range gy.data.length,
        gy.val i * (x.map (leakyReluF [p.val 0 + t])).val i)
        (∑ i ∈ Finset.range gy.data.length, gy.val i * (gy.val i * x.val i)) 0 := by
      refine HasDerivAt.fun_sum fun i hi => HasDerivAt.const_mul _ ?_
      have hi : i < x.data.length := by rw [← hgl]; exact Finset.mem_range.mp hi
      have eg : gy.val i = if x.val i < 0 then 1 else 0 := val_map _ _ hi
      simp only [val_map _ _ hi, eg]
      rcases lt_or_ge (x.val i) 0 with h | h
      · simp only [leakyReluF, if_pos h, if_pos h.le, List.getD_cons_zero, one_mul]
        simpa using (((hasDerivAt_id (0 : ℝ)).const_add (p.val 0))).mul_const (x.val i)
      · rw [if_neg (not_lt.mpr h), zero_mul]
        rcases eq_or_lt_of_le h with h' | h'
        · simpa [leakyReluF, ← h'] using hasDerivAt_const _ _
        · simp only [leakyReluF, if_neg (not_le.mpr h')]
          exact hasDerivAt_const _ _
    refine this.congr_of_eventuallyEq ?_
    filter_upwards [hY] with t ht
    have e := ht.1
    simp only [List.length_cons, List.length_nil, List.range_succ, List.range_zero, List.nil_append,
      List.map_append, List.map_cons, List.map_nil, List.cons_append, if_pos] at e
    rw [if_neg (by norm_num), hfw _ (hlen1 t)] at e
    rw [← Option.some.inj e, val_map _ _ (by omega : 0 < p.data.length)]
  have hsum := hreal.unique hz
  have : ∑ i ∈ Finset.range gy.data.length, gy.val i * (gy.val i * x.val i) < 0 := by
    obtain ⟨i, hi, rfl⟩ := List.getElem_of_mem hw
    refine Finset.sum_neg' (fun k hk => ?_) ⟨i, Finset.mem_range.mpr (by omega), ?_⟩
    · have hk : k < x.data.length := by rw [← hgl]; exact Finset.mem_range.mp hk
      have eg : gy.val k = if x.val k < 0 then 1 else 0 := val_map _ _ hk
      rw [eg]; split
      · simpa using le_of_lt ‹_›
      · simp
    · have eg : gy.val i = if x.val i < 0 then 1 else 0 := val_map _ _ hi
      rw [← val_of_lt _ hi] at hneg
      rw [eg, if_pos hneg]; simpa using hneg
  linarith

/-! ### GELU -/

/-- The derivative of `gelu` with constants `a`, `b`, `c`, `d`. -/
noncomputable def geluForm (a b c d x : ℝ) : ℝ :=
  0.5 * Real.tanh (a * x ^ 3 + b * x) + (c * x ^ 3 + d * x) * (1 / Real.cosh (a * x ^ 3 + b * x)) ^ 2 + 0.5

theorem geluD_eq : geluD = geluForm 0.0356774 0.797885 0.0535161 0.398942 := rfl

theorem sech_sq (u : ℝ) : (1 / Real.cosh u) ^ 2 = 1 - Real.tanh u ^ 2 := by
  have hc := (Real.cosh_pos u).ne'
  rw [Real.tanh_eq_sinh_div_cosh]
  have := Real.cosh_sq u
  field_simp
  linarith

/-- The derivative of `gelu`. -/
theorem gelu_deriv (v : ℝ) : HasDerivAt geluF
    (geluForm (0.044715 * √(2 / Real.pi)) √(2 / Real.pi) (0.0670725 * √(2 / Real.pi))
      (0.5 * √(2 / Real.pi)) v) v := by
  have hp : HasDerivAt (fun v : ℝ => √(2 / Real.pi) * (v + 0.044715 * v ^ 3))
      (√(2 / Real.pi) * (1 + 0.044715 * (3 * v ^ 2))) v := by
    have := ((hasDerivAt_id v).add ((hasDerivAt_pow 3 v).const_mul (0.044715 : ℝ))).const_mul √(2 / Real.pi)
    simpa using this
  have ht := (tanh_hasDerivAt (√(2 / Real.pi) * (v + 0.044715 * v ^ 3))).comp v hp
  have := ((hasDerivAt_id v).const_mul (0.5 : ℝ)).mul (ht.const_add 1)
  refine this.congr_deriv ?_
  have e : 0.044715 * √(2 / Real.pi) * v ^ 3 + √(2 / Real.pi) * v =
      √(2 / Real.pi) * (v + 0.044715 * v ^ 3) := by ring
  simp only [geluForm, sech_sq, e, Function.comp, id]
  generalize Real.tanh (√(2 / Real.pi) * (v + 0.044715 * v ^ 3)) = T
  ring

theorem geluForm_deriv_zero (a b c d : ℝ) : HasDerivAt (geluForm a b c d) (0.5 * b + d) 0 := by
  have hp : HasDerivAt (fun v : ℝ => a * v ^ 3 + b * v) (a * (3 * 0 ^ 2) + b) 0 := by
    refine (((hasDerivAt_pow 3 (0 : ℝ)).const_mul a).add ((hasDerivAt_id (0 : ℝ)).const_mul b)).congr_deriv ?_
    simp
  have hq : HasDerivAt (fun v : ℝ => c * v ^ 3 + d * v) (c * (3 * 0 ^ 2) + d) 0 := by
    refine (((hasDerivAt_pow 3 (0 : ℝ)).const_mul c).add ((hasDerivAt_id (0 : ℝ)).const_mul d)).congr_deriv ?_
    simp
  have ht := HasDerivAt.comp (h := fun v : ℝ => a * v ^ 3 + b * v) (0 : ℝ) (tanh_hasDerivAt _) hp
  have e : geluForm a b c d = fun v => 0.5 * Real.tanh (a * v ^ 3 + b * v) +
      (c * v ^ 3 + d * v) * (1 - Real.tanh (a * v ^ 3 + b * v) ^ 2) + 0.5 := by
    funext v; simp only [geluForm, sech_sq]
  rw [e]
  have := ((ht.const_mul (0.5 : ℝ)).add (hq.mul ((ht.pow 2).const_sub 1))).add_const (0.5 : ℝ)
  refine this.congr_deriv ?_
  simp

/-- The function used as derivative of `gelu` is not its derivative: its constants are rounded. -/
theorem gelu_wrong : ∃ v, ¬ HasDerivAt geluF (geluD v) v := by
  by_contra hall
  push Not at hall
  have e : geluD = geluForm (0.044715 * √(2 / Real.pi)) √(2 / Real.pi) (0.0670725 * √(2 / Real.pi))
      (0.5 * √(2 / Real.pi)) := funext fun v => (hall v).unique (gelu_deriv v)
  have h1 := geluForm_deriv_zero 0.0356774 0.797885 0.0535161 0.398942
  rw [← geluD_eq, e] at h1
  have h2 := (geluForm_deriv_zero _ _ _ _).unique h1
  have hpi := Real.pi_pos
  have hs : √(2 / Real.pi) = 0.7978845 := by linarith
  have hs2 : 2 / Real.pi = 0.7978845 ^ 2 := by
    rw [← hs, Real.sq_sqrt (by positivity)]
  have : Real.pi = ((2 / (7978845 / 10000000) ^ 2 : ℚ) : ℝ) := by
    push_cast
    rw [div_eq_iff hpi.ne'] at hs2
    rw [eq_div_iff (by norm_num)]
    norm_num at hs2 ⊢
    linarith
  exact irrational_pi ⟨_, this.symm⟩

theorem tanh_abs_le (u : ℝ) : |Real.tanh u| ≤ 1 := by
  have h : Real.tanh u ^ 2 ≤ 1 := by
    have := sech_sq u
    nlinarith [sq_nonneg (1 / Real.cosh u)]
  exact abs_le_one_iff_mul_self_le_one.mpr (by nlinarith)

theorem tanh_lip (u w : ℝ) : |Real.tanh u - Real.tanh w| ≤ |u - w| := by
  have := Convex.norm_image_sub_le_of_norm_hasDerivWithin_le (f := Real.tanh)
    (f' := fun v => 1 - Real.tanh v ^ 2) (C := 1) (s := Set.univ) (x := w) (y := u)
    (fun v _ => (tanh_hasDerivAt v).hasDerivWithinAt)
    (fun v _ => by
      rw [Real.norm_eq_abs, abs_le]
      have h := abs_le.mp (tanh_abs_le v)
      constructor <;> nlinarith [sq_nonneg (Real.tanh v)]) convex_univ (Set.mem_univ _) (Set.mem_univ _)
  simpa using this

/-- How far the derivative used for `gelu` is from the derivative: the constants are off by less than
5e-7. -/
theorem gelu_partial (v : ℝ) : ∃ D, HasDerivAt geluF D v ∧
    |geluD v - D| ≤ 5e-7 * (|v| + |v| ^ 3) * (2 + 2 * |v| + 2 * |v| ^ 3) := by
  refine ⟨_, gelu_deriv v, ?_⟩
  have hpi := Real.pi_pos
  have hs : |0.797885 - √(2 / Real.pi)| ≤ 4.9e-7 ∧ |0.0356774 - 0.044715 * √(2 / Real.pi)| ≤ 4.9e-7 ∧
      |0.0535161 - 0.0670725 * √(2 / Real.pi)| ≤ 4.9e-7 ∧ |0.398942 - 0.5 * √(2 / Real.pi)| ≤ 4.9e-7 := by
    have h1 := Real.pi_gt_d20
    have h2 := Real.pi_lt_d20
    have hlo : 0.79788456 ≤ √(2 / Real.pi) := by
      apply Real.le_sqrt_of_sq_le
      rw [le_div_iff₀ hpi]
      nlinarith
    have hhi : √(2 / Real.pi) ≤ 0.79788457 := by
      apply Real.sqrt_le_iff.mpr ⟨by norm_num, ?_⟩
      rw [div_le_iff₀ hpi]
      nlinarith
    refine ⟨?_, ?_, ?_, ?_⟩ <;> rw [abs_le] <;> constructor <;> norm_num at * <;> linarith
  obtain ⟨hb, ha, hc, hd⟩ := hs
  rw [geluD_eq]
  generalize √(2 / Real.pi) = s at *
  set a' := 0.044715 * s
  set c' := 0.0670725 * s
  set d' := 0.5 * s
  have hcb : |c'| ≤ 1 ∧ |d'| ≤ 1 := by
    constructor
    · rw [abs_le] at *; constructor <;> norm_num at * <;> linarith
    · rw [abs_le] at *; constructor <;> norm_num at * <;> linarith
  simp only [geluForm, sech_sq]
  set u := 0.0356774 * v ^ 3 + 0.797885 * v with hu
  set w := a' * v ^ 3 + s * v with hw
  set p := 0.0535161 * v ^ 3 + 0.398942 * v with hp
  set q := c' * v ^ 3 + d' * v with hq
  have huw : |u - w| ≤ 4.9e-7 * (|v| + |v| ^ 3) := by
    have : u - w = (0.0356774 - a') * v ^ 3 + (0.797885 - s) * v := by rw [hu, hw]; ring
    rw [this]
    calc _ ≤ |0.0356774 - a'| * |v| ^ 3 + |0.797885 - s| * |v| := by
          refine (abs_add_le _ _).trans ?_
          rw [abs_mul, abs_mul, abs_pow]
      _ ≤ _ := by nlinarith [abs_nonneg v, pow_nonneg (abs_nonneg v) 3]
  have hpq : |p - q| ≤ 4.9e-7 * (|v| + |v| ^ 3) := by
    have : p - q = (0.0535161 - c') * v ^ 3 + (0.398942 - d') * v := by rw [hp, hq]; ring
    rw [this]
    calc _ ≤ |0.0535161 - c'| * |v| ^ 3 + |0.398942 - d'| * |v| := by
          refine (abs_add_le _ _).trans ?_
          rw [abs_mul, abs_mul, abs_pow]
      _ ≤ _ := by nlinarith [abs_nonneg v, pow_nonneg (abs_nonneg v) 3]
  have hqb : |q| ≤ |v| + |v| ^ 3 := by
    calc _ ≤ |c'| * |v| ^ 3 + |d'| * |v| := by
          refine (abs_add_le _ _).trans ?_
          rw [abs_mul c', abs_mul d', abs_pow]
      _ ≤ _ := by nlinarith [abs_nonneg v, pow_nonneg (abs_nonneg v) 3, hcb.1, hcb.2]
  have ht := tanh_lip u w
  have hbu := abs_le.mp (tanh_abs_le u)
  have hbw := abs_le.mp (tanh_abs_le w)
  have h2 : |(1 - Real.tanh u ^ 2) - (1 - Real.tanh w ^ 2)| ≤ 2 * |u - w| := by
    have : (1 - Real.tanh u ^ 2) - (1 - Real.tanh w ^ 2) =
        (Real.tanh w - Real.tanh u) * (Real.tanh u + Real.tanh w) := by ring
    rw [this, abs_mul, abs_sub_comm]
    have h3 : |Real.tanh u + Real.tanh w| ≤ 2 := abs_le.mpr ⟨by linarith, by linarith⟩
    nlinarith [abs_nonneg (Real.tanh u - Real.tanh w), abs_nonneg (u - w)]
  have h1 : |1 - Real.tanh u ^ 2| ≤ 1 := abs_le.mpr ⟨by nlinarith, by nlinarith⟩
  have hid : 0.5 * Real.tanh u + p * (1 - Real.tanh u ^ 2) + 0.5 -
      (0.5 * Real.tanh w + q * (1 - Real.tanh w ^ 2) + 0.5) =
      0.5 * (Real.tanh u - Real.tanh w) + (p - q) * (1 - Real.tanh u ^ 2) +
        q * ((1 - Real.tanh u ^ 2) - (1 - Real.tanh w ^ 2)) := by ring
  rw [hid]
  set n := |v| + |v| ^ 3 with hn
  have hn0 : 0 ≤ n := by positivity
  calc _ ≤ |0.5 * (Real.tanh u - Real.tanh w)| + |(p - q) * (1 - Real.tanh u ^ 2)| +
        |q * ((1 - Real.tanh u ^ 2) - (1 - Real.tanh w ^ 2))| := abs_add_three _ _ _
    _ ≤ 0.5 * |u - w| + |p - q| * 1 + |q| * (2 * |u - w|) := by
        rw [abs_mul, abs_mul, abs_mul, show |(0.5 : ℝ)| = 0.5 by norm_num]
        gcongr
    _ ≤ 0.5 * (4.9e-7 * n) + 4.9e-7 * n * 1 + n * (2 * (4.9e-7 * n)) := by gcongr
    _ ≤ 5e-7 * n * (2 + 2 * n) := by norm_num at *; nlinarith
    _ = _ := by rw [hn]; ring

/-- What `gelu` sends back at each element is `gy` times a number close to the derivative of the forward
function there. -/
theorem gelu_backward_partial {x gy : Dense ℝ} (hx : x.WF) (hg : x.Like gy) :
    gelu.forward [x] = some (x.map geluF) ∧
    ∃ gx, gelu.backward [x] gy = some [some gx] ∧ x.Like gx ∧
      ∀ i < x.data.length, ∃ D, HasDerivAt geluF D (x.val i) ∧
        |gx.val i - D * gy.val i| ≤
          5e-7 * (|x.val i| + |x.val i| ^ 3) * (2 + 2 * |x.val i| + 2 * |x.val i| ^ 3) * |gy.val i| := by
  have hmap : (x.map geluD).Like gy := ⟨hg.wf, hg.rows, hg.cols⟩
  have hlen := hg.len hx
  refine ⟨by simp [gelu, elementwise, apply_const], zip2 (· * ·) (x.map geluD) gy, ?_,
    (like_map (Like.refl hx) geluD).trans (zip2_like _ (map_WF hx geluD) hmap), ?_⟩
  · simp only [gelu, elementwise, apply_const, zipOp_like _ hmap, hg.sameDims]
    rfl
  · intro i hi
    obtain ⟨D, hD, hb⟩ := gelu_partial (x.val i)
    refine ⟨D, hD, ?_⟩
    rw [val_zip2 _ (by simpa using hi) (by omega), val_map _ _ hi, ← sub_mul, abs_mul]
    exact mul_le_mul_of_nonneg_right hb (abs_nonneg _)

/-- Two elements, 0 and 1, with gradients 3 and -2. -/
example : ∃ gx, gelu.backward [⟨1, 2, [0, 1]⟩] ⟨1, 2, [3, -2]⟩ = some [some gx] ∧ ∃ D, HasDerivAt geluF D 1 ∧ |gx.val 1 - D * -2| ≤ 12e-6 * 2 := by
  obtain ⟨-, gx, h, -, k⟩ := gelu_backward_partial (x := ⟨1, 2, [0, 1]⟩) (gy := ⟨1, 2, [3, -2]⟩) rfl ⟨rfl, rfl, rfl⟩
  obtain ⟨D, hD, hb⟩ := k 1 (by simp)
  refine ⟨gx, h, D, by simpa [Dense.val] using hD, ?_⟩
  simp [Dense.val] at hb ⊢
  norm_num at hb ⊢
  linarith

end Verif.GradFn
