import Verif.Props.NetBatch
import Verif.Props.Optim

set_option autoImplicit false
set_option linter.unusedSimpArgs false

/-!
# C78: the strategies go downhill
-/

namespace Verif.Record
open GradFn Backward Tape Dense Optim
open scoped BigOperators Topology

/-! ## Any direction that agrees with the gradient in sign -/

/-- `w - t d`. -/
noncomputable def along (w : Dense ℝ) (d : Nat → ℝ) (t : ℝ) : Dense ℝ := ofVals w fun i => w.val i - d i * t

theorem along_curve {w : Dense ℝ} (h : w.WF) (d : Nat → ℝ) : Curve w (along w d) (fun i => -d i) := descend_curve h (some d)

variable {k : Nat} {w : Nat → Dense ℝ} {es : List Sample} {γ' : Nat → Option (Nat → ℝ)}
  {loss : Sample → (Nat → Dense ℝ) → Option (Dense ℝ)}

theorem batch_descends_along (hw : ∀ l < k, (w l).WF) (h : AllTrain k loss w es) (hl : Learn k w es (fun _ => none) γ')
    (d : Nat → Nat → ℝ) (hd : ∀ l < k, ∀ i < (w l).data.length, 0 ≤ gnum (γ' l) i * d l i)
    (hne : ∃ l < k, ∃ i < (w l).data.length, 0 < gnum (γ' l) i * d l i) :
    ∃ ε > 0, ∀ α, 0 < α → α < ε → ∀ τ : Nat → Dense ℝ, (∀ x < k, τ x = along (w x) (d x) α) →
      (∀ e ∈ es, (lossOf k loss e τ).isSome) ∧
      (es.map fun e => number (lossOf k loss e τ)).sum < (es.map fun e => number (lossOf k loss e w)).sum := by
  obtain ⟨l, hlk, i, hi, hne⟩ := hne
  obtain ⟨h1, h2⟩ := batch_gradient h hl (fun x t => along (w x) (d x) t) (fun x j => -d x j)
    (fun x hx => along_curve (hw x hx) _)
  obtain ⟨F, hF⟩ : ∃ F : ℝ → ℝ, F = fun t => (es.map fun e => number (lossOf k loss e fun x => along (w x) (d x) t)).sum :=
    ⟨_, rfl⟩
  have hcongr : ∀ e τ τ', (∀ x < k, τ x = τ' x) → lossOf k loss e τ = lossOf k loss e τ' := by
    intro e τ τ' hx
    unfold lossOf
    congr 1
    funext x
    unfold withParams
    split
    · rename_i hlt; exact hx x hlt
    · rfl
  have hF0 : F 0 = (es.map fun e => number (lossOf k loss e w)).sum := by
    rw [hF]
    refine congrArg List.sum (List.map_congr_left fun e _ => ?_)
    rw [hcongr e _ w fun x hx => (along_curve (hw x hx) _).start]
  have hneg : (∑ l ∈ Finset.range k, ∑ i ∈ Finset.range (w l).data.length,
      (gnum (γ' l) i - gnum (none : Option (Nat → ℝ)) i) * -d l i) < 0 := by
    have ht : ∀ x < k, ∀ j < (w x).data.length, (gnum (γ' x) j - gnum (none : Option (Nat → ℝ)) j) * -d x j ≤ 0 := by
      intro x hx j hj
      have : gnum (none : Option (Nat → ℝ)) j = 0 := rfl
      rw [this]; linarith [hd x hx j hj]
    refine Finset.sum_neg' (fun x hx => Finset.sum_nonpos fun j hj =>
      ht x (Finset.mem_range.mp hx) j (Finset.mem_range.mp hj)) ⟨l, Finset.mem_range.mpr hlk, ?_⟩
    refine Finset.sum_neg' (fun j hj => ht l hlk j (Finset.mem_range.mp hj)) ⟨i, Finset.mem_range.mpr hi, ?_⟩
    have : gnum (none : Option (Nat → ℝ)) i = 0 := rfl
    rw [this]; linarith
  have hslope := h2.tendsto_slope_zero_right
  have hev : ∀ᶠ t in 𝓝[>] (0 : ℝ), F t < F 0 := by
    filter_upwards [hslope.eventually (gt_mem_nhds hneg), self_mem_nhdsWithin] with t ht h0
    have h0 : 0 < t := h0
    simp only [zero_add, smul_eq_mul] at ht
    have := mul_neg_of_pos_of_neg h0 ht
    rw [mul_inv_cancel_left₀ h0.ne'] at this
    rw [hF]
    exact sub_neg.mp this
  have hboth := hev.and (h1.filter_mono nhdsWithin_le_nhds)
  rw [eventually_nhdsWithin_iff, Metric.eventually_nhds_iff] at hboth
  obtain ⟨ε, hε, hb⟩ := hboth
  refine ⟨ε, hε, fun α h0 hα τ hτ => ?_⟩
  obtain ⟨a, b⟩ := hb (y := α) (by simpa [abs_of_pos h0] using hα) h0
  constructor
  · intro e he
    rw [hcongr e τ _ hτ]; exact b e he
  · rw [← hF0]
    have : (es.map fun e => number (lossOf k loss e τ)).sum = F α := by
      rw [hF]
      exact congrArg List.sum (List.map_congr_left fun e _ => by rw [hcongr e τ _ hτ])
    rw [this]; exact a

/-- With the state `st`, the strategy of rate `α` moves a parameter `w` by `α` times a direction that has the sign of
the gradient, element by element. -/
def Downhill (opt : ℝ → Param → Option (Param × Bool)) (w : Dense ℝ) (st : PState) : Prop :=
  ∀ g : Nat → ℝ, ∃ d : Nat → ℝ, (∀ i < w.data.length, SignType.sign (d i) = SignType.sign (g i)) ∧
    ∀ α, 0 < α → ∃ st', opt α ⟨w, some (ofVals w g), st⟩ = some (⟨ofVals w fun i => w.val i - α * d i, none, st'⟩, false)

theorem sign_mul_nonneg {a b : ℝ} (h : SignType.sign b = SignType.sign a) : 0 ≤ a * b ∧ (a ≠ 0 → 0 < a * b) := by
  rcases lt_trichotomy a 0 with ha | rfl | ha
  · rw [sign_neg ha] at h
    have hb := sign_eq_neg_one_iff.mp h
    exact ⟨(mul_pos_of_neg_of_neg ha hb).le, fun _ => mul_pos_of_neg_of_neg ha hb⟩
  · simp
  · rw [sign_pos ha] at h
    have hb := sign_eq_one_iff.mp h
    exact ⟨(mul_pos ha hb).le, fun _ => mul_pos ha hb⟩

theorem sign_pos_mul {a c : ℝ} (h : 0 < c) : SignType.sign (c * a) = SignType.sign a := by
  rw [sign_mul, sign_pos h, one_mul]

/-- **C78, one step.** If the gradients of a loop over samples are not all zero and the strategy goes downhill, one step
with a small enough rate makes the sum of the losses smaller. -/
theorem downhill_descends {opt : ℝ → Param → Option (Param × Bool)} {st : Nat → PState} (hw : ∀ l < k, (w l).WF)
    (hopt : ∀ l < k, Downhill opt (w l) (st l)) (h : AllTrain k loss w es)
    (hl : Learn k w es (fun _ => none) γ') (hne : ∃ l < k, ∃ i < (w l).data.length, gnum (γ' l) i ≠ 0) :
    ∃ ε > 0, ∀ α, 0 < α → α < ε →
      (∃ p' : Nat → Param, ∀ x < k, Updates (opt α) ⟨w x, none, st x⟩ (γ' x) (p' x)) ∧
      ∀ p' : Nat → Param, (∀ x < k, Updates (opt α) ⟨w x, none, st x⟩ (γ' x) (p' x)) →
      (∀ e ∈ es, (lossOf k loss e fun x => (p' x).value).isSome) ∧
      (es.map fun e => number (lossOf k loss e fun x => (p' x).value)).sum <
        (es.map fun e => number (lossOf k loss e w)).sum := by
  have hex : ∀ x, ∃ d : Nat → ℝ, x < k → (∀ i < (w x).data.length, SignType.sign (d i) = SignType.sign (gnum (γ' x) i)) ∧
      ∀ α, 0 < α → (∃ p', Updates (opt α) ⟨w x, none, st x⟩ (γ' x) p') ∧
        ∀ p', Updates (opt α) ⟨w x, none, st x⟩ (γ' x) p' → p'.value = along (w x) d α := by
    intro x
    by_cases hx : x < k
    · cases hg : γ' x with
      | none =>
        refine ⟨fun _ => 0, fun _ => ⟨fun i _ => by simp [gnum], fun α _ => ⟨⟨_, rfl⟩, fun p' hp => ?_⟩⟩⟩
        obtain rfl : p' = _ := hp
        simp only [along, zero_mul, sub_zero]
        exact (ofVals_self _).symm
      | some g =>
        obtain ⟨d, hd, hs⟩ := hopt x hx g
        refine ⟨d, fun _ => ⟨hd, fun α hα => ?_⟩⟩
        obtain ⟨st', hst⟩ := hs α hα
        refine ⟨⟨_, hst⟩, fun p' hp => ?_⟩
        have hp : opt α ⟨w x, some (ofVals (w x) g), st x⟩ = some (p', false) := hp
        rw [hst] at hp
        simp only [Option.some.injEq, Prod.mk.injEq, and_true] at hp
        rw [← hp]
        simp only [along, mul_comm]
    · exact ⟨fun _ => 0, fun h => absurd h hx⟩
  choose d hd using hex
  obtain ⟨l, hlk, i, hi, hne⟩ := hne
  obtain ⟨ε, hε, hall⟩ := batch_descends_along hw h hl d (fun l hlk i hi => (sign_mul_nonneg ((hd l hlk).1 i hi)).1)
    ⟨l, hlk, i, hi, (sign_mul_nonneg ((hd l hlk).1 i hi)).2 hne⟩
  refine ⟨ε, hε, fun α h0 hα => ⟨?_, fun p' hp => hall α h0 hα _ fun x hx => ((hd x hx).2 α h0).2 _ (hp x hx)⟩⟩
  have : ∀ x, ∃ p', x < k → Updates (opt α) ⟨w x, none, st x⟩ (γ' x) p' := by
    intro x
    by_cases hx : x < k
    · obtain ⟨p', hp⟩ := ((hd x hx).2 α h0).1; exact ⟨p', fun _ => hp⟩
    · exact ⟨⟨w x, none, st x⟩, fun h => absurd h hx⟩
  choose p' hp using this
  exact ⟨p', fun x hx => hp x hx⟩

/-! ## The six strategies -/

theorem ofVals_grid {w : Dense ℝ} (h : w.WF) (v : Nat → ℝ) : ofVals w v = grid w.rows w.cols v := by
  have hl : w.data.length = w.rows * w.cols := h
  simp only [ofVals, grid, hl]

theorem downhill_grid {opt : ℝ → Param → Option (Param × Bool)} {w : Dense ℝ} {st : PState} (hw : w.WF)
    (h : ∀ u g : Nat → ℝ, ∃ d : Nat → ℝ, (∀ i < w.rows * w.cols, SignType.sign (d i) = SignType.sign (g i)) ∧
      ∀ α, 0 < α → ∃ st', opt α ⟨grid w.rows w.cols u, some (grid w.rows w.cols g), st⟩ =
        some (⟨grid w.rows w.cols fun i => u i - d i * α, none, st'⟩, false)) : Downhill opt w st := by
  intro g
  obtain ⟨d, hd, hs⟩ := h w.val g
  have hl : w.data.length = w.rows * w.cols := hw
  refine ⟨d, fun i hi => hd i (hl ▸ hi), fun α hα => ?_⟩
  obtain ⟨st', hst⟩ := hs α hα
  refine ⟨st', ?_⟩
  rw [← eq_grid hw] at hst
  simp only [ofVals_grid hw, hst, mul_comm]

/-- SGD, with any momentum, with and without Nesterov's rule, for a parameter not optimised before. -/
theorem sgd_downhill {μ : ℝ} (hμ : 0 ≤ μ) (nesterov : Bool) {w : Dense ℝ} (hw : w.WF) :
    Downhill (fun α => sgdOptimize ⟨α, μ, nesterov⟩) w .nil := by
  refine downhill_grid hw fun u g => ?_
  by_cases h0 : μ = 0
  · refine ⟨g, fun i _ => rfl, fun α _ => ⟨.sgd ⟨grid w.rows w.cols fun i => g i * α⟩, ?_⟩⟩
    simp only [sgdOptimize, optimizeParams, sgdCalc, h0, if_true, grid_map, grid_zipOp, Option.bind_eq_bind,
      Option.bind_some]
  · cases nesterov with
    | false =>
      refine ⟨g, fun i _ => rfl, fun α _ => ⟨.sgd ⟨grid w.rows w.cols fun i => 0 * μ + g i * α⟩, ?_⟩⟩
      simp only [sgdOptimize, optimizeParams, sgdCalc, h0, if_false, grid_map, grid_zipOp, Option.bind_eq_bind,
        Option.bind_some, grid_zeros, grid_rows, grid_cols, Bool.false_eq_true, zero_mul, zero_add]
    | true =>
      refine ⟨fun i => (1 + μ) * g i, fun i _ => sign_pos_mul (by linarith), fun α _ =>
        ⟨.sgd ⟨grid w.rows w.cols fun i => 0 * μ + g i * α⟩, ?_⟩⟩
      simp only [sgdOptimize, optimizeParams, sgdCalc, h0, if_false, if_true, grid_map, grid_zipOp, Option.bind_eq_bind,
        Option.bind_some, grid_zeros, grid_rows, grid_cols, zero_mul, zero_add, sub_zero]
      simp only [Option.some.injEq, Prod.mk.injEq, Param.mk.injEq, and_true, true_and]
      exact grid_congr fun i _ => by ring

/-- Without momentum SGD never looks at its state. -/
theorem sgd_plain_downhill (nesterov : Bool) {w : Dense ℝ} (hw : w.WF) (V : Dense ℝ) :
    Downhill (fun α => sgdOptimize ⟨α, 0, nesterov⟩) w (.sgd ⟨V⟩) := by
  refine downhill_grid hw fun u g => ?_
  refine ⟨g, fun i _ => rfl, fun α _ => ⟨.sgd ⟨grid w.rows w.cols fun i => g i * α⟩, ?_⟩⟩
  simp only [sgdOptimize, optimizeParams, sgdCalc, if_true, grid_map, grid_zipOp, Option.bind_eq_bind, Option.bind_some]

theorem sign_div_pos {a c : ℝ} (h : 0 < c) : SignType.sign (a / c) = SignType.sign a := by
  rw [div_eq_inv_mul]; exact sign_pos_mul (inv_pos.mpr h)

/-- A matrix of the shape of `w` without negative elements. -/
structure Squares (w M : Dense ℝ) : Prop where
  wf : M.WF
  rows : M.rows = w.rows
  cols : M.cols = w.cols
  nonneg : ∀ i < M.data.length, 0 ≤ M.val i

theorem Squares.zeros (w : Dense ℝ) : Squares w (zeros w.rows w.cols) := by
  rw [grid_zeros]
  exact ⟨grid_WF _ _ _, rfl, rfl, fun i hi => by rw [grid_val _ (by simpa using hi)]⟩

theorem Squares.eq {w M : Dense ℝ} (h : Squares w M) : M = grid w.rows w.cols M.val := by
  rw [← h.rows, ← h.cols]; exact eq_grid h.wf

theorem Squares.of_grid {w : Dense ℝ} {v : Nat → ℝ} (h : ∀ i < w.rows * w.cols, 0 ≤ v i) :
    Squares w (grid w.rows w.cols v) :=
  ⟨grid_WF _ _ _, rfl, rfl, fun i hi => by rw [grid_length] at hi; rw [grid_val _ hi]; exact h i hi⟩

theorem Squares.val_nonneg {w M : Dense ℝ} (h : Squares w M) {i : Nat} (hi : i < w.rows * w.cols) : 0 ≤ M.val i :=
  h.nonneg i (by
    have h1 : M.data.length = M.rows * M.cols := h.wf
    rw [h1, h.rows, h.cols]; exact hi)

/-- The states AdaGrad gives to a parameter. -/
def AdaGradKnows (w : Dense ℝ) (st : PState) : Prop := st = .nil ∨ ∃ M, st = .adagrad ⟨M⟩ ∧ Squares w M

/-- AdaGrad, at every step: after every step the state is of this kind again. -/
theorem adaGrad_downhill {ε : ℝ} (hε : 0 < ε) {w : Dense ℝ} (hw : w.WF) {st : PState} (hst : AdaGradKnows w st) :
    Downhill (fun α => adaGradOptimize ⟨α, ε⟩) w st ∧
    ∀ α g p b, adaGradOptimize ⟨α, ε⟩ ⟨w, some (ofVals w g), st⟩ = some (p, b) →
      p.value.WF ∧ AdaGradKnows p.value p.state := by
  obtain ⟨m, hm, hopt⟩ : ∃ m : Nat → ℝ, (∀ i < w.rows * w.cols, 0 ≤ m i) ∧ ∀ (α : ℝ) (u g : Nat → ℝ),
      adaGradOptimize ⟨α, ε⟩ ⟨grid w.rows w.cols u, some (grid w.rows w.cols g), st⟩ =
        some (⟨grid w.rows w.cols fun i => u i - g i / (Real.sqrt (m i + g i * g i) + ε) * α, none,
          .adagrad ⟨grid w.rows w.cols fun i => m i + g i * g i⟩⟩, false) := by
    rcases hst with rfl | ⟨M, rfl, hM⟩
    · refine ⟨fun _ => 0, fun _ _ => le_rfl, fun α u g => ?_⟩
      simp only [adaGradOptimize, optimizeParams, adaGradCalc, grid_map, grid_zipOp, Option.bind_eq_bind,
        Option.bind_some, grid_zeros, grid_rows, grid_cols]
    · refine ⟨M.val, fun i hi => hM.val_nonneg hi, fun α u g => ?_⟩
      rw [hM.eq]
      simp only [adaGradOptimize, optimizeParams, adaGradCalc, grid_map, grid_zipOp, Option.bind_eq_bind,
        Option.bind_some, grid_zeros, grid_rows, grid_cols]
      simp only [Option.some.injEq, Prod.mk.injEq, Param.mk.injEq, PState.adagrad.injEq, AdaGradState.mk.injEq,
        and_true, true_and]
      exact ⟨grid_congr fun i hi => by rw [grid_val _ hi], grid_congr fun i hi => by rw [grid_val _ hi]⟩
  constructor
  · refine downhill_grid hw fun u g => ⟨fun i => g i / (Real.sqrt (m i + g i * g i) + ε), fun i _ => ?_,
      fun α _ => ⟨_, hopt α u g⟩⟩
    exact sign_div_pos (by positivity)
  · intro α g p b h
    rw [ofVals_grid hw] at h
    conv at h => lhs; rw [eq_grid hw]
    simp only [grid_rows, grid_cols] at h
    rw [hopt] at h
    simp only [Option.some.injEq, Prod.mk.injEq] at h
    rw [← h.1]
    exact ⟨grid_WF _ _ _, .inr ⟨_, rfl, Squares.of_grid (w := grid _ _ _) fun i hi => add_nonneg (hm i hi) (mul_self_nonneg _)⟩⟩

/-- The states RMSProp gives to a parameter. -/
def RMSPropKnows (w : Dense ℝ) (st : PState) : Prop := st = .nil ∨ ∃ V, st = .rmsprop ⟨V⟩ ∧ Squares w V

/-- RMSProp, at every step: after every step the state is of this kind again. -/
theorem rmsProp_downhill {ε δ : ℝ} (hε : 0 < ε) (h0 : 0 ≤ δ) (h1 : δ ≤ 1) {w : Dense ℝ} (hw : w.WF) {st : PState}
    (hst : RMSPropKnows w st) :
    Downhill (fun α => rmsPropOptimize ⟨α, ε, δ⟩) w st ∧
    ∀ α g p b, rmsPropOptimize ⟨α, ε, δ⟩ ⟨w, some (ofVals w g), st⟩ = some (p, b) →
      p.value.WF ∧ RMSPropKnows p.value p.state := by
  obtain ⟨m, hm, hopt⟩ : ∃ m : Nat → ℝ, (∀ i < w.rows * w.cols, 0 ≤ m i) ∧ ∀ (α : ℝ) (u g : Nat → ℝ),
      rmsPropOptimize ⟨α, ε, δ⟩ ⟨grid w.rows w.cols u, some (grid w.rows w.cols g), st⟩ =
        some (⟨grid w.rows w.cols fun i => u i - g i / (Real.sqrt (m i * δ + g i * g i * (1 - δ)) + ε) * α, none,
          .rmsprop ⟨grid w.rows w.cols fun i => m i * δ + g i * g i * (1 - δ)⟩⟩, false) := by
    rcases hst with rfl | ⟨M, rfl, hM⟩
    · refine ⟨fun _ => 0, fun _ _ => le_rfl, fun α u g => ?_⟩
      simp only [rmsPropOptimize, optimizeParams, rmsPropCalc, grid_map, grid_zipOp, Option.bind_eq_bind,
        Option.bind_some, grid_zeros, grid_rows, grid_cols]
    · refine ⟨M.val, fun i hi => hM.val_nonneg hi, fun α u g => ?_⟩
      rw [hM.eq]
      simp only [rmsPropOptimize, optimizeParams, rmsPropCalc, grid_map, grid_zipOp, Option.bind_eq_bind,
        Option.bind_some, grid_zeros, grid_rows, grid_cols]
      simp only [Option.some.injEq, Prod.mk.injEq, Param.mk.injEq, PState.rmsprop.injEq, RMSPropState.mk.injEq,
        and_true, true_and]
      exact ⟨grid_congr fun i hi => by rw [grid_val _ hi], grid_congr fun i hi => by rw [grid_val _ hi]⟩
  constructor
  · refine downhill_grid hw fun u g => ⟨fun i => g i / (Real.sqrt (m i * δ + g i * g i * (1 - δ)) + ε), fun i _ => ?_,
      fun α _ => ⟨_, hopt α u g⟩⟩
    exact sign_div_pos (by positivity)
  · intro α g p b h
    rw [ofVals_grid hw] at h
    conv at h => lhs; rw [eq_grid hw]
    simp only [grid_rows, grid_cols] at h
    rw [hopt] at h
    simp only [Option.some.injEq, Prod.mk.injEq] at h
    rw [← h.1]
    exact ⟨grid_WF _ _ _, .inr ⟨_, rfl, Squares.of_grid (w := grid _ _ _) fun i hi =>
      add_nonneg (mul_nonneg (hm i hi) h0) (mul_nonneg (mul_self_nonneg _) (by linarith))⟩⟩

/-- Adam without weight decay, for a parameter not optimised before. -/
theorem adam_downhill {β₁ β₂ ε : ℝ} (h1 : β₁ < 1) (h2 : β₂ < 1) (hε : 0 < ε) {w : Dense ℝ} (hw : w.WF) :
    Downhill (fun α => adamOptimize (Adam.new ⟨α, β₁, β₂, ε, 0⟩)) w .nil := by
  refine downhill_grid hw fun u g => ⟨fun i => Real.sqrt (1 - β₂) / (1 - β₁) *
    (g i * (1 - β₁) / (Real.sqrt (g i * g i * (1 - β₂)) + ε)), fun i _ => ?_, fun α _ =>
    ⟨.adam ⟨grid w.rows w.cols fun i => g i * (1 - β₁), grid w.rows w.cols fun i => g i * g i * (1 - β₂)⟩, ?_⟩⟩
  · have a : 0 < 1 - β₁ := by linarith
    have b : 0 < Real.sqrt (1 - β₂) := Real.sqrt_pos.mpr (by linarith)
    beta_reduce
    rw [sign_pos_mul (by positivity), sign_div_pos (by positivity), mul_comm, sign_pos_mul a]
  · simp only [adamOptimize, optimizeParams, adamCalc, adamUpdateV, adamUpdateM, grid_map, grid_zipOp,
        Option.bind_eq_bind, Option.bind_some, adam_new, adamAt, ne_eq, not_true_eq_false, if_false, grid_zeros,
        grid_rows, grid_cols, zero_mul, zero_add, adamAlpha, pow_one]
    simp only [Option.some.injEq, Prod.mk.injEq, Param.mk.injEq, and_true, true_and]
    exact grid_congr fun i _ => by ring

/-- RAdam, for a parameter not optimised before and at time step 1. -/
theorem radam_downhill {β₁ β₂ ε : ℝ} (h1 : β₁ < 1) (h20 : 0 ≤ β₂) (h2 : β₂ < 1) (hε : 0 < ε) {w : Dense ℝ} (hw : w.WF) :
    Downhill (fun α => radamOptimize (RAdam.new ⟨α, β₁, β₂, ε⟩)) w .nil := by
  have hb : 0 < 1 - β₂ := by linarith
  have b : 0 < Real.sqrt (1 - β₂) := Real.sqrt_pos.mpr hb
  have hro : ∀ α, ¬ (RAdam.new ⟨α, β₁, β₂, ε⟩).ro > 4 := by
    intro α
    simp only [RAdam.ro, RAdam.new, pow_one, Nat.cast_one]
    have : 2 / (1 - β₂) - 1 - 2 * 1 * β₂ / (1 - β₂) = 1 := by field_simp; ring
    rw [this]; norm_num
  refine downhill_grid hw fun u g => ⟨fun i => Real.sqrt (1 - β₂) / (1 - β₁) *
    (g i * (1 - β₁) / (Real.sqrt (g i * g i * (1 - β₂)) + ε * Real.sqrt (1 - β₂))), fun i _ => ?_, fun α _ =>
    ⟨.radam ⟨grid w.rows w.cols fun i => g i * (1 - β₁), grid w.rows w.cols fun i => g i * g i * (1 - β₂)⟩, ?_⟩⟩
  · have a : 0 < 1 - β₁ := by linarith
    beta_reduce
    rw [sign_pos_mul (by positivity), sign_div_pos (by positivity), mul_comm, sign_pos_mul a]
  · have hrect : (RAdam.new ⟨α, β₁, β₂, ε⟩).rect = 1 := if_neg (hro α)
    simp only [radamOptimize, optimizeParams, radamCalc, grid_map, grid_zipOp,
        Option.bind_eq_bind, Option.bind_some, grid_zeros, RAdam.calcAlpha, hrect,
        grid_rows, grid_cols, zero_mul, zero_add]
    simp only [RAdam.new, pow_one]
    simp only [Option.some.injEq, Prod.mk.injEq, Param.mk.injEq, and_true, true_and]
    exact grid_congr fun i _ => by ring

theorem norm2_nonneg (n : Nat) (v : Nat → ℝ) : 0 ≤ OptimSpec.norm2 n v := by
  unfold OptimSpec.norm2; exact Real.sqrt_nonneg _

theorem trustRatio_pos {a b : ℝ} (ha : 0 ≤ a) (hb : 0 ≤ b) : 0 < trustRatio a b := by
  unfold trustRatio
  split
  · exact one_pos
  · rename_i h
    push Not at h
    exact div_pos (lt_of_le_of_ne ha h.1.symm) (lt_of_le_of_ne hb h.2.symm)

/-- LAMB without weight decay, for a parameter not optimised before. -/
theorem lamb_downhill {β₁ β₂ ε : ℝ} (h1 : β₁ < 1) (h2 : β₂ < 1) (hε : 0 < ε) {w : Dense ℝ} (hw : w.WF) :
    Downhill (fun α => lambOptimize (Lamb.new ⟨α, β₁, β₂, ε, 0⟩)) w .nil := by
  refine downhill_grid hw fun u g => ⟨fun i => Real.sqrt (1 - β₂) / (1 - β₁) *
    trustRatio (OptimSpec.norm2 (w.rows * w.cols) u)
      (OptimSpec.norm2 (w.rows * w.cols) fun i => g i * (1 - β₁) / (Real.sqrt (g i * g i * (1 - β₂)) + ε)) *
    (g i * (1 - β₁) / (Real.sqrt (g i * g i * (1 - β₂)) + ε)), fun i _ => ?_, fun α _ =>
    ⟨.lamb ⟨grid w.rows w.cols fun i => g i * (1 - β₁), grid w.rows w.cols fun i => g i * g i * (1 - β₂)⟩, ?_⟩⟩
  · have a : 0 < 1 - β₁ := by linarith
    have b : 0 < Real.sqrt (1 - β₂) := Real.sqrt_pos.mpr (by linarith)
    have c := trustRatio_pos (norm2_nonneg (w.rows * w.cols) u)
      (norm2_nonneg (w.rows * w.cols) fun i => g i * (1 - β₁) / (Real.sqrt (g i * g i * (1 - β₂)) + ε))
    beta_reduce
    rw [sign_pos_mul (by positivity), sign_div_pos (by positivity), mul_comm, sign_pos_mul a]
  · simp only [lambOptimize, optimizeParams, lambCalc, grid_map, grid_zipOp, norm_grid,
        Option.bind_eq_bind, Option.bind_some, Lamb.new, Lamb.incExample, ne_eq, not_true_eq_false, if_false, grid_zeros,
        grid_rows, grid_cols, zero_mul, zero_add, pow_one]
    simp only [Option.some.injEq, Prod.mk.injEq, Param.mk.injEq, and_true, true_and]
    exact grid_congr fun i _ => by ring

/-! ## Descent of all strategies -/

/-- A strategy with its settings, apart from the rate. -/
inductive Strategy
  | sgd (μ : ℝ) (nesterov : Bool)
  | adaGrad (ε : ℝ)
  | rmsProp (ε decay : ℝ)
  | adam (β₁ β₂ ε : ℝ)
  | radam (β₁ β₂ ε : ℝ)
  | lamb (β₁ β₂ ε : ℝ)

/-- The strategy made by `New` with the rate `α` and no weight decay. -/
noncomputable def Strategy.make : Strategy → ℝ → Param → Option (Param × Bool)
  | .sgd μ n, α => sgdOptimize ⟨α, μ, n⟩
  | .adaGrad ε, α => adaGradOptimize ⟨α, ε⟩
  | .rmsProp ε d, α => rmsPropOptimize ⟨α, ε, d⟩
  | .adam b c ε, α => adamOptimize (Adam.new ⟨α, b, c, ε, 0⟩)
  | .radam b c ε, α => radamOptimize (RAdam.new ⟨α, b, c, ε⟩)
  | .lamb b c ε, α => lambOptimize (Lamb.new ⟨α, b, c, ε, 0⟩)

/-- The settings `NewConfig` accepts, with a positive epsilon. -/
def Strategy.Sound : Strategy → Prop
  | .sgd μ _ => 0 ≤ μ
  | .adaGrad ε => 0 < ε
  | .rmsProp ε d => 0 < ε ∧ 0 ≤ d ∧ d ≤ 1
  | .adam b c ε | .radam b c ε | .lamb b c ε => 0 ≤ b ∧ b < 1 ∧ 0 ≤ c ∧ c < 1 ∧ 0 < ε

theorem make_downhill {S : Strategy} (hS : S.Sound) {w : Dense ℝ} (hw : w.WF) : Downhill S.make w .nil := by
  cases S with
  | sgd μ n => exact sgd_downhill hS n hw
  | adaGrad ε => exact (adaGrad_downhill hS hw (.inl rfl)).1
  | rmsProp ε d => exact (rmsProp_downhill hS.1 hS.2.1 hS.2.2 hw (.inl rfl)).1
  | adam b c ε => exact adam_downhill hS.2.1 hS.2.2.2.1 hS.2.2.2.2 hw
  | radam b c ε => exact radam_downhill hS.2.1 hS.2.2.1 hS.2.2.2.1 hS.2.2.2.2 hw
  | lamb b c ε => exact lamb_downhill hS.2.1 hS.2.2.2.1 hS.2.2.2.2 hw

/-- **C78, the first step.** Parameters not optimised before, any batch of samples, any of the six strategies: if the
gradients are not all zero, the first step with a small enough rate is made without error and makes the sum of the losses
smaller. -/
theorem first_step_descends {S : Strategy} (hS : S.Sound) (hw : ∀ l < k, (w l).WF) (h : AllTrain k loss w es)
    (hl : Learn k w es (fun _ => none) γ') (hne : ∃ l < k, ∃ i < (w l).data.length, gnum (γ' l) i ≠ 0) :
    ∃ ε > 0, ∀ α, 0 < α → α < ε →
      (∃ p' : Nat → Param, ∀ x < k, Updates (S.make α) ⟨w x, none, .nil⟩ (γ' x) (p' x)) ∧
      ∀ p' : Nat → Param, (∀ x < k, Updates (S.make α) ⟨w x, none, .nil⟩ (γ' x) (p' x)) →
      (∀ e ∈ es, (lossOf k loss e fun x => (p' x).value).isSome) ∧
      (es.map fun e => number (lossOf k loss e fun x => (p' x).value)).sum <
        (es.map fun e => number (lossOf k loss e w)).sum :=
  downhill_descends (st := fun _ => .nil) hw (fun l hlk => make_downhill hS (hw l hlk)) h hl hne

/-- **C78, networks.** The first step of every strategy on every network of layers and every batch of sequences. -/
theorem net_first_step_descends {i o : Nat} (N : Net i o) (mean : Bool) {S : Strategy} (hS : S.Sound) {w : Nat → Dense ℝ}
    (hsz : 0 < N.size) (hw : ∀ x < N.size, (w x).WF) (hf : N.Fits w 0) {batch : List Series} (hb : ∀ q ∈ batch, q.Ok N w)
    {γ : Nat → Option (Nat → ℝ)} (hl : Learn N.size w (batch.map (·.sample N mean)) (fun _ => none) γ)
    (hne : ∃ l < N.size, ∃ j < (w l).data.length, gnum (γ l) j ≠ 0) :
    ∃ ε > 0, ∀ α, 0 < α → α < ε →
      (∃ p' : Nat → Param, ∀ x < N.size, Updates (S.make α) ⟨w x, none, .nil⟩ (γ x) (p' x)) ∧
      ∀ p' : Nat → Param, (∀ x < N.size, Updates (S.make α) ⟨w x, none, .nil⟩ (γ x) (p' x)) →
      (batch.map fun q => q.error N mean fun x => (p' x).value).sum < (batch.map fun q => q.error N mean w).sum := by
  obtain ⟨ε, h0, h⟩ := first_step_descends hS hw (series_trains N mean hsz hw hf hb) hl hne
  refine ⟨ε, h0, fun α ha hα => ⟨(h α ha hα).1, fun p' hp => ?_⟩⟩
  have := ((h α ha hα).2 p' hp).2
  simpa only [List.map_map, Function.comp_def, series_error] using this

/-- The hypotheses can be met: Adam with its default settings on a linear layer and two sequences. -/
example : ∃ ε > 0, ∀ α, 0 < α → α < ε → ∃ γ : Nat → Option (Nat → ℝ), ∃ p' : Nat → Param,
    (∀ x < 2, Updates (adamOptimize (Adam.new ⟨α, 0.9, 0.999, 1e-8, 0⟩)) ⟨scalar 0, none, .nil⟩ (γ x) (p' x)) ∧
    ([(⟨1, fun _ => scalar 1, fun _ => scalar 2⟩ : Series), ⟨2, fun _ => scalar 1, fun _ => scalar 3⟩].map
      fun q => q.error (.linear 1 1) false fun x => (p' x).value).sum <
    ([(⟨1, fun _ => scalar 1, fun _ => scalar 2⟩ : Series), ⟨2, fun _ => scalar 1, fun _ => scalar 3⟩].map
      fun q => q.error (.linear 1 1) false fun _ => scalar 0).sum := by
  obtain ⟨γ, hl, h8⟩ := two_sequences
  obtain ⟨ε, h0, h⟩ := net_first_step_descends (.linear 1 1) false (S := .adam 0.9 0.999 1e-8)
    (by norm_num [Strategy.Sound]) (w := fun _ => scalar (0 : ℝ)) (by simp [Net.size])
    (fun _ _ => rfl) ⟨⟨rfl, rfl⟩, rfl, rfl⟩
    (batch := [⟨1, fun _ => scalar 1, fun _ => scalar 2⟩, ⟨2, fun _ => scalar 1, fun _ => scalar 3⟩]) (by
      intro q hq
      simp only [List.mem_cons, List.not_mem_nil, or_false] at hq
      rcases hq with rfl | rfl <;>
        exact ⟨by simp, fun _ _ => ⟨rfl, rfl, rfl⟩, fun _ _ => ⟨rfl, rfl, rfl⟩, trivial⟩)
    (γ := γ) hl ⟨1, by simp [Net.size], 0, by simp [scalar], by rw [h8]; norm_num⟩
  refine ⟨ε, h0, fun α ha hα => ?_⟩
  obtain ⟨⟨p', hp⟩, hall⟩ := h α ha hα
  exact ⟨γ, p', hp, hall p' hp⟩

theorem epochs_keep {strategy : Param → Option (Param × Bool)} {Ok : Dense ℝ → PState → Prop}
    (hs : ∀ (w : Dense ℝ) st, w.WF → Ok w st → ∀ g p b, strategy ⟨w, some (ofVals w g), st⟩ = some (p, b) →
      p.value.WF ∧ Ok p.value p.state) {n : Nat} {p q : Nat → Param} (h : Epochs strategy k es n p q)
    (hp : ∀ x < k, (p x).value.WF ∧ Ok (p x).value (p x).state) :
    ∀ x < k, (q x).value.WF ∧ Ok (q x).value (q x).state := by
  induction h with
  | zero => exact hp
  | @succ n p q r _ hE ih =>
    obtain ⟨γ, -, hu⟩ := hE
    intro x hx
    have hu := hu x hx
    cases hg : γ x with
    | none =>
      rw [hg] at hu
      have hu : r x = q x := hu
      rw [hu]; exact ih hp x hx
    | some g =>
      rw [hg] at hu
      exact hs _ _ (ih hp x hx).1 (ih hp x hx).2 g _ _ hu

/-- **C78, AdaGrad at every step.** However many epochs have passed, with whatever rate, the next epoch with a small
enough rate makes the sum of the losses smaller, unless all gradients are zero. -/
theorem adaGrad_every_step_descends {ε α₀ : ℝ} (hε : 0 < ε) {n : Nat} {p q : Nat → Param} {γ : Nat → Option (Nat → ℝ)}
    (hp : ∀ x < k, (p x).value.WF ∧ (p x).state = .nil) (hep : Epochs (adaGradOptimize ⟨α₀, ε⟩) k es n p q)
    (h : AllTrain k loss (fun x => (q x).value) es) (hl : Learn k (fun x => (q x).value) es (fun _ => none) γ)
    (hne : ∃ l < k, ∃ i < (q l).value.data.length, gnum (γ l) i ≠ 0) :
    ∃ η > 0, ∀ α, 0 < α → α < η → ∀ r : Nat → Param,
      (∀ x < k, Updates (adaGradOptimize ⟨α, ε⟩) ⟨(q x).value, none, (q x).state⟩ (γ x) (r x)) →
      (es.map fun e => number (lossOf k loss e fun x => (r x).value)).sum <
        (es.map fun e => number (lossOf k loss e fun x => (q x).value)).sum := by
  have hq := epochs_keep (Ok := AdaGradKnows) (fun w st hw hk g p b => (adaGrad_downhill hε hw hk).2 α₀ g p b) hep
    fun x hx => ⟨(hp x hx).1, .inl (hp x hx).2⟩
  obtain ⟨η, h0, hall⟩ := downhill_descends (st := fun x => (q x).state) (fun l hlk => (hq l hlk).1)
    (fun l hlk => (adaGrad_downhill hε (hq l hlk).1 (hq l hlk).2).1) h hl hne
  exact ⟨η, h0, fun α ha hα r hr => ((hall α ha hα).2 r hr).2⟩

/-- **C78, RMSProp at every step.** -/
theorem rmsProp_every_step_descends {ε δ α₀ : ℝ} (hε : 0 < ε) (hδ : 0 ≤ δ) (hδ' : δ ≤ 1) {n : Nat} {p q : Nat → Param}
    {γ : Nat → Option (Nat → ℝ)}
    (hp : ∀ x < k, (p x).value.WF ∧ (p x).state = .nil) (hep : Epochs (rmsPropOptimize ⟨α₀, ε, δ⟩) k es n p q)
    (h : AllTrain k loss (fun x => (q x).value) es) (hl : Learn k (fun x => (q x).value) es (fun _ => none) γ)
    (hne : ∃ l < k, ∃ i < (q l).value.data.length, gnum (γ l) i ≠ 0) :
    ∃ η > 0, ∀ α, 0 < α → α < η → ∀ r : Nat → Param,
      (∀ x < k, Updates (rmsPropOptimize ⟨α, ε, δ⟩) ⟨(q x).value, none, (q x).state⟩ (γ x) (r x)) →
      (es.map fun e => number (lossOf k loss e fun x => (r x).value)).sum <
        (es.map fun e => number (lossOf k loss e fun x => (q x).value)).sum := by
  have hq := epochs_keep (Ok := RMSPropKnows) (fun w st hw hk g p b => (rmsProp_downhill hε hδ hδ' hw hk).2 α₀ g p b) hep
    fun x hx => ⟨(hp x hx).1, .inl (hp x hx).2⟩
  obtain ⟨η, h0, hall⟩ := downhill_descends (st := fun x => (q x).state) (fun l hlk => (hq l hlk).1)
    (fun l hlk => (rmsProp_downhill hε hδ hδ' (hq l hlk).1 (hq l hlk).2).1) h hl hne
  exact ⟨η, h0, fun α ha hα r hr => ((hall α ha hα).2 r hr).2⟩

/-! ## What cannot be had -/

/-- With momentum the second step may go uphill: after a gradient `a > 0`, a small gradient of the other sign does not
turn Adam round, whatever the rates. -/
theorem adam_second_step_uphill {β₁ β₂ ε : ℝ} (h10 : 0 < β₁) (h1 : β₁ < 1) (h20 : 0 ≤ β₂) (h2 : β₂ < 1) (hε : 0 < ε)
    (u a α₀ : ℝ) (ha : 0 < a) :
    ∃ p, adamOptimize (Adam.new ⟨α₀, β₁, β₂, ε, 0⟩) ⟨scalar u, some (scalar a), .nil⟩ = some (p, false) ∧
      ∀ b, 0 < b → b < β₁ * a → ∀ α, 0 < α → ∃ d > 0,
        ∃ p', adamOptimize (Adam.new ⟨α, β₁, β₂, ε, 0⟩) ⟨p.value, some (scalar (-b)), p.state⟩ = some (p', false) ∧
          p'.value = scalar (p.value.val 0 - d) := by
  have hs : ∀ x : ℝ, scalar x = grid 1 1 fun _ => x := fun x => rfl
  refine ⟨_, by
    simp only [hs, adamOptimize, optimizeParams, adamCalc, adamUpdateV, adamUpdateM, grid_map, grid_zipOp,
        Option.bind_eq_bind, Option.bind_some, adam_new, adamAt, ne_eq, not_true_eq_false, if_false, grid_zeros,
        grid_rows, grid_cols, adamAlpha, pow_one]
    rfl, fun b hb hba α hα =>
    ⟨((0 * β₁ + a * (1 - β₁)) * β₁ + -b * (1 - β₁)) / (Real.sqrt ((0 * β₂ + a * a * (1 - β₂)) * β₂ + -b * -b * (1 - β₂)) + ε) *
      (α * Real.sqrt (1 - β₂) / (1 - β₁)), ?_, _, by
    simp only [hs, adamOptimize, optimizeParams, adamCalc, adamUpdateV, adamUpdateM, grid_map, grid_zipOp,
        Option.bind_eq_bind, Option.bind_some, adam_new, adamAt, ne_eq, not_true_eq_false, if_false, grid_zeros,
        grid_rows, grid_cols, adamAlpha, pow_one]
    rfl, ?_⟩⟩
  rotate_left
  · simp only [hs]
    refine grid_congr fun i hi => ?_
    rw [grid_val _ (by norm_num)]
  · have c1 : 0 < 1 - β₁ := by linarith
    have c2 : 0 < 1 - β₂ := by linarith
    have : 0 < (0 * β₁ + a * (1 - β₁)) * β₁ + -b * (1 - β₁) := by nlinarith
    have : 0 < Real.sqrt (1 - β₂) := Real.sqrt_pos.mpr c2
    positivity

/-- With weight decay a step may go uphill: a parameter whose gradient is zero moves all the same. -/
theorem adamW_moves {β₁ β₂ ε lam : ℝ} (h1 : β₁ < 1) (h2 : β₂ < 1) (hl : lam ≠ 0) {u : ℝ} (hu : u ≠ 0) {α : ℝ} (hα : 0 < α) :
    ∃ p, adamOptimize (Adam.new ⟨α, β₁, β₂, ε, lam⟩) ⟨scalar u, some (scalar 0), .nil⟩ = some (p, false) ∧
      p.value.val 0 ≠ u := by
  have hs : ∀ x : ℝ, scalar x = grid 1 1 fun _ => x := fun x => rfl
  refine ⟨_, by
    simp only [hs, adamOptimize, optimizeParams, adamCalc, adamUpdateV, adamUpdateM, grid_map, grid_zipOp,
        Option.bind_eq_bind, Option.bind_some, adam_new, adamAt, ne_eq, hl, not_false_eq_true, if_true, grid_zeros,
        grid_rows, grid_cols, adamAlpha, pow_one]
    rfl, ?_⟩
  rw [grid_val _ (by norm_num)]
  have c1 : 0 < 1 - β₁ := by linarith
  have c2 : 0 < Real.sqrt (1 - β₂) := Real.sqrt_pos.mpr (by linarith)
  have : u * lam * (α * Real.sqrt (1 - β₂) / (1 - β₁)) ≠ 0 := by positivity
  intro h
  apply this
  simp only [zero_mul, zero_add, mul_zero, zero_div] at h
  linarith

end Verif.Record
