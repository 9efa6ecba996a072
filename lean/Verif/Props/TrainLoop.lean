import Verif.Model.TrainLoop
import Verif.Props.Optim
import Mathlib.Analysis.SpecificLimits.Basic
import Mathlib.Tactic.IntervalCases

/-!
# C75: time steps of a training loop
-/

set_option autoImplicit false
set_option linter.unusedSimpArgs false

namespace Verif.Optim
open Dense OptimSpec
open scoped BigOperators Topology

/-- The gradients of a loop as the specification wants them. -/
noncomputable def seqOf (gs : List (Dense ℝ)) (k i : Nat) : ℝ := (gs.getD k ⟨0, 0, []⟩).val i

/-- The parameter of a loop has the value `θ n` and no gradient at the end. -/
def Ends (p : Param) (θ : Nat → Nat → ℝ) (n : Nat) (r : Option Param) : Prop :=
  ∃ p', r = some p' ∧ p'.grad = none ∧ p'.value.WF ∧ p'.value.rows = p.value.rows ∧
    p'.value.cols = p.value.cols ∧ ∀ i < p.value.rows * p.value.cols, p'.value.val i = θ n i

/-- Every gradient has the shape of the parameter. -/
def Shaped (p : Param) (gs : List (Dense ℝ)) : Prop := ∀ g ∈ gs, g.WF ∧ g.rows = p.value.rows ∧ g.cols = p.value.cols

theorem accGrad_some {p p' : Param} {g : Dense ℝ} (h : p.accGrad g = some p') : ∃ g', p'.grad = some g' := by
  unfold Param.accGrad at h
  split at h
  · obtain rfl := Option.some.inj h; exact ⟨_, rfl⟩
  · obtain ⟨x, -, h⟩ := Option.bind_eq_some_iff.mp h
    obtain rfl := Option.some.inj h; exact ⟨_, rfl⟩

theorem optimizeOne_acc {p p' : Param} {g : Dense ℝ} (h : p.accGrad g = some p')
    (s : Param → Option (Param × Bool)) : optimizeOne s p' = s p' := by
  obtain ⟨g', hg⟩ := accGrad_some h
  rw [optimizeOne, hg]

/-- The loop is a history without ticks. -/
theorem trainLoop_run {O : Type} (tick : O → O) (optimize : O → Param → Option (Param × Bool)) (o : O) :
    ∀ (gs : List (Dense ℝ)) (p : Param),
    trainLoop (optimize o) p gs = (run tick optimize o p (gs.map Ev.step)).map Prod.snd := by
  intro gs
  induction gs with
  | nil => intro p; rfl
  | cons g gs ih =>
    intro p
    simp only [trainLoop, List.map_cons, run]
    cases hp : p.accGrad g with
    | none => rfl
    | some p' =>
      simp only [Option.bind_eq_bind, Option.bind_some, optimizeOne_acc hp]
      cases optimize o p' with
      | none => rfl
      | some r =>
        simp only [Option.bind_some]
        split
        · rfl
        · exact ih r.1

/-- A history with a tick after every step. -/
def ticked : List (Dense ℝ) → List Ev
  | [] => []
  | g :: gs => .step g :: .tick :: ticked gs

theorem trainLoopTick_run {O : Type} (tick : O → O) (optimize : O → Param → Option (Param × Bool)) :
    ∀ (gs : List (Dense ℝ)) (o : O) (p : Param),
    trainLoopTick tick optimize o p gs = (run tick optimize o p (ticked gs)).map Prod.snd := by
  intro gs
  induction gs with
  | nil => intro o p; rfl
  | cons g gs ih =>
    intro o p
    simp only [trainLoopTick, ticked, run]
    cases hp : p.accGrad g with
    | none => rfl
    | some p' =>
      simp only [Option.bind_eq_bind, Option.bind_some, optimizeOne_acc hp]
      cases optimize o p' with
      | none => rfl
      | some r =>
        simp only [Option.bind_some]
        split
        · rfl
        · exact ih (tick o) r.1

theorem timed_steps (t : Nat) (gs : List (Dense ℝ)) : timed t (gs.map Ev.step) = gs.map fun g => (t, g) := by
  induction gs with
  | nil => rfl
  | cons g gs ih => simp [timed, ih]

theorem count_steps (gs : List (Dense ℝ)) : count (gs.map Ev.step) = gs.length := by simp [count, timed_steps]

theorem times_steps {gs : List (Dense ℝ)} {k : Nat} (hk : k < gs.length) : times (gs.map Ev.step) k = 1 := by
  simp [times, timed_steps, List.getD_eq_getElem?_getD, hk]

theorem grads_steps (gs : List (Dense ℝ)) : grads (gs.map Ev.step) = seqOf gs := by
  funext k i
  simp only [grads, timed_steps, seqOf, List.getD_eq_getElem?_getD, List.getElem?_map]
  cases gs[k]? <;> rfl

theorem timed_ticked (t : Nat) (gs : List (Dense ℝ)) : timed t (ticked gs) = (gs.zipIdx t).map fun q => (q.2, q.1) := by
  induction gs generalizing t with
  | nil => rfl
  | cons g gs ih => simp [timed, ticked, ih, List.zipIdx_cons]

theorem count_ticked (gs : List (Dense ℝ)) : count (ticked gs) = gs.length := by simp [count, timed_ticked]

theorem times_ticked {gs : List (Dense ℝ)} {k : Nat} (hk : k < gs.length) : times (ticked gs) k = k + 1 := by
  simp [times, timed_ticked, List.getD_eq_getElem?_getD, hk, Nat.add_comm]

theorem grads_ticked (gs : List (Dense ℝ)) : grads (ticked gs) = seqOf gs := by
  funext k i
  simp only [grads, timed_ticked, seqOf, List.getD_eq_getElem?_getD, List.getElem?_map, List.getElem?_zipIdx]
  cases gs[k]? <;> rfl

theorem fits_steps {p : Param} {gs : List (Dense ℝ)} (h : Shaped p gs) : Fits p (gs.map Ev.step) := by
  intro g hg
  obtain ⟨g', hg', e⟩ := List.mem_map.mp hg
  obtain rfl := Ev.step.inj e
  exact h _ hg'

theorem mem_ticked {g : Dense ℝ} : ∀ {gs : List (Dense ℝ)}, Ev.step g ∈ ticked gs → g ∈ gs
  | [], h => by simp [ticked] at h
  | a :: gs, h => by
    rcases List.mem_cons.mp h with h | h
    · obtain rfl := Ev.step.inj h; exact List.mem_cons_self
    · rcases List.mem_cons.mp h with h | h
      · simp at h
      · exact List.mem_cons_of_mem _ (mem_ticked h)

theorem fits_ticked {p : Param} {gs : List (Dense ℝ)} (h : Shaped p gs) : Fits p (ticked gs) :=
  fun g hg => h g (mem_ticked hg)

theorem ends_of_follows {O : Type} {p : Param} {θ : Nat → Nat → ℝ} {n : Nat} {r : Option (O × Param)}
    (h : Follows p θ n r) : Ends p θ n (r.map Prod.snd) := by
  obtain ⟨o, p', rfl, h⟩ := h
  exact ⟨p', rfl, h⟩

/-- **C75, partial.** What a loop around `Optimize` does with Adam: every step has the bias corrections of the first one.
Missing for the full claim: the time step of update `k` should be `k` (`adam_loop_violated`). -/
theorem adam_loop_partial (c : AdamConfig) (hl : c.lambda = 0) (p : Param) (hp : Fresh p) (gs : List (Dense ℝ))
    (hg : Shaped p gs) :
    Ends p (trajectory p.value.val (adam c (fun _ => 1) (seqOf gs))) gs.length (trainLoop (adamOptimize (Adam.new c)) p gs) := by
  have h := adam_history c hl p hp _ (fits_steps hg)
  rw [trainLoop_run Adam.incExample adamOptimize]
  have := ends_of_follows h
  rw [count_steps, grads_steps] at this
  have e := trajectory_congr p.value.val (δ := adam c (times (gs.map Ev.step)) (seqOf gs)) (δ' := adam c (fun _ => 1) (seqOf gs))
    gs.length fun k hk θ i => by simp only [adam, times_steps hk]
  rw [Ends, e] at this
  exact this

/-- **C75.** When the caller calls `IncExample` after every `Optimize`, Adam is the published one: update `k` has time
step `k + 1`, counting from 0. -/
theorem adam_loop_ticked (c : AdamConfig) (hl : c.lambda = 0) (p : Param) (hp : Fresh p) (gs : List (Dense ℝ))
    (hg : Shaped p gs) :
    Ends p (trajectory p.value.val (adam c (fun k => k + 1) (seqOf gs))) gs.length
      (trainLoopTick Adam.incExample adamOptimize (Adam.new c) p gs) := by
  have h := adam_history c hl p hp _ (fits_ticked hg)
  rw [trainLoopTick_run]
  have := ends_of_follows h
  rw [count_ticked, grads_ticked] at this
  have e := trajectory_congr p.value.val (δ := adam c (times (ticked gs)) (seqOf gs))
    (δ' := adam c (fun k => k + 1) (seqOf gs)) gs.length fun k hk θ i => by simp only [adam, times_ticked hk]
  rw [Ends, e] at this
  exact this

theorem one_sub_pow_pos {β : ℝ} (h0 : 0 ≤ β) (h1 : β < 1) (k : Nat) : 0 < 1 - β ^ (k + 1) :=
  sub_pos.mpr (pow_lt_one₀ h0 h1 (by omega))

/-- **C75, violation.** Update `k` of the loop is the published one only if it is zero or the bias corrections of the time
steps `1` and `k + 1` happen to agree. -/
theorem adam_step_iff (c : AdamConfig) (g : Nat → Nat → ℝ) (k : Nat) (θ : Nat → ℝ) (i : Nat) :
    adam c (fun _ => 1) g k θ i = adam c (fun k => k + 1) g k θ i ↔
      c.stepSize = 0 ∨ adamDir c g k i = 0 ∨
        Real.sqrt (1 - c.beta2) / (1 - c.beta1) = Real.sqrt (1 - c.beta2 ^ (k + 1)) / (1 - c.beta1 ^ (k + 1)) := by
  simp only [adam, biased, pow_one, mul_div_assoc]
  rw [mul_eq_mul_right_iff, mul_eq_mul_left_iff]
  tauto

/-- **C75, violation.** With the usual decays 0.9 and 0.999 the second update of the loop is already wrong, whatever the
gradients, wherever it is not zero: it is more than a third too large. -/
theorem adam_second_step (c : AdamConfig) (h1 : c.beta1 = 0.9) (h2 : c.beta2 = 0.999) (g : Nat → Nat → ℝ) (θ : Nat → ℝ)
    (i : Nat) (hs : 0 < c.stepSize) (hd : adamDir c g 1 i ≠ 0) :
    1.34 * |adam c (fun k => k + 1) g 1 θ i| < |adam c (fun _ => 1) g 1 θ i| := by
  simp only [adam, abs_mul]
  rw [← _root_.mul_assoc]
  refine mul_lt_mul_of_pos_right ?_ (abs_pos.mpr hd)
  simp only [biased, h1, h2, pow_one, mul_div_assoc, abs_mul, abs_of_pos hs, Nat.reduceAdd]
  rw [mul_left_comm]
  refine mul_lt_mul_of_pos_left ?_ hs
  have a1 : Real.sqrt (1 - (0.999 : ℝ) ^ 2) < 0.04472 := by
    rw [Real.sqrt_lt' (by norm_num)]; norm_num
  have a2 : 0.03162 < Real.sqrt (1 - (0.999 : ℝ)) := by
    rw [Real.lt_sqrt (by norm_num)]; norm_num
  rw [abs_of_nonneg (div_nonneg (Real.sqrt_nonneg _) (by norm_num)), abs_of_nonneg (div_nonneg (Real.sqrt_nonneg _) (by norm_num))]
  have b1 : Real.sqrt (1 - (0.999 : ℝ) ^ 2) / (1 - (0.9 : ℝ) ^ 2) < 0.2354 := by
    rw [div_lt_iff₀ (by norm_num)]; norm_num at a1 ⊢; linarith
  have b2 : 0.3162 < Real.sqrt (1 - (0.999 : ℝ)) / (1 - (0.9 : ℝ)) := by
    rw [lt_div_iff₀ (by norm_num)]; norm_num at a2 ⊢; linarith
  linarith

/-- **C75, violation, the whole loop.** With the usual decays, training with the same gradients leaves every element whose
first moment is not zero after the second update at another value than the published Adam. -/
theorem adam_loop_violated (c : AdamConfig) (hl : c.lambda = 0) (h1 : c.beta1 = 0.9) (h2 : c.beta2 = 0.999)
    (hs : 0 < c.stepSize) (p : Param) (hp : Fresh p) (g₀ g₁ : Dense ℝ) (hg : Shaped p [g₀, g₁]) {i : Nat}
    (hi : i < p.value.rows * p.value.cols) (hd : adamDir c (seqOf [g₀, g₁]) 1 i ≠ 0) :
    ¬ Ends p (trajectory p.value.val (adam c (fun k => k + 1) (seqOf [g₀, g₁]))) 2
      (trainLoop (adamOptimize (Adam.new c)) p [g₀, g₁]) := by
  rintro ⟨p', hr, -, -, -, -, hv⟩
  obtain ⟨q, hr', -, -, -, -, hv'⟩ := adam_loop_partial c hl p hp _ hg
  obtain rfl : p' = q := Option.some.inj (hr.symm.trans hr')
  have e := (hv i hi).symm.trans (hv' i hi)
  simp only [List.length_cons, List.length_nil, trajectory, Nat.reduceAdd] at e
  have e0 : ∀ θ : Nat → ℝ, adam c (fun k => k + 1) (seqOf [g₀, g₁]) 0 θ i = adam c (fun _ => 1) (seqOf [g₀, g₁]) 0 θ i := by
    intro θ; simp [adam]
  have hlt := adam_second_step c h1 h2 (seqOf [g₀, g₁]) p.value.val i hs hd
  have e1 : adam c (fun k => k + 1) (seqOf [g₀, g₁]) 1 p.value.val i = adam c (fun _ => 1) (seqOf [g₀, g₁]) 1 p.value.val i := by
    have h3 := e0 p.value.val
    simp only [adam] at e h3 ⊢
    linarith
  rw [e1] at hlt
  have := abs_nonneg (adam c (fun _ => 1) (seqOf [g₀, g₁]) 1 p.value.val i)
  linarith

/-- A constant gradient `a` for ever. -/
theorem adamDir_const (c : AdamConfig) (h0 : 0 ≤ c.beta2) (h1 : c.beta2 < 1) (a : ℝ) (k i : Nat) :
    adamDir c (fun _ _ => a) k i =
      a * (1 - c.beta1 ^ (k + 1)) / (|a| * Real.sqrt (1 - c.beta2 ^ (k + 1)) + c.epsilon) := by
  simp only [adamDir, average_const]
  rw [Real.sqrt_mul (sq_nonneg a), Real.sqrt_sq_eq_abs]

/-- **C75, violation in the long run.** Under a constant gradient the updates of the published Adam tend to `α` (up to
`ε`); those of the loop tend to `α √(1-β₂) / (1-β₁)`. -/
theorem adam_loop_limit (c : AdamConfig) (h10 : 0 ≤ c.beta1) (h11 : c.beta1 < 1) (h20 : 0 ≤ c.beta2) (h21 : c.beta2 < 1)
    (he : 0 ≤ c.epsilon) {a : ℝ} (ha : a ≠ 0) (θ : Nat → ℝ) (i : Nat) :
    Filter.Tendsto (fun k => adam c (fun k => k + 1) (fun _ _ => a) k θ i) Filter.atTop
      (𝓝 (c.stepSize * (a / (|a| + c.epsilon)))) ∧
    Filter.Tendsto (fun k => adam c (fun _ => 1) (fun _ _ => a) k θ i) Filter.atTop
      (𝓝 (c.stepSize * (Real.sqrt (1 - c.beta2) / (1 - c.beta1)) * (a / (|a| + c.epsilon)))) := by
  have hpow : ∀ {β : ℝ}, 0 ≤ β → β < 1 → Filter.Tendsto (fun k : Nat => 1 - β ^ (k + 1)) Filter.atTop (𝓝 1) := by
    intro β h h'
    have := (tendsto_pow_atTop_nhds_zero_of_lt_one h h').comp (Filter.tendsto_add_atTop_nat 1)
    simpa using this.const_sub 1
  have t1 := hpow h10 h11
  have t2 : Filter.Tendsto (fun k : Nat => Real.sqrt (1 - c.beta2 ^ (k + 1))) Filter.atTop (𝓝 1) := by
    simpa using (hpow h20 h21).sqrt
  have hden : |a| * 1 + c.epsilon ≠ 0 := by
    have := abs_pos.mpr ha; rw [mul_one]; linarith
  have td : Filter.Tendsto (fun k : Nat => adamDir c (fun _ _ => a) k i) Filter.atTop (𝓝 (a / (|a| + c.epsilon))) := by
    simp only [adamDir_const c h20 h21]
    have : Filter.Tendsto (fun k : Nat => a * (1 - c.beta1 ^ (k + 1)) /
        (|a| * Real.sqrt (1 - c.beta2 ^ (k + 1)) + c.epsilon)) Filter.atTop (𝓝 (a * 1 / (|a| * 1 + c.epsilon))) :=
      (t1.const_mul a).div ((t2.const_mul |a|).add_const c.epsilon) hden
    simpa using this
  constructor
  · have tb : Filter.Tendsto (fun k : Nat => biased c.stepSize c.beta1 c.beta2 (k + 1)) Filter.atTop (𝓝 c.stepSize) := by
      simp only [biased]
      have : Filter.Tendsto (fun k : Nat => c.stepSize * Real.sqrt (1 - c.beta2 ^ (k + 1)) / (1 - c.beta1 ^ (k + 1)))
          Filter.atTop (𝓝 (c.stepSize * 1 / 1)) := (t2.const_mul c.stepSize).div t1 one_ne_zero
      simpa using this
    exact tb.mul td
  · have := td.const_mul (biased c.stepSize c.beta1 c.beta2 1)
    simpa only [adam, biased, pow_one, mul_div_assoc] using this

/-- With the default configuration of Adam (adam.go:59-66) that is less than a third of the step size. -/
theorem default_rate : Real.sqrt (1 - (0.999 : ℝ)) / (1 - 0.9) < 0.3163 := by
  rw [div_lt_iff₀ (by norm_num), Real.sqrt_lt' (by norm_num)]
  norm_num

/-- **C75, violation for RAdam.** In a loop around `Optimize` RAdam remains at its first time step, where the variance is
not tractable: the rectification is never applied. -/
theorem radam_loop_partial (c : RAdamConfig) (h0 : 0 ≤ c.beta2) (h1 : c.beta2 < 1) (p : Param) (hp : Fresh p)
    (gs : List (Dense ℝ)) (hg : Shaped p gs) :
    Ends p (trajectory p.value.val fun k _ i => c.stepSize * (average c.beta1 (fun j => seqOf gs j i) k / (1 - c.beta1)) /
        (Real.sqrt (average c.beta2 (fun j => seqOf gs j i ^ 2) k / (1 - c.beta2)) + c.epsilon)) gs.length
      (trainLoop (radamOptimize (RAdam.new c)) p gs) := by
  have h := radam_history_partial c h0 h1 p hp _ (fits_steps hg)
  rw [trainLoop_run RAdam.incBatch radamOptimize]
  have := ends_of_follows h
  rw [count_steps, grads_steps] at this
  have hn : ¬ smaLength c.beta2 1 > 4 := by rw [smaLength_one _ h1]; norm_num
  have e := trajectory_congr p.value.val (δ := radamCode c (times (gs.map Ev.step)) (seqOf gs))
    (δ' := fun k _ i => c.stepSize * (average c.beta1 (fun j => seqOf gs j i) k / (1 - c.beta1)) /
        (Real.sqrt (average c.beta2 (fun j => seqOf gs j i ^ 2) k / (1 - c.beta2)) + c.epsilon))
    gs.length fun k hk θ i => by simp only [radamCode, times_steps hk, hn, if_false, pow_one, mul_one]
  rw [Ends, e] at this
  exact this

/-- The variance becomes tractable at some time step, if the moving average is long enough (with the usual 0.999 at step
5): the published RAdam does apply the rectification from then on. -/
theorem radam_becomes_tractable : smaLength 0.999 5 > 4 ∧ ∀ t, 1 ≤ t → t ≤ 4 → ¬ smaLength 0.999 t > 4 := by
  constructor
  · simp only [smaLength]; norm_num
  · intro t h1 h2
    interval_cases t <;> simp only [smaLength] <;> norm_num

/-- **C75, violation for LAMB.** The step size of LAMB in a loop around `Optimize` keeps the bias corrections of the first
time step. -/
theorem lamb_loop_partial (c : AdamConfig) (p : Param) (hp : Fresh p) (gs : List (Dense ℝ)) (hg : Shaped p gs) :
    Ends p (trajectory p.value.val (lambCode (p.value.rows * p.value.cols) c (fun _ => 1) (seqOf gs))) gs.length
      (trainLoop (lambOptimize (Lamb.new c)) p gs) := by
  have h := lamb_history_partial c p hp _ (fits_steps hg)
  rw [trainLoop_run Lamb.incExample lambOptimize]
  have := ends_of_follows h
  rw [count_steps, grads_steps] at this
  have e := trajectory_congr p.value.val
    (δ := lambCode (p.value.rows * p.value.cols) c (times (gs.map Ev.step)) (seqOf gs))
    (δ' := lambCode (p.value.rows * p.value.cols) c (fun _ => 1) (seqOf gs))
    gs.length fun k hk θ i => by simp only [lambCode, times_steps hk]
  rw [Ends, e] at this
  exact this

/-- **C75.** SGD, AdaGrad and RMSProp have no time step: a loop around `Optimize` is the published method. -/
theorem clockless_loop (p : Param) (hp : Fresh p) (gs : List (Dense ℝ)) (hg : Shaped p gs) :
    (∀ o : SGDConfig, o.mu = 0 → Ends p (trajectory p.value.val (sgd o.alpha (seqOf gs))) gs.length
      (trainLoop (sgdOptimize o) p gs)) ∧
    (∀ o : AdaGradConfig, Ends p (trajectory p.value.val (adaGrad o.lr o.epsilon (seqOf gs))) gs.length
      (trainLoop (adaGradOptimize o) p gs)) ∧
    ∀ o : RMSPropConfig, Ends p (trajectory p.value.val (rmsProp o.lr o.epsilon o.decay (seqOf gs))) gs.length
      (trainLoop (rmsPropOptimize o) p gs) := by
  refine ⟨fun o ho => ?_, fun o => ?_, fun o => ?_⟩
  · have := ends_of_follows (sgd_plain o ho p hp _ (fits_steps hg))
    rw [count_steps, grads_steps] at this
    rw [trainLoop_run id (fun _ => sgdOptimize o) ()]; exact this
  · have := ends_of_follows (adaGrad_history o p hp _ (fits_steps hg))
    rw [count_steps, grads_steps] at this
    rw [trainLoop_run id (fun _ => adaGradOptimize o) ()]; exact this
  · have := ends_of_follows (rmsProp_history o p hp _ (fits_steps hg))
    rw [count_steps, grads_steps] at this
    rw [trainLoop_run id (fun _ => rmsPropOptimize o) ()]; exact this

/-! ## Examples -/

/-- A parameter of one element, with a gradient 1 in two iterations and the usual configuration: the hypotheses of
`adam_loop_partial`, `adam_loop_ticked`, `adam_second_step` and `adam_loop_violated` hold. -/
example : ∃ (p : Param) (g : Dense ℝ) (c : AdamConfig), Fresh p ∧ Shaped p [g, g] ∧ c.lambda = 0 ∧ c.beta1 = 0.9 ∧
    c.beta2 = 0.999 ∧ 0 < c.stepSize ∧ 0 < p.value.rows * p.value.cols ∧ adamDir c (seqOf [g, g]) 1 0 ≠ 0 := by
  refine ⟨⟨⟨1, 1, [5]⟩, none, .nil⟩, ⟨1, 1, [1]⟩, ⟨0.001, 0.9, 0.999, 1e-8, 0⟩, ?_, ?_, rfl, rfl, rfl, by norm_num, by norm_num, ?_⟩
  · exact ⟨rfl, rfl, rfl⟩
  · intro g hg
    simp at hg
    subst hg
    exact ⟨rfl, rfl, rfl⟩
  · simp only [adamDir, average, seqOf]
    norm_num [Finset.sum_range_succ, Dense.val]
    positivity

end Verif.Optim
