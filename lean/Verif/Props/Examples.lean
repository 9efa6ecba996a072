import Verif.Model.Examples
import Verif.Props.TapeSeed
import Verif.Props.NetBatch
import Verif.Props.Regression
import Verif.Props.Init
import Mathlib.Analysis.Complex.ExponentialBounds

set_option autoImplicit false
set_option linter.unusedSimpArgs false

/-!
# C77: the examples
-/

namespace Verif.Examples
open GradFn Record Tape Rand Backward Dense
open scoped BigOperators

/-! ## addition -/

/-- The tensors of the example. -/
abbrev nodeA : Fin addition.length := ⟨0, by simp [addition]⟩
abbrev nodeB : Fin addition.length := ⟨1, by simp [addition]⟩
abbrev nodeC : Fin addition.length := ⟨2, by simp [addition]⟩

theorem addition_run (τ : Nat → Dense ℝ) (u v : ℝ) (h0 : τ 0 = scalar u) (h1 : τ 1 = scalar v) :
    run τ addition [] = some [scalar u, scalar v, scalar (u + v)] := by
  simp [addition, run, Tape.step, h0, h1, GradFn.add, Dense.zipOp, scalar, Dense.sameDims]

theorem addition_wf {u v : ℝ} : DataWF addition [scalar u, scalar v, scalar (u + v)] where
  leaf c b h := by
    rcases c with _ | _ | _ | c <;> simp [addition] at h ⊢ <;> rfl
  const c w h := by
    rcases c with _ | _ | _ | c <;> simp [addition] at h
  call c f args h _ := by
    rcases c with _ | _ | _ | c <;> simp [addition] at h ⊢
    rfl

theorem addition_safe (vals : List (Dense ℝ)) : AllSafe addition vals := by
  intro c f args h _
  rcases c with _ | _ | _ | c <;> simp [addition] at h ⊢
  obtain ⟨rfl, rfl⟩ := h
  exact .add

/-- **C77, addition.** The example prints `c = 7`; `Backward(c)` returns under every schedule, and then the gradients of `a`
and `b` are 0.5, what `AccGrad` gave to `c`. -/
theorem addition_prints {s₀ : St addition.length (Nat → ℝ)} (hcl : Clean (graph addition) s₀)
    (hg : ∀ x, s₀.grad x = none) :
    ∃ vals, run additionData addition [] = some vals ∧ vals.getD 2 ⟨0, 0, []⟩ = scalar 7 ∧
      Returns (graph addition) (progFns (graph addition) (fns addition) (valOf vals)) [nodeC]
        (accGradSeq (graph addition) s₀ nodeC additionGrad) ∧
      ∀ s, Reach (graph addition) (progFns (graph addition) (fns addition) (valOf vals)) [nodeC]
          (accGradSeq (graph addition) s₀ nodeC additionGrad) s → s.main = .returned →
        ∃ ga gb, s.grad nodeA = some ga ∧ s.grad nodeB = some gb ∧ ga 0 = 0.5 ∧ gb 0 = 0.5 := by
  have hrun : run additionData addition [] = some [scalar 2, scalar 5, scalar (2 + 5)] :=
    addition_run _ _ _ (by simp [additionData]) (by simp [additionData])
  have hseq : accGradSeq (graph addition) s₀ nodeC additionGrad =
      { s₀ with grad := addGrad (graph addition) s₀.grad nodeC additionGrad } := by
    simp [accGradSeq, hcl.idle]
  have hcl' : Clean (graph addition) (accGradSeq (graph addition) s₀ nodeC additionGrad) := by
    rw [hseq]
    exact ⟨hcl.idle, hcl.quiet, hcl.noPending, hcl.alive⟩
  have hgrad : ∀ x, (accGradSeq (graph addition) s₀ nodeC additionGrad).grad x = if x = nodeC then some additionGrad else none := by
    intro x
    rw [hseq]
    have : (graph addition).isBlocker nodeC = false := rfl
    simp only [addGrad, this, hg]
    by_cases hx : x = nodeC
    · subst hx; simp [accOpt]
    · simp [Function.update, hx, hg]
  refine ⟨_, hrun, by norm_num, program_backward_returns hrun addition_wf (addition_safe _) [nodeC] hcl', ?_⟩
  intro s hr hm
  have hw : ∀ τ u v, τ 0 = scalar u → τ 1 = scalar v →
      weighted addition [scalar 2, scalar 5, scalar (2 + 5)] [nodeC]
        (accGradSeq (graph addition) s₀ nodeC additionGrad).grad τ = 0.5 * (u + v) := by
    intro τ u v h0 h1
    have hl : run (leafVals addition [scalar 2, scalar 5, scalar (2 + 5)] τ) (addition.map held) [] =
        some [scalar u, scalar v, scalar (u + v)] := by
      rw [show addition.map held = addition from rfl]
      exact addition_run _ _ _ (by rw [leafVals_true rfl, h0]) (by rw [leafVals_true rfl, h1])
    simp only [weighted, outputAt, hl, List.map_cons, List.map_nil, List.sum_cons, List.sum_nil, add_zero, hgrad]
    simp [weightAt, additionGrad, scalar, Dense.val]
  have hone : ∀ (l : Fin addition.length) (u v : ℝ → ℝ), trainable addition l = true →
      (∀ t, (if (0 : Nat) = l.val then bump (additionData 0) 0 t else additionData 0) = scalar (u t)) →
      (∀ t, (if (1 : Nat) = l.val then bump (additionData 1) 0 t else additionData 1) = scalar (v t)) →
      HasDerivAt (fun t => 0.5 * (u t + v t)) (gnum (s.grad l) 0) 0 := by
    intro l u v hl h0 h1
    have h := program_results_partial_derivative hrun addition_wf (addition_safe _) (ys := [nodeC]) (by simp)
      (by
        intro y hy
        obtain rfl : y = nodeC := by simpa using hy
        exact ⟨_, _, rfl, rfl⟩) hcl'
      (by
        intro x _ hx
        rw [hgrad, if_neg (by simpa using hx)]) hr hm (l := l) hl (i := 0) (by simp [additionData, scalar])
    have hne : l ≠ nodeC := by rintro rfl; cases hl
    rw [hgrad, if_neg hne] at h
    simp only [gnum, Option.getD_none, Pi.zero_apply, sub_zero] at h
    refine h.congr_of_eventuallyEq (Filter.Eventually.of_forall fun t => ?_)
    exact (hw _ _ _ (h0 t) (h1 t)).symm
  have ha : gnum (s.grad nodeA) 0 = 0.5 := by
    have h := hone nodeA (fun t => 2 + t) (fun _ => 5) rfl (by intro t; simp [additionData, bump, scalar, Dense.val])
      (by intro t; simp [additionData])
    have h' : HasDerivAt (fun t : ℝ => 0.5 * ((2 + t) + 5)) (0.5 * 1) 0 :=
      (((hasDerivAt_id (0 : ℝ)).const_add 2).add_const 5).const_mul 0.5
    rw [mul_one] at h'
    exact h.unique h'
  have hb : gnum (s.grad nodeB) 0 = 0.5 := by
    have h := hone nodeB (fun _ => 2) (fun t => 5 + t) rfl (by intro t; simp [additionData])
      (by intro t; simp [additionData, bump, scalar, Dense.val])
    have h' : HasDerivAt (fun t : ℝ => 0.5 * (2 + (5 + t))) (0.5 * 1) 0 :=
      (((hasDerivAt_id (0 : ℝ)).const_add 5).const_add 2).const_mul 0.5
    rw [mul_one] at h'
    exact h.unique h'
  cases e0 : s.grad nodeA with
  | none => rw [e0] at ha; norm_num [gnum] at ha
  | some ga =>
    cases e1 : s.grad nodeB with
    | none => rw [e1] at hb; norm_num [gnum] at hb
    | some gb =>
      rw [e0] at ha; rw [e1] at hb
      exact ⟨ga, gb, rfl, rfl, by simpa [gnum] using ha, by simpa [gnum] using hb⟩

/-- The hypotheses can be met. -/
example : ∃ s₀ : St addition.length (Nat → ℝ), Clean (graph addition) s₀ ∧ ∀ x, s₀.grad x = none :=
  ⟨⟨fun _ => none, fun _ => .idle, fun _ => 0, fun _ => .unmade, fun _ => .none, 0, .returned, false, []⟩, ⟨fun _ => rfl, fun _ => rfl, fun _ _ => rfl, rfl⟩,
    fun _ => rfl⟩

/-! ## perceptron -/

/-- **C77, perceptron.** The example computes the logistic function of 7, which rounded to three places is 0.999. -/
theorem perceptron_prints :
    ∃ vals, run perceptronData perceptron [] = some vals ∧
      vals.getD 5 ⟨0, 0, []⟩ = scalar (1 / (1 + Real.exp (-7))) ∧ |1 / (1 + Real.exp (-7)) - (0.999 : ℝ)| < 0.0005 := by
  have he : Real.exp (-7) < 0.0014 := by
    have h1 : Real.exp 7 = Real.exp 1 ^ 7 := by rw [← Real.exp_nat_mul]; norm_num
    have h2 : (2.7 : ℝ) ^ 7 < Real.exp 1 ^ 7 := by
      have := Real.exp_one_gt_d9
      gcongr
      linarith
    rw [Real.exp_neg, h1, inv_lt_comm₀ (by positivity) (by norm_num)]
    refine lt_trans ?_ h2
    norm_num
  have hp : 0 < Real.exp (-7) := Real.exp_pos _
  have hlo : (0.0006 : ℝ) < Real.exp (-7) := by
    have h1 : Real.exp 7 = Real.exp 1 ^ 7 := by rw [← Real.exp_nat_mul]; norm_num
    have h2 : Real.exp 1 ^ 7 < (2.75 : ℝ) ^ 7 := by
      have := Real.exp_one_lt_d9
      gcongr
      linarith
    rw [Real.exp_neg, h1, lt_inv_comm₀ (by norm_num) (by positivity)]
    refine lt_trans h2 ?_
    norm_num
  refine ⟨[scalar 3, scalar 1, scalar 2, scalar 6, scalar 7, scalar (1 / (1 + Real.exp (-7)))], ?_, ?_, ?_⟩
  · have h1 := Regression.mul_scalar 3 2
    have h2 := Regression.add_scalar (3 * 2) 1
    have h3 : GradFn.sigmoid.forward [scalar (3 * 2 + 1)] = some (scalar (1 / (1 + Real.exp (-7)))) := by
      norm_num [GradFn.sigmoid, elementwise, Dense.apply, applyLoop, scalar, sigmoidF]
    norm_num at h1 h2 h3
    have d0 : perceptronData 0 = scalar 3 := by simp [perceptronData]
    have d1 : perceptronData 1 = scalar 1 := by simp [perceptronData]
    have d2 : perceptronData 2 = scalar 2 := by simp [perceptronData]
    simp [perceptron, run, Tape.step, d0, d1, d2, h1, h2, h3]
  · rfl
  · rw [abs_lt]
    constructor
    · rw [lt_sub_iff_add_lt, lt_div_iff₀ (by linarith)]; linarith
    · rw [sub_lt_iff_lt_add, div_lt_iff₀ (by linarith)]; linarith

/-! ## sinusoid -/

variable {S : Type} (next : S → Word × S)

/-- How many numbers have been drawn for the data before datum `i` of a batch: one each, and a second one for every third. -/
def drawn (i : Nat) : Nat := i + (i + 2) / 3

/-- Input `i` of a batch. -/
noncomputable def inputAt (s : S) (i : Nat) : ℝ :=
  if i % 3 = 0 then -Real.pi * Init.unit next s (drawn i + 1)
  else if i % 2 = 0 then Real.pi * Init.unit next s (drawn i)
  else 2 * Real.pi * Init.unit next s (drawn i)

theorem float64_unit (s : S) : ∃ q : ℚ, float64 next s = some (q, (next s).2) ∧ (q : ℝ) = Init.unit next s 0 := by
  refine ⟨_, float64_eq next s, ?_⟩
  simp only [Init.unit, draw, stateAt, Function.iterate_zero, id]
  push_cast
  norm_num

theorem unit_stateAt (s : S) (j k : Nat) : Init.unit next (stateAt next s j) k = Init.unit next s (j + k) := by
  simp only [Init.unit, draw, stateAt, ← Function.iterate_add_apply, Nat.add_comm]

theorem datum_eq (s : S) (i : Nat) : datum next i (stateAt next s (drawn i)) =
    some ((inputAt next s i, Real.cos (inputAt next s i)), stateAt next s (drawn (i + 1))) := by
  obtain ⟨q, h1, h2⟩ := float64_unit next (stateAt next s (drawn i))
  rw [← stateAt_succ'] at h1
  rw [unit_stateAt, Nat.add_zero] at h2
  obtain ⟨r, h3, h4⟩ := float64_unit next (stateAt next s (drawn i + 1))
  rw [← stateAt_succ'] at h3
  rw [unit_stateAt, Nat.add_zero] at h4
  unfold datum
  rw [h1]
  simp only [Option.bind_eq_bind, Option.bind_some]
  by_cases h : i % 3 = 0
  · rw [if_pos h, h3]
    have e : drawn (i + 1) = drawn i + 1 + 1 := by unfold drawn; omega
    simp only [Option.bind_some, e, inputAt, if_pos h, ← h4]
    congr 3 <;> ring
  · rw [if_neg h]
    have e : drawn (i + 1) = drawn i + 1 := by unfold drawn; omega
    simp only [e, inputAt, if_neg h, ← h2]
    by_cases h' : i % 2 = 0
    · simp only [if_pos h']
      congr 3 <;> ring
    · simp only [if_neg h']
      congr 3 <;> ring

theorem batchFrom_eq (s : S) : ∀ n i, batchFrom next n i (stateAt next s (drawn i)) =
    some ((List.range n).map fun j => (inputAt next s (i + j), Real.cos (inputAt next s (i + j))), stateAt next s (drawn (i + n)))
  | 0, i => rfl
  | n + 1, i => by
    rw [batchFrom, datum_eq]
    simp only [Option.bind_eq_bind, Option.bind_some]
    rw [batchFrom_eq s n (i + 1)]
    simp only [Option.bind_some, List.range_succ_eq_map, List.map_cons, List.map_map, Nat.add_zero]
    congr 2
    · congr 1
      refine List.map_congr_left fun j _ => ?_
      simp only [Function.comp, Nat.succ_eq_add_one, show i + 1 + j = i + (j + 1) by omega]
    · rw [show i + 1 + n = i + (n + 1) by omega]

/-- **C77, sinusoid.** `GenerateBatch` never fails: input `i` is made of the next number drawn, or for every third input of
the one after it. -/
theorem generateBatch_spec (n : Nat) (s : S) : generateBatch next n s =
    some ((List.range n).map fun i => (inputAt next s i, Real.cos (inputAt next s i)), stateAt next s (n + (n + 2) / 3)) := by
  have := batchFrom_eq next s n 0
  simpa [drawn, generateBatch, stateAt] using this

/-- **C77, sinusoid.** The inputs of every batch are in (-π, 2π): every third is in (-π, 0], of the others the even ones in
[0, π). -/
theorem generateBatch_range (n : Nat) (s : S) : ∃ d s', generateBatch next n s = some (d, s') ∧ d.length = n ∧
    ∀ (i : Nat) x y, d[i]? = some (x, y) → -Real.pi < x ∧ x < 2 * Real.pi ∧ (i % 3 = 0 → x ≤ 0) ∧ (i % 3 ≠ 0 → 0 ≤ x) ∧
      (i % 3 ≠ 0 → i % 2 = 0 → x < Real.pi) := by
  refine ⟨_, _, generateBatch_spec next n s, by simp, ?_⟩
  intro i x y h
  simp only [List.getElem?_map, Option.map_eq_some_iff] at h
  obtain ⟨j, hj, e⟩ := h
  obtain ⟨hi, rfl⟩ := List.getElem?_eq_some_iff.mp hj
  simp only [List.getElem_range] at e
  obtain ⟨rfl, rfl⟩ := Prod.mk.inj e
  have hp := Real.pi_pos
  unfold inputAt
  split
  · rename_i h3
    obtain ⟨h1, h2⟩ := Init.unit_range next s (drawn i + 1)
    refine ⟨by nlinarith, by nlinarith, fun _ => by nlinarith, fun h => absurd h3 h, fun h => absurd h3 h⟩
  · rename_i h3
    obtain ⟨h1, h2⟩ := Init.unit_range next s (drawn i)
    split
    · exact ⟨by nlinarith, by nlinarith, fun h => absurd h h3, fun _ => by positivity, fun _ _ => by nlinarith⟩
    · rename_i h2'
      exact ⟨by nlinarith, by nlinarith, fun h => absurd h h3, fun _ => by positivity, fun _ h => absurd h h2'⟩

/-- **C77, violated: not the sine.** The targets of every batch are the cosines of the inputs; they are the sines only where
the two functions meet. -/
theorem sinusoid_learns_cosine (n : Nat) (s : S) : ∃ d s', generateBatch next n s = some (d, s') ∧
    ∀ p ∈ d, p.2 = Real.cos p.1 ∧ (p.2 = Real.sin p.1 ↔ Real.sin (p.1 - Real.pi / 4) = 0) := by
  refine ⟨_, _, generateBatch_spec next n s, ?_⟩
  intro p hp
  obtain ⟨i, _, rfl⟩ := List.mem_map.mp hp
  refine ⟨rfl, ?_⟩
  rw [Real.sin_sub, Real.cos_pi_div_four, Real.sin_pi_div_four, ← sub_mul]
  have : √2 / 2 ≠ 0 := by positivity
  rw [mul_eq_zero, or_iff_left this, sub_eq_zero, eq_comm]

/-- **C77, violated: the evaluation.** All five lines `sin(x) = … (predicted) vs … (actual)` of the evaluation, whatever
the model predicts, name a number that is not the sine of `x`. -/
theorem sinusoid_evaluation_violated (predict : ℝ → ℝ) :
    (evaluation predict).map Prod.fst = [-Real.pi, -Real.pi / 2, 0, Real.pi / 2, Real.pi] ∧ ∀ l ∈ evaluation predict, l.2.2 ≠ Real.sin l.1 := by
  refine ⟨by simp [evaluation, testInputs], ?_⟩
  intro l hl
  simp only [evaluation, testInputs, List.map_cons, List.map_nil, List.mem_cons, List.not_mem_nil, or_false] at hl
  rcases hl with rfl | rfl | rfl | rfl | rfl <;> simp [neg_div]

/-- The parameters after `InitRandom`. -/
theorem initRandom_spec : ∀ (ps : List (Dense ℝ)), (∀ p ∈ ps, p.WF) → ∀ s : S, ∃ qs s', initRandom next ps s = some (qs, s') ∧
    List.Forall₂ (fun p q => q.WF ∧ q.rows = p.rows ∧ q.cols = p.cols ∧
      ∀ x ∈ q.data, |x| ≤ √(6 / ((p.rows : ℝ) + p.cols))) ps qs
  | [], _, s => ⟨[], s, rfl, .nil⟩
  | p :: ps, h, s => by
    obtain ⟨q, s', h1, h2, h3, h4, h5⟩ := Init.xavierUniform_range next p (h p (by simp)) (g := 1.0) (by norm_num) s
    obtain ⟨qs, s'', h6, h7⟩ := initRandom_spec ps (fun p hp => h p (by simp [hp])) s'
    refine ⟨q :: qs, s'', by rw [initRandom, h1]; simp [h6], .cons ⟨h4, h2, h3, fun x hx => ?_⟩ h7⟩
    obtain ⟨a, b⟩ := h5 x hx
    rw [show (1.0 : ℝ) = 1 by norm_num, one_mul] at a b
    rw [abs_le]
    exact ⟨by linarith, b.le⟩

/-- **C77, sinusoid.** `InitRandom` gives the parameters of the model the shapes of its layers. -/
theorem sinusoid_init (s : S) : ∃ qs s', initRandom next sineParams s = some (qs, s') ∧ qs.length = sineNet.size ∧
    (∀ x < sineNet.size, (qs.getD x ⟨0, 0, []⟩).WF) ∧ sineNet.Fits (fun x => qs.getD x ⟨0, 0, []⟩) 0 := by
  obtain ⟨qs, s', h1, h2⟩ := initRandom_spec next sineParams (by
    intro p hp
    simp only [sineParams, List.mem_cons, List.not_mem_nil, or_false] at hp
    rcases hp with rfl | rfl | rfl | rfl | rfl | rfl | rfl | rfl <;> exact List.length_replicate) s
  refine ⟨qs, s', h1, ?_⟩
  simp only [sineParams] at h2
  obtain ⟨q0, q1, q2, q3, q4, q5, q6, q7, rfl⟩ : ∃ q0 q1 q2 q3 q4 q5 q6 q7, qs = [q0, q1, q2, q3, q4, q5, q6, q7] := by
    have := h2.length_eq
    simp only [List.length_cons, List.length_nil] at this
    match qs, this with
    | [a, b, c, d, e, f, g, h], _ => exact ⟨a, b, c, d, e, f, g, h, rfl⟩
  simp only [List.forall₂_cons, List.forall₂_nil_right_iff, and_true] at h2
  obtain ⟨⟨a0, b0, c0, -⟩, ⟨a1, b1, c1, -⟩, ⟨a2, b2, c2, -⟩, ⟨a3, b3, c3, -⟩, ⟨a4, b4, c4, -⟩, ⟨a5, b5, c5, -⟩, ⟨a6, b6, c6, -⟩,
    a7, b7, c7, -⟩ := h2
  refine ⟨rfl, ?_, ?_⟩
  · intro x hx
    have hx : x < 8 := hx
    interval_cases x <;> assumption
  · simp only [sineNet, Net.Fits, Net.size, Dims]
    exact ⟨⟨⟨b0, c0⟩, b1, c1⟩, trivial, ⟨⟨b2, c2⟩, b3, c3⟩, trivial, ⟨⟨b4, c4⟩, b5, c5⟩, trivial, ⟨b6, c6⟩, b7, c7⟩

/-- The function the network computes: three layers of 64 rectified units and a linear one. -/
noncomputable def sineFn (w : Nat → Dense ℝ) (x : ℝ) : ℝ :=
  let h1 := fun j : Nat => max 0 ((w 0).el j 0 * x + (w 1).val j)
  let h2 := fun j : Nat => max 0 (∑ k ∈ Finset.range 64, (w 2).el j k * h1 k + (w 3).val j)
  let h3 := fun j : Nat => max 0 (∑ k ∈ Finset.range 64, (w 4).el j k * h2 k + (w 5).val j)
  ∑ k ∈ Finset.range 64, (w 6).el 0 k * h3 k + (w 7).val 0

theorem sineNet_apply (w : Nat → Dense ℝ) (xs : List (Nat → ℝ)) :
    (sineNet.apply w 0 xs).map (fun y => y 0) = xs.map fun x => sineFn w (x 0) := by
  simp [sineNet, Net.apply, Net.size, sineFn, affineMap, Point.fn, Function.comp_def]

/-- A batch as one sequence. -/
noncomputable def seriesOf (d : List (ℝ × ℝ)) : Series :=
  ⟨d.length, fun t => scalar (d.getD t (0, 0)).1, fun t => scalar (d.getD t (0, 0)).2⟩

/-- The loss of a batch, `losses.MSESeq(predictions, targets, true)`. -/
noncomputable def batchLoss (w : Nat → Dense ℝ) (d : List (ℝ × ℝ)) : ℝ :=
  (d.map fun p => (sineFn w p.1 - p.2) ^ 2 / 2).sum / d.length

theorem sum_range_getD {α : Type} (f : α → ℝ) (e : α) : ∀ d : List α,
    ∑ t ∈ Finset.range d.length, f (d.getD t e) = (d.map f).sum
  | [] => rfl
  | a :: d => by
    rw [List.length_cons, Finset.sum_range_succ']
    simp only [List.getD_cons_succ, List.getD_cons_zero, sum_range_getD f e d, List.map_cons, List.sum_cons, add_comm]

theorem seriesOf_error (w : Nat → Dense ℝ) (d : List (ℝ × ℝ)) : (seriesOf d).error sineNet true w = batchLoss w d := by
  unfold Series.error squaredError batchLoss
  rw [if_pos rfl, show (seriesOf d).len = d.length from rfl, ← sum_range_getD _ (0, 0)]
  congr 1
  refine Finset.sum_congr rfl fun t ht => ?_
  have ht := Finset.mem_range.mp ht
  rw [Finset.sum_range_one]
  have h := congrArg (fun l => List.getD l t 0) (sineNet_apply w (seriesOf d).inputs)
  have hl : ((sineNet.apply w 0 (seriesOf d).inputs).map fun y => y 0).getD t 0 =
      ((sineNet.apply w 0 (seriesOf d).inputs).getD t 0) 0 := by
    simp only [List.getD_eq_getElem?_getD, List.getElem?_map]
    cases (sineNet.apply w 0 (seriesOf d).inputs)[t]? <;> rfl
  beta_reduce
  rw [← hl, h]
  simp [Series.inputs, seriesOf, ht, List.getD_eq_getElem?_getD, Dense.val, scalar]

/-- **C77, sinusoid.** One batch of the training: if no rectified unit gets exactly 0, `Backward` returns under every
schedule, and what it adds to the gradients of the parameters is the gradient of half the mean squared distance of
the network's outputs from the targets. -/
theorem sinusoid_gradient {w : Nat → Dense ℝ} (hw : ∀ x < sineNet.size, (w x).WF) (hf : sineNet.Fits w 0)
    {d : List (ℝ × ℝ)} (hd : d ≠ []) (hreg : sineNet.Regular w 0 (d.map fun p => (scalar p.1).val)) (γ : Nat → Option (Nat → ℝ)) :
    (∃ γ', Learn sineNet.size w [(seriesOf d).sample sineNet true] γ γ') ∧
    ∀ γ', Learn sineNet.size w [(seriesOf d).sample sineNet true] γ γ' →
      ∀ l < sineNet.size, ∀ j < (w l).data.length,
        HasDerivAt (fun t => batchLoss (moved w l j t) d) (gnum (γ' l) j - gnum (γ l) j) 0 := by
  have hok : ∀ q ∈ [seriesOf d], q.Ok sineNet w := by
    intro q hq
    obtain rfl : q = seriesOf d := by simpa using hq
    refine ⟨List.length_pos_iff.mpr hd, fun t _ => ⟨rfl, rfl, rfl⟩, fun t _ => ⟨rfl, rfl, rfl⟩, ?_⟩
    have e : (seriesOf d).inputs = d.map fun p => (scalar p.1).val := by
      refine List.ext_getElem (by simp [Series.inputs, seriesOf]) fun t h1 h2 => ?_
      have ht : t < d.length := by simpa using h2
      simp [Series.inputs, seriesOf, ht]
    rw [e]
    exact hreg
  have h := net_batch_gradient sineNet true (by decide) hw hf hok γ
  simpa only [List.map_cons, List.map_nil, List.sum_cons, List.sum_nil, add_zero, seriesOf_error] using h

/-- The state after `n` batches. -/
def after {σ : Type} (batch : σ → Option (σ × ℝ)) (s : σ) : Nat → Option σ
  | 0 => some s
  | n + 1 => (after batch s n).bind fun s => (batch s).map Prod.fst

/-- The loss of batch `n`. -/
def lossAt {σ : Type} (batch : σ → Option (σ × ℝ)) (s : σ) (n : Nat) : ℝ :=
  (((after batch s n).bind batch).map Prod.snd).getD 0

theorem after_add {σ : Type} (batch : σ → Option (σ × ℝ)) (s t : σ) {m : Nat} (h : after batch s m = some t) :
    ∀ n, after batch s (m + n) = after batch t n
  | 0 => h
  | n + 1 => by rw [← Nat.add_assoc, after, after, after_add batch s t h n]

theorem lossAt_add {σ : Type} (batch : σ → Option (σ × ℝ)) (s t : σ) {m : Nat} (h : after batch s m = some t) (n : Nat) :
    lossAt batch s (m + n) = lossAt batch t n := by
  rw [lossAt, after_add batch s t h, lossAt]

theorem batches_spec {σ : Type} (batch : σ → Option (σ × ℝ)) : ∀ n (s : σ) a r, batches batch n s a = some r →
    after batch s n = some r.1 ∧ r.2 = a + ∑ k ∈ Finset.range n, lossAt batch s k
  | 0, s, a, r, h => by cases h; simp [after]
  | n + 1, s, a, r, h => by
    rw [batches] at h
    simp only [Option.bind_eq_bind, Option.bind_eq_some_iff] at h
    obtain ⟨b, hb, h⟩ := h
    obtain ⟨h1, h2⟩ := batches_spec batch n b.1 _ r h
    have hs : after batch s 1 = some b.1 := by simp [after, hb]
    refine ⟨by rw [Nat.add_comm, after_add batch s b.1 hs, h1], ?_⟩
    rw [h2, Finset.sum_range_succ', add_assoc]
    congr 1
    have h0 : lossAt batch s 0 = b.2 := by simp [lossAt, after, hb]
    rw [h0, add_comm]
    congr 1
    refine Finset.sum_congr rfl fun k _ => ?_
    rw [Nat.add_comm k 1, lossAt_add batch s b.1 hs]

/-- The average loss of the batches of epoch `e` (from 1). -/
noncomputable def averageLoss {σ : Type} (batch : σ → Option (σ × ℝ)) (s : σ) (e : Nat) : ℝ :=
  (∑ k ∈ Finset.range 100, lossAt batch s (100 * (e - 1) + k)) / 100

theorem epochs_spec {σ : Type} (batch : σ → Option (σ × ℝ)) (s₀ : σ) : ∀ n e (s : σ) r,
    after batch s₀ (100 * e) = some s → epochs batch n e s = some r →
    (0 < n → e < r.2.1) ∧ e ≤ r.2.1 ∧ r.2.1 ≤ e + n ∧ after batch s₀ (100 * r.2.1) = some r.1 ∧
    (r.2.1 < e + n → r.2.1 % 10 = 0 ∧ averageLoss batch s₀ r.2.1 < 0.00001) ∧
    r.2.2 = ((List.range' (e + 1) (r.2.1 - e)).filter (· % 10 = 0)).map (fun e => (e, averageLoss batch s₀ e)) ∧
    ∀ e', e < e' → e' < r.2.1 → e' % 10 = 0 → ¬ averageLoss batch s₀ e' < 0.00001
  | 0, e, s, r, hs, h => by
    cases h
    refine ⟨fun h => absurd h (lt_irrefl 0), le_refl _, le_refl _, hs, fun h => absurd h (by simp), by simp, fun e' h1 h2 => absurd h2 (by simp; omega)⟩
  | n + 1, e, s, r, hs, h => by
    rw [epochs] at h
    simp only [Option.bind_eq_bind, Option.bind_eq_some_iff] at h
    obtain ⟨b, hb, h⟩ := h
    obtain ⟨h1, h2⟩ := batches_spec batch _ _ _ _ hb
    have hs' : after batch s₀ (100 * (e + 1)) = some b.1 := by
      rw [Nat.mul_add, after_add batch s₀ s hs]; exact h1
    have hav : averageLoss batch s₀ (e + 1) = b.2 / 100 := by
      rw [averageLoss, h2, zero_add, Nat.add_sub_cancel]
      congr 1
      exact Finset.sum_congr rfl fun k _ => lossAt_add batch s₀ s hs k
    rw [← hav] at h
    split at h
    · rename_i h10
      split at h
      · rename_i hlt
        cases h
        refine ⟨fun _ => Nat.lt_succ_self e, Nat.le_succ e, by simp, hs', fun _ => ⟨h10, hlt⟩, ?_, fun e' h1 h2 => absurd h2 (by simp; omega)⟩
        simp [h10]
      · rename_i hge
        simp only [Option.bind_eq_some_iff] at h
        obtain ⟨t, ht, h⟩ := h
        obtain ⟨-, a1, a2, a3, a4, a5, a6⟩ := epochs_spec batch s₀ n (e + 1) b.1 t hs' ht
        cases h
        refine ⟨fun _ => (Nat.lt_succ_self e).trans_le a1, (Nat.le_succ e).trans a1, by simp only; omega, a3, fun h => a4 (by simp only at h; omega), ?_, ?_⟩
        · simp only
          rw [a5, show t.2.1 - e = t.2.1 - (e + 1) + 1 by omega, List.range'_succ]
          simp [h10]
        · intro e' b1 b2 b3
          rcases Nat.lt_or_ge (e + 1) e' with hh | hh
          · exact a6 e' hh b2 b3
          · obtain rfl : e' = e + 1 := by omega
            exact hge
    · rename_i h10
      obtain ⟨-, a1, a2, a3, a4, a5, a6⟩ := epochs_spec batch s₀ n (e + 1) b.1 r hs' h
      refine ⟨fun _ => by omega, by omega, by omega, a3, fun h => a4 (by omega), ?_, ?_⟩
      · rw [a5, show r.2.1 - e = r.2.1 - (e + 1) + 1 by omega, List.range'_succ]
        simp [h10]
      · intro e' b1 b2 b3
        rcases Nat.lt_or_ge (e + 1) e' with hh | hh
        · exact a6 e' hh b2 b3
        · obtain rfl : e' = e + 1 := by omega
          exact absurd b3 h10

/-- **C77, sinusoid.** The training is over after at most 1000 epochs of 100 batches each. It prints the average loss of
every tenth epoch, and it ends early if and only if a printed average is below 0.00001, at the first one. -/
theorem sinusoid_epochs {σ : Type} (batch : σ → Option (σ × ℝ)) {s : σ} {r} (h : epochs batch 1000 0 s = some r) :
    r.2.1 ≤ 1000 ∧ after batch s (100 * r.2.1) = some r.1 ∧
    r.2.2 = ((List.range' 1 r.2.1).filter (· % 10 = 0)).map (fun e => (e, averageLoss batch s e)) ∧
    (∀ l ∈ r.2.2, l.1 < r.2.1 → ¬ l.2 < 0.00001) ∧
    (r.2.1 < 1000 → ∃ l ∈ r.2.2, l.1 = r.2.1 ∧ l.2 < 0.00001) := by
  obtain ⟨a0, a1, a2, a3, a4, a5, a6⟩ := epochs_spec batch s 1000 0 s r rfl h
  rw [Nat.zero_add] at a2 a4
  simp only [Nat.zero_add, Nat.sub_zero] at a5
  refine ⟨a2, a3, a5, ?_, ?_⟩
  · intro l hl hlt
    rw [a5] at hl
    obtain ⟨e, he, rfl⟩ := List.mem_map.mp hl
    simp only [List.mem_filter, List.mem_range'_1, decide_eq_true_eq] at he
    exact a6 e (by omega) hlt he.2
  · intro hlt
    obtain ⟨b1, b2⟩ := a4 hlt
    refine ⟨(r.2.1, averageLoss batch s r.2.1), ?_, rfl, b2⟩
    rw [a5]
    refine List.mem_map.mpr ⟨r.2.1, ?_, rfl⟩
    have := a0 (by norm_num)
    simp only [List.mem_filter, List.mem_range'_1, decide_eq_true_eq]
    omega

/-- If no batch fails, the training ends. -/
theorem epochs_total {σ : Type} {batch : σ → Option (σ × ℝ)} (hb : ∀ s, (batch s).isSome) :
    ∀ n e (s : σ), (epochs batch n e s).isSome := by
  have h1 : ∀ n (s : σ) a, ∃ r, batches batch n s a = some r := by
    intro n
    induction n with
    | zero => exact fun s a => ⟨_, rfl⟩
    | succ n ih =>
      intro s a
      obtain ⟨r, hr⟩ := Option.isSome_iff_exists.mp (hb s)
      obtain ⟨t, ht⟩ := ih r.1 (a + r.2)
      exact ⟨t, by rw [batches, hr]; exact ht⟩
  intro n
  induction n with
  | zero => exact fun e s => rfl
  | succ n ih =>
    intro e s
    obtain ⟨r, hr⟩ := h1 100 s 0
    obtain ⟨t, ht⟩ := Option.isSome_iff_exists.mp (ih (e + 1) r.1)
    rw [epochs, hr]
    simp only [Option.bind_eq_bind, Option.bind_some, ht]
    split
    · split <;> rfl
    · rfl

/-- With a loss that is always 0 the training ends after ten epochs. -/
example : ∃ r, epochs (fun _ : Unit => some ((), (0 : ℝ))) 1000 0 () = some r ∧ r.2.1 = 10 := by
  obtain ⟨r, hr⟩ := Option.isSome_iff_exists.mp (epochs_total (batch := fun _ : Unit => some ((), (0 : ℝ))) (fun _ => rfl) 1000 0 ())
  refine ⟨r, hr, ?_⟩
  have h0 : ∀ e, averageLoss (fun _ : Unit => some ((), (0 : ℝ))) () e = 0 := by
    intro e
    have : ∀ n, lossAt (fun _ : Unit => some ((), (0 : ℝ))) () n = 0 := by
      intro n
      unfold lossAt
      cases after (fun _ : Unit => some ((), (0 : ℝ))) () n <;> rfl
    simp [averageLoss, this]
  obtain ⟨a1, a2, a3, a4, a5⟩ := sinusoid_epochs _ hr
  have h10 : ∀ e, 1 ≤ e → e ≤ r.2.1 → e % 10 = 0 → e = r.2.1 := by
    intro e h1 h2 h3
    by_contra hne
    refine a4 (e, averageLoss (fun _ : Unit => some ((), (0 : ℝ))) () e) ?_ (lt_of_le_of_ne h2 hne) ?_
    · rw [a3]
      refine List.mem_map.mpr ⟨e, ?_, rfl⟩
      simp only [List.mem_filter, List.mem_range'_1, decide_eq_true_eq]
      omega
    · rw [h0]; norm_num
  rcases Nat.lt_or_ge r.2.1 10 with h | h
  · obtain ⟨l, hl, h1, -⟩ := a5 (by omega)
    rw [a3] at hl
    obtain ⟨e, he, rfl⟩ := List.mem_map.mp hl
    simp only [List.mem_filter, List.mem_range'_1, decide_eq_true_eq] at he
    simp only at h1
    omega
  · exact (h10 10 (by norm_num) h rfl).symm

/-- **C77, sinusoid: one seed for two purposes.** The weights and the data are made of the same random numbers, because
both generators have the same seed: the first input of the first batch is a function of the second weight. -/
theorem sinusoid_same_numbers (s : S) : ∃ qs s' d s'', initRandom next sineParams s = some (qs, s') ∧
    generateBatch next 32 s = some (d, s'') ∧
    (d.getD 0 (0, 0)).1 = -(Real.pi / 2) * (1 + (qs.getD 0 ⟨0, 0, []⟩).val 1 / √(6 / 65)) := by
  obtain ⟨m, hm⟩ : ∃ m : Dense ℝ, m = grid 64 1 fun k => -(1.0 * √(6 / ((64 + 1 : Nat) : ℝ))) +
      (1.0 * √(6 / ((64 + 1 : Nat) : ℝ)) - -(1.0 * √(6 / ((64 + 1 : Nat) : ℝ)))) * Init.unit next s k := ⟨_, rfl⟩
  have hx : Init.xavierUniform next (⟨64, 1, List.replicate 64 0⟩ : Dense ℝ) 1.0 s = some (m, stateAt next s (64 * 1)) := by
    rw [hm]
    exact Init.uniform_spec next ⟨64, 1, List.replicate 64 0⟩ List.length_replicate _ _ s
  obtain ⟨qs, s', h1, -⟩ := initRandom_spec next sineParams.tail (by
    intro p hp
    simp only [sineParams, List.tail_cons, List.mem_cons, List.not_mem_nil, or_false] at hp
    rcases hp with rfl | rfl | rfl | rfl | rfl | rfl | rfl <;> exact List.length_replicate) (stateAt next s (64 * 1))
  refine ⟨m :: qs, s', _, _, ?_, generateBatch_spec next 32 s, ?_⟩
  · rw [show sineParams = ⟨64, 1, List.replicate 64 0⟩ :: sineParams.tail from rfl, initRandom, hx]
    simp only [Option.bind_eq_bind, Option.bind_some, h1]
  · have hp : (0 : ℝ) < √(6 / 65) := Real.sqrt_pos.mpr (by norm_num)
    have hv : m.val 1 = √(6 / 65) * (2 * Init.unit next s 1 - 1) := by
      rw [hm, Dense.val]
      simp only [grid, List.getD_eq_getElem?_getD, List.getElem?_map]
      rw [show (List.range (64 * 1))[1]? = some 1 from rfl]
      simp only [Option.map_some, Option.getD_some]
      norm_num
      ring
    rw [List.getD_cons_zero, hv]
    simp [inputAt, drawn]
    field_simp

/-- All weights 0, all biases 1. -/
noncomputable def flatWeights (x : Nat) : Dense ℝ :=
  ([⟨64, 1, List.replicate 64 0⟩, ⟨64, 1, List.replicate 64 1⟩, ⟨64, 64, List.replicate 4096 0⟩, ⟨64, 1, List.replicate 64 1⟩,
   ⟨64, 64, List.replicate 4096 0⟩, ⟨64, 1, List.replicate 64 1⟩, ⟨1, 64, List.replicate 64 0⟩, ⟨1, 1, List.replicate 1 1⟩] :
    List (Dense ℝ)).getD x ⟨0, 0, []⟩

theorem flat_affine {i r c n m : Nat} (x : Nat → ℝ) {j : Nat} (hj : j < m) :
    affineMap i ⟨r, c, List.replicate n 0⟩ ⟨m, 1, List.replicate m 1⟩ x j = 1 := by
  have h0 : ∀ k : Nat, (⟨r, c, List.replicate n 0⟩ : Dense ℝ).el j k = 0 := by
    intro k
    simp only [Dense.el, Dense.at2]
    split
    · rfl
    · split
      · rfl
      · rw [List.getElem?_replicate]
        split <;> rfl
  have h1 : (List.replicate m (1 : ℝ)).getD j 0 = 1 := by simp [List.getD_eq_getElem?_getD, hj]
  simp only [affineMap, h0, Dense.val, h1, zero_mul, Finset.sum_const_zero, zero_add]

/-- The hypotheses of `sinusoid_gradient` can be met. -/
example : (∀ x < sineNet.size, (flatWeights x).WF) ∧ sineNet.Fits flatWeights 0 ∧
    sineNet.Regular flatWeights 0 ([(0.5, Real.cos 0.5), (2, Real.cos 2)].map fun p => (scalar p.1).val) := by
  refine ⟨?_, ?_, ?_⟩
  · intro x hx
    have hx : x < 8 := hx
    interval_cases x <;> exact List.length_replicate
  · simp only [sineNet, Net.Fits, Net.size, Dims]
    exact ⟨⟨⟨rfl, rfl⟩, rfl, rfl⟩, trivial, ⟨⟨rfl, rfl⟩, rfl, rfl⟩, trivial, ⟨⟨rfl, rfl⟩, rfl, rfl⟩, trivial, ⟨rfl, rfl⟩, rfl, rfl⟩
  · have h : ∀ (i k : Nat) (x : Nat → ℝ) (j : Nat), (k = 0 ∨ k = 2 ∨ k = 4) → j < 64 →
        affineMap i (flatWeights k) (flatWeights (k + 1)) x j ≠ 0 := by
      intro i k x j hk hj
      have : affineMap i (flatWeights k) (flatWeights (k + 1)) x j = 1 := by
        rcases hk with rfl | rfl | rfl <;> exact flat_affine x hj
      rw [this]; exact one_ne_zero
    simp only [sineNet, Net.Regular, Net.apply, Net.size, List.map_cons, List.map_nil, true_and, and_true, List.forall_mem_cons,
      List.not_mem_nil, false_imp_iff, implies_true, Point.Smooth]
    refine ⟨⟨?_, ?_⟩, ⟨?_, ?_⟩, ?_, ?_⟩ <;> intro j hj <;> exact h _ _ _ j (by simp) hj

end Verif.Examples
