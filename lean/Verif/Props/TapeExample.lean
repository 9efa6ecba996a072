import Verif.Props.Tape
import Mathlib.Tactic.NormNum

set_option autoImplicit false
set_option linter.unusedSimpArgs false

/-!
# A network with a hidden layer as an instance of C67

The squared error `sum ((w2 tanh(w1 x + b1) + b2 - z)²)`, for all sizes and all values.
-/

namespace Verif.Tape.Network
open GradFn Backward Dense
open scoped BigOperators Topology

/-- 0: w1, 1: b1, 2: w2, 3: b2 (trainable), 4: input, 5: target. -/
noncomputable def P : List Instr :=
  [.leaf true, .leaf true, .leaf true, .leaf true, .leaf false, .leaf false,
    .call affine [1, 0, 4], .call tanh [6], .call affine [3, 2, 7], .call sub [8, 5], .call prod [9, 9],
    .call reduceSum [10]]

theorem needs_P : needs P [] =
    [true, true, true, true, false, false, true, true, true, true, true, true] := by
  simp [needs, P]

/-- Whenever the network can be evaluated, its operators are right, if the target is a column. -/
theorem safe {θ : Nat → Dense ℝ} {vals : List (Dense ℝ)} (hrun : run θ P [] = some vals) (hz : (θ 5).cols = 1) :
    AllSafe P vals := by
  have hr := ran_iff.mp hrun
  have h5 : vals.getD 5 ⟨0, 0, []⟩ = θ 5 := hr.leaf 5 _ rfl
  have h9 := hr.call 9 sub [8, 5] rfl
  have h10 := hr.call 10 prod [9, 9] rfl
  have c9 : (vals.getD 9 ⟨0, 0, []⟩).cols = 1 := by
    have h9 : zipOp (· - ·) (vals.getD 8 ⟨0, 0, []⟩) (vals.getD 5 ⟨0, 0, []⟩) = some (vals.getD 9 ⟨0, 0, []⟩) := h9
    simp only [zipOp] at h9
    split at h9
    · rename_i hd
      simp only [sameDims, Bool.and_eq_true, beq_iff_eq] at hd
      rw [← Option.some.inj h9]
      show (vals.getD 8 ⟨0, 0, []⟩).cols = 1
      rw [hd.2, h5, hz]
    · cases h9
  have c10 : (vals.getD 10 ⟨0, 0, []⟩).cols = 1 := by
    have h10 : zipOp (· * ·) (vals.getD 9 ⟨0, 0, []⟩) (vals.getD 9 ⟨0, 0, []⟩) = some (vals.getD 10 ⟨0, 0, []⟩) := h10
    simp only [zipOp] at h10
    split at h10
    · rw [← Option.some.inj h10]; exact c9
    · cases h10
  intro c f args hc _
  match c, hc with
  | 0, hc | 1, hc | 2, hc | 3, hc | 4, hc | 5, hc => cases hc
  | 6, hc => cases hc; exact .affine
  | 7, hc => cases hc; exact .tanh
  | 8, hc => cases hc; exact .affine
  | 9, hc => cases hc; exact .sub
  | 10, hc => cases hc; exact .prod
  | 11, hc => cases hc; exact .reduceSum c10
  | _ + 12, hc => cases hc

theorem dataWF {θ : Nat → Dense ℝ} {vals : List (Dense ℝ)} (hrun : run θ P [] = some vals)
    (hθ : ∀ i < 6, (θ i).WF) : DataWF P vals := by
  have hr := ran_iff.mp hrun
  refine ⟨fun c b hc => ?_, fun c v hc => ?_, fun c f args hc hn => ?_⟩
  · rw [hr.leaf c b hc]
    refine hθ c ?_
    match c, hc with
    | 0, _ | 1, _ | 2, _ | 3, _ | 4, _ | 5, _ => omega
    | 6, hc | 7, hc | 8, hc | 9, hc | 10, hc | 11, hc => cases hc
    | _ + 12, hc => cases hc
  · match c, hc with
    | 0, hc | 1, hc | 2, hc | 3, hc | 4, hc | 5, hc => cases hc
    | 6, hc | 7, hc | 8, hc | 9, hc | 10, hc | 11, hc => cases hc
    | _ + 12, hc => cases hc
  · rw [needs_P] at hn
    match c, hc with
    | 0, hc | 1, hc | 2, hc | 3, hc | 4, hc | 5, hc => cases hc
    | 6, _ | 7, _ | 8, _ | 9, _ | 10, _ | 11, _ => simp at hn
    | _ + 12, hc => cases hc

/-- The result has one element. -/
theorem one_element {θ : Nat → Dense ℝ} {vals : List (Dense ℝ)} (hrun : run θ P [] = some vals) :
    (vals.getD 11 ⟨0, 0, []⟩).data.length = 1 := by
  have h := (ran_iff.mp hrun).call 11 reduceSum [10] rfl
  rw [← Option.some.inj h]; rfl

/-- Training the network: whatever its sizes, weights and input, once it has been evaluated Backward of the
error returns under every schedule, and if some gradient is not zero one step of SGD at a small rate
reduces the error. -/
theorem trains {θ : Nat → Dense ℝ} {vals : List (Dense ℝ)} (hrun : run θ P [] = some vals)
    (hθ : ∀ i < 6, (θ i).WF) (hz : (θ 5).cols = 1) {s₀ : St P.length (Nat → ℝ)} (hcl : Clean (graph P) s₀)
    (hg0 : ∀ x, s₀.grad x = none) :
    Returns (graph P) (progFns (graph P) (fns P) (valOf vals)) [⟨11, by decide⟩] s₀ ∧
    ∀ s, Reach (graph P) (progFns (graph P) (fns P) (valOf vals)) [⟨11, by decide⟩] s₀ s → s.main = .returned →
      ∀ (l : Fin P.length) (i : Nat), trainable P l = true → i < (θ l).data.length → gnum (s.grad l) i ≠ 0 →
      ∃ ε > 0, ∀ α, 0 < α → α < ε → ∀ τ : Nat → Dense ℝ,
        (∀ x : Fin P.length, trainable P x = true → SgdStep α (θ x) (s.grad x) (τ x)) →
        (run (leafVals P vals τ) (P.map held) []).isSome ∧
        output P vals 11 τ < (vals.getD 11 ⟨0, 0, []⟩).val 0 := by
  refine ⟨program_backward_returns hrun (dataWF hrun hθ) (safe hrun hz) _ hcl, ?_⟩
  intro s hr hm l i hl hi hne
  exact sgd_descends hrun (dataWF hrun hθ) (safe hrun hz) (y := 11) rfl (by rw [needs_P]; rfl) (one_element hrun)
    hcl hg0 (by decide) hr hm hl hi hne

/-- Weights, input and target of sizes 1, 1, 1, with which the network can be evaluated. -/
example : ∃ vals, run (fun i => ⟨1, 1, [(i : ℝ)]⟩) P [] = some vals := by
  refine ⟨(List.range 6).map (fun i => (⟨1, 1, [(i : ℝ)]⟩ : Dense ℝ)) ++
    [⟨1, 1, [1]⟩, ⟨1, 1, [tanhF 1]⟩, ⟨1, 1, [2 * tanhF 1 + 3]⟩, ⟨1, 1, [2 * tanhF 1 + 3 - 5]⟩,
      ⟨1, 1, [(2 * tanhF 1 + 3 - 5) * (2 * tanhF 1 + 3 - 5)]⟩,
      ⟨1, 1, [(2 * tanhF 1 + 3 - 5) * (2 * tanhF 1 + 3 - 5)]⟩], ?_⟩
  have hm : ∀ a b : ℝ, Dense.mul (⟨1, 1, [a]⟩ : Dense ℝ) ⟨1, 1, [b]⟩ = some ⟨1, 1, [a * b]⟩ := by
    intro a b
    have hd : dotProd ([a] : List ℝ) [b] = some (a * b) := by
      rw [dotProd, if_neg (by simp), if_neg (by simp)]; simp
    simp [Dense.mul, dotRows, hd, GoSlice.sub, make, List.range_succ]
  have ha : ∀ a b c : ℝ, affine.forward [⟨1, 1, [c]⟩, ⟨1, 1, [a]⟩, ⟨1, 1, [b]⟩] = some ⟨1, 1, [a * b + c]⟩ := by
    intro a b c
    simp [affine, hm, zipOp, sameDims, affineLoop]
  have ht : ∀ a : ℝ, tanh.forward [⟨1, 1, [a]⟩] = some ⟨1, 1, [tanhF a]⟩ := by
    intro a
    simp [tanh, elementwise, apply_const, Dense.map]
  simp [run, P, step, List.range_succ, ha, ht, sub, prod, reduceSum, zipOp, sameDims, Dense.sum, scalar]

end Verif.Tape.Network
