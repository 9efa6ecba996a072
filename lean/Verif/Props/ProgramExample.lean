import Verif.Props.Program
import Verif.Props.GradGather
import Mathlib.Tactic.FinCases
import Mathlib.Tactic.NormNum

set_option autoImplicit false
set_option linter.unusedSimpArgs false

/-!
# A small network as an instance of C48

The squared error of an affine layer: `reduceSum ((b + w x - z) * (b + w x - z))`.
-/

namespace Verif.Backward.Regression
open GradFn Dense Verif.Backward
open scoped BigOperators Topology

/-- 0: weights (trainable), 1: input, 2: bias (trainable), 3: affine, 4: target, 5: difference,
6: square, 7: sum. -/
def G : Graph 8 where
  node := ![.leaf true, .leaf false, .leaf true, .op [2, 0, 1], .leaf false, .op [3, 4], .op [5, 5], .op [6]]

noncomputable def op : Fin 8 → GradFn ℝ := ![affine, affine, affine, affine, affine, sub, prod, reduceSum]

def V : Fin 8 → Dense ℝ :=
  ![⟨1, 2, [1, 2]⟩, ⟨2, 1, [3, 4]⟩, ⟨1, 1, [5]⟩, ⟨1, 1, [16]⟩, ⟨1, 1, [10]⟩, ⟨1, 1, [6]⟩, ⟨1, 1, [36]⟩, ⟨1, 1, [36]⟩]

def s₀ : St 8 (Nat → ℝ) where
  grad := fun _ => none
  st := fun _ => .idle
  pend := fun _ => 0
  chan := fun _ => .unmade
  thr := fun _ => .none
  wg := 0
  main := .returned
  panicked := false
  log := []

theorem acyclic : G.Acyclic := by decide

theorem clean : Clean G s₀ := ⟨fun _ => rfl, fun _ => rfl, fun _ _ => rfl, rfl⟩

theorem wf (x : Fin 8) : (V x).WF := by
  fin_cases x <;> rfl

theorem evaluates : Evaluates G op V := by
  intro c hc
  fin_cases c <;> first | (exact absurd hc (by decide)) | skip
  · have hm : Dense.mul (⟨1, 2, [1, 2]⟩ : Dense ℝ) ⟨2, 1, [3, 4]⟩ = some ⟨1, 1, [11]⟩ := by
      have hd : dotProd ([1, 2] : List ℝ) [3, 4] = some 11 := by
        rw [dotProd, if_neg (by simp), if_neg (by simp)]; norm_num
      simp [Dense.mul, dotRows, hd, GoSlice.sub, make, List.range_succ]
    show affine.forward [⟨1, 1, [5]⟩, ⟨1, 2, [1, 2]⟩, ⟨2, 1, [3, 4]⟩] = some ⟨1, 1, [16]⟩
    simp only [affine, hm, Option.bind_eq_bind, Option.bind_some]
    norm_num [zipOp, sameDims, affineLoop]
  · show sub.forward [⟨1, 1, [16]⟩, ⟨1, 1, [10]⟩] = some ⟨1, 1, [6]⟩
    norm_num [sub, zipOp, sameDims]
  · show prod.forward [⟨1, 1, [6]⟩, ⟨1, 1, [6]⟩] = some ⟨1, 1, [36]⟩
    norm_num [prod, zipOp, sameDims]
  · show reduceSum.forward [⟨1, 1, [36]⟩] = some ⟨1, 1, [36]⟩
    norm_num [reduceSum, Dense.sum, scalar]

theorem opsCorrect : OpsCorrect G op V := by
  intro c hc _
  fin_cases c <;> first | (exact absurd hc (by decide)) | skip
  · exact correctOn_of_correct (affine_correct (by
      intro x hx
      obtain ⟨o, -, rfl⟩ := List.mem_map.mp hx
      exact wf o)) _
  · exact correctOn_of_correct (sub_correct (wf 3) (wf 4)) _
  · exact correctOn_of_correct (prod_correct (wf 5) (wf 5)) _
  · exact correctOn_of_correct ((reduceSum_correct_iff (wf 6)).mpr rfl) _

theorem delivers : Delivers G op V := by
  intro c hc _ g gs hgs k o hk ho hr
  fin_cases c <;> first | (exact absurd hc (by decide)) | skip
  · match k, hk with
    | 0, hk => obtain rfl : 2 = o := Option.some.inj hk; exact absurd ho (by decide)
    | 1, hk => obtain rfl : 0 = o := Option.some.inj hk; exact absurd ho (by decide)
    | 2, hk => obtain rfl : 1 = o := Option.some.inj hk; exact absurd ho (by decide)
    | k + 3, hk => exact absurd hk (by simp [Graph.operands, G])
  · have h : sub.backward [V 3, V 4] (ofVals (V 5) g) = some gs := hgs
    have h' : some [some (ofVals (V 5) g), some ((ofVals (V 5) g).map (· * -1))] = some gs := h
    obtain rfl := Option.some.inj h'
    match k, hk with
    | 0, hk => exact ⟨_, rfl⟩
    | 1, hk => exact ⟨_, rfl⟩
    | k + 2, hk => exact absurd hk (by simp [Graph.operands, G])
  · have h : prod.backward [V 5, V 5] (ofVals (V 6) g) = some gs := hgs
    have h' : some [some (zip2 (· * ·) (V 5) (ofVals (V 6) g)), some (zip2 (· * ·) (V 5) (ofVals (V 6) g))] = some gs := h
    obtain rfl := Option.some.inj h'
    match k, hk with
    | 0, hk => exact ⟨_, rfl⟩
    | 1, hk => exact ⟨_, rfl⟩
    | k + 2, hk => exact absurd hk (by simp [Graph.operands, G])
  · have h : reduceSum.backward [V 6] (ofVals (V 7) g) = some gs := hgs
    have h' : some [some (⟨1, 1, [g 0]⟩ : Dense ℝ)] = some gs := h
    obtain rfl := Option.some.inj h'
    match k, hk with
    | 0, hk => exact ⟨_, rfl⟩
    | k + 1, hk => exact absurd hk (by simp [Graph.operands, G])

/-- The call returns under every schedule, and then the loss changes with the weights and the bias as their
gradients say. -/
example : Returns G (progFns G op V) [7] s₀ ∧ ∀ s, Reach G (progFns G op V) [7] s₀ s → s.main = .returned →
    ∀ (Θ : Fin 8 → ℝ → Dense ℝ) (v : Fin 8 → Nat → ℝ), (∀ x, G.node x = .leaf true → Curve (V x) (Θ x) (v x)) →
      ∃ W, Moves G op V Θ W ∧ HasDerivAt (fun t => (W 7 t).val 0)
        (gnum (s.grad 0) 0 * v 0 0 + gnum (s.grad 0) 1 * v 0 1 + gnum (s.grad 2) 0 * v 2 0) 0 := by
  refine ⟨library_backward_returns acyclic wf evaluates opsCorrect delivers [7] clean, ?_⟩
  intro s hr hm Θ v hΘ
  obtain ⟨W, h1, h2⟩ := library_gradient_single acyclic wf evaluates opsCorrect (y := 7) rfl (by decide) rfl clean
    (fun _ => rfl) hr hm hΘ (L := {0, 2}) (by
      intro x
      fin_cases x <;> simp [G])
  refine ⟨W, h1, h2.congr_deriv ?_⟩
  have l0 : (V 0).data.length = 2 := rfl
  have l2 : (V 2).data.length = 1 := rfl
  rw [Finset.sum_pair (by decide), l0, l2]
  simp [Finset.sum_range_succ]

end Verif.Backward.Regression
