import Verif.Model.Optim
import Verif.Lemmas.GradFn
import Mathlib.Algebra.BigOperators.Intervals

set_option autoImplicit false

/-!
# What the optimisation strategies should compute (C27)

The published methods, written for the sequence of all gradients seen so far: no state, no buffers.
`g k i` is element `i` of the `k`-th gradient (`k = 0, 1, …`), `t k` the time step at which it was applied.
-/

namespace Verif.OptimSpec
open Optim Dense
open scoped BigOperators

/-- The steps of a history with the time step at which each happens, when the clock shows `t` at first. -/
def timed : Nat → List Ev → List (Nat × Dense ℝ)
  | _, [] => []
  | t, .tick :: es => timed (t + 1) es
  | t, .step g :: es => (t, g) :: timed t es

/-- The number of gradients in a history. -/
def count (es : List Ev) : Nat := (timed 1 es).length

/-- Element `i` of the `k`-th gradient. -/
noncomputable def grads (es : List Ev) (k i : Nat) : ℝ := ((timed 1 es).getD k (0, ⟨0, 0, []⟩)).2.val i

/-- The time step of the `k`-th gradient: one more than the number of ticks before it. -/
def times (es : List Ev) (k : Nat) : Nat := ((timed 1 es).getD k (0, ⟨0, 0, []⟩)).1

noncomputable section

/-- The exponential moving average of `x 0, …, x k` with decay `β`, started at zero. -/
def average (β : ℝ) (x : Nat → ℝ) (k : Nat) : ℝ := ∑ j ∈ Finset.range (k + 1), (1 - β) * β ^ (k - j) * x j

/-- The iterates which start in `θ0` and move by `- δ k` at step `k`. -/
def trajectory (θ0 : Nat → ℝ) (δ : Nat → (Nat → ℝ) → Nat → ℝ) : Nat → Nat → ℝ
  | 0, i => θ0 i
  | k + 1, i => trajectory θ0 δ k i - δ k (trajectory θ0 δ k) i

/-- A run has succeeded, the gradient is absent afterwards, and the parameter holds `θ n`. -/
def Follows {O : Type} (p : Param) (θ : Nat → Nat → ℝ) (n : Nat) (r : Option (O × Param)) : Prop :=
  ∃ o p', r = some (o, p') ∧ p'.grad = none ∧ p'.value.WF ∧ p'.value.rows = p.value.rows ∧
    p'.value.cols = p.value.cols ∧ ∀ i < p.value.rows * p.value.cols, p'.value.val i = θ n i

/-- A parameter which is about to be trained: no gradient, no state. -/
def Fresh (p : Param) : Prop := p.value.WF ∧ p.grad = none ∧ p.state = .nil

/-- Every gradient of the history has the shape of the parameter. -/
def Fits (p : Param) (es : List Ev) : Prop :=
  ∀ g, Ev.step g ∈ es → g.WF ∧ g.rows = p.value.rows ∧ g.cols = p.value.cols

/-- Plain gradient descent. -/
def sgd (α : ℝ) (g : Nat → Nat → ℝ) (k : Nat) (_θ : Nat → ℝ) (i : Nat) : ℝ := α * g k i

/-- The velocity of the momentum methods. -/
def velocity (α μ : ℝ) (g : Nat → Nat → ℝ) (k i : Nat) : ℝ := ∑ j ∈ Finset.range (k + 1), μ ^ (k - j) * (α * g j i)

/-- Classical momentum (Polyak): move by the velocity. -/
def momentum (α μ : ℝ) (g : Nat → Nat → ℝ) (k : Nat) (_θ : Nat → ℝ) (i : Nat) : ℝ := velocity α μ g k i

/-- AdaGrad (Duchi et al.). -/
def adaGrad (lr ε : ℝ) (g : Nat → Nat → ℝ) (k : Nat) (_θ : Nat → ℝ) (i : Nat) : ℝ :=
  lr * (g k i / (Real.sqrt (∑ j ∈ Finset.range (k + 1), g j i ^ 2) + ε))

/-- RMSProp (Hinton). -/
def rmsProp (lr ε decay : ℝ) (g : Nat → Nat → ℝ) (k : Nat) (_θ : Nat → ℝ) (i : Nat) : ℝ :=
  lr * (g k i / (Real.sqrt (average decay (fun j => g j i ^ 2) k) + ε))

/-- Adam's direction: first over second moment. -/
def adamDir (c : AdamConfig) (g : Nat → Nat → ℝ) (k i : Nat) : ℝ :=
  average c.beta1 (fun j => g j i) k / (Real.sqrt (average c.beta2 (fun j => g j i ^ 2) k) + c.epsilon)

/-- The step size with the bias corrections (Kingma & Ba, end of section 2). -/
def biased (α β1 β2 : ℝ) (t : Nat) : ℝ := α * Real.sqrt (1 - β2 ^ t) / (1 - β1 ^ t)

/-- Adam (Kingma & Ba, the form given at the end of section 2). -/
def adam (c : AdamConfig) (t : Nat → Nat) (g : Nat → Nat → ℝ) (k : Nat) (_θ : Nat → ℝ) (i : Nat) : ℝ :=
  biased c.stepSize c.beta1 c.beta2 (t k) * adamDir c g k i

/-- AdamW (Loshchilov & Hutter): the decay is decoupled from the bias-corrected step. -/
def adamW (c : AdamConfig) (t : Nat → Nat) (g : Nat → Nat → ℝ) (k : Nat) (θ : Nat → ℝ) (i : Nat) : ℝ :=
  biased c.stepSize c.beta1 c.beta2 (t k) * adamDir c g k i + c.stepSize * c.lambda * θ i

/-- What the code's AdamW does instead: the decay is multiplied by the bias corrections too. -/
def adamWCode (c : AdamConfig) (t : Nat → Nat) (g : Nat → Nat → ℝ) (k : Nat) (θ : Nat → ℝ) (i : Nat) : ℝ :=
  biased c.stepSize c.beta1 c.beta2 (t k) * (adamDir c g k i + c.lambda * θ i)

/-- The length of the simple moving average which approximates the exponential one (RAdam, Liu et al.). -/
def smaLength (β2 : ℝ) (t : Nat) : ℝ := (2 / (1 - β2) - 1) - 2 * t * β2 ^ t / (1 - β2 ^ t)

/-- The rectification term of RAdam. -/
def rectification (β2 : ℝ) (t : Nat) : ℝ :=
  Real.sqrt ((smaLength β2 t - 4) * (smaLength β2 t - 2) * (2 / (1 - β2) - 1) /
    (((2 / (1 - β2) - 1) - 4) * ((2 / (1 - β2) - 1) - 2) * smaLength β2 t))

/-- RAdam (Liu et al., algorithm 2): the adaptive step, rectified, when the variance is tractable; otherwise the
bias-corrected momentum without adaptation. -/
def radam (c : RAdamConfig) (t : Nat → Nat) (g : Nat → Nat → ℝ) (k : Nat) (_θ : Nat → ℝ) (i : Nat) : ℝ :=
  let mHat := average c.beta1 (fun j => g j i) k / (1 - c.beta1 ^ t k)
  let vHat := Real.sqrt (average c.beta2 (fun j => g j i ^ 2) k / (1 - c.beta2 ^ t k))
  if smaLength c.beta2 (t k) > 4 then c.stepSize * rectification c.beta2 (t k) * mHat / (vHat + c.epsilon)
  else c.stepSize * mHat

/-- What the code's RAdam does: the adaptive step in both cases. -/
def radamCode (c : RAdamConfig) (t : Nat → Nat) (g : Nat → Nat → ℝ) (k : Nat) (_θ : Nat → ℝ) (i : Nat) : ℝ :=
  let mHat := average c.beta1 (fun j => g j i) k / (1 - c.beta1 ^ t k)
  let vHat := Real.sqrt (average c.beta2 (fun j => g j i ^ 2) k / (1 - c.beta2 ^ t k))
  let r := if smaLength c.beta2 (t k) > 4 then rectification c.beta2 (t k) else 1
  c.stepSize * r * mHat / (vHat + c.epsilon)

/-- The Euclidean norm of a parameter of `n` elements. -/
def norm2 (n : Nat) (x : Nat → ℝ) : ℝ := Real.sqrt (∑ i ∈ Finset.range n, x i ^ 2)

/-- The ratio of two norms, 1 if one of them is zero. -/
def ratio (a b : ℝ) : ℝ := if a = 0 ∨ b = 0 then 1 else a / b

/-- LAMB (You et al., algorithm 2) for a layer of `n` elements: the bias-corrected Adam direction plus decay, rescaled
to the norm of the parameter. -/
def lamb (n : Nat) (c : AdamConfig) (t : Nat → Nat) (g : Nat → Nat → ℝ) (k : Nat) (θ : Nat → ℝ) (i : Nat) : ℝ :=
  let mHat := fun i => average c.beta1 (fun j => g j i) k / (1 - c.beta1 ^ t k)
  let vHat := fun i => Real.sqrt (average c.beta2 (fun j => g j i ^ 2) k / (1 - c.beta2 ^ t k))
  let u := fun i => mHat i / (vHat i + c.epsilon) + c.lambda * θ i
  c.stepSize * ratio (norm2 n θ) (norm2 n u) * u i

/-- What the code's LAMB does: the direction is not bias-corrected, the step size is. -/
def lambCode (n : Nat) (c : AdamConfig) (t : Nat → Nat) (g : Nat → Nat → ℝ) (k : Nat) (θ : Nat → ℝ) (i : Nat) : ℝ :=
  let u := fun i => adamDir c g k i + c.lambda * θ i
  biased c.stepSize c.beta1 c.beta2 (t k) * ratio (norm2 n θ) (norm2 n u) * u i

end

end Verif.OptimSpec
