import Verif.Model.GradFn
import Mathlib.Analysis.Calculus.Deriv.Basic
import Mathlib.Algebra.BigOperators.Group.Finset.Basic

set_option autoImplicit false

/-!
# What a backward pass has to compute

The gradients of the operands are right if, however the operands move, the change of the result weighted
with the result's gradient is the change of the operands weighted with their gradients.
-/

namespace Verif
open scoped BigOperators Topology

/-- Element `i` in row-major order. -/
def Dense.val (d : Dense ℝ) (i : Nat) : ℝ := d.data.getD i 0

/-- A well-formed matrix of the same dimensions. -/
structure Dense.Like (x x' : Dense ℝ) : Prop where
  wf : x'.WF
  rows : x'.rows = x.rows
  cols : x'.cols = x.cols

namespace GradFn

/-- `X` moves through `x` at time 0, with velocity `v`. -/
structure Curve (x : Dense ℝ) (X : ℝ → Dense ℝ) (v : Nat → ℝ) : Prop where
  start : X 0 = x
  like : ∀ t, x.Like (X t)
  deriv : ∀ i < x.data.length, HasDerivAt (fun t => (X t).val i) (v i) 0

/-- The gradient of operand `k` at element `i`; an operand that got no gradient has gradient 0. -/
def gradVal (gs : List (Option (Dense ℝ))) (k i : Nat) : ℝ :=
  match gs[k]? with
  | some (some g) => g.val i
  | _ => 0

/-- `gs` are the gradients of the operands `xs` for the gradient `gy` of the result, as far as the
operands in `act` are concerned: for all ways to move the operands (those not in `act` stay) the forward
pass gives results of the dimensions of `gy`, and the velocity of `∑ gy_i y_i` is `∑ gs_ki v_ki`. -/
def IsVJPOn (act : Nat → Prop) (op : GradFn ℝ) (xs : List (Dense ℝ)) (gy : Dense ℝ)
    (gs : List (Option (Dense ℝ))) : Prop :=
  ∀ (X : Nat → ℝ → Dense ℝ) (v : Nat → Nat → ℝ),
    (∀ k x, xs[k]? = some x → Curve x (X k) (v k)) →
    (∀ k, ¬ act k → ∀ t, X k t = X k 0) → (∀ k, ¬ act k → ∀ i, v k i = 0) →
    ∃ Y : ℝ → Dense ℝ,
      (∀ᶠ t in 𝓝 0, op.forward ((List.range xs.length).map fun k => X k t) = some (Y t) ∧ gy.Like (Y t)) ∧
      HasDerivAt (fun t => ∑ i ∈ Finset.range gy.data.length, gy.val i * (Y t).val i)
        (∑ k ∈ Finset.range xs.length,
          ∑ i ∈ Finset.range ((xs.map fun x => x.data.length).getD k 0), gradVal gs k i * v k i) 0

/-- All operands may move. -/
def IsVJP : GradFn ℝ → List (Dense ℝ) → Dense ℝ → List (Option (Dense ℝ)) → Prop :=
  IsVJPOn fun _ => True

/-- Every gradient has the dimensions of its operand. -/
def GradShapes (xs : List (Dense ℝ)) (gs : List (Option (Dense ℝ))) : Prop :=
  gs.length = xs.length ∧
    ∀ (k : Nat) (x g : Dense ℝ), xs[k]? = some x → gs[k]? = some (some g) → x.Like g

/-- The operator is right at operands `xs`, as far as the operands in `act` are concerned: whenever the
forward pass succeeds, the backward pass succeeds for every gradient of the right dimensions and gives
gradients of the right dimensions and values. -/
def CorrectOn (act : Nat → Prop) (op : GradFn ℝ) (xs : List (Dense ℝ)) : Prop :=
  ∀ y, op.forward xs = some y → ∀ gy, y.Like gy →
    ∃ gs, op.backward xs gy = some gs ∧ GradShapes xs gs ∧ IsVJPOn act op xs gy gs

/-- The operator is right at operands `xs`. -/
def Correct : GradFn ℝ → List (Dense ℝ) → Prop := CorrectOn fun _ => True

end GradFn
end Verif
