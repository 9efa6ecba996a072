import Verif.Model.Program
import Verif.Spec.GradFn
import Verif.Spec.Backward

set_option autoImplicit false

namespace Verif.Backward
open GradFn
open scoped BigOperators Topology
variable {n : Nat}

/-- `V` are values of all tensors: every operator's value is its function applied to the values of its
operands. -/
def Evaluates (G : Graph n) (op : Fin n → GradFn ℝ) (V : Fin n → Dense ℝ) : Prop :=
  ∀ c, G.isOp c = true → (op c).forward ((G.operands c).map V) = some (V c)

/-- The operators that depend on trainable leaves are right at the values `V`, as far as operands that
require gradients are concerned. -/
def OpsCorrect (G : Graph n) (op : Fin n → GradFn ℝ) (V : Fin n → Dense ℝ) : Prop :=
  ∀ c, G.isOp c = true → G.requiresGrad c = true →
    CorrectOn (fun k => ∃ o, (G.operands c)[k]? = some o ∧ G.requiresGrad o = true) (op c)
      ((G.operands c).map V)

/-- The values move: the trainable leaves as `Θ` does, the other tensors that are no operators
(constants, results of `StopGrad`) stay, and near time 0 the operators are evaluated. -/
structure Moves (G : Graph n) (op : Fin n → GradFn ℝ) (V : Fin n → Dense ℝ) (Θ W : Fin n → ℝ → Dense ℝ) :
    Prop where
  start : ∀ x, W x 0 = V x
  leaf : ∀ x, G.node x = .leaf true → ∀ t, W x t = Θ x t
  const : ∀ x, G.isOp x = false → G.node x ≠ .leaf true → ∀ t, W x t = V x
  eval : ∀ᶠ t in 𝓝 0, Evaluates G op fun x => W x t

/-- The gradient's element `i`: zero if there is no gradient. -/
def gnum (g : Option (Nat → ℝ)) (i : Nat) : ℝ := (g.getD 0) i

/-- `d` with `t` added to element `i`. -/
noncomputable def bump (d : Dense ℝ) (i : Nat) (t : ℝ) : Dense ℝ := ⟨d.rows, d.cols, d.data.set i (d.val i + t)⟩

end Verif.Backward
