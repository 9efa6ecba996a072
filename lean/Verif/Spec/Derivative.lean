import Verif.Spec.Backward
import Mathlib.Analysis.InnerProductSpace.Adjoint
import Mathlib.Analysis.Calculus.FDeriv.Basic

/-!
# Graphs of differentiable functions

Tensor values live in one real Hilbert space `E` (for scalars `ℝ`; tensors of different shapes
can be put into one space by giving each its own coordinates). The functions of the operators
are arbitrary functions of their operands' values.
-/

namespace Verif.Backward
open scoped BigOperators
variable {n : Nat} {E : Type} [NormedAddCommGroup E] [InnerProductSpace ℝ E]

/-- The forward functions: `φ c` computes the value of operator `c` from its operands' values. -/
abbrev Forward (G : Graph n) (E : Type) := (c : Fin n) → (Fin (G.operands c).length → E) → E

/-- `v` are the values of all tensors when those that are no operators have values `θ`. -/
def IsEval (G : Graph n) (φ : Forward G E) (θ v : Fin n → E) : Prop :=
  ∀ x, v x = if G.isOp x = true then φ x (fun i => v ((G.operands x).get i)) else θ x

/-- The partial derivatives of all forward functions at the values `v`, one linear map per
operand position. -/
abbrev Partials (G : Graph n) (E : Type) [NormedAddCommGroup E] [InnerProductSpace ℝ E] :=
  (c : Fin n) → Fin (G.operands c).length → E →L[ℝ] E

def IsPartials (G : Graph n) (φ : Forward G E) (v : Fin n → E) (A : Partials G E) : Prop :=
  ∀ c, G.isOp c = true → HasFDerivAt (φ c)
    (∑ i, (A c i).comp (ContinuousLinearMap.proj (R := ℝ) (φ := fun _ => E) i))
    (fun i => v ((G.operands c).get i))

/-- The gradient as an element of `E`: zero if absent. -/
def gval (g : Option E) : E := g.getD 0

/-- Backward functions multiply by the local derivatives: what `fn.Backward(g)` accumulates on an
operand `x` that requires gradients is the sum, over the positions of `x`, of the transposed
partial derivative applied to `g`. -/
def IsAdjoint [CompleteSpace E] (G : Graph n) (F : Fns n E) (A : Partials G E) : Prop :=
  ∀ c g x, G.requiresGrad x = true →
    ((F.bw c g).map fun p => if p.1 = x then p.2 else 0).sum =
      ∑ i, if (G.operands c).get i = x then ContinuousLinearMap.adjoint (A c i) g else 0

end Verif.Backward
