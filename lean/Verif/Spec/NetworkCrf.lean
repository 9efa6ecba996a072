import Verif.Model.RecordCrf
import Verif.Spec.Network
import Verif.Spec.Crf

set_option autoImplicit false

/-!
# The loss of a network with a conditional random field, as a formula
-/

namespace Verif.Record
noncomputable section

/-- The probability of the labels `ys` for the given transition scores and the scores of `o` labels at every position:
`exp(score ys)`, divided by the sum over all sequences of labels of this length. -/
def labelsProbability (o : Nat) (trans : Nat → Nat → ℝ) (emis : List (Nat → ℝ)) (ys : List Nat) : ℝ :=
  Real.exp (CrfSpec.score trans emis ys) /
    ((CrfSpec.labelings o emis.length).map fun zs => Real.exp (CrfSpec.score trans emis zs)).sum

/-- The negative logarithm of the probability of the target, where the scores of the labels are the outputs of the network
on the `n` tensors after its parameters and the transition scores. -/
def Net.crfError {i o : Nat} (N : Net i o) (target : List Nat) (n : Nat) (τ : Nat → Dense ℝ) : ℝ :=
  -Real.log (labelsProbability o (τ N.size).el (N.apply τ 0 (vectors τ (N.size + 1) n)) target)

end
end Verif.Record
