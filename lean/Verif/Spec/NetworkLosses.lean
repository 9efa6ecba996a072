import Verif.Model.RecordLosses
import Verif.Spec.Network

set_option autoImplicit false

/-!
# Losses of networks, as formulas
-/

namespace Verif.Record
open scoped BigOperators
noncomputable section

/-- The probability of class `c` for the scores `x` of `o` classes: `exp x_c / Σ exp x_j`. -/
def probability (o : Nat) (x : Nat → ℝ) (c : Nat) : ℝ := Real.exp (x c) / ∑ j ∈ Finset.range o, Real.exp (x j)

/-- The loss of class `c`, in terms of its probability. -/
def ClassLoss.value (o : Nat) (x : Nat → ℝ) (c : Nat) : ClassLoss → ℝ
  | .crossEntropy => -Real.log (probability o x c)
  | .weightedCrossEntropy w => -Real.log (probability o x c) * w.val c
  | .focal gamma => (1 - probability o x c) ^ gamma * -Real.log (probability o x c)
  | .weightedFocal w gamma => (1 - probability o x c) ^ gamma * -Real.log (probability o x c) * w.val c
  | .perplexity => 1 / probability o x c

/-- There is a weight for every class; and the exponent is at least 1 or there are at least two classes (else the
probability is always 1, and the power is taken at 0). -/
def ClassLoss.OK (o : Nat) : ClassLoss → Prop
  | .crossEntropy => True
  | .weightedCrossEntropy w => w.isVector ∧ o ≤ w.data.length
  | .focal gamma => 2 ≤ o ∨ 1 ≤ gamma
  | .weightedFocal w gamma => (w.isVector ∧ o ≤ w.data.length) ∧ (2 ≤ o ∨ 1 ≤ gamma)
  | .perplexity => True

/-- The sum or mean of the losses of the outputs of a network on the `n` tensors after its parameters; `cls t` is the
class of input `t`. -/
def Net.classError {i o : Nat} (N : Net i o) (loss : ClassLoss) (cls : Nat → Nat) (n : Nat) (mean : Bool)
    (τ : Nat → Dense ℝ) : ℝ :=
  (∑ t ∈ Finset.range n, loss.value o ((N.apply τ 0 (vectors τ N.size n)).getD t 0) (cls t)) / if mean then (n : ℝ) else 1

/-- The sum or mean of the absolute errors of the outputs of a network on the `n` tensors after its parameters; the
targets are the `n` tensors after them. -/
def Net.absoluteError {i o : Nat} (N : Net i o) (n : Nat) (mean : Bool) (τ : Nat → Dense ℝ) : ℝ :=
  (∑ t ∈ Finset.range n, ∑ j ∈ Finset.range o,
    |(N.apply τ 0 (vectors τ N.size n)).getD t 0 j - (τ (N.size + n + t)).val j|) / if mean then (n : ℝ) else 1

end
end Verif.Record
