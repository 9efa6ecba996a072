import Verif.Model.RecordTagger
import Verif.Spec.NetworkCrf
import Verif.Spec.NetworkLosses

set_option autoImplicit false

/-!
# The losses of taggers, as formulas
-/

namespace Verif.Record
open scoped BigOperators
noncomputable section

/-- The vectors of the words of a sentence; word `x` has the tensor `base + x`. -/
def Sentence.vectors (q : Sentence) (base : Nat) (w : Nat → Dense ℝ) : List (Nat → ℝ) :=
  q.words.map fun x => (w (base + x)).val

/-- The negative logarithm of the probability that the random field gives to the labels of the sentence. -/
def Sentence.crfError {i o : Nat} (q : Sentence) (N : Net i o) (w : Nat → Dense ℝ) : ℝ :=
  -Real.log (labelsProbability o (w N.size).el (N.apply w 0 (q.vectors (N.size + 1) w)) q.labels)

/-- The sum or mean of the losses of the labels of the sentence. -/
def Sentence.classError {i o : Nat} (q : Sentence) (N : Net i o) (loss : ClassLoss) (mean : Bool) (w : Nat → Dense ℝ) : ℝ :=
  (∑ t ∈ Finset.range q.words.length,
    loss.value o ((N.apply w 0 (q.vectors N.size w)).getD t 0) (q.labels.getD t 0)) /
      if mean then (q.words.length : ℝ) else 1

/-- A sentence with words of the vocabulary, and a label for each; and the network has a derivative there. -/
structure Sentence.Ok {i o : Nat} (q : Sentence) (N : Net i o) (base size : Nat) (w : Nat → Dense ℝ) : Prop where
  pos : q.words ≠ []
  words : ∀ x ∈ q.words, x < size
  len : q.labels.length = q.words.length
  labels : ∀ y ∈ q.labels, y < o
  regular : N.Regular w 0 (q.vectors base w)

end
end Verif.Record
