import Verif.Model.RecordCrf
import Verif.Model.RecordLosses
import Verif.Model.Embedding
import Verif.Model.Batch

set_option autoImplicit false

/-!
# Taggers: embeddings, a network of layers, and a loss for the labels

The vectors of the words are parameters. `Encode` makes a new tensor for every occurrence of a word, but all of them
are the same `nn.Param` and `AccGrad` on any of them adds to its gradient (nn/embedding/embedding.go:13-24); here they
are one tensor. The set of indices that `AccGrad` keeps beside is in Model/Embedding.lean.
-/

namespace Verif.Record
open GradFn Tape
noncomputable section

/-- `MustEncode` (nn/embedding/model.go:70-92) of a model whose `size` weights are the tensors `base`, ...,
`base + size - 1`. -/
def encodeWords (base size : Nat) (words : List Int) : B (List Nat) :=
  if Embedding.checkInput size words then pure (words.map fun x => base + x.toNat)
  else do
    let x ← fail
    pure [x]

/-- A sentence: its words and their labels. -/
structure Sentence where
  words : List Nat
  labels : List Nat

/-- The indices as the code has them. -/
def ints (l : List Nat) : List Int := l.map fun x : Nat => (x : Int)

/-- A network on the vectors of the words, and the loss of a random field for the labels. Parameters: those of the
network, the transition scores, the vectors of `size` words. -/
def Sentence.crfSample {i o : Nat} (q : Sentence) (N : Net i o) (size : Nat) : Sample where
  inputs := 0
  code := do
    let xs ← encodeWords (N.size + 1) size (ints q.words)
    let ys ← N.code 0 xs
    crfLoss N.size o ys (ints q.labels)
  data := fun _ => ⟨0, 0, []⟩

/-- A network on the vectors of the words, and the sum or mean of the losses of the classes. Parameters: those of the
network, the vectors of `size` words. -/
def Sentence.classSample {i o : Nat} (q : Sentence) (N : Net i o) (size : Nat) (loss : ClassLoss) (mean : Bool) : Sample where
  inputs := 0
  code := do
    let xs ← encodeWords N.size size (ints q.words)
    let ys ← N.code 0 xs
    lossSeq loss.code ys (ints q.labels) mean
  data := fun _ => ⟨0, 0, []⟩

end
end Verif.Record
