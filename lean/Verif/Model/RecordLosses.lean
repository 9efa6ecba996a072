import Verif.Model.Record

set_option autoImplicit false

/-!
# The losses as programs of operators (losses/losses.go)

The losses of a class and of an absolute error, as the code runs them on tensors.
-/

namespace Verif.Record
open GradFn Tape
noncomputable section

/-- `MAE` (losses.go:13-19). -/
def mae (x y : Nat) (mean : Bool) : B Nat := do
  let d ← call GradFn.sub [x, y]
  let loss ← call GradFn.abs [d]
  if mean then call GradFn.reduceMean [loss] else call reduceSum [loss]

/-- `LogSumExp` of one vector (ag/operators.go:510-516). -/
def logSumExp (x : Nat) : B Nat := do
  let m ← call GradFn.reduceMax [x]
  let d ← call subScalar [x, m]
  let e ← call GradFn.exp [d]
  let s ← call reduceSum [e]
  let l ← call logR [s]
  call GradFn.add [m, l]

/-- `CrossEntropy` (losses.go:39-41). -/
def crossEntropy (x : Nat) (c : Int) : B Nat := do
  let a ← call (atVec c) [x]
  let n ← call GradFn.neg [a]
  let l ← logSumExp x
  call GradFn.add [n, l]

/-- `ag.ProdScalar(ce, weights.At(c))` (losses.go:49, 81): `At` panics outside of the vector, and its result requires no
gradients. -/
def weighted (weights : Dense ℝ) (c : Int) (ce : Nat) : B Nat :=
  match weights.at1 c with
  | some v => do
    let w ← const v
    call prodScalar [ce, w]
  | none => fail

/-- The lines of `FocalLoss` and `WeightedFocalLoss` after the cross-entropy (losses.go:61-64, 77-80). -/
def focus (gamma : ℝ) (ce : Nat) : B Nat := do
  let n ← call GradFn.neg [ce]
  let p ← call GradFn.exp [n]
  let one ← const 1
  let sub ← call reverseSubScalar [p, one]
  let a ← call (GradFn.pow gamma) [sub]
  call prod [a, ce]

/-- The losses of a vector of scores and a class (losses.go:39-88). -/
inductive ClassLoss
  | crossEntropy
  | weightedCrossEntropy (weights : Dense ℝ)
  | focal (gamma : ℝ)
  | weightedFocal (weights : Dense ℝ) (gamma : ℝ)
  | perplexity

/-- The rest of the loss, after the cross-entropy. -/
def ClassLoss.rest (c : Int) (ce : Nat) : ClassLoss → B Nat
  | .crossEntropy => pure ce
  | .weightedCrossEntropy w => weighted w c ce
  | .focal gamma => focus gamma ce
  | .weightedFocal w gamma => do
    let fl ← focus gamma ce
    weighted w c fl
  | .perplexity => call GradFn.exp [ce]

/-- `CrossEntropy`, `WeightedCrossEntropy`, `FocalLoss`, `WeightedFocalLoss`, `Perplexity` (losses.go:39-88). -/
def ClassLoss.code (loss : ClassLoss) (x : Nat) (c : Int) : B Nat := do
  let ce ← Record.crossEntropy x c
  loss.rest c ce

/-- A sequence model on the tensors `k`, ..., `k + n - 1`, and the sum or mean of the losses of its outputs for the given
classes; `CrossEntropySeq` (losses.go:137-146) for the cross-entropy, and the loss itself for one output. -/
def withClasses (loss : ClassLoss) (k n : Nat) (classes : List Int) (mean : Bool) (model : List Nat → B (List Nat)) :
    B Nat := do
  let ys ← model ((List.range n).map (k + ·))
  lossSeq loss.code ys classes mean

/-- A sequence model on the tensors `k`, ..., `k + n - 1`, and `MAESeq` (losses.go:125-134) with the targets `k + n`, ...,
`k + 2n - 1`. -/
def withAbsolute (k n : Nat) (mean : Bool) (model : List Nat → B (List Nat)) : B Nat := do
  let ys ← model ((List.range n).map (k + ·))
  lossSeq (fun p t => mae p t false) ys ((List.range n).map (k + n + ·)) mean

end
end Verif.Record
