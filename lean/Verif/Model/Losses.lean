import Verif.Model.Activation

set_option autoImplicit false

/-!
# Loss functions (losses/losses.go)

Values only: every operator is applied forward. `NewScalar(c)` is a 1×1 matrix.
-/

namespace Verif.Losses
open GradFn Dense
noncomputable section

/-- `Square` (ag/operators.go:316-318, mat/gradfn/square.go) is `Prod(x, x)`. -/
def square (x : Dense ℝ) : Option (Dense ℝ) := prod.forward [x, x]

/-- `LogSumExp` of one vector (ag/operators.go:510-516). -/
def logSumExp (x : Dense ℝ) : Option (Dense ℝ) := do
  let m ← GradFn.reduceMax.forward [x]
  let d ← subScalar.forward [x, m]
  let e ← GradFn.exp.forward [d]
  let s ← reduceSum.forward [e]
  let l ← logR.forward [s]
  GradFn.add.forward [m, l]

/-- `MAE` (losses.go:13-19). -/
def mae (x y : Dense ℝ) (mean : Bool) : Option (Dense ℝ) := do
  let d ← GradFn.sub.forward [x, y]
  let loss ← GradFn.abs.forward [d]
  if mean then GradFn.reduceMean.forward [loss] else reduceSum.forward [loss]

/-- `MSE` (losses.go:22-28). -/
def mse (x y : Dense ℝ) (mean : Bool) : Option (Dense ℝ) := do
  let d ← GradFn.sub.forward [x, y]
  let q ← square d
  let loss ← prodScalar.forward [q, scalar 0.5]
  if mean then GradFn.reduceMean.forward [loss] else reduceSum.forward [loss]

/-- `NLL` (losses.go:32-34). -/
def nll (x y : Dense ℝ) : Option (Dense ℝ) := do
  let l ← logR.forward [x]
  let p ← prod.forward [y, l]
  let s ← reduceSum.forward [p]
  GradFn.neg.forward [s]

/-- `CrossEntropy` (losses.go:39-41). -/
def crossEntropy (x : Dense ℝ) (c : Int) : Option (Dense ℝ) := do
  let a ← (atVec c).forward [x]
  let n ← GradFn.neg.forward [a]
  let l ← logSumExp x
  GradFn.add.forward [n, l]

/-- `WeightedCrossEntropy` (losses.go:47-51). -/
def weightedCrossEntropy (weights x : Dense ℝ) (c : Int) : Option (Dense ℝ) := do
  let ce ← crossEntropy x c
  let w ← weights.at1 c
  prodScalar.forward [ce, scalar w]

/-- `FocalLoss` (losses.go:59-65). -/
def focalLoss (x : Dense ℝ) (c : Int) (gamma : ℝ) : Option (Dense ℝ) := do
  let ce ← crossEntropy x c
  let n ← GradFn.neg.forward [ce]
  let p ← GradFn.exp.forward [n]
  let sub ← reverseSubScalar.forward [p, scalar 1]
  let a ← (GradFn.pow gamma).forward [sub]
  prod.forward [a, ce]

/-- `WeightedFocalLoss` (losses.go:74-83). -/
def weightedFocalLoss (weights x : Dense ℝ) (c : Int) (gamma : ℝ) : Option (Dense ℝ) := do
  let ce ← crossEntropy x c
  let n ← GradFn.neg.forward [ce]
  let p ← GradFn.exp.forward [n]
  let sub ← reverseSubScalar.forward [p, scalar 1]
  let b ← (GradFn.pow gamma).forward [sub]
  let fl ← prod.forward [b, ce]
  let w ← weights.at1 c
  prodScalar.forward [fl, scalar w]

/-- `Perplexity` (losses.go:86-88). -/
def perplexity (x : Dense ℝ) (c : Int) : Option (Dense ℝ) := do
  let ce ← crossEntropy x c
  GradFn.exp.forward [ce]

/-- `ZeroOneQuantization` (losses.go:92-94). -/
def zeroOneQuantization (x : Dense ℝ) : Option (Dense ℝ) := do
  let a ← square x
  let r ← reverseSubScalar.forward [x, scalar 1]
  let b ← square r
  let p ← prod.forward [a, b]
  reduceSum.forward [p]

/-- `Norm2Quantization` (losses.go:97-99). -/
def norm2Quantization (x : Dense ℝ) : Option (Dense ℝ) := do
  let a ← square x
  let s ← reduceSum.forward [a]
  let d ← subScalar.forward [s, scalar 1]
  square d

/-- `OneHotQuantization` (losses.go:103-105). -/
def oneHotQuantization (x : Dense ℝ) (q : ℝ) : Option (Dense ℝ) := do
  let a ← zeroOneQuantization x
  let b ← norm2Quantization x
  let s ← GradFn.add.forward [a, b]
  prodScalar.forward [s, scalar q]

/-- `Distance` (losses.go:108-110). -/
def distance (x : Dense ℝ) (target : ℝ) : Option (Dense ℝ) := do
  let d ← GradFn.sub.forward [scalar target, x]
  GradFn.abs.forward [d]

/-- The loops of `MSESeq`, `MAESeq`, `CrossEntropySeq` (losses.go:114-117, 126-129, 138-141): element `i`
is `elem predicted[i] target[i]`; a shorter target list is an index error. -/
def seqLoop {A B : Type} (elem : A → B → Option (Dense ℝ)) : List A → List B → Dense ℝ → Option (Dense ℝ)
  | [], _, loss => some loss
  | _ :: _, [], _ => none
  | p :: ps, t :: ts, loss => do
    let l ← elem p t
    let loss ← GradFn.add.forward [loss, l]
    seqLoop elem ps ts loss

/-- `MSESeq`, `MAESeq`, `CrossEntropySeq` (losses.go:113-146). -/
def lossSeq {A B : Type} (elem : A → B → Option (Dense ℝ)) (predicted : List A) (target : List B) (mean : Bool) :
    Option (Dense ℝ) :=
  match predicted, target with
  | p :: ps, t :: ts => do
    let l ← elem p t
    let loss ← seqLoop elem ps ts l
    if mean then divScalar.forward [loss, scalar (predicted.length : ℝ)] else some loss
  | _, _ => none

/-- `MSESeq` (losses.go:113-122). -/
def mseSeq (predicted target : List (Dense ℝ)) (mean : Bool) : Option (Dense ℝ) :=
  lossSeq (fun p t => mse p t false) predicted target mean

/-- `MAESeq` (losses.go:125-134). -/
def maeSeq (predicted target : List (Dense ℝ)) (mean : Bool) : Option (Dense ℝ) :=
  lossSeq (fun p t => mae p t false) predicted target mean

/-- `CrossEntropySeq` (losses.go:137-146). -/
def crossEntropySeq (predicted : List (Dense ℝ)) (target : List Int) (mean : Bool) : Option (Dense ℝ) :=
  lossSeq crossEntropy predicted target mean

/-- `ag.Add` (ag/operators.go:20-28): adding to nil copies. -/
def addNil : Option (Dense ℝ) → Dense ℝ → Option (Dense ℝ)
  | none, x => GradFn.copy.forward [x]
  | some l, x => GradFn.add.forward [l, x]

/-- The loop of `SPG` (losses.go:153-155). -/
def spgLoop : List (Dense ℝ) → List (Dense ℝ) → Option (Dense ℝ) → Option (Option (Dense ℝ))
  | [], _, loss => some loss
  | _ :: _, [], _ => none
  | a :: as, b :: bs, loss => do
    let p ← prod.forward [a, b]
    let loss ← addNil loss p
    spgLoop as bs (some loss)

/-- `SPG` (losses.go:151-157); for empty lists the code negates nil and panics. -/
def spg (actions targets : List (Dense ℝ)) : Option (Dense ℝ) := do
  let loss ← spgLoop actions targets none
  let loss ← loss
  GradFn.neg.forward [loss]

end
end Verif.Losses
