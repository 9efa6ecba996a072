import Verif.Model.Network

set_option autoImplicit false

/-!
# The loss of a conditional random field as a program of operators (nn/crf/crf.go)

Model/Crf.lean computes the values; here are the operators that the code runs on tensors.
-/

namespace Verif.Record
open GradFn Tape
noncomputable section

/-- `l[i]`, a panic outside of the slice. -/
def index (l : List Nat) (i : Nat) : B Nat :=
  match l[i]? with
  | some x => pure x
  | none => fail

/-- `ag.Add`, whose first operand may be nil (ag/operators.go:20-28). -/
def addMaybe : Option Nat → Nat → B Nat
  | none, x => call GradFn.copy [x]
  | some a, x => call GradFn.add [a, x]

/-- `SeparateVec` (ag/operators.go:424-431) of a vector of size `o`. The code reads the size from the value; here it is
given. -/
def separate (o x : Nat) : B (List Nat) := each (fun i => call (atVec i) [x]) (List.range o)

/-- The loop of `goldScore` and its last two lines (crf.go:54-61). -/
def crfGoldLoop (tr : Nat) : List Nat → List Int → Int → Nat → B Nat
  | _, [], prev, g => do
    let e ← call (atMat prev 0) [tr]
    call GradFn.add [g, e]
  | x :: xs, t :: ts, prev, g => do
    let a ← call (atVec t) [x]
    let g ← call GradFn.add [g, a]
    let b ← call (atMat prev (t + 1)) [tr]
    let g ← call GradFn.add [g, b]
    crfGoldLoop tr xs ts (t + 1) g
  | [], _ :: _, _, _ => fail

/-- `goldScore` (crf.go:50-62). -/
def crfGold (tr : Nat) : List Nat → List Int → B Nat
  | x :: xs, t :: ts => do
    let g ← call (atMat t 0) [x]
    let b ← call (atMat 0 (t + 1)) [tr]
    let g ← call GradFn.add [g, b]
    crfGoldLoop tr xs ts (t + 1) g
  | _, _ => fail

/-- `totalScoreStart` (crf.go:73-79). -/
def crfStart (tr size x : Nat) : B (List Nat) :=
  each (fun i => do
    let a ← call (atVec i) [x]
    let b ← call (atMat 0 (i + 1)) [tr]
    call GradFn.add [a, b]) (List.range size)

/-- `totalScoreEnd` (crf.go:81-88); `scores[i]` is nil. -/
def crfEnd (tr size : Nat) (step : List Nat) : B (List Nat) :=
  each (fun i => do
    let x ← index step i
    let b ← call (atMat (i + 1) 0) [tr]
    let v ← call GradFn.add [x, b]
    let e ← call GradFn.exp [v]
    addMaybe none e) (List.range size)

/-- The inner loop of `totalScoreStep` (crf.go:94-98): iteration `j` reads and writes only `scores[j]`. -/
def crfRow (tr size i node : Nat) (step : List Nat) (scores : List (Option Nat)) : B (List Nat) :=
  each (fun j => do
    let x ← index step j
    let v ← call GradFn.add [node, x]
    let b ← call (atMat (i + 1) (j + 1)) [tr]
    let w ← call GradFn.add [v, b]
    let e ← call GradFn.exp [w]
    addMaybe (scores.getD j none) e) (List.range size)

/-- The outer loop of `totalScoreStep` (crf.go:92-99). -/
def crfRows (tr size : Nat) (total step : List Nat) : List Nat → List (Option Nat) → B (List (Option Nat))
  | [], scores => pure scores
  | i :: is, scores => do
    let node ← index total i
    let r ← crfRow tr size i node step scores
    crfRows tr size total step is (r.map some)

/-- `totalScoreStep` (crf.go:90-104). -/
def crfStep (tr size : Nat) (total step : List Nat) : B (List Nat) := do
  let scores ← crfRows tr size total step (List.range size) (List.replicate size none)
  each (fun i => match scores.getD i none with
    | some x => call logR [x]
    | none => fail) (List.range size)

/-- The loop of `totalScore` (crf.go:66-68). -/
def crfSteps (tr size : Nat) : List Nat → List Nat → B (List Nat)
  | total, [] => pure total
  | total, x :: xs => do
    let step ← separate size x
    let total ← crfStep tr size total step
    crfSteps tr size total xs

/-- `totalScore` (crf.go:64-71). -/
def crfTotal (tr size : Nat) : List Nat → B Nat
  | [] => fail
  | x :: xs => do
    let total ← crfStart tr size x
    let total ← crfSteps tr size total xs
    let total ← crfEnd tr size total
    let c ← call GradFn.concat total
    let r ← call reduceSum [c]
    call logR [r]

/-- `NegativeLogLoss` (crf.go:43-48). -/
def crfLoss (tr size : Nat) (emissions : List Nat) (target : List Int) : B Nat := do
  let g ← crfGold tr emissions target
  let t ← crfTotal tr size emissions
  call GradFn.sub [t, g]

/-- A sequence model with `k` parameters on the tensors `k + 1`, ..., `k + n`, and the loss of a random field over its
outputs; tensor `k` holds the transition scores. -/
def withCrf (k n size : Nat) (target : List Int) (model : List Nat → B (List Nat)) : B Nat := do
  let ys ← model ((List.range n).map (k + 1 + ·))
  crfLoss k size ys target

end
end Verif.Record
