import Verif.Model.Tape
import Verif.Model.Recurrent
import Verif.Model.Losses
import Verif.Model.Layers

set_option autoImplicit false

/-!
# Models as programs of operators

The `Forward` methods and losses again, now as the code runs them on tensors: a call of an operator appends
an instruction to the program and returns the number of the new tensor (ag/operator.go:118-122). Nothing is
computed here; values come from running the program (`Tape.run`).
-/

namespace Verif.Record
open GradFn Tape
noncomputable section

/-- Code that creates tensors: given how many exist, its result and the instructions it appends. -/
def B (α : Type) : Type := Nat → α × List Instr

instance : Monad B where
  pure a := fun _ => (a, [])
  bind c k := fun n =>
    let r := c n
    let r' := k r.1 (n + r.2.length)
    (r'.1, r.2 ++ r'.2)

/-- `ag.F(x, y, ...)` (ag/operators.go). -/
def call (f : GradFn ℝ) (args : List Nat) : B Nat := fun n => (n, [.call f args])

/-- `NewScalar(c)`. -/
def const (c : ℝ) : B Nat := fun n => (n, [.const (Dense.scalar c)])

/-- A panic of the code: the program cannot be run. -/
def fail : B Nat := fun n => (n, [.call ⟨fun _ => none, fun _ _ => none⟩ []])

/-- The program that runs `c` on `k` parameters (tensors 0, ..., k-1) and `j` inputs without gradients (tensors
k, ..., k+j-1). -/
def program {α : Type} (k j : Nat) (c : B α) : List Instr :=
  List.replicate k (.leaf true) ++ (List.replicate j (.leaf false) ++ (c (k + j)).2)

/-- The number of the tensor that `c` returns. -/
def result (k j : Nat) (c : B Nat) : Nat := (c (k + j)).1

/-! ### nn/recurrent -/

/-- The parameters of one gate. -/
structure Gate where
  w : Nat
  wRec : Nat
  b : Nat

/-- `ag.Affine(b, w, x, wRec, yPrev)`; the operands of a nil `yPrev` are dropped by `NewAffine`
(mat/gradfn/affine.go:38-58). -/
def Gate.affine (g : Gate) (x : Nat) : Option Nat → B Nat
  | none => call GradFn.affine [g.b, g.w, x]
  | some y => call GradFn.affine [g.b, g.w, x, g.wRec, y]

/-- The loop of the `Forward` methods (srn.go:44-52, gru.go:61-69, lstm.go:111-119). -/
def loop {S X Y : Type} (next : Option S → X → B S) (out : S → Y) : Option S → List X → B (List Y × Option S)
  | s, [] => pure ([], s)
  | s, x :: xs => do
    let s' ← next s x
    let r ← loop next out (some s') xs
    pure (out s' :: r.1, r.2)

/-- `Forward`. -/
def forward {S X Y : Type} (next : Option S → X → B S) (out : S → Y) (xs : List X) : B (List Y) := do
  let r ← loop next out none xs
  pure r.1

/-- `srn.Model.Next` (srn.go:57-67). -/
def srnNext (m : Gate) (state : Option Nat) (x : Nat) : B Nat := do
  let a ← m.affine x state
  call GradFn.tanh [a]

/-- `gru.Model` (gru.go:19-30). -/
structure GRU where
  part : Gate
  res : Gate
  cand : Gate

/-- `gru.State` (gru.go:33-38). -/
structure GRUState where
  r : Nat
  p : Nat
  c : Nat
  y : Nat

/-- `tryProd` (gru.go:97-102). -/
def tryProd : Option Nat → Nat → B (Option Nat)
  | some a, b => do
    let p ← call prod [a, b]
    pure (some p)
  | none, _ => pure none

/-- `gru.Model.Next` (gru.go:77-94). -/
def gruNext (m : GRU) (state : Option GRUState) (x : Nat) : B GRUState := do
  let yPrev := state.map GRUState.y
  let ar ← m.res.affine x yPrev
  let r ← call sigmoid [ar]
  let ap ← m.part.affine x yPrev
  let p ← call sigmoid [ap]
  let ry ← tryProd yPrev r
  let ac ← m.cand.affine x ry
  let c ← call GradFn.tanh [ac]
  let y ← call prod [p, c]
  match yPrev with
  | none => pure ⟨r, p, c, y⟩
  | some yPrev =>
    let one ← const 1
    let q ← call reverseSubScalar [p, one]
    let z ← call prod [q, yPrev]
    let y ← call GradFn.add [y, z]
    pure ⟨r, p, c, y⟩

/-- `lstm.Model` (lstm.go:21-44). -/
structure LSTM where
  refined : Bool
  inp : Gate
  outp : Gate
  forg : Gate
  cand : Gate

/-- `lstm.State` (lstm.go:47-54). -/
structure LSTMState where
  inG : Nat
  outG : Nat
  forG : Nat
  cand : Nat
  cell : Nat
  y : Nat

/-- `lstm.Model.Next` (lstm.go:130-155). -/
def lstmNext (m : LSTM) (state : Option LSTMState) (x : Nat) : B LSTMState := do
  let yPrev := state.map LSTMState.y
  let cellPrev := state.map LSTMState.cell
  let ai ← m.inp.affine x yPrev
  let inG ← call sigmoid [ai]
  let ao ← m.outp.affine x yPrev
  let outG ← call sigmoid [ao]
  let af ← m.forg.affine x yPrev
  let forG ← call sigmoid [af]
  let ac ← m.cand.affine x yPrev
  let cand ← call GradFn.tanh [ac]
  let inG ← (if m.refined then call prod [inG, x] else pure inG)
  let outG ← (if m.refined then call prod [outG, x] else pure outG)
  let ic ← call prod [inG, cand]
  let cell ← (match cellPrev with
    | some cp => do
      let fc ← call prod [forG, cp]
      call GradFn.add [ic, fc]
    | none => pure ic)
  let t ← call GradFn.tanh [cell]
  let y ← call prod [outG, t]
  pure ⟨inG, outG, forG, cand, cell, y⟩

/-! ### losses -/

/-- `MSE` (losses.go:22-28). -/
def mse (x y : Nat) (mean : Bool) : B Nat := do
  let d ← call GradFn.sub [x, y]
  let q ← call prod [d, d]
  let half ← const 0.5
  let loss ← call prodScalar [q, half]
  if mean then call GradFn.reduceMean [loss] else call reduceSum [loss]

/-- The loop of `MSESeq`, `MAESeq`, `CrossEntropySeq` (losses.go:114-117, 126-129, 138-141); a shorter target list is an
index error. -/
def seqLoop {T : Type} (elem : Nat → T → B Nat) : List Nat → List T → Nat → B Nat
  | [], _, loss => pure loss
  | _ :: _, [], _ => fail
  | p :: ps, t :: ts, loss => do
    let l ← elem p t
    let loss ← call GradFn.add [loss, l]
    seqLoop elem ps ts loss

/-- `MSESeq`, `MAESeq`, `CrossEntropySeq` (losses.go:113-146). -/
def lossSeq {T : Type} (elem : Nat → T → B Nat) (predicted : List Nat) (target : List T) (mean : Bool) : B Nat :=
  match predicted, target with
  | p :: ps, t :: ts => do
    let l ← elem p t
    let loss ← seqLoop elem ps ts l
    if mean then do
      let n ← const (predicted.length : ℝ)
      call divScalar [loss, n]
    else pure loss
  | _, _ => fail

/-! ### a training step's forward pass: a sequence model and the loss `MSESeq` -/

/-- Apply a model to the tensors `k`, ..., `k + n - 1` and compare with the targets `k + n`, ..., `k + 2n - 1`. -/
def withError (k n : Nat) (mean : Bool) (model : List Nat → B (List Nat)) : B Nat := do
  let ys ← model ((List.range n).map (k + ·))
  lossSeq (fun p t => mse p t false) ys ((List.range n).map (k + n + ·)) mean

/-- The gate with the parameters `k`, `k + 1`, `k + 2`. -/
def gateAt (k : Nat) : Gate := ⟨k, k + 1, k + 2⟩

/-- SRN with the parameters 0, 1, 2. -/
def srnCode (n : Nat) (mean : Bool) : B Nat := withError 3 n mean (forward (srnNext (gateAt 0)) id)

/-- GRU with the parameters 0, ..., 8. -/
def gruCode (n : Nat) (mean : Bool) : B Nat :=
  withError 9 n mean (forward (gruNext ⟨gateAt 0, gateAt 3, gateAt 6⟩) GRUState.y)

/-- LSTM with the parameters 0, ..., 11. -/
def lstmCode (refined : Bool) (n : Nat) (mean : Bool) : B Nat :=
  withError 12 n mean (forward (lstmNext ⟨refined, gateAt 0, gateAt 3, gateAt 6, gateAt 9⟩) LSTMState.y)

end
end Verif.Record
