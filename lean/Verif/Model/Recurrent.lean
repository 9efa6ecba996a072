import Verif.Model.Activation

set_option autoImplicit false

/-!
# Recurrent networks (nn/recurrent/srn, gru, lstm; nn/birnn)

Values only. A panic is `none`. The state pointer of `Next` is nil before the first step, here `none`.
-/

namespace Verif.Recurrent
open GradFn Dense
noncomputable section

/-- `ag.Affine(b, w, x, wRec, yPrev)`; a nil `yPrev` drops the pair (mat/gradfn/affine.go:38-58). -/
def affineRec (b w x wRec : Dense ℝ) : Option (Dense ℝ) → Option (Dense ℝ)
  | none => affine.forward [b, w, x]
  | some y => affine.forward [b, w, x, wRec, y]

/-- The loop of the `Forward` methods (srn.go:44-52, gru.go:61-69, lstm.go:111-119): the outputs and the last
state. -/
def run {S X Y : Type} (next : Option S → X → Option S) (out : S → Y) : Option S → List X → Option (List Y × Option S)
  | s, [] => some ([], s)
  | s, x :: xs => do
    let s' ← next s x
    let r ← run next out (some s') xs
    some (out s' :: r.1, r.2)

/-- `Forward`: start without state, return the outputs. -/
def forward {S X Y : Type} (next : Option S → X → Option S) (out : S → Y) (xs : List X) : Option (List Y) := do
  let r ← run next out none xs
  some r.1

/-- The parameters of one gate (w, wRec, b). -/
structure Gate where
  w : Dense ℝ
  wRec : Dense ℝ
  b : Dense ℝ

/-- Apply a gate to input and previous output. -/
def Gate.affine (g : Gate) (x : Dense ℝ) (yPrev : Option (Dense ℝ)) : Option (Dense ℝ) :=
  affineRec g.b g.w x g.wRec yPrev

/-- `srn.Model.Next` (srn.go:57-67). The state is `Y`. -/
def srnNext (m : Gate) (state : Option (Dense ℝ)) (x : Dense ℝ) : Option (Dense ℝ) := do
  let a ← m.affine x state
  GradFn.tanh.forward [a]

/-- `gru.Model` (gru.go:19-30): `Part`, `Res`, `Cand`. -/
structure GRU where
  part : Gate
  res : Gate
  cand : Gate

/-- `gru.State` (gru.go:33-38). -/
structure GRUState where
  r : Dense ℝ
  p : Dense ℝ
  c : Dense ℝ
  y : Dense ℝ

/-- `tryProd` (gru.go:97-102). -/
def tryProd : Option (Dense ℝ) → Dense ℝ → Option (Option (Dense ℝ))
  | some a, b => do
    let p ← prod.forward [a, b]
    some (some p)
  | none, _ => some none

/-- `gru.Model.Next` (gru.go:77-94). -/
def gruNext (m : GRU) (state : Option GRUState) (x : Dense ℝ) : Option GRUState := do
  let yPrev := state.map GRUState.y
  let ar ← m.res.affine x yPrev
  let r ← sigmoid.forward [ar]
  let ap ← m.part.affine x yPrev
  let p ← sigmoid.forward [ap]
  let ry ← tryProd yPrev r
  let ac ← m.cand.affine x ry
  let c ← GradFn.tanh.forward [ac]
  let y ← prod.forward [p, c]
  match yPrev with
  | none => some ⟨r, p, c, y⟩
  | some yPrev =>
    let q ← reverseSubScalar.forward [p, scalar 1]
    let z ← prod.forward [q, yPrev]
    let y ← GradFn.add.forward [y, z]
    some ⟨r, p, c, y⟩

/-- `lstm.Model` (lstm.go:21-44). -/
structure LSTM where
  refined : Bool
  inp : Gate
  outp : Gate
  forg : Gate
  cand : Gate

/-- `lstm.State` (lstm.go:47-54). -/
structure LSTMState where
  inG : Dense ℝ
  outG : Dense ℝ
  forG : Dense ℝ
  cand : Dense ℝ
  cell : Dense ℝ
  y : Dense ℝ

/-- `lstm.Model.Next` (lstm.go:130-155). -/
def lstmNext (m : LSTM) (state : Option LSTMState) (x : Dense ℝ) : Option LSTMState := do
  let yPrev := state.map LSTMState.y
  let cellPrev := state.map LSTMState.cell
  let ai ← m.inp.affine x yPrev
  let inG ← sigmoid.forward [ai]
  let ao ← m.outp.affine x yPrev
  let outG ← sigmoid.forward [ao]
  let af ← m.forg.affine x yPrev
  let forG ← sigmoid.forward [af]
  let ac ← m.cand.affine x yPrev
  let cand ← GradFn.tanh.forward [ac]
  let inG ← (if m.refined then prod.forward [inG, x] else some inG)
  let outG ← (if m.refined then prod.forward [outG, x] else some outG)
  let ic ← prod.forward [inG, cand]
  let cell ← (match cellPrev with
    | some cp => do
      let fc ← prod.forward [forG, cp]
      GradFn.add.forward [ic, fc]
    | none => some ic)
  let t ← GradFn.tanh.forward [cell]
  let y ← prod.forward [outG, t]
  some ⟨inG, outG, forG, cand, cell, y⟩

/-- `birnn.MergeType` (birnn.go:18-29). -/
inductive Merge
  | concat
  | sum
  | prod
  | avg

/-- `merge` (birnn.go:87-100); other values of the type panic. -/
def merge : Merge → Dense ℝ → Dense ℝ → Option (Dense ℝ)
  | .concat, a, b => GradFn.concat.forward [a, b]
  | .sum, a, b => GradFn.add.forward [a, b]
  | .prod, a, b => GradFn.prod.forward [a, b]
  | .avg, a, b => do
    let s ← GradFn.add.forward [a, b]
    prodScalar.forward [s, scalar 0.5]

/-- The swaps of `reversed` (birnn.go:80-83), from index `i` on. -/
def reverseLoop {X : Type} (n : Nat) : Nat → Nat → List X → List X
  | 0, _, r => r
  | k + 1, i, r =>
    match r[i]?, r[n - i - 1]? with
    | some a, some b => reverseLoop n k (i + 1) ((r.set i b).set (n - i - 1) a)
    | _, _ => r

/-- `reversed` (birnn.go:77-85). -/
def reversed {X : Type} (ns : List X) : List X := reverseLoop ns.length (ns.length / 2) 0 ns

/-- The merging loop of `birnn.Model.Forward` (birnn.go:71-74). -/
def mergeLoop (mode : Merge) (pos neg : List (Dense ℝ)) : List Nat → Option (List (Dense ℝ))
  | [] => some []
  | i :: is => do
    let a ← pos[i]?
    let b ← neg[pos.length - 1 - i]?
    let y ← merge mode a b
    let ys ← mergeLoop mode pos neg is
    some (y :: ys)

/-- `birnn.Model.Forward` (birnn.go:56-75); the two directions are computed by goroutines writing different
variables, joined before the loop, so they are functions here. -/
def birnn {X : Type} (positive negative : List X → Option (List (Dense ℝ))) (mode : Merge) (xs : List X) :
    Option (List (Dense ℝ)) := do
  let pos ← positive xs
  let neg ← negative (reversed xs)
  mergeLoop mode pos neg (List.range pos.length)

end
end Verif.Recurrent
