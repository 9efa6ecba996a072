import Verif.Model.DerivedOps

set_option autoImplicit false

/-!
# Sentence-State LSTM (nn/gnn/slstm/slstm.go)

Values; a panic is `none`.
-/

namespace Verif.SLSTM
open GradFn Dense
noncomputable section

/-- `HyperLinear4` (slstm.go:54-60). -/
structure Lin4 where
  w : Dense ℝ
  u : Dense ℝ
  v : Dense ℝ
  b : Dense ℝ

/-- `HyperLinear3` (slstm.go:63-68). -/
structure Lin3 where
  w : Dense ℝ
  u : Dense ℝ
  b : Dense ℝ

/-- `Model` (slstm.go:26-42). -/
structure Model where
  steps : Int
  inputGate : Lin4
  leftCellGate : Lin4
  rightCellGate : Lin4
  cellGate : Lin4
  sentCellGate : Lin4
  outputGate : Lin4
  inputActivation : Lin4
  nonLocalSentCellGate : Lin3
  nonLocalInputGate : Lin3
  nonLocalSentOutputGate : Lin3
  startH : Dense ℝ
  endH : Dense ℝ
  initValue : Dense ℝ

/-- The fields `xUi … xUu` of `State` (slstm.go:72-78). -/
structure Ux where
  i : List (Dense ℝ)
  l : List (Dense ℝ)
  r : List (Dense ℝ)
  f : List (Dense ℝ)
  s : List (Dense ℝ)
  o : List (Dense ℝ)
  u : List (Dense ℝ)

/-- The fields `ViPrevG … VuPrevG` of `State` (slstm.go:80-86). -/
structure Vg where
  i : Dense ℝ
  l : Dense ℝ
  r : Dense ℝ
  f : Dense ℝ
  s : Dense ℝ
  o : Dense ℝ
  u : Dense ℝ

/-- `computeUx` (slstm.go:160-179); one list after the other instead of one position after the other. -/
def computeUx (m : Model) (xs : List (Dense ℝ)) : Option Ux := do
  let i ← xs.mapM fun x => GradFn.mul.forward [m.inputGate.u, x]
  let l ← xs.mapM fun x => GradFn.mul.forward [m.leftCellGate.u, x]
  let r ← xs.mapM fun x => GradFn.mul.forward [m.rightCellGate.u, x]
  let f ← xs.mapM fun x => GradFn.mul.forward [m.cellGate.u, x]
  let s ← xs.mapM fun x => GradFn.mul.forward [m.sentCellGate.u, x]
  let o ← xs.mapM fun x => GradFn.mul.forward [m.outputGate.u, x]
  let u ← xs.mapM fun x => GradFn.mul.forward [m.inputActivation.u, x]
  some ⟨i, l, r, f, s, o, u⟩

/-- `computeVg` (slstm.go:181-189); the last line multiplies with `U`. -/
def computeVg (m : Model) (prevG : Dense ℝ) : Option Vg := do
  let i ← GradFn.mul.forward [m.inputGate.v, prevG]
  let l ← GradFn.mul.forward [m.leftCellGate.v, prevG]
  let r ← GradFn.mul.forward [m.rightCellGate.v, prevG]
  let f ← GradFn.mul.forward [m.cellGate.v, prevG]
  let s ← GradFn.mul.forward [m.sentCellGate.v, prevG]
  let o ← GradFn.mul.forward [m.outputGate.v, prevG]
  let u ← GradFn.mul.forward [m.inputActivation.u, prevG]
  some ⟨i, l, r, f, s, o, u⟩

/-- The argument of a gate: `ag.Sum(B, ag.Mul(W, context), VPrevG, xU[i])` (slstm.go:244-250). -/
def gate (g : Lin4) (context vg : Dense ℝ) (xu : List (Dense ℝ)) (i : Nat) : Option (Dense ℝ) := do
  let a ← GradFn.mul.forward [g.w, context]
  let x ← xu[i]?
  DerivedOps.sum [g.b, a, vg, x]

/-- `processNode` (slstm.go:223-259): the hidden vector and the cell of node `i`. -/
def processNode (m : Model) (ux : Ux) (vg : Vg) (i : Nat) (prevH prevC : List (Dense ℝ)) (prevG : Dense ℝ) :
    Option (Dense ℝ × Dense ℝ) := do
  let hj ← (if i = 0 then some m.startH else prevH[i - 1]?)
  let cj ← (if i = 0 then some m.startH else prevC[i - 1]?)
  let hk ← (if (i : Int) + 1 > (prevH.length : Int) - 1 then some m.endH else prevH[i + 1]?)
  let ck ← (if (i : Int) + 1 > (prevH.length : Int) - 1 then some m.endH else prevC[i + 1]?)
  let hi ← prevH[i]?
  let ci ← prevC[i]?
  let context ← GradFn.concat.forward [hj, hi, hk]
  let ia ← gate m.inputGate context vg.i ux.i i
  let iG ← GradFn.sigmoid.forward [ia]
  let la ← gate m.leftCellGate context vg.l ux.l i
  let lG ← GradFn.sigmoid.forward [la]
  let ra ← gate m.rightCellGate context vg.r ux.r i
  let rG ← GradFn.sigmoid.forward [ra]
  let fa ← gate m.cellGate context vg.f ux.f i
  let fG ← GradFn.sigmoid.forward [fa]
  let sa ← gate m.sentCellGate context vg.s ux.s i
  let sG ← GradFn.sigmoid.forward [sa]
  let oa ← gate m.outputGate context vg.o ux.o i
  let oG ← GradFn.sigmoid.forward [oa]
  let ua ← gate m.inputActivation context vg.u ux.u i
  let uG ← GradFn.tanh.forward [ua]
  let c1 ← prod.forward [lG, cj]
  let c2 ← prod.forward [fG, ci]
  let c3 ← prod.forward [rG, ck]
  let c4 ← prod.forward [sG, prevG]
  let c5 ← prod.forward [iG, uG]
  let c ← DerivedOps.sum [c1, c2, c3, c4, c5]
  let t ← GradFn.tanh.forward [c]
  let h ← prod.forward [oG, t]
  some (h, c)

/-- `updateHiddenNodes` (slstm.go:191-199). -/
def updateHiddenNodes (m : Model) (ux : Ux) (vg : Vg) (prevH prevC : List (Dense ℝ)) (prevG : Dense ℝ) :
    Option (List (Dense ℝ) × List (Dense ℝ)) := do
  let hc ← (List.range prevH.length).mapM fun (i : Nat) => processNode m ux vg i prevH prevC prevG
  some (hc.map (·.1), hc.map (·.2))

/-- `updateSentenceState` (slstm.go:201-221). `ag.Add` with a nil first operand copies the second (ag/operators.go:23-28), so
the loop is a sum; for no nodes `ag.Mean` panics before it. -/
def updateSentenceState (m : Model) (prevH prevC : List (Dense ℝ)) (prevG : Dense ℝ) : Option (Dense ℝ × Dense ℝ) := do
  let avgH ← DerivedOps.mean prevH
  let fa ← affine.forward [m.nonLocalSentCellGate.b, m.nonLocalSentCellGate.w, prevG, m.nonLocalSentCellGate.u, avgH]
  let fG ← GradFn.sigmoid.forward [fa]
  let oa ← affine.forward [m.nonLocalSentOutputGate.b, m.nonLocalSentOutputGate.w, prevG, m.nonLocalSentOutputGate.u, avgH]
  let oG ← GradFn.sigmoid.forward [oa]
  let gG ← affine.forward [m.nonLocalInputGate.b, m.nonLocalInputGate.w, prevG]
  let hG ← prevH.mapM fun h => do
    let a ← GradFn.mul.forward [m.nonLocalInputGate.u, h]
    let b ← GradFn.add.forward [gG, a]
    GradFn.sigmoid.forward [b]
  let ps ← (List.range prevH.length).mapM fun (i : Nat) => do
    let a ← hG[i]?
    let c ← prevC[i]?
    prod.forward [a, c]
  let sum ← DerivedOps.sum ps
  let p ← prod.forward [fG, prevG]
  let cg ← GradFn.add.forward [p, sum]
  let t ← GradFn.tanh.forward [cg]
  let gt ← prod.forward [oG, t]
  some (gt, cg)

/-- `h[t]`, `c[t]`, `g[t]` and `cg[t]` of `Forward`. -/
structure St where
  h : List (Dense ℝ)
  c : List (Dense ℝ)
  g : Dense ℝ
  cg : Dense ℝ

/-- One turn of the loop of `Forward` (slstm.go:152-154). -/
def turn (m : Model) (ux : Ux) (s : St) : Option St := do
  let vg ← computeVg m s.g
  let hc ← updateHiddenNodes m ux vg s.h s.c s.g
  let gc ← updateSentenceState m s.h s.c s.g
  some ⟨hc.1, hc.2, gc.1, gc.2⟩

/-- The loop of `Forward` (slstm.go:151-155). -/
def turns (m : Model) (ux : Ux) : Nat → St → Option St
  | 0, s => some s
  | k + 1, s => do
    let s' ← turn m ux s
    turns m ux k s'

/-- `Model.Forward` (slstm.go:132-158); `make` panics for negative steps, `h[0]` for none. -/
def forward (m : Model) (xs : List (Dense ℝ)) : Option (List (Dense ℝ)) :=
  if m.steps < 1 then none
  else do
    let ux ← computeUx m xs
    let s ← turns m ux (m.steps - 1).toNat
      ⟨xs.map fun _ => m.initValue, xs.map fun _ => m.initValue, m.initValue, m.initValue⟩
    some s.h

end
end Verif.SLSTM
