import Verif.Model.Dense
import Mathlib.Analysis.SpecialFunctions.Pow.Real

set_option autoImplicit false

/-!
# The optimisation strategies (optimizers/{sgd,adagrad,rmsprop,adam,radam,lamb})

Elements are real numbers. A strategy keeps a state in the parameter; its matrices (`V`, `M`, the buffers) are
distinct objects that nobody else holds, so an in-place operation is modelled by replacing the field. Buffers which are
completely overwritten before they are read (`Buf1`, `Buf2`, `Buf3`, `Buf`, `VPrev`, `VTmp`) are kept in the states
only as far as their shape is checked: they always have the shape of the parameter, as do `V` and `M`, and
`ProdMatrixScalarInPlace` into them is `map` here, with the shapes checked by the `zipOp` which follows.
A panic is `none`.
-/

namespace Verif.Optim
open Dense

/-- State of SGD (sgd.go:46-51). -/
structure SGDState where
  V : Dense ℝ

/-- State of AdaGrad (adagrad.go:41-43). -/
structure AdaGradState where
  M : Dense ℝ

/-- State of RMSProp (rmsprop.go:51-53). -/
structure RMSPropState where
  V : Dense ℝ

/-- State of Adam (adam.go:87-93). -/
structure AdamState where
  V : Dense ℝ
  M : Dense ℝ

/-- State of RAdam (radam.go:68-74). -/
structure RAdamState where
  M : Dense ℝ
  V : Dense ℝ

/-- State of LAMB (lamb.go:71-77). -/
structure LambState where
  V : Dense ℝ
  M : Dense ℝ

/-- What the field `State interface{}` of a parameter can hold (nn/param.go:11). -/
inductive PState
  | nil
  | sgd (s : SGDState)
  | adagrad (s : AdaGradState)
  | rmsprop (s : RMSPropState)
  | adam (s : AdamState)
  | radam (s : RAdamState)
  | lamb (s : LambState)

/-- A parameter: its value, its gradient (nil when absent) and the optimizer's state (nn/param.go:9-12). -/
structure Param where
  value : Dense ℝ
  grad : Option (Dense ℝ)
  state : PState

/-- `AccGrad` on the parameter (mat/dense_grad.go:22-30). -/
def Param.accGrad (p : Param) (g : Dense ℝ) : Option Param :=
  match p.grad with
  | none => some { p with grad := some g }
  | some g0 => do
    let g' ← zipOp (· + ·) g0 g
    some { p with grad := some g' }

/-- The body shared word for word by the six `OptimizeParams` (e.g. adam.go:164-185): create the state if there is
none, return an error (`true`) if the state has another type, otherwise compute the update, subtract it in place and
clear the gradient. `new`, `get`, `put`: `newStateFor`, the type assertion, and storing the state. -/
def optimizeParams {σ : Type} (new : Dense ℝ → σ) (get : PState → Option σ) (put : σ → PState)
    (upd : Dense ℝ → Dense ℝ → σ → Option (Dense ℝ × σ)) (p : Param) : Option (Param × Bool) :=
  let st := match p.state with
    | .nil => put (new p.value)
    | s => s
  match get st with
  | none => some ({ p with state := st }, true)
  | some s => do
    let g ← p.grad
    let r ← upd p.value g s
    let v ← zipOp (· - ·) p.value r.1
    some (⟨v, none, put r.2⟩, false)

/-! ## SGD -/

/-- Configuration of SGD (sgd.go:16-20); `alpha` is the field `Alpha` (sgd.go:36). -/
structure SGDConfig where
  alpha : ℝ
  mu : ℝ
  nesterov : Bool

noncomputable section

/-- `calculateParamUpdate` and its three variants (sgd.go:80-110). -/
def sgdCalc (o : SGDConfig) (_w g : Dense ℝ) (s : SGDState) : Option (Dense ℝ × SGDState) :=
  if o.mu = 0 then
    let d := g.map (· * o.alpha)
    some (d, ⟨d⟩)
  else if o.nesterov then do
    let buf := g.map (· * o.alpha)
    let vPrev := s.V.map (· * o.mu)
    let v ← zipOp (· + ·) (s.V.map (· * o.mu)) buf
    let vTmp := v.map (· * (1 + o.mu))
    let d ← zipOp (· - ·) vTmp vPrev
    some (d, ⟨v⟩)
  else do
    let buf := g.map (· * o.alpha)
    let v ← zipOp (· + ·) (s.V.map (· * o.mu)) buf
    some (v, ⟨v⟩)

/-- `SGD.OptimizeParams` (sgd.go:112-126). -/
def sgdOptimize (o : SGDConfig) : Param → Option (Param × Bool) :=
  optimizeParams (fun w => ⟨zeros w.rows w.cols⟩) (fun | .sgd s => some s | _ => none) .sgd (sgdCalc o)

/-! ## AdaGrad -/

/-- Configuration of AdaGrad (adagrad.go:16-19). -/
structure AdaGradConfig where
  lr : ℝ
  epsilon : ℝ

/-- `calculateParamUpdate` (adagrad.go:70-73). -/
def adaGradCalc (o : AdaGradConfig) (_w g : Dense ℝ) (s : AdaGradState) : Option (Dense ℝ × AdaGradState) := do
  let q ← zipOp (· * ·) g g
  let m ← zipOp (· + ·) s.M q
  let d ← zipOp (· / ·) g ((m.map Real.sqrt).map (· + o.epsilon))
  some (d.map (· * o.lr), ⟨m⟩)

/-- `AdaGrad.OptimizeParams` (adagrad.go:75-89). -/
def adaGradOptimize (o : AdaGradConfig) : Param → Option (Param × Bool) :=
  optimizeParams (fun w => ⟨zeros w.rows w.cols⟩) (fun | .adagrad s => some s | _ => none) .adagrad (adaGradCalc o)

/-! ## RMSProp -/

/-- Configuration of RMSProp (rmsprop.go:16-20). -/
structure RMSPropConfig where
  lr : ℝ
  epsilon : ℝ
  decay : ℝ

/-- `calculateParamUpdate` (rmsprop.go:71-81). -/
def rmsPropCalc (o : RMSPropConfig) (_w g : Dense ℝ) (s : RMSPropState) : Option (Dense ℝ × RMSPropState) := do
  let v0 := s.V.map (· * o.decay)
  let buf ← zipOp (· * ·) g g
  let buf := buf.map (· * (1 - o.decay))
  let v ← zipOp (· + ·) v0 buf
  let buf2 := (v.map Real.sqrt).map (· + o.epsilon)
  let delta ← zipOp (· / ·) g buf2
  some (delta.map (· * o.lr), ⟨v⟩)

/-- `RMSProp.OptimizeParams` (rmsprop.go:83-97). -/
def rmsPropOptimize (o : RMSPropConfig) : Param → Option (Param × Bool) :=
  optimizeParams (fun w => ⟨zeros w.rows w.cols⟩) (fun | .rmsprop s => some s | _ => none) .rmsprop (rmsPropCalc o)

/-! ## Adam and AdamW -/

/-- Configuration of Adam and AdamW (adam.go:17-23). -/
structure AdamConfig where
  stepSize : ℝ
  beta1 : ℝ
  beta2 : ℝ
  epsilon : ℝ
  lambda : ℝ

/-- The optimizer object (adam.go:67-72); `adamw` is computed from `lambda`. -/
structure Adam where
  cfg : AdamConfig
  alpha : ℝ
  timeStep : Nat

/-- `updateAlpha` (adam.go:117-120). -/
def adamAlpha (c : AdamConfig) (t : Nat) : ℝ :=
  c.stepSize * Real.sqrt (1 - c.beta2 ^ t) / (1 - c.beta1 ^ t)

/-- `IncExample` (adam.go:112-115). -/
def Adam.incExample (o : Adam) : Adam :=
  { o with timeStep := o.timeStep + 1, alpha := adamAlpha o.cfg (o.timeStep + 1) }

/-- `New` (adam.go:75-83). -/
def Adam.new (c : AdamConfig) : Adam := Adam.incExample ⟨c, c.stepSize, 0⟩

/-- `updateV` (adam.go:150-154). -/
def adamUpdateV (g : Dense ℝ) (v : Dense ℝ) (beta1 : ℝ) : Option (Dense ℝ) :=
  zipOp (· + ·) (v.map (· * beta1)) (g.map (· * (1 - beta1)))

/-- `updateM` (adam.go:157-162). -/
def adamUpdateM (g : Dense ℝ) (m : Dense ℝ) (beta2 : ℝ) : Option (Dense ℝ) := do
  let sq ← zipOp (· * ·) g g
  zipOp (· + ·) (m.map (· * beta2)) (sq.map (· * (1 - beta2)))

/-- `calculateParamUpdate` (adam.go:125-132) and, with weight decay, `calculateParamUpdateW` (adam.go:137-147);
the choice is made in `OptimizeParams` (adam.go:174-182). -/
def adamCalc (o : Adam) (w g : Dense ℝ) (s : AdamState) : Option (Dense ℝ × AdamState) := do
  let v ← adamUpdateV g s.V o.cfg.beta1
  let m ← adamUpdateM g s.M o.cfg.beta2
  let buf := (m.map Real.sqrt).map (· + o.cfg.epsilon)
  let suppDiv ← zipOp (· / ·) v buf
  if o.cfg.lambda ≠ 0 then
    let scaledW := w.map (· * o.cfg.lambda)
    let suppDiv ← zipOp (· + ·) suppDiv scaledW
    some (suppDiv.map (· * o.alpha), ⟨v, m⟩)
  else
    some (suppDiv.map (· * o.alpha), ⟨v, m⟩)

/-- `Adam.OptimizeParams` (adam.go:164-185). -/
def adamOptimize (o : Adam) : Param → Option (Param × Bool) :=
  optimizeParams (fun w => ⟨zeros w.rows w.cols, zeros w.rows w.cols⟩) (fun | .adam s => some s | _ => none) .adam
    (adamCalc o)

/-! ## RAdam -/

/-- Configuration of RAdam (radam.go:17-22). -/
structure RAdamConfig where
  stepSize : ℝ
  beta1 : ℝ
  beta2 : ℝ
  epsilon : ℝ

/-- The optimizer object (radam.go:52-56). -/
structure RAdam where
  cfg : RAdamConfig
  roMax : ℝ
  timeStep : Nat

/-- `New` (radam.go:59-66). -/
def RAdam.new (c : RAdamConfig) : RAdam := ⟨c, 2 / (1 - c.beta2) - 1, 1⟩

/-- `IncBatch` (radam.go:93-95). -/
def RAdam.incBatch (o : RAdam) : RAdam := { o with timeStep := o.timeStep + 1 }

/-- `ro` in `calcAlpha` (radam.go:126). -/
def RAdam.ro (o : RAdam) : ℝ :=
  o.roMax - 2 * o.timeStep * o.cfg.beta2 ^ o.timeStep / (1 - o.cfg.beta2 ^ o.timeStep)

/-- `rect` in `calcAlpha` (radam.go:127-130). -/
def RAdam.rect (o : RAdam) : ℝ :=
  if o.ro > 4 then
    Real.sqrt ((o.ro - 4) * (o.ro - 2) * o.roMax / ((o.roMax - 4) * (o.roMax - 2) * o.ro))
  else 1

/-- `calcAlpha` (radam.go:122-132). -/
def RAdam.calcAlpha (o : RAdam) : ℝ :=
  o.cfg.stepSize * o.rect * Real.sqrt (1 - o.cfg.beta2 ^ o.timeStep) / (1 - o.cfg.beta1 ^ o.timeStep)

/-- `calculateParamUpdate` (radam.go:97-106), with `updateM` and `updateV` (radam.go:109-121). -/
def radamCalc (o : RAdam) (_w g : Dense ℝ) (s : RAdamState) : Option (Dense ℝ × RAdamState) := do
  let m ← zipOp (· + ·) (s.M.map (· * o.cfg.beta1)) (g.map (· * (1 - o.cfg.beta1)))
  let sq ← zipOp (· * ·) g g
  let v ← zipOp (· + ·) (s.V.map (· * o.cfg.beta2)) (sq.map (· * (1 - o.cfg.beta2)))
  let sqrtB2T := Real.sqrt (1 - o.cfg.beta2 ^ o.timeStep)
  let buf := (v.map Real.sqrt).map (· + o.cfg.epsilon * sqrtB2T)
  let suppDiv ← zipOp (· / ·) m buf
  some (suppDiv.map (· * o.calcAlpha), ⟨m, v⟩)

/-- `RAdam.OptimizeParams` (radam.go:134-148). -/
def radamOptimize (o : RAdam) : Param → Option (Param × Bool) :=
  optimizeParams (fun w => ⟨zeros w.rows w.cols, zeros w.rows w.cols⟩) (fun | .radam s => some s | _ => none) .radam
    (radamCalc o)

/-! ## LAMB -/

/-- The optimizer object (lamb.go:54-58), with the configuration of lamb.go:17-23. -/
structure Lamb where
  cfg : AdamConfig
  alpha : ℝ
  timeStep : Nat

/-- `IncExample` and `updateAlpha` (lamb.go:95-103). -/
def Lamb.incExample (o : Lamb) : Lamb :=
  { o with
    timeStep := o.timeStep + 1
    alpha := o.cfg.stepSize * Real.sqrt (1 - o.cfg.beta2 ^ (o.timeStep + 1)) / (1 - o.cfg.beta1 ^ (o.timeStep + 1)) }

/-- `New` (lamb.go:61-68). -/
def Lamb.new (c : AdamConfig) : Lamb := Lamb.incExample ⟨c, c.stepSize, 0⟩

/-- `norm` (lamb.go:148-152). -/
def norm (d : Dense ℝ) : Option ℝ := do
  let p ← zipOp (· * ·) d d
  some (Real.sqrt p.sum)

/-- `trustRatio` (lamb.go:124-129). -/
def trustRatio (weightsNorm adamStepNorm : ℝ) : ℝ :=
  if weightsNorm = 0 ∨ adamStepNorm = 0 then 1 else weightsNorm / adamStepNorm

/-- `calculateParamUpdate` (lamb.go:114-132), with `updateV` and `updateM` (lamb.go:135-147). -/
def lambCalc (o : Lamb) (w g : Dense ℝ) (s : LambState) : Option (Dense ℝ × LambState) := do
  let v ← zipOp (· + ·) (s.V.map (· * o.cfg.beta1)) (g.map (· * (1 - o.cfg.beta1)))
  let sq ← zipOp (· * ·) g g
  let m ← zipOp (· + ·) (s.M.map (· * o.cfg.beta2)) (sq.map (· * (1 - o.cfg.beta2)))
  let buf := (m.map Real.sqrt).map (· + o.cfg.epsilon)
  let suppDiv ← zipOp (· / ·) v buf
  let suppDiv ← (if o.cfg.lambda ≠ 0 then zipOp (· + ·) suppDiv (w.map (· * o.cfg.lambda)) else some suppDiv)
  let wn ← norm w
  let an ← norm suppDiv
  some (suppDiv.map (· * (o.alpha * trustRatio wn an)), ⟨v, m⟩)

/-- `Lamb.OptimizeParams` (lamb.go:154-168). -/
def lambOptimize (o : Lamb) : Param → Option (Param × Bool) :=
  optimizeParams (fun w => ⟨zeros w.rows w.cols, zeros w.rows w.cols⟩) (fun | .lamb s => some s | _ => none) .lamb
    (lambCalc o)

/-! ## Histories -/

/-- A training history of one parameter: the optimizer is told that a new example (batch) begins, or a gradient is
accumulated and the parameter optimised. -/
inductive Ev
  | tick
  | step (g : Dense ℝ)

/-- Run a history. `O` is the optimizer object, `tick` its `IncExample`/`IncBatch`. `none`: a panic, or an error
returned by `OptimizeParams` (ruled out by the theorems). -/
def run {O : Type} (tick : O → O) (optimize : O → Param → Option (Param × Bool)) :
    O → Param → List Ev → Option (O × Param)
  | o, p, [] => some (o, p)
  | o, p, .tick :: es => run tick optimize (tick o) p es
  | o, p, .step g :: es => do
    let p ← p.accGrad g
    let r ← optimize o p
    if r.2 then none else run tick optimize o r.1 es

end

end Verif.Optim
