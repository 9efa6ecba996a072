import Verif.Model.Optim

set_option autoImplicit false

/-!
# A training loop around `Optimizer.Optimize` (optimizers/optimizer.go, examples/regression/main.go, examples/sinusoid/main.go)

One parameter. Every iteration accumulates a gradient (`Backward`) and calls `Optimize`. The strategy is an
`OptimizationStrategy` (optimizer.go:15-18), an interface with the single method `OptimizeParams`; `Optimize` calls nothing
else of it, in particular not `IncExample` or `IncBatch`, and no other code of the repository calls these (except `New` of
Adam and LAMB once).
-/

namespace Verif.Optim

/-- What `Optimize` does with one parameter (optimizer.go:60-63): nothing without gradient. -/
def optimizeOne (strategy : Param → Option (Param × Bool)) (p : Param) : Option (Param × Bool) :=
  match p.grad with
  | none => some (p, false)
  | some _ => strategy p

/-- The loop, ended by an error (examples/sinusoid/main.go:104-126); `gs` are the gradients of the iterations. -/
def trainLoop (strategy : Param → Option (Param × Bool)) : Param → List (Dense ℝ) → Option Param
  | p, [] => some p
  | p, g :: gs => do
    let p ← p.accGrad g
    let r ← optimizeOne strategy p
    if r.2 then none else trainLoop strategy r.1 gs

/-- The same loop when the caller remembers to announce every iteration (`IncExample`, `IncBatch`) after `Optimize`. -/
def trainLoopTick {O : Type} (tick : O → O) (optimize : O → Param → Option (Param × Bool)) :
    O → Param → List (Dense ℝ) → Option Param
  | _, p, [] => some p
  | o, p, g :: gs => do
    let p ← p.accGrad g
    let r ← optimizeOne (optimize o) p
    if r.2 then none else trainLoopTick tick optimize (tick o) r.1 gs

end Verif.Optim
