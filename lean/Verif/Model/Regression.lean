import Verif.Model.Batch

set_option autoImplicit false

/-!
# The regression example (examples/regression/main.go)
-/

namespace Verif.Regression
open GradFn Record
noncomputable section

/-- `Linear.Forward` (main.go:45-47). -/
def forward (w b x : Nat) : B Nat := do
  let p ← call GradFn.mul [w, x]
  call GradFn.add [p, b]

/-- The forward part of `learn` (main.go:61-64): parameters 0 (`W`) and 1 (`B`), input 2, target 3. -/
def code : B Nat := do
  let y ← forward 0 1 2
  mse y 3 true

/-- The sample with input `x` (main.go:58, 62, 73-74). -/
def sample (x : ℝ) : Sample := ⟨2, code, fun i => if i = 2 then Dense.scalar x else Dense.scalar (3 * x + 1)⟩

/-- The first `n` samples of an epoch (main.go:57, 72-73). -/
def samplesOf (n : Nat) : List Sample := (List.range n).map fun i : Nat => sample ((i : ℝ) / 1000)

/-- The samples of an epoch: `examples` is 1000 (main.go:20). -/
def samples : List Sample := samplesOf 1000

/-- `sgd.New(sgd.NewConfig(0.001, 0.9, true))` (main.go:54, optimizers/sgd/sgd.go:23-43). -/
def strategy : Optim.Param → Option (Optim.Param × Bool) := Optim.sgdOptimize ⟨0.001, 0.9, true⟩

/-- The module as it is made by `NewLinear` and `InitRandom` (main.go:31-42): `W` has the value `w`, `B` is zero. -/
def initial (w : ℝ) (x : Nat) : Optim.Param := ⟨Dense.scalar (if x = 0 then w else 0), none, .nil⟩

end
end Verif.Regression
