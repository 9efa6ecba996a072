import Verif.Model.Network
import Verif.Model.Init
import Mathlib.Analysis.SpecialFunctions.Trigonometric.Basic

set_option autoImplicit false

/-!
# The examples `addition`, `perceptron` and `sinusoid`

(`regression` is in Model/Regression.lean.) The numbers are real numbers.
-/

namespace Verif.Examples
open GradFn Record Tape Rand
noncomputable section

/-! ## examples/addition/main.go -/

/-- `a`, `b` and `c := ag.Add(a, b)` (main.go:16-18). -/
def addition : List Instr := [.leaf true, .leaf true, .call GradFn.add [0, 1]]

/-- The values of `a` and `b` (main.go:16-17). -/
def additionData (i : Nat) : Dense ℝ := Dense.scalar (if i = 0 then 2 else 5)

/-- The argument of `c.AccGrad` (main.go:23). -/
def additionGrad (i : Nat) : ℝ := if i = 0 then 0.5 else 0

/-! ## examples/perceptron/main.go -/

/-- `Sigmoid(Add(Mul(w, x), b))` with `w` = tensor 0, `b` = tensor 1, `x` = tensor 2 (main.go:16). `mat.Scalar` makes tensors
without gradient. -/
def perceptron : List Instr :=
  [.leaf false, .leaf false, .leaf false, .call GradFn.mul [0, 2], .call GradFn.add [3, 1], .call GradFn.sigmoid [4]]

/-- The values of `w`, `b` and `x` (main.go:12-14). -/
def perceptronData (i : Nat) : Dense ℝ := Dense.scalar (if i = 0 then 3 else if i = 1 then 1 else 2)

/-! ## examples/sinusoid/main.go -/

/-- `NewSineModel` (main.go:28-43): the layers of the `nn.ModuleList`; `Forward` is that of the list (main.go:46-49). -/
def sineNet : Net 1 1 :=
  .seq (.linear 1 64) (.seq (.act .relu 64) (.seq (.linear 64 64) (.seq (.act .relu 64)
    (.seq (.linear 64 64) (.seq (.act .relu 64) (.linear 64 1))))))

/-- The parameters of `NewSineModel`: zeros, in the order `nn.ForEachParam` visits them (nn/linear/linear.go:32-39). -/
def sineParams : List (Dense ℝ) :=
  [⟨64, 1, List.replicate 64 0⟩, ⟨64, 1, List.replicate 64 0⟩, ⟨64, 64, List.replicate 4096 0⟩, ⟨64, 1, List.replicate 64 0⟩,
   ⟨64, 64, List.replicate 4096 0⟩, ⟨64, 1, List.replicate 64 0⟩, ⟨1, 64, List.replicate 64 0⟩, ⟨1, 1, List.replicate 1 0⟩]

variable {S : Type} (next : S → Word × S)

/-- `SineModel.InitRandom` (main.go:52-61), the loop over the parameters. -/
def initRandom : List (Dense ℝ) → S → Option (List (Dense ℝ) × S)
  | [], s => some ([], s)
  | p :: ps, s => do
    let r ← Init.xavierUniform next p 1.0 s
    let t ← initRandom ps r.2
    some (r.1 :: t.1, t.2)

/-- One iteration of the loop of `GenerateBatch` (main.go:71-82): the input, the target. -/
def datum (i : Nat) (s : S) : Option ((ℝ × ℝ) × S) := do
  let r ← float64 next s
  let x : ℝ := if i % 2 = 0 then (r.1 : ℝ) * Real.pi else (r.1 : ℝ) * 2 * Real.pi
  if i % 3 = 0 then
    let r' ← float64 next r.2
    let x : ℝ := (r'.1 : ℝ) * -1 * Real.pi
    some ((x, Real.cos x), r'.2)
  else
    some ((x, Real.cos x), r.2)

/-- The loop of `GenerateBatch` (main.go:70-83), `n` iterations from `i` on. -/
def batchFrom : Nat → Nat → S → Option (List (ℝ × ℝ) × S)
  | 0, _, s => some ([], s)
  | n + 1, i, s => do
    let r ← datum next i s
    let t ← batchFrom n (i + 1) r.2
    some (r.1 :: t.1, t.2)

/-- `GenerateBatch` (main.go:64-86). -/
def generateBatch (batchSize : Nat) (s : S) : Option (List (ℝ × ℝ) × S) := batchFrom next batchSize 0 s

/-- The batches of an epoch (main.go:105-126): the state after them and the sum of the losses. -/
def batches {σ : Type} (batch : σ → Option (σ × ℝ)) : Nat → σ → ℝ → Option (σ × ℝ)
  | 0, s, epochLoss => some (s, epochLoss)
  | n + 1, s, epochLoss => do
    let r ← batch s
    batches batch n r.1 (epochLoss + r.2)

open Classical in
/-- The loop over the epochs (main.go:101-135); `n` are left. The state after it, the number of epochs done, and the
lines `Epoch …: Avg Loss …` printed. -/
def epochs {σ : Type} (batch : σ → Option (σ × ℝ)) : Nat → Nat → σ → Option (σ × Nat × List (Nat × ℝ))
  | 0, epoch, s => some (s, epoch, [])
  | n + 1, epoch, s => do
    let r ← batches batch 100 s 0
    if (epoch + 1) % 10 = 0 then
      if r.2 / 100 < 0.00001 then some (r.1, epoch + 1, [(epoch + 1, r.2 / 100)])
      else
        let t ← epochs batch n (epoch + 1) r.1
        some (t.1, t.2.1, (epoch + 1, r.2 / 100) :: t.2.2)
    else epochs batch n (epoch + 1) r.1

/-- The points of the evaluation (main.go:139). -/
def testInputs : List ℝ := [-Real.pi, -Real.pi / 2, 0, Real.pi / 2, Real.pi]

/-- The lines of the evaluation, `sin(x) = … (predicted) vs … (actual)`: `x`, the prediction and the last number
(main.go:140-145). -/
def evaluation (predict : ℝ → ℝ) : List (ℝ × ℝ × ℝ) := testInputs.map fun x => (x, predict x, Real.cos x)

end
end Verif.Examples
