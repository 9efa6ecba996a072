import Verif.Model.Dense
import Verif.Model.Rand
import Mathlib.Analysis.SpecialFunctions.Pow.Real
import Mathlib.Analysis.Real.Sqrt

/-!
# Random matrices

`initializers/initializers.go`, `mat/rand/uniform/uniform.go`, `mat/rand/normal/normal.go`,
`mat/rand/bernulli/bernulli.go` and `mat/gradfn/dropout.go`, over an arbitrary source of random words. The elements are
real numbers. `NormFloat64` (the ziggurat tables of mat/internal/rand/normal.go) is a parameter.
-/

set_option autoImplicit false
set_option linter.unusedSimpArgs false

namespace Verif.Init

open Rand

noncomputable section

variable {S : Type}

/-- The inner loop of the initializers: `for j := 0; j < cols; j++ { m.SetScalar(next(), i, j) }`. -/
def fillRow (sample : S → Option (ℝ × S)) (i : Nat) : Nat → Nat → Dense ℝ → S → Option (Dense ℝ × S)
  | 0, _, m, s => some (m, s)
  | n + 1, j, m, s => do
    let r ← sample s
    let m ← m.set2 r.1 i j
    fillRow sample i n (j + 1) m r.2

/-- The outer loop of the initializers. -/
def fillRows (sample : S → Option (ℝ × S)) : Nat → Nat → Dense ℝ → S → Option (Dense ℝ × S)
  | 0, _, m, s => some (m, s)
  | n + 1, i, m, s => do
    let r ← fillRow sample i m.cols 0 m s
    fillRows sample n (i + 1) r.1 r.2

/-- Filling a matrix (initializers.go:40-44, 54-58, 67-71, 99-103, 118-122, 144-155; bernulli.go:20-30). -/
def fill (sample : S → Option (ℝ × S)) (m : Dense ℝ) (s : S) : Option (Dense ℝ × S) :=
  fillRows sample m.rows 0 m s

variable (next : S → Word × S)

/-- `Uniform.Next` (uniform.go:29-31). -/
def uniformNext (min max : ℝ) (s : S) : Option (ℝ × S) := do
  let r ← float64 next s
  some ((r.1 : ℝ) * (max - min) + min, r.2)

/-- `Normal.Next` (normal.go:27-29). -/
def normalNext (normFloat64 : S → Option (ℝ × S)) (std mean : ℝ) (s : S) : Option (ℝ × S) := do
  let r ← normFloat64 s
  some (r.1 * std + mean, r.2)

/-- The activations `Gain` tells apart (initializers.go:23-31). -/
inductive Activation where
  | sigmoid | relu | tanh | other
  deriving DecidableEq

/-- `Gain` (initializers.go:22-33). -/
def gain : Activation → ℝ
  | .sigmoid => 1
  | .relu => √2
  | .tanh => 5 / 3
  | .other => 1

/-- `Uniform` (initializers.go:38-46). -/
def uniform (m : Dense ℝ) (min max : ℝ) (s : S) : Option (Dense ℝ × S) := fill (uniformNext next min max) m s

/-- `Normal` (initializers.go:52-60). -/
def normal (normFloat64 : S → Option (ℝ × S)) (m : Dense ℝ) (mean std : ℝ) (s : S) : Option (Dense ℝ × S) :=
  fill (normalNext normFloat64 std mean) m s

/-- `Constant` (initializers.go:65-73); no randomness is used. -/
def constant (m : Dense ℝ) (n : ℝ) : Option (Dense ℝ) := do
  let r ← fill (fun s : Unit => some (n, s)) m ()
  some r.1

/-- `Ones` (initializers.go:78-80). -/
def ones (m : Dense ℝ) : Option (Dense ℝ) := constant m 1

/-- `Zeros` (initializers.go:85-88, dense.go `Zeros`: every element of the data is set to 0). -/
def zeros (m : Dense ℝ) : Dense ℝ := m.map fun _ => 0

/-- `XavierUniform` (initializers.go:94-105). -/
def xavierUniform (m : Dense ℝ) (g : ℝ) (s : S) : Option (Dense ℝ × S) :=
  fill (uniformNext next (-(g * √(6 / ((m.rows + m.cols : Nat) : ℝ)))) (g * √(6 / ((m.rows + m.cols : Nat) : ℝ)))) m s

/-- `XavierNormal` (initializers.go:113-124). -/
def xavierNormal (normFloat64 : S → Option (ℝ × S)) (m : Dense ℝ) (g : ℝ) (s : S) : Option (Dense ℝ × S) :=
  fill (normalNext normFloat64 (g * √(2 / ((m.rows + m.cols : Nat) : ℝ))) 0) m s

/-- The body of the loop of `Achlioptas` (initializers.go:146-153). -/
def achlioptasNext (s : S) : Option (ℝ × S) := do
  let r ← uniformNext next 0 1 s
  if r.1 < 1 / 6 then some (-√3, r.2)
  else if r.1 > 1 - 1 / 6 then some (√3, r.2)
  else some (0, r.2)

/-- `Achlioptas` (initializers.go:132-158). -/
def achlioptas (m : Dense ℝ) (s : S) : Option (Dense ℝ × S) := fill (achlioptasNext next) m s

/-- The body of the loop of `bernulli.Distribution` (bernulli.go:22-28); `conv` is the conversion to the element type,
which may round. -/
def bernoulliNext (conv : ℝ → ℝ) (prob : ℝ) (s : S) : Option (ℝ × S) := do
  let r ← uniformNext next 0 1 s
  let val := conv r.1
  let fl : ℝ := ⌊val⌋
  if val < prob then some (fl, r.2) else some (fl + 1, r.2)

/-- `bernulli.Distribution` (bernulli.go:17-32). -/
def bernoulli (conv : ℝ → ℝ) (r c : Nat) (prob : ℝ) (s : S) : Option (Dense ℝ × S) :=
  fill (bernoulliNext next conv prob) (Dense.zeros r c) s

/-- `Dropout.Forward` (dropout.go:41-51): the result, the mask which is kept, and the source afterwards. The masks are
`float64` matrices (line 45), so no rounding takes place in the Bernoulli distribution. -/
def dropoutForward (p : ℝ) (x : Dense ℝ) (s : S) : Option (Dense ℝ × Dense ℝ × S) :=
  if 1 - p > 0 then do
    let r ← bernoulli next id x.rows x.cols p s
    let mask := r.1.map (· * (1 / (1 - p)))
    let y ← Dense.zipOp (· * ·) x mask
    some (y, mask, r.2)
  else do
    let mask : Dense ℝ := Dense.zeros x.rows x.cols
    let y ← Dense.zipOp (· * ·) x mask
    some (y, mask, s)

/-- `Dropout.Backward` (dropout.go:54-63): what is added to the operand's gradient; `none` is the error. -/
def dropoutBackward (x mask gy : Dense ℝ) : Option (Dense ℝ) :=
  if x.sameDims gy then Dense.zipOp (· * ·) gy mask else none

/-- `ag.Dropout` and `ag.DropoutFunc` (ag/operators.go:86-103), as far as the value is concerned. -/
def dropout (p : ℝ) (x : Dense ℝ) (s : S) : Option (Dense ℝ × S) :=
  if p = 0 then some (x, s)
  else do
    let r ← dropoutForward next p x s
    some (r.1, r.2.2)

end

end Verif.Init
