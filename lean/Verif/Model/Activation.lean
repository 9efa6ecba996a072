import Verif.Model.GradFn
import Mathlib.Analysis.SpecialFunctions.Pow.Real
import Mathlib.Analysis.SpecialFunctions.Trigonometric.Basic
import Mathlib.Analysis.SpecialFunctions.Sqrt

set_option autoImplicit false

/-!
# Scalar functions and their derivatives (mat/gradfn/misc.go and others)

Over the reals: rounding, overflow and NaN are not modelled. `Go` functions: `math.Pow` is `Real.rpow`
(for a negative base only with integer exponents), `math.Max`, `math.Abs`, `math.Exp`, `math.Log`,
`math.Tanh`, ... are the functions of the same name.
-/

namespace Verif.GradFn
noncomputable section

/-- `tan` (misc.go:242-244). -/
def tanF (v : ℝ) : ℝ := Real.tan v
/-- `tanDeriv` (misc.go:246-249). -/
def tanD (v : ℝ) : ℝ := let c := Real.cos v; 1 / (c * c)
/-- `Tan` (misc.go:13-26). -/
def tan : GradFn ℝ := elementwise tanF tanD

/-- `tanh` (misc.go:251-253). -/
def tanhF (v : ℝ) : ℝ := Real.tanh v
/-- `tanhDeriv` (misc.go:255-257). -/
def tanhD (v : ℝ) : ℝ := 1 - Real.tanh v ^ 2
/-- `Tanh` (misc.go:29-42). -/
def tanh : GradFn ℝ := elementwise tanhF tanhD

/-- `hardSigmoid` (misc.go:259-267). -/
def hardSigmoidF (v : ℝ) : ℝ := if v > 2.5 then 1 else if v < -2.5 then 0 else 0.2 * v + 0.5
/-- `hardSigmoidDeriv` (misc.go:269-274). -/
def hardSigmoidD (v : ℝ) : ℝ := if v < 2.5 ∧ v > -2.5 then 0.2 else 0
/-- `HardSigmoid` (misc.go:45-58). -/
def hardSigmoid : GradFn ℝ := elementwise hardSigmoidF hardSigmoidD

/-- `hardTanh` (misc.go:276-284). -/
def hardTanhF (v : ℝ) : ℝ := if v > 1 then 1 else if v < -1 then -1 else v
/-- `hardTanhDeriv` (misc.go:286-291). -/
def hardTanhD (v : ℝ) : ℝ := if v < 1 ∧ v > -1 then 1 else 0
/-- `HardTanh` (misc.go:61-74). -/
def hardTanh : GradFn ℝ := elementwise hardTanhF hardTanhD

/-- `relu` (misc.go:293-295). -/
def reluF (v : ℝ) : ℝ := Max.max 0 v
/-- `reluDeriv` (misc.go:297-302). -/
def reluD (v : ℝ) : ℝ := if v ≥ 0 then 1 else 0
/-- `ReLU` (misc.go:77-90). -/
def relu : GradFn ℝ := elementwise reluF reluD

/-- `softsign` (misc.go:304-306). -/
def softsignF (v : ℝ) : ℝ := v / (1 + |v|)
/-- `softsignDeriv` (misc.go:308-310). -/
def softsignD (v : ℝ) : ℝ := (1 - |softsignF v|) ^ 2
/-- `Softsign` (misc.go:93-106). -/
def softsign : GradFn ℝ := elementwise softsignF softsignD

/-- `Cos` (misc.go:114-122). -/
def cos : GradFn ℝ := elementwise Real.cos (fun v => -Real.sin v)
/-- `Sin` (misc.go:130-138). -/
def sin : GradFn ℝ := elementwise Real.sin Real.cos
/-- `Neg` (misc.go:146-154). -/
def neg : GradFn ℝ := elementwise (fun v => -v) (fun _ => -1)
/-- `Reciprocal` (misc.go:162-170). -/
def reciprocal : GradFn ℝ := elementwise (fun v => 1 / v) (fun v => -1 / (v * v))

/-- `absDeriv` (misc.go:232-240). -/
def absD (v : ℝ) : ℝ := if v < 0 then -1 else if v > 0 then 1 else 0
/-- `Abs` (misc.go:178-186). -/
def abs : GradFn ℝ := elementwise (fun v => |v|) absD

/-- `mish` (misc.go:486-488). -/
def mishF (v : ℝ) : ℝ := v * Real.tanh (Real.log (1 + Real.exp v))
/-- `mishDeriv` (misc.go:490-497). -/
def mishD (v : ℝ) : ℝ :=
  let exp := Real.exp v
  let exp2 := Real.exp (2 * v)
  let exp3 := Real.exp (3 * v)
  let omega := 4 * (v + 1) + 4 * exp2 + exp3 + exp * (4 * v + 6)
  let delta := 2 * exp + exp2 + 2
  exp * (omega / (delta * delta))
/-- `Mish` (misc.go:189-208). -/
def mish : GradFn ℝ := elementwise mishF mishD

/-- `gelu` (misc.go:499-501). -/
def geluF (v : ℝ) : ℝ :=
  0.5 * v * (1 + Real.tanh (Real.sqrt (2 / Real.pi) * (v + 0.044715 * v ^ 3)))
/-- `geluDeriv` (misc.go:503-508). -/
def geluD (x : ℝ) : ℝ :=
  let x3 := x ^ 3
  0.5 * Real.tanh (0.0356774 * x3 + 0.797885 * x) +
    (0.0535161 * x3 + 0.398942 * x) * (1 / Real.cosh (0.0356774 * x3 + 0.797885 * x)) ^ 2 + 0.5
/-- `GELU` (misc.go:211-224). -/
def gelu : GradFn ℝ := elementwise geluF geluD

/-- `Sigmoid` (mat/dense.go:989-1010). -/
def sigmoidF (v : ℝ) : ℝ := 1 / (1 + Real.exp (v * -1))
/-- `Sigmoid` (sigmoid.go:31-49). -/
def sigmoid : GradFn ℝ := elementwise sigmoidF (fun v => sigmoidF v * (1 - sigmoidF v))

/-- `Swish.Forward` (swish.go:32-36), one element. -/
def swishF (v : ℝ) : ℝ := sigmoidF v * v
/-- `swishDeriv` (swish.go:51-55). -/
def swishD (v : ℝ) : ℝ :=
  let exp := Real.exp v
  let expPlusOne := exp + 1
  exp * (expPlusOne + v) / (expPlusOne * expPlusOne)
/-- `Swish` (swish.go:32-49) and `SiLU` (misc.go:228-230). -/
def swish : GradFn ℝ := elementwise swishF swishD

/-- `Exp` (exp.go:31-46). -/
def exp : GradFn ℝ := elementwise Real.exp Real.exp
/-- `Sqrt` (sqrt.go:31-47). -/
def sqrt : GradFn ℝ := elementwise Real.sqrt (fun v => v ^ (-0.5 : ℝ) * 0.5)
/-- `Pow` (pow.go:33-48). -/
def pow (power : ℝ) : GradFn ℝ := elementwise (fun v => v ^ power) (fun v => v ^ (power - 1) * power)
/-- `Log` (log.go:31-56). -/
def logR : GradFn ℝ := log Real.log (1 / 1.0e-08)

/-- `celu` (misc.go:312-320); the last case is reached by NaN only. -/
def celuF (a : List ℝ) (v : ℝ) : ℝ :=
  if v ≤ 0 then a.getD 0 0 * (Real.exp (v / a.getD 0 0) - 1) else if v > 0 then v else 0
/-- `celuDeriv` (misc.go:322-330). -/
def celuD (a : List ℝ) (v : ℝ) : ℝ :=
  if v ≤ 0 then Real.exp (v / a.getD 0 0) else if v > 0 then 1 else 0
/-- `CELU` (celu.go:29-49). -/
def celu : GradFn ℝ := elementwiseParams celuF celuD

/-- `elu` (misc.go:332-340). -/
def eluF (a : List ℝ) (v : ℝ) : ℝ :=
  if v ≤ 0 then a.getD 0 0 * (Real.exp v - 1) else if v > 0 then v else 0
/-- `eluDeriv` (misc.go:342-350). -/
def eluD (a : List ℝ) (v : ℝ) : ℝ :=
  if v ≤ 0 then a.getD 0 0 * Real.exp v else if v > 0 then 1 else 0
/-- `ELU` (elu.go:29-50). -/
def elu : GradFn ℝ := elementwiseParams eluF eluD

/-- `leakyReLU` (misc.go:352-360). -/
def leakyReluF (a : List ℝ) (v : ℝ) : ℝ :=
  if v ≤ 0 then a.getD 0 0 * v else if v > 0 then v else 0
/-- `leakyReLUDeriv` (misc.go:362-370). -/
def leakyReluD (a : List ℝ) (v : ℝ) : ℝ :=
  if v ≤ 0 then a.getD 0 0 else if v > 0 then 1 else 0
/-- `LeakyReLU` (leakyrelu.go:29-49). -/
def leakyRelu : GradFn ℝ := elementwiseParams leakyReluF leakyReluD

/-- `selu` (misc.go:374-383). -/
def seluF (a : List ℝ) (v : ℝ) : ℝ :=
  let scale := a.getD 1 0
  if v ≤ 0 then scale * a.getD 0 0 * (Real.exp v - 1) else if v > 0 then scale * v else 0
/-- `seluDeriv` (misc.go:387-396). -/
def seluD (a : List ℝ) (v : ℝ) : ℝ :=
  let scale := a.getD 1 0
  if v ≤ 0 then scale * a.getD 0 0 * Real.exp v else if v > 0 then scale else 0
/-- `SELU` (selu.go:30-58). -/
def selu : GradFn ℝ := elementwiseParams seluF seluD

/-- `softPlus` (misc.go:398-408). -/
def softPlusF (a : List ℝ) (v : ℝ) : ℝ :=
  let threshold := a.getD 1 0
  let beta := a.getD 0 0
  if v ≤ threshold then (1 / beta) * Real.log (1 + Real.exp (beta * v))
  else if v > threshold then v else 0
/-- `softPlusDeriv` (misc.go:410-421). -/
def softPlusD (a : List ℝ) (v : ℝ) : ℝ :=
  let threshold := a.getD 1 0
  let beta := a.getD 0 0
  if v ≤ threshold then
    let exp := Real.exp (v * beta)
    exp / (exp + 1)
  else if v > threshold then 1 else 0
/-- `SoftPlus` (softplus.go:30-58). -/
def softPlus : GradFn ℝ := elementwiseParams softPlusF softPlusD

/-- `softShrink` (misc.go:423-432). -/
def softShrinkF (a : List ℝ) (v : ℝ) : ℝ :=
  let lambda := a.getD 0 0
  if v < -lambda then v + lambda else if v > lambda then v - lambda else 0
/-- `softShrinkDeriv` (misc.go:434-443). -/
def softShrinkD (a : List ℝ) (v : ℝ) : ℝ :=
  let lambda := a.getD 0 0
  if v < -lambda then 1 else if v > lambda then 1 else 0
/-- `SoftShrink` (softshrink.go:28-48). -/
def softShrink : GradFn ℝ := elementwiseParams softShrinkF softShrinkD

/-- `threshold` (misc.go:445-455). -/
def thresholdF (a : List ℝ) (v : ℝ) : ℝ :=
  let value := a.getD 1 0
  let t := a.getD 0 0
  if v ≤ t then value else if v > t then v else 0
/-- `thresholdDeriv` (misc.go:457-466). -/
def thresholdD (a : List ℝ) (v : ℝ) : ℝ :=
  let t := a.getD 0 0
  if v ≤ t then 0 else if v > t then 1 else 0
/-- `Threshold` (threshold.go:30-59). -/
def threshold : GradFn ℝ := elementwiseParams thresholdF thresholdD

/-- `swishB` (misc.go:468-470). -/
def swishBF (beta v : ℝ) : ℝ := v * (1 / (1 + Real.exp (beta * -v)))
/-- `swishBDeriv` (misc.go:472-476). -/
def swishBD (beta v : ℝ) : ℝ :=
  let prod := v * beta
  let exp := Real.exp prod
  exp * (exp + prod + 1) / ((exp + 1) * (exp + 1))
/-- `swishBBetaDeriv` (misc.go:478-482). -/
def swishBBetaD (v beta : ℝ) : ℝ :=
  let prod := v * beta
  let exp := Real.exp (-prod)
  (v * v * exp) / ((exp + 1) * (exp + 1))
/-- `SwishB` (swishb.go:31-62). -/
def swishBR : GradFn ℝ := swishB swishBF swishBD swishBBetaD

/-- `Softmax` (softmax.go:27-57). -/
def softmaxR : GradFn ℝ := softmax Real.exp

end
end Verif.GradFn
