import Verif.Model.Acts32
import Verif.Spec.Net32
import Verif.Spec.Sigmoid32
import Mathlib.Analysis.Complex.Trigonometric

set_option autoImplicit false

/-!
# The activations as functions of real numbers
-/

namespace Verif.Spec.Net32
open Verif.F32 Verif.Net32

/-- What is asked of the library: a good exponential, and a hyperbolic tangent from -1 to 1 that is off by at most `2^-23`. -/
structure GoodLib (lib : Lib) : Prop where
  exp : Sigmoid32.FullExp lib.exp
  tanh : ∀ v, F32.Finite v → F32.Finite (lib.tanh v) ∧ |val (lib.tanh v)| ≤ 1 ∧ |val (lib.tanh v) - Real.tanh (val v)| ≤ 1 / 2 ^ 23

/-- The activations. -/
noncomputable def real : Act → ℝ → ℝ
  | .relu, x => max 0 x
  | .sigmoid, x => Sigmoid32.sigmoid x
  | .tanh, x => Real.tanh x

/-- Their Lipschitz constants. -/
noncomputable def lipOf : Act → ℝ
  | .relu => 1
  | .sigmoid => 1 / 4
  | .tanh => 1

/-- The errors of their float32 versions. -/
noncomputable def actErr : Act → ℝ
  | .relu => 0
  | .sigmoid => 1 / 2 ^ 20
  | .tanh => 1 / 2 ^ 23

end Verif.Spec.Net32
