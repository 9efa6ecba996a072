/-
The activations `ReLU`, `Sigmoid` and `Tanh` of float32 (nn/activation/types.go:16-43), for the networks of `Model/Net32.lean`.
-/
import Verif.Model.Net32
import Verif.Model.Sigmoid32
set_option autoImplicit false

namespace Verif.Net32
open Verif.F32 Verif.Asm

/-- The activations. -/
inductive Act where
  | relu | sigmoid | tanh
  deriving DecidableEq, Repr

/-- The scalar functions the code takes from the library: `float32(math.Exp(float64(v)))`, for the elements behind the last full
vector, and `float32(math.Tanh(float64(v)))`. -/
structure Lib where
  exp : F32.W → F32.W
  tanh : F32.W → F32.W

/-- `activations.Activation.Forward` (nn/activation/activation.go) as a relation: `Sigmoid` is a matrix operation of its own,
`ReLU` and `Tanh` apply a function to every element (mat/gradfn/misc.go:251-253, 293-295; mat/dense.go:1312-1336). -/
def acts (cpu : Cpu) (j : ExpLog.Lane) (lib : Lib) : Act → List F32.W → List F32.W → Prop
  | .relu, x, z => relu32 x z
  | .sigmoid, x, z => Sigmoid32.Runs cpu j lib.exp x z
  | .tanh, x, z => z = x.map lib.tanh

end Verif.Net32
