/-
The optimizers SGD (plain, with momentum, with Nesterov momentum), AdaGrad and RMSProp of float32 on amd64, from the bits of parameter,
gradient and state to the bits of the next parameter and state, with the operations of `Model/Adam32.lean`.

The settings are float64 and become float32 at each use; the model takes the words that result.  Buffers that are written in full before
they are read are left out of the state, which is then one list for each optimizer: the velocity or the sum or average of squares.
-/
import Verif.Model.Adam32
set_option autoImplicit false

namespace Verif.Opt32
open Verif.F32 Verif.Asm Verif.Spec.Kernels Verif.Net32 Verif.Rec32 Verif.Att32 Verif.Adam32

/-- One step: rate, parameter, gradient, state, next parameter, next state. -/
abbrev Strategy := F32.W → List F32.W → List F32.W → List F32.W → List F32.W → List F32.W → Prop

/-- Steps with their rate and gradient, one after the other. -/
def Steps (step : Strategy) : List (F32.W × List F32.W) → List F32.W → List F32.W → List F32.W → List F32.W → Prop
  | [], w, s, w', s' => w' = w ∧ s' = s
  | (alpha, g) :: l, w, s, w', s' => ∃ w₁ s₁, step alpha w g s w₁ s₁ ∧ Steps step l w₁ s₁ w' s'

/-- A parameter without a state gets one of zeros (sgd.go:56-77, adagrad.go:62-66, rmsprop.go:65-69), and the steps follow. -/
def Train (step : Strategy) (l : List (F32.W × List F32.W)) (w w' s' : List F32.W) : Prop :=
  Steps step l w (List.replicate w.length 0) w' s'

/-- `Mu` and `Nesterov` (sgd.go:15-21, 79-88): `Mu` zero, `Mu`, or `Mu` and `1.0+Mu`, as float32. -/
inductive Mode where
  | plain
  | momentum (mu : F32.W)
  | nesterov (mu mu1 : F32.W)

/-- `calculateParamUpdate` (sgd.go:79-109): the next velocity `v'` and what is subtracted, `d`. -/
def Velocity (cpu : Cpu) (o : Mode) (alpha : F32.W) (g v v' d : List F32.W) : Prop :=
  v.length = g.length ∧
  match o with
  | .plain => Scale cpu alpha g v' ∧ d = v'
  | .momentum mu => ∃ buf a, Scale cpu alpha g buf ∧ ScaleIn cpu mu v a ∧ AddIn cpu a buf v' ∧ d = v'
  | .nesterov mu mu1 => ∃ buf prev a t, Scale cpu alpha g buf ∧ Scale cpu mu v prev ∧ ScaleIn cpu mu v a ∧ AddIn cpu a buf v' ∧
      Scale cpu mu1 v' t ∧ SubIn cpu t prev d

/-- `OptimizeParams` of SGD (sgd.go:111-126). -/
def Sgd (cpu : Cpu) (o : Mode) : Strategy := fun alpha w g v w' v' =>
  ∃ d, Velocity cpu o alpha g v v' d ∧ SubIn cpu w d w'

/-- `OptimizeParams` of AdaGrad (adagrad.go:68-89); `eps` is `Epsilon`. -/
def AdaGrad (cpu : Cpu) (eps : F32.W) : Strategy := fun lr w g m w' m' =>
  ∃ sq den q d, Prod g g sq ∧ AddIn cpu m sq m' ∧ AddConstIn cpu eps (m'.map sqrtIeee) den ∧ DivNew cpu g den q ∧ ScaleIn cpu lr q d ∧
    SubIn cpu w d w'

/-- `OptimizeParams` of RMSProp (rmsprop.go:71-97); `decay` and `rest` are `Decay` and `1.0-Decay`. -/
def RMSProp (cpu : Cpu) (decay rest eps : F32.W) : Strategy := fun lr w g v w' v' =>
  ∃ a sq b den q d, ScaleIn cpu decay v a ∧ Prod g g sq ∧ ScaleIn cpu rest sq b ∧ AddIn cpu a b v' ∧
    AddConstIn cpu eps (v'.map sqrtIeee) den ∧ DivNew cpu g den q ∧ ScaleIn cpu lr q d ∧ SubIn cpu w d w'

end Verif.Opt32
