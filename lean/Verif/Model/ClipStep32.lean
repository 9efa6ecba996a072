/-
Training steps with clipping, on words of float32: the gradients of all parameters are clipped by `NormClipper.ClipGradients` with `NormType`
+Inf (`Model/Clip32.lean`; optimizers/gradclipper/clipper.go:66-77), then every parameter is updated by plain SGD (`Model/Opt32.lean`;
optimizers/sgd/sgd.go:79-126, optimizers/optimizer.go:60-63).
-/
import Verif.Model.Clip32
import Verif.Model.Opt32
set_option autoImplicit false

namespace Verif.ClipStep32
open Verif.F32 Verif.Asm Verif.Clip32

/-- `Optimize`: every parameter with its gradient (optimizers/optimizer.go:60-63), whatever is in the buffer `v`. -/
def Update (cpu : Cpu) (lr : F32.W) : List (List F32.W) → List (List F32.W) → List (List F32.W) → Prop
  | [], [], ws' => ws' = []
  | w :: ws, g :: gs, ws' => ∃ v w' v' r, Opt32.Sgd cpu .plain lr w g v w' v' ∧ Update cpu lr ws gs r ∧ ws' = w' :: r
  | _, _, _ => False

/-- Steps one after the other: `l` has the gradients of every step before clipping. -/
def Steps (cpu : Cpu) (coef : F32.W → Option F32.W) (lr : F32.W) : List (List (List F32.W)) → List (List F32.W) → List (List F32.W) → Prop
  | [], ws, ws' => ws' = ws
  | gs :: l, ws, ws' => ∃ gs' w₁, ClipMax cpu coef gs gs' ∧ Update cpu lr ws gs' w₁ ∧ Steps cpu coef lr l w₁ ws'

end Verif.ClipStep32
