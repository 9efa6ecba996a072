import Verif.Lemmas.F32Int

set_option autoImplicit false

/-!
# How far steps with clipped gradients can move parameters of float32
-/

namespace Verif.Spec.ClipStep32
open Verif.F32

/-- How far one step can move a parameter up to `B`: the learning rate times `MaxNorm`, and the roundings. -/
noncomputable def reach (K lr B : ℝ) : ℝ := lr * (K * (1 + 1 / 2 ^ 21) + 1 / 2 ^ 19) * (1 + 1 / 2 ^ 22) + (2 : ℝ) ^ (-148 : Int) + B / 2 ^ 23

/-- The parameter `b` is a number at most `D` away from `a`. -/
def Near (D : ℝ) (a b : F32.W) : Prop := F32.Finite b ∧ |val b - val a| ≤ D

end Verif.Spec.ClipStep32
