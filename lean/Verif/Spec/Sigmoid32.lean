import Verif.Lemmas.F32
import Mathlib.Analysis.SpecialFunctions.Exp

set_option autoImplicit false

/-!
# The logistic function, for words of float32
-/

namespace Verif.Spec.Sigmoid32
open Verif.F32

/-- The logistic function. -/
noncomputable def sigmoid (x : ℝ) : ℝ := 1 / (1 + Real.exp (-x))

/-- What is asked of the function that computes the exponential of one element: up to 88.376, a finite number that is not
negative, off by at most one part in `2^21` and `2^-126`; above, infinity or a number from `2^120` to `2^128 - 2^108` (the exponential of the
largest number for which it is not infinite is below `2^128 - 2^110`). -/
def FullExp (f : W → W) : Prop :=
  ∀ z, F32.Finite z →
    (val z ≤ 11583653 / 131072 → F32.Finite (f z) ∧ 0 ≤ val (f z) ∧ val (f z) ≤ 2 ^ 127 * (19 / 10) ∧
      |val (f z) - Real.exp (val z)| ≤ Real.exp (val z) / 2 ^ 21 + (2 : ℝ) ^ (-126 : Int)) ∧
    (11583653 / 131072 < val z → f z = posInf ∨ F32.Finite (f z) ∧ 2 ^ 120 ≤ val (f z) ∧ val (f z) ≤ 2 ^ 128 - 2 ^ 108)

end Verif.Spec.Sigmoid32
