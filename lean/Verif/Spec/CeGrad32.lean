import Verif.Spec.Back32
import Verif.Spec.CrossEntropy32
import Verif.Model.CeGrad32

set_option autoImplicit false

/-!
# The gradient of the cross entropy of real numbers
-/

namespace Verif.Spec.CeGrad32
open Verif.F32

/-- The probability that the softmax of the `n` scores `v` gives to `i`, less 1 for the class `c`. -/
noncomputable def ceGrad (n c : Nat) (v : Nat → ℝ) (i : Nat) : ℝ :=
  Real.exp (v i) / (∑ j ∈ Finset.range n, Real.exp (v j)) - if i = c then 1 else 0

/-- How far the gradient of float32 may be from it, for `n` scores with an error of `E`. -/
noncomputable def ceErr (n : Nat) (E : ℝ) : ℝ := (Real.exp (2 * E) - 1) + 1 / 2 ^ 14 + n / 2 ^ 21

/-- What is asked of the reciprocal (of float64, then rounded to float32): off by at most one part in `2^23`. -/
def GoodInv (inv : W → W) : Prop :=
  ∀ z, F32.Finite z → 1 / 2 ≤ val z → val z ≤ 2 ^ 21 → F32.Finite (inv z) ∧ |val (inv z) - 1 / val z| ≤ 1 / val z / 2 ^ 23

end Verif.Spec.CeGrad32
