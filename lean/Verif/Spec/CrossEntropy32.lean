import Verif.Spec.Softmax32
import Mathlib.Analysis.SpecialFunctions.Log.Basic

set_option autoImplicit false

/-!
# The cross entropy of real numbers, for words of float32
-/

namespace Verif.Spec.CrossEntropy32
open Verif.F32 Verif.Spec.Softmax32

/-- The negative logarithm of the probability that the softmax of the `n` scores `x` gives to the class `c`. -/
noncomputable def crossEntropy (n : Nat) (x : Nat → W) (c : Nat) : ℝ := -Real.log (softmax n x c)

/-- What is asked of the function that computes the exponential of one element: `GoodExp`, and 1 for zero. -/
def ExpOne (f : W → W) : Prop := ∀ z, F32.Finite z → val z = 0 → F32.Finite (f z) ∧ val (f z) = 1

/-- What is asked of the function that computes the logarithm of one element, for numbers from 1 on: a finite number that is
not negative, off by at most one part in `2^23` and `2^-126`. -/
def GoodLog (f : W → W) : Prop :=
  ∀ z, F32.Finite z → 1 ≤ val z → F32.Finite (f z) ∧ 0 ≤ val (f z) ∧
    |val (f z) - Real.log (val z)| ≤ Real.log (val z) / 2 ^ 23 + (2 : ℝ) ^ (-126 : Int)

/-- The logarithm of the sum of the exponentials. -/
noncomputable def logSumExp (n : Nat) (x : Nat → W) : ℝ := Real.log (∑ j ∈ Finset.range n, weight (x j))

/-- The error of `LogSumExp` for `n` scores up to `A`: that of the logarithm of the sum, and one rounding of a number of the
size of the scores. -/
noncomputable def tolSum (n : Nat) (A : ℝ) : ℝ := 1 / 2 ^ 16 + n / 2 ^ 23 + A / 2 ^ 24

/-- The error of the cross entropy: one more addition. -/
noncomputable def tol (n : Nat) (A : ℝ) : ℝ := 1 / 2 ^ 15 + n / 2 ^ 23 + A / 2 ^ 22

end Verif.Spec.CrossEntropy32
