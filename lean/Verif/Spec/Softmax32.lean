import Verif.Lemmas.F32
import Mathlib.Analysis.SpecialFunctions.Exp

set_option autoImplicit false
set_option linter.unusedSimpArgs false

/-!
# The softmax of real numbers, for words of float32

Read with `F32.val`, the number a finite word stands for; minus infinity, with which a causal mask fills the scores, has
the weight 0.
-/

namespace Verif.Spec.Softmax32
open Verif.F32

/-- `e^x`. -/
noncomputable def weight (x : W) : ℝ := if x = negInf then 0 else Real.exp (val x)

/-- `e^{x_i} / Σ_j e^{x_j}` for the `n` elements `x`. -/
noncomputable def softmax (n : Nat) (x : Nat → W) (i : Nat) : ℝ :=
  weight (x i) / ∑ j ∈ Finset.range n, weight (x j)

/-- What is asked of the function that computes the exponential of one element, for arguments up to 1: a finite number that is
not negative, off by at most one part in `2^21` and `2^-126`; 0 for minus infinity. -/
def GoodExp (f : W → W) : Prop :=
  (F32.Finite (f negInf) ∧ val (f negInf) = 0) ∧
  ∀ z, F32.Finite z → val z ≤ 1 → F32.Finite (f z) ∧ 0 ≤ val (f z) ∧
    |val (f z) - Real.exp (val z)| ≤ Real.exp (val z) / 2 ^ 21 + (2 : ℝ) ^ (-126 : Int)

/-- The error of the result, relative to it, for `n` elements. -/
noncomputable def tol (n : Nat) : ℝ := 1 / 2 ^ 16 + n / 2 ^ 23

end Verif.Spec.Softmax32
