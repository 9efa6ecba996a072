import Verif.Lemmas.F32
import Verif.Spec.Crf
import Mathlib.Analysis.SpecialFunctions.Log.Basic

set_option autoImplicit false

/-!
# What is asked of `math.Exp` and `math.Log` on float32, and what the CRF loss should be
-/

namespace Verif.Spec.Crf32
open Verif.F32 Verif.CrfSpec

/-- The exponential and the logarithm of a float32, computed with more precision and rounded: off by at most one part in
`2^23` (rounding alone is one part in `2^24`), and where the logarithm is no normal number by at most `2^-126`; the exponential overflows between 88 and
89; infinity goes to infinity. -/
structure Scalars (exp log : W → W) : Prop where
  exp_near : ∀ z, F32.Finite z → -87 ≤ val z → val z ≤ 88 →
    F32.Finite (exp z) ∧ |val (exp z) - Real.exp (val z)| ≤ Real.exp (val z) / 2 ^ 23
  exp_above : ∀ z, F32.Finite z → 88 ≤ val z →
    exp z = posInf ∨ F32.Finite (exp z) ∧ |val (exp z) - Real.exp (val z)| ≤ Real.exp (val z) / 2 ^ 23
  exp_over : ∀ z, F32.Finite z → 89 ≤ val z → exp z = posInf
  exp_inf : exp posInf = posInf
  log_near : ∀ z, F32.Finite z → (2 : ℝ) ^ (-126 : Int) ≤ val z →
    F32.Finite (log z) ∧ |val (log z) - Real.log (val z)| ≤ |Real.log (val z)| / 2 ^ 23 + (2 : ℝ) ^ (-126 : Int)
  log_inf : log posInf = posInf

/-- The negative logarithm of the probability of the labels `ys`, that is of `e^score(ys) / Σ e^score`. -/
noncomputable def loss (n : Nat) (trans : Nat → Nat → ℝ) (emis : List (Nat → ℝ)) (ys : List Nat) : ℝ :=
  -Real.log (Real.exp (score trans emis ys) /
    ((labelings n emis.length).map fun zs => Real.exp (score trans emis zs)).sum)

/-- The error for `len` positions and `n` labels. -/
noncomputable def tol (len n : Nat) : ℝ := (len + 1) * (1 / 2 ^ 14 + n / 2 ^ 23)

end Verif.Spec.Crf32
