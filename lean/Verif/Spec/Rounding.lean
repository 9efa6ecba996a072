import Mathlib.Data.Real.Basic
import Mathlib.Algebra.Order.AbsoluteValue.Basic

set_option autoImplicit false

/-!
# Rounded arithmetic

The usual model of floating-point arithmetic without overflow and underflow: every operation gives the exact result
rounded, rounding has a relative error of at most `u`, and numbers of the format are not changed by rounding.
-/

namespace Verif.Spec

/-- A rounding with unit roundoff `u`. -/
structure Rounding (u : ℝ) where
  rd : ℝ → ℝ
  idem : ∀ x, rd (rd x) = rd x
  err : ∀ x, |rd x - x| ≤ u * |x|

/-- A number of the format. -/
def Rounding.Fits {u : ℝ} (ρ : Rounding u) (x : ℝ) : Prop := ρ.rd x = x

/-- The error of `n` roundings in a row, relative to the exact value. -/
def growth (u : ℝ) (n : Nat) : ℝ := (1 + u) ^ n - 1

end Verif.Spec
