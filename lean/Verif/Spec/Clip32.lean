import Verif.Lemmas.F32Int

set_option autoImplicit false

/-!
# Gradients clipped by their largest absolute value, on float32
-/

namespace Verif.Spec.Clip32
open Verif.F32

/-- `N` is the largest absolute value of all gradients, 0 when there are none. -/
def IsNorm (gs : List (List F32.W)) (N : ℝ) : Prop :=
  (∀ g ∈ gs, ∀ x ∈ g, |val x| ≤ N) ∧ (N = 0 ∨ ∃ g ∈ gs, ∃ x ∈ g, N = |val x|)

/-- What float64 arithmetic gives for `MaxNorm / (n + 1e-7)`, compared with 1 and converted to float32, for a `MaxNorm` of `K`: exact up to
one unit in the last place of a float32, and for the comparison up to one part in 2^50; 0 for an infinite `n`, and a NaN is not below 1. -/
structure GoodCoef (K : ℝ) (coef : F32.W → Option F32.W) : Prop where
  keep : ∀ n, F32.Finite n → 0 ≤ val n → coef n = none → (val n + 1e-7) * (1 - 1 / 2 ^ 50) ≤ K
  scale : ∀ n c, F32.Finite n → 0 ≤ val n → coef n = some c → K ≤ (val n + 1e-7) * (1 + 1 / 2 ^ 50) ∧ F32.Finite c ∧ 0 ≤ val c ∧ val c ≤ 1 ∧
    |val c - K / (val n + 1e-7)| ≤ K / (val n + 1e-7) / 2 ^ 23 + (2 : ℝ) ^ (-149 : Int)
  inf : coef posInf = some 0
  nan : ∀ n, isNaN n = true → coef n = none

/-- The word `r` that replaces the gradient element `x`, of gradients with largest absolute value `N`. -/
structure Clipped (K N : ℝ) (x r : F32.W) : Prop where
  finite : F32.Finite r
  smaller : |val r| ≤ |val x|
  bound : |val r| ≤ K * (1 + 1 / 2 ^ 21) + N * (2 : ℝ) ^ (-148 : Int) + (2 : ℝ) ^ (-150 : Int)
  /-- small gradients stay as they are -/
  keep : (N + 1e-7) * (1 + 1 / 2 ^ 50) < K → r = x
  /-- large ones are scaled -/
  close : K < (N + 1e-7) * (1 - 1 / 2 ^ 50) →
    |val r - val x * (K / (N + 1e-7))| ≤ |val x| * (K / (N + 1e-7)) / 2 ^ 22 + |val x| * (2 : ℝ) ^ (-148 : Int) + (2 : ℝ) ^ (-150 : Int)

end Verif.Spec.Clip32
