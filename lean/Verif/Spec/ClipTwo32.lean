import Verif.Lemmas.F32Int
import Mathlib.Analysis.SpecialFunctions.Pow.NNReal

set_option autoImplicit false

/-!
# Gradients clipped by their Euclidean norm, on float32
-/

namespace Verif.Spec.ClipTwo32
open Verif.F32

/-- The Euclidean norm of all gradients together. -/
noncomputable def norm2 (gs : List (List F32.W)) : ℝ := √((gs.map fun g => (g.map fun x => val x ^ 2).sum).sum)

/-- The square root of the sum of the numbers `vs`. -/
noncomputable def root (vs : List F32.W) : ℝ := √((vs.map val).sum)

/-- What float64 arithmetic gives for `MaxNorm / (root + 1e-7)`, compared with 1 and converted to float32, for a `MaxNorm` of `K` and up to a
million numbers: the comparison is exact up to one part in 2^30, the quotient up to a unit in the last place of a float32; the coefficient
is 0 when a number is `+Inf` and none is negative or NaN. -/
structure GoodRoot (K : ℝ) (coef : List F32.W → Option F32.W) : Prop where
  keep : ∀ vs, vs.length ≤ 2 ^ 20 → (∀ v ∈ vs, F32.Finite v ∧ 0 ≤ val v) → coef vs = none → (root vs + 1e-7) * (1 - 1 / 2 ^ 30) ≤ K
  scale : ∀ vs c, vs.length ≤ 2 ^ 20 → (∀ v ∈ vs, F32.Finite v ∧ 0 ≤ val v) → coef vs = some c →
    K ≤ (root vs + 1e-7) * (1 + 1 / 2 ^ 30) ∧ F32.Finite c ∧ 0 ≤ val c ∧ val c ≤ 1 ∧
    |val c - K / (root vs + 1e-7)| ≤ K / (root vs + 1e-7) / 2 ^ 23 + (2 : ℝ) ^ (-149 : Int)
  inf : ∀ vs, posInf ∈ vs → (∀ v ∈ vs, (F32.Finite v ∧ 0 ≤ val v) ∨ v = posInf) → coef vs = some 0

/-- The word `r` that replaces the gradient element `x`, of gradients with Euclidean norm `N` and at most `L` elements each. -/
structure Clipped (K N : ℝ) (L : Nat) (x r : F32.W) : Prop where
  finite : F32.Finite r
  smaller : |val r| ≤ |val x|
  /-- small gradients stay as they are -/
  keep : (N + 1e-7) * (1 + (L + 4) / 2 ^ 23) < K → r = x
  /-- large ones are scaled -/
  close : K < (N + 1e-7) * (1 - (L + 4) / 2 ^ 23) →
    |val r - val x * (K / (N + 1e-7))| ≤ |val x| * (K / (N + 1e-7)) * ((L + 5) / 2 ^ 22) + |val x| * (2 : ℝ) ^ (-148 : Int) + (2 : ℝ) ^ (-150 : Int)

end Verif.Spec.ClipTwo32
