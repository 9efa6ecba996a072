import Mathlib.Analysis.SpecialFunctions.Pow.Real

set_option autoImplicit false

/-!
# Normalisation of vectors of real numbers
-/

namespace Verif.Spec.Norm32

noncomputable def mean (n : Nat) (x : Nat → ℝ) : ℝ := (∑ i ∈ Finset.range n, x i) / n

noncomputable def meanSq (n : Nat) (x : Nat → ℝ) : ℝ := (∑ i ∈ Finset.range n, x i * x i) / n

/-- The standard deviation. -/
noncomputable def spread (n : Nat) (x : Nat → ℝ) : ℝ := Real.sqrt (meanSq n fun j => x j - mean n x)

/-- The denominator of LayerNorm. -/
noncomputable def layerDen (n : Nat) (eps : ℝ) (x : Nat → ℝ) : ℝ := Real.sqrt (meanSq n (fun j => x j - mean n x) + eps)

/-- `x - mean`, divided by the square root of the variance and `eps`. -/
noncomputable def layer (n : Nat) (eps : ℝ) (x : Nat → ℝ) (i : Nat) : ℝ := (x i - mean n x) / layerDen n eps x

/-- `x - mean`, divided by the standard deviation and `1e-10`. -/
noncomputable def simple (n : Nat) (x : Nat → ℝ) (i : Nat) : ℝ := (x i - mean n x) / (spread n x + 1e-10)

/-- `x` divided by its root mean square and `1e-10`. -/
noncomputable def rms (n : Nat) (x : Nat → ℝ) (i : Nat) : ℝ := x i / (Real.sqrt (meanSq n x) + 1e-10)

/-- `x` divided by its length and `1e-10`. -/
noncomputable def unit (n : Nat) (x : Nat → ℝ) (i : Nat) : ℝ := x i / (Real.sqrt (∑ j ∈ Finset.range n, x j * x j) + 1e-10)

/-- The error of dividing numbers up to `k` times the denominator. -/
noncomputable def quotErr (n : Nat) (k : ℝ) : ℝ := k * (n + 24) / 2 ^ 23 + 1 / 2 ^ 149

/-- The error of the mean of numbers up to `X`, as it appears in the quotient with denominator `D`. -/
noncomputable def meanErr (n : Nat) (X D : ℝ) : ℝ := (Real.sqrt n + 1) * ((n + 5) / 2 ^ 23 * (X + 1 / 2 ^ 63)) / D

/-- The error of `w y + b`, given that of `y`, which is up to `k`. -/
noncomputable def affErr (k w b e : ℝ) : ℝ := |w| * e + (k * |w| + |b|) / 2 ^ 22 + 1 / 2 ^ 149

end Verif.Spec.Norm32
