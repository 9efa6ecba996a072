/- The distribution of the Zipf generator (zipf.go:36-39): the probability of `k ∈ [0, imax]` is
proportional to `(v + k) ^ (-s)`. -/
import Mathlib.Analysis.SpecialFunctions.Pow.Real
set_option autoImplicit false

namespace Verif.Spec.Zipf

noncomputable def weight (s v : ℝ) (k : ℕ) : ℝ := (v + k) ^ (-s)

noncomputable def total (s v : ℝ) (imax : ℕ) : ℝ := ∑ k ∈ Finset.range (imax + 1), weight s v k

end Verif.Spec.Zipf
