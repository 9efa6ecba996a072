/-
The Zipf generator (mat/internal/rand/zipf.go), in exact real arithmetic: `float64` is `ℝ`, so the
results say nothing about rounding.  The uniform numbers `z.r.Float64()` are a parameter.
-/
import Mathlib.Analysis.SpecialFunctions.Log.Basic
import Mathlib.Algebra.Order.Floor.Ring
set_option autoImplicit false
set_option linter.unusedSimpArgs false

namespace Verif.Zipf

/-- `Zipf` (zipf.go:16-26) without the source of random numbers. -/
structure Zipf where
  imax : ℝ
  v : ℝ
  q : ℝ
  s : ℝ
  oneminusQ : ℝ
  oneminusQinv : ℝ
  hxm : ℝ
  hx0minusHxm : ℝ

/-- `h` (zipf.go:28-30); the fields used are `v`, `oneminusQ`, `oneminusQinv`. -/
noncomputable def h (v omq omqi x : ℝ) : ℝ := Real.exp (omq * Real.log (v + x)) * omqi

/-- `hinv` (zipf.go:32-34). -/
noncomputable def hinv (v omq omqi x : ℝ) : ℝ := Real.exp (omqi * Real.log (omq * x)) - v

/-- `NewZipf` (zipf.go:40-55); `none` is the nil pointer. -/
noncomputable def newZipf (s v : ℝ) (imax : ℕ) : Option Zipf :=
  if s ≤ 1 ∨ v < 1 then none
  else
    let q := s
    let omq := 1 - q
    let omqi := 1 / omq
    let hxm := h v omq omqi (imax + 0.5)
    some
      { imax := imax
        v := v
        q := q
        oneminusQ := omq
        oneminusQinv := omqi
        hxm := hxm
        hx0minusHxm := h v omq omqi 0.5 - Real.exp (Real.log v * (-q)) - hxm
        s := 1 - hinv v omq omqi (h v omq omqi 1.5 - Real.exp (-q * Real.log (v + 1))) }

/-- One round of the loop of `Uint64` (zipf.go:65-75) with the uniform number `r`: the value that is
returned, or `none` when the loop goes on. -/
noncomputable def step (z : Zipf) (r : ℝ) : Option ℤ :=
  let ur := z.hxm + r * z.hx0minusHxm
  let x := hinv z.v z.oneminusQ z.oneminusQinv ur
  let k := ⌊x + 0.5⌋
  if k - x ≤ z.s then some k
  else if ur ≥ h z.v z.oneminusQ z.oneminusQinv (k + 0.5) - Real.exp (-Real.log (k + z.v) * z.q) then
    some k
  else none

/-- `Uint64` (zipf.go:59-77) on a sequence of uniform numbers: it returns `k` in the round `n`. -/
def Returns (z : Zipf) (r : ℕ → ℝ) (n : ℕ) (k : ℤ) : Prop :=
  (∀ i < n, step z (r i) = none) ∧ step z (r n) = some k

end Verif.Zipf
