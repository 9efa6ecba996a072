import Mathlib.Analysis.SpecialFunctions.Log.Basic

set_option autoImplicit false

/-!
# Learning-rate decay (optimizers/decay)

Rates are positive real numbers. One floating-point effect is modelled: the division by zero in
`Exponential.Decay` at `t = times + 1`, where the numerator `log final - log lr` is negative, so the quotient is
`-Inf` and its exponential 0.
-/

namespace Verif.Decay
noncomputable section

/-- `Exponential` (exponential.go:12-16). -/
structure Exponential where
  init : ℝ
  final : ℝ
  times : Int

/-- `exponential.New` (exponential.go:19-28): panics if `init < final`. -/
def Exponential.new (init final : ℝ) (iter : Int) : Option Exponential :=
  open Classical in if init < final then none else some ⟨init, final, iter⟩

open Classical in
/-- `Exponential.Decay` (exponential.go:31-36). -/
def Exponential.decay (d : Exponential) (lr : ℝ) (t : Int) : ℝ :=
  if t > 1 ∧ lr > d.final then
    if d.times - t + 1 = 0 then 0
    else Real.exp ((((d.times - t : Int) : ℝ) * Real.log lr + Real.log d.final) / ((d.times - t + 1 : Int) : ℝ))
  else lr

/-- `Hyperbolic` (hyperbolic.go:10-14). -/
structure Hyperbolic where
  init : ℝ
  final : ℝ
  rate : ℝ

/-- `hyperbolic.New` (hyperbolic.go:17-26). -/
def Hyperbolic.new (init final rate : ℝ) : Option Hyperbolic :=
  open Classical in if init < final then none else some ⟨init, final, rate⟩

open Classical in
/-- `Hyperbolic.Decay` (hyperbolic.go:29-34). -/
def Hyperbolic.decay (d : Hyperbolic) (lr : ℝ) (t : Int) : ℝ :=
  if t > 1 ∧ d.rate > 0 ∧ lr > d.final then d.init / (1 + d.rate * (t : ℝ)) else lr

/-- A training run: the rate starts in `init`, and `Decay` is called with `t = 1, 2, …, n`. -/
def rates (decay : ℝ → Int → ℝ) (init : ℝ) : Nat → ℝ
  | 0 => init
  | n + 1 => decay (rates decay init n) (n + 1 : Nat)

end

end Verif.Decay
