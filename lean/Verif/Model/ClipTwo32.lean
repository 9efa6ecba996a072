/-
`NormClipper.ClipGradients` with `NormType` 2, the documented default (optimizers/gradclipper/clipper.go:50-77), on gradients of float32, on words.

The gradients are those of distinct parameters.  The squares and their sum over one gradient are float32 (`Pow`, `Sum`); the sum over the
gradients, its square root and the coefficient are float64, which is not modelled bit by bit: `coef` is a parameter.
-/
import Verif.Model.Clip32
import Verif.Model.Norm32
set_option autoImplicit false
set_option linter.unusedSimpArgs false

namespace Verif.ClipTwo32
open Verif.F32 Verif.Asm Verif.Rec32 Verif.Adam32 Verif.Norm32 Verif.Clip32

/-- `g.Abs().Pow(2).Sum()` (clipper.go:59; mat/dense.go:899-912, 916-929 and `Sum`).  The square of a float32 is exact in float64, so that
`T(math.Pow(float64(val), 2))` is the product of float32. -/
def SumSq (cpu : Cpu) (g : List F32.W) (v : F32.W) : Prop := ∃ sq, Prod (g.map absW) (g.map absW) sq ∧ Sum1 cpu sq v

/-- `ClipGradients` (clipper.go:66-77).  For the sums `vs` of the gradients, `coef vs` is `none` when
`MaxNorm / (math.Pow(sum, 1/2) + 1e-7) < 1.0` is false, otherwise that quotient converted to float32 (mat/dense.go:606-618). -/
def ClipTwo (cpu : Cpu) (coef : List F32.W → Option F32.W) (gs gs' : List (List F32.W)) : Prop :=
  ∃ vs, List.Forall₂ (SumSq cpu) gs vs ∧
    match coef vs with
    | none => gs' = gs
    | some c => List.Forall₂ (ScaleIn cpu c) gs gs'

end Verif.ClipTwo32
