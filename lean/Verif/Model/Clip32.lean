/-
`NormClipper.ClipGradients` with `NormType` +Inf (optimizers/gradclipper/clipper.go:50-77) on gradients of float32, on words.

The gradients are those of distinct parameters, each a list of words; shared gradients are in Model/Clip.lean.  A panic is `none` or no
result.  The largest absolute value is a float32 converted to float64, which is exact: it is kept as its word.  The coefficient is
computed in float64, which is not modelled bit by bit: `coef` is a parameter.
-/
import Verif.Model.Select32
import Verif.Model.Adam32
import Mathlib.Data.List.Forall2
set_option autoImplicit false
set_option linter.unusedSimpArgs false

namespace Verif.Clip32
open Verif.F32 Verif.Asm Verif.Select32 Verif.Adam32

/-- `Abs` of one element (mat/mathfunctions.go:62-64, mat/dense.go:899-912): the sign bit is cleared. -/
def absW (x : F32.W) : F32.W := x &&& 0x7fffffff

/-- `math.Max` of the Go library on numbers without sign: an infinity wins, then a NaN, then the larger one. -/
def goMax (a t : F32.W) : F32.W :=
  if a = posInf ∨ t = posInf then posInf else if isNaN a || isNaN t then qNaN else if lt t a then a else t

/-- The loop of `calculateTotalNorm` for `NormType` +Inf (clipper.go:53-55); `Max` panics for an empty matrix. -/
def totalMax : List (List F32.W) → F32.W → Option F32.W
  | [], t => some t
  | g :: gs, t =>
    match maxOf (g.map absW) with
    | none => none
    | some m => totalMax gs (goMax m t)

/-- `ClipGradients` (clipper.go:66-77).  `coef n` is `none` when `MaxNorm / (n + 1e-7) < 1.0` is false, otherwise that quotient converted to
float32 as `ProdScalarInPlace` does (mat/dense.go:606-618). -/
def ClipMax (cpu : Cpu) (coef : F32.W → Option F32.W) (gs gs' : List (List F32.W)) : Prop :=
  ∃ n, totalMax gs 0 = some n ∧
    match coef n with
    | none => gs' = gs
    | some c => List.Forall₂ (ScaleIn cpu c) gs gs'

end Verif.Clip32
