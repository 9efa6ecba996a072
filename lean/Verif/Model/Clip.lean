import Verif.Model.Dense
import Mathlib.Analysis.SpecialFunctions.Pow.Real
import Mathlib.Logic.Function.Basic

set_option autoImplicit false

/-!
# Gradient clipping (optimizers/gradclipper/clipper.go)

The gradients are objects shared through pointers: `heap id` is the gradient of parameter `id`, `none` if it is nil.
The parameters delivered by the channel are given by their identities; the same parameter may come more than once.
A panic is `none`.
-/

namespace Verif.Clip
open Dense
open Function (update)

/-- The gradients of all parameters. -/
abbrev Heap := Nat → Option (Dense ℝ)

/-- A loop `for _, g := range grads { g.f() }` with an in-place operation `f`; a method called on a nil gradient
panics. -/
noncomputable def forEach (f : Dense ℝ → Option (Dense ℝ)) : List Nat → Heap → Option Heap
  | [], h => some h
  | id :: ids, h => do
    let g ← h id
    let g' ← f g
    forEach f ids (update h id (some g'))

noncomputable section

/-- `ValueClipper.ClipGrads` (clipper.go:28-32). -/
def clipValue (v : ℝ) (ids : List Nat) (h : Heap) : Option Heap :=
  forEach (fun g => g.clip (-v) v) ids h

/-- `NormType`: a number, or `+Inf`. -/
inductive NormType
  | fin (p : ℝ)
  | inf

/-- The sum in `calculateTotalNorm` (clipper.go:57-60). -/
def powSum (p : ℝ) (h : Heap) : List Nat → ℝ → Option ℝ
  | [], s => some s
  | id :: ids, s => do
    let g ← h id
    powSum p h ids (s + ((g.map fun x => |x|).map (· ^ p)).sum)

/-- The maximum in `calculateTotalNorm` (clipper.go:53-55). -/
def maxLoop (h : Heap) : List Nat → ℝ → Option ℝ
  | [], s => some s
  | id :: ids, s => do
    let g ← h id
    let m ← (g.map fun x => |x|).max
    maxLoop h ids (Max.max m s)

/-- `calculateTotalNorm` (clipper.go:50-64). -/
def totalNorm (t : NormType) (h : Heap) (ids : List Nat) : Option ℝ :=
  match t with
  | .inf => maxLoop h ids 0
  | .fin p => do
    let s ← powSum p h ids 0
    some (s ^ (1 / p))

/-- `validateNormType` (clipper.go:43-47): whether it does not panic. -/
def validNormType : NormType → Prop
  | .fin p => ¬ p ≤ 1
  | .inf => True

open Classical in
/-- `NormClipper.ClipGradients` (clipper.go:68-79). -/
def clipNorm (maxNorm : ℝ) (t : NormType) (ids : List Nat) (h : Heap) : Option Heap :=
  if validNormType t then do
    let n ← totalNorm t h ids
    let clipCoeff := maxNorm / (n + 1e-7)
    if clipCoeff < 1 then forEach (fun g => some (g.map (· * clipCoeff))) ids h
    else some h
  else none

end

end Verif.Clip
