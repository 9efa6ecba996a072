import Mathlib.Data.List.Basic

set_option autoImplicit false

/-!
# Go slices as lists

A slice is the list of its elements; its capacity equals its length (true for everything made
with `make`; spare capacity of slices handed in by users with `WithBacking` is not modelled).
`none` is a run-time panic.
-/

namespace Verif.GoSlice
variable {R : Type}

/-- The slice expression `l[a:b]`. -/
def sub (l : List R) (a b : Nat) : Option (List R) :=
  if a ≤ b ∧ b ≤ l.length then some ((l.take b).drop a) else none

/-- The assignment `l[i] = v`. -/
def set (l : List R) (i : Nat) (v : R) : Option (List R) :=
  if i < l.length then some (l.set i v) else none

/-- `copy(dst, src)`: as many elements as fit. -/
def copy (dst src : List R) : List R := src.take dst.length ++ dst.drop src.length

/-- `copy(dst[a:b], src)`. -/
def copyRange (dst : List R) (a b : Nat) (src : List R) : Option (List R) := do
  let d ← sub dst a b
  some (dst.take a ++ copy d src ++ dst.drop b)

/-- `l[a], l[b] = l[b], l[a]`. -/
def swap (l : List R) (a b : Nat) : Option (List R) := do
  let x ← l[a]?
  let y ← l[b]?
  some ((l.set a y).set b x)

end Verif.GoSlice
