import Verif.Model.Dense

/-!
# Backing slices with spare capacity (mat/dense.go, mat/dense_new.go)

`WithBacking(s)` keeps the slice `s` of the caller (dense_new.go:88, float/slice.go), whose capacity may exceed its length.
The Go expression `s[a:b]` panics only when `b` exceeds the capacity, not the length. `Range` and `SplitV` are the two
methods of `Dense` which slice without comparing the end with the length first; here they are modelled with the elements
between length and capacity (`spare`).
-/

set_option autoImplicit false

namespace Verif.Dense

variable {R : Type}

/-- The Go expression `l[a:b]` for a slice with the elements `spare` between its length and its capacity. -/
def subCap (l spare : List R) (a b : Nat) : Option (List R) :=
  if a ≤ b ∧ b ≤ l.length + spare.length then some (((l ++ spare).take b).drop a) else none

/-- `Range` (dense.go:1142-1153). -/
def rangeCap (d : Dense R) (spare : List R) (start stop : Int) : Option (Dense R) :=
  if ¬ d.isVector then none
  else if stop < start then none
  else if stop < 0 ∨ start < 0 then none
  else do
    let data ← subCap d.data spare start.toNat stop.toNat
    some (column data)

/-- The loop of `SplitV` (dense.go:1166-1176). -/
def splitLoopCap (data spare : List R) : Nat → List Int → Option (List (Dense R))
  | _, [] => some []
  | offset, size :: sizes =>
    if size < 0 then none
    else
      let startIndex := offset
      let offset := startIndex + size.toNat
      if startIndex ≥ data.length ∧ offset > startIndex then none
      else do
        let chunk ← subCap data spare startIndex offset
        let rest ← splitLoopCap data spare offset sizes
        some (column chunk :: rest)

/-- `SplitV` (dense.go:1157-1178). -/
def splitVCap (d : Dense R) (spare : List R) (sizes : List Int) : Option (List (Dense R)) :=
  if ¬ d.isVector then none else splitLoopCap d.data spare 0 sizes

end Verif.Dense
