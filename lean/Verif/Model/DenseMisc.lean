/-
Norms, visits of the non-zero elements and overwriting of a dense matrix (mat/dense.go).
-/
import Verif.Model.Dense
import Mathlib.Analysis.SpecialFunctions.Pow.Real
set_option autoImplicit false
set_option linter.unusedSimpArgs false

namespace Verif.DenseMisc
open Verif

variable {R : Type}

/-- `math.Pow` on finite arguments, over the reals; `none` is NaN or an infinity.  (The second
argument is positive wherever it is used below.) -/
noncomputable def goPow (x y : ℝ) : Option ℝ :=
  if y = 0 then some 1
  else if x = 0 then (if 0 < y then some 0 else none)
  else if 0 < x then some (x ^ y)
  else if y = ⌊y⌋ then some (x ^ ⌊y⌋) else none

/-- The loop of `norm` (dense.go:1295-1298): NaN and infinities stay. -/
noncomputable def powSum (p : ℝ) : List ℝ → Option ℝ → Option ℝ
  | [], s => s
  | x :: xs, s => powSum p xs (do let a ← s; let b ← goPow x p; return a + b)

/-- `norm` (dense.go:1291-1300).  The outer `none` is the panic, the inner one NaN or an infinity.
The conversions to and from float64 are left out. -/
noncomputable def norm (d : Dense ℝ) (pow : ℝ) : Option (Option ℝ) :=
  if !d.isVector then none
  else some (do let s ← powSum pow d.data (some 0); goPow s (1 / pow))

/-- `Norm` (dense.go:1287-1289). -/
noncomputable def Norm (d : Dense ℝ) (pow : ℝ) : Option (Option (Dense ℝ)) := do
  let v ← norm d pow
  return v.map Dense.scalar

/-- `Normalize2` (dense.go:1303-1309) with `Clone` and `ProdScalar`. -/
noncomputable def normalize2 (d : Dense ℝ) : Option (Option (Dense ℝ)) := do
  let v ← norm d 2
  return v.map fun n => if n = 0 then d else d.map (· * (1 / n))

/-- The inner loop of `DoNonZero` (dense.go:1410-1416) in row `r`: the remaining columns, the next
index into the data, the calls so far. -/
def visitCols [Zero R] [DecidableEq R] (data : List R) (r : Nat) :
    List Nat → Nat → List (Nat × Nat × R) → Option (Nat × List (Nat × Nat × R))
  | [], di, calls => some (di, calls)
  | c :: cs, di, calls => do
    let v ← data[di]?
    if v = 0 then visitCols data r cs (di + 1) calls
    else visitCols data r cs (di + 1) (calls ++ [(r, c, v)])

/-- The outer loop of `DoNonZero` (dense.go:1409-1417). -/
def visitRows [Zero R] [DecidableEq R] (data : List R) (cols : Nat) :
    List Nat → Nat → List (Nat × Nat × R) → Option (List (Nat × Nat × R))
  | [], _, calls => some calls
  | r :: rs, di, calls => do
    let (di, calls) ← visitCols data r (List.range cols) di calls
    visitRows data cols rs di calls

/-- `DoNonZero` (dense.go:1408-1418): the calls of `fn`, in order. -/
def doNonZero [Zero R] [DecidableEq R] (d : Dense R) : Option (List (Nat × Nat × R)) :=
  visitRows d.data d.cols (List.range d.rows) 0 []

/-- Go's `copy`: the common length is overwritten. -/
def goCopy (dst src : List R) : List R := src.take dst.length ++ dst.drop src.length

/-- `Copy` (dense.go:1444-1449): the receiver afterwards. -/
def copy (d other : Dense R) : Option (Dense R) :=
  if d.sameDims other then some { d with data := goCopy d.data other.data } else none

/-- `SetData` (dense.go:68-74): the receiver afterwards. -/
def setData (d : Dense R) (data : List R) : Option (Dense R) :=
  if data.length ≠ d.data.length then none else some { d with data := goCopy d.data data }

/-- `Zeros` (dense.go:104-109): the receiver afterwards. -/
def zeros [Zero R] (d : Dense R) : Dense R := { d with data := d.data.map fun _ => 0 }

/-- `Max` (dense.go:1029-1031). -/
def Max [LT R] [DecidableLT R] (d : Dense R) : Option (Dense R) := d.max.map Dense.scalar

end Verif.DenseMisc
