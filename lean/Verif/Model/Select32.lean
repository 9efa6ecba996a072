/-
Selection among float32: `Max`, `Min`, `ArgMax`, `Maximum`, `Minimum` and `ClipInPlace` of `Dense[float32]` (mat/dense.go), on words.
`v > max` of Go is `lt max v`: false when one of them is a NaN.  A panic is `none`.
-/
import Verif.Model.F32
set_option autoImplicit false

namespace Verif.Select32
open Verif.F32

/-- `max` (mat/dense.go:1033-1044). -/
def maxOf : List W → Option W
  | [] => none
  | a :: l => some (l.foldl (fun m v => if lt m v then v else m) a)

/-- `Min` (mat/dense.go:1047-1058). -/
def minOf : List W → Option W
  | [] => none
  | a :: l => some (l.foldl (fun m v => if lt v m then v else m) a)

/-- The loop of `ArgMax` (mat/dense.go:1071-1076) from index `i` on, with the best index `k` and its value `m`. -/
def argLoop : Nat → Nat → W → List W → Nat
  | _, k, _, [] => k
  | i, k, m, v :: l => if lt m v then argLoop (i + 1) i v l else argLoop (i + 1) k m l

/-- `ArgMax` of a vector (mat/dense.go:1061-1078). -/
def argMax : List W → Option Nat
  | [] => none
  | a :: l => some (argLoop 0 0 a (a :: l))

/-- One element of `Maximum` (mat/dense.go:860-866) and of `Minimum` (887-893): `d` of the receiver, `o` of the argument. -/
def bigger (d o : W) : W := if lt o d then d else o
def smaller (d o : W) : W := if lt d o then d else o

/-- `Maximum` and `Minimum` on the data (mat/dense.go:845-896). -/
def maximum (a b : List W) : Option (List W) := if a.length = b.length then some (List.zipWith bigger a b) else none
def minimum (a b : List W) : Option (List W) := if a.length = b.length then some (List.zipWith smaller a b) else none

/-- One element of `ClipInPlace` (mat/dense.go:831-840), for the bounds converted to float32. -/
def clip (lo hi v : W) : W := if lt v lo then lo else if lt hi v then hi else v

end Verif.Select32
