import Verif.Model.Dense
import Mathlib.Algebra.Field.Basic
import Mathlib.Order.Defs.LinearOrder

set_option autoImplicit false

/-!
# Vector functions: Softmax, SparseMax, LogSumExp and maxima

The functions are generic in the number type and in `exp`/`log`; the theorems take the reals and
`Real.exp`, `Real.log`. Rounding is not modelled.
-/

namespace Verif.VecFn
open Dense
variable {R : Type}

section field
variable [Field R] [LinearOrder R]

/-- `Softmax` (mat/dense.go:1082-1113). -/
def softmax (exp : R → R) (d : Dense R) : Option (Dense R) :=
  if ¬ d.isVector then none
  else if d.data.length = 0 then some (zeros 0 1)
  else do
    let m ← d.max
    let out := d.map (· - m)
    let out ← (if out.cols ≠ 1 then out.transposeInPlace out.data.length else some out)
    let out := out.map exp
    let s := out.sum
    some (out.map (· * (1 / s)))

/-- `ReduceMax.Forward` (mat/gradfn/reducemax.go:33-37). -/
def reduceMax (d : Dense R) : Option R := do
  let i ← d.argMax
  d.at1 i

/-- The loop of `ScalarMax.Forward` (mat/gradfn/scalarmax.go:37-46): `max` starts at 0. -/
def scalarMaxLoop : List R → Nat → R → Nat → Nat
  | [], _, _, argmax => argmax
  | v :: vs, i, m, argmax =>
    if m < v then scalarMaxLoop vs (i + 1) v i else scalarMaxLoop vs (i + 1) m argmax

/-- `ScalarMax.Forward` (mat/gradfn/scalarmax.go:31-49): the index and the value. -/
def scalarMax (xs : List R) : Option (Nat × R) :=
  match xs with
  | [] => none
  | _ => do
    let i := scalarMaxLoop xs 0 0 0
    let v ← xs[i]?
    some (i, v)

/-- `LogSumExp` of one vector (ag/operators.go:511-516). `SubScalar`, `Exp`, `ReduceSum`, `Log`, `Add`
are element-wise or sums. -/
def logSumExpVec (exp log : R → R) (x : Dense R) : Option R := do
  let m ← reduceMax x
  let s := ((x.map (· - m)).map exp).sum
  some (m + log s)

/-- `LogSumExp` of several scalars (ag/operators.go:518-523). -/
def logSumExpList (exp log : R → R) (xs : List R) : Option R := do
  let m ← scalarMax xs
  let s := xs.foldl (fun s v => s + exp (v - m.2)) 0
  some (m.2 + log s)

/-- `LogSoftmax` (ag/operators.go:503-505). -/
def logSoftmax (exp log : R → R) (x : Dense R) : Option (Dense R) := do
  let y ← softmax exp x
  some (y.map log)

/-- The loop of `sparseMaxCommon` (mat/gradfn/sparsemax.go:92-101) with the cumulative sum and the
bounds of lines 82-88 computed on the way: the largest index + 1 and the sum of the entries whose bound exceeds the
cumulative sum. -/
def sparseLoop : List R → Nat → R → Int → R → Int × R
  | [], _, _, k, tau => (k, tau)
  | z :: zs, i, cum, k, tau =>
    let cum := cum + z
    if 1 + ((i + 1 : Nat) : R) * z > cum then
      sparseLoop zs (i + 1) cum (if k < (i + 1 : Nat) then ((i + 1 : Nat) : Int) else k) (tau + z)
    else sparseLoop zs (i + 1) cum k tau

/-- `sparseMaxCommon` (mat/gradfn/sparsemax.go:70-105): the threshold. `sort.Slice` is some sort. -/
def sparseTau (v : List R) : R :=
  let zs := v.mergeSort (fun a b => decide (b ≤ a))
  let r := sparseLoop zs 0 0 (-1) 0
  (r.2 - 1) / (r.1 : R)

/-- `SparseMax.Forward` (mat/gradfn/sparsemax.go:33-47). -/
def sparseMax (x : Dense R) : Option (Dense R) := do
  let xMax ← x.max
  let v := x.map (· - xMax)
  let tau := sparseTau v.data
  (v.map (· - tau)).clip 0 xMax

end field
end Verif.VecFn
