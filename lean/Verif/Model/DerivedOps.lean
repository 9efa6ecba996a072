import Verif.Model.Losses

set_option autoImplicit false

/-!
# Functions built from operators (ag/operators.go:365-546) and the flatten layer

Values; `Map` is `List.mapM`. A panic is `none`. The gradient of `LogSumExp` is the chain of the backward functions of
its operators, the gradients a node receives being added up (`AccGrad`).
-/

namespace Verif.DerivedOps
open GradFn Dense Losses
noncomputable section

/-- `Map2` (ag/operators.go:378-387). -/
def map2 {A B C : Type} (f : A → B → Option C) (xs1 : List A) (xs2 : List B) : Option (List C) :=
  if xs1.length ≠ xs2.length then none
  else (xs1.zip xs2).mapM fun p => f p.1 p.2

/-- `Pad` (ag/operators.go:390-403); a negative `seqLen` makes `xs[:seqLen]` panic. -/
def pad {A : Type} (xs : List A) (seqLen : Int) (padding : Nat → Option A) : Option (List A) :=
  if (xs.length : Int) = seqLen then some xs
  else if (xs.length : Int) > seqLen then
    if seqLen < 0 then none else some (xs.take seqLen.toNat)
  else do
    let ps ← (List.range' xs.length (seqLen.toNat - xs.length)).mapM padding
    some (xs ++ ps)

/-- `SeparateMatrix` (ag/operators.go:407-419). -/
def separateMatrix (x : Dense ℝ) : Option (List (List (Dense ℝ))) :=
  (List.range x.rows).mapM fun (i : Nat) => (List.range x.cols).mapM fun (j : Nat) => (atMat i j).forward [x]

/-- `SeparateVec` (ag/operators.go:424-431). -/
def separateVec (x : Dense ℝ) : Option (List (Dense ℝ)) :=
  (List.range x.data.length).mapM fun (i : Nat) => (atVec i).forward [x]

/-- The loop of `SplitVec` (ag/operators.go:441-444). -/
def splitLoop (x : Dense ℝ) (size : Nat) : Nat → Nat → Option (List (Dense ℝ))
  | 0, _ => some []
  | n + 1, l => do
    let y ← (slice l 0 (l + size) 1).forward [x]
    let ys ← splitLoop x size n (l + size)
    some (y :: ys)

/-- `SplitVec` (ag/operators.go:434-446): `%` panics for no chunks, `make` for a negative number of them. The size of
a chunk is rounded up by way of floats, here of integers. -/
def splitVec (x : Dense ℝ) (chunks : Int) : Option (List (Dense ℝ)) :=
  if chunks = 0 then none
  else if (x.data.length : Int).tmod chunks ≠ 0 then none
  else if chunks < 0 then none
  else splitLoop x ((x.data.length + chunks.toNat - 1) / chunks.toNat) chunks.toNat 0

/-- The loops of `Sum`, `Mean`, `Maximum` and `Minimum`. -/
def foldOp (op : GradFn ℝ) : Dense ℝ → List (Dense ℝ) → Option (Dense ℝ)
  | acc, [] => some acc
  | acc, x :: xs => do
    let y ← op.forward [acc, x]
    foldOp op y xs

/-- `Sum` (ag/operators.go:450-456). -/
def sum : List (Dense ℝ) → Option (Dense ℝ)
  | [] => none
  | x :: xs => foldOp GradFn.add x xs

/-- `Mean` (ag/operators.go:459-466). -/
def mean : List (Dense ℝ) → Option (Dense ℝ)
  | [] => none
  | x :: xs => do
    let s ← foldOp GradFn.add x xs
    divScalar.forward [s, scalar ((xs.length + 1 : Nat) : ℝ)]

/-- `Maximum` (ag/operators.go:469-475). -/
def maximum : List (Dense ℝ) → Option (Dense ℝ)
  | [] => none
  | x :: xs => foldOp GradFn.max x xs

/-- `Minimum` (ag/operators.go:478-484). -/
def minimum : List (Dense ℝ) → Option (Dense ℝ)
  | [] => none
  | x :: xs => foldOp GradFn.min x xs

/-- `BiLinear` (ag/operators.go:487-489). -/
def biLinear (w x1 x2 : Dense ℝ) : Option (Dense ℝ) := do
  let t ← transpose.forward [x1]
  let tw ← GradFn.mul.forward [t, w]
  GradFn.mul.forward [tw, x2]

/-- `BiAffine` (ag/operators.go:492-494). -/
def biAffine (w u v b x1 x2 : Dense ℝ) : Option (Dense ℝ) := do
  let p ← biLinear w x1 x2
  let ut ← transpose.forward [u]
  let q ← GradFn.mul.forward [ut, x1]
  let pq ← GradFn.add.forward [p, q]
  let vt ← transpose.forward [v]
  let r ← GradFn.mul.forward [vt, x2]
  let pqr ← GradFn.add.forward [pq, r]
  GradFn.add.forward [pqr, b]

/-- `PositiveELU` (ag/operators.go:497-500). -/
def positiveELU (x : Dense ℝ) : Option (Dense ℝ) := do
  let e ← elu.forward [x, scalar 1]
  addScalar.forward [e, scalar 1]

/-- `RowViews` (ag/operators.go:528-534). -/
def rowViews (x : Dense ℝ) : Option (List (Dense ℝ)) :=
  (List.range x.rows).mapM fun (i : Nat) => (rowView i).forward [x]

/-- `ColViews` (ag/operators.go:538-544). -/
def colViews (x : Dense ℝ) : Option (List (Dense ℝ)) :=
  (List.range x.cols).mapM fun (i : Nat) => (colView i).forward [x]

/-- `flatten.Model.Forward` (nn/flatten/flatten.go:32-37). -/
def flattenLayer (xs : List (Dense ℝ)) : Option (Dense ℝ) := do
  let ys ← xs.mapM fun x => do
    let f ← GradFn.flatten.forward [x]
    transpose.forward [f]
  GradFn.concat.forward ys

/-- The gradients a two-operand function sends back. -/
def back2 (op : GradFn ℝ) (a b gy : Dense ℝ) : Option (Dense ℝ × Dense ℝ) := do
  let gs ← op.backward [a, b] gy
  match gs with
  | [some ga, some gb] => some (ga, gb)
  | _ => none

/-- The gradient a one-operand function sends back. -/
def back1 (op : GradFn ℝ) (a gy : Dense ℝ) : Option (Dense ℝ) := do
  let gs ← op.backward [a] gy
  match gs with
  | [some ga] => some ga
  | _ => none

/-- `Backward` through `LogSumExp(x)` (ag/operators.go:511-516): the gradient that arrives at `x`, which is used by
`SubScalar` and `ReduceMax`; the maximum is used by `SubScalar` and `Add`. -/
def logSumExpBackward (x gy : Dense ℝ) : Option (Dense ℝ) := do
  let m ← GradFn.reduceMax.forward [x]
  let d ← subScalar.forward [x, m]
  let e ← GradFn.exp.forward [d]
  let s ← reduceSum.forward [e]
  let l ← logR.forward [s]
  let ga ← back2 GradFn.add m l gy
  let gs ← back1 logR s ga.2
  let ge ← back1 reduceSum e gs
  let gd ← back1 GradFn.exp d ge
  let gx ← back2 subScalar x m gd
  let gm ← zipOp (· + ·) ga.1 gx.2
  let gx' ← back1 GradFn.reduceMax x gm
  zipOp (· + ·) gx.1 gx'

end
end Verif.DerivedOps
