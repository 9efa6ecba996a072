import Verif.Model.Dense
import Verif.Model.VecFn
import Mathlib.Algebra.Field.Basic
import Mathlib.Order.Defs.LinearOrder

set_option autoImplicit false

/-!
# Differentiable functions (mat/gradfn)

A function has a forward pass, from the values of its operands to a value, and a backward pass, from
the operands' values and the gradient of the result to one gradient per operand. Not modelled: the
sharing of shape slices (Model/Heap.lean), the goroutines inside `Mul`, `MulT` and `Affine` (they write
to different operands), and the tests of `RequiresGrad`: here every operand requires gradients. What the
forward pass stores for the backward pass is computed again from the operands' values.
-/

namespace Verif

/-- `AutoGradFunction` (ag/operator.go:66-75). `none` as result of a pass is a panic or an error; `none`
for an operand is: no `AccGrad` on it. -/
structure GradFn (R : Type) where
  forward : List (Dense R) → Option (Dense R)
  backward : List (Dense R) → Dense R → Option (List (Option (Dense R)))

namespace GradFn
open Dense
variable {R : Type}

/-- `Item` (mat/dense.go:96-101). -/
def item (d : Dense R) : Option R := if d.isScalar then d.data[0]? else none

section ring
variable [Field R] [LinearOrder R]

/-- `UnaryElementwise` (mat/gradfn/unaryelementwise.go:14-41); `Exp` (exp.go:31-46), `Sqrt` (sqrt.go:31-47),
`Pow` (pow.go:33-48), `Sigmoid` (sigmoid.go:31-49), `Swish` (swish.go:32-49) have the same shape. -/
def elementwise (f df : R → R) : GradFn R where
  forward
    | [x] => some (x.apply fun _ _ v => f v)
    | _ => none
  backward
    | [x], gy =>
      if ¬ x.sameDims gy then none
      else do
        let gx ← zipOp (· * ·) (x.apply fun _ _ v => df v) gy
        some [some gx]
    | _, _ => none

/-- `ELU` (elu.go:29-50), `CELU` (celu.go:29-49), `LeakyReLU` (leakyrelu.go:29-49), `SELU`
(selu.go:30-58), `SoftPlus` (softplus.go:30-58), `SoftShrink` (softshrink.go:28-48), `Threshold`
(threshold.go:30-59): element-wise functions with scalar parameters as further operands, to which no
gradient is sent. -/
def elementwiseParams (f df : List R → R → R) : GradFn R where
  forward
    | x :: ps => do
      let a ← ps.mapM item
      some (x.apply fun _ _ v => f a v)
    | _ => none
  backward
    | x :: ps, gy =>
      if ¬ x.sameDims gy then none
      else do
        let a ← ps.mapM item
        let gx ← zipOp (· * ·) (x.apply fun _ _ v => df a v) gy
        some (some gx :: ps.map fun _ => none)
    | _, _ => none

/-- The loop of `SwishB.Backward` over the elements (swishb.go:54-58): `gy` is read with one index. -/
def swishBLoop (dbeta : R → R → R) (beta : R) (gy : Dense R) : List R → Nat → R → Option R
  | [], _, acc => some acc
  | v :: vs, i, acc => do
    let g ← gy.at1 i
    swishBLoop dbeta beta gy vs (i + 1) (acc + dbeta v beta * g)

/-- `SwishB` (swishb.go:31-62). -/
def swishB (f df : R → R → R) (dbeta : R → R → R) : GradFn R where
  forward
    | [x, beta] => do
      let b ← item beta
      some (x.apply fun _ _ v => f b v)
    | _ => none
  backward
    | [x, beta], gy =>
      if ¬ x.sameDims gy then none
      else do
        let b ← item beta
        let gx ← zipOp (· * ·) (x.apply fun _ _ v => df b v) gy
        let gb ← swishBLoop dbeta b gy x.data 0 0
        some [some gx, some (beta.map fun _ => gb)]
    | _, _ => none

/-- `Log` (log.go:31-56): the derivative is 1e8 at 0 and panics below. -/
def log (flog : R → R) (big : R) : GradFn R where
  forward
    | [x] => some (x.map flog)
    | _ => none
  backward
    | [x], gy =>
      if ¬ x.sameDims gy then none
      else if x.data.any (· < 0) then none
      else do
        let gx ← zipOp (· * ·) (x.apply fun _ _ v => if v > 0 then 1 / v else big) gy
        some [some gx]
    | _, _ => none

/-- `Add` (add.go:29-57). -/
def add : GradFn R where
  forward
    | [x1, x2] => zipOp (· + ·) x1 x2
    | _ => none
  backward
    | [x1, x2], gy =>
      if ¬ x1.sameDims gy then none
      else if ¬ x2.sameDims gy then none
      else some [some gy, some gy]
    | _, _ => none

/-- `Sub` (sub.go:28-52). -/
def sub : GradFn R where
  forward
    | [x1, x2] => zipOp (· - ·) x1 x2
    | _ => none
  backward
    | [x1, x2], gy =>
      if ¬ x1.sameDims gy ∨ ¬ x2.sameDims gy then none
      else some [some gy, some (gy.map (· * -1))]
    | _, _ => none

/-- `Prod` (prod.go:28-53). -/
def prod : GradFn R where
  forward
    | [x1, x2] => zipOp (· * ·) x1 x2
    | _ => none
  backward
    | [x1, x2], gy =>
      if ¬ x1.sameDims gy ∨ ¬ x2.sameDims gy then none
      else do
        let g1 ← zipOp (· * ·) x2 gy
        let g2 ← zipOp (· * ·) x1 gy
        some [some g1, some g2]
    | _, _ => none

/-- `Div` (div.go:28-56). -/
def div : GradFn R where
  forward
    | [x1, x2] => zipOp (· / ·) x1 x2
    | _ => none
  backward
    | [x1, x2], gy =>
      if ¬ x1.sameDims gy ∨ ¬ x2.sameDims gy then none
      else do
        let g1 ← zipOp (· / ·) gy x2
        let sq ← zipOp (· * ·) x2 x2
        let p ← zipOp (· * ·) x1 gy
        let g2 ← zipOp (· / ·) (p.map (· * -1)) sq
        some [some g1, some g2]
    | _, _ => none

/-- `AddScalar` (addscalar.go:28-51). -/
def addScalar : GradFn R where
  forward
    | [x1, x2] => do
      let c ← item x2
      some (x1.map (· + c))
    | _ => none
  backward
    | [x1, _], gy =>
      if ¬ x1.sameDims gy then none
      else some [some gy, some (scalar gy.sum)]
    | _, _ => none

/-- `SubScalar` (subscalar.go:28-51). -/
def subScalar : GradFn R where
  forward
    | [x1, x2] => do
      let c ← item x2
      some (x1.map (· - c))
    | _ => none
  backward
    | [x1, _], gy =>
      if ¬ x1.sameDims gy then none
      else some [some gy, some (scalar (gy.map (· * -1)).sum)]
    | _, _ => none

/-- `ReverseSubScalar` (reversesubscalar.go:28-53). -/
def reverseSubScalar : GradFn R where
  forward
    | [x1, x2] => do
      let c ← item x2
      some ((x1.map (· * -1)).map (· + c))
    | _ => none
  backward
    | [x1, _], gy =>
      if ¬ x1.sameDims gy then none
      else some [some (gy.map (· * -1)), some (scalar gy.sum)]
    | _, _ => none

/-- `ProdScalar` (prodscalar.go:28-52). -/
def prodScalar : GradFn R where
  forward
    | [x1, x2] => do
      let c ← item x2
      some (x1.map (· * c))
    | _ => none
  backward
    | [x1, x2], gy =>
      if ¬ x1.sameDims gy then none
      else do
        let c ← item x2
        let p ← zipOp (· * ·) gy x1
        some [some (gy.map (· * c)), some (scalar p.sum)]
    | _, _ => none

/-- `DivScalar` (divscalar.go:26-52). -/
def divScalar : GradFn R where
  forward
    | [x1, x2] => do
      let c ← item x2
      some (x1.map (· * (1 / c)))
    | _ => none
  backward
    | [x1, x2], gy =>
      if ¬ x1.sameDims gy then none
      else do
        let c ← item x2
        let b ← zipOp (· * ·) gy (x1.map (· * (1 / -(c * c))))
        some [some (gy.map (· * (1 / c))), some (scalar b.sum)]
    | _, _ => none

/-- `Mul` (mul.go:29-70). -/
def mul : GradFn R where
  forward
    | [x1, x2] => x1.mul x2
    | _ => none
  backward
    | [x1, x2], gy =>
      if ¬ (x1.rows = gy.rows ∧ x2.cols = gy.cols) then none
      else do
        let x2t ← x2.T
        let g1 ← gy.mul x2t
        let g2 ← (if gy.cols = 1 then x1.mulT gy else do
          let x1t ← x1.T
          x1t.mul gy)
        some [some g1, some g2]
    | _, _ => none

/-- `MulT` (mult.go:28-67). -/
def mulT : GradFn R where
  forward
    | [x1, x2] => x1.mulT x2
    | _ => none
  backward
    | [x1, x2], gy => do
      let x2t ← x2.T
      let g ← gy.mul x2t
      let g1 ← g.T
      let g2 ← (if gy.cols = 1 then x1.mul gy else x1.mulT gy)
      some [some g1, some g2]
    | _, _ => none

/-- `Dot` (dot.go:29-62). -/
def dot : GradFn R where
  forward
    | [x1, x2] =>
      if ¬ x1.sameDims x2 then none
      else if x1.isVector ∧ x2.isVector then do
        let v ← x1.dotUnitary x2
        some (scalar v)
      else do
        let p ← zipOp (· * ·) x1 x2
        some (scalar p.sum)
    | _ => none
  backward
    | [x1, x2], gy => do
      let g ← item gy
      some [some (x2.map (· * g)), some (x1.map (· * g))]
    | _, _ => none

/-- The (w, x) pairs of `Affine.Forward` (affine.go:75-78). -/
def affineLoop : List (Dense R) → Dense R → Option (Dense R)
  | w :: x :: rest, y => do
    let wx ← w.mul x
    let y ← zipOp (· + ·) y wx
    affineLoop rest y
  | [], y => some y
  | [_], _ => none

/-- `backwardWX` (affine.go:93-125). -/
def affineBackPair (w x gy : Dense R) : Option (List (Option (Dense R))) :=
  if w.rows ≠ gy.rows ∨ x.cols ≠ gy.cols then none
  else do
    let xt ← x.T
    let gw ← gy.mul xt
    let gx ← (if gy.cols = 1 then w.mulT gy else do
      let wt ← w.T
      wt.mul gy)
    some [some gw, some gx]

/-- The pairs of `Affine.Backward` (affine.go:127-131). -/
def affineBackLoop (gy : Dense R) : List (Dense R) → Option (List (Option (Dense R)))
  | w :: x :: rest => do
    let g ← affineBackPair w x gy
    let gs ← affineBackLoop gy rest
    some (g ++ gs)
  | [] => some []
  | [_] => none

/-- `Affine` (affine.go:63-135); the operands are b, w1, x1, w2, x2, ... -/
def affine : GradFn R where
  forward
    | b :: w1 :: x1 :: rest => do
      let y ← w1.mul x1
      let y ← zipOp (· + ·) y b
      affineLoop rest y
    | _ => none
  backward
    | b :: w1 :: x1 :: rest, gy =>
      if ¬ b.sameDims gy then none
      else do
        let gs ← affineBackLoop gy (w1 :: x1 :: rest)
        some (some gy :: gs)
    | _, _ => none

/-- `Concat` (concat.go:28-63). -/
def concat : GradFn R where
  forward
    | [] => none
    | xs => concatV xs
  backward xs gy :=
    if (xs.map fun x => x.data.length).sum ≠ gy.data.length then none
    else do
      let gs ← gy.splitV (xs.map fun x => (x.data.length : Int))
      some (gs.map some)

/-- The loop of `Stack.Backward` (stack.go:47-53). -/
def stackBackLoop (gy : Dense R) : List (Dense R) → Nat → Option (List (Option (Dense R)))
  | [], _ => some []
  | x :: xs, i => do
    let row ← gy.extractRow i
    let g ← row.reshape x.rows x.cols
    let gs ← stackBackLoop gy xs (i + 1)
    some (some g :: gs)

/-- `Stack` (stack.go:25-55). -/
def stack : GradFn R where
  forward
    | [] => none
    | xs => Dense.stack xs
  backward xs gy :=
    if gy.rows ≠ xs.length then none else stackBackLoop gy xs 0

/-- The loop of `AppendRows.Backward` (appendrows.go:54-60). -/
def appendBackLoop (gy : Dense R) : List (Dense R) → Nat → Option (List (Option (Dense R)))
  | [], _ => some []
  | _ :: vs, i => do
    let row ← gy.extractRow i
    let gs ← appendBackLoop gy vs (i + 1)
    some (some row :: gs)

/-- `AppendRows` (appendrows.go:24-62). -/
def appendRows : GradFn R where
  forward
    | x :: vs => x.appendRows vs
    | _ => none
  backward
    | x :: vs, gy =>
      if gy.rows ≠ x.rows + vs.length then none
      else do
        let gx ← gy.slice 0 0 x.rows x.cols
        let gs ← appendBackLoop gy vs x.rows
        some (some gx :: gs)
    | _, _ => none

/-- The loops of `Slice.Backward` (slice.go:51-56). -/
def sliceBack (x gy : Dense R) (fromRow fromCol : Int) (lx ly : Nat) : Option (Dense R) :=
  (List.range lx).foldlM (fun gx (i : Nat) =>
    (List.range ly).foldlM (fun gx (j : Nat) => do
      let v ← gy.at2 i j
      gx.set2 v (i + fromRow) (j + fromCol)) gx) (zeros x.rows x.cols)

/-- `Slice` (slice.go:34-60). -/
def slice (fromRow fromCol toRow toCol : Int) : GradFn R where
  forward
    | [x] => x.slice fromRow fromCol toRow toCol
    | _ => none
  backward
    | [x], gy =>
      if ¬ ((gy.rows : Int) = toRow - fromRow ∧ (gy.cols : Int) = toCol - fromCol) then none
      else do
        let gx ← sliceBack x gy fromRow fromCol (toRow - fromRow).toNat (toCol - fromCol).toNat
        some [some gx]
    | _, _ => none

/-- `At` with one index (at.go:26-43). -/
def atVec (i : Int) : GradFn R where
  forward
    | [x] => do
      let v ← x.at1 i
      some (scalar v)
    | _ => none
  backward
    | [x], gy => do
      let g ← item gy
      let gx ← (zeros x.rows x.cols).set1 g i
      some [some gx]
    | _, _ => none

/-- `At` with two indices (at.go:26-43). -/
def atMat (i j : Int) : GradFn R where
  forward
    | [x] => do
      let v ← x.at2 i j
      some (scalar v)
    | _ => none
  backward
    | [x], gy => do
      let g ← item gy
      let gx ← (zeros x.rows x.cols).set2 g i j
      some [some gx]
    | _, _ => none

/-- `RowView` (rowview.go:31-53); the constructor panics on negative indices (rowview.go:21-23). -/
def rowView (i : Int) : GradFn R where
  forward
    | [x] => if i < 0 then none else x.extractRow i
    | _ => none
  backward
    | [x], gy =>
      if ¬ x.cols = gy.data.length then none
      else do
        let gx ← (List.range x.cols).foldlM (fun gx (j : Nat) => do
          let v ← gy.at2 0 j
          gx.set2 v i j) (zeros x.rows x.cols)
        some [some gx]
    | _, _ => none

/-- `ColView` (colview.go:31-53). -/
def colView (i : Int) : GradFn R where
  forward
    | [x] => if i < 0 then none else x.extractColumn i
    | _ => none
  backward
    | [x], gy =>
      if ¬ x.rows = gy.data.length then none
      else do
        let gx ← (List.range x.rows).foldlM (fun gx (j : Nat) => do
          let v ← gy.at1 j
          gx.set2 v j i) (zeros x.rows x.cols)
        some [some gx]
    | _, _ => none

/-- `Transpose` (transpose.go:26-45). -/
def transpose : GradFn R where
  forward
    | [x] => x.T
    | _ => none
  backward
    | [x], gy =>
      if x.cols ≠ gy.rows ∧ x.rows ≠ gy.cols then none
      else do
        let gx ← gy.T
        some [some gx]
    | _, _ => none

/-- `Reshape` (reshape.go:31-50). -/
def reshape (rows cols : Int) : GradFn R where
  forward
    | [x] => x.reshape rows cols
    | _ => none
  backward
    | [x], gy =>
      if (gy.cols : Int) ≠ cols ∧ (gy.rows : Int) ≠ rows then none
      else do
        let gx ← gy.reshape x.rows x.cols
        some [some gx]
    | _, _ => none

/-- `Flatten` (flatten.go:26-45). -/
def flatten : GradFn R where
  forward
    | [x] => some x.flatten
    | _ => none
  backward
    | [x], gy =>
      if ¬ (gy.isVector ∧ x.data.length = gy.data.length) then none
      else do
        let gx ← gy.reshape x.rows x.cols
        some [some gx]
    | _, _ => none

/-- `rotate` (rotater.go:44-49). -/
def rotate (m : Dense R) (i : Int) : Option (Dense R) := do
  let left ← m.slice 0 0 i 1
  let right ← m.slice i 0 m.data.length 1
  concatV [right, left]

/-- `RotateR` (rotater.go:25-42). -/
def rotateR (i : Int) : GradFn R where
  forward
    | [x] => rotate x (x.data.length - i)
    | _ => none
  backward
    | [_], gy => do
      let gx ← rotate gy i
      some [some gx]
    | _, _ => none

/-- `ReduceSum` (reducesum.go:26-46); `WithShape(size)` is `size`×1. -/
def reduceSum : GradFn R where
  forward
    | [x] => some (scalar x.sum)
    | _ => none
  backward
    | [x], gy => do
      let g ← item gy
      some [some ⟨x.data.length, 1, List.replicate x.data.length g⟩]
    | _, _ => none

/-- `ReduceMean` (reducemean.go:26-49). -/
def reduceMean : GradFn R where
  forward
    | [x] => some (scalar (x.sum * (1 / (x.data.length : R))))
    | _ => none
  backward
    | [x], gy => do
      let g ← item gy
      some [some ⟨x.data.length, 1, List.replicate x.data.length (g / (x.data.length : R))⟩]
    | _, _ => none

/-- `ReduceMax` (reducemax.go:28-51). -/
def reduceMax : GradFn R where
  forward
    | [x] => do
      let i ← x.argMax
      let v ← x.at1 i
      some (scalar v)
    | _ => none
  backward
    | [x], gy => do
      let i ← x.argMax
      let g ← item gy
      let gx ← (zeros x.rows x.cols).set1 g i
      some [some gx]
    | _, _ => none

/-- `ScalarMax` (scalarmax.go:26-59): only the chosen operand gets a gradient. -/
def scalarMax : GradFn R where
  forward xs := do
    let vs ← xs.mapM item
    let r ← VecFn.scalarMax vs
    xs[r.1]?
  backward xs gy := do
    let vs ← xs.mapM item
    let r ← VecFn.scalarMax vs
    let _ ← item gy
    some ((List.range xs.length).map fun k => if k = r.1 then some gy else none)

/-- `Max` (max.go:29-74); `Maximum` (mat/dense.go:845-869). The gradients are column vectors. -/
def max : GradFn R where
  forward
    | [x1, x2] => zipOp (fun a b => if b < a then a else b) x1 x2
    | _ => none
  backward
    | [x1, x2], gy =>
      if ¬ x1.sameDims gy ∨ ¬ x2.sameDims gy then none
      else
        let sel := fun (l1 l2 : List R) =>
          column ((List.zip l1 l2).zipWith (fun p g => if p.2 < p.1 then g else 0) gy.data)
        some [some (sel x1.data x2.data), some (sel x2.data x1.data)]
    | _, _ => none

/-- `Min` (min.go:29-73); `Minimum` (mat/dense.go:872-896). -/
def min : GradFn R where
  forward
    | [x1, x2] => zipOp (fun a b => if a < b then a else b) x1 x2
    | _ => none
  backward
    | [x1, x2], gy =>
      if ¬ x1.sameDims gy ∨ ¬ x2.sameDims gy then none
      else
        let sel := fun (l1 l2 : List R) =>
          column ((List.zip l1 l2).zipWith (fun p g => if p.1 < p.2 then g else 0) gy.data)
        some [some (sel x1.data x2.data), some (sel x2.data x1.data)]
    | _, _ => none

/-- `Softmax` (softmax.go:27-57). -/
def softmax (exp : R → R) : GradFn R where
  forward
    | [x] => VecFn.softmax exp x
    | _ => none
  backward
    | [x], gy =>
      if ¬ x.sameDims gy then none
      else do
        let y ← VecFn.softmax exp x
        let n := y.data.length
        let jb := (zeros n n : Dense R).apply fun row col _ =>
          let vRow := y.data.getD row 0
          if row = col then vRow * (1 - vRow) else -(vRow * y.data.getD col 0)
        let gx ← jb.mul gy
        some [some gx]
    | _, _ => none

/-- `DoVecNonZero` (mat/dense.go:1422-1432): the indices of the non-zero elements. -/
def nonZero (y : Dense R) : List Nat := (List.range y.data.length).filter fun i => y.data.getD i 0 ≠ 0

/-- `SparseMax` (sparsemax.go:28-68). -/
def sparseMax : GradFn R where
  forward
    | [x] => VecFn.sparseMax x
    | _ => none
  backward
    | [x], gy => do
      let y ← VecFn.sparseMax x
      if ¬ y.isVector then none
      else do
        let nz := nonZero y
        let s ← nz.foldlM (fun s (i : Nat) => do
          let g ← gy.at1 i
          some (s + g)) (0 : R)
        let mean := s / (nz.length : R)
        let gx ← nz.foldlM (fun gx (i : Nat) => do
          let g ← gy.at1 i
          gx.set1 (g - mean) i) (zeros x.rows x.cols)
        some [some gx]
    | _, _ => none

/-- The loop of `SparseMaxLoss.Forward` (sparsemax_loss.go:42-46) over the sorted elements, with the
cumulative sum and the bounds computed on the way. -/
def sparseRegLoop (tau : R) : List R → Nat → R → R → R
  | [], _, _, reg => reg
  | z :: zs, i, cum, reg =>
    let cum := cum + z
    if 1 + ((i + 1 : Nat) : R) * z > cum then
      sparseRegLoop tau zs (i + 1) cum (reg + (z * z - tau * tau))
    else sparseRegLoop tau zs (i + 1) cum reg

/-- `SparseMaxLoss` (sparsemax_loss.go:33-70). An empty operand divides by zero in `sparseMaxCommon` and
gives an empty result. -/
def sparseMaxLoss : GradFn R where
  forward
    | [x] =>
      let tau := VecFn.sparseTau x.data
      let reg := sparseRegLoop tau (x.data.mergeSort fun a b => decide (b ≤ a)) 0 0 0
      some (x.map (· - (reg * (1 / 2) + 1 / 2)))
    | _ => none
  backward
    | [x], gy => do
      let tau := VecFn.sparseTau x.data
      let gySum := gy.sum
      let sm := x.apply fun _ _ v => (if 0 < v - tau then v - tau else 0) * gySum
      let gx ← zipOp (· - ·) gy sm
      some [some gx]
    | _, _ => none

/-- The two inner loops of `MaxPooling.Forward` (maxpooling.go:57-70) for output position `(row, col)`: the
maximum, which starts at `eps` (`math.SmallestNonzeroFloat64`), and its position. The columns of the window
are counted by `rows` (maxpooling.go:59). -/
def poolWindow (eps : R) (rows cols : Nat) (x : Dense R) (row col : Nat) : Option (R × Nat × Nat) :=
  (List.range rows).foldlM (fun (st : R × Nat × Nat) (a : Nat) =>
    (List.range rows).foldlM (fun (st : R × Nat × Nat) (b : Nat) => do
      let i := row * rows + a
      let j := col * cols + b
      let v ← x.at2 i j
      some (if st.1 < v then (v, i, j) else st)) st) (eps, 0, 0)

/-- The outer loops of `MaxPooling.Forward` (maxpooling.go:54-74): the results in row-major order. -/
def poolAll (eps : R) (rows cols : Nat) (x : Dense R) : Option (List (R × Nat × Nat)) :=
  ((List.range (x.rows / rows)).flatMap fun row =>
    (List.range (x.cols / cols)).map fun col => (row, col)).mapM fun p => poolWindow eps rows cols x p.1 p.2

/-- `MaxPooling` (maxpooling.go:43-105). -/
def maxPooling (eps : R) (rows cols : Nat) : GradFn R where
  forward
    | [x] =>
      if rows = 0 ∨ cols = 0 then none
      else if ¬ (x.rows % rows = 0 ∧ x.cols % cols = 0) then none
      else do
        let ws ← poolAll eps rows cols x
        some ⟨x.rows / rows, x.cols / cols, ws.map fun w => w.1⟩
    | _ => none
  backward
    | [x], gy =>
      if rows = 0 ∨ cols = 0 then none
      else if ¬ (x.rows % rows = 0 ∧ x.cols % cols = 0) then none
      else do
        let ws ← poolAll eps rows cols x
        let gx ← (List.range (x.rows / rows)).foldlM (fun gx (row : Nat) =>
          (List.range (x.cols / cols)).foldlM (fun gx (col : Nat) => do
            let w ← ws[row * (x.cols / cols) + col]?
            let g ← gy.at2 row col
            gx.set2 g w.2.1 w.2.2) gx) (zeros x.rows x.cols)
        some [some gx]
    | _, _ => none

/-- `Copy` (identity.go:27-43). -/
def copy : GradFn R where
  forward
    | [x] => some x
    | _ => none
  backward
    | [x], gy => if ¬ x.sameDims gy then none else some [some gy]
    | _, _ => none

/-- `Dropout` (dropout.go:36-63) with a given mask. -/
def dropout (mask : Dense R) : GradFn R where
  forward
    | [x] => zipOp (· * ·) x mask
    | _ => none
  backward
    | [x], gy =>
      if ¬ x.sameDims gy then none
      else do
        let gx ← zipOp (· * ·) gy mask
        some [some gx]
    | _, _ => none

end ring
end GradFn
end Verif
