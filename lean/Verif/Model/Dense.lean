import Verif.Model.GoSlice

set_option autoImplicit false

/-!
# `mat.Dense` (mat/dense.go, mat/dense_new.go, mat/matrix.go)

A matrix is its two dimensions and its elements in row-major order. Elements have an arbitrary
type; `float32` and `float64` are not distinguished. Gradients are not part of this file (see
`Model/Heap.lean`), and neither is the sharing of shape slices (see `Model/Heap.lean`).
Index arguments are Go `int`s, hence integers that may be negative. `none` is a panic or
`log.Fatal`.
-/

namespace Verif

/-- `Dense[T]` (mat/dense.go:22-28); the shape always has two entries (dense_new.go:126-131). -/
structure Dense (R : Type) where
  rows : Nat
  cols : Nat
  data : List R
  deriving DecidableEq, Repr

namespace Dense
open GoSlice
variable {R : Type}

/-- `len(d.data) = rows*cols`: what every constructor checks (dense.go:32, dense_new.go:81). -/
def WF (d : Dense R) : Prop := d.data.length = d.rows * d.cols

instance (d : Dense R) : Decidable d.WF := by unfold WF; infer_instance

/-- `makeDense` (dense.go:31-39). -/
def make (data : List R) (rows cols : Nat) : Option (Dense R) :=
  if data.length = rows * cols then some ⟨rows, cols, data⟩ else none

/-- `NewDense(WithBacking(data))` without shape: a column vector (dense_new.go:70-73). -/
def column (data : List R) : Dense R := ⟨data.length, 1, data⟩

/-- `Scalar` (dense_new.go:48-53, 133-144): a 1×1 matrix. -/
def scalar (v : R) : Dense R := ⟨1, 1, [v]⟩

/-- `NewDense(WithShape(rows, cols))` (dense_new.go:93-105): zeros. -/
def zeros [Zero R] (rows cols : Nat) : Dense R := ⟨rows, cols, List.replicate (rows * cols) 0⟩

/-- `IsVector` (matrix.go:254-257). -/
def isVector (d : Dense R) : Bool := d.rows == 1 || d.cols == 1

/-- `IsScalar` (matrix.go:261-263). -/
def isScalar (d : Dense R) : Bool := d.data.length == 1

/-- `SameDims` (matrix.go:266-282). -/
def sameDims (a b : Dense R) : Bool := a.rows == b.rows && a.cols == b.cols

/-- `At`/`ScalarAt` with one index (dense.go:118-120, 130-132, 160-170). -/
def at1 (d : Dense R) (i : Int) : Option R :=
  if d.rows ≠ 1 ∧ d.cols ≠ 1 then none
  else if i < 0 ∨ i ≥ d.data.length then none
  else d.data[i.toNat]?

/-- `At`/`ScalarAt` with two indices (dense.go:171-179). -/
def at2 (d : Dense R) (r c : Int) : Option R :=
  if r < 0 ∨ r ≥ d.rows then none
  else if c < 0 ∨ c ≥ d.cols then none
  else d.data[r.toNat * d.cols + c.toNat]?

/-- `SetScalar` with one index (dense.go:124-126, 135-145). -/
def set1 (d : Dense R) (v : R) (i : Int) : Option (Dense R) :=
  if d.rows ≠ 1 ∧ d.cols ≠ 1 then none
  else if i < 0 ∨ i ≥ d.data.length then none
  else do
    let data ← GoSlice.set d.data i.toNat v
    some { d with data := data }

/-- `SetScalar` with two indices (dense.go:146-154). -/
def set2 (d : Dense R) (v : R) (r c : Int) : Option (Dense R) :=
  if r < 0 ∨ r ≥ d.rows then none
  else if c < 0 ∨ c ≥ d.cols then none
  else do
    let data ← GoSlice.set d.data (r.toNat * d.cols + c.toNat) v
    some { d with data := data }

/-- `ExtractRow` (dense.go:187-196). -/
def extractRow (d : Dense R) (i : Int) : Option (Dense R) :=
  if i < 0 ∨ i ≥ d.rows then none
  else do
    let start := i.toNat * d.cols
    let row ← sub d.data start (start + d.cols)
    make row 1 d.cols

/-- The loop of `ExtractColumn` (dense.go:208-210). -/
def columnLoop (d : Dense R) (i : Nat) : List Nat → Option (List R)
  | [] => some []
  | k :: ks => do
    let v ← d.data[k * d.cols + i]?
    let vs ← columnLoop d i ks
    some (v :: vs)

/-- `ExtractColumn` (dense.go:200-212). -/
def extractColumn (d : Dense R) (i : Int) : Option (Dense R) :=
  if i < 0 ∨ i ≥ d.cols then none
  else do
    let col ← columnLoop d i.toNat (List.range d.rows)
    make col d.rows 1

/-- The loop of `Slice` over the rows (dense.go:234-238). -/
def sliceLoop (d : Dense R) (fromCol toCol : Nat) : List Nat → Option (List R)
  | [] => some []
  | r :: rs => do
    let offset := r * d.cols
    let row ← sub d.data (offset + fromCol) (offset + toCol)
    let rest ← sliceLoop d fromCol toCol rs
    some (row ++ rest)

/-- `Slice` (dense.go:217-242). -/
def slice (d : Dense R) (fromRow fromCol toRow toCol : Int) : Option (Dense R) :=
  if fromRow < 0 ∨ fromRow ≥ d.rows ∨ fromCol < 0 ∨ fromCol ≥ d.cols ∨
      toRow > d.rows ∨ toCol > d.cols ∨ toRow < fromRow ∨ toCol < fromCol then none
  else
    let rows := (toRow - fromRow).toNat
    let cols := (toCol - fromCol).toNat
    if fromCol = 0 ∧ toCol = d.cols then do
      let data ← sub d.data (fromRow.toNat * d.cols) (toRow.toNat * d.cols)
      make data rows cols
    else do
      let data ← sliceLoop d fromCol.toNat toCol.toNat
        ((List.range rows).map (fromRow.toNat + ·))
      make data rows cols

/-- `Reshape` (dense.go:246-259). -/
def reshape (d : Dense R) (rows cols : Int) : Option (Dense R) :=
  if rows < 0 ∨ cols < 0 then none
  else if rows.toNat * cols.toNat ≠ d.data.length then none
  else some ⟨rows.toNat, cols.toNat, d.data⟩

/-- `Flatten` (dense.go:288-293). -/
def flatten (d : Dense R) : Dense R := ⟨1, d.data.length, d.data⟩

/-- `ResizeVector` (dense.go:310-325). -/
def resizeVector [Zero R] (d : Dense R) (newSize : Int) : Option (Dense R) :=
  if ¬ d.isVector then none
  else if newSize < 0 then none
  else
    let n := newSize.toNat
    if n ≤ d.data.length then do
      let data ← sub d.data 0 n
      some (column data)
    else do
      let data ← copyRange (List.replicate n 0) 0 d.data.length d.data
      some ⟨n, 1, data⟩

/-- The loop of `T` (dense.go:341-347): `index` walks down the columns of the result. -/
def tLoop (dRows size : Nat) : List R → Nat → List R → Option (List R)
  | [], _, m => some m
  | v :: vs, index, m => do
    let m ← GoSlice.set m index v
    let index := index + dRows
    let index := if index ≥ size then index - (size - 1) else index
    tLoop dRows size vs index m

/-- `T` (dense.go:328-349). -/
def T [Zero R] (d : Dense R) : Option (Dense R) := do
  let m := List.replicate (d.cols * d.rows) (0 : R)
  if d.isVector then some ⟨d.cols, d.rows, copy m d.data⟩
  else do
    let data ← tLoop d.rows m.length d.data 0 m
    some ⟨d.cols, d.rows, data⟩

/-- The two nested loops for square matrices (dense.go:364-374): the swaps in order. -/
def squareSwaps (n : Nat) : List (Nat × Nat) :=
  (List.range (n - 1)).flatMap fun i =>
    ((List.range n).filter (i < ·)).map fun j => (i * n + j, j * n + i)

/-- Perform swaps in order. -/
def doSwaps (ps : List (Nat × Nat)) (data : List R) : Option (List R) :=
  ps.foldlM (fun data p => swap data p.1 p.2) data

/-- The next position of the cycle (dense.go:385 and 396). -/
def cycleNext (rows cols j : Nat) : Nat := (j % cols) * rows + j / cols

/-- The first inner loop (dense.go:384-392): is `i` the smallest position of its cycle?
`fuel` bounds the number of iterations; `none` when it is used up. -/
def isLeader (rows cols i : Nat) : Nat → Nat → Option Bool
  | 0, _ => none
  | fuel + 1, j =>
    let j := cycleNext rows cols j
    if j = i then some true
    else if j < i then some false
    else isLeader rows cols i fuel j

/-- The second inner loop (dense.go:395-407): move the elements of the cycle of `i`. -/
def rotateCycle (rows cols i : Nat) (vi : R) : Nat → Nat → List R → Option (List R)
  | 0, _, _ => none
  | fuel + 1, j, data =>
    let k := cycleNext rows cols j
    do
      let v ← (if k = i then some vi else data[k]?)
      let data ← GoSlice.set data j v
      if k ≤ i then some data else rotateCycle rows cols i vi fuel k data

/-- The main loop for rectangular matrices (dense.go:381-408). -/
def rectLoop (rows cols fuel : Nat) : List Nat → List R → Option (List R)
  | [], data => some data
  | i :: is, data => do
    let leader ← isLeader rows cols i fuel i
    if leader then do
      let vi ← data[i]?
      let data ← rotateCycle rows cols i vi fuel i data
      rectLoop rows cols fuel is data
    else rectLoop rows cols fuel is data

/-- `TransposeInPlace` (dense.go:353-411). `fuel` bounds the number of iterations of each of the
inner loops, which have no bound in the code. -/
def transposeInPlace (fuel : Nat) (d : Dense R) : Option (Dense R) :=
  let rows := d.cols
  let cols := d.rows
  if d.isVector ∨ d.data.length ≤ 1 then some ⟨rows, cols, d.data⟩
  else if rows = cols then do
    let data ← doSwaps (squareSwaps rows) d.data
    some ⟨rows, cols, data⟩
  else do
    let data ← rectLoop rows cols fuel ((List.range d.data.length).drop 1) d.data
    some ⟨rows, cols, data⟩

/-- The element-wise binary operations: `Add`, `Sub`, `Prod`, `Div` and their in-place forms
(dense.go:413-676); the kernels are the loops of matfuncs/add_purego.go etc. -/
def zipOp (f : R → R → R) (a b : Dense R) : Option (Dense R) :=
  if a.sameDims b then some ⟨a.rows, a.cols, List.zipWith f a.data b.data⟩ else none

/-- The element-wise unary operations `AddScalar`, `SubScalar`, `ProdScalar`, `Abs`, `Exp`, ...
(dense.go:449-620, 899-986). -/
def map (f : R → R) (a : Dense R) : Dense R := ⟨a.rows, a.cols, a.data.map f⟩

/-- `ClipInPlace` (dense.go:822-842). -/
def clip [LT R] [DecidableLT R] (d : Dense R) (min max : R) : Option (Dense R) :=
  if max < min then none
  else some (d.map fun v => if v < min then min else if max < v then max else v)

/-- `DotProd` (matfuncs/dotprod_purego.go): `y += x1[i]*x2[i]`, panics when `x2` is shorter. -/
def dotProd [Zero R] [Add R] [Mul R] (x1 x2 : List R) : Option R :=
  if x1.length = 0 then some 0
  else if x2.length < x1.length then none
  else some ((List.zipWith (· * ·) x1 x2).foldl (· + ·) 0)

/-- `AxpyUnitary(alpha, x, y)` and `AxpyUnitaryTo(y, alpha, x, y)` (asm64/axpy.go:17-31):
`y[i] += alpha*x[i]` for all `i < len(x)`; panics when `y` is shorter. -/
def axpy [Add R] [Mul R] (alpha : R) (x y : List R) : Option (List R) :=
  if y.length < x.length then none
  else some (List.zipWith (fun v w => alpha * v + w) x y ++ y.drop x.length)

/-- The inner loop of `MatrixMul` for one row of the result: `ctmp += v * b[l]` for each
non-zero `v = a[i,l]` (f64/gonum.go:13-20, f32/gonum.go:13-20). -/
def mulRow [Zero R] [DecidableEq R] [Add R] [Mul R] (b : List R) (bCols : Nat) :
    List R → Nat → List R → Option (List R)
  | [], _, ctmp => some ctmp
  | v :: vs, l, ctmp =>
    if v = 0 then mulRow b bCols vs (l + 1) ctmp
    else do
      let row ← sub b (l * bCols) (l * bCols + bCols)
      let ctmp ← axpy v row ctmp
      mulRow b bCols vs (l + 1) ctmp

/-- The outer loop of `MatrixMul` (f64/gonum.go:11-21); the rows of `c` are produced in order. -/
def mulRows [Zero R] [DecidableEq R] [Add R] [Mul R] (a b : List R) (aCols bCols : Nat) :
    List Nat → Option (List R)
  | [] => some []
  | i :: is => do
    let arow ← sub a (i * aCols) (i * aCols + aCols)
    let row ← mulRow b bCols arow 0 (List.replicate bCols 0)
    let rest ← mulRows a b aCols bCols is
    some (row ++ rest)

/-- The loop for a one-column right operand (dense.go:711-717 for float32; `GemvN` with
`alpha = 1`, `beta = 0`, asm64/ge_noasm.go:46-66, for float64, which differs by the factor
`alpha` only). -/
def dotRows [Zero R] [Add R] [Mul R] (a x : List R) (aCols : Nat) : List Nat → Option (List R)
  | [] => some []
  | i :: is => do
    let arow ← sub a (i * aCols) (i * aCols + aCols)
    let v ← dotProd arow x
    let rest ← dotRows a x aCols is
    some (v :: rest)

/-- `Mul` (dense.go:681-751). -/
def mul [Zero R] [DecidableEq R] [Add R] [Mul R] (a b : Dense R) : Option (Dense R) :=
  if a.cols ≠ b.rows then none
  else if b.cols ≠ 1 then do
    let data ← mulRows a.data b.data a.cols b.cols (List.range a.rows)
    make data a.rows b.cols
  else do
    let data ← dotRows a.data b.data a.cols (List.range a.rows)
    make data a.rows b.cols

/-- The loop of `MulT` (dense.go:773-778, 790-795). -/
def mulTLoop [Add R] [Mul R] (a : List R) (aCols : Nat) : List R → Nat → List R → Option (List R)
  | [], _, out => some out
  | v :: vs, start, out => do
    let row ← sub a start (start + aCols)
    let out ← axpy v row out
    mulTLoop a aCols vs (start + aCols) out

/-- `MulT` (dense.go:757-802). -/
def mulT [Zero R] [Add R] [Mul R] (a b : Dense R) : Option (Dense R) :=
  if a.rows ≠ b.rows then none
  else if b.cols ≠ 1 then none
  else do
    let out ← mulTLoop a.data a.cols b.data 0 (List.replicate (a.cols * b.cols) 0)
    make out a.cols b.cols

/-- `DotUnitary` (dense.go:805-819). -/
def dotUnitary [Zero R] [Add R] [Mul R] (a b : Dense R) : Option R :=
  if a.sameDims b then dotProd a.data b.data else none

/-- `Sum` (dense.go:1013-1026, matfuncs/sum_purego.go). -/
def sum [Zero R] [Add R] (d : Dense R) : R := d.data.foldl (· + ·) 0

/-- `max` (dense.go:1033-1044). -/
def max [LT R] [DecidableLT R] (d : Dense R) : Option R :=
  match d.data with
  | [] => none
  | v :: vs => some (vs.foldl (fun m v => if m < v then v else m) v)

/-- `Min` (dense.go:1047-1058). -/
def min [LT R] [DecidableLT R] (d : Dense R) : Option R :=
  match d.data with
  | [] => none
  | v :: vs => some (vs.foldl (fun m v => if v < m then v else m) v)

/-- `ArgMax` (dense.go:1061-1078). -/
def argMax [LT R] [DecidableLT R] (d : Dense R) : Option Nat :=
  if ¬ d.isVector then none
  else match d.data with
  | [] => none
  | v :: vs => some ((((v :: vs).zipIdx).foldl
      (fun m p => if m.1 < p.1 then p else m) (v, 0)).2)

/-- The loop of `CumSum` (f32/gonum.go:58-66). -/
def cumSumLoop [Add R] : R → List R → List R
  | _, [] => []
  | acc, v :: vs => (acc + v) :: cumSumLoop (acc + v) vs

/-- `CumSum` (dense.go:1117-1138). -/
def cumSum [Add R] (d : Dense R) : Option (Dense R) :=
  if ¬ d.isVector then none
  else match d.data with
  | [] => some ⟨0, 1, []⟩
  | v :: vs => some ⟨d.data.length, 1, v :: cumSumLoop v vs⟩

/-- `Range` (dense.go:1142-1153). -/
def range (d : Dense R) (start stop : Int) : Option (Dense R) :=
  if ¬ d.isVector then none
  else if stop < start then none
  else if stop < 0 ∨ start < 0 then none
  else do
    let data ← sub d.data start.toNat stop.toNat
    some (column data)

/-- The loop of `SplitV` (dense.go:1166-1176). -/
def splitLoop (data : List R) : Nat → List Int → Option (List (Dense R))
  | _, [] => some []
  | offset, size :: sizes =>
    if size < 0 then none
    else
      let startIndex := offset
      let offset := startIndex + size.toNat
      if startIndex ≥ data.length ∧ offset > startIndex then none
      else do
        let chunk ← sub data startIndex offset
        let rest ← splitLoop data offset sizes
        some (column chunk :: rest)

/-- `SplitV` (dense.go:1157-1178). -/
def splitV (d : Dense R) (sizes : List Int) : Option (List (Dense R)) :=
  if ¬ d.isVector then none else splitLoop d.data 0 sizes

/-- `ConcatV` (matrix.go:287-304). -/
def concatV (vs : List (Dense R)) : Option (Dense R) :=
  if vs.all isVector then
    some ⟨(vs.map fun v => v.data.length).sum, 1, (vs.map data).flatten⟩
  else none

/-- The loop of `Stack` (matrix.go:319-328). -/
def stackLoop (cols : Nat) : List (Dense R) → Nat → List R → Option (List R)
  | [], _, out => some out
  | v :: vs, i, out =>
    if ¬ v.isVector then none
    else if v.data.length ≠ cols then none
    else do
      let out ← copyRange out (i * cols) (i * cols + cols) v.data
      stackLoop cols vs (i + 1) out

/-- `Stack` (matrix.go:311-330). -/
def stack [Zero R] (vs : List (Dense R)) : Option (Dense R) :=
  match vs with
  | [] => some ⟨0, 0, []⟩
  | v :: _ => do
    let cols := v.data.length
    let out ← stackLoop cols vs 0 (List.replicate (vs.length * cols) 0)
    make out vs.length cols

/-- `Augment` (dense.go:1181-1194): the loop over rows and columns, element by element. -/
def augment [Zero R] [One R] (d : Dense R) : Option (Dense R) :=
  if d.cols ≠ d.rows then none
  else
    (List.range d.rows).foldlM (fun out (i : Nat) => do
      let out ← (List.range d.cols).foldlM (fun out (j : Nat) => do
        let v ← d.at2 i j
        out.set2 v i j) out
      out.set2 1 i (i + d.rows : Nat)) (zeros d.rows (d.cols * 2))

/-- `SwapInPlace` (dense.go:1197-1210). -/
def swapInPlace (d : Dense R) (r1 r2 : Int) : Option (Dense R) :=
  if r1 < 0 ∨ r1 ≥ d.rows then none
  else if r2 < 0 ∨ r2 ≥ d.rows then none
  else do
    let data ← doSwaps ((List.range d.cols).map fun j =>
      (r1.toNat * d.cols + j, r2.toNat * d.cols + j)) d.data
    some { d with data := data }

/-- `PadRows` (dense.go:1214-1232). -/
def padRows [Zero R] (d : Dense R) (n : Int) : Option (Dense R) :=
  if n < 0 then none
  else
    let y : Dense R := zeros (d.rows + n.toNat) d.cols
    if d.cols = 0 ∨ d.rows = 0 then some y
    else do
      let data ← copyRange y.data 0 d.data.length d.data
      some { y with data := data }

/-- The loop of `PadColumns` (dense.go:1253-1255). -/
def padLoop (data : List R) (dCols yCols : Nat) : Nat → Nat → Nat → List R → Option (List R)
  | 0, _, _, y => some y
  | rows + 1, xi, yi, y => do
    let row ← sub data xi (xi + dCols)
    let y ← copyRange y yi (yi + dCols) row
    padLoop data dCols yCols rows (xi + dCols) (yi + yCols) y

/-- `PadColumns` (dense.go:1236-1258). -/
def padColumns [Zero R] (d : Dense R) (n : Int) : Option (Dense R) :=
  if n < 0 then none
  else
    let y : Dense R := zeros d.rows (d.cols + n.toNat)
    if d.rows = 0 ∨ d.cols = 0 then some y
    else do
      let data ← padLoop d.data d.cols (d.cols + n.toNat) d.rows 0 0 y.data
      some { y with data := data }

/-- The loop of `AppendRows` (dense.go:1273-1281). -/
def appendLoop (cols : Nat) : List (Dense R) → Nat → List R → Option (List R)
  | [], _, out => some out
  | v :: vs, offset, out =>
    if ¬ v.isVector ∨ v.data.length ≠ cols then none
    else do
      let out ← copyRange out offset (offset + cols) v.data
      appendLoop cols vs (offset + cols) out

/-- `AppendRows` (dense.go:1263-1284). -/
def appendRows [Zero R] (d : Dense R) (vs : List (Dense R)) : Option (Dense R) := do
  let out := List.replicate ((d.rows + vs.length) * d.cols) (0 : R)
  let out ← copyRange out 0 d.data.length d.data
  let out ← appendLoop d.cols vs d.data.length out
  some ⟨d.rows + vs.length, d.cols, out⟩

/-- The loop of `Apply` and `InitializeMatrix` (dense.go:1324-1334, dense_new.go:181-191): the
row and column counters run along with the elements. -/
def applyLoop {S : Type} (cols : Nat) (fn : Nat → Nat → R → S) : List R → Nat → Nat → List S
  | [], _, _ => []
  | v :: vs, r, c =>
    fn r c v :: (if c + 1 = cols then applyLoop cols fn vs (r + 1) 0
      else applyLoop cols fn vs r (c + 1))

/-- `Apply` (dense.go:1312-1337) and `ApplyInPlace` with the receiver as argument. -/
def apply {S : Type} (d : Dense R) (fn : Nat → Nat → R → S) : Dense S :=
  ⟨d.rows, d.cols, applyLoop d.cols fn d.data 0 0⟩

/-- `CreateIdentityMatrix` (dense_new.go:166-175) as a matrix: ones at `0, size+1, …`. -/
def identity [Zero R] [One R] (size : Nat) : Option (Dense R) := do
  let data ← ((List.range (size * size)).filter (fun i => (size + 1) ∣ i)).foldlM
    (fun out i => GoSlice.set out i 1) (List.replicate (size * size) (0 : R))
  some ⟨size, size, data⟩

/-- `CreateOneHotVector` (dense_new.go:157-164) as a column vector. -/
def oneHot [Zero R] [One R] (size : Nat) (index : Int) : Option (Dense R) :=
  if index < 0 then none
  else do
    let data ← GoSlice.set (List.replicate size (0 : R)) index.toNat 1
    some ⟨size, 1, data⟩

/-- `Equal` (matrix.go:333-335). -/
def equal [DecidableEq R] (a b : Dense R) : Bool :=
  a.sameDims b && decide (a.data = b.data)

end Dense
end Verif
