import Verif.Model.Dense

set_option autoImplicit false

/-!
# Matrices as objects: gradients and shared shape slices

`*Dense[T]` values are pointers. An object holds a slice header for its shape, its data and a
pointer to its gradient (dense.go:22-28). Go slices are references, so a shape passed on with
`makeDense(…, d.shape...)` or `WithShape(d.shape...)` is *the same* slice: a variadic argument
spread with `...` is not copied (dense.go:31-39, dense_new.go:28-32, 120-125). Here shapes are
therefore cells of their own that objects refer to.

Simplifications: data slices are never shared (every operation modelled here allocates the data of
its result; `NewDense(WithBacking(s))`, which keeps the caller's slice, is not modelled); the
caller keeps no reference to the slice returned by `Shape()`; the lock `gradMu` makes each step
atomic. Addresses are positions in the list of objects, which only grows.
-/

namespace Verif.Heap
variable {R : Type}

/-- `Dense[T]` (dense.go:22-28). `shape` is the address of the shape slice. -/
structure Obj (R : Type) where
  shape : Nat
  data : List R
  grad : Option Nat
  deriving DecidableEq, Repr

/-- All objects and all shape slices. -/
structure Heap (R : Type) where
  objs : List (Obj R)
  shapes : List (Nat × Nat)
  deriving DecidableEq, Repr

/-- `Shape()` of the object at `x` (dense.go:46-48). -/
def dims (h : Heap R) (x : Nat) : Option (Nat × Nat) := do
  let o ← h.objs[x]?
  h.shapes[o.shape]?

/-- The matrix at `x`: its shape and data. -/
def value (h : Heap R) (x : Nat) : Option (Dense R) := do
  let o ← h.objs[x]?
  let s ← h.shapes[o.shape]?
  some ⟨s.1, s.2, o.data⟩

/-- The gradient object of `x` (`Grad()`, dense_grad.go:13-17). -/
def gradAddr (h : Heap R) (x : Nat) : Option Nat := do
  let o ← h.objs[x]?
  o.grad

/-- The elements of the gradient of `x`. -/
def gradData (h : Heap R) (x : Nat) : Option (List R) := do
  let g ← gradAddr h x
  let og ← h.objs[g]?
  some og.data

/-- `makeDense(data, d.shape...)`: the new object shares the shape slice. -/
def allocShared (h : Heap R) (shape : Nat) (data : List R) : Heap R :=
  { h with objs := h.objs ++ [⟨shape, data, none⟩] }

/-- `makeDense(data, rows, cols)`: the new object has a shape slice of its own. -/
def allocFresh (h : Heap R) (d : Dense R) : Option (Heap R) :=
  if d.WF then
    some ⟨h.objs ++ [⟨h.shapes.length, d.data, none⟩], h.shapes ++ [(d.rows, d.cols)]⟩
  else none

/-- Replace the object at `x`. -/
def setObj (h : Heap R) (x : Nat) (o : Obj R) : Heap R := { h with objs := h.objs.set x o }

/-- `d.shape[0], d.shape[1] = rows, cols` for the object `o`. -/
def setShape (h : Heap R) (o : Obj R) (rows cols : Nat) : Heap R :=
  { h with shapes := h.shapes.set o.shape (rows, cols) }

/-- The operations. Arguments are addresses. -/
inductive Op (R : Type)
  /-- `Clone` (dense.go:1435-1440) -/
  | clone (x : Nat)
  /-- `ZerosLike`, `OnesLike`, `AddScalar`, `SubScalar`, `ProdScalar`, `Abs`, `Pow`, `Sqrt`, `Log`,
  `Exp`, `Sigmoid`, `Apply…` (dense.go:78-92, 449-620, 899-986, 1312-1405): same shape slice -/
  | mapNew (x : Nat) (f : R → R)
  /-- `Add`, `Sub`, `Prod`, `Div`, `Maximum`, `Minimum` (dense.go:413-428, 482-497, 588-603,
  640-655, 845-896): the receiver's shape slice -/
  | zipNew (f : R → R → R) (x y : Nat)
  /-- operations whose result has a shape slice of its own: constructors, `T`, `Reshape`, `Flatten`,
  `Slice`, `ExtractRow`, `ExtractColumn`, `Mul`, `MulT`, `PadRows`, `PadColumns`, `AppendRows`,
  `ConcatV`, `Stack`, … -/
  | fresh (f : List (Dense R) → Option (Dense R)) (xs : List Nat)
  /-- an element is overwritten in place (`SetScalar`, and each iteration of the in-place
  operations) -/
  | setEl (x i : Nat) (v : R)
  /-- `AddInPlace` (dense.go:431-446) -/
  | addInPlace (x y : Nat)
  /-- `ReshapeInPlace` (dense.go:270-284) -/
  | reshapeInPlace (x rows cols : Nat)
  /-- `FlattenInPlace` (dense.go:299-303) -/
  | flattenInPlace (x : Nat)
  /-- `TransposeInPlace` (dense.go:353-411) -/
  | transposeInPlace (x : Nat)
  /-- `Softmax` (dense.go:1082-1113); `f` computes the elements from all the data -/
  | softmax (f : List R → R → R) (x : Nat)
  /-- `AccGrad` (dense_grad.go:21-29) -/
  | accGrad (x y : Nat)
  /-- `ZeroGrad` (dense_grad.go:48-52) -/
  | zeroGrad (x : Nat)

/-- `AddInPlace` (dense.go:431-446) with the loop of matfuncs/add_purego.go. -/
def addInPlace [Add R] (h : Heap R) (x y : Nat) : Option (Heap R) := do
  let ox ← h.objs[x]?
  let oy ← h.objs[y]?
  if dims h x = dims h y then
    some (setObj h x { ox with data := List.zipWith (· + ·) ox.data oy.data })
  else none

/-- `TransposeInPlace` (dense.go:353-411): swap the entries of the shape slice, permute the data. -/
def transposeInPlace (h : Heap R) (x : Nat) : Option (Heap R) := do
  let o ← h.objs[x]?
  let d ← value h x
  let t ← d.transposeInPlace d.data.length
  some (setObj (setShape h o t.rows t.cols) x { o with data := t.data })

/-- One operation; `none` is a panic. -/
def step [Add R] (h : Heap R) : Op R → Option (Heap R)
  | .clone x => do
    let o ← h.objs[x]?
    some (allocShared h o.shape o.data)
  | .mapNew x f => do
    let o ← h.objs[x]?
    some (allocShared h o.shape (o.data.map f))
  | .zipNew f x y => do
    let ox ← h.objs[x]?
    let oy ← h.objs[y]?
    if dims h x = dims h y then
      some (allocShared h ox.shape (List.zipWith f ox.data oy.data))
    else none
  | .fresh f xs => do
    let vs ← xs.mapM (value h)
    let d ← f vs
    allocFresh h d
  | .setEl x i v => do
    let o ← h.objs[x]?
    let data ← GoSlice.set o.data i v
    some (setObj h x { o with data := data })
  | .addInPlace x y => addInPlace h x y
  | .reshapeInPlace x rows cols => do
    let o ← h.objs[x]?
    if rows * cols = o.data.length then some (setShape h o rows cols) else none
  | .flattenInPlace x => do
    let o ← h.objs[x]?
    some (setShape h o 1 o.data.length)
  | .transposeInPlace x => transposeInPlace h x
  | .softmax f x => do
    let o ← h.objs[x]?
    let s ← h.shapes[o.shape]?
    if ¬ (s.1 = 1 ∨ s.2 = 1) then none
    else if o.data.length = 0 then allocFresh h ⟨0, 1, []⟩
    else
      let h' := allocShared h o.shape (o.data.map (f o.data))
      if s.2 ≠ 1 then transposeInPlace h' h.objs.length else some h'
  | .accGrad x y => do
    let ox ← h.objs[x]?
    let oy ← h.objs[y]?
    match ox.grad with
    | none => some (setObj (allocShared h oy.shape oy.data) x { ox with grad := some h.objs.length })
    | some g => addInPlace h g y
  | .zeroGrad x => do
    let o ← h.objs[x]?
    some (setObj h x { o with grad := none })

/-- A sequence of operations. -/
def run [Add R] (h : Heap R) : List (Op R) → Option (Heap R)
  | [] => some h
  | op :: ops => do
    let h' ← step h op
    run h' ops

end Verif.Heap
