import Verif.Model.Attention
import Verif.Model.GradFn
import Mathlib.Logic.Function.Basic

set_option autoImplicit false

/-!
# Multi-head attention (nn/attention/multiheadattention) with its slices

`project` lets two slices share one backing array, so slices are modelled as headers into arrays here.
Tensors are named: output `i` of head `j`, or the `i`-th concatenation. `none` is a panic or a
`log.Fatal`.

The second part is `RequiresGrad` with its `sync.Once` and `prepareBackwardPass` for graphs that may
have cycles; there `none` is a goroutine that waits for ever.
-/

namespace Verif.MultiHead
open Verif.Attention Verif.GradFn

/-! ### slices -/

/-- A tensor handled by `project`. -/
inductive Ref
  | head (j i : Nat)
  | concat (i : Nat)
  deriving DecidableEq, Repr

/-- A Go slice: array, offset in it, length and capacity. -/
structure Slice where
  arr : Nat
  off : Nat
  len : Nat
  cap : Nat
  deriving DecidableEq, Repr

/-- The arrays; a cell that has not been assigned is nil. -/
abbrev Mem := List (List (Option Ref))

/-- `make([]mat.Tensor, n)`. -/
def mkSlice (m : Mem) (n : Nat) : Mem × Slice := (m ++ [List.replicate n none], ⟨m.length, 0, n, n⟩)

/-- `s[a:b]`: same array; the bounds are checked against the capacity. -/
def Slice.sub (s : Slice) (a b : Nat) : Option Slice :=
  if a ≤ b ∧ b ≤ s.cap then some ⟨s.arr, s.off + a, b - a, s.cap - a⟩ else none

/-- `s[k]`; a nil tensor is used by nobody without a panic. -/
def Slice.get (m : Mem) (s : Slice) (k : Nat) : Option Ref := do
  if k < s.len then
    let a ← m[s.arr]?
    let c ← a[s.off + k]?
    c
  else none

/-- All elements of a slice. -/
def Slice.toList (m : Mem) (s : Slice) : Option (List Ref) := (List.range s.len).mapM (s.get m)

/-- Write to the cell `p` of array `a`. -/
def poke (m : Mem) (a p : Nat) (r : Ref) : Mem := m.set a (((m[a]?).getD []).set p (some r))

/-- `s[k] = r`. -/
def Slice.put (m : Mem) (s : Slice) (k : Nat) (r : Ref) : Option Mem :=
  if k < s.len then some (poke m s.arr (s.off + k) r) else none

/-- `append(s, r)`: in place while there is capacity, otherwise a new array with the elements of `s`
(its spare capacity is left out). -/
def Slice.app (m : Mem) (s : Slice) (r : Ref) : Mem × Slice :=
  if s.len < s.cap then (poke m s.arr (s.off + s.len) r, { s with len := s.len + 1 })
  else (m ++ [((((m[s.arr]?).getD []).drop s.off).take s.len) ++ [some r]],
    ⟨m.length, 0, s.len + 1, s.len + 1⟩)

/-! ### the layer -/

section Layer
variable {R : Type} [Field R] [LinearOrder R]

/-- The state of `project`: the arrays, the slice `concat`, and for each concatenation built so far the
slice of its operands (`NewConcat` keeps the slice it is given, gradfn/concat.go:20-25; so does
`ag.Concat`, ag/operators.go:61-63) and its value (`Run()` without arguments is synchronous,
ag/operator.go:135-149). -/
structure PState (R : Type) where
  mem : Mem
  concat : Slice
  ops : List Slice
  vals : List (Dense R)

/-- `Value()` of a tensor. -/
def valueOf (heads : List (List (Dense R))) (vals : List (Dense R)) : Ref → Option (Dense R)
  | .head j i => do
    let h ← heads[j]?
    h[i]?
  | .concat i => vals[i]?

/-- The inner loop `buf2[j] = heads[j][i]` (model.go:102-104). -/
def fillLoop (heads : List (List (Dense R))) (buf2 : Slice) (i : Nat) : Mem → List Nat → Option Mem
  | m, [] => some m
  | m, j :: js => do
    let h ← heads[j]?
    let _ ← h[i]?
    let m ← buf2.put m j (.head j i)
    fillLoop heads buf2 i m js

/-- One iteration of the outer loop of `project` (model.go:100-106). -/
def projectStep (heads : List (List (Dense R))) (buf : Slice) (s : PState R) (i : Nat) :
    Option (PState R) := do
  let n := heads.length
  let buf2 ← buf.sub (i * n) (i * n + n)
  let mem ← fillLoop heads buf2 i s.mem (List.range n)
  let xs ← buf2.toList mem
  let vs ← xs.mapM (valueOf heads s.vals)
  let v ← GradFn.concat.forward vs
  let (mem, concat) := s.concat.app mem (.concat i)
  some ⟨mem, concat, s.ops ++ [buf2], s.vals ++ [v]⟩

/-- The loops of `project` (model.go:96-107). -/
def projectLoop (heads : List (List (Dense R))) (seqLen : Nat) : Option (PState R) := do
  let n := heads.length
  let (mem, buf) := mkSlice [] (seqLen * n)
  let concat ← buf.sub 0 0
  (List.range seqLen).foldlM (projectStep heads buf) ⟨mem, concat, [], []⟩

/-- `project` (model.go:95-109): the final state, the tensors given to the merge layer and its
outputs. -/
def project (w b : Dense R) (heads : List (List (Dense R))) (seqLen : Nat) :
    Option (PState R × List Ref × List (Dense R)) := do
  let s ← projectLoop heads seqLen
  let xs ← s.concat.toList s.mem
  let vs ← xs.mapM (valueOf heads s.vals)
  let ys ← vs.mapM (linear w b)
  some (s, xs, ys)

/-- `Model` (model.go:24-28). -/
structure Model (R : Type) where
  heads : List (SelfAtt R)
  w : Dense R
  b : Dense R

/-- A cache: for each head its cache (`none`: without values). -/
abbrev Cache (R : Type) := List (Option (Dense R × Dense R))

/-- `Cache.At` (model.go:71-76). -/
def cacheAt (c : Cache R) (i : Nat) : Option (Option (Dense R × Dense R)) :=
  if c.length = 0 then some none else c[i]?

/-- The loop over the heads in `Forward` (model.go:85-87). -/
def headsLoop (exp : R → R) (cache : Cache R) (q x : List (Dense R)) :
    Nat → List (SelfAtt R) → Option (List (List (Dense R × Dense R) × (Dense R × Dense R)))
  | _, [] => some []
  | i, h :: hs => do
    let c ← cacheAt cache i
    let r ← h.forward exp c q x
    let rs ← headsLoop exp cache q x (i + 1) hs
    some (r :: rs)

/-- `Model.Forward` (model.go:79-93): outputs, weights of every head, next cache. -/
def Model.forward (exp : R → R) (m : Model R) (cache : Cache R) (q x : List (Dense R)) :
    Option (List (Dense R) × List (List (Dense R)) × Cache R) := do
  let rs ← headsLoop exp cache q x 0 m.heads
  let r ← project m.w m.b (rs.map fun r => r.1.map Prod.fst) q.length
  some (r.2.2, rs.map fun r => r.1.map Prod.snd, rs.map fun r => some r.2)

/-- One head of `makeAttentionHeads` (model.go:51-67) with parameters of the sizes that
selfattention.New gives them (selfattention/model.go:56-66): `dk × dm` weights, `dk` biases. -/
def headShapes (dm n : Nat) (h : SelfAtt R) : Prop :=
  (h.wq.WF ∧ h.wq.rows = dm / n ∧ h.wq.cols = dm) ∧ (h.bq.WF ∧ h.bq.rows = dm / n ∧ h.bq.cols = 1) ∧
  (h.wk.WF ∧ h.wk.rows = dm / n ∧ h.wk.cols = dm) ∧ (h.bk.WF ∧ h.bk.rows = dm / n ∧ h.bk.cols = 1) ∧
  (h.wv.WF ∧ h.wv.rows = dm / n ∧ h.wv.cols = dm) ∧ (h.bv.WF ∧ h.bv.rows = dm / n ∧ h.bv.cols = 1)

/-- The shapes of a model made by `New` (model.go:35-40); the elements are arbitrary. -/
def newShapes (size n : Nat) (m : Model R) : Prop :=
  m.heads.length = n ∧ (∀ h ∈ m.heads, headShapes size n h) ∧
  (m.w.WF ∧ m.w.rows = size ∧ m.w.cols = size) ∧ (m.b.WF ∧ m.b.rows = size ∧ m.b.cols = 1)

/-- `Concat.Backward` (gradfn/concat.go:46-63) with the values `xs` that the operands have now and the
output size recorded by `Forward`. -/
def concatBackward (ySize : Nat) (xs : List (Dense R)) (gy : Dense R) : Option (List (Dense R)) :=
  if ySize ≠ gy.data.length then none
  else gy.splitV (xs.map fun x => (x.data.length : Int))

end Layer

/-! ### `RequiresGrad` and `prepareBackwardPass` on any graph -/

/-- A tensor: leaf with its flag, gradient blocker, operator with its operands. -/
inductive Node (N : Type)
  | leaf (requiresGrad : Bool)
  | blocker
  | op (operands : List N)

/-- The `sync.Once` of `RequiresGrad` together with the memoised result (ag/operator.go:107-111). -/
inductive Once
  | fresh
  | running
  | done (b : Bool)
  deriving DecidableEq, Repr

section Graph
open Function (update)
variable {N : Type} [DecidableEq N]

/-- The loop `for op in operands: if op.RequiresGrad() return true` (ag/operator.go:198-209;
mat/dense_grad.go:39-41 for leaves, ag/gradientblocker.go:41 for blockers). `Do` on a `sync.Once` whose
function is running waits for it to finish; the caller is that function, so it waits for ever. -/
def rgList (G : N → Node N) (o : N → Once) : List N → Option ((N → Once) × Bool)
  | [] => some (o, false)
  | x :: xs =>
    match G x with
    | .leaf true => some (o, true)
    | .leaf false => rgList G o xs
    | .blocker => rgList G o xs
    | .op os =>
      match o x with
      | .done true => some (o, true)
      | .done false => rgList G o xs
      | .running => none
      | .fresh => do
        let r ← rgList G (update o x .running) os
        let o := update r.1 x (.done r.2)
        if r.2 then some (o, true) else rgList G o xs
partial_fixpoint

/-- `x.RequiresGrad()`. -/
def requiresGrad (G : N → Node N) (o : N → Once) (x : N) : Option ((N → Once) × Bool) := rgList G o [x]

/-- What `prepareBackwardPass` changes: the `Once` states, the backward states (idle or pending) and
the counters. -/
structure Prep (N : Type) where
  once : N → Once
  pending : N → Bool
  pend : N → Nat

/-- `prepareBackwardPass` on every operator of a list (ag/backward.go:32-34, ag/operator.go:252-270). -/
def prepareList (G : N → Node N) (s : Prep N) : List N → Option (Prep N)
  | [] => some s
  | x :: xs =>
    match G x with
    | .op os => do
      let r ← requiresGrad G s.once x
      if r.2 then
        let pend := update s.pend x (s.pend x + 1)
        if s.pending x then prepareList G ⟨r.1, s.pending, pend⟩ xs
        else do
          let s ← prepareList G ⟨r.1, update s.pending x true, pend⟩ os
          prepareList G s xs
      else prepareList G ⟨r.1, s.pending, s.pend⟩ xs
    | _ => prepareList G s xs
partial_fixpoint

/-- The state before anything was asked. -/
def Prep.init : Prep N := ⟨fun _ => .fresh, fun _ => false, fun _ => 0⟩

end Graph

/-! ### the graph built by `project` -/

/-- Tensors: anything built before `project` (parameters, heads and what they depend on), the
concatenations, the outputs of the merge layer. -/
inductive Name
  | inner (k : Nat)
  | concat (i : Nat)
  | out (i : Nat)
  deriving DecidableEq, Repr

/-- The name of a tensor of `project`, given names for the outputs of the heads. -/
def Ref.name (headName : Nat → Nat → Nat) : Ref → Name
  | .head j i => .inner (headName j i)
  | .concat i => .concat i

/-- The node of an inner tensor: its operands are inner. -/
def innerNode : Node Nat → Node Name
  | .leaf b => .leaf b
  | .blocker => .blocker
  | .op os => .op (os.map .inner)

/-- The graph after `project`: `Concat.Operands` is the kept slice as it is now (gradfn/concat.go:28-30),
`Affine.Operands` is bias, weights, input (gradfn/affine.go:63-68). -/
def graphOf {R : Type} (inner : Nat → Node Nat) (headName : Nat → Nat → Nat) (bias weights : Nat)
    (s : PState R) (xs : List Ref) : Name → Node Name
  | .inner k => innerNode (inner k)
  | .concat i => .op ((((s.ops[i]?).bind fun sl => sl.toList s.mem).getD []).map (Ref.name headName))
  | .out i => .op ([.inner bias, .inner weights] ++ (xs[i]?.toList.map (Ref.name headName)))

end Verif.MultiHead
