import Mathlib.Data.List.Basic

set_option autoImplicit false

/-!
# Embeddings (nn/embedding)

Of a weight only its gradient matters here: `grads i` is the gradient of `Weights[i]`, `none` when absent. The mutex
makes `AccGrad` and both `ZeroGrad` atomic, so a concurrent run is a sequence of them. The set `embedGradIdx` is a
list without repetitions in the order in which the map happens to be iterated; `none` is the nil map.
-/

namespace Verif.Embedding

variable {W G : Type}

/-- The state of a `Model` (model.go:20-29). -/
structure St (W G : Type) where
  size : Nat
  weights : Nat → W
  grads : Nat → Option G
  idx : Option (List Nat)

/-- `New` (model.go:36-48). -/
def new (size : Nat) (w : W) : St W G := ⟨size, fun _ => w, fun _ => none, some []⟩

/-- `checkInput` (model.go:95-102). -/
def checkInput (size : Nat) : List Int → Bool
  | [] => true
  | i :: l => if i < 0 ∨ i ≥ size then false else checkInput size l

/-- `Encode` (model.go:70-83): the index and the weight of every tensor; `none` is the error. -/
def encode (s : St W G) (input : List Int) : Option (List (Nat × W)) :=
  if ¬ checkInput s.size input then none
  else some (input.map fun i => (i.toNat, s.weights i.toNat))

/-- `Embedding` (model.go:57-66). -/
def embedding (s : St W G) (i : Int) : Option (Nat × W) :=
  if i < 0 ∨ i ≥ s.size then none else some (i.toNat, s.weights i.toNat)

/-- The parameters `TraverseParams` presents (model.go:51-55). -/
def traverse (s : St W G) : List Nat := s.idx.getD []

/-- `CountEmbedWithGrad` (model.go:104-108). -/
def count (s : St W G) : Nat := (s.idx.getD []).length

/-- The gradient of one weight replaced. -/
def setGrad (s : St W G) (i : Nat) (g : Option G) : St W G :=
  { s with grads := fun j => if j = i then g else s.grads j }

/-- `Dense.AccGrad` (mat/dense_grad.go:21-29) on the weight. -/
def paramAcc [Add G] (s : St W G) (i : Nat) (g : G) : St W G :=
  setGrad s i (match s.grads i with
    | none => some g
    | some h => some (h + g))

/-- Adding a key to a Go map. -/
def addKey (l : List Nat) (i : Nat) : List Nat := if i ∈ l then l else l ++ [i]

/-- What happens to a model. -/
inductive Op (G : Type)
  /-- `AccGrad` on an embedding (embedding.go:19-24). -/
  | acc (i : Nat) (g : G)
  /-- `ZeroGrad` on an embedding (embedding.go:26-31). -/
  | zero (i : Nat)
  /-- `ZeroGrad` of the model (model.go:110-117). -/
  | zeroAll
  /-- An optimizer's step, or `nn.ZeroGrad` of an enclosing model: both clear the gradient of every parameter
  `TraverseParams` presents (nn/model.go:93-97). -/
  | clear
  /-- `AccGrad` directly on `Weights[i]`. -/
  | paramAcc (i : Nat) (g : G)
  /-- `ZeroGrad` directly on `Weights[i]`. -/
  | paramZero (i : Nat)
  /-- `AccGrad` on an embedding with a gradient of another data type: the type assertion fails after the index has
  been recorded (embedding.go:22-23, mat/dense_grad.go:25). -/
  | accBad (i : Nat)
  /-- Dump and load: neither gradients nor the unexported map are stored. -/
  | reload

/-- The loop of `Model.ZeroGrad` (model.go:113-116): clear the gradient and delete the index. -/
def zeroLoop : List Nat → St W G → St W G
  | [], s => s
  | i :: l, s =>
    let s := setGrad s i none
    zeroLoop l { s with idx := s.idx.map fun m => m.erase i }

/-- One operation: the new state and whether it panicked. -/
def step [Add G] (s : St W G) : Op G → St W G × Bool
  | .acc i g =>
    match s.idx with
    | none => (s, true)
    | some l => (paramAcc { s with idx := some (addKey l i) } i g, false)
  | .zero i => (setGrad { s with idx := s.idx.map fun l => l.erase i } i none, false)
  | .zeroAll => (zeroLoop (s.idx.getD []) s, false)
  | .clear => ((traverse s).foldl (fun s i => setGrad s i none) s, false)
  | .paramAcc i g => (paramAcc s i g, false)
  | .paramZero i => (setGrad s i none, false)
  | .accBad i =>
    match s.idx with
    | none => (s, true)
    | some l => ({ s with idx := some (addKey l i) }, true)
  | .reload => ({ s with grads := fun _ => none, idx := none }, false)

/-- A history: the final state, and whether some operation panicked. -/
def run [Add G] (s : St W G) : List (Op G) → St W G × Bool
  | [] => (s, false)
  | o :: os =>
    let r := step s o
    let q := run r.1 os
    (q.1, r.2 || q.2)

end Verif.Embedding
