import Mathlib.Data.List.Basic

set_option autoImplicit false

/-!
# Traversal of a model's parameters (nn/traversal.go, nn/model.go)

The code inspects values by reflection. `Val` has one case for each way the code treats a value; pointers are
followed, so a shared pointer occurs as often as it is reached (a cyclic structure, on which the code does not
terminate, is not a `Val`). Map entries are listed in the order in which this iteration of the map yields them.
Field names and keys are only used to build a name nobody reads; of a key only the type matters.
-/

namespace Verif.Traversal

/-- The type of a map key (traversal.go:85-92, 126-133). -/
inductive Key
  | str | int | other

mutual
/-- A value as the traversal sees it. -/
inductive Val
  /-- `Module` or `*Module` (traversal.go:55). -/
  | module
  /-- A non-nil `*Param`. -/
  | param (id : Nat)
  /-- A value with its own `TraverseParams`, which visits `params` in this order; `none` when it panics, as for
  `embedding.Shared` without a model. `subs` are the models inside it, which only it knows about. -/
  | traverser (id : Nat) (isModel : Bool) (params : Option (List Nat)) (subs : List Nat)
  /-- A struct, or pointer to struct, that is a `Model`. -/
  | model (id : Nat) (fields : Fields)
  /-- A `*sync.Map`. -/
  | syncMap (entries : Entries)
  /-- A slice or an array. -/
  | seq (elems : Vals)
  /-- A map. -/
  | map (entries : Entries)
  /-- A nil pointer. -/
  | nilPtr
  /-- A nil interface. -/
  | nilIface
  /-- Any other struct, pointer or dynamic value. -/
  | foreign
  /-- A value of any other kind (number, string, function, ...). -/
  | other
/-- The fields of a struct, with whether each is exported. -/
inductive Fields
  | nil
  | cons (exported : Bool) (v : Val) (rest : Fields)
/-- The elements of a slice. -/
inductive Vals
  | nil
  | cons (v : Val) (rest : Vals)
/-- The entries of a map. -/
inductive Entries
  | nil
  | cons (k : Key) (v : Val) (rest : Entries)
end

/-- A call of `paramsFunc` or of `modelsFunc`. -/
inductive Ev
  | param (id : Nat)
  | model (id : Nat)
  deriving DecidableEq

/-- `paramsTraversal` (traversal.go:24-28): which functions are not nil, and `exploreSubModels`. -/
structure Cfg where
  onParam : Bool
  onModel : Bool
  explore : Bool

mutual
/-- `walkStructOrPtr` (traversal.go:49-78): the calls made and the result; `none` is a panic. -/
def walkItem (c : Cfg) : Val → Option (List Ev × Bool)
  | .module => some ([], true)
  | .param i => some (if c.onParam then [.param i] else [], true)
  | .traverser i isModel ps _ => do
    let t ← (if c.onParam then ps.map fun l => l.map Ev.param else some [])
    some (t ++ (if isModel && c.onModel then [.model i] else []), true)
  | .model i fs =>
    if c.explore then do
      let t ← walkFields c fs
      some ((if c.onModel then [.model i] else []) ++ t, true)
    else some ([], true)
  | .syncMap es => do
    let t ← walkEntries c es
    some (t, true)
  | _ => some ([], false)
/-- The callback of `walk` on one field (traversal.go:36-46); `forEachField` (traversal.go:148-168) skips nil
pointers. -/
def walkField (c : Cfg) : Val → Option (List Ev)
  | .seq l => walkSeq c l
  | .map es => walkEntries c es
  | .nilPtr => some []
  | .other => some []
  | v => do
    let r ← walkItem c v
    some r.1
/-- `forEachField` with the callback of `walk` (traversal.go:36-46, 147-168): unexported fields are skipped. -/
def walkFields (c : Cfg) : Fields → Option (List Ev)
  | .nil => some []
  | .cons exported v rest =>
    if exported then do
      let t ← walkField c v
      let u ← walkFields c rest
      some (t ++ u)
    else walkFields c rest
/-- `walkSlice` (traversal.go:107-120). -/
def walkSeq (c : Cfg) : Vals → Option (List Ev)
  | .nil => some []
  | .cons v rest => do
    let r ← walkItem c v
    if r.2 then do
      let u ← walkSeq c rest
      some (r.1 ++ u)
    else some r.1
/-- `walkMap` and `walkSyncMap` (traversal.go:83-105, 122-145). -/
def walkEntries (c : Cfg) : Entries → Option (List Ev)
  | .nil => some []
  | .cons k v rest =>
    match k with
    | .other => some []
    | _ => do
      let r ← walkItem c v
      if r.2 then do
        let u ← walkEntries c rest
        some (r.1 ++ u)
      else some r.1
end

/-- `walk` on the model itself (traversal.go:31-47). A `TraverseParams` is called with `paramsFunc` even if that
is nil, and then panics if it has something to visit. -/
def walk (c : Cfg) : Val → Option (List Ev)
  | .traverser _ _ ps _ => do
    let l ← ps
    if c.onParam then some (l.map Ev.param) else if l.isEmpty then some [] else none
  | .model _ fs => walkFields c fs
  | _ => none

/-- `ForEachParam` (model.go:75-81). -/
def forEachParam (m : Val) : Option (List Ev) := walk ⟨true, false, true⟩ m

/-- `ForEachParamStrict` (model.go:84-90). -/
def forEachParamStrict (m : Val) : Option (List Ev) := walk ⟨true, false, false⟩ m

/-- The model's identity, for `fn(m)`. -/
def idOf : Val → Option Nat
  | .traverser i _ _ _ => some i
  | .model i _ => some i
  | _ => none

/-- `Apply` (model.go:20-27). -/
def apply (m : Val) : Option (List Ev) := do
  let i ← idOf m
  let t ← walk ⟨false, true, true⟩ m
  some (.model i :: t)

/-- `ZeroGrad` (model.go:93-97): which of the parameters have gradients afterwards. -/
def zeroGrad (m : Val) (hasGrad : Nat → Bool) : Option (Nat → Bool) := do
  let t ← forEachParam m
  some (t.foldl (fun g e => match e with
    | .param i => fun j => if j = i then false else g j
    | .model _ => g) hasGrad)

/-- `ModuleList.Forward` (model.go:112-119): the modules' `Forward` one after the other. -/
def moduleList {X : Type} (ml : List (X → Option X)) (xs : X) : Option X := ml.foldlM (fun xs f => f xs) xs

/-- What happens at one `select` of the sending goroutine: the context may be done or not, the receiver may be
ready or not; when both can proceed the runtime chooses. -/
inductive Select
  | sent | done
  deriving DecidableEq

/-- The values received from the channel of `Parameters` (model.go:31-52): after `done` the callback returns, and
the traversal goes on with the next parameter. -/
def parametersChan : List Nat → List Select → List Nat
  | p :: ps, .sent :: ss => p :: parametersChan ps ss
  | _ :: ps, .done :: ss => parametersChan ps ss
  | _, _ => []

/-- The values received from the channel of `StreamParams` (model.go:54-72): `done` ends the goroutine. -/
def streamParams : List Nat → List Select → List Nat
  | p :: ps, .sent :: ss => p :: streamParams ps ss
  | _, _ => []

end Verif.Traversal
