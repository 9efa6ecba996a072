import Verif.Model.Traversal
import Mathlib.Data.List.Perm.Basic
import Mathlib.Data.List.Count

set_option autoImplicit false
set_option linter.unusedSimpArgs false

/-!
# C30: the traversal visits every parameter
-/

namespace Verif.Traversal

/-! ## What there is to visit -/

mutual
/-- The occurrences of parameters in a value: in exported fields, slices, maps, nested models, and those a value with
its own traversal presents. -/
def params : Val → List Nat
  | .param i => [i]
  | .traverser _ _ ps _ => ps.getD []
  | .model _ fs => paramsFields fs
  | .syncMap es => paramsEntries es
  | .seq l => paramsVals l
  | .map es => paramsEntries es
  | _ => []
def paramsFields : Fields → List Nat
  | .nil => []
  | .cons exported v rest => (if exported then params v else []) ++ paramsFields rest
def paramsVals : Vals → List Nat
  | .nil => []
  | .cons v rest => params v ++ paramsVals rest
def paramsEntries : Entries → List Nat
  | .nil => []
  | .cons _ v rest => params v ++ paramsEntries rest
end

mutual
/-- The occurrences of parameters that are not inside a nested model. -/
def own : Val → List Nat
  | .param i => [i]
  | .traverser _ isModel ps _ => if isModel then [] else ps.getD []
  | .model _ _ => []
  | .syncMap es => ownEntries es
  | .seq l => ownVals l
  | .map es => ownEntries es
  | _ => []
def ownFields : Fields → List Nat
  | .nil => []
  | .cons exported v rest => (if exported then own v else []) ++ ownFields rest
def ownVals : Vals → List Nat
  | .nil => []
  | .cons v rest => own v ++ ownVals rest
def ownEntries : Entries → List Nat
  | .nil => []
  | .cons _ v rest => own v ++ ownEntries rest
end

mutual
/-- The nested models of a value, the value itself included, outer ones first. -/
def models : Val → List Nat
  | .traverser i isModel _ subs => if isModel then i :: subs else subs
  | .model i fs => i :: modelsFields fs
  | .syncMap es => modelsEntries es
  | .seq l => modelsVals l
  | .map es => modelsEntries es
  | _ => []
def modelsFields : Fields → List Nat
  | .nil => []
  | .cons exported v rest => (if exported then models v else []) ++ modelsFields rest
def modelsVals : Vals → List Nat
  | .nil => []
  | .cons v rest => models v ++ modelsVals rest
def modelsEntries : Entries → List Nat
  | .nil => []
  | .cons _ v rest => models v ++ modelsEntries rest
end

/-- A property of the values with their own traversal; used to say which of them a structure may contain. -/
abbrev TProp := Bool → Option (List Nat) → List Nat → Prop

mutual
/-- Slices and maps contain only parameters, models, values with their own traversal (with the property `P`) and
sync maps, and all keys are strings or integers. -/
def Item (P : TProp) : Val → Prop
  | .module => True
  | .param _ => True
  | .traverser _ isModel ps subs => P isModel ps subs
  | .model _ fs => GoodFields P fs
  | .syncMap es => GoodEntries P es
  | _ => False
def Good (P : TProp) : Val → Prop
  | .seq l => GoodVals P l
  | .map es => GoodEntries P es
  | .nilPtr => True
  | .nilIface => True
  | .foreign => True
  | .other => True
  | .module => True
  | .param _ => True
  | .traverser _ isModel ps subs => P isModel ps subs
  | .model _ fs => GoodFields P fs
  | .syncMap es => GoodEntries P es
def GoodFields (P : TProp) : Fields → Prop
  | .nil => True
  | .cons exported v rest => (exported = true → Good P v) ∧ GoodFields P rest
def GoodVals (P : TProp) : Vals → Prop
  | .nil => True
  | .cons v rest => Item P v ∧ GoodVals P rest
def GoodEntries (P : TProp) : Entries → Prop
  | .nil => True
  | .cons k v rest => k ≠ .other ∧ Item P v ∧ GoodEntries P rest
end

/-- The traversal of its own does not panic. -/
def Works : TProp := fun _ ps _ => ps.isSome

/-- ... and it is not a model. -/
def NotModel : TProp := fun isModel ps _ => isModel = false ∧ ps.isSome

/-- It contains no models besides itself. -/
def NoSubs : TProp := fun _ _ subs => subs = []

/-! ## ForEachParam -/

mutual
theorem item_params (v : Val) (h : Item Works v) :
    walkItem ⟨true, false, true⟩ v = some ((params v).map Ev.param, true) := by
  match v, h with
  | .module, _ => simp [walkItem, params]
  | .param _, _ => simp [walkItem, params]
  | .traverser _ _ (some ps) _, _ => simp [walkItem, params]
  | .model _ fs, h =>
    rw [Item] at h
    simp [walkItem, params, fields_params fs h]
  | .syncMap es, h =>
    rw [Item] at h
    simp [walkItem, params, entries_params es h]
theorem field_params (v : Val) (h : Good Works v) :
    walkField ⟨true, false, true⟩ v = some ((params v).map Ev.param) := by
  match v, h with
  | .seq l, h => rw [Good] at h; simp [walkField, params, vals_params l h]
  | .map es, h => rw [Good] at h; simp [walkField, params, entries_params es h]
  | .nilPtr, _ => simp [walkField, params]
  | .nilIface, _ => simp [walkField, walkItem, params]
  | .foreign, _ => simp [walkField, walkItem, params]
  | .other, _ => simp [walkField, params]
  | .module, _ => simp [walkField, walkItem, params]
  | .param _, _ => simp [walkField, walkItem, params]
  | .traverser _ _ (some ps) _, _ => simp [walkField, walkItem, params]
  | .model _ fs, h =>
    rw [Good] at h
    simp [walkField, walkItem, params, fields_params fs h]
  | .syncMap es, h =>
    rw [Good] at h
    simp [walkField, walkItem, params, entries_params es h]
theorem fields_params (fs : Fields) (h : GoodFields Works fs) :
    walkFields ⟨true, false, true⟩ fs = some ((paramsFields fs).map Ev.param) := by
  match fs, h with
  | .nil, _ => simp [walkFields, paramsFields]
  | .cons true v rest, h =>
    rw [GoodFields] at h
    simp [walkFields, paramsFields, field_params v (h.1 rfl), fields_params rest h.2]
  | .cons false v rest, h =>
    rw [GoodFields] at h
    simp [walkFields, paramsFields, fields_params rest h.2]
theorem vals_params (l : Vals) (h : GoodVals Works l) :
    walkSeq ⟨true, false, true⟩ l = some ((paramsVals l).map Ev.param) := by
  match l, h with
  | .nil, _ => simp [walkSeq, paramsVals]
  | .cons v rest, h =>
    rw [GoodVals] at h
    simp [walkSeq, paramsVals, item_params v h.1, vals_params rest h.2]
theorem entries_params (l : Entries) (h : GoodEntries Works l) :
    walkEntries ⟨true, false, true⟩ l = some ((paramsEntries l).map Ev.param) := by
  match l, h with
  | .nil, _ => simp [walkEntries, paramsEntries]
  | .cons .str v rest, h =>
    rw [GoodEntries] at h
    simp [walkEntries, paramsEntries, item_params v h.2.1, entries_params rest h.2.2]
  | .cons .int v rest, h =>
    rw [GoodEntries] at h
    simp [walkEntries, paramsEntries, item_params v h.2.1, entries_params rest h.2.2]
  | .cons .other v rest, h => rw [GoodEntries] at h; exact absurd rfl h.1
end

/-- C30: `ForEachParam` calls the function exactly once for each occurrence of a parameter, in order, if slices and
maps contain nothing else and the keys are strings or integers. -/
theorem forEachParam_partial (i : Nat) (fs : Fields) (h : GoodFields Works fs) :
    forEachParam (.model i fs) = some ((params (.model i fs)).map Ev.param) := by
  rw [forEachParam, walk, params, fields_params fs h]

/-! ## ForEachParamStrict -/

mutual
theorem item_own (v : Val) (h : Item NotModel v) :
    walkItem ⟨true, false, false⟩ v = some ((own v).map Ev.param, true) := by
  match v, h with
  | .module, _ => simp [walkItem, own]
  | .param _, _ => simp [walkItem, own]
  | .traverser _ false (some ps) _, _ => simp [walkItem, own]
  | .model _ fs, h => simp [walkItem, own]
  | .syncMap es, h =>
    rw [Item] at h
    simp [walkItem, own, entries_own es h]
theorem field_own (v : Val) (h : Good NotModel v) :
    walkField ⟨true, false, false⟩ v = some ((own v).map Ev.param) := by
  match v, h with
  | .seq l, h => rw [Good] at h; simp [walkField, own, vals_own l h]
  | .map es, h => rw [Good] at h; simp [walkField, own, entries_own es h]
  | .nilPtr, _ => simp [walkField, own]
  | .nilIface, _ => simp [walkField, walkItem, own]
  | .foreign, _ => simp [walkField, walkItem, own]
  | .other, _ => simp [walkField, own]
  | .module, _ => simp [walkField, walkItem, own]
  | .param _, _ => simp [walkField, walkItem, own]
  | .traverser _ false (some ps) _, _ => simp [walkField, walkItem, own]
  | .model _ fs, h => simp [walkField, walkItem, own]
  | .syncMap es, h =>
    rw [Good] at h
    simp [walkField, walkItem, own, entries_own es h]
theorem fields_own (fs : Fields) (h : GoodFields NotModel fs) :
    walkFields ⟨true, false, false⟩ fs = some ((ownFields fs).map Ev.param) := by
  match fs, h with
  | .nil, _ => simp [walkFields, ownFields]
  | .cons true v rest, h =>
    rw [GoodFields] at h
    simp [walkFields, ownFields, field_own v (h.1 rfl), fields_own rest h.2]
  | .cons false v rest, h =>
    rw [GoodFields] at h
    simp [walkFields, ownFields, fields_own rest h.2]
theorem vals_own (l : Vals) (h : GoodVals NotModel l) :
    walkSeq ⟨true, false, false⟩ l = some ((ownVals l).map Ev.param) := by
  match l, h with
  | .nil, _ => simp [walkSeq, ownVals]
  | .cons v rest, h =>
    rw [GoodVals] at h
    simp [walkSeq, ownVals, item_own v h.1, vals_own rest h.2]
theorem entries_own (l : Entries) (h : GoodEntries NotModel l) :
    walkEntries ⟨true, false, false⟩ l = some ((ownEntries l).map Ev.param) := by
  match l, h with
  | .nil, _ => simp [walkEntries, ownEntries]
  | .cons .str v rest, h =>
    rw [GoodEntries] at h
    simp [walkEntries, ownEntries, item_own v h.2.1, entries_own rest h.2.2]
  | .cons .int v rest, h =>
    rw [GoodEntries] at h
    simp [walkEntries, ownEntries, item_own v h.2.1, entries_own rest h.2.2]
  | .cons .other v rest, h => rw [GoodEntries] at h; exact absurd rfl h.1
end

/-- C30: `ForEachParamStrict` calls the function once for each parameter outside nested models, under the same
condition and if no nested model has its own traversal. -/
theorem forEachParamStrict_partial (i : Nat) (fs : Fields) (h : GoodFields NotModel fs) :
    forEachParamStrict (.model i fs) = some ((ownFields fs).map Ev.param) := by
  rw [forEachParamStrict, walk, fields_own fs h]

/-! ## Apply -/

mutual
theorem item_models (v : Val) (h : Item NoSubs v) :
    walkItem ⟨false, true, true⟩ v = some ((models v).map Ev.model, true) := by
  match v, h with
  | .module, _ => simp [walkItem, models]
  | .param _, _ => simp [walkItem, models]
  | .traverser _ true ps [], _ => simp [walkItem, models]
  | .traverser _ false ps [], _ => simp [walkItem, models]
  | .model _ fs, h =>
    rw [Item] at h
    simp [walkItem, models, fields_models fs h]
  | .syncMap es, h =>
    rw [Item] at h
    simp [walkItem, models, entries_models es h]
theorem field_models (v : Val) (h : Good NoSubs v) :
    walkField ⟨false, true, true⟩ v = some ((models v).map Ev.model) := by
  match v, h with
  | .seq l, h => rw [Good] at h; simp [walkField, models, vals_models l h]
  | .map es, h => rw [Good] at h; simp [walkField, models, entries_models es h]
  | .nilPtr, _ => simp [walkField, models]
  | .nilIface, _ => simp [walkField, walkItem, models]
  | .foreign, _ => simp [walkField, walkItem, models]
  | .other, _ => simp [walkField, models]
  | .module, _ => simp [walkField, walkItem, models]
  | .param _, _ => simp [walkField, walkItem, models]
  | .traverser _ true ps [], _ => simp [walkField, walkItem, models]
  | .traverser _ false ps [], _ => simp [walkField, walkItem, models]
  | .model _ fs, h =>
    rw [Good] at h
    simp [walkField, walkItem, models, fields_models fs h]
  | .syncMap es, h =>
    rw [Good] at h
    simp [walkField, walkItem, models, entries_models es h]
theorem fields_models (fs : Fields) (h : GoodFields NoSubs fs) :
    walkFields ⟨false, true, true⟩ fs = some ((modelsFields fs).map Ev.model) := by
  match fs, h with
  | .nil, _ => simp [walkFields, modelsFields]
  | .cons true v rest, h =>
    rw [GoodFields] at h
    simp [walkFields, modelsFields, field_models v (h.1 rfl), fields_models rest h.2]
  | .cons false v rest, h =>
    rw [GoodFields] at h
    simp [walkFields, modelsFields, fields_models rest h.2]
theorem vals_models (l : Vals) (h : GoodVals NoSubs l) :
    walkSeq ⟨false, true, true⟩ l = some ((modelsVals l).map Ev.model) := by
  match l, h with
  | .nil, _ => simp [walkSeq, modelsVals]
  | .cons v rest, h =>
    rw [GoodVals] at h
    simp [walkSeq, modelsVals, item_models v h.1, vals_models rest h.2]
theorem entries_models (l : Entries) (h : GoodEntries NoSubs l) :
    walkEntries ⟨false, true, true⟩ l = some ((modelsEntries l).map Ev.model) := by
  match l, h with
  | .nil, _ => simp [walkEntries, modelsEntries]
  | .cons .str v rest, h =>
    rw [GoodEntries] at h
    simp [walkEntries, modelsEntries, item_models v h.2.1, entries_models rest h.2.2]
  | .cons .int v rest, h =>
    rw [GoodEntries] at h
    simp [walkEntries, modelsEntries, item_models v h.2.1, entries_models rest h.2.2]
  | .cons .other v rest, h => rw [GoodEntries] at h; exact absurd rfl h.1
end

/-- C30: `Apply` calls the function once for the model and for each nested model, outer ones first, under the same
condition and if the values with their own traversal contain no further models. -/
theorem apply_partial (i : Nat) (fs : Fields) (h : GoodFields NoSubs fs) :
    apply (.model i fs) = some ((models (.model i fs)).map Ev.model) := by
  simp [apply, idOf, walk, models, fields_models fs h]

/-! ## Without the condition -/

mutual
theorem item_sub (v : Val) {r : List Ev × Bool} (h : walkItem ⟨true, false, true⟩ v = some r) :
    r.1.Sublist ((params v).map Ev.param) := by
  match v with
  | .module => simp [walkItem] at h; subst h; simp
  | .param _ => simp [walkItem] at h; subst h; simp [params]
  | .traverser _ _ none _ => simp [walkItem] at h
  | .traverser _ _ (some ps) _ => simp [walkItem] at h; subst h; simp [params]
  | .model _ fs =>
    simp only [walkItem, if_true, Option.bind_eq_bind, Option.bind_eq_some_iff] at h
    obtain ⟨t, ht, h⟩ := h
    obtain rfl := Option.some.inj h
    simpa [params] using fields_sub fs ht
  | .syncMap es =>
    simp only [walkItem, Option.bind_eq_bind, Option.bind_eq_some_iff] at h
    obtain ⟨t, ht, h⟩ := h
    obtain rfl := Option.some.inj h
    simpa [params] using entries_sub es ht
  | .seq _ => simp [walkItem] at h; subst h; simp
  | .map _ => simp [walkItem] at h; subst h; simp
  | .nilPtr => simp [walkItem] at h; subst h; simp
  | .nilIface => simp [walkItem] at h; subst h; simp
  | .foreign => simp [walkItem] at h; subst h; simp
  | .other => simp [walkItem] at h; subst h; simp
theorem fields_sub (fs : Fields) {t : List Ev} (h : walkFields ⟨true, false, true⟩ fs = some t) :
    t.Sublist ((paramsFields fs).map Ev.param) := by
  match fs with
  | .nil => simp [walkFields] at h; subst h; simp
  | .cons false v rest =>
    simp only [walkFields, Bool.false_eq_true, if_false] at h
    simpa [paramsFields] using fields_sub rest h
  | .cons true v rest =>
    simp only [walkFields, if_true, Option.bind_eq_bind, Option.bind_eq_some_iff] at h
    obtain ⟨a, ha, b, hb, h⟩ := h
    obtain rfl := Option.some.inj h
    simp only [paramsFields, if_true, List.map_append]
    refine List.Sublist.append ?_ (fields_sub rest hb)
    have item : ∀ {a : List Ev}, (do let r ← walkItem ⟨true, false, true⟩ v; some r.1) = some a →
        a.Sublist ((params v).map Ev.param) := by
      intro a ha
      simp only [Option.bind_eq_bind, Option.bind_eq_some_iff] at ha
      obtain ⟨r, hr, ha⟩ := ha
      obtain rfl := Option.some.inj ha
      exact item_sub v hr
    match v with
    | .seq l => rw [walkField] at ha; rw [params]; exact vals_sub l ha
    | .map es => rw [walkField] at ha; rw [params]; exact entries_sub es ha
    | .nilPtr => simp [walkField] at ha; subst ha; simp
    | .other => simp [walkField] at ha; subst ha; simp
    | .module => exact item (by rw [walkField] at ha <;> simp_all)
    | .param _ => exact item (by rw [walkField] at ha <;> simp_all)
    | .traverser _ _ _ _ => exact item (by rw [walkField] at ha <;> simp_all)
    | .model _ _ => exact item (by rw [walkField] at ha <;> simp_all)
    | .syncMap _ => exact item (by rw [walkField] at ha <;> simp_all)
    | .nilIface => exact item (by rw [walkField] at ha <;> simp_all)
    | .foreign => exact item (by rw [walkField] at ha <;> simp_all)
theorem vals_sub (l : Vals) {t : List Ev} (h : walkSeq ⟨true, false, true⟩ l = some t) :
    t.Sublist ((paramsVals l).map Ev.param) := by
  match l with
  | .nil => simp [walkSeq] at h; subst h; simp
  | .cons v rest =>
    simp only [walkSeq, Option.bind_eq_bind, Option.bind_eq_some_iff] at h
    obtain ⟨r, hr, h⟩ := h
    have := item_sub v hr
    simp only [paramsVals, List.map_append]
    split at h
    · simp only [Option.bind_eq_some_iff] at h
      obtain ⟨u, hu, h⟩ := h
      obtain rfl := Option.some.inj h
      exact this.append (vals_sub rest hu)
    · obtain rfl := Option.some.inj h
      exact this.trans (List.sublist_append_left _ _)
theorem entries_sub (l : Entries) {t : List Ev} (h : walkEntries ⟨true, false, true⟩ l = some t) :
    t.Sublist ((paramsEntries l).map Ev.param) := by
  match l with
  | .nil => simp [walkEntries] at h; subst h; simp
  | .cons .other v rest => simp [walkEntries] at h; subst h; simp
  | .cons .str v rest =>
    simp only [walkEntries, Option.bind_eq_bind, Option.bind_eq_some_iff] at h
    obtain ⟨r, hr, h⟩ := h
    have := item_sub v hr
    simp only [paramsEntries, List.map_append]
    split at h
    · simp only [Option.bind_eq_some_iff] at h
      obtain ⟨u, hu, h⟩ := h
      obtain rfl := Option.some.inj h
      exact this.append (entries_sub rest hu)
    · obtain rfl := Option.some.inj h
      exact this.trans (List.sublist_append_left _ _)
  | .cons .int v rest =>
    simp only [walkEntries, Option.bind_eq_bind, Option.bind_eq_some_iff] at h
    obtain ⟨r, hr, h⟩ := h
    have := item_sub v hr
    simp only [paramsEntries, List.map_append]
    split at h
    · simp only [Option.bind_eq_some_iff] at h
      obtain ⟨u, hu, h⟩ := h
      obtain rfl := Option.some.inj h
      exact this.append (entries_sub rest hu)
    · obtain rfl := Option.some.inj h
      exact this.trans (List.sublist_append_left _ _)
end

/-- C30: whatever the structure, `ForEachParam` visits nothing but parameters of the model, in order, and none more
often than it occurs. -/
theorem forEachParam_sublist (m : Val) {t : List Ev} (h : forEachParam m = some t) :
    t.Sublist ((params m).map Ev.param) := by
  match m with
  | .model _ fs => rw [forEachParam, walk] at h; rw [params]; exact fields_sub fs h
  | .traverser _ _ none _ => simp [forEachParam, walk] at h
  | .traverser _ _ (some l) _ => simp [forEachParam, walk] at h; subst h; simp [params]
  | .module => simp [forEachParam, walk] at h
  | .param _ => simp [forEachParam, walk] at h
  | .syncMap _ => simp [forEachParam, walk] at h
  | .seq _ => simp [forEachParam, walk] at h
  | .map _ => simp [forEachParam, walk] at h
  | .nilPtr => simp [forEachParam, walk] at h
  | .nilIface => simp [forEachParam, walk] at h
  | .foreign => simp [forEachParam, walk] at h
  | .other => simp [forEachParam, walk] at h

/-- The elements of a slice, from a list. -/
def Vals.ofList : List Val → Vals
  | [] => .nil
  | v :: l => .cons v (ofList l)

/-- The entries of a map, from a list. -/
def Entries.ofList : List (Key × Val) → Entries
  | [] => .nil
  | (k, v) :: l => .cons k v (ofList l)

/-- The fields of a struct, all exported, from a list. -/
def Fields.ofList : List Val → Fields
  | [] => .nil
  | v :: l => .cons true v (ofList l)

/-- The values on which `walkStructOrPtr` gives up. -/
def Stops : Val → Prop
  | .seq _ | .map _ | .nilPtr | .nilIface | .foreign | .other => True
  | _ => False

/-- The general violation: whatever stands in a slice after a nil, a foreign value or a nested slice is not visited,
and neither is the nested slice. -/
theorem seq_stops (c : Cfg) (l : List Val) (bad : Val) (hb : Stops bad) (rest : List Val) :
    walkSeq c (.ofList (l ++ bad :: rest)) = walkSeq c (.ofList l) := by
  induction l with
  | nil =>
    have : walkItem c bad = some ([], false) := by
      cases bad <;> simp_all [Stops, walkItem]
    simp [Vals.ofList, walkSeq, this]
  | cons a l ih => simp only [List.cons_append, Vals.ofList, walkSeq, ih]

/-- C30 fails for slices: the parameters after a nil element are lost. -/
theorem forEachParam_loses (i : Nat) (bad : Val) (hb : Stops bad) (rest : List Val) :
    forEachParam (.model i (.ofList [.seq (.ofList (bad :: rest))])) = some [] := by
  have := seq_stops ⟨true, false, true⟩ [] bad hb rest
  simp only [List.nil_append] at this
  simp only [forEachParam, walk, Fields.ofList, walkFields, walkField, this, if_true]
  simp [Vals.ofList, walkSeq]

/-- C30 fails for maps: which parameters are visited depends on the order in which the map is iterated. -/
theorem map_order_matters : ∃ e1 e2 : List (Key × Val), e1.Perm e2 ∧
    forEachParam (.model 0 (.ofList [.map (.ofList e1)])) = some [.param 7] ∧
    forEachParam (.model 0 (.ofList [.map (.ofList e2)])) = some [] :=
  ⟨[(.str, .param 7), (.str, .nilPtr)], [(.str, .nilPtr), (.str, .param 7)], List.Perm.swap .. |>.symm |>.symm, by
    simp [forEachParam, walk, Fields.ofList, Entries.ofList, walkFields, walkField, walkEntries, walkItem], by
    simp [forEachParam, walk, Fields.ofList, Entries.ofList, walkFields, walkField, walkEntries, walkItem]⟩

theorem paramsEntries_ofList (l : List (Key × Val)) :
    paramsEntries (.ofList l) = l.flatMap fun e => params e.2 := by
  induction l with
  | nil => simp [Entries.ofList, paramsEntries]
  | cons e l ih => obtain ⟨k, v⟩ := e; simp [Entries.ofList, paramsEntries, ih]

theorem goodEntries_ofList (P : TProp) (l : List (Key × Val)) :
    GoodEntries P (.ofList l) ↔ ∀ e ∈ l, e.1 ≠ .other ∧ Item P e.2 := by
  induction l with
  | nil => simp [Entries.ofList, GoodEntries]
  | cons e l ih => obtain ⟨k, v⟩ := e; simp [Entries.ofList, GoodEntries, ih, and_assoc]

/-- C30 for maps: under the condition the same parameters are visited, equally often, in whatever order the map is
iterated. -/
theorem map_order {e1 e2 : List (Key × Val)} (hp : e1.Perm e2) (h : ∀ e ∈ e1, e.1 ≠ .other ∧ Item Works e.2) :
    ∃ t1 t2, walkEntries ⟨true, false, true⟩ (.ofList e1) = some t1 ∧
      walkEntries ⟨true, false, true⟩ (.ofList e2) = some t2 ∧ t1.Perm t2 := by
  refine ⟨_, _, entries_params _ ((goodEntries_ofList _ _).mpr h),
    entries_params _ ((goodEntries_ofList _ _).mpr fun e he => h e (hp.mem_iff.mpr he)), ?_⟩
  rw [paramsEntries_ofList, paramsEntries_ofList]
  exact (hp.flatMap_right _).map _

/-- C30 fails for strict traversal: the parameters of a nested model with its own traversal are visited although
they are not the outer model's own. -/
theorem strict_visits_nested (i j : Nat) (ps : List Nat) (subs : List Nat) :
    forEachParamStrict (.model i (.ofList [.traverser j true (some ps) subs])) = some (ps.map Ev.param) ∧
      ownFields (.ofList [.traverser j true (some ps) subs]) = [] := by
  simp [forEachParamStrict, walk, Fields.ofList, walkFields, walkField, walkItem, ownFields, own]

/-- C30 fails for `Apply` on a model with its own traversal: it panics as soon as there is a parameter to visit,
because the function passed for parameters is nil. -/
theorem apply_panics (i : Nat) (isModel : Bool) (p : Nat) (ps subs : List Nat) :
    apply (.traverser i isModel (some (p :: ps)) subs) = none := by
  simp [apply, idOf, walk]

/-- `Apply` visits a model with its own traversal if it has no parameters of its own. -/
theorem apply_traverser (i : Nat) (isModel : Bool) (subs : List Nat) :
    apply (.traverser i isModel (some []) subs) = some [.model i] := by
  simp [apply, idOf, walk]

/-- C30 fails for `Apply`: models inside a nested value with its own traversal are not visited. -/
theorem apply_misses (i j k : Nat) (ps : Option (List Nat)) :
    apply (.model i (.ofList [.traverser j true ps [k]])) = some [.model i, .model j] ∧
      models (.model i (.ofList [.traverser j true ps [k]])) = [i, j, k] := by
  simp [apply, idOf, walk, Fields.ofList, walkFields, walkField, walkItem, models, modelsFields]

/-- A model that contains an `embedding.Shared` without a model (as after loading) makes `ForEachParam` panic. -/
theorem shared_panics (i j : Nat) (isModel : Bool) (subs : List Nat) :
    forEachParam (.model i (.ofList [.traverser j isModel none subs])) = none := by
  simp [forEachParam, walk, Fields.ofList, walkFields, walkField, walkItem]

/-! ## ZeroGrad, ModuleList and the parameter channels -/

theorem foldl_zero (l : List Nat) (g : Nat → Bool) (j : Nat) :
    ((l.map Ev.param).foldl (fun g e => match e with
      | .param i => fun j => if j = i then false else g j
      | .model _ => g) g) j = if j ∈ l then false else g j := by
  induction l generalizing g with
  | nil => simp
  | cons a l ih =>
    rw [List.map_cons, List.foldl_cons, ih]
    by_cases h1 : j ∈ l
    · simp [h1]
    · by_cases h2 : j = a <;> simp [h1, h2]

/-- C30: after `ZeroGrad` none of the model's parameters has a gradient; the others are as before. -/
theorem zeroGrad_partial (i : Nat) (fs : Fields) (h : GoodFields Works fs) (g : Nat → Bool) :
    ∃ g', zeroGrad (.model i fs) g = some g' ∧
      ∀ j, g' j = if j ∈ params (.model i fs) then false else g j := by
  refine ⟨_, by rw [zeroGrad, forEachParam_partial i fs h]; rfl, fun j => foldl_zero _ g j⟩

/-- C30: the output of a list of modules is the last module's output on the output of the others. -/
theorem moduleList_append {X : Type} (a b : List (X → Option X)) (x : X) :
    moduleList (a ++ b) x = (moduleList a x).bind (moduleList b) := by
  simp only [moduleList, List.foldlM_append]
  rfl

theorem moduleList_one {X : Type} (f : X → Option X) (x : X) : moduleList [] x = some x ∧ moduleList [f] x = f x := by
  simp [moduleList]

/-- C30: while the context is not done, both channels deliver every parameter once and in order. -/
theorem channels_complete (ps : List Nat) (ss : List Select) (hl : ss.length = ps.length)
    (h : ∀ s ∈ ss, s = .sent) : parametersChan ps ss = ps ∧ streamParams ps ss = ps := by
  induction ps generalizing ss with
  | nil => cases ss <;> simp_all [parametersChan, streamParams]
  | cons p ps ih =>
    cases ss with
    | nil => simp at hl
    | cons s ss =>
      obtain rfl := h s (by simp)
      have := ih ss (by simpa using hl) fun s hs => h s (by simp [hs])
      simp [parametersChan, streamParams, this]

/-- C30: the channel of `StreamParams` always delivers an initial segment of the parameters. -/
theorem streamParams_prefix (ps : List Nat) (ss : List Select) : streamParams ps ss <+: ps := by
  induction ps generalizing ss with
  | nil => cases ss <;> simp [streamParams]
  | cons p ps ih =>
    cases ss with
    | nil => simp [streamParams]
    | cons s ss => cases s <;> simp [streamParams, List.cons_prefix_cons, ih]

/-- C30: the channel of `Parameters` delivers parameters in order, none twice ... -/
theorem parametersChan_sublist (ps : List Nat) (ss : List Select) : (parametersChan ps ss).Sublist ps := by
  induction ps generalizing ss with
  | nil => cases ss <;> simp [parametersChan]
  | cons p ps ih =>
    cases ss with
    | nil => simp [parametersChan]
    | cons s ss =>
      cases s
      · exact (ih ss).cons_cons p
      · exact (ih ss).cons p

/-- ... but, for every model with two parameters or more, possibly one after the cancellation, having left out an
earlier one. -/
theorem parametersChan_skips (p q : Nat) (hpq : p ≠ q) (ps : List Nat) :
    ∃ ss, ¬ parametersChan (p :: q :: ps) ss <+: p :: q :: ps :=
  ⟨[.done, .sent], by simp [parametersChan, List.cons_prefix_cons, hpq.symm]⟩

/-! ## Examples -/

/-- A model with a slice of layers, a map of parameters, an unexported field and a nil pointer. -/
def sample : Fields :=
  .cons true .module <| .cons true (.seq (.ofList [.model 1 (.ofList [.module, .param 10, .param 11]),
    .model 2 (.ofList [.param 12])])) <| .cons false (.param 99) <| .cons true .nilPtr <|
  .cons true (.map (.ofList [(.str, .param 13), (.int, .traverser 3 false (some [14, 15]) [])])) .nil

example : GoodFields Works sample ∧ GoodFields NotModel sample ∧ GoodFields NoSubs sample := by
  simp [sample, GoodFields, Good, GoodVals, GoodEntries, Item, Vals.ofList, Entries.ofList, Fields.ofList, Works, NotModel,
    NoSubs]

example : params (.model 0 sample) = [10, 11, 12, 13, 14, 15] ∧ ownFields sample = [13, 14, 15] ∧
    models (.model 0 sample) = [0, 1, 2] := by
  simp [sample, params, paramsFields, paramsVals, paramsEntries, own, ownFields, ownVals, ownEntries, models, modelsFields,
    modelsVals, modelsEntries, Vals.ofList, Entries.ofList, Fields.ofList]

end Verif.Traversal
