import Verif.Props.Safe

set_option autoImplicit false
set_option linter.unusedSimpArgs false

/-!
# C67: every program of the listed operators gets its derivatives
-/

namespace Verif.Tape
open GradFn Backward Dense
open scoped BigOperators Topology

theorem getD_eq {α : Type} {l : List α} {i : Nat} {a d : α} (h : l[i]? = some a) : l.getD i d = a := by
  rw [List.getD_eq_getElem?_getD, h]; rfl

theorem get_of_getD {α : Type} {l : List α} {i : Nat} (d : α) (h : i < l.length) : l[i]? = some (l.getD i d) := by
  rw [List.getD_eq_getElem?_getD, List.getElem?_eq_getElem h]; rfl

/-- A run as a system of equations. -/
theorem run_iff (θ : Nat → Dense ℝ) : ∀ (P : List Instr) (pre vals : List (Dense ℝ)),
    run θ P pre = some vals ↔ vals.length = pre.length + P.length ∧ vals.take pre.length = pre ∧
      ∀ (i : Nat) ins, P[i]? = some ins → step θ (vals.take (pre.length + i)) ins = vals[pre.length + i]?
  | [], pre, vals => by
    constructor
    · intro h
      obtain rfl := Option.some.inj h
      simp
    · rintro ⟨h1, h2, -⟩
      have : pre = vals := by rw [← h2, List.take_of_length_le (by simp [h1])]
      rw [this]; rfl
  | i0 :: is, pre, vals => by
    simp only [run, Option.bind_eq_bind, Option.bind_eq_some_iff]
    constructor
    · rintro ⟨v, hv, h⟩
      obtain ⟨h1, h2, h3⟩ := (run_iff θ is _ vals).mp h
      simp only [List.length_append, List.length_cons, List.length_nil, Nat.zero_add] at h1 h2 h3
      have h4 : vals.take pre.length = pre := by
        have := congrArg (List.take pre.length) h2
        rw [List.take_take, min_eq_left (Nat.le_succ _), List.take_left'] at this
        · exact this
        · rfl
      have h5 : vals[pre.length]? = some v := by
        have := congrArg (·[pre.length]?) h2
        rw [List.getElem?_take_of_lt (Nat.lt_succ_self _)] at this
        rw [this]; simp
      refine ⟨by simp only [List.length_cons]; omega, h4, ?_⟩
      intro i ins hi
      cases i with
      | zero =>
        obtain rfl := Option.some.inj hi
        rw [Nat.add_zero, h4, h5, hv]
      | succ i =>
        have := h3 i ins (by simpa using hi)
        rwa [show pre.length + 1 + i = pre.length + (i + 1) by omega] at this
    · rintro ⟨h1, h2, h3⟩
      have h4 := h3 0 i0 rfl
      rw [Nat.add_zero, h2] at h4
      have hlt : pre.length < vals.length := by rw [h1, List.length_cons]; omega
      rw [List.getElem?_eq_getElem hlt] at h4
      refine ⟨_, h4, (run_iff θ is _ vals).mpr ⟨?_, ?_, ?_⟩⟩
      · rw [h1]; simp only [List.length_append, List.length_cons, List.length_nil]; omega
      · simp only [List.length_append, List.length_cons, List.length_nil, Nat.zero_add]
        rw [List.take_add_one, h2, List.getElem?_eq_getElem hlt]; rfl
      · intro i ins hi
        simp only [List.length_append, List.length_cons, List.length_nil, Nat.zero_add]
        have := h3 (i + 1) ins (by simpa using hi)
        rwa [show pre.length + (i + 1) = pre.length + 1 + i by omega] at this

theorem mapM_get {vals : List (Dense ℝ)} {c : Nat} (hc : c ≤ vals.length) : ∀ (args : List Nat) (xs : List (Dense ℝ)),
    args.mapM (fun j => (vals.take c)[j]?) = some xs ↔
      (∀ j ∈ args, j < c) ∧ xs = args.map fun j => vals.getD j ⟨0, 0, []⟩
  | [], xs => by
    simp only [List.mapM_nil, Option.pure_def, List.map_nil]
    constructor
    · intro h; exact ⟨by simp, (Option.some.inj h).symm⟩
    · rintro ⟨-, rfl⟩; rfl
  | a :: args, xs => by
    simp only [List.mapM_cons, Option.bind_eq_bind, Option.bind_eq_some_iff, Option.pure_def]
    constructor
    · rintro ⟨v, hv, ys, hys, h⟩
      obtain rfl := Option.some.inj h
      obtain ⟨h1, rfl⟩ := (mapM_get hc args ys).mp hys
      have ha : a < c := by
        by_contra hn
        rw [List.getElem?_take_eq_none (by omega)] at hv; cases hv
      rw [List.getElem?_take_of_lt ha] at hv
      refine ⟨fun j hj => ?_, by rw [List.map_cons, getD_eq hv]⟩
      rcases List.mem_cons.mp hj with rfl | hj
      · exact ha
      · exact h1 j hj
    · rintro ⟨h1, rfl⟩
      have ha := h1 a (by simp)
      exact ⟨vals.getD a ⟨0, 0, []⟩, by
        rw [List.getElem?_take_of_lt ha]; exact get_of_getD _ (by omega), _,
        (mapM_get hc args _).mpr ⟨fun j hj => h1 j (by simp [hj]), rfl⟩, rfl⟩

/-- What holds of the values of a program that ran. -/
structure Ran (θ : Nat → Dense ℝ) (P : List Instr) (vals : List (Dense ℝ)) : Prop where
  len : vals.length = P.length
  leaf : ∀ (c : Nat) b, P[c]? = some (.leaf b) → vals.getD c ⟨0, 0, []⟩ = θ c
  const : ∀ (c : Nat) v, P[c]? = some (.const v) → vals.getD c ⟨0, 0, []⟩ = v
  stop : ∀ (c j : Nat), P[c]? = some (.stop j) → j < c ∧ vals.getD c ⟨0, 0, []⟩ = vals.getD j ⟨0, 0, []⟩
  args : ∀ (c : Nat) f as, P[c]? = some (.call f as) → ∀ j ∈ as, j < c
  call : ∀ (c : Nat) f as, P[c]? = some (.call f as) →
    f.forward (as.map fun j => vals.getD j ⟨0, 0, []⟩) = some (vals.getD c ⟨0, 0, []⟩)

theorem ran_iff {θ : Nat → Dense ℝ} {P : List Instr} {vals : List (Dense ℝ)} :
    run θ P [] = some vals ↔ Ran θ P vals := by
  rw [run_iff]
  simp only [List.length_nil, Nat.zero_add, List.take_zero, true_and]
  constructor
  · rintro ⟨hl, h⟩
    have hlt : ∀ {c : Nat} {ins}, P[c]? = some ins → c < vals.length := fun hc => by
      rw [hl]; exact (List.getElem?_eq_some_iff.mp hc).1
    refine ⟨hl, ?_, fun c v hc => getD_eq (h c _ hc).symm, ?_, ?_, ?_⟩
    · intro c b hc
      have := h c _ hc
      rw [step, List.length_take, min_eq_left (hlt hc).le] at this
      exact getD_eq this.symm
    · intro c j hc
      have := h c _ hc
      rw [step, get_of_getD ⟨0, 0, []⟩ (hlt hc)] at this
      have hj : j < c := by
        by_contra hn
        rw [List.getElem?_take_eq_none (by omega)] at this; cases this
      rw [List.getElem?_take_of_lt hj] at this
      exact ⟨hj, (getD_eq this).symm⟩
    · intro c f as hc
      have := h c _ hc
      rw [get_of_getD ⟨0, 0, []⟩ (hlt hc)] at this
      simp only [step, Option.bind_eq_bind, Option.bind_eq_some_iff] at this
      obtain ⟨xs, hxs, -⟩ := this
      exact ((mapM_get (hlt hc).le as xs).mp hxs).1
    · intro c f as hc
      have := h c _ hc
      rw [get_of_getD ⟨0, 0, []⟩ (hlt hc)] at this
      simp only [step, Option.bind_eq_bind, Option.bind_eq_some_iff] at this
      obtain ⟨xs, hxs, h2⟩ := this
      rwa [((mapM_get (hlt hc).le as xs).mp hxs).2] at h2
  · intro h
    refine ⟨h.len, ?_⟩
    intro c ins hc
    have hlt : c < vals.length := by rw [h.len]; exact (List.getElem?_eq_some_iff.mp hc).1
    rw [get_of_getD ⟨0, 0, []⟩ hlt]
    cases ins with
    | leaf b => rw [step, List.length_take, min_eq_left hlt.le, h.leaf c b hc]
    | const v => rw [step, h.const c v hc]
    | stop j =>
      obtain ⟨h1, h2⟩ := h.stop c j hc
      rw [step, List.getElem?_take_of_lt h1, h2]
      exact get_of_getD _ (by omega)
    | call f as =>
      simp only [step, Option.bind_eq_bind, Option.bind_eq_some_iff]
      exact ⟨_, (mapM_get hlt.le as _).mpr ⟨h.args c f as hc, rfl⟩, h.call c f as hc⟩

/-! ## Which tensors need gradients -/

/-- The flag of one tensor, given the flags before it. -/
def need1 (acc : List Bool) : Instr → Bool
  | .leaf b => b
  | .const _ => false
  | .stop _ => false
  | .call _ args => args.any fun j => acc.getD j false

theorem needs_cons (i : Instr) (is : List Instr) (acc : List Bool) : needs (i :: is) acc = needs is (acc ++ [need1 acc i]) := by
  cases i <;> rfl

theorem needs_spec : ∀ (P : List Instr) (acc : List Bool), (needs P acc).length = acc.length + P.length ∧
    (needs P acc).take acc.length = acc ∧
    ∀ (i : Nat) ins, P[i]? = some ins →
      (needs P acc)[acc.length + i]? = some (need1 ((needs P acc).take (acc.length + i)) ins)
  | [], acc => by simp [needs]
  | i0 :: is, acc => by
    rw [needs_cons]
    obtain ⟨h1, h2, h3⟩ := needs_spec is (acc ++ [need1 acc i0])
    simp only [List.length_append, List.length_cons, List.length_nil, Nat.zero_add] at h1 h2 h3
    set vals := needs is (acc ++ [need1 acc i0]) with hv
    have h4 : vals.take acc.length = acc := by
      have := congrArg (List.take acc.length) h2
      rw [List.take_take, min_eq_left (Nat.le_succ _), List.take_left'] at this
      · exact this
      · rfl
    have h5 : vals[acc.length]? = some (need1 acc i0) := by
      have := congrArg (·[acc.length]?) h2
      rw [List.getElem?_take_of_lt (Nat.lt_succ_self _)] at this
      rw [this]; simp
    refine ⟨by simp only [List.length_cons]; omega, h4, ?_⟩
    intro i ins hi
    cases i with
    | zero =>
      obtain rfl := Option.some.inj hi
      rw [Nat.add_zero, h4, h5]
    | succ i =>
      have := h3 i ins (by simpa using hi)
      rwa [show acc.length + 1 + i = acc.length + (i + 1) by omega] at this

variable {P : List Instr} {θ : Nat → Dense ℝ} {vals : List (Dense ℝ)}

theorem needs_leaf {c : Nat} {b : Bool} (h : P[c]? = some (.leaf b)) : (needs P []).getD c false = b := by
  have := (needs_spec P []).2.2 c _ h
  simp only [List.length_nil, Nat.zero_add] at this
  exact getD_eq this

theorem needs_const {c : Nat} {v : Dense ℝ} (h : P[c]? = some (.const v)) : (needs P []).getD c false = false := by
  have := (needs_spec P []).2.2 c _ h
  simp only [List.length_nil, Nat.zero_add] at this
  exact getD_eq this

theorem needs_stop {c j : Nat} (h : P[c]? = some (.stop j)) : (needs P []).getD c false = false := by
  have := (needs_spec P []).2.2 c _ h
  simp only [List.length_nil, Nat.zero_add] at this
  exact getD_eq this

theorem any_congr' {α : Type} {l : List α} {f g : α → Bool} (h : ∀ a ∈ l, f a = g a) : l.any f = l.any g := by
  induction l with
  | nil => rfl
  | cons a l ih => rw [List.any_cons, List.any_cons, h a (by simp), ih fun b hb => h b (by simp [hb])]

theorem needs_call (hr : Ran θ P vals) {c : Nat} {f : GradFn ℝ} {as : List Nat} (h : P[c]? = some (.call f as)) :
    (needs P []).getD c false = as.any fun j => (needs P []).getD j false := by
  have := (needs_spec P []).2.2 c _ h
  simp only [List.length_nil, Nat.zero_add] at this
  rw [getD_eq this]
  refine any_congr' fun j hj => ?_
  rw [List.getD_eq_getElem?_getD, List.getElem?_take_of_lt (hr.args c f as h j hj), ← List.getD_eq_getElem?_getD]

/-! ## The graph -/

theorem get_fin (x : Fin P.length) : P[x.val]? = some P[x] := List.getElem?_eq_getElem x.isLt

theorem fins_get {n : Nat} : ∀ (args : List Nat), (∀ j ∈ args, j < n) → (fins n args).map Fin.val = args
  | [], _ => rfl
  | a :: args, h => by
    have ha : a < n := h a (by simp)
    have : fins n (a :: args) = ⟨a, ha⟩ :: fins n args := by simp [fins, ha]
    rw [this, List.map_cons, fins_get args fun j hj => h j (by simp [hj])]

theorem node_leaf {x : Fin P.length} {b : Bool} (h : P[x.val]? = some (.leaf b)) : (graph P).node x = .leaf b := by
  have e : P[x] = .leaf b := Option.some.inj ((get_fin x).symm.trans h)
  simp only [graph, e]

theorem node_const {x : Fin P.length} {v : Dense ℝ} (h : P[x.val]? = some (.const v)) : (graph P).node x = .leaf false := by
  have e : P[x] = .const v := Option.some.inj ((get_fin x).symm.trans h)
  simp only [graph, e]

theorem node_stop {x : Fin P.length} {j : Nat} (h : P[x.val]? = some (.stop j)) (hj : j < P.length) :
    (graph P).node x = .blocker ⟨j, hj⟩ := by
  have e : P[x] = .stop j := Option.some.inj ((get_fin x).symm.trans h)
  simp only [graph, e, dif_pos hj]

theorem node_call {x : Fin P.length} {f : GradFn ℝ} {as : List Nat} (h : P[x.val]? = some (.call f as)) :
    (graph P).node x = .op (fins P.length as) := by
  have e : P[x] = .call f as := Option.some.inj ((get_fin x).symm.trans h)
  simp only [graph, e]

theorem fns_call {x : Fin P.length} {f : GradFn ℝ} {as : List Nat} (h : P[x.val]? = some (.call f as)) :
    fns P x = f := by
  have e : P[x] = .call f as := Option.some.inj ((get_fin x).symm.trans h)
  simp only [fns, e]

theorem isOp_call (hr : Ran θ P vals) {x : Fin P.length} (h : (graph P).isOp x = true) :
    ∃ f as, P[x.val]? = some (.call f as) := by
  cases e : P[x] with
  | call f as => exact ⟨f, as, (get_fin x).trans (congrArg some e)⟩
  | leaf b =>
    rw [Graph.isOp, node_leaf ((get_fin x).trans (congrArg some e))] at h; simp at h
  | const v =>
    rw [Graph.isOp, node_const ((get_fin x).trans (congrArg some e))] at h; simp at h
  | stop j =>
    have hs := (get_fin x).trans (congrArg some e)
    rw [Graph.isOp, node_stop hs ((hr.stop _ _ hs).1.trans x.isLt)] at h; simp at h

theorem operands_call {x : Fin P.length} {f : GradFn ℝ} {as : List Nat} (h : P[x.val]? = some (.call f as)) :
    (graph P).operands x = fins P.length as := by
  rw [Graph.operands, node_call h]

theorem args_lt (hr : Ran θ P vals) {x : Fin P.length} {f : GradFn ℝ} {as : List Nat}
    (h : P[x.val]? = some (.call f as)) : ∀ j ∈ as, j < P.length :=
  fun j hj => (hr.args _ f as h j hj).trans x.isLt

theorem acyclic (hr : Ran θ P vals) : (graph P).Acyclic := by
  intro x o ho
  cases e : (graph P).isOp x with
  | true =>
    obtain ⟨f, as, h⟩ := isOp_call hr e
    rw [operands_call h] at ho
    have : o.val ∈ (fins P.length as).map Fin.val := List.mem_map_of_mem ho
    rw [fins_get _ (args_lt hr h)] at this
    exact hr.args _ f as h _ this
  | false =>
    rw [Graph.operands] at ho
    cases hn : (graph P).node x with
    | op os => rw [Graph.isOp, hn] at e; simp at e
    | leaf b => rw [hn] at ho; simp at ho
    | blocker b => rw [hn] at ho; simp at ho

theorem requiresGrad_needs (hr : Ran θ P vals) (x : Fin P.length) :
    (graph P).requiresGrad x = (needs P []).getD x false := by
  obtain ⟨k, hk⟩ := x
  induction k using Nat.strong_induction_on with
  | _ k ih =>
    rw [Graph.requiresGrad_eq (acyclic hr)]
    cases e : P[(⟨k, hk⟩ : Fin P.length)] with
    | leaf b =>
      have h := (get_fin ⟨k, hk⟩).trans (congrArg some e)
      rw [node_leaf h, needs_leaf h]
    | const v =>
      have h := (get_fin ⟨k, hk⟩).trans (congrArg some e)
      rw [node_const h, needs_const h]
    | stop j =>
      have h := (get_fin ⟨k, hk⟩).trans (congrArg some e)
      rw [node_stop h ((hr.stop _ _ h).1.trans hk), needs_stop h]
    | call f as =>
      have h := (get_fin ⟨k, hk⟩).trans (congrArg some e)
      rw [node_call h, needs_call hr h]
      simp only
      have e2 : as = (fins P.length as).map Fin.val := (fins_get as (args_lt hr h)).symm
      conv_rhs => rw [e2]
      rw [List.any_map]
      refine any_congr' fun o ho => ?_
      have hm : o.val ∈ as := by rw [e2]; exact List.mem_map_of_mem ho
      exact ih o.val (hr.args k f as h _ hm) o.isLt

theorem map_val (V : List (Dense ℝ)) {as : List Nat} (h : ∀ j ∈ as, j < P.length) :
    (fins P.length as).map (valOf V) = as.map fun j => V.getD j ⟨0, 0, []⟩ := by
  conv_rhs => rw [← fins_get as h]
  rw [List.map_map]; rfl

theorem evaluates (hr : Ran θ P vals) : Evaluates (graph P) (fns P) (valOf vals) := by
  intro c hc
  obtain ⟨f, as, h⟩ := isOp_call hr hc
  rw [operands_call h, fns_call h, map_val vals (args_lt hr h)]
  exact hr.call _ f as h

theorem act_iff (hr : Ran θ P vals) {x : Fin P.length} {f : GradFn ℝ} {as : List Nat}
    (h : P[x.val]? = some (.call f as)) (k : Nat) :
    (∃ o, ((graph P).operands x)[k]? = some o ∧ (graph P).requiresGrad o = true) ↔
      ∃ j, as[k]? = some j ∧ (needs P []).getD j false = true := by
  rw [operands_call h]
  have e : as = (fins P.length as).map Fin.val := (fins_get as (args_lt hr h)).symm
  constructor
  · rintro ⟨o, ho, hg⟩
    exact ⟨o.val, by rw [e, List.getElem?_map, ho]; rfl, by rw [← requiresGrad_needs hr]; exact hg⟩
  · rintro ⟨j, hj, hg⟩
    rw [e, List.getElem?_map, Option.map_eq_some_iff] at hj
    obtain ⟨o, ho, rfl⟩ := hj
    exact ⟨o, ho, by rw [requiresGrad_needs hr]; exact hg⟩

/-- All values are well-formed matrices. -/
theorem all_wf (hr : Ran θ P vals) (hd : DataWF P vals) (hs : AllSafe P vals) (x : Fin P.length) :
    (valOf vals x).WF := by
  obtain ⟨k, hk⟩ := x
  induction k using Nat.strong_induction_on with
  | _ k ih =>
    cases e : P[(⟨k, hk⟩ : Fin P.length)] with
    | leaf b => exact hd.leaf k b ((get_fin ⟨k, hk⟩).trans (congrArg some e))
    | const v =>
      have h := (get_fin ⟨k, hk⟩).trans (congrArg some e)
      show (vals.getD k ⟨0, 0, []⟩).WF
      rw [hr.const k v h]
      exact hd.const k v h
    | stop j =>
      have h := (get_fin ⟨k, hk⟩).trans (congrArg some e)
      have hj := hr.stop _ _ h
      show (vals.getD k ⟨0, 0, []⟩).WF
      rw [hj.2]
      exact ih j hj.1 (hj.1.trans hk)
    | call f as =>
      have h := (get_fin ⟨k, hk⟩).trans (congrArg some e)
      cases hn : (needs P []).getD k false with
      | false => exact hd.call k f as h hn
      | true =>
        have hw : ∀ d ∈ as.map (fun j => vals.getD j ⟨0, 0, []⟩), d.WF := by
          intro d hd'
          obtain ⟨j, hj, rfl⟩ := List.mem_map.mp hd'
          exact ih j (hr.args _ f as h j hj) (args_lt hr h j hj)
        exact wf_of_correctOn (safe_correctOn (hs k f as h hn) hw) hw (hr.call k f as h)

theorem opsCorrect (hr : Ran θ P vals) (hd : DataWF P vals) (hs : AllSafe P vals) :
    OpsCorrect (graph P) (fns P) (valOf vals) := by
  intro c hc hg
  obtain ⟨f, as, h⟩ := isOp_call hr hc
  rw [fns_call h]
  refine correctOn_mono (P := fun k => ∃ j, as[k]? = some j ∧ (needs P []).getD j false = true) ?_
    fun k => (act_iff hr h k).mp
  rw [operands_call h, map_val vals (args_lt hr h)]
  refine safe_correctOn (hs c f as h (by rw [← requiresGrad_needs hr]; exact hg)) ?_
  intro d hd'
  obtain ⟨j, hj, rfl⟩ := List.mem_map.mp hd'
  exact all_wf hr hd hs ⟨j, args_lt hr h j hj⟩

theorem serves_operand (hr : Ran θ P vals) (hd : DataWF P vals) (hs : AllSafe P vals) {c : Fin P.length}
    (hc : (graph P).isOp c = true) (hg : (graph P).requiresGrad c = true) {g : Nat → ℝ} {gs : List (Option (Dense ℝ))}
    (hb : (fns P c).backward (((graph P).operands c).map (valOf vals)) (ofVals (valOf vals c) g) = some gs) {k : Nat}
    {o : Fin P.length} (hk : ((graph P).operands c)[k]? = some o) (hro : (graph P).requiresGrad o = true) :
    ∃ d, gs[k]? = some (some d) := by
  obtain ⟨gs', h1, h2, -⟩ := opsCorrect hr hd hs c hc hg _ (evaluates hr c hc) (ofVals (valOf vals c) g)
    (ofVals_like (all_wf hr hd hs c) g)
  rw [hb] at h1
  obtain rfl := Option.some.inj h1
  obtain ⟨f, as, h⟩ := isOp_call hr hc
  have hlt : k < gs.length := by
    rw [h2.1, List.length_map]
    exact (List.getElem?_eq_some_iff.mp hk).1
  rw [fns_call h, operands_call h, map_val vals (args_lt hr h)] at hb
  exact safe_serves (hs c f as h (by rw [← requiresGrad_needs hr]; exact hg)) hb
    ((act_iff hr h k).mp ⟨o, hk, hro⟩) hlt

theorem delivers (hr : Ran θ P vals) (hd : DataWF P vals) (hs : AllSafe P vals) :
    Delivers (graph P) (fns P) (valOf vals) :=
  fun _ hc hg _ _ hb _ _ hk _ hro => serves_operand hr hd hs hc hg hb hk hro

/-- **C67, termination.** Backward of any outputs of such a program returns under every schedule. -/
theorem program_backward_returns (hrun : run θ P [] = some vals) (hd : DataWF P vals) (hs : AllSafe P vals)
    (xs : List (Fin P.length)) {s₀ : St P.length (Nat → ℝ)} (hcl : Clean (graph P) s₀) :
    Returns (graph P) (progFns (graph P) (fns P) (valOf vals)) xs s₀ :=
  have hr := ran_iff.mp hrun
  library_backward_returns (acyclic hr) (all_wf hr hd hs) (evaluates hr) (opsCorrect hr hd hs) (delivers hr hd hs) xs hcl

/-! ## Which leaves get gradients -/

theorem trainable_iff {i : Nat} : trainable P i = true ↔ P[i]? = some (.leaf true) := by
  unfold trainable
  split
  · rename_i b h; rw [h]; simp
  · rename_i h
    constructor
    · intro h; cases h
    · intro e; exact absurd e (h true)

theorem withZero_add_ne {a b : WithZero (Nat → ℝ)} (h : b ≠ 0) : a + b ≠ 0 := by
  cases b with
  | zero => exact absurd rfl h
  | coe b =>
    cases a with
    | zero => simp
    | coe a => rw [← WithZero.coe_add]; exact WithZero.coe_ne_zero

theorem withZero_sum_ne {ι : Type} [DecidableEq ι] {s : Finset ι} {f : ι → WithZero (Nat → ℝ)} {c : ι} (hc : c ∈ s)
    (h : f c ≠ 0) :
    ∑ x ∈ s, f x ≠ 0 := by
  rw [← Finset.insert_erase hc, Finset.sum_insert (Finset.notMem_erase c s), add_comm]
  exact withZero_add_ne h

theorem withZero_list_ne {l : List (WithZero (Nat → ℝ))} {a : WithZero (Nat → ℝ)} (ha : a ∈ l) (h : a ≠ 0) : l.sum ≠ 0 := by
  induction l with
  | nil => cases ha
  | cons b l ih =>
    rw [List.sum_cons]
    rcases List.mem_cons.mp ha with rfl | ha
    · rw [add_comm]; exact withZero_add_ne h
    · exact withZero_add_ne (ih ha)

theorem sends_mem {n : Nat} {G : Graph n} {o : Fin n} (hr : G.requiresGrad o = true) :
    ∀ {l : List (Fin n)} {gs : List (Option (Dense ℝ))} {k : Nat}
    {d : Dense ℝ}, l[k]? = some o → gs[k]? = some (some d) → ∃ g, (o, g) ∈ sends G l gs
  | [], _, k, _, h, _ => by simp at h
  | _ :: _, [], k, _, _, h => by simp at h
  | p :: l, q :: gs, 0, d, h, h' => by
    obtain rfl : p = o := by simpa using h
    obtain rfl : q = some d := by simpa using h'
    exact ⟨_, by rw [sends_cons]; simp [hr]; exact Or.inl rfl⟩
  | p :: l, q :: gs, k + 1, d, h, h' => by
    obtain ⟨g, hg⟩ := sends_mem hr (l := l) (gs := gs) (by simpa using h) (by simpa using h')
    exact ⟨g, by rw [sends_cons]; exact List.mem_append_right _ hg⟩

/-- **C67.** After Backward of `y` every trainable leaf that is used in the computation of `y` has a gradient. -/
theorem program_used_grad (hrun : run θ P [] = some vals) (hd : DataWF P vals) (hs : AllSafe P vals)
    {y : Nat} {f : GradFn ℝ} {as : List Nat} (hy : P[y]? = some (.call f as))
    {s₀ s : St P.length (Nat → ℝ)} (hcl : Clean (graph P) s₀) (hlt : y < P.length)
    (hr : Reach (graph P) (progFns (graph P) (fns P) (valOf vals)) [⟨y, hlt⟩] s₀ s) (hm : s.main = .returned)
    {l : Fin P.length} (hl : trainable P l = true) (hu : Feeds P y l.val) : s.grad l ≠ none := by
  classical
  have hR := ran_iff.mp hrun
  have ham := progFns_atMost (G := graph P) (op := fns P) (V := valOf vals) [⟨y, hlt⟩]
  have hchain := backward_chain_rule (acyclic hR) ham hcl hr hm
  have key : ∀ o, Feeds P y o → ∀ ho : o < P.length, (graph P).requiresGrad ⟨o, ho⟩ = true →
      ((graph P).isOp ⟨o, ho⟩ = true → Reached (graph P) [⟨y, hlt⟩] ⟨o, ho⟩) ∧
      (P[o]? = some (.leaf true) → s.grad ⟨o, ho⟩ ≠ none) := by
    intro o hf
    induction hf with
    | self =>
      intro ho hrg
      exact ⟨fun hop => .out (by simp) hop hrg, fun h => by rw [hy] at h; cases h⟩
    | @arg c o f' args hc hcall hmem ih =>
      intro ho hrg
      have hclt : c < P.length := (List.getElem?_eq_some_iff.mp hcall).1
      have hcx : P[(⟨c, hclt⟩ : Fin P.length).val]? = some (.call f' args) := hcall
      have hcop : (graph P).isOp ⟨c, hclt⟩ = true := by simp [Graph.isOp, node_call hcx]
      have hcrg : (graph P).requiresGrad ⟨c, hclt⟩ = true := by
        rw [requiresGrad_needs hR, needs_call hR hcall, List.any_eq_true]
        exact ⟨o, hmem, by rw [← requiresGrad_needs hR ⟨o, ho⟩]; exact hrg⟩
      have hreach := (ih hclt hcrg).1 hcop
      have hoper : (⟨o, ho⟩ : Fin P.length) ∈ (graph P).operands ⟨c, hclt⟩ := by
        rw [operands_call hcx]
        have := fins_get args (args_lt hR hcx)
        rw [← this] at hmem
        obtain ⟨o', h1, h2⟩ := List.mem_map.mp hmem
        have : o' = ⟨o, ho⟩ := Fin.ext h2
        exact this ▸ h1
      refine ⟨fun hop => .operand hreach hoper hop hrg, fun hleaf => ?_⟩
      obtain ⟨g, hg⟩ := (backward_once_with_complete_gradient (acyclic hR) ham hcl hr).2.2 hm _ hreach
      have hg := ((backward_once_with_complete_gradient (acyclic hR) ham hcl hr).2.1 _ hg).2
      obtain ⟨gs, hb, h2, -⟩ := opsCorrect hR hd hs ⟨c, hclt⟩ hcop hcrg _ (evaluates hR _ hcop)
        (ofVals (valOf vals ⟨c, hclt⟩) g) (ofVals_like (all_wf hR hd hs _) g)
      obtain ⟨k, hk⟩ := List.mem_iff_getElem?.mp hoper
      obtain ⟨d, hdk⟩ := serves_operand hR hd hs hcop hcrg hb hk hrg
      obtain ⟨g', hg'⟩ := sends_mem hrg hk hdk
      have hleaf' : (graph P).node ⟨o, ho⟩ = .leaf true := node_leaf hleaf
      have hch := hchain ⟨o, ho⟩ (by simp [Graph.isBlocker, hleaf'])
      intro hnone
      rw [hnone] at hch
      refine withZero_add_ne ?_ hch.symm
      refine withZero_sum_ne (Finset.mem_univ (⟨c, hclt⟩ : Fin P.length)) ?_
      rw [if_pos hreach, hg]
      simp only [contrib]
      refine withZero_list_ne (a := ((g' : Nat → ℝ) : WithZero (Nat → ℝ))) (List.mem_map.mpr ⟨(⟨o, ho⟩, g'), ?_, ?_⟩)
        WithZero.coe_ne_zero
      · rw [progFns_bw hb]; exact hg'
      · simp
  have hlx := trainable_iff.mp hl
  exact (key l.val hu l.isLt (by
    rw [Graph.requiresGrad_eq (acyclic hR), node_leaf hlx])).2 hlx

/-- A leaf that had a gradient has one. -/
theorem program_keeps_grad (hrun : run θ P [] = some vals) {y : Nat}
    {s₀ s : St P.length (Nat → ℝ)} (hcl : Clean (graph P) s₀) (hlt : y < P.length)
    (hr : Reach (graph P) (progFns (graph P) (fns P) (valOf vals)) [⟨y, hlt⟩] s₀ s) (hm : s.main = .returned)
    {l : Fin P.length} (hl : trainable P l = true) (h0 : s₀.grad l ≠ none) : s.grad l ≠ none := by
  have hleaf : (graph P).node l = .leaf true := node_leaf (trainable_iff.mp hl)
  have hch := backward_chain_rule (acyclic (ran_iff.mp hrun)) (progFns_atMost _) hcl hr hm l (by simp [Graph.isBlocker, hleaf])
  intro hnone
  rw [hnone, add_comm] at hch
  refine withZero_add_ne ?_ hch.symm
  have : seeded (graph P) (progFns (graph P) (fns P) (valOf vals)) [⟨y, hlt⟩] s₀.grad l = s₀.grad l := by
    simp [seeded, Graph.isOp, hleaf]
  rw [this]
  cases hg : s₀.grad l with
  | none => exact absurd hg h0
  | some g => exact WithZero.coe_ne_zero

/-! ## The derivative -/

theorem output_of_ran {y : Nat} {ys : List (Dense ℝ)} {τ : Nat → Dense ℝ}
    (h : Ran (leafVals P vals τ) (P.map held) ys) : output P vals y τ = (ys.getD y ⟨0, 0, []⟩).val 0 := by
  have := ran_iff.mpr h
  simp only [output, this]

theorem held_leaf {c : Nat} {b : Bool} (h : (P.map held)[c]? = some (.leaf b)) :
    P[c]? = some (.leaf b) ∨ (b = false ∧ ∃ j, P[c]? = some (.stop j)) := by
  rw [List.getElem?_map, Option.map_eq_some_iff] at h
  obtain ⟨i, hi, e⟩ := h
  cases i with
  | leaf b' => exact Or.inl (by rw [hi]; exact congrArg some e)
  | const v => cases e
  | stop j => cases e; exact Or.inr ⟨rfl, j, hi⟩
  | call f as => cases e

theorem held_stop {c j : Nat} (h : (P.map held)[c]? = some (.stop j)) : False := by
  rw [List.getElem?_map, Option.map_eq_some_iff] at h
  obtain ⟨i, hi, e⟩ := h
  cases i <;> cases e

theorem held_const {c : Nat} {v : Dense ℝ} (h : (P.map held)[c]? = some (.const v)) : P[c]? = some (.const v) := by
  rw [List.getElem?_map, Option.map_eq_some_iff] at h
  obtain ⟨i, hi, e⟩ := h
  cases i with
  | leaf b' => cases e
  | const v' => rw [hi]; exact congrArg some e
  | stop j => cases e
  | call f' as' => cases e

theorem held_call {c : Nat} {f : GradFn ℝ} {as : List Nat} (h : (P.map held)[c]? = some (.call f as)) :
    P[c]? = some (.call f as) := by
  rw [List.getElem?_map, Option.map_eq_some_iff] at h
  obtain ⟨i, hi, e⟩ := h
  cases i with
  | leaf b' => cases e
  | const v => cases e
  | stop j => cases e
  | call f' as' => rw [hi]; exact congrArg some e

theorem leafVals_true {τ : Nat → Dense ℝ} {c : Nat} (h : P[c]? = some (.leaf true)) : leafVals P vals τ c = τ c := by
  rw [leafVals, if_pos (trainable_iff.mpr h)]

theorem leafVals_other {τ : Nat → Dense ℝ} {c : Nat} (h : P[c]? ≠ some (.leaf true)) :
    leafVals P vals τ c = vals.getD c ⟨0, 0, []⟩ := by
  rw [leafVals, if_neg (fun e => h (trainable_iff.mp e))]

/-- At the present values of the leaves the output is the present one. -/
theorem output_now (hrun : run θ P [] = some vals) (y : Nat) :
    output P vals y θ = (vals.getD y ⟨0, 0, []⟩).val 0 := by
  have hr := ran_iff.mp hrun
  refine output_of_ran ⟨by rw [List.length_map, hr.len], ?_, fun c v h => hr.const c v (held_const h), fun c j h => (held_stop h).elim, ?_, ?_⟩
  · intro c b h
    rcases held_leaf h with h | ⟨-, j, h⟩
    · cases b with
      | true => rw [leafVals_true h, hr.leaf c _ h]
      | false => rw [leafVals_other (by rw [h]; simp)]
    · rw [leafVals_other (by rw [h]; simp)]
  · intro c f as h
    exact hr.args c f as (held_call h)
  · intro c f as h
    exact hr.call c f as (held_call h)

/-- The evaluated tensors of a moving graph are a run of the program with the moved leaves. -/
theorem ran_of_moves (hr : Ran θ P vals) {Θ W : Fin P.length → ℝ → Dense ℝ}
    (hm : Moves (graph P) (fns P) (valOf vals) Θ W) {τ : ℝ → Nat → Dense ℝ} (hτ : ∀ x t, Θ x t = τ t x.val) {t : ℝ}
    (he : Evaluates (graph P) (fns P) fun x => W x t) :
    Ran (leafVals P vals (τ t)) (P.map held) (List.ofFn fun x => W x t) := by
  have hget : ∀ x : Fin P.length, (List.ofFn fun x => W x t).getD x.val ⟨0, 0, []⟩ = W x t := by
    intro x
    exact getD_eq (by rw [List.getElem?_ofFn, dif_pos x.isLt])
  have hlt : ∀ {c : Nat} {i}, P[c]? = some i → c < P.length := fun h => (List.getElem?_eq_some_iff.mp h).1
  refine ⟨by simp, ?_, ?_, fun c j h => (held_stop h).elim, ?_, ?_⟩
  · intro c b h
    rcases held_leaf h with h | ⟨-, j, h⟩
    · have hc := hlt h
      rw [hget ⟨c, hc⟩]
      have hn : (graph P).node ⟨c, hc⟩ = .leaf b := node_leaf h
      cases b with
      | true => rw [leafVals_true h, hm.leaf ⟨c, hc⟩ hn, hτ]
      | false =>
        rw [leafVals_other (by rw [h]; simp), hm.const ⟨c, hc⟩ (by simp [Graph.isOp, hn]) (by simp [hn])]
        rfl
    · have hc := hlt h
      have hn : (graph P).node ⟨c, hc⟩ = .blocker _ := node_stop h ((hr.stop _ _ h).1.trans hc)
      rw [hget ⟨c, hc⟩, leafVals_other (by rw [h]; simp), hm.const ⟨c, hc⟩ (by simp [Graph.isOp, hn]) (by simp [hn])]
      rfl
  · intro c v h
    have h := held_const h
    have hc := hlt h
    have hn : (graph P).node ⟨c, hc⟩ = .leaf false := node_const h
    rw [hget ⟨c, hc⟩, hm.const ⟨c, hc⟩ (by simp [Graph.isOp, hn]) (by simp [hn])]
    exact hr.const c v h
  · intro c f as h
    exact hr.args c f as (held_call h)
  · intro c f as h
    have h := held_call h
    have hc := hlt h
    have hx : P[(⟨c, hc⟩ : Fin P.length).val]? = some (.call f as) := h
    have h1 := he ⟨c, hc⟩ (by simp [Graph.isOp, node_call hx])
    rw [operands_call hx, fns_call hx] at h1
    rw [hget ⟨c, hc⟩, ← h1]
    congr 1
    conv_lhs => rw [← fins_get as (args_lt hr hx)]
    rw [List.map_map]
    exact List.map_congr_left fun o _ => hget o

/-- **C67.** A program of operators of the list `Safe`, run on any leaves, which may hold gradients from before: after
Backward of a result of one element, and however the trainable leaves move, the program can be run near the start and
the result moves with the leaves' velocities weighted with what is added to their gradients. -/
theorem program_gradient_adds (hrun : run θ P [] = some vals) (hd : DataWF P vals) (hs : AllSafe P vals)
    {y : Nat} {f : GradFn ℝ} {as : List Nat} (hy : P[y]? = some (.call f as)) (hyn : (needs P []).getD y false = true)
    (hy1 : (vals.getD y ⟨0, 0, []⟩).data.length = 1)
    {s₀ s : St P.length (Nat → ℝ)} (hcl : Clean (graph P) s₀) (hg0 : ∀ x, (graph P).isOp x = true → s₀.grad x = none)
    (hlt : y < P.length)
    (hr : Reach (graph P) (progFns (graph P) (fns P) (valOf vals)) [⟨y, hlt⟩] s₀ s) (hm : s.main = .returned)
    {Θ : ℝ → Nat → Dense ℝ} {v : Nat → Nat → ℝ}
    (hΘ : ∀ i, P[i]? = some (.leaf true) → Curve (θ i) (fun t => Θ t i) (v i)) :
    (∀ᶠ t in 𝓝 0, (run (leafVals P vals (Θ t)) (P.map held) []).isSome) ∧
    HasDerivAt (fun t => output P vals y (Θ t))
      (∑ x : Fin P.length, if trainable P x then
        ∑ i ∈ Finset.range (θ x).data.length, (gnum (s.grad x) i - gnum (s₀.grad x) i) * v x i else 0) 0 := by
  classical
  have hR := ran_iff.mp hrun
  have hyx : P[(⟨y, hlt⟩ : Fin P.length).val]? = some (.call f as) := hy
  have hnode : ∀ x : Fin P.length, (graph P).node x = .leaf true ↔ P[x.val]? = some (.leaf true) := by
    intro x
    refine ⟨fun h => ?_, node_leaf⟩
    cases e : P[x] with
    | leaf b =>
      have hx := (get_fin x).trans (congrArg some e)
      rw [node_leaf hx] at h
      rw [hx]; cases h; rfl
    | const w =>
      have hx := (get_fin x).trans (congrArg some e)
      rw [node_const hx] at h; cases h
    | stop j =>
      have hx := (get_fin x).trans (congrArg some e)
      rw [node_stop hx ((hR.stop _ _ hx).1.trans x.isLt)] at h; cases h
    | call f as =>
      rw [node_call ((get_fin x).trans (congrArg some e))] at h; cases h
  obtain ⟨W, h1, h2⟩ := library_gradient_adds (acyclic hR) (all_wf hR hd hs) (evaluates hR) (opsCorrect hR hd hs)
    (y := ⟨y, hlt⟩) (by simp [Graph.isOp, node_call hyx]) (by rw [requiresGrad_needs hR]; exact hyn) hy1 hcl hg0 hr hm
    (Θ := fun x t => Θ t x.val) (v := fun x => v x.val)
    (by
      intro x hx
      have hx := (hnode x).mp hx
      have := hΘ x.val hx
      rw [← hR.leaf _ _ hx] at this
      exact this)
    (L := Finset.univ.filter fun x => (graph P).node x = .leaf true) (by simp)
  have hran : ∀ᶠ t in 𝓝 (0 : ℝ), Ran (leafVals P vals (Θ t)) (P.map held) (List.ofFn fun x => W x t) := by
    filter_upwards [h1.eval] with t ht
    exact ran_of_moves hR h1 (fun _ _ => rfl) ht
  refine ⟨?_, ?_⟩
  · filter_upwards [hran] with t ht
    rw [ran_iff.mpr ht]; rfl
  · refine HasDerivAt.congr_of_eventuallyEq (h2.congr_deriv ?_) ?_
    · rw [Finset.sum_filter]
      refine Finset.sum_congr rfl fun x _ => ?_
      by_cases hx : P[x.val]? = some (.leaf true)
      · rw [if_pos ((hnode x).mpr hx), if_pos (trainable_iff.mpr hx)]
        rw [show valOf vals x = θ x from hR.leaf _ _ hx]
      · rw [if_neg (fun h => hx ((hnode x).mp h)), if_neg]
        exact fun e => hx (trainable_iff.mp e)
    · filter_upwards [hran] with t ht
      rw [output_of_ran ht, getD_eq (by rw [List.getElem?_ofFn, dif_pos hlt])]

/-- **C67.** The same without gradients before. -/
theorem program_gradient (hrun : run θ P [] = some vals) (hd : DataWF P vals) (hs : AllSafe P vals)
    {y : Nat} {f : GradFn ℝ} {as : List Nat} (hy : P[y]? = some (.call f as)) (hyn : (needs P []).getD y false = true)
    (hy1 : (vals.getD y ⟨0, 0, []⟩).data.length = 1)
    {s₀ s : St P.length (Nat → ℝ)} (hcl : Clean (graph P) s₀) (hg0 : ∀ x, s₀.grad x = none)
    (hlt : y < P.length)
    (hr : Reach (graph P) (progFns (graph P) (fns P) (valOf vals)) [⟨y, hlt⟩] s₀ s) (hm : s.main = .returned)
    {Θ : ℝ → Nat → Dense ℝ} {v : Nat → Nat → ℝ}
    (hΘ : ∀ i, P[i]? = some (.leaf true) → Curve (θ i) (fun t => Θ t i) (v i)) :
    (∀ᶠ t in 𝓝 0, (run (leafVals P vals (Θ t)) (P.map held) []).isSome) ∧
    HasDerivAt (fun t => output P vals y (Θ t))
      (∑ x : Fin P.length, if trainable P x then
        ∑ i ∈ Finset.range (θ x).data.length, gnum (s.grad x) i * v x i else 0) 0 := by
  have h := program_gradient_adds hrun hd hs hy hyn hy1 hcl (fun x _ => hg0 x) hlt hr hm hΘ
  simpa [hg0, gnum] using h

/-- **C67, partial derivatives.** Element `i` of the gradient of the trainable leaf `l` is the partial
derivative of the program's result in that element. -/
theorem program_partial_derivative (hrun : run θ P [] = some vals) (hd : DataWF P vals) (hs : AllSafe P vals)
    {y : Nat} {f : GradFn ℝ} {as : List Nat} (hy : P[y]? = some (.call f as)) (hyn : (needs P []).getD y false = true)
    (hy1 : (vals.getD y ⟨0, 0, []⟩).data.length = 1)
    {s₀ s : St P.length (Nat → ℝ)} (hcl : Clean (graph P) s₀) (hg0 : ∀ x, s₀.grad x = none)
    (hlt : y < P.length)
    (hr : Reach (graph P) (progFns (graph P) (fns P) (valOf vals)) [⟨y, hlt⟩] s₀ s) (hm : s.main = .returned)
    {l : Fin P.length} (hl : trainable P l = true) {i : Nat} (hi : i < (θ l).data.length) :
    HasDerivAt (fun t => output P vals y fun x => if x = l.val then bump (θ x) i t else θ x) (gnum (s.grad l) i) 0 := by
  have hw : ∀ x, P[x]? = some (.leaf true) → (θ x).WF := fun x hx => by
    have := hd.leaf x _ hx
    rwa [(ran_iff.mp hrun).leaf _ _ hx] at this
  have h := (program_gradient hrun hd hs hy hyn hy1 hcl hg0 hlt hr hm
    (Θ := fun t x => if x = l.val then bump (θ x) i t else θ x)
    (v := fun x j => if x = l.val then (if j = i then 1 else 0) else 0) (by
      intro x hx
      by_cases e : x = l.val
      · simp only [if_pos e]; exact bump_curve (hw x hx) i
      · simp only [if_neg e]; exact const_curve (hw x hx))).2
  refine h.congr_deriv ?_
  rw [Finset.sum_eq_single l]
  · rw [if_pos hl]; simp [hi]
  · intro x _ hx
    have : x.val ≠ l.val := fun e => hx (Fin.ext e)
    simp [this]
  · intro h; exact absurd (Finset.mem_univ l) h

/-! ## A step of gradient descent -/

/-- `w - t g`. -/
noncomputable def descend (w : Dense ℝ) (g : Option (Nat → ℝ)) (t : ℝ) : Dense ℝ :=
  ofVals w fun i => w.val i - gnum g i * t

theorem ofVals_self (w : Dense ℝ) : ofVals w w.val = w := by
  obtain ⟨r, c, d⟩ := w
  simp only [ofVals]
  congr 1
  apply List.ext_getElem
  · simp
  · intro i h1 h2
    simp [Dense.val, h2]

theorem descend_curve {w : Dense ℝ} (h : w.WF) (g : Option (Nat → ℝ)) :
    Curve w (descend w g) (fun i => -gnum g i) := by
  refine ⟨?_, fun t => ofVals_like h _, ?_⟩
  · simp only [descend, mul_zero, sub_zero]; exact ofVals_self w
  · intro i hi
    have e : (fun t => (descend w g t).val i) = fun t => w.val i - gnum g i * t := by
      funext t; exact ofVals_val _ hi
    rw [e]
    simpa using ((hasDerivAt_id (0 : ℝ)).const_mul (gnum g i)).const_sub (w.val i)

/-- What SGD does to a parameter. -/
theorem sgdStep_iff {α : ℝ} {w w' : Dense ℝ} {g : Option (Nat → ℝ)} : SgdStep α w g w' ↔ w' = descend w g α := by
  cases g with
  | none =>
    simp only [SgdStep, descend, gnum, Option.getD_none, Pi.zero_apply, zero_mul, sub_zero]
    rw [show ofVals w (fun i => w.val i) = w from ofVals_self w]
  | some g =>
    have h : Optim.sgdOptimize ⟨α, 0, false⟩ ⟨w, some (ofVals w g), .nil⟩ =
        some (⟨descend w (some g) α, none, .sgd ⟨(ofVals w g).map (· * α)⟩⟩, false) := by
      simp only [Optim.sgdOptimize, Optim.optimizeParams, Optim.sgdCalc, if_pos, Option.bind_eq_bind, Option.bind_some,
        zipOp, sameDims, ofVals, Dense.map, beq_self_eq_true, Bool.and_self, if_true]
      have e : List.zipWith (fun x1 x2 => x1 - x2) w.data ((List.map g (List.range w.data.length)).map (· * α)) =
          (descend w (some g) α).data := by
        simp only [descend, ofVals]
        apply List.ext_getElem
        · simp
        · intro i h1 h2
          have hi : i < w.data.length := by simpa using h2
          simp [gnum, Dense.val, hi]
      rw [e]; rfl
    simp only [SgdStep, h, Option.some.injEq, Prod.mk.injEq, and_true]
    constructor
    · rintro ⟨p, rfl, rfl⟩; rfl
    · rintro rfl; exact ⟨_, rfl, rfl⟩

/-- **C67, descent.** If the gradients are not all zero, then with every small enough learning rate one step of
SGD on the gradients left by Backward makes the program's result smaller. -/
theorem sgd_descends (hrun : run θ P [] = some vals) (hd : DataWF P vals) (hs : AllSafe P vals)
    {y : Nat} {f : GradFn ℝ} {as : List Nat} (hy : P[y]? = some (.call f as)) (hyn : (needs P []).getD y false = true)
    (hy1 : (vals.getD y ⟨0, 0, []⟩).data.length = 1)
    {s₀ s : St P.length (Nat → ℝ)} (hcl : Clean (graph P) s₀) (hg0 : ∀ x, s₀.grad x = none)
    (hlt : y < P.length)
    (hr : Reach (graph P) (progFns (graph P) (fns P) (valOf vals)) [⟨y, hlt⟩] s₀ s) (hm : s.main = .returned)
    {l : Fin P.length} (hl : trainable P l = true) {i : Nat} (hi : i < (θ l).data.length)
    (hne : gnum (s.grad l) i ≠ 0) :
    ∃ ε > 0, ∀ α, 0 < α → α < ε → ∀ τ : Nat → Dense ℝ,
      (∀ x : Fin P.length, trainable P x = true → SgdStep α (θ x) (s.grad x) (τ x)) →
      (run (leafVals P vals τ) (P.map held) []).isSome ∧
      output P vals y τ < (vals.getD y ⟨0, 0, []⟩).val 0 := by
  classical
  have hw : ∀ x, P[x]? = some (.leaf true) → (θ x).WF := fun x hx => by
    have := hd.leaf x _ hx
    rwa [(ran_iff.mp hrun).leaf _ _ hx] at this
  set g : Nat → Option (Nat → ℝ) := fun x => if h : x < P.length then s.grad ⟨x, h⟩ else none with hgdef
  obtain ⟨h1, h2⟩ := program_gradient hrun hd hs hy hyn hy1 hcl hg0 hlt hr hm
    (Θ := fun t x => descend (θ x) (g x) t) (v := fun x j => -gnum (g x) j)
    (fun x hx => descend_curve (hw x hx) _)
  set F : ℝ → ℝ := fun t => output P vals y fun x => descend (θ x) (g x) t with hF
  have hleaf : ∀ τ τ' : Nat → Dense ℝ, (∀ x : Fin P.length, trainable P x = true → τ x = τ' x) →
      leafVals P vals τ = leafVals P vals τ' := by
    intro τ τ' h
    funext x
    simp only [leafVals]
    split
    · rename_i ht
      have hx : x < P.length := (List.getElem?_eq_some_iff.mp (trainable_iff.mp ht)).1
      exact h ⟨x, hx⟩ ht
    · rfl
  have hout : ∀ τ τ' : Nat → Dense ℝ, (∀ x : Fin P.length, trainable P x = true → τ x = τ' x) →
      output P vals y τ = output P vals y τ' := fun τ τ' h => by
    simp only [output, hleaf τ τ' h]
  have hF0 : F 0 = (vals.getD y ⟨0, 0, []⟩).val 0 := by
    rw [← output_now hrun y]
    refine hout _ _ fun x hx => ?_
    exact (descend_curve (hw x (trainable_iff.mp hx)) _).start
  have hneg : (∑ x : Fin P.length, if trainable P x then
      ∑ j ∈ Finset.range (θ x).data.length, gnum (s.grad x) j * -gnum (g x) j else 0) < 0 := by
    have hgx : ∀ x : Fin P.length, g x = s.grad x := fun x => by simp [hgdef]
    have hle : ∀ x : Fin P.length, (if trainable P x then
        ∑ j ∈ Finset.range (θ x).data.length, gnum (s.grad x) j * -gnum (g x) j else 0) ≤ 0 := by
      intro x
      split
      · refine Finset.sum_nonpos fun j _ => ?_
        rw [hgx]; nlinarith [mul_self_nonneg (gnum (s.grad x) j)]
      · exact le_refl _
    refine Finset.sum_neg' (fun x _ => hle x) ⟨l, Finset.mem_univ _, ?_⟩
    rw [if_pos hl]
    refine Finset.sum_neg' (fun j _ => ?_) ⟨i, Finset.mem_range.mpr hi, ?_⟩
    · rw [hgx]; nlinarith [mul_self_nonneg (gnum (s.grad l) j)]
    · rw [hgx]; nlinarith [mul_self_pos.mpr hne]
  have hslope := h2.tendsto_slope_zero_right
  have hev : ∀ᶠ t in 𝓝[>] (0 : ℝ), F t < F 0 := by
    filter_upwards [hslope.eventually (gt_mem_nhds hneg), self_mem_nhdsWithin] with t ht h0
    have h0 : 0 < t := h0
    simp only [zero_add, smul_eq_mul] at ht
    have := mul_neg_of_pos_of_neg h0 ht
    rw [mul_inv_cancel_left₀ h0.ne'] at this
    exact sub_neg.mp this
  have hboth := hev.and (h1.filter_mono nhdsWithin_le_nhds)
  rw [eventually_nhdsWithin_iff, Metric.eventually_nhds_iff] at hboth
  obtain ⟨ε, hε, hb⟩ := hboth
  refine ⟨ε, hε, fun α h0 hα τ hτ => ?_⟩
  obtain ⟨a, b⟩ := hb (y := α) (by simpa [abs_of_pos h0] using hα) h0
  have hτ' : ∀ x : Fin P.length, trainable P x = true → τ x = descend (θ x) (g x) α := by
    intro x hx
    have := sgdStep_iff.mp (hτ x hx)
    rw [this]; simp [hgdef]
  rw [hleaf τ (fun x => descend (θ x) (g x) α) hτ', hout τ (fun x => descend (θ x) (g x) α) hτ', ← hF0]
  exact ⟨b, a⟩

end Verif.Tape
