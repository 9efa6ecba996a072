import Verif.Spec.Record
import Verif.Props.Tape

set_option autoImplicit false
set_option linter.unusedSimpArgs false

/-!
# A program computes what the model computes

`Sim`: run after tensors with known values, the program recorded by some code computes what the corresponding
value model computes, and fails where the model fails. `trains_of_sim`: then it trains the model.
-/

namespace Verif.Record
open GradFn Backward Tape

/-- What is known of the tensors that exist: value and `RequiresGrad`. -/
abbrev State := List (Dense ℝ × Bool)

/-- Only constants and operators that are right at their operands. -/
def fine (θ : Nat → Dense ℝ) : List Instr → List (Dense ℝ) → Prop
  | [], _ => True
  | i :: is, vals =>
    (match i with
      | .leaf _ => False
      | .stop _ => False
      | .const v => v.WF
      | .call f args => ∀ xs, args.mapM (vals[·]?) = some xs → ∀ act, Safe act f xs) ∧
    ∀ v, Tape.step θ vals i = some v → fine θ is (vals ++ [v])

/-- After the tensors `st`, code `c` does what the value model does that gives `m`; `R` relates the results. If `s`
holds, then all operators are right at their operands. -/
def Sim {α β : Type} (s : Prop) (θ : Nat → Dense ℝ) (st : State) (c : B α) (m : Option β) (R : State → α → β → Prop) : Prop :=
  match m with
  | none => run θ (c st.length).2 (st.map Prod.fst) = none
  | some b => ∃ st' : State, run θ (c st.length).2 (st.map Prod.fst) = some ((st ++ st').map Prod.fst) ∧
      needs (c st.length).2 (st.map Prod.snd) = (st ++ st').map Prod.snd ∧
      (s → fine θ (c st.length).2 (st.map Prod.fst)) ∧ R (st ++ st') (c st.length).1 b

/-- Tensor `i` has value `v`. -/
def V (st : State) (i : Nat) (v : Dense ℝ) : Prop := ∃ b, st[i]? = some (v, b)

/-- Tensor `i` has value `v` and requires gradients. -/
def D (st : State) (i : Nat) (v : Dense ℝ) : Prop := st[i]? = some (v, true)

variable {α β γ δ : Type} {s : Prop} {θ : Nat → Dense ℝ} {st : State}

theorem V.mono {i : Nat} {v : Dense ℝ} (h : V st i v) (st' : State) : V (st ++ st') i v := by
  obtain ⟨b, h⟩ := h
  exact ⟨b, by rw [List.getElem?_append_left (List.getElem?_eq_some_iff.mp h).1, h]⟩

theorem D.mono {i : Nat} {v : Dense ℝ} (h : D st i v) (st' : State) : D (st ++ st') i v := by
  unfold D at h ⊢
  rw [List.getElem?_append_left (List.getElem?_eq_some_iff.mp h).1, h]

theorem D.v {i : Nat} {v : Dense ℝ} (h : D st i v) : V st i v := ⟨true, h⟩

theorem run_append (θ : Nat → Dense ℝ) : ∀ (P Q : List Instr) (vals : List (Dense ℝ)),
    run θ (P ++ Q) vals = (run θ P vals).bind (run θ Q)
  | [], Q, vals => rfl
  | i :: P, Q, vals => by
    simp only [List.cons_append, run, Option.bind_eq_bind]
    cases step θ vals i with
    | none => rfl
    | some v => exact run_append θ P Q _

theorem needs_append : ∀ (P Q : List Instr) (acc : List Bool), needs (P ++ Q) acc = needs Q (needs P acc)
  | [], Q, acc => rfl
  | i :: P, Q, acc => by
    rw [List.cons_append, needs_cons, needs_cons]
    exact needs_append P Q _

theorem fine_append : ∀ (P Q : List Instr) (vals : List (Dense ℝ)), fine θ P vals →
    (∀ vals', run θ P vals = some vals' → fine θ Q vals') → fine θ (P ++ Q) vals
  | [], Q, vals, _, h => h vals rfl
  | i :: P, Q, vals, hp, h => by
    refine ⟨hp.1, fun v hv => fine_append P Q _ (hp.2 v hv) fun vals' hr => h vals' ?_⟩
    simp only [run, Option.bind_eq_bind, hv, Option.bind_some]
    exact hr

theorem Sim.pure {a : α} {b : β} {R : State → α → β → Prop} (h : R st a b) : Sim s θ st (Pure.pure a) (some b) R := by
  refine ⟨[], ?_, ?_, fun _ => trivial, ?_⟩
  · rw [List.append_nil]; rfl
  · rw [List.append_nil]; rfl
  · rw [List.append_nil]; exact h

theorem Sim.bind {c : B α} {m : Option β} {R : State → α → β → Prop} {k : α → B γ} {k' : β → Option δ}
    {R' : State → γ → δ → Prop} (h : Sim s θ st c m R)
    (hk : ∀ st' a b, m = some b → R (st ++ st') a b → Sim s θ (st ++ st') (k a) (k' b) R') :
    Sim s θ st (c >>= k) (m >>= k') R' := by
  cases m with
  | none =>
    show run θ ((c st.length).2 ++ _) _ = none
    rw [run_append, h]; rfl
  | some b =>
    obtain ⟨st', h1, h2, h3, h4⟩ := h
    have hl : st.length + (c st.length).2.length = (st ++ st').length := by
      have := (needs_spec (c st.length).2 (st.map Prod.snd)).1
      rw [h2, List.length_map, List.length_map] at this
      exact this.symm
    have hs := hk st' _ b rfl h4
    show Sim s θ st (fun n => _) (k' b) R'
    generalize hm : k' b = m at hs
    cases m with
    | none =>
      show run θ ((c st.length).2 ++ (k (c st.length).1 (st.length + (c st.length).2.length)).2) _ = none
      rw [run_append, h1, hl]; exact hs
    | some d =>
      obtain ⟨st'', g1, g2, g3, g4⟩ := hs
      refine ⟨st' ++ st'', ?_, ?_, ?_, ?_⟩
      · show run θ ((c st.length).2 ++ (k (c st.length).1 (st.length + (c st.length).2.length)).2) _ = _
        rw [run_append, h1, hl, ← List.append_assoc]; exact g1
      · show needs ((c st.length).2 ++ (k (c st.length).1 (st.length + (c st.length).2.length)).2) _ = _
        rw [needs_append, h2, hl, ← List.append_assoc]; exact g2
      · show s → fine θ ((c st.length).2 ++ (k (c st.length).1 (st.length + (c st.length).2.length)).2) _
        intro hs'
        refine fine_append _ _ _ (h3 hs') fun vals' hr => ?_
        rw [h1] at hr
        obtain rfl := Option.some.inj hr
        rw [hl]; exact g3 hs'
      · show R' _ (k (c st.length).1 (st.length + (c st.length).2.length)).1 d
        rw [hl, ← List.append_assoc]; exact g4

theorem Sim.weaken {c : B α} {m : Option β} {R R' : State → α → β → Prop} (h : Sim s θ st c m R)
    (hr : ∀ st' a b, m = some b → R (st ++ st') a b → R' (st ++ st') a b) : Sim s θ st c m R' := by
  cases m with
  | none => exact h
  | some b =>
    obtain ⟨st', h1, h2, h3, h4⟩ := h
    exact ⟨st', h1, h2, h3, hr st' _ b rfl h4⟩

theorem Sim.fail {β : Type} {R : State → Nat → β → Prop} : Sim s θ st Record.fail (none : Option β) R := by
  show run θ [_] _ = none
  simp [run, Tape.step]

theorem mapM_vals {st : State} : ∀ {args : List Nat} {xs : List (Dense ℝ)}, List.Forall₂ (V st) args xs →
    args.mapM ((st.map Prod.fst)[·]?) = some xs
  | _, _, .nil => rfl
  | _, _, .cons (a := i) (b := x) ⟨b, hi⟩ h => by
    rw [List.mapM_cons, List.getElem?_map, hi, mapM_vals h]; rfl

/-- An operator of the list `Safe` with an operand that requires gradients. -/
theorem Sim.call {f : GradFn ℝ} {args : List Nat} {xs : List (Dense ℝ)} (hv : List.Forall₂ (V st) args xs)
    (hd : ∃ i ∈ args, ∃ v, D st i v) (hs : s → ∀ act, Safe act f xs) :
    Sim s θ st (call f args) (f.forward xs) (fun st' i v => D st' i v ∧ st.length ≤ i) := by
  have hm := mapM_vals hv
  cases hf : f.forward xs with
  | none =>
    show run θ [.call f args] _ = none
    simp only [run, Tape.step, Option.bind_eq_bind, hm, Option.bind_some, hf, Option.bind_none]
  | some y =>
    refine ⟨[(y, true)], ?_, ?_, ?_, ?_, le_refl _⟩
    · show run θ [.call f args] _ = _
      simp only [run, Tape.step, Option.bind_eq_bind, hm, Option.bind_some, hf, List.map_append, List.map_cons, List.map_nil]
    · show needs [.call f args] _ = _
      simp only [needs, List.map_append, List.map_cons, List.map_nil]
      congr 2
      obtain ⟨i, hi, v, hiv⟩ := hd
      rw [List.any_eq_true]
      exact ⟨i, hi, getD_eq (by rw [List.getElem?_map, hiv]; rfl)⟩
    · refine fun h' => ⟨fun xs' h act => ?_, fun v _ => trivial⟩
      rw [hm] at h
      obtain rfl := Option.some.inj h
      exact hs h' act
    · show (st ++ [(y, true)])[st.length]? = _
      simp

theorem Sim.const {c : ℝ} {m : Option (Dense ℝ)} (h : m = some (Dense.scalar c)) :
    Sim s θ st (const c) m (fun st' i v => V st' i v) := by
  subst h
  refine ⟨[(Dense.scalar c, false)], ?_, ?_, fun _ => ⟨?_, fun v _ => trivial⟩, false, ?_⟩
  · show run θ [.const _] _ = _
    simp [run, Tape.step]
  · show needs [.const _] _ = _
    simp [needs]
  · simp [Dense.scalar, Dense.WF]
  · show (st ++ [(_, false)])[st.length]? = _
    simp

/-- A constant, with which the model computes directly. -/
theorem Sim.bindConst {c : ℝ} {k : Nat → B γ} {m : Option δ} {R : State → γ → δ → Prop}
    (h : ∀ st' i, V (st ++ st') i (Dense.scalar c) → Sim s θ (st ++ st') (k i) m R) :
    Sim s θ st (Record.const c >>= k) m R := by
  have := Sim.bind (R' := R) (k' := fun _ => m) (k := k) (Sim.const (s := s) (θ := θ) (st := st) (c := c) rfl)
    fun st' i v hv hi => h st' i (by obtain rfl := Option.some.inj hv; exact hi)
  exact this

/-! ## Training -/

/-- The tensors a program starts with. -/
def start (k j : Nat) (θ : Nat → Dense ℝ) : State :=
  (List.range k).map (fun i => (θ i, true)) ++ (List.range j).map fun i => (θ (k + i), false)

theorem start_length (k j : Nat) (θ : Nat → Dense ℝ) : (start k j θ).length = k + j := by simp [start]

theorem start_param {k j i : Nat} (h : i < k) : D (start k j θ) i (θ i) := by
  simp [D, start, List.getElem?_append, h]

theorem start_input {k j i : Nat} (h : i < j) : V (start k j θ) (k + i) (θ (k + i)) := by
  refine ⟨false, ?_⟩
  simp [start, List.getElem?_append, h]

theorem run_leaves (b : Bool) : ∀ (k : Nat) (vals : List (Dense ℝ)),
    run θ (List.replicate k (.leaf b)) vals = some (vals ++ (List.range k).map fun i => θ (vals.length + i))
  | 0, vals => by simp [run]
  | k + 1, vals => by
    rw [List.replicate_succ]
    simp only [run, Tape.step, Option.bind_eq_bind, Option.bind_some]
    rw [run_leaves b k, List.range_succ_eq_map]
    simp [Function.comp_def, Nat.add_assoc, Nat.add_comm 1]

theorem needs_leaves (b : Bool) : ∀ (k : Nat) (acc : List Bool),
    needs (List.replicate k (.leaf b)) acc = acc ++ List.replicate k b
  | 0, acc => by simp [needs]
  | k + 1, acc => by
    rw [List.replicate_succ, needs, needs_leaves b k, List.replicate_succ]; simp

theorem run_program {k j : Nat} {c : B α} : run θ (program k j c) [] = run θ (c (k + j)).2 ((start k j θ).map Prod.fst) := by
  rw [program, run_append, run_leaves, Option.bind_some, run_append, run_leaves, Option.bind_some]
  congr 1
  simp [start, Function.comp_def]

theorem needs_program {k j : Nat} {c : B α} : needs (program k j c) [] = needs (c (k + j)).2 ((start k j θ).map Prod.snd) := by
  rw [program, needs_append, needs_append, needs_leaves, needs_leaves]
  congr 1
  simp [start, Function.comp_def]

/-- What `fine` says of an instruction of a program that was run. -/
theorem fine_get : ∀ {Q : List Instr} {pre vals : List (Dense ℝ)}, fine θ Q pre → run θ Q pre = some vals →
    ∀ {c : Nat} {i : Instr}, Q[c]? = some i →
      (match i with
        | .leaf _ => False
        | .stop _ => False
        | .const v => v.WF
        | .call f args => ∃ xs, args.mapM ((vals.take (pre.length + c))[·]?) = some xs ∧ ∀ act, Safe act f xs)
  | [], _, _, _, _, c, i, h => by simp at h
  | i₀ :: Q, pre, vals, hf, hr, 0, i, h => by
    simp only [List.getElem?_cons_zero, Option.some.injEq] at h
    subst h
    have hspec := (run_iff θ (i₀ :: Q) pre vals).mp hr
    have htake : vals.take pre.length = pre := hspec.2.1
    cases i₀ with
    | leaf b => exact hf.1
    | stop j => exact hf.1
    | const v => exact hf.1
    | call f args =>
      simp only [run, Option.bind_eq_bind, Option.bind_eq_some_iff] at hr
      obtain ⟨v, hv, -⟩ := hr
      simp only [Tape.step, Option.bind_eq_bind, Option.bind_eq_some_iff] at hv
      obtain ⟨xs, hx, -⟩ := hv
      exact ⟨xs, by rw [Nat.add_zero, htake]; exact hx, hf.1 xs hx⟩
  | i₀ :: Q, pre, vals, hf, hr, c + 1, i, h => by
    simp only [List.getElem?_cons_succ] at h
    simp only [run, Option.bind_eq_bind, Option.bind_eq_some_iff] at hr
    obtain ⟨v, hv, hr⟩ := hr
    have := fine_get (hf.2 v hv) hr h
    rw [List.length_append, List.length_singleton, Nat.add_assoc, Nat.add_comm 1] at this
    exact this

theorem mapM_mem {vals : List (Dense ℝ)} : ∀ {args : List Nat} {xs : List (Dense ℝ)},
    args.mapM (vals[·]?) = some xs → ∀ x ∈ xs, x ∈ vals
  | [], xs, h => by
    obtain rfl := Option.some.inj h
    simp
  | a :: args, xs, h => by
    rw [List.mapM_cons] at h
    simp only [Option.bind_eq_bind, Option.bind_eq_some_iff] at h
    obtain ⟨y, hy, ys, hys, h⟩ := h
    obtain rfl := Option.some.inj h
    intro x hx
    rcases List.mem_cons.mp hx with rfl | hx
    · exact List.mem_of_getElem? hy
    · exact mapM_mem hys x hx

/-- All values are well-formed. -/
theorem fine_wf : ∀ {Q : List Instr} {pre vals : List (Dense ℝ)}, fine θ Q pre → run θ Q pre = some vals →
    (∀ v ∈ pre, v.WF) → ∀ v ∈ vals, v.WF
  | [], pre, vals, _, hr, hp => by
    obtain rfl := Option.some.inj hr
    exact hp
  | i :: Q, pre, vals, hf, hr, hp => by
    simp only [run, Option.bind_eq_bind, Option.bind_eq_some_iff] at hr
    obtain ⟨v, hv, hr⟩ := hr
    refine fine_wf (hf.2 v hv) hr fun w hw => ?_
    rcases List.mem_append.mp hw with hw | hw
    · exact hp w hw
    · obtain rfl := List.mem_singleton.mp hw
      cases i with
      | leaf b => exact hf.1.elim
      | stop j => exact hf.1.elim
      | const u =>
        obtain rfl := Option.some.inj hv
        exact hf.1
      | call f args =>
        simp only [Tape.step, Option.bind_eq_bind, Option.bind_eq_some_iff] at hv
        obtain ⟨xs, hx, hv⟩ := hv
        have hw : ∀ x ∈ xs, x.WF := fun x h => hp x (mapM_mem hx x h)
        exact wf_of_correctOn (safe_correctOn (hf.1 xs hx fun _ => True) hw) hw hv

section
variable {k j : Nat} {c : B Nat} {vals : List (Dense ℝ)}

theorem program_get {c' : B α} {x : Nat} {i : Instr} (h : (program k j c')[x]? = some i) :
    (x < k ∧ i = .leaf true) ∨ (k ≤ x ∧ x < k + j ∧ i = .leaf false) ∨
      (k + j ≤ x ∧ (c' (k + j)).2[x - (k + j)]? = some i) := by
  rw [program] at h
  rcases Nat.lt_or_ge x k with h1 | h1
  · left
    rw [List.getElem?_append_left (by simpa using h1), List.getElem?_replicate, if_pos h1] at h
    exact ⟨h1, (Option.some.inj h).symm⟩
  · right
    rw [List.getElem?_append_right (by simpa using h1), List.length_replicate] at h
    rcases Nat.lt_or_ge (x - k) j with h2 | h2
    · left
      rw [List.getElem?_append_left (by simpa using h2), List.getElem?_replicate, if_pos h2] at h
      exact ⟨h1, by omega, (Option.some.inj h).symm⟩
    · right
      rw [List.getElem?_append_right (by simpa using h2), List.length_replicate, Nat.sub_sub] at h
      exact ⟨by omega, h⟩

theorem program_param {c' : B α} {x : Nat} (h : x < k) : (program k j c')[x]? = some (.leaf true) := by
  rw [program, List.getElem?_append_left (by simpa using h), List.getElem?_replicate, if_pos h]

variable (hf : fine θ (c (k + j)).2 ((start k j θ).map Prod.fst)) (hrun : run θ (program k j c) [] = some vals)
include hf hrun

theorem program_instr {x : Nat} {i : Instr} (hx : k + j ≤ x) (h : (program k j c)[x]? = some i) :
    (∃ v, i = .const v ∧ v.WF) ∨ ∃ f args, i = .call f args ∧
      ∀ act, Safe act f (args.map fun j => vals.getD j ⟨0, 0, []⟩) := by
  have hr := run_program ▸ hrun
  rcases program_get h with h | h | ⟨-, h⟩
  · omega
  · omega
  have h1 := fine_get hf hr h
  cases i with
  | leaf b => exact h1.elim
  | stop j => exact h1.elim
  | const v => exact Or.inl ⟨v, rfl, h1⟩
  | call f args =>
    obtain ⟨xs, hx', hs⟩ := h1
    rw [List.length_map, start_length] at hx'
    refine Or.inr ⟨f, args, rfl, ?_⟩
    have hlen := (ran_iff.mp hrun).len
    have hle : k + j + (x - (k + j)) ≤ vals.length := by
      rw [hlen]
      have := (List.getElem?_eq_some_iff.mp ‹(program k j c)[x]? = _›).1
      omega
    rw [((mapM_get hle args xs).mp hx').2] at hs
    exact hs

theorem program_safe : AllSafe (program k j c) vals := by
  intro x f args h _
  rcases program_get h with ⟨_, h⟩ | ⟨_, _, h⟩ | ⟨hx, -⟩
  · cases h
  · cases h
  rcases program_instr hf hrun hx h with ⟨v, h, -⟩ | ⟨f', as', h, hs⟩
  · cases h
  · cases h
    exact hs _

theorem program_wf (hθ : ∀ i < k + j, (θ i).WF) : ∀ v ∈ vals, v.WF := by
  refine fine_wf hf (run_program ▸ hrun) ?_
  intro v hv
  simp only [start, List.map_append, List.map_map, List.mem_append, List.mem_map, List.mem_range, Function.comp] at hv
  rcases hv with ⟨i, hi, rfl⟩ | ⟨i, hi, rfl⟩
  · exact hθ i (by omega)
  · exact hθ _ (by omega)

theorem program_data (hθ : ∀ i < k + j, (θ i).WF) : DataWF (program k j c) vals := by
  have hw := program_wf hf hrun hθ
  have hget : ∀ {x : Nat} {i : Instr}, (program k j c)[x]? = some i → (vals.getD x ⟨0, 0, []⟩).WF := by
    intro x i h
    refine hw _ (List.mem_of_getElem? (get_of_getD _ ?_))
    rw [(ran_iff.mp hrun).len]
    exact (List.getElem?_eq_some_iff.mp h).1
  refine ⟨fun x b h => hget h, fun x v h => ?_, fun x f args h _ => hget h⟩
  rw [← (ran_iff.mp hrun).const x v h]
  exact hget h

theorem program_held : (program k j c).map held = program k j c := by
  conv_rhs => rw [← List.map_id (program k j c)]
  refine List.map_congr_left fun i hi => ?_
  obtain ⟨x, h⟩ := List.mem_iff_getElem?.mp hi
  rcases program_get h with ⟨_, rfl⟩ | ⟨_, _, rfl⟩ | ⟨hx, -⟩
  · rfl
  · rfl
  rcases program_instr hf hrun hx h with ⟨v, rfl, -⟩ | ⟨f, as, rfl, -⟩
  · rfl
  · rfl

theorem program_trainable {x : Nat} : trainable (program k j c) x = true ↔ x < k := by
  rw [trainable_iff]
  constructor
  · intro h
    rcases program_get h with ⟨hx, _⟩ | ⟨_, _, h⟩ | ⟨hx, -⟩
    · exact hx
    · cases h
    · rcases program_instr hf hrun hx h with ⟨v, h, -⟩ | ⟨f, as, h, -⟩
      · cases h
      · cases h
  · exact program_param

/-- The run depends on the leaves only. -/
theorem run_leafVals {τ : Nat → Dense ℝ} (hτ : ∀ x, k ≤ x → τ x = θ x) :
    run (leafVals (program k j c) vals τ) (program k j c) [] = run τ (program k j c) [] := by
  have hR := ran_iff.mp hrun
  have hag : ∀ x b, (program k j c)[x]? = some (.leaf b) → leafVals (program k j c) vals τ x = τ x := by
    intro x b h
    by_cases hx : x < k
    · rw [leafVals_true (program_param hx)]
    · rw [leafVals_other (fun e => hx ((program_trainable hf hrun).mp (trainable_iff.mpr e))), hR.leaf x b h,
        hτ x (Nat.le_of_not_lt hx)]
  have htr : ∀ {τ₁ τ₂ : Nat → Dense ℝ} {ws}, (∀ x b, (program k j c)[x]? = some (.leaf b) → τ₁ x = τ₂ x) →
      run τ₁ (program k j c) [] = some ws → run τ₂ (program k j c) [] = some ws := by
    intro τ₁ τ₂ ws h hr
    have h1 := ran_iff.mp hr
    exact ran_iff.mpr ⟨h1.len, fun x b hx => (h1.leaf x b hx).trans (h x b hx), h1.const, h1.stop, h1.args, h1.call⟩
  cases h1 : run (leafVals (program k j c) vals τ) (program k j c) [] with
  | some ws => exact (htr hag h1).symm
  | none =>
    cases h2 : run τ (program k j c) [] with
    | none => rfl
    | some ws => rw [htr (fun x b h => (hag x b h).symm) h2] at h1; cases h1

end

/-- What the program computes, from the simulation. -/
theorem sim_run {k j : Nat} {c : B Nat} {m : Option (Dense ℝ)}
    (h : Sim s θ (start k j θ) c m (fun st i v => D st i v ∧ k + j ≤ i)) :
    (m = none → run θ (program k j c) [] = none) ∧ ∀ v, m = some v → ∃ vals, run θ (program k j c) [] = some vals ∧
      vals[result k j c]? = some v ∧ (s → fine θ (c (k + j)).2 ((start k j θ).map Prod.fst)) ∧
      (needs (program k j c) []).getD (result k j c) false = true ∧ k + j ≤ result k j c := by
  constructor
  · rintro rfl
    rw [run_program]
    have h : run θ _ _ = none := h
    rwa [start_length] at h
  · rintro v rfl
    obtain ⟨st', h1, h2, h3, h4, h5⟩ := h
    rw [start_length] at h1 h2 h3 h4 h5
    refine ⟨_, by rw [run_program]; exact h1, ?_, h3, ?_, h5⟩
    · show ((start k j θ ++ st').map Prod.fst)[(c (k + j)).1]? = _
      rw [List.getElem?_map, h4]; rfl
    · rw [needs_program (θ := θ), h2]
      refine getD_eq ?_
      show ((start k j θ ++ st').map Prod.snd)[(c (k + j)).1]? = _
      rw [List.getElem?_map, h4]; rfl

/-- **Training.** If the recorded code does what the value model does, for all values of the dimensions of `θ`,
and at `θ` all operators are right, then its program trains the model. -/
theorem trains_of_sim {k j : Nat} {c : B Nat} {loss : (Nat → Dense ℝ) → Option (Dense ℝ)} {θ : Nat → Dense ℝ}
    (hθ : ∀ i < k + j, (θ i).WF)
    (hsim : ∀ τ, (∀ i < k + j, (θ i).Like (τ i)) →
      Sim (τ = θ) τ (start k j τ) c (loss τ) (fun st i v => D st i v ∧ k + j ≤ i))
    {L : Dense ℝ} (hL : loss θ = some L) (h1 : L.data.length = 1) :
    Trains k (program k j c) (result k j c) loss θ := by
  have hself : ∀ i < k + j, (θ i).Like (θ i) := fun i hi => ⟨hθ i hi, rfl, rfl⟩
  obtain ⟨vals, hrun, hy, hf, hn, hge⟩ := (sim_run (hsim θ hself)).2 L hL
  have hf := hf rfl
  have hlt : result k j c < (program k j c).length := by
    rw [← (ran_iff.mp hrun).len]
    exact (List.getElem?_eq_some_iff.mp hy).1
  have hs := program_safe hf hrun
  have hd := program_data hf hrun hθ
  have hyd := getD_eq (d := (⟨0, 0, []⟩ : Dense ℝ)) hy
  have hcall : ∃ f as, (program k j c)[result k j c]? = some (.call f as) := by
    have hg := List.getElem?_eq_getElem hlt
    rcases program_instr hf hrun hge hg with ⟨v, h, -⟩ | ⟨f, as, h, -⟩
    · rw [h] at hg
      rw [needs_const hg] at hn
      cases hn
    · exact ⟨f, as, by rw [hg, h]⟩
  obtain ⟨f, as, hcall⟩ := hcall
  have hheld := program_held hf hrun
  have hrunτ : ∀ τ : Nat → Dense ℝ, (∀ x, k ≤ x → τ x = θ x) →
      run (leafVals (program k j c) vals τ) ((program k j c).map held) [] = run τ (program k j c) [] := by
    intro τ hτ
    rw [hheld]; exact run_leafVals hf hrun hτ
  have hout : ∀ τ : Nat → Dense ℝ, (∀ x, k ≤ x → τ x = θ x) → (∀ i < k + j, (θ i).Like (τ i)) →
      output (program k j c) vals (result k j c) τ = number (loss τ) := by
    intro τ hτ hlike
    have h := sim_run (hsim τ hlike)
    unfold output
    rw [hrunτ τ hτ]
    cases hm : loss τ with
    | none => rw [h.1 hm]; rfl
    | some v =>
      obtain ⟨ws, hw, hv, -⟩ := h.2 v hm
      rw [hw]
      show (ws.getD _ _).val 0 = v.val 0
      rw [getD_eq hv]
  have hy1 : (vals.getD (result k j c) ⟨0, 0, []⟩).data.length = 1 := by rw [hyd]; exact h1
  refine ⟨vals, L, hlt, hrun, hy, hL, fun s₀ hcl hg0 => ⟨program_backward_returns hrun hd hs _ hcl, ?_, ?_⟩⟩
  · intro s hr hm
    obtain ⟨x, hx, -, -, h4⟩ := (backward_error (acyclic (ran_iff.mp hrun)) (progFns_atMost _) hcl hr hm).1
    obtain rfl := List.mem_singleton.mp hx
    simp only [progFns] at h4
    rw [if_pos (show (valOf vals (⟨result k j c, hlt⟩ : Fin _)).data.length = 1 from hy1)] at h4
    cases h4
  intro s hr hm
  have hop : ∀ x : Fin (program k j c).length, (graph (program k j c)).isOp x = true → s₀.grad x = none := by
    intro x hx
    refine hg0 x (Nat.le_of_not_lt fun hlt => ?_)
    have : (program k j c)[x.val]? = some (.leaf true) := program_param hlt
    simp [Graph.isOp, node_leaf this] at hx
  have hklen : k ≤ (program k j c).length := le_trans (Nat.le_add_right k j) (le_trans hge hlt.le)
  have hmove : ∀ (Θ : Nat → ℝ → Dense ℝ) (v : Nat → Nat → ℝ), (∀ l < k, Curve (θ l) (Θ l) (v l)) →
      (∀ᶠ t in nhds 0, (loss (withParams k (Θ · t) θ)).isSome) ∧
      HasDerivAt (fun t => number (loss (withParams k (Θ · t) θ)))
        (∑ l ∈ Finset.range k, ∑ i ∈ Finset.range (θ l).data.length,
          (gnum (gradOf s l) i - gnum (gradOf s₀ l) i) * v l i) 0 := by
    intro Θ v hΘ
    have hlike : ∀ t, ∀ i < k + j, (θ i).Like (withParams k (Θ · t) θ i) := by
      intro t i hi
      unfold withParams
      split
      · rename_i h; exact (hΘ i h).like t
      · exact hself i hi
    have hrest : ∀ t, ∀ x, k ≤ x → withParams k (Θ · t) θ x = θ x := fun t x hx => if_neg (by omega)
    obtain ⟨h1, h2⟩ := program_gradient_adds hrun hd hs hcall hn hy1 hcl hop hlt hr hm
      (Θ := fun t x => withParams k (Θ · t) θ x) (v := v) (by
        intro x hx
        have hxk : x < k := (program_trainable hf hrun).mp (trainable_iff.mpr hx)
        have e : (fun t => withParams k (Θ · t) θ x) = Θ x := by
          funext t; exact if_pos hxk
        rw [e]; exact hΘ x hxk)
    refine ⟨?_, ?_⟩
    · filter_upwards [h1] with t ht
      rw [hrunτ _ (hrest t)] at ht
      have h3 := sim_run (hsim _ (hlike t))
      cases hmτ : loss (withParams k (Θ · t) θ) with
      | none => rw [h3.1 hmτ] at ht; cases ht
      | some w => rfl
    · refine (h2.congr_of_eventuallyEq (Filter.Eventually.of_forall fun t =>
        (hout _ (hrest t) (hlike t)).symm)).congr_deriv ?_
      obtain ⟨F, hF⟩ : ∃ F : Nat → ℝ, F = fun x => if x < k then ∑ i ∈ Finset.range (θ x).data.length,
        (gnum (gradOf s x) i - gnum (gradOf s₀ x) i) * v x i else 0 := ⟨_, rfl⟩
      have e : ∀ x : Fin (program k j c).length, (if trainable (program k j c) x then
          ∑ i ∈ Finset.range (θ x).data.length, (gnum (s.grad x) i - gnum (s₀.grad x) i) * v x i else 0) = F x := by
        intro x
        simp only [hF, gradOf, x.isLt, dif_pos]
        by_cases hx : x.val < k
        · rw [if_pos ((program_trainable hf hrun).mpr hx), if_pos hx]
        · rw [if_neg (fun h => hx ((program_trainable hf hrun).mp h)), if_neg hx]
      rw [Finset.sum_congr rfl fun x _ => e x, Fin.sum_univ_eq_sum_range, hF, ← Finset.sum_filter]
      refine Finset.sum_congr ?_ fun _ _ => rfl
      ext x
      simp only [Finset.mem_filter, Finset.mem_range]
      omega
  refine ⟨hmove, ?_, fun l hl hu => hu.elim
    (program_keeps_grad hrun hcl hlt hr hm ((program_trainable hf hrun).mpr hl))
    (program_used_grad hrun hd hs hcall hcl hlt hr hm ((program_trainable hf hrun).mpr hl)), ?_⟩
  · intro l hl i hi
    obtain ⟨-, h⟩ := hmove (fun x t => if x = l.val then bump (θ x) i t else θ x)
      (fun x j => if x = l.val then (if j = i then 1 else 0) else 0) (by
        intro x hx
        by_cases e : x = l.val
        · simp only [if_pos e]; exact bump_curve (hθ x (by omega)) i
        · simp only [if_neg e]; exact const_curve (hθ x (by omega)))
    have e1 : (fun t => number (loss (moved θ l i t))) =
        fun t => number (loss (withParams k (fun x => if x = l.val then bump (θ x) i t else θ x) θ)) := by
      funext t
      congr 2
      funext x
      unfold moved withParams
      by_cases e : x = l.val
      · rw [if_pos e, if_pos (by omega)]; exact (if_pos e).symm
      · rw [if_neg e]; simp [e]
    rw [e1]
    refine h.congr_deriv ?_
    rw [Finset.sum_eq_single l.val]
    · simp [hi, gradOf]
    · intro x _ hx; simp [hx]
    · intro h; exact absurd (Finset.mem_range.mpr hl) h
  · rintro hg0 ⟨l, hl, i, hi, hne⟩
    obtain ⟨ε, hε, h⟩ := sgd_descends hrun hd hs hcall hn hy1 hcl hg0 hlt hr hm
      ((program_trainable hf hrun).mpr hl) hi hne
    refine ⟨ε, hε, fun α h0 hα τ hτ hτ' => ?_⟩
    obtain ⟨ha, hb⟩ := h α h0 hα τ fun x hx => hτ x ((program_trainable hf hrun).mp hx)
    have hlike : ∀ i < k + j, (θ i).Like (τ i) := by
      intro x hx
      by_cases hxk : x < k
      · have hxp : x < (program k j c).length :=
          (List.getElem?_eq_some_iff.mp (program_param (j := j) (c' := c) hxk)).1
        have := sgdStep_iff.mp (hτ ⟨x, hxp⟩ hxk)
        show (θ x).Like (τ x)
        rw [show τ x = _ from this]
        exact (descend_curve (hθ x hx) _).like α
      · rw [hτ' x (Nat.le_of_not_lt hxk)]; exact hself x hx
    rw [hout τ hτ' hlike, hyd] at hb
    rw [hrunτ τ hτ'] at ha
    have h2 := sim_run (hsim τ hlike)
    cases hmτ : loss τ with
    | none => rw [h2.1 hmτ] at ha; cases ha
    | some v =>
      rw [hmτ] at hb
      exact ⟨v, rfl, hb⟩

end Verif.Record
