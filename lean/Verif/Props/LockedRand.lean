import Verif.Model.LockedRand
import Verif.Props.RandPerm

set_option autoImplicit false
set_option linter.unusedSimpArgs false

/-!
# C57: the locked generator
-/

namespace Verif.LockedRand

section spec
variable {S L A : Type} (next : L → S → Out L A × S)

/-- A call run alone, from its beginning to its end: `Runs next l g r g'` if it takes the generator from `g` to `g'` and
returns `r` (`none`: panics). -/
inductive Runs : L → S → Option A → S → Prop
  | ret {l : L} {g g' : S} {a : A} : next l g = (.ret a, g') → Runs l g (some a) g'
  | panic {l : L} {g g' : S} : next l g = (.panic, g') → Runs l g none g'
  | cont {l l' : L} {g g1 g' : S} {r : Option A} : next l g = (.cont l', g1) → Runs l' g1 r g' → Runs l g r g'

/-- Calls one after the other: who calls, what, and what is returned. -/
inductive Seq : S → List (Nat × L × Option A) → S → Prop
  | nil (g : S) : Seq g [] g
  | cons {g g1 g' : S} {i : Nat} {l : L} {r : Option A} {ops : List (Nat × L × Option A)} :
      Runs next l g r g1 → Seq g1 ops g' → Seq g ((i, l, r) :: ops) g'

/-- What goroutine `i` calls and gets. -/
def callsOf (i : Nat) (ops : List (Nat × L × Option A)) : List (L × Option A) :=
  ops.filterMap fun o => if o.1 = i then some o.2 else none

/-- The calls `ops`, made one after the other, explain what all goroutines of `s` have got so far, and the generator. -/
structure Explains (g0 : S) (progs : List (List L)) (s : Sys S L A) (ops : List (Nat × L × Option A)) : Prop where
  /-- each goroutine has got what it gets in `ops` -/
  done : ∀ (i : Nat) t, s.threads[i]? = some t → t.done = (callsOf i ops).map (·.2)
  /-- the calls are the first ones of its program, in its order -/
  calls : ∀ (i : Nat) t, s.threads[i]? = some t → ∃ rest, progs[i]? = some ((callsOf i ops).map (·.1) ++ rest) ∧
    (t.pc = none → rest = t.todo)
  /-- there are no other calls -/
  known : ∀ o ∈ ops, o.1 < progs.length
  /-- when no call is under way the generator is where `ops` leave it -/
  seq : ∃ g, Seq next g0 ops g ∧ ((∀ (i : Nat) t, s.threads[i]? = some t → t.pc = none) → s.gen = g)

/-- Any number of steps. -/
abbrev Reach : Sys S L A → Sys S L A → Prop := Relation.ReflTransGen (Step next)

end spec

section proofs
variable {S L A : Type} {next : L → S → Out L A × S}

/-- Part of a call. -/
inductive Part (next : L → S → Out L A × S) : L → S → L → S → Prop
  | refl (l : L) (g : S) : Part next l g l g
  | snoc {l l1 l2 : L} {g g1 g2 : S} : Part next l g l1 g1 → next l1 g1 = (.cont l2, g2) → Part next l g l2 g2

theorem Part.runs {l l1 : L} {g g1 g2 : S} {r : Option A} (h : Part next l g l1 g1) (h' : Runs next l1 g1 r g2) :
    Runs next l g r g2 := by
  induction h with
  | refl => exact h'
  | snoc _ e ih => exact ih (.cont e h')

theorem Seq.snoc {g g1 g2 : S} {ops : List (Nat × L × Option A)} {i : Nat} {l : L} {r : Option A} (h : Seq next g ops g1)
    (h' : Runs next l g1 r g2) : Seq next g (ops ++ [(i, l, r)]) g2 := by
  induction h with
  | nil g => exact .cons h' (.nil _)
  | cons e _ ih => exact .cons e (ih h')

theorem callsOf_snoc (i j : Nat) (l : L) (r : Option A) (ops : List (Nat × L × Option A)) :
    callsOf j (ops ++ [(i, l, r)]) = callsOf j ops ++ if i = j then [(l, r)] else [] := by
  unfold callsOf
  rw [List.filterMap_append]
  by_cases h : i = j <;> simp [h]

theorem get_set {X : Type} {xs : List X} {i : Nat} {t a : X} (h : xs[i]? = some t) (j : Nat) :
    (xs.set i a)[j]? = if i = j then some a else xs[j]? := by
  rw [List.getElem?_set, if_pos (List.getElem?_eq_some_iff.mp h).1]

/-- The invariant of the runs. -/
structure Inv (next : L → S → Out L A × S) (g0 : S) (progs : List (List L)) (s : Sys S L A)
    (ops : List (Nat × L × Option A)) (g : S) : Prop where
  size : s.threads.length = progs.length
  seq : Seq next g0 ops g
  known : ∀ o ∈ ops, o.1 < progs.length
  done : ∀ (i : Nat) t, s.threads[i]? = some t → t.done = (callsOf i ops).map (·.2)
  idle : ∀ (i : Nat) t, s.threads[i]? = some t → t.pc = none → progs[i]? = some ((callsOf i ops).map (·.1) ++ t.todo)
  inside : ∀ (i : Nat) t l, s.threads[i]? = some t → t.pc = some l → s.locked = true ∧
    (∀ (j : Nat) t', s.threads[j]? = some t' → t'.pc ≠ none → j = i) ∧
    ∃ c, progs[i]? = some ((callsOf i ops).map (·.1) ++ c :: t.todo) ∧ Part next c g l s.gen
  gen : (∀ (i : Nat) t, s.threads[i]? = some t → t.pc = none) → s.gen = g
  panicked : ∀ (i : Nat) t, s.threads[i]? = some t → none ∈ t.done → s.locked = true ∧
    ∀ (j : Nat) t', s.threads[j]? = some t' → t'.pc = none
  held : s.locked = true → (∃ (i : Nat) (t : Thread L A), s.threads[i]? = some t ∧ t.pc ≠ none) ∨
    ∃ (i : Nat) (t : Thread L A), s.threads[i]? = some t ∧ none ∈ t.done

theorem inv_init (g0 : S) (progs : List (List L)) : Inv next g0 progs (init g0 progs : Sys S L A) [] g0 := by
  have ht : ∀ (i : Nat) t, (init g0 progs : Sys S L A).threads[i]? = some t → ∃ p, progs[i]? = some p ∧ t = ⟨p, none, []⟩ := by
    intro i t h
    simp only [init, List.getElem?_map, Option.map_eq_some_iff] at h
    obtain ⟨p, hp, rfl⟩ := h
    exact ⟨p, hp, rfl⟩
  refine ⟨by simp [init], .nil _, by simp, ?_, ?_, ?_, fun _ => rfl, ?_, by simp [init]⟩
  · intro i t h; obtain ⟨p, -, rfl⟩ := ht i t h; rfl
  · intro i t h _; obtain ⟨p, hp, rfl⟩ := ht i t h; simpa [callsOf] using hp
  · intro i t l h h'; obtain ⟨p, -, rfl⟩ := ht i t h; simp at h'
  · intro i t h h'; obtain ⟨p, -, rfl⟩ := ht i t h; simp at h'

theorem Inv.alone {g0 : S} {progs : List (List L)} {s : Sys S L A} {ops : List (Nat × L × Option A)} {g : S}
    (v : Inv next g0 progs s ops g) {i : Nat} {t : Thread L A} {l : L} (h : s.threads[i]? = some t) (hp : t.pc = some l)
    {j : Nat} {t' : Thread L A} (hj : s.threads[j]? = some t') (hne : i ≠ j) : t'.pc = none := by
  by_contra hc
  exact hne ((v.inside i t l h hp).2.1 j t' hj hc).symm

theorem Inv.clean {g0 : S} {progs : List (List L)} {s : Sys S L A} {ops : List (Nat × L × Option A)} {g : S}
    (v : Inv next g0 progs s ops g) {i : Nat} {t : Thread L A} {l : L} (h : s.threads[i]? = some t) (hp : t.pc = some l)
    {j : Nat} {t' : Thread L A} (hj : s.threads[j]? = some t') : none ∉ t'.done := by
  intro hc
  rw [(v.panicked j t' hj hc).2 i t h] at hp
  exact absurd hp (by simp)

/-- The end of a call: with a result, the mutex is free again; with a panic it is not. -/
theorem inv_end {g0 : S} {progs : List (List L)} {s : Sys S L A} {ops : List (Nat × L × Option A)} {g g' : S}
    (v : Inv next g0 progs s ops g) {i : Nat} {t : Thread L A} {l : L} {r : Option A} (h : s.threads[i]? = some t)
    (hp : t.pc = some l) (hr : Runs next l s.gen r g') {b : Bool} (hb : b = r.isNone) :
    ∃ c, Inv next g0 progs ⟨g', b, s.threads.set i ⟨t.todo, none, t.done ++ [r]⟩⟩ (ops ++ [(i, c, r)]) g' := by
  obtain ⟨hl, hu, c, hc, hpart⟩ := v.inside i t l h hp
  have hi : i < progs.length := v.size ▸ (List.getElem?_eq_some_iff.mp h).1
  have hn : ∀ (j : Nat) t', (s.threads.set i ⟨t.todo, none, t.done ++ [r]⟩)[j]? = some t' → t'.pc = none := by
    intro j t' hj
    rw [get_set h] at hj
    split at hj
    · obtain rfl := Option.some.inj hj; rfl
    · rename_i hne; exact v.alone h hp hj hne
  refine ⟨c, by simpa using v.size, v.seq.snoc (hpart.runs hr), ?_, ?_, ?_, ?_, fun _ => rfl, ?_, ?_⟩
  · intro o ho
    rcases List.mem_append.mp ho with ho | ho
    · exact v.known o ho
    · obtain rfl := List.mem_singleton.mp ho; exact hi
  · intro j t' hj
    change (s.threads.set i _)[j]? = _ at hj
    rw [get_set h] at hj
    rw [callsOf_snoc]
    split at hj
    · rename_i e; subst e
      obtain rfl := Option.some.inj hj
      simp [v.done i t h]
    · rename_i hne; simp [hne, v.done j t' hj]
  · intro j t' hj hpc
    change (s.threads.set i _)[j]? = _ at hj
    rw [get_set h] at hj
    rw [callsOf_snoc]
    split at hj
    · rename_i e; subst e
      obtain rfl := Option.some.inj hj
      simp [hc]
    · rename_i hne; simp [hne, v.idle j t' hj hpc]
  · intro j t' l' hj hpc
    rw [hn j t' hj] at hpc
    exact absurd hpc (by simp)
  · intro j t' hj hd
    refine ⟨?_, hn⟩
    change (s.threads.set i _)[j]? = _ at hj
    rw [get_set h] at hj
    split at hj
    · obtain rfl := Option.some.inj hj
      rcases List.mem_append.mp hd with hd | hd
      · exact absurd hd (v.clean h hp h)
      · rw [← List.mem_singleton.mp hd] at hb; exact hb
    · exact absurd hd (v.clean h hp hj)
  · intro hb'
    refine .inr ⟨i, _, by rw [get_set h, if_pos rfl], ?_⟩
    have hb' : b = true := hb'
    rw [hb, Option.isNone_iff_eq_none] at hb'
    simp [hb']

theorem inv_step {g0 : S} {progs : List (List L)} {s s' : Sys S L A} {ops : List (Nat × L × Option A)} {g : S}
    (v : Inv next g0 progs s ops g) (st : Step next s s') : ∃ ext g', Inv next g0 progs s' (ops ++ ext) g' := by
  cases st with
  | @lock i t l ls h hp ht hl =>
    have hall : ∀ (j : Nat) t', s.threads[j]? = some t' → t'.pc = none := by
      intro j t' hj
      by_contra hc
      obtain ⟨l', hl'⟩ := Option.ne_none_iff_exists'.mp hc
      rw [(v.inside j t' l' hj hl').1] at hl
      exact absurd hl (by simp)
    have hclean : ∀ (j : Nat) t', s.threads[j]? = some t' → none ∉ t'.done := by
      intro j t' hj hc
      rw [(v.panicked j t' hj hc).1] at hl
      exact absurd hl (by simp)
    refine ⟨[], g, by simpa using v.size, by simpa using v.seq, by simpa using v.known, ?_, ?_, ?_, ?_, ?_, ?_⟩
    · intro j t' hj
      change (s.threads.set i _)[j]? = _ at hj
      rw [get_set h] at hj
      rw [List.append_nil]
      split at hj
      · rename_i e; subst e
        obtain rfl := Option.some.inj hj
        exact v.done i t h
      · exact v.done j t' hj
    · intro j t' hj hpc
      change (s.threads.set i _)[j]? = _ at hj
      rw [get_set h] at hj
      rw [List.append_nil]
      split at hj
      · obtain rfl := Option.some.inj hj
        exact absurd hpc (by simp)
      · exact v.idle j t' hj hpc
    · intro j t' l' hj hpc
      change (s.threads.set i _)[j]? = _ at hj
      rw [get_set h] at hj
      rw [List.append_nil]
      split at hj
      · rename_i e; subst e
        obtain rfl := Option.some.inj hj
        refine ⟨rfl, ?_, l, ?_, ?_⟩
        · intro k t'' hk hne
          change (s.threads.set i _)[k]? = _ at hk
          rw [get_set h] at hk
          split at hk
          · rename_i e; exact e.symm
          · exact absurd (hall k t'' hk) hne
        · rw [v.idle i t h hp, ht]
        · obtain rfl := Option.some.inj hpc
          change Part next l g l s.gen
          rw [v.gen hall]
          exact .refl _ _
      · rw [hall j t' hj] at hpc
        exact absurd hpc (by simp)
    · intro hn
      exact absurd (hn i _ (by rw [get_set h, if_pos rfl])) (by simp)
    · intro j t' hj hd
      change (s.threads.set i _)[j]? = _ at hj
      rw [get_set h] at hj
      split at hj
      · obtain rfl := Option.some.inj hj
        exact absurd hd (hclean i t h)
      · exact absurd hd (hclean j t' hj)
    · intro _
      exact .inl ⟨i, _, by rw [get_set h, if_pos rfl], by simp⟩
  | @cont i t l l' g' h hp hx =>
    obtain ⟨hl, hu, c, hc, hpart⟩ := v.inside i t l h hp
    refine ⟨[], g, by simpa using v.size, by simpa using v.seq, by simpa using v.known, ?_, ?_, ?_, ?_, ?_, ?_⟩
    · intro j t' hj
      change (s.threads.set i _)[j]? = _ at hj
      rw [get_set h] at hj
      rw [List.append_nil]
      split at hj
      · rename_i e; subst e
        obtain rfl := Option.some.inj hj
        exact v.done i t h
      · exact v.done j t' hj
    · intro j t' hj hpc
      change (s.threads.set i _)[j]? = _ at hj
      rw [get_set h] at hj
      rw [List.append_nil]
      split at hj
      · obtain rfl := Option.some.inj hj
        exact absurd hpc (by simp)
      · exact v.idle j t' hj hpc
    · intro j t' l'' hj hpc
      change (s.threads.set i _)[j]? = _ at hj
      rw [get_set h] at hj
      rw [List.append_nil]
      split at hj
      · rename_i e; subst e
        obtain rfl := Option.some.inj hj
        obtain rfl := Option.some.inj hpc
        refine ⟨hl, ?_, c, hc, hpart.snoc hx⟩
        intro k t'' hk hne
        change (s.threads.set i _)[k]? = _ at hk
        rw [get_set h] at hk
        split at hk
        · rename_i e; exact e.symm
        · exact hu k t'' hk hne
      · rename_i hne
        rw [v.alone h hp hj hne] at hpc
        exact absurd hpc (by simp)
    · intro hn
      exact absurd (hn i _ (by rw [get_set h, if_pos rfl])) (by simp)
    · intro j t' hj hd
      change (s.threads.set i _)[j]? = _ at hj
      rw [get_set h] at hj
      split at hj
      · obtain rfl := Option.some.inj hj
        have hd : none ∈ t.done := hd
        exact absurd hd (v.clean h hp h)
      · exact absurd hd (v.clean h hp hj)
    · intro _
      exact .inl ⟨i, _, by rw [get_set h, if_pos rfl], by simp⟩
  | @ret i t l a g' h hp hx =>
    obtain ⟨c, hv⟩ := inv_end v h hp (.ret hx) (b := false) rfl
    exact ⟨_, g', hv⟩
  | @panic i t l g' h hp hx =>
    obtain ⟨c, hv⟩ := inv_end v h hp (.panic hx) (b := s.locked) (by rw [(v.inside i t l h hp).1]; rfl)
    exact ⟨_, g', hv⟩

theorem inv_reach {g0 : S} {progs : List (List L)} {s s' : Sys S L A} {ops : List (Nat × L × Option A)} {g : S}
    (v : Inv next g0 progs s ops g) (st : Reach next s s') : ∃ ext g', Inv next g0 progs s' (ops ++ ext) g' := by
  induction st with
  | refl => exact ⟨[], g, by simpa using v⟩
  | tail _ h ih =>
    obtain ⟨e1, g1, v1⟩ := ih
    obtain ⟨e2, g2, v2⟩ := inv_step v1 h
    exact ⟨e1 ++ e2, g2, by rw [← List.append_assoc]; exact v2⟩

theorem Inv.explains {g0 : S} {progs : List (List L)} {s : Sys S L A} {ops : List (Nat × L × Option A)} {g : S}
    (v : Inv next g0 progs s ops g) : Explains next g0 progs s ops := by
  refine ⟨v.done, ?_, v.known, g, v.seq, v.gen⟩
  intro i t h
  cases hp : t.pc with
  | none => exact ⟨t.todo, v.idle i t h hp, fun _ => rfl⟩
  | some l =>
    obtain ⟨-, -, c, hc, -⟩ := v.inside i t l h hp
    exact ⟨_, hc, fun h' => absurd h' (by simp)⟩

end proofs

section claims
variable {S L A : Type} (next : L → S → Out L A × S)

/-- **C57.** Whatever the goroutines, their calls and the schedule: at every moment there is an order of the finished calls in
which they, made one after the other, give exactly the results the goroutines got; and the order only grows, so a call
finished at a moment comes before all calls finished later. -/
theorem linearizable (g0 : S) (progs : List (List L)) {s s' : Sys S L A} (h : Reach next (init g0 progs) s)
    (h' : Reach next s s') : ∃ ops ext, Explains next g0 progs s ops ∧ Explains next g0 progs s' (ops ++ ext) := by
  obtain ⟨ops, g, v⟩ := inv_reach (inv_init g0 progs) h
  obtain ⟨ext, g', v'⟩ := inv_reach v h'
  exact ⟨_, ext, v.explains, v'.explains⟩

/-- Every run of a call ends with a result, never with a panic, whatever the state of the generator. -/
def Returns (l : L) : Prop := ∀ g, ∃ a g', Runs next l g (some a) g'

/-- All calls have been made and have returned a value. -/
def Finished (progs : List (List L)) (s : Sys S L A) : Prop :=
  ∀ (i : Nat) p, progs[i]? = some p → ∃ t, s.threads[i]? = some t ∧ t.todo = [] ∧ t.pc = none ∧ t.done.length = p.length ∧
    none ∉ t.done

variable {next}

theorem runs_det {l : L} {g : S} {r r' : Option A} {g1 g2 : S} (h : Runs next l g r g1) (h' : Runs next l g r' g2) :
    r = r' ∧ g1 = g2 := by
  induction h with
  | ret e => cases h' with
    | ret e' => rw [e] at e'; simp at e'; exact ⟨by rw [e'.1], e'.2⟩
    | panic e' => rw [e] at e'; simp at e'
    | cont e' _ => rw [e] at e'; simp at e'
  | panic e => cases h' with
    | ret e' => rw [e] at e'; simp at e'
    | panic e' => rw [e] at e'; simp at e'; exact ⟨rfl, e'⟩
    | cont e' _ => rw [e] at e'; simp at e'
  | cont e _ ih => cases h' with
    | ret e' => rw [e] at e'; simp at e'
    | panic e' => rw [e] at e'; simp at e'
    | cont e' h'' => rw [e] at e'; simp at e'; obtain ⟨rfl, rfl⟩ := e'; exact ih h''

theorem part_runs {c l : L} {g g1 g2 : S} {r : Option A} (h : Part next c g l g1) (h' : Runs next c g r g2) :
    Runs next l g1 r g2 := by
  induction h with
  | refl => exact h'
  | snoc _ e ih => cases ih h' with
    | ret e' => rw [e] at e'; simp at e'
    | panic e' => rw [e] at e'; simp at e'
    | cont e' h'' => rw [e] at e'; simp at e'; obtain ⟨rfl, rfl⟩ := e'; exact h''

theorem Seq.runs {g0 g : S} {ops : List (Nat × L × Option A)} (h : Seq next g0 ops g) : ∀ o ∈ ops, ∃ g1 g2, Runs next o.2.1 g1 o.2.2 g2 := by
  induction h with
  | nil => simp
  | cons e _ ih =>
    intro o ho
    rcases List.mem_cons.mp ho with rfl | ho
    · exact ⟨_, _, e⟩
    · exact ih o ho

theorem Inv.noPanic {g0 : S} {progs : List (List L)} {s : Sys S L A} {ops : List (Nat × L × Option A)} {g : S}
    (v : Inv next g0 progs s ops g) (hr : ∀ p ∈ progs, ∀ l ∈ p, Returns next l) {i : Nat} {t : Thread L A}
    (h : s.threads[i]? = some t) : none ∉ t.done := by
  intro hd
  rw [v.done i t h] at hd
  obtain ⟨⟨l, r⟩, ho, hor⟩ := List.mem_map.mp hd
  obtain ⟨o, hoo, hoe⟩ := List.mem_filterMap.mp ho
  obtain ⟨rest, hp, -⟩ := v.explains.calls i t h
  have hl : l ∈ (callsOf i ops).map (·.1) ++ rest := List.mem_append_left _ (List.mem_map.mpr ⟨_, ho, rfl⟩)
  split at hoe
  · have hoe : o.2 = (l, r) := Option.some.inj hoe
    obtain ⟨g1, g2, hruns⟩ := v.seq.runs o hoo
    rw [hoe] at hruns
    have hor : r = none := hor
    obtain ⟨a, g3, hret⟩ := hr _ (List.mem_of_getElem? hp) l hl g1
    have := (runs_det hruns hret).1
    rw [show (l, r).2 = r from rfl, hor] at this
    exact absurd this (by simp)
  · simp at hoe

/-- The call a goroutine is in ends with a result. -/
theorem Inv.current {g0 : S} {progs : List (List L)} {s : Sys S L A} {ops : List (Nat × L × Option A)} {g : S}
    (v : Inv next g0 progs s ops g) (hr : ∀ p ∈ progs, ∀ l ∈ p, Returns next l) {i : Nat} {t : Thread L A} {l : L}
    (h : s.threads[i]? = some t) (hp : t.pc = some l) : ∃ a g', Runs next l s.gen (some a) g' := by
  obtain ⟨-, -, c, hc, hpart⟩ := v.inside i t l h hp
  obtain ⟨a, g', hret⟩ := hr _ (List.mem_of_getElem? hc) c (by simp) g
  exact ⟨a, g', part_runs hpart hret⟩

/-- **C57.** No deadlock: if no call panics, then at every moment all calls have returned or some goroutine can go on. -/
theorem no_deadlock (g0 : S) (progs : List (List L)) (hr : ∀ p ∈ progs, ∀ l ∈ p, Returns next l) {s : Sys S L A}
    (h : Reach next (init g0 progs) s) : Finished progs s ∨ ∃ s', Step next s s' := by
  obtain ⟨ops, g, v⟩ := inv_reach (inv_init g0 progs) h
  cases hl : s.locked with
  | true =>
    right
    rcases v.held hl with ⟨i, t, hi, hp⟩ | ⟨i, t, hi, hd⟩
    · obtain ⟨l, hp⟩ := Option.ne_none_iff_exists'.mp hp
      obtain ⟨a, g', hx⟩ := v.current hr hi hp
      cases hx with
      | ret e => exact ⟨_, .ret hi hp e⟩
      | cont e _ => exact ⟨_, .cont hi hp e⟩
    · exact absurd hd (v.noPanic hr hi)
  | false =>
    have hall : ∀ (j : Nat) t', s.threads[j]? = some t' → t'.pc = none := by
      intro j t' hj
      by_contra hc
      obtain ⟨l', hl'⟩ := Option.ne_none_iff_exists'.mp hc
      rw [(v.inside j t' l' hj hl').1] at hl
      exact absurd hl (by simp)
    by_cases ht : ∀ (j : Nat) t', s.threads[j]? = some t' → t'.todo = []
    · left
      intro i p hp
      have hi : i < s.threads.length := v.size ▸ (List.getElem?_eq_some_iff.mp hp).1
      have hti : s.threads[i]? = some s.threads[i] := List.getElem?_eq_getElem hi
      refine ⟨_, hti, ht i _ hti, hall i _ hti, ?_, v.noPanic hr hti⟩
      have := v.idle i _ hti (hall i _ hti)
      rw [ht i _ hti, hp, List.append_nil, Option.some.injEq] at this
      rw [v.done i _ hti, this]
      simp
    · right
      push Not at ht
      obtain ⟨j, t', hj, hne⟩ := ht
      obtain ⟨l, ls, hls⟩ := List.exists_cons_of_ne_nil hne
      exact ⟨_, .lock hj (hall j t' hj) hls hl⟩

theorem sum_set {X : Type} (f : X → Nat) : ∀ {xs : List X} {i : Nat} {t a : X}, xs[i]? = some t →
    ((xs.set i a).map f).sum + f t = (xs.map f).sum + f a
  | x :: xs, 0, t, a, h => by
    obtain rfl : x = t := by simpa using h
    simp; omega
  | x :: xs, i + 1, t, a, h => by
    have := sum_set f (xs := xs) (i := i) (a := a) (by simpa using h)
    rw [List.set_cons_succ, List.map_cons, List.map_cons, List.sum_cons, List.sum_cons]
    omega

theorem acc_free {g0 : S} {progs : List (List L)} (N : Nat)
    (ih : ∀ s ops g, Inv next g0 progs s ops g → (s.threads.map (·.todo.length)).sum < N → Acc (fun b a => Step next a b) s)
    {s : Sys S L A} {ops : List (Nat × L × Option A)} {g : S} (v : Inv next g0 progs s ops g)
    (hN : (s.threads.map (·.todo.length)).sum = N) (hall : ∀ (j : Nat) t', s.threads[j]? = some t' → t'.pc = none) :
    Acc (fun b a => Step next a b) s := by
  refine .intro _ fun s' st => ?_
  obtain ⟨ext, g', v'⟩ := inv_step v st
  cases st with
  | @lock i t l ls h hp ht hl =>
    refine ih _ _ _ v' ?_
    have := sum_set (fun t : Thread L A => t.todo.length) (a := ⟨ls, some l, t.done⟩) h
    simp only [ht, List.length_cons] at this
    simp only
    omega
  | cont h hp _ => rw [hall _ _ h] at hp; exact absurd hp (by simp)
  | ret h hp _ => rw [hall _ _ h] at hp; exact absurd hp (by simp)
  | panic h hp _ => rw [hall _ _ h] at hp; exact absurd hp (by simp)

theorem acc_inside {g0 : S} {progs : List (List L)} (N : Nat)
    (ih : ∀ s ops g, Inv next g0 progs s ops g → (s.threads.map (·.todo.length)).sum < N → Acc (fun b a => Step next a b) s)
    {l : L} {gen g2 : S} {r : Option A} (hx : Runs next l gen r g2) : ∀ {s : Sys S L A} {ops : List (Nat × L × Option A)} {g : S}
    {i : Nat} {t : Thread L A}, Inv next g0 progs s ops g → s.gen = gen → r.isSome → s.threads[i]? = some t → t.pc = some l →
    (s.threads.map (·.todo.length)).sum = N → Acc (fun b a => Step next a b) s := by
  have key : ∀ {l : L} {s s' : Sys S L A} {ops : List (Nat × L × Option A)} {g : S} {i : Nat} {t : Thread L A},
      Inv next g0 progs s ops g → s.threads[i]? = some t → t.pc = some l → Step next s s' →
      (∃ l' g', next l s.gen = (.cont l', g') ∧ s' = ⟨g', s.locked, s.threads.set i ⟨t.todo, some l', t.done⟩⟩) ∨
      (∃ a g', next l s.gen = (.ret a, g') ∧ s' = ⟨g', false, s.threads.set i ⟨t.todo, none, t.done ++ [some a]⟩⟩) ∨
      (∃ g', next l s.gen = (.panic, g')) := by
    intro l s s' ops g i t v h hp st
    have same : ∀ {j : Nat} {t' : Thread L A} {l' : L}, s.threads[j]? = some t' → t'.pc = some l' → j = i ∧ t' = t ∧ l' = l := by
      intro j t' l' hj hp'
      have hji := (v.inside i t l h hp).2.1 j t' hj (by rw [hp']; simp)
      subst hji
      rw [h] at hj
      obtain rfl := Option.some.inj hj
      rw [hp] at hp'
      exact ⟨rfl, rfl, (Option.some.inj hp').symm⟩
    cases st with
    | lock _ _ _ hl => rw [(v.inside i t l h hp).1] at hl; exact absurd hl (by simp)
    | cont hj hp' e => obtain ⟨rfl, rfl, rfl⟩ := same hj hp'; exact .inl ⟨_, _, e, rfl⟩
    | ret hj hp' e => obtain ⟨rfl, rfl, rfl⟩ := same hj hp'; exact .inr (.inl ⟨_, _, e, rfl⟩)
    | panic hj hp' e => obtain ⟨rfl, rfl, rfl⟩ := same hj hp'; exact .inr (.inr ⟨_, e⟩)
  induction hx with
  | @ret l gen gen' a e =>
    intro s ops g i t v hg _ h hp hN
    refine .intro _ fun s' st => ?_
    obtain ⟨ext, g', v'⟩ := inv_step v st
    rw [← hg] at e
    rcases key v h hp st with ⟨_, _, e', _⟩ | ⟨a', g1, e', rfl⟩ | ⟨_, e'⟩
    · rw [e] at e'; simp at e'
    · refine acc_free N ih v' ?_ ?_
      · have := sum_set (fun t : Thread L A => t.todo.length) (a := ⟨t.todo, none, t.done ++ [some a']⟩) h
        simp only at this ⊢
        omega
      · intro j t' hj
        change (s.threads.set i _)[j]? = _ at hj
        rw [get_set h] at hj
        split at hj
        · obtain rfl := Option.some.inj hj; rfl
        · rename_i hne; exact v.alone h hp hj hne
    · rw [e] at e'; simp at e'
  | panic => intro s ops g i t _ _ hs; simp at hs
  | @cont l l1 gen gen1 gen' r e _ ihx =>
    intro s ops g i t v hg hs h hp hN
    refine .intro _ fun s' st => ?_
    obtain ⟨ext, g', v'⟩ := inv_step v st
    rw [← hg] at e
    rcases key v h hp st with ⟨l', g1, e', rfl⟩ | ⟨_, _, e', _⟩ | ⟨_, e'⟩
    · rw [e] at e'
      simp only [Prod.mk.injEq, Out.cont.injEq] at e'
      obtain ⟨rfl, rfl⟩ := e'
      refine ihx v' rfl hs (i := i) (t := ⟨t.todo, some l1, t.done⟩) (by rw [get_set h, if_pos rfl]) rfl ?_
      have := sum_set (fun t : Thread L A => t.todo.length) (a := ⟨t.todo, some l1, t.done⟩) h
      simp only at this ⊢
      omega
    · rw [e] at e'; simp at e'
    · rw [e] at e'; simp at e'

/-- **C57.** No livelock: if no call panics and every call alone ends, there is no infinite run, whatever the schedule. With
`no_deadlock`: every run can be continued, and ends, with all calls returned. -/
theorem terminates (g0 : S) (progs : List (List L)) (hr : ∀ p ∈ progs, ∀ l ∈ p, Returns next l) {s : Sys S L A}
    (h : Reach next (init g0 progs) s) : Acc (fun b a => Step next a b) s := by
  obtain ⟨ops, g, v⟩ := inv_reach (inv_init g0 progs) h
  clear h
  generalize hN : (s.threads.map (·.todo.length)).sum = N
  induction N using Nat.strong_induction_on generalizing s ops g with
  | _ N ih =>
    have ih' : ∀ s ops g, Inv next g0 progs s ops g → (s.threads.map (·.todo.length)).sum < N →
        Acc (fun b a => Step next a b) s := fun s ops g v hlt => ih _ hlt ops g v rfl
    by_cases hall : ∀ (j : Nat) t', s.threads[j]? = some t' → t'.pc = none
    · exact acc_free N ih' v hN hall
    · push Not at hall
      obtain ⟨i, t, hi, hp⟩ := hall
      obtain ⟨l, hp⟩ := Option.ne_none_iff_exists'.mp hp
      obtain ⟨a, g', hx⟩ := v.current hr hi hp
      exact acc_inside N ih' hx v rfl rfl hi hp hN

/-- **C57, violated.** After one recovered panic nothing moves any more: the mutex is never given back. -/
theorem panic_deadlock (g0 : S) (progs : List (List L)) {s : Sys S L A} (h : Reach next (init g0 progs) s) {i : Nat}
    {t : Thread L A} (hi : s.threads[i]? = some t) (hd : none ∈ t.done) (s' : Sys S L A) : ¬ Step next s s' := by
  obtain ⟨ops, g, v⟩ := inv_reach (inv_init g0 progs) h
  obtain ⟨hl, hall⟩ := v.panicked i t hi hd
  intro st
  cases st with
  | lock _ _ _ hl' => rw [hl] at hl'; exact absurd hl' (by simp)
  | cont h hp _ => rw [hall _ _ h] at hp; exact absurd hp (by simp)
  | ret h hp _ => rw [hall _ _ h] at hp; exact absurd hp (by simp)
  | panic h hp _ => rw [hall _ _ h] at hp; exact absurd hp (by simp)

/-- **C57, violated.** The same for a call that uses the `LockedRand` it is a method of. -/
theorem relock_deadlock (g0 : S) (progs : List (List L)) {s : Sys S L A} (h : Reach next (init g0 progs) s) {i : Nat}
    {t : Thread L A} {l : L} {g1 : S} (hi : s.threads[i]? = some t) (hp : t.pc = some l) (hx : next l s.gen = (.relock, g1))
    (s' : Sys S L A) : ¬ Step next s s' := by
  obtain ⟨ops, g, v⟩ := inv_reach (inv_init g0 progs) h
  have same : ∀ {j : Nat} {t' : Thread L A} {l' : L}, s.threads[j]? = some t' → t'.pc = some l' → l' = l := by
    intro j t' l' hj hp'
    have hji := (v.inside i t l hi hp).2.1 j t' hj (by rw [hp']; simp)
    subst hji
    rw [hi] at hj
    obtain rfl := Option.some.inj hj
    rw [hp] at hp'
    exact (Option.some.inj hp').symm
  intro st
  cases st with
  | lock _ _ _ hl => rw [(v.inside i t l hi hp).1] at hl; exact absurd hl (by simp)
  | cont hj hp' e => rw [same hj hp', hx] at e; simp at e
  | ret hj hp' e => rw [same hj hp', hx] at e; simp at e
  | panic hj hp' e => rw [same hj hp', hx] at e; simp at e

end claims

/-! ### The methods -/

section methods
open Rand (Word PCG maxUint64)

/-- What comes after `Uint64n` has returned `w`. -/
def After (k : Cont) (w : Nat) (g : PCG) (a : Option (List Nat)) (g' : PCG) : Prop :=
  match back k w with
  | .ret x => a = some x ∧ g' = g
  | .cont l => Runs next l g a g'
  | .panic => a = none ∧ g' = g
  | .relock => False

theorem after_runs {l : Pc} {k : Cont} {w : Nat} {g g1 g' : PCG} {a : Option (List Nat)} (h : next l g = (back k w, g1))
    (h' : After k w g1 a g') : Runs next l g a g' := by
  unfold After at h'
  cases hb : back k w with
  | ret x => rw [hb] at h h'; obtain ⟨rfl, rfl⟩ := h'; exact .ret h
  | cont l => rw [hb] at h h'; exact .cont h h'
  | panic => rw [hb] at h h'; obtain ⟨rfl, rfl⟩ := h'; exact .panic h
  | relock => rw [hb] at h'; exact h'.elim

theorem redraw_runs {n c v : Word} {g : PCG} {r : Word × PCG} {k : Cont} {a : Option (List Nat)} {g' : PCG}
    (h : Rand.redraw PCG.uint64 c v g = some r) (hk : After k (r.1 % n).toNat r.2 a g') :
    Runs next (.redraw n c v k) g a g' := by
  revert v g r
  have := Rand.redraw.partial_correctness (next := PCG.uint64) (ceiling := c)
    (motive := fun v g r => After k (r.1 % n).toNat r.2 a g' → Runs next (.redraw n c v k) g a g') (by
      intro f ih v g r h hk
      split at h
      · rename_i hc
        exact .cont (by simp only [next]; rw [if_pos hc]) (ih _ _ _ h hk)
      · rename_i hc
        obtain rfl := Option.some.inj h
        exact after_runs (by simp only [next]; rw [if_neg hc]) hk)
  exact fun {_ _ _} h hk => this _ _ _ h hk

theorem uint64n_runs {n : Word} {g : PCG} {r : Word × PCG} {k : Cont} {a : Option (List Nat)} {g' : PCG}
    (h : Rand.uint64n PCG.uint64 n g = some r) (hk : After k r.1.toNat r.2 a g') : Runs next (.uint64n n k) g a g' := by
  unfold Rand.uint64n at h
  split at h
  · rename_i hm
    split at h
    · simp at h
    · rename_i h0
      obtain rfl := Option.some.inj h
      exact after_runs (by simp only [next]; rw [if_pos hm, if_neg h0]) hk
  · rename_i hm
    simp only at h
    split at h
    · rename_i hv
      simp only [Option.bind_eq_bind, Option.bind_eq_some_iff, Option.some.injEq] at h
      obtain ⟨q, hq, rfl⟩ := h
      exact .cont (by simp only [next]; rw [if_neg hm, if_pos hv]) (redraw_runs hq hk)
    · rename_i hv
      obtain rfl := Option.some.inj h
      exact after_runs (by simp only [next]; rw [if_neg hm, if_neg hv]) hk

theorem intn_runs {n : Int} {g : PCG} {r : Nat × PCG} {k : Cont} {a : Option (List Nat)} {g' : PCG}
    (h : Rand.intn PCG.uint64 n g = some r) (hk : After k r.1 r.2 a g') : Runs next (.intn n k) g a g' := by
  unfold Rand.intn at h
  split at h
  · simp at h
  · rename_i hn
    simp only [Option.bind_eq_bind, Option.bind_eq_some_iff, Option.some.injEq] at h
    obtain ⟨q, hq, rfl⟩ := h
    exact .cont (by simp only [next]; rw [if_neg hn]) (uint64n_runs hq hk)

theorem permLoop_runs (n : Nat) : ∀ (d i : Nat) (m : List Nat) (g : PCG) (r : List Nat × PCG), i + d = n →
    (List.range' i d).foldlM (fun ms (i : Nat) => do
      let r ← Rand.intn PCG.uint64 ((i : Int) + 1) ms.2
      let m ← Rand.permStep ms.1 i r.1
      some (m, r.2)) (m, g) = some r → Runs next (.permLoop n i m) g (some r.1) r.2
  | 0, i, m, g, r, hd, h => by
    obtain rfl : (m, g) = r := by simpa using h
    exact .ret (by simp only [next]; rw [if_neg (by omega)])
  | d + 1, i, m, g, r, hd, h => by
    simp only [List.range'_succ, List.foldlM_cons, Option.bind_eq_bind, Option.bind_eq_some_iff] at h
    obtain ⟨⟨m1, g1⟩, ⟨q, hq, m2, hm, he⟩, h⟩ := h
    simp only [Option.some.injEq, Prod.mk.injEq] at he
    obtain ⟨rfl, rfl⟩ := he
    refine .cont (l' := .intn ((i : Int) + 1) (.perm n i m)) (by simp only [next]; rw [if_pos (by omega)]) (intn_runs hq ?_)
    simp only [After, back, hm]
    exact permLoop_runs n d (i + 1) m2 q.2 r (by omega) h

theorem perm_runs {n : Nat} {g : PCG} {r : List Nat × PCG} (h : Rand.perm PCG.uint64 n g = some r) :
    Runs next (.perm n) g (some r.1) r.2 := by
  refine .cont (l' := .permLoop n 0 (List.replicate n 0)) (by simp [next]) (permLoop_runs n n 0 _ g r (by omega) ?_)
  rw [Rand.perm, List.range_eq_range'] at h
  exact h

/-- The calls that do not panic: those within the documented ranges (`int` has 64 bits). -/
def Valid : Pc → Prop
  | .seed _ | .uint64 | .int63 | .two => True
  | .uint64n n .done => n ≠ 0
  | .intn n .done => 0 < n ∧ n < 2 ^ 63
  | .perm n => 0 ≤ n ∧ n < 2 ^ 63
  | _ => False

/-- **C57.** What the calls return, run alone: what the generator's own methods return (C40, C41). -/
theorem method_results (g : PCG) :
    (∀ w, Runs next (.seed w) g (some []) (PCG.seed w)) ∧
    Runs next .uint64 g (some [g.uint64.1.toNat]) g.uint64.2 ∧
    Runs next .int63 g (some [(Rand.int63 PCG.uint64 g).1.toNat]) (Rand.int63 PCG.uint64 g).2 ∧
    Runs next .two g (some [(Rand.int63 PCG.uint64 g).1.toNat, (Rand.int63 PCG.uint64 (Rand.int63 PCG.uint64 g).2).1.toNat])
      (Rand.int63 PCG.uint64 (Rand.int63 PCG.uint64 g).2).2 ∧
    (∀ n r, Rand.uint64n PCG.uint64 n g = some r → Runs next (.uint64n n .done) g (some [r.1.toNat]) r.2) ∧
    (∀ n r, Rand.intn PCG.uint64 n g = some r → Runs next (.intn n .done) g (some [r.1]) r.2) ∧
    (∀ (n : Nat) r, Rand.perm PCG.uint64 n g = some r → Runs next (.perm n) g (some r.1) r.2) ∧
    Runs next (.uint64n 0 .done) g none g ∧ (∀ n ≤ 0, Runs next (.intn n .done) g none g) ∧
    (∀ n < 0, Runs next (.perm n) g none g) := by
  refine ⟨fun w => .ret rfl, .ret rfl, .ret rfl, .cont rfl (.ret rfl), fun n r h => uint64n_runs h ⟨rfl, rfl⟩,
    fun n r h => intn_runs h ⟨rfl, rfl⟩, fun n r h => perm_runs h, .panic (by simp [next]), fun n h => .panic (by simp [next, h]),
    fun n h => .panic (by simp [next, h])⟩

theorem valid_returns {l : Pc} (h : Valid l) : Returns next l := by
  intro g
  obtain ⟨h1, h2, h3, h4, h5, h6, h7, -⟩ := method_results g
  match l, h with
  | .seed w, _ => exact ⟨_, _, h1 w⟩
  | .uint64, _ => exact ⟨_, _, h2⟩
  | .int63, _ => exact ⟨_, _, h3⟩
  | .two, _ => exact ⟨_, _, h4⟩
  | .uint64n n .done, h => obtain ⟨r, hr⟩ := Rand.uint64n_total h g; exact ⟨_, _, h5 n r hr⟩
  | .intn n .done, h => obtain ⟨r, hr⟩ := Rand.intn_total h.1 h.2 g; exact ⟨_, _, h6 n r hr⟩
  | .perm n, h =>
    obtain ⟨n, rfl⟩ := Int.eq_ofNat_of_zero_le h.1
    obtain ⟨r, r', hr⟩ := Rand.perm_total n (by have := h.2; omega) g
    exact ⟨_, _, h7 n _ hr⟩

/-- **C57.** For calls within their ranges: every schedule is a sequence of the calls one after the other, and ends with all
calls returned. The full statement has no condition on the calls (a call out of range panics and the others return); it is
refuted by `intn_blocks` and `nested_blocks`. -/
theorem valid_calls_partial (w : Word) (progs : List (List Pc)) (hv : ∀ p ∈ progs, ∀ l ∈ p, Valid l) {s : Sys PCG Pc (List Nat)}
    (h : Reach next (init (PCG.seed w) progs) s) :
    (∃ ops, Explains next (PCG.seed w) progs s ops) ∧ (Finished progs s ∨ ∃ s', Step next s s') ∧
      Acc (fun b a => Step next a b) s := by
  have hr : ∀ p ∈ progs, ∀ l ∈ p, Returns next l := fun p hp l hl => valid_returns (hv p hp l hl)
  obtain ⟨ops, -, e, -⟩ := linearizable next (PCG.seed w) progs h .refl
  exact ⟨⟨ops, e⟩, no_deadlock _ _ hr h, terminates _ _ hr h⟩

/-- **C57, violated.** One `Intn(n)` with `n ≤ 0`, even if its panic is recovered, blocks all other goroutines for ever,
whatever they have to do. -/
theorem intn_blocks (w : Word) {n : Int} (hn : n ≤ 0) (p : List Pc) (ps : List (List Pc)) :
    ∃ s : Sys PCG Pc (List Nat), Reach next (init (PCG.seed w) ((.intn n .done :: p) :: ps)) s ∧
      s.threads = ⟨p, none, [none]⟩ :: ps.map (fun q => ⟨q, none, []⟩) ∧ ∀ s', ¬ Step next s s' := by
  have h1 : Step next (init (PCG.seed w) ((.intn n .done :: p) :: ps) : Sys PCG Pc (List Nat))
      ⟨PCG.seed w, true, ⟨p, some (.intn n .done), []⟩ :: ps.map (fun q => ⟨q, none, []⟩)⟩ :=
    .lock (i := 0) (t := ⟨.intn n .done :: p, none, []⟩) (l := .intn n .done) rfl rfl rfl rfl
  have h2 : Step next (⟨PCG.seed w, true, ⟨p, some (.intn n .done), []⟩ :: ps.map (fun q => ⟨q, none, []⟩)⟩ : Sys PCG Pc (List Nat))
      ⟨PCG.seed w, true, ⟨p, none, [none]⟩ :: ps.map (fun q => ⟨q, none, []⟩)⟩ :=
    .panic (i := 0) (t := ⟨p, some (.intn n .done), []⟩) (l := .intn n .done) rfl rfl (by simp [next, hn])
  have hreach := (Relation.ReflTransGen.single h1).tail h2
  exact ⟨_, hreach, rfl, panic_deadlock _ _ hreach (i := 0) rfl (by simp)⟩

/-- **C57, violated.** `Shuffle` with a `swap` that draws from the same `LockedRand` blocks all goroutines. -/
theorem nested_blocks (w : Word) (p : List Pc) (ps : List (List Pc)) :
    ∃ s : Sys PCG Pc (List Nat), Reach next (init (PCG.seed w) ((.nested :: p) :: ps)) s ∧ ∀ s', ¬ Step next s s' := by
  have h1 : Step next (init (PCG.seed w) ((.nested :: p) :: ps) : Sys PCG Pc (List Nat))
      ⟨PCG.seed w, true, ⟨p, some .nested, []⟩ :: ps.map (fun q => ⟨q, none, []⟩)⟩ :=
    .lock (i := 0) (t := ⟨.nested :: p, none, []⟩) (l := .nested) rfl rfl rfl rfl
  have hreach := Relation.ReflTransGen.single h1
  exact ⟨_, hreach, relock_deadlock _ _ hreach (i := 0) (t := ⟨p, some .nested, []⟩) (l := .nested) rfl rfl rfl⟩

/-- Three goroutines with valid calls, one of them seeding. -/
example : ∀ p ∈ [[Pc.seed 7, .two, .perm 10], [.intn 5 .done, .uint64], [.int63]], ∀ l ∈ p, Valid l := by
  simp [Valid]

end methods
end Verif.LockedRand
