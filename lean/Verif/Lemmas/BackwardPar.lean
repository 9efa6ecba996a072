import Verif.Lemmas.BackwardSeq
import Mathlib.Tactic.Abel

/-! The concurrent phase of the machine: case view of a step and the structural invariant. -/

set_option linter.unusedSimpArgs false
set_option autoImplicit false

namespace Verif.Backward
open Function (update)
open scoped BigOperators
variable {n : Nat} {M : Type}

namespace Thread
def todo : Thread n M → List (Task n M)
  | .running l => l
  | _ => []
/-- goroutine exists and `fn.Backward` not yet entered -/
def waiting : Thread n M → Bool
  | .start => true
  | .blocked => true
  | _ => false
/-- goroutine exists and state not yet set back to idle -/
def active : Thread n M → Bool
  | .start => true
  | .blocked => true
  | .running _ => true
  | _ => false
/-- `fn.Backward` entered -/
def entered : Thread n M → Bool
  | .running _ => true
  | .finishing => true
  | _ => false
def present : Thread n M → Bool
  | .none => false
  | _ => true
end Thread

/-- will still enter its backward function -/
def dueOp (s : St n M) (c : Fin n) : Bool := decide (s.st c = .pending) || (s.thr c).waiting

def keys (s : St n M) : List (Fin n) := s.log.map Prod.fst

section Total
variable {A : Type} [AddCommMonoid A]
/-- sum of `f` over all outstanding tasks -/
def total (f : Task n M → A) (thr : Fin n → Thread n M) : A :=
  ∑ c, ((thr c).todo.map f).sum

theorem total_update (f : Task n M → A) (thr : Fin n → Thread n M) (i : Fin n) (t : Thread n M) :
    ((thr i).todo.map f).sum + total f (update thr i t) = (t.todo.map f).sum + total f thr := by
  have := sum_change (fun c => ((thr c).todo.map f).sum)
    (fun c => ((update thr i t c).todo.map f).sum) i (by intro c hc; simp [hc])
  simpa [total] using this

theorem total_same (f : Task n M → A) (thr : Fin n → Thread n M) (i : Fin n) (t : Thread n M)
    (h : (thr i).todo = t.todo) : total f (update thr i t) = total f thr := by
  unfold total
  apply Finset.sum_congr rfl
  intro c _
  by_cases hc : c = i
  · subst hc; simp [h]
  · simp [hc]
end Total

/-- The steps of the concurrent phase, one constructor per kind. -/
inductive PStep [Add M] (G : Graph n) (F : Fns n M) (s : St n M) : St n M → Prop
  | fork (x : Fin n) (rest : List (Fin n)) : s.main = .process (x :: rest) →
      G.requiresGrad x = true → s.st x = .pending →
      PStep G F s { s with
        st := update s.st x .ongoing, wg := s.wg + 1, thr := update s.thr x .start,
        main := .process (G.opOperands x ++ rest) }
  | skip (x : Fin n) (rest : List (Fin n)) : s.main = .process (x :: rest) →
      ¬ (G.requiresGrad x = true ∧ s.st x = .pending) →
      PStep G F s { s with main := .process rest }
  | wait : s.main = .process [] → PStep G F s { s with main := .wait }
  | ret : s.main = .wait → s.wg = 0 → PStep G F s { s with main := .returned }
  | block (x : Fin n) : s.thr x = .start → s.pend x ≠ 0 →
      PStep G F s { s with thr := update s.thr x .blocked }
  | enter (x : Fin n) (g : M) : (s.thr x).waiting = true →
      (s.thr x = .start ∧ (s.st x = .idle ∨ s.pend x = 0)) ∨
        (s.thr x = .blocked ∧ s.chan x = .closed) →
      s.grad x = some g →
      PStep G F s { s with thr := update s.thr x (.running (tasksOf (F.bw x g))),
                           log := s.log ++ [(x, g)] }
  | enterNil (x : Fin n) : (s.thr x).waiting = true →
      (s.thr x = .start ∧ (s.st x = .idle ∨ s.pend x = 0)) ∨
        (s.thr x = .blocked ∧ s.chan x = .closed) →
      s.grad x = none → PStep G F s { s with panicked := true }
  | finish (x : Fin n) : s.thr x = .running [] →
      PStep G F s { s with st := update s.st x .idle, thr := update s.thr x .finishing }
  | done (x : Fin n) : s.thr x = .finishing →
      PStep G F s { s with wg := s.wg - 1, thr := update s.thr x .none }
  | add (x : Fin n) (a b : List (Task n M)) (t : Fin n) (g : M) :
      s.thr x = .running (a ++ .add t g :: b) →
      PStep G F s { s with
        grad := addGrad G s.grad t g
        thr := update s.thr x (.running (a ++ (if G.isOp t then [.check t] else []) ++ b)) }
  | check (x : Fin n) (a b : List (Task n M)) (t : Fin n) :
      s.thr x = .running (a ++ .check t :: b) →
      PStep G F s { s with
        thr := update s.thr x (.running (a ++ (if s.st t = .idle then [] else [.dec t]) ++ b)) }
  | dec (x : Fin n) (a b : List (Task n M)) (t : Fin n) :
      s.thr x = .running (a ++ .dec t :: b) →
      PStep G F s { s with
        pend := update s.pend t (s.pend t - 1)
        thr := update s.thr x (.running (a ++ (if s.pend t - 1 = 0 then [.close t] else []) ++ b)) }
  | closeOk (x : Fin n) (a b : List (Task n M)) (t : Fin n) :
      s.thr x = .running (a ++ .close t :: b) → s.chan t = .open →
      PStep G F s { s with
        chan := update s.chan t .closed
        thr := update s.thr x (.running (a ++ b)) }
  | closeBad (x : Fin n) (a b : List (Task n M)) (t : Fin n) :
      s.thr x = .running (a ++ .close t :: b) → s.chan t ≠ .open →
      PStep G F s { s with
        panicked := true
        thr := update s.thr x (.running (a ++ b)) }

theorem split_at {α : Type} {l : List α} {k : Nat} {t : α} (h : l[k]? = some t) :
    l = l.take k ++ t :: l.drop (k + 1) := by
  induction l generalizing k with
  | nil => simp at h
  | cons y ys ih =>
    cases k with
    | zero => simp at h; simp [h]
    | succ k =>
      simp only [List.getElem?_cons_succ] at h
      simp only [List.take_succ_cons, List.drop_succ_cons, List.cons_append, List.cons.injEq,
        true_and]
      exact ih h

/-- phase predicate -/
def inPar (s : St n M) : Prop :=
  (∃ l, s.main = .process l) ∨ s.main = .wait ∨ s.main = .returned

theorem pstep_of_begin [Add M] {G : Graph n} {F : Fns n M} {s : St n M} {x : Fin n}
    (hw : (s.thr x).waiting = true)
    (hc : (s.thr x = .start ∧ (s.st x = .idle ∨ s.pend x = 0)) ∨
        (s.thr x = .blocked ∧ s.chan x = .closed)) :
    PStep G F s (begin F s x) := by
  unfold begin
  split
  · rename_i g hg; exact .enter x g hw hc hg
  · rename_i hg; exact .enterNil x hw hc hg

theorem pstep_of_step [Add M] {G : Graph n} {F : Fns n M} {xs : List (Fin n)} {s s' : St n M}
    {c : Choice n} (hp : inPar s) (h : step G F xs s c = some s') :
    PStep G F s s' ∧ s.panicked = false := by
  unfold step at h
  split at h
  · -- caller
    split at h
    · simp at h
    rename_i halive
    refine ⟨?_, by simpa using halive⟩
    unfold mainStep at h
    split at h
    all_goals first
      | (rename_i hm; rcases hp with ⟨l, hp⟩ | hp | hp <;> simp [hm] at hp; done)
      | (rename_i x rest hm; rcases hp with ⟨l, hp⟩ | hp | hp <;> simp [hm] at hp; done)
      | skip
    · rename_i hm
      cases h; exact .wait hm
    · rename_i x rest hm
      cases h
      unfold processStep
      split
      · rename_i hh; exact .fork x rest hm hh.1 hh.2
      · rename_i hh; exact .skip x rest hm hh
    · rename_i hm
      split at h
      · rename_i hw; cases h; exact .ret hm hw
      · cases h
    · cases h
  · rename_i x k
    split at h
    · simp at h
    rename_i halive
    refine ⟨?_, by simpa using halive⟩
    unfold threadStep at h
    split at h
    · cases h
    · rename_i ht
      split at h
      · rename_i hc
        cases h
        exact pstep_of_begin (by simp [ht, Thread.waiting]) (Or.inl ⟨ht, hc⟩)
      · rename_i hc
        cases h
        exact .block x ht (fun h0 => hc (Or.inr h0))
    · rename_i ht
      split at h
      · rename_i hc
        cases h
        exact pstep_of_begin (by simp [ht, Thread.waiting]) (Or.inr ⟨ht, hc⟩)
      · cases h
    · rename_i ht
      cases h
      exact .finish x ht
    · rename_i t₀ ts ht
      split at h
      · cases h
      · rename_i t hk
        have hsp := split_at hk
        generalize (t₀ :: ts).take k = a at *
        generalize (t₀ :: ts).drop (k + 1) = b at *
        rw [hsp] at ht
        simp only [Option.some.injEq] at h
        subst h
        cases t with
        | add t g => exact .add x a b t g ht
        | check t => exact .check x a b t ht
        | dec t => exact .dec x a b t ht
        | close t =>
          simp only [taskStep, closeChan]
          by_cases hco : s.chan t = .open
          · have := PStep.closeOk (G := G) (F := F) x a b t ht hco
            simpa [hco] using this
          · have := PStep.closeBad (G := G) (F := F) x a b t ht hco
            cases hcc : s.chan t <;> simp_all
    · rename_i ht
      cases h
      exact .done x ht

/-- number of goroutines -/
def nPresent (thr : Fin n → Thread n M) : Int := ∑ x, if (thr x).present then 1 else 0

/-- Structural invariant of the concurrent phase; needs no assumption on backward functions. -/
structure Core (G : Graph n) (xs : List (Fin n)) (stk : List (Fin n)) (s : St n M) : Prop where
  main : s.main = .process stk ∨ (stk = [] ∧ (s.main = .wait ∨ (s.main = .returned ∧ s.wg = 0)))
  ongoing : ∀ x, s.st x = .ongoing ↔ (s.thr x).active = true
  cover : ∀ x, Reached G xs x ↔ dueOp s x = true ∨ x ∈ keys s
  excl : ∀ x, dueOp s x = true → x ∉ keys s
  nodup : (keys s).Nodup
  entered : ∀ x, (s.thr x).entered = true → x ∈ keys s
  stack : ∀ x, s.st x = .pending → x ∈ stk ∨ ∃ c, s.st c = .pending ∧ x ∈ G.operands c
  wg : s.wg = nPresent s.thr

theorem Core.par {G : Graph n} {xs stk : List (Fin n)} {s : St n M} (h : Core G xs stk s) :
    inPar s := by
  rcases h.main with h | ⟨_, h | ⟨h, _⟩⟩
  · exact Or.inl ⟨_, h⟩
  · exact Or.inr (Or.inl h)
  · exact Or.inr (Or.inr h)

theorem Core.pending_iff {G : Graph n} {xs stk : List (Fin n)} {s : St n M}
    (h : Core G xs stk s) {x : Fin n} (hx : s.st x = .pending) :
    (s.thr x).active = false ∧ Reached G xs x ∧ x ∉ keys s := by
  have hd : dueOp s x = true := by simp [dueOp, hx]
  refine ⟨?_, (h.cover x).mpr (Or.inl hd), h.excl x hd⟩
  have := h.ongoing x
  rw [hx] at this
  simpa using this

/-- A step that only replaces the goroutine of `x` by one of the same kind. -/
theorem Core.sameKind {G : Graph n} {xs stk : List (Fin n)} {s s' : St n M} {x : Fin n}
    {t : Thread n M} (h : Core G xs stk s)
    (hthr : s'.thr = update s.thr x t) (hst : s'.st = s.st) (hlog : s'.log = s.log)
    (hwg : s'.wg = s.wg) (hmain : s'.main = s.main)
    (h1 : t.active = (s.thr x).active) (h2 : t.waiting = (s.thr x).waiting)
    (h3 : t.entered = (s.thr x).entered) (h4 : t.present = (s.thr x).present) :
    Core G xs stk s' := by
  have e : ∀ (f : Thread n M → Bool), f t = f (s.thr x) → ∀ y, f (s'.thr y) = f (s.thr y) := by
    intro f hf y
    rw [hthr]
    by_cases hy : y = x
    · subst hy; simpa using hf
    · simp [hy]
  have hdue : ∀ y, dueOp s' y = dueOp s y := by
    intro y; simp [dueOp, hst, e _ h2 y]
  have hkeys : keys s' = keys s := by simp [keys, hlog]
  refine ⟨?_, ?_, ?_, ?_, ?_, ?_, ?_, ?_⟩
  · rw [hmain, hwg]; exact h.main
  · intro y; rw [hst, e _ h1 y]; exact h.ongoing y
  · intro y; rw [hdue, hkeys]; exact h.cover y
  · intro y; rw [hdue, hkeys]; exact h.excl y
  · rw [hkeys]; exact h.nodup
  · intro y; rw [e _ h3 y, hkeys]; exact h.entered y
  · rw [hst]; exact h.stack
  · rw [hwg, h.wg]
    apply Finset.sum_congr rfl
    intro y _
    rw [e _ h4 y]

theorem nPresent_update (thr : Fin n → Thread n M) (x : Fin n) (t : Thread n M) :
    (if (thr x).present then (1:Int) else 0) + nPresent (update thr x t) =
      (if t.present then 1 else 0) + nPresent thr := by
  have := sum_change (fun c => if (thr c).present then (1:Int) else 0)
    (fun c => if (update thr x t c).present then (1:Int) else 0) x (by intro c hc; simp [hc])
  simpa [nPresent] using this

theorem nPresent_nonneg (thr : Fin n → Thread n M) : 0 ≤ nPresent thr :=
  Finset.sum_nonneg (by intro y _; split <;> omega)

theorem Core.step [Add M] {G : Graph n} {F : Fns n M} {xs stk : List (Fin n)} {s s' : St n M}
    (h : Core G xs stk s) (hs : PStep G F s s') : ∃ stk', Core G xs stk' s' := by
  cases hs with
  | fork x rest hm hr hx =>
    have hstk : stk = x :: rest := by
      rcases h.main with h' | ⟨_, h' | ⟨h', _⟩⟩ <;> rw [hm] at h' <;> cases h'; rfl
    obtain ⟨hna, hre, hnk⟩ := h.pending_iff hx
    have hne : (s.thr x).entered = false := by
      by_contra hc; exact hnk (h.entered x (by simpa using hc))
    have hnone : s.thr x = .none := by
      cases ht : s.thr x <;> simp_all [Thread.active, Thread.entered]
    have hdue : ∀ y, dueOp { s with
        st := update s.st x .ongoing, wg := s.wg + 1, thr := update s.thr x .start,
        main := .process (G.opOperands x ++ rest) } y = dueOp s y := by
      intro y
      by_cases hy : y = x
      · subst hy; simp [dueOp, Thread.waiting, hx]
      · simp [dueOp, hy]
    refine ⟨G.opOperands x ++ rest, Or.inl rfl, ?_, ?_, ?_, h.nodup, ?_, ?_, ?_⟩
    · intro y
      by_cases hy : y = x
      · subst hy; simp [Thread.active]
      · simpa [hy] using h.ongoing y
    · intro y; rw [hdue]; exact h.cover y
    · intro y; rw [hdue]; exact h.excl y
    · intro y
      by_cases hy : y = x
      · subst hy; simp [Thread.entered]
      · intro hh; exact h.entered y (by simpa [hy] using hh)
    · intro y hy
      by_cases hyx : y = x
      · subst hyx; simp at hy
      · simp only [ne_eq, hyx, not_false_eq_true, Function.update_of_ne] at hy
        have hyre := (h.pending_iff hy).2.1
        rcases h.stack y hy with h1 | ⟨c, hc, hmem⟩
        · rw [hstk] at h1
          simp only [List.mem_cons, hyx, false_or] at h1
          left; simp [h1]
        · by_cases hcx : c = x
          · subst hcx
            left
            simp only [List.mem_append, mem_opOperands]
            exact Or.inl ⟨hmem, hyre.isOp⟩
          · right; exact ⟨c, by simpa [hcx] using hc, hmem⟩
    · have := nPresent_update s.thr x .start
      simp only [hnone, Thread.present] at this
      have hw := h.wg
      simp only [if_true, Bool.false_eq_true, if_false] at this ⊢
      omega
  | skip x rest hm hx =>
    have hstk : stk = x :: rest := by
      rcases h.main with h' | ⟨_, h' | ⟨h', _⟩⟩ <;> rw [hm] at h' <;> cases h'; rfl
    refine ⟨rest, Or.inl rfl, h.ongoing, h.cover, h.excl, h.nodup, h.entered, ?_, h.wg⟩
    intro y hy
    rcases h.stack y hy with h1 | h1
    · rw [hstk] at h1
      rcases List.mem_cons.mp h1 with rfl | h1
      · exact absurd ⟨(h.pending_iff hy).2.1.rg, hy⟩ hx
      · exact Or.inl h1
    · exact Or.inr h1
  | wait hm =>
    have hstk : stk = [] := by
      rcases h.main with h' | ⟨_, h' | ⟨h', _⟩⟩ <;> rw [hm] at h' <;> cases h'; rfl
    subst hstk
    exact ⟨[], Or.inr ⟨rfl, Or.inl rfl⟩, h.ongoing, h.cover, h.excl, h.nodup, h.entered, h.stack, h.wg⟩
  | ret hm hw =>
    have hstk : stk = [] := by
      rcases h.main with h' | ⟨h', _⟩
      · rw [hm] at h'; cases h'
      · exact h'
    subst hstk
    exact ⟨[], Or.inr ⟨rfl, Or.inr ⟨rfl, hw⟩⟩, h.ongoing, h.cover, h.excl, h.nodup, h.entered, h.stack, h.wg⟩
  | block x ht hp =>
    exact ⟨stk, h.sameKind (x := x) (t := .blocked) rfl rfl rfl rfl rfl
      (by simp [ht, Thread.active]) (by simp [ht, Thread.waiting])
      (by simp [ht, Thread.entered]) (by simp [ht, Thread.present])⟩
  | enter x g hw hc hg =>
    have hact : (s.thr x).active = true ∧ (s.thr x).present = true := by
      cases ht : s.thr x <;> simp_all [Thread.waiting, Thread.active, Thread.present]
    have hong := (h.ongoing x).mpr hact.1
    have hdx : dueOp s x = true := by simp [dueOp, hw]
    have hnk := h.excl x hdx
    have hdue : ∀ y, dueOp { s with thr := update s.thr x (.running (tasksOf (F.bw x g))), log := s.log ++ [(x, g)] } y
        = if y = x then false else dueOp s y := by
      intro y
      by_cases hy : y = x
      · subst hy; simp [dueOp, Thread.waiting, hong]
      · simp [dueOp, hy]
    have hkeys : keys { s with thr := update s.thr x (.running (tasksOf (F.bw x g))), log := s.log ++ [(x, g)] }
        = keys s ++ [x] := by simp [keys]
    refine ⟨stk, h.main, ?_, ?_, ?_, ?_, ?_, h.stack, ?_⟩
    · intro y
      by_cases hy : y = x
      · subst hy; simp [Thread.active, hong]
      · simpa [hy] using h.ongoing y
    · intro y
      rw [hdue, hkeys]
      by_cases hy : y = x
      · subst hy; simp [h.cover y, hdx]
      · simpa [hy] using h.cover y
    · intro y
      rw [hdue, hkeys]
      by_cases hy : y = x
      · subst hy; simp
      · simpa [hy] using h.excl y
    · rw [hkeys]
      refine List.nodup_append.mpr ⟨h.nodup, by simp, ?_⟩
      intro a ha b hb hab
      simp at hb; subst hb; subst hab; exact hnk ha
    · intro y
      rw [hkeys]
      by_cases hy : y = x
      · subst hy; simp
      · intro hh; exact List.mem_append_left _ (h.entered y (by simpa [hy] using hh))
    · have := nPresent_update s.thr x (.running (tasksOf (F.bw x g)))
      rw [hact.2] at this
      have hw := h.wg
      simp only [if_true, Thread.present] at this ⊢
      omega
  | enterNil x hw hc hg =>
    exact ⟨stk, h.main, h.ongoing, h.cover, h.excl, h.nodup, h.entered, h.stack, h.wg⟩
  | finish x ht =>
    have hong := (h.ongoing x).mpr (by simp [ht, Thread.active])
    have hdue : ∀ y, dueOp { s with st := update s.st x .idle, thr := update s.thr x .finishing } y
        = dueOp s y := by
      intro y
      by_cases hy : y = x
      · subst hy; simp [dueOp, Thread.waiting, hong, ht]
      · simp [dueOp, hy]
    refine ⟨stk, h.main, ?_, ?_, ?_, h.nodup, ?_, ?_, ?_⟩
    · intro y
      by_cases hy : y = x
      · subst hy; simp [Thread.active]
      · simpa [hy] using h.ongoing y
    · intro y; rw [hdue]; exact h.cover y
    · intro y; rw [hdue]; exact h.excl y
    · intro y
      by_cases hy : y = x
      · subst hy; intro _; exact h.entered y (by simp [ht, Thread.entered])
      · intro hh; exact h.entered y (by simpa [hy] using hh)
    · intro y hy
      by_cases hyx : y = x
      · subst hyx; simp at hy
      · simp only [ne_eq, hyx, not_false_eq_true, Function.update_of_ne] at hy
        rcases h.stack y hy with h1 | ⟨c, hc, hmem⟩
        · exact Or.inl h1
        · right
          refine ⟨c, ?_, hmem⟩
          have : c ≠ x := by rintro rfl; rw [hong] at hc; cases hc
          simpa [this] using hc
    · have := nPresent_update s.thr x .finishing
      simp only [ht, Thread.present] at this
      have hw := h.wg
      simp only [if_true, Bool.false_eq_true, if_false] at this ⊢
      omega
  | done x ht =>
    have hdue : ∀ y, dueOp { s with wg := s.wg - 1, thr := update s.thr x .none } y
        = dueOp s y := by
      intro y
      by_cases hy : y = x
      · subst hy; simp [dueOp, Thread.waiting, ht]
      · simp [dueOp, hy]
    have hpos : 0 < s.wg := by
      rw [h.wg]
      have := nPresent_update s.thr x .none
      simp only [ht, Thread.present] at this
      have hnn := nPresent_nonneg (update s.thr x Thread.none)
      simp only [if_true, Bool.false_eq_true, if_false] at this
      omega
    refine ⟨stk, ?_, ?_, ?_, ?_, h.nodup, ?_, h.stack, ?_⟩
    · rcases h.main with h' | ⟨h0, h' | ⟨h', hw⟩⟩
      · exact Or.inl h'
      · exact Or.inr ⟨h0, Or.inl h'⟩
      · omega
    · intro y
      by_cases hy : y = x
      · subst hy
        have := h.ongoing y
        simpa [ht, Thread.active] using this
      · simpa [hy] using h.ongoing y
    · intro y; rw [hdue]; exact h.cover y
    · intro y; rw [hdue]; exact h.excl y
    · intro y
      by_cases hy : y = x
      · subst hy; simp [Thread.entered]
      · intro hh; exact h.entered y (by simpa [hy] using hh)
    · have := nPresent_update s.thr x .none
      simp only [ht, Thread.present] at this
      have hw := h.wg
      simp only [if_true, Bool.false_eq_true, if_false] at this ⊢
      omega
  | add x a b t g ht =>
    exact ⟨stk, h.sameKind (x := x) (t := .running _) rfl rfl rfl rfl rfl
      (by simp [ht, Thread.active]) (by simp [ht, Thread.waiting])
      (by simp [ht, Thread.entered]) (by simp [ht, Thread.present])⟩
  | check x a b t ht =>
    exact ⟨stk, h.sameKind (x := x) (t := .running _) rfl rfl rfl rfl rfl
      (by simp [ht, Thread.active]) (by simp [ht, Thread.waiting])
      (by simp [ht, Thread.entered]) (by simp [ht, Thread.present])⟩
  | dec x a b t ht =>
    exact ⟨stk, h.sameKind (x := x) (t := .running _) rfl rfl rfl rfl rfl
      (by simp [ht, Thread.active]) (by simp [ht, Thread.waiting])
      (by simp [ht, Thread.entered]) (by simp [ht, Thread.present])⟩
  | closeOk x a b t ht hc =>
    exact ⟨stk, h.sameKind (x := x) (t := .running _) rfl rfl rfl rfl rfl
      (by simp [ht, Thread.active]) (by simp [ht, Thread.waiting])
      (by simp [ht, Thread.entered]) (by simp [ht, Thread.present])⟩
  | closeBad x a b t ht hc =>
    exact ⟨stk, h.sameKind (x := x) (t := .running _) rfl rfl rfl rfl rfl
      (by simp [ht, Thread.active]) (by simp [ht, Thread.waiting])
      (by simp [ht, Thread.entered]) (by simp [ht, Thread.present])⟩

end Verif.Backward
