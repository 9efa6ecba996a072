import Verif.Model.Optimize
import Mathlib.Algebra.BigOperators.Group.Finset.Piecewise
import Mathlib.Algebra.BigOperators.Group.Finset.Basic
import Mathlib.Algebra.Order.BigOperators.Group.Finset

set_option autoImplicit false
set_option linter.unusedSimpArgs false

/-!
# C26: what `Optimize` has done when it returns
-/

namespace Verif.Optimize
open Function (update)
open scoped BigOperators

variable {E : Type} {n cap : Nat} {hasGrad : Nat → Bool} {outcome : Nat → Option E} {st : State E}

/-! ## Counting goroutines -/

/-- The goroutine occupies a place in `guard`. -/
def Worker.holds : Worker E → Nat
  | .start => 1
  | .optimize => 1
  | .send _ => 1
  | .release => 1
  | _ => 0

/-- The wait group waits for the goroutine. -/
def Worker.pending : Worker E → Nat
  | .start => 1
  | .optimize => 1
  | .send _ => 1
  | .release => 1
  | .finish => 1
  | _ => 0

/-- The steps the goroutine has left. -/
def Worker.rank : Worker E → Nat
  | .idle => 6
  | .start => 5
  | .optimize => 4
  | .send _ => 3
  | .release => 2
  | .finish => 1
  | .done => 0

theorem sum_update (f : Worker E → Nat) (w : Nat → Worker E) (j : Nat) (hj : j < n) (x : Worker E) :
    ∑ k ∈ Finset.range n, f (update w j x k) + f (w j) = ∑ k ∈ Finset.range n, f (w k) + f x := by
  have hm : j ∈ Finset.range n := Finset.mem_range.mpr hj
  rw [← Finset.add_sum_erase _ _ hm, ← Finset.add_sum_erase _ (fun k => f (w k)) hm]
  rw [Finset.sum_congr rfl (fun k hk => by rw [Function.update_of_ne (Finset.ne_of_mem_erase hk)]) (g := fun k => f (w k)),
    Function.update_self]
  omega

/-- The number of goroutines started. -/
def spawned (st : State E) : Nat :=
  match st.pc with
  | .sel _ | .acquire _ | .waiting _ | .returnedErr _ => st.next - 1
  | _ => st.next

/-- What a goroutine has done, by its position. -/
def Told (hasGrad : Nat → Bool) (outcome : Nat → Option E) (j calls : Nat) : Worker E → Prop
  | .idle => calls = 0
  | .start => calls = 0
  | .optimize => calls = 0 ∧ hasGrad j = true
  | .send e => calls = 1 ∧ hasGrad j = true ∧ outcome j = some e
  | .release => calls = if hasGrad j then 1 else 0
  | .finish => calls = if hasGrad j then 1 else 0
  | .done => calls = if hasGrad j then 1 else 0

/-- The goroutine is past the sending of its error. -/
def Worker.past : Worker E → Prop
  | .release => True
  | .finish => True
  | .done => True
  | _ => False

/-- An error is in the channel, or has been taken out to be returned. -/
def Reported (st : State E) : Prop :=
  match st.pc with
  | .waiting _ => True
  | .returnedErr _ => True
  | .returned r => r.isSome = true
  | _ => st.errCh.isSome = true

/-- The error held by the call. -/
def Held (st : State E) (e : E) : Prop :=
  st.errCh = some e ∨ st.pc = .waiting e ∨ st.pc = .returnedErr e ∨ st.pc = .returned (some e)

/-- The invariant. -/
structure Inv (n cap : Nat) (hasGrad : Nat → Bool) (outcome : Nat → Option E) (st : State E) : Prop where
  next_le : st.next ≤ n
  pc_next : match st.pc with
    | .sel j => j + 1 = st.next
    | .acquire j => j + 1 = st.next
    | .waiting _ => 1 ≤ st.next
    | .returnedErr _ => 1 ≤ st.next
    | .recv => True
    | _ => st.next = n
  idle : ∀ j, st.w j = .idle ↔ spawned st ≤ j
  guard : st.guard = ∑ j ∈ Finset.range n, (st.w j).holds
  limit : st.guard ≤ cap
  wg : st.wg = ∑ j ∈ Finset.range n, (st.w j).pending + (match st.pc with | .acquire _ => 1 | _ => 0)
  told : ∀ j, Told hasGrad outcome j (st.calls j) (st.w j)
  held : ∀ e, Held st e → ∃ j < n, hasGrad j = true ∧ outcome j = some e ∧ (st.w j).past
  closed : st.closed = true ↔ (match st.pc with | .reading => True | .returned _ => True | _ => False)
  reported : ∀ j, (st.w j).past → hasGrad j = true → (outcome j).isSome = true → Reported st
  waited : (∃ e, st.pc = .returnedErr e) → st.wg = 0
  panicked : st.panicked = true → st.closed = true

theorem spawned_le (h : Inv n cap hasGrad outcome st) : spawned st ≤ n := by
  have := h.next_le
  unfold spawned
  split <;> omega

theorem lt_of_not_idle (h : Inv n cap hasGrad outcome st) {j : Nat} (hj : st.w j ≠ .idle) : j < n := by
  by_contra hcon
  exact hj ((h.idle j).mpr (by have := spawned_le h; omega))

theorem inv_init : Inv n cap hasGrad outcome (init : State E) where
  next_le := Nat.zero_le _
  pc_next := trivial
  idle j := by simp [init, spawned]
  guard := by simp [init, Worker.holds]
  limit := Nat.zero_le _
  wg := by simp [init, Worker.pending]
  told j := rfl
  held e h := by simp [Held, init] at h
  closed := by simp [init]
  reported j h := by simp [init, Worker.past] at h
  waited h := by simp [init] at h
  panicked h := by simp [init] at h

theorem inv_main {st' : State E} (h : Inv n cap hasGrad outcome st) (hs : stepMain n cap st = some st') :
    Inv n cap hasGrad outcome st' := by
  obtain ⟨pc, next, w, guard, wg, errCh, closed, calls, panicked⟩ := st
  obtain ⟨i1, i2, i3, i4, i5, i6, i7, i8, i9, i10, i11, i12⟩ := h
  simp only [spawned, Held, Reported] at i1 i2 i3 i4 i5 i6 i7 i8 i9 i10 i11 i12
  cases pc with
  | recv =>
    simp only [stepMain] at hs
    split at hs
    · rename_i hlt
      obtain rfl := Option.some.inj hs
      exact ⟨Nat.succ_le_of_lt hlt, rfl, by simpa [spawned] using i3, i4, i5, by simpa using i6, i7,
        by simpa [Held] using i8, by simpa using i9, by simpa [Reported] using i10, by simp, i12⟩
    · rename_i hge
      obtain rfl := Option.some.inj hs
      exact ⟨i1, by simp only at hge ⊢; omega, by simpa [spawned] using i3, i4, i5, by simpa using i6, i7,
        by simpa [Held] using i8, by simpa using i9, by simpa [Reported] using i10, by simp, i12⟩
  | sel j =>
    simp only [stepMain] at hs
    cases errCh with
    | some e =>
      obtain rfl := Option.some.inj hs
      refine ⟨i1, by simp only at i2 ⊢; omega, by simpa [spawned] using i3, i4, i5, by simpa using i6, i7, ?_,
        by simpa using i9, by simp [Reported], by simp, i12⟩
      intro e' he'
      simp only [Held, reduceCtorEq, false_or, MainPc.waiting.injEq, or_false] at he'
      subst he'
      exact i8 e (Or.inl rfl)
    | none =>
      obtain rfl := Option.some.inj hs
      exact ⟨i1, i2, by simpa [spawned] using i3, i4, i5, by simp only at i6 ⊢; omega, i7,
        by simpa [Held] using i8, by simpa using i9, by simpa [Reported] using i10, by simp, i12⟩
  | acquire j =>
    simp only [stepMain] at hs
    split at hs
    · rename_i hlt
      obtain rfl := Option.some.inj hs
      simp only at i2 i6
      change ∀ j, w j = .idle ↔ next - 1 ≤ j at i3
      have hjn : j < n := by omega
      have hidle : w j = .idle := (i3 j).mpr (by omega)
      refine ⟨i1, trivial, ?_, ?_, hlt, ?_, ?_, ?_, by simpa using i9, ?_, by simp, i12⟩
      · intro k
        simp only [spawned]
        by_cases hk : k = j
        · subst hk; simp; omega
        · rw [Function.update_of_ne hk, i3 k]; omega
      · have := sum_update (n := n) Worker.holds w j hjn .start
        rw [hidle] at this
        simp only [Worker.holds] at this i4 ⊢
        omega
      · have := sum_update (n := n) Worker.pending w j hjn .start
        rw [hidle] at this
        simp only [Worker.pending] at this i6 ⊢
        omega
      · intro k
        by_cases hk : k = j
        · subst hk
          have := i7 k
          rw [hidle] at this
          simpa [Told] using this
        · simp only [Function.update_of_ne hk]; exact i7 k
      · intro e he
        obtain ⟨k, h1, h2, h3, h4⟩ := i8 e (by simpa [Held] using he)
        refine ⟨k, h1, h2, h3, ?_⟩
        have hk : k ≠ j := fun e => by subst e; rw [hidle] at h4; exact h4
        simpa [Function.update_of_ne hk] using h4
      · intro k hp hg ho
        have hk : k ≠ j := fun e => by subst e; simp [Worker.past] at hp
        simp only [Function.update_of_ne hk] at hp
        simpa [Reported] using i10 k hp hg ho
    · exact absurd hs (by simp)
  | waiting e =>
    simp only [stepMain] at hs
    split at hs
    · rename_i h0
      obtain rfl := Option.some.inj hs
      refine ⟨i1, i2, by simpa [spawned] using i3, i4, i5, by simpa using i6, i7, ?_, by simpa using i9,
        by simp [Reported], fun _ => h0, i12⟩
      intro e' he'
      simp only [Held, reduceCtorEq, false_or, MainPc.returnedErr.injEq, or_false] at he'
      exact i8 e' (by rcases he' with h | h
                      · exact Or.inl h
                      · exact Or.inr (Or.inl (by rw [h])))
    · exact absurd hs (by simp)
  | closing =>
    simp only [stepMain] at hs
    obtain rfl := Option.some.inj hs
    exact ⟨i1, i2, by simpa [spawned] using i3, i4, i5, by simpa using i6, i7,
        by simpa [Held] using i8, by simp, by simpa [Reported] using i10, by simp, fun _ => rfl⟩
  | reading =>
    simp only [stepMain] at hs
    obtain rfl := Option.some.inj hs
    refine ⟨i1, i2, by simpa [spawned] using i3, i4, i5, by simpa using i6, i7, ?_, by simpa using i9,
      by simpa [Reported] using i10, by simp, i12⟩
    intro e' he'
    simp only [Held, reduceCtorEq, false_or, MainPc.returned.injEq] at he'
    exact i8 e' (Or.inl he')
  | returnedErr e => exact absurd hs (by simp [stepMain])
  | returned r => exact absurd hs (by simp [stepMain])

theorem inv_worker {st' : State E} {j : Nat} (h : Inv n cap hasGrad outcome st)
    (hs : stepWorker hasGrad outcome j st = some st') : Inv n cap hasGrad outcome st' := by
  have hjn : st.w j ≠ .idle → j < n := lt_of_not_idle h
  -- what changes when goroutine `j` moves from `st.w j` to `x`
  have hidle : ∀ x : Worker E, x ≠ .idle → st.w j ≠ .idle → ∀ k, update st.w j x k = .idle ↔ spawned st ≤ k := by
    intro x hx hw k
    by_cases hk : k = j
    · subst hk
      have := h.idle k
      simp [hx]
      exact Nat.not_le.mp fun hle => hw (this.mpr hle)
    · rw [Function.update_of_ne hk]; exact h.idle k
  have hpend : ∀ x : Worker E, st.w j ≠ .idle → (st.w j).pending = x.pending →
      ∑ k ∈ Finset.range n, (update st.w j x k).pending = ∑ k ∈ Finset.range n, (st.w k).pending := by
    intro x hw hp
    have := sum_update (n := n) Worker.pending st.w j (hjn hw) x
    omega
  have hhold : ∀ x : Worker E, st.w j ≠ .idle → (st.w j).holds = x.holds →
      ∑ k ∈ Finset.range n, (update st.w j x k).holds = ∑ k ∈ Finset.range n, (st.w k).holds := by
    intro x hw hp
    have := sum_update (n := n) Worker.holds st.w j (hjn hw) x
    omega
  obtain ⟨i1, i2, i3, i4, i5, i6, i7, i8, i9, i10, i11, i12⟩ := h
  -- an error held stays held by a goroutine which is past
  have hheld : ∀ x : Worker E, ((st.w j).past → x.past) → ∀ e, Held st e →
      ∃ k < n, hasGrad k = true ∧ outcome k = some e ∧ (update st.w j x k).past := by
    intro x hx e he
    obtain ⟨k, h1, h2, h3, h4⟩ := i8 e he
    refine ⟨k, h1, h2, h3, ?_⟩
    by_cases hk : k = j
    · subst hk; simpa using hx h4
    · simpa [Function.update_of_ne hk] using h4
  have htold : ∀ x c, Told hasGrad outcome j c x →
      ∀ k, Told hasGrad outcome k (update st.calls j c k) (update st.w j x k) := by
    intro x c hx k
    by_cases hk : k = j
    · subst hk; simpa using hx
    · simpa [Function.update_of_ne hk] using i7 k
  have htold' : ∀ x, Told hasGrad outcome j (st.calls j) x →
      ∀ k, Told hasGrad outcome k (st.calls k) (update st.w j x k) := by
    intro x hx k
    by_cases hk : k = j
    · subst hk; simpa using hx
    · simpa [Function.update_of_ne hk] using i7 k
  have hrep : ∀ x : Worker E, (x.past → hasGrad j = true → (outcome j).isSome = true → (st.w j).past) →
      ∀ k, (update st.w j x k).past → hasGrad k = true → (outcome k).isSome = true → Reported st := by
    intro x hx k hp hg ho
    by_cases hk : k = j
    · subst hk
      rw [Function.update_self] at hp
      exact i10 k (hx hp hg ho) hg ho
    · rw [Function.update_of_ne hk] at hp
      exact i10 k hp hg ho
  have ht := i7 j
  cases hw : st.w j with
  | idle => exact absurd hs (by simp [stepWorker, hw])
  | start =>
    simp only [stepWorker, hw] at hs
    obtain rfl := Option.some.inj hs
    have hni : st.w j ≠ .idle := by rw [hw]; simp
    rw [hw] at ht
    simp only [Told] at ht
    cases hg : hasGrad j with
    | true =>
      simp only [hg, if_true]
      exact ⟨i1, i2, hidle _ (by simp) hni, by rw [hhold _ hni (by rw [hw]; rfl)]; exact i4, i5,
        by rw [hpend _ hni (by rw [hw]; rfl)]; exact i6, htold' _ ⟨ht, hg⟩, hheld _ (by rw [hw]; exact fun h => h), i9,
        hrep _ (fun h => h.elim), i11, i12⟩
    | false =>
      simp only [hg, Bool.false_eq_true, if_false]
      exact ⟨i1, i2, hidle _ (by simp) hni, by rw [hhold _ hni (by rw [hw]; rfl)]; exact i4, i5,
        by rw [hpend _ hni (by rw [hw]; rfl)]; exact i6, htold' _ (by simp [Told, ht, hg]),
        hheld _ (by rw [hw]; exact fun h => h.elim), i9,
        hrep _ (fun _ h => by rw [hg] at h; exact absurd h (by simp)), i11, i12⟩
  | optimize =>
    simp only [stepWorker, hw] at hs
    obtain rfl := Option.some.inj hs
    have hni : st.w j ≠ .idle := by rw [hw]; simp
    rw [hw] at ht
    simp only [Told] at ht
    cases ho : outcome j with
    | some e =>
      simp only [ho]
      exact ⟨i1, i2, hidle _ (by simp) hni, by rw [hhold _ hni (by rw [hw]; rfl)]; exact i4, i5,
        by rw [hpend _ hni (by rw [hw]; rfl)]; exact i6, htold _ _ ⟨by omega, ht.2, ho⟩,
        hheld _ (by rw [hw]; exact fun h => h), i9, hrep _ (fun h => h.elim), i11, i12⟩
    | none =>
      simp only [ho]
      exact ⟨i1, i2, hidle _ (by simp) hni, by rw [hhold _ hni (by rw [hw]; rfl)]; exact i4, i5,
        by rw [hpend _ hni (by rw [hw]; rfl)]; exact i6, htold _ _ (by simp [Told, ht]),
        hheld _ (by rw [hw]; exact fun h => h.elim), i9,
        hrep _ (fun _ _ h => by rw [ho] at h; exact absurd h (by simp)), i11, i12⟩
  | send e =>
    simp only [stepWorker, hw] at hs
    have hni : st.w j ≠ .idle := by rw [hw]; simp
    rw [hw] at ht
    simp only [Told] at ht
    split at hs
    · rename_i hc
      obtain rfl := Option.some.inj hs
      exact ⟨i1, i2, i3, i4, i5, i6, i7, i8, i9, i10, i11, fun _ => hc⟩
    · rename_i hc
      have hnc : ¬ (match st.pc with | .reading => True | .returned _ => True | _ => False) := fun h => hc (i9.mpr h)
      cases he : st.errCh with
      | none =>
        simp only [he] at hs
        obtain rfl := Option.some.inj hs
        refine ⟨i1, i2, hidle _ (by simp) hni, by rw [hhold _ hni (by rw [hw]; rfl)]; exact i4, i5,
          by rw [hpend _ hni (by rw [hw]; rfl)]; exact i6, htold' _ (by simp [Told, ht]), ?_, i9, ?_, i11, i12⟩
        · intro e' he'
          simp only [Held, Option.some.injEq] at he'
          rcases he' with rfl | he'
          · exact ⟨j, hjn hni, ht.2.1, ht.2.2, by simp [Worker.past]⟩
          · exact hheld .release (fun _ => trivial) e' (Or.inr he')
        · intro k _ _ _
          revert hnc
          simp only [Reported]
          cases st.pc <;> simp
      | some e' =>
        simp only [he] at hs
        obtain rfl := Option.some.inj hs
        refine ⟨i1, i2, hidle _ (by simp) hni, by rw [hhold _ hni (by rw [hw]; rfl)]; exact i4, i5,
          by rw [hpend _ hni (by rw [hw]; rfl)]; exact i6, htold' _ (by simp [Told, ht]),
          fun e'' h'' => hheld .release (fun _ => trivial) e'' (by simpa [Held, he] using h''), i9, ?_, i11, i12⟩
        intro k _ _ _
        revert hnc
        simp only [Reported, he]
        cases st.pc <;> simp
  | release =>
    simp only [stepWorker, hw] at hs
    obtain rfl := Option.some.inj hs
    have hni : st.w j ≠ .idle := by rw [hw]; simp
    rw [hw] at ht
    have hsum := sum_update (n := n) Worker.holds st.w j (hjn hni) .finish
    rw [hw] at hsum
    simp only [Worker.holds] at hsum
    refine ⟨i1, i2, hidle _ (by simp) hni, ?_, ?_,
        by rw [hpend _ hni (by rw [hw]; rfl)]; exact i6, htold' _ ht, hheld .finish (fun _ => trivial), i9,
        hrep _ (fun _ _ _ => by rw [hw]; trivial), i11, i12⟩
    · simp only [Worker.holds] at i4 ⊢; omega
    · simp only; omega
  | finish =>
    simp only [stepWorker, hw] at hs
    obtain rfl := Option.some.inj hs
    have hni : st.w j ≠ .idle := by rw [hw]; simp
    rw [hw] at ht
    have hsum := sum_update (n := n) Worker.pending st.w j (hjn hni) .done
    rw [hw] at hsum
    simp only [Worker.pending] at hsum
    refine ⟨i1, i2, hidle _ (by simp) hni, by rw [hhold _ hni (by rw [hw]; rfl)]; exact i4, i5, ?_, htold' _ ht,
        hheld .done (fun _ => trivial), i9, hrep _ (fun _ _ _ => by rw [hw]; trivial), ?_, i12⟩
    · simp only [Worker.pending] at i6 ⊢; omega
    · intro he; have := i11 he; simp only; omega
  | done => exact absurd hs (by simp [stepWorker, hw])

theorem inv_reach (h : Reach n cap hasGrad outcome st) : Inv n cap hasGrad outcome st := by
  induction h with
  | init => exact inv_init
  | step t _ hs ih =>
    cases t with
    | main =>
      simp only [step] at hs
      split at hs
      · exact absurd hs (by simp)
      · exact inv_main ih hs
    | worker j =>
      simp only [step] at hs
      split at hs
      · exact absurd hs (by simp)
      · exact inv_worker ih hs

/-! ## What holds -/

/-- In every schedule, no parameter is optimised twice, and only parameters with a gradient are; at most `cap`
goroutines are at work at the same time. -/
theorem at_most_once (h : Reach n cap hasGrad outcome st) :
    (∀ j, st.calls j ≤ 1 ∧ (st.calls j = 1 → j < n ∧ hasGrad j = true)) ∧
      ∑ j ∈ Finset.range n, (st.w j).holds ≤ cap := by
  have hI := inv_reach h
  refine ⟨fun j => ?_, by rw [← hI.guard]; exact hI.limit⟩
  have ht := hI.told j
  have hn : st.calls j = 1 → j < n := fun h1 => lt_of_not_idle hI fun hw => by
    rw [hw] at ht; simp only [Told] at ht; omega
  cases hw : st.w j <;> rw [hw] at ht <;> simp only [Told] at ht
  · exact ⟨by omega, fun h1 => by omega⟩
  · exact ⟨by omega, fun h1 => by omega⟩
  · exact ⟨by omega, fun h1 => ⟨hn h1, ht.2⟩⟩
  · exact ⟨by omega, fun h1 => ⟨hn h1, ht.2.1⟩⟩
  all_goals
    cases hg : hasGrad j <;> rw [hg] at ht <;> simp only [Bool.false_eq_true, if_false, if_true] at ht
    · exact ⟨by omega, fun h1 => by omega⟩
    · exact ⟨by omega, fun h1 => ⟨hn h1, rfl⟩⟩

/-- An error which is returned is the error of the strategy on some parameter. -/
theorem error_genuine (h : Reach n cap hasGrad outcome st) {e : E}
    (he : st.pc = .returnedErr e ∨ st.pc = .returned (some e)) :
    ∃ j < n, hasGrad j = true ∧ outcome j = some e ∧ st.calls j = 1 := by
  have hI := inv_reach h
  obtain ⟨j, h1, h2, h3, h4⟩ := hI.held e (Or.inr (Or.inr he))
  refine ⟨j, h1, h2, h3, ?_⟩
  have ht := hI.told j
  cases hw : st.w j <;> rw [hw] at ht h4 <;> simp [Told, Worker.past, h2] at ht h4 <;> exact ht

theorem pending_zero {w : Nat → Worker E} (h : ∑ j ∈ Finset.range n, (w j).pending = 0) :
    ∀ j < n, w j = .idle ∨ w j = .done := by
  intro j hj
  have := (Finset.sum_eq_zero_iff.mp h) j (Finset.mem_range.mpr hj)
  cases hw : w j <;> simp [hw, Worker.pending] at this ⊢

/-- When `Optimize` returns an error from inside the loop, it has waited: every goroutine it started has finished, its
parameter was optimised if it had a gradient, and nothing happens afterwards. -/
theorem error_path_waits (h : Reach n cap hasGrad outcome st) {e : E} (he : st.pc = .returnedErr e) :
    st.panicked = false ∧
    (∀ j, st.w j = .idle ∨ (st.w j = .done ∧ st.calls j = if hasGrad j then 1 else 0)) ∧
    ∀ t, step n cap hasGrad outcome st t = none := by
  have hI := inv_reach h
  have hw0 : st.wg = 0 := hI.waited ⟨e, he⟩
  have hsum : ∑ j ∈ Finset.range n, (st.w j).pending = 0 := by have := hI.wg; omega
  have hall : ∀ j, st.w j = .idle ∨ st.w j = .done := by
    intro j
    by_cases hj : j < n
    · exact pending_zero hsum j hj
    · exact Or.inl ((hI.idle j).mpr (by have := spawned_le hI; omega))
  refine ⟨?_, ?_, ?_⟩
  · cases hp : st.panicked with
    | false => rfl
    | true =>
      have := hI.closed.mp (hI.panicked hp)
      rw [he] at this
      exact this.elim
  · intro j
    rcases hall j with hw | hw
    · exact Or.inl hw
    · have ht := hI.told j
      rw [hw] at ht
      exact Or.inr ⟨hw, ht⟩
  · intro t
    cases t with
    | main => simp only [step, stepMain, he]; split <;> rfl
    | worker j =>
      rcases hall j with hw | hw <;> simp only [step, stepWorker, hw] <;> split <;> rfl

/-- Once `Optimize` has returned after its loop and its goroutines have come to rest without a panic, every parameter
with a gradient has been optimised exactly once, and if no error was returned none has occurred.
Missing for the full claim: nothing makes the goroutines come to rest before the return (`returns_early`), an error
can be lost, and instead of coming to rest the program can die (both: `error_lost_late_panic`). -/
theorem settled_partial (h : Reach n cap hasGrad outcome st) {r : Option E} (hr : st.pc = .returned r)
    (hw : ∀ j < n, st.w j = .idle ∨ st.w j = .done) :
    (∀ j < n, st.calls j = if hasGrad j then 1 else 0) ∧
    (r = none → ∀ j < n, hasGrad j = true → outcome j = none) := by
  have hI := inv_reach h
  have hn : st.next = n := by have := hI.pc_next; rwa [hr] at this
  have hsp : spawned st = n := by simp only [spawned, hr, hn]
  have hdone : ∀ j < n, st.w j = .done := fun j hj => by
    rcases hw j hj with h | h
    · have := (hI.idle j).mp h; omega
    · exact h
  refine ⟨fun j hj => ?_, fun hr0 j hj hg => ?_⟩
  · have ht := hI.told j
    rw [hdone j hj] at ht
    exact ht
  · by_contra ho
    have := hI.reported j (by rw [hdone j hj]; trivial) hg (Option.isSome_iff_ne_none.mpr ho)
    simp only [Reported, hr, hr0] at this
    exact absurd this (by simp)

/-- Every schedule is finite: each step decreases this number. -/
def measure (n : Nat) (st : State E) : Nat :=
  3 * (n - st.next) + (match st.pc with
    | .recv => 3 | .sel _ => 5 | .acquire _ => 4 | .waiting _ => 1 | .closing => 2 | .reading => 1
    | .returnedErr _ => 0 | .returned _ => 0) +
    ∑ j ∈ Finset.range n, (st.w j).rank + (if st.panicked then 0 else 1)

theorem measure_decreases {st' : State E} {t : Thread} (h : Reach n cap hasGrad outcome st)
    (hs : step n cap hasGrad outcome st t = some st') : measure n st' < measure n st := by
  have hI := inv_reach h
  cases t with
  | main =>
    simp only [step] at hs
    split at hs
    · exact absurd hs (by simp)
    rename_i hp
    simp only [stepMain] at hs
    split at hs
    · rename_i hpc
      split at hs
      · rename_i hlt
        obtain rfl := Option.some.inj hs
        simp only [measure, hpc]; omega
      · obtain rfl := Option.some.inj hs
        simp only [measure, hpc]; omega
    · rename_i j hpc
      split at hs <;> obtain rfl := Option.some.inj hs <;> simp only [measure, hpc] <;> omega
    · rename_i j hpc
      split at hs
      · obtain rfl := Option.some.inj hs
        have hjn : j < n := by have := hI.pc_next; rw [hpc] at this; have := hI.next_le; simp only at *; omega
        have hidle : st.w j = .idle := (hI.idle j).mpr (by
          have := hI.pc_next; rw [hpc] at this; simp only [spawned, hpc]; simp only at this; omega)
        have := sum_update (n := n) Worker.rank st.w j hjn .start
        rw [hidle] at this
        simp only [Worker.rank] at this
        simp only [measure, hpc, Worker.rank]
        omega
      · exact absurd hs (by simp)
    · rename_i e hpc
      split at hs
      · obtain rfl := Option.some.inj hs
        simp only [measure, hpc]; omega
      · exact absurd hs (by simp)
    · rename_i hpc
      obtain rfl := Option.some.inj hs
      simp only [measure, hpc]; omega
    · rename_i hpc
      obtain rfl := Option.some.inj hs
      simp only [measure, hpc]; omega
    · exact absurd hs (by simp)
    · exact absurd hs (by simp)
  | worker j =>
    simp only [step] at hs
    split at hs
    · exact absurd hs (by simp)
    rename_i hp
    have key : ∀ x : Worker E, st.w j ≠ .idle → x.rank < (st.w j).rank →
        ∑ k ∈ Finset.range n, (update st.w j x k).rank < ∑ k ∈ Finset.range n, (st.w k).rank := by
      intro x hni hx
      have := sum_update (n := n) Worker.rank st.w j (lt_of_not_idle hI hni) x
      omega
    simp only [stepWorker] at hs
    split at hs
    · exact absurd hs (by simp)
    · rename_i hw
      obtain rfl := Option.some.inj hs
      have := key (if hasGrad j then .optimize else .release) (by rw [hw]; simp)
        (by rw [hw]; split <;> simp [Worker.rank])
      simp only [measure]; omega
    · rename_i hw
      cases ho : outcome j with
      | some e =>
        rw [ho] at hs
        obtain rfl := Option.some.inj hs
        have := key (.send e) (by rw [hw]; simp) (by rw [hw]; simp [Worker.rank])
        simp only [measure]; omega
      | none =>
        rw [ho] at hs
        obtain rfl := Option.some.inj hs
        have := key .release (by rw [hw]; simp) (by rw [hw]; simp [Worker.rank])
        simp only [measure]; omega
    · rename_i e hw
      have := key .release (by rw [hw]; simp) (by rw [hw]; simp [Worker.rank])
      split at hs
      · obtain rfl := Option.some.inj hs
        simp only [measure, hp, if_true, Bool.false_eq_true, if_false]; omega
      · split at hs <;> obtain rfl := Option.some.inj hs <;> simp only [measure] <;> omega
    · rename_i hw
      obtain rfl := Option.some.inj hs
      have := key .finish (by rw [hw]; simp) (by rw [hw]; simp [Worker.rank])
      simp only [measure]; omega
    · rename_i hw
      obtain rfl := Option.some.inj hs
      have := key .done (by rw [hw]; simp) (by rw [hw]; simp [Worker.rank])
      simp only [measure]; omega
    · exact absurd hs (by simp)

/-- There is no deadlock: with a positive limit, a reachable state without a next step is one where the process has
panicked, or `Optimize` has returned and all its goroutines have finished. -/
theorem no_deadlock (hcap : 0 < cap) (h : Reach n cap hasGrad outcome st)
    (hs : ∀ t, step n cap hasGrad outcome st t = none) :
    st.panicked = true ∨
      (((∃ e, st.pc = .returnedErr e) ∨ ∃ r, st.pc = .returned r) ∧ ∀ j, st.w j = .idle ∨ st.w j = .done) := by
  have hI := inv_reach h
  by_cases hp : st.panicked = true
  · exact Or.inl hp
  right
  have hp' : st.panicked = false := by simpa using hp
  have hall : ∀ j, st.w j = .idle ∨ st.w j = .done := by
    intro j
    have := hs (.worker j)
    simp only [step, hp', Bool.false_eq_true, if_false, stepWorker] at this
    cases hw : st.w j with
    | idle => exact Or.inl rfl
    | done => exact Or.inr rfl
    | send e =>
      simp only [hw] at this
      split at this
      · exact absurd this (by simp)
      · split at this <;> exact absurd this (by simp)
    | _ => simp only [hw] at this; exact absurd this (by simp)
  refine ⟨?_, hall⟩
  have hg0 : st.guard = 0 := by
    rw [hI.guard]
    exact Finset.sum_eq_zero fun j _ => by rcases hall j with hw | hw <;> rw [hw] <;> rfl
  have hp0 : ∑ j ∈ Finset.range n, (st.w j).pending = 0 :=
    Finset.sum_eq_zero fun j _ => by rcases hall j with hw | hw <;> rw [hw] <;> rfl
  have hm := hs .main
  simp only [step, hp', Bool.false_eq_true, if_false, stepMain] at hm
  cases hpc : st.pc with
  | recv => simp only [hpc] at hm; split at hm <;> exact absurd hm (by simp)
  | sel j => simp only [hpc] at hm; split at hm <;> exact absurd hm (by simp)
  | acquire j => simp only [hpc, hg0, hcap, if_true] at hm; exact absurd hm (by simp)
  | waiting e =>
    have hw : st.wg = 0 := by have := hI.wg; rw [hpc] at this; simp only at this; omega
    simp only [hpc, hw, if_true] at hm
    exact absurd hm (by simp)
  | closing => simp only [hpc] at hm; exact absurd hm (by simp)
  | reading => simp only [hpc] at hm; exact absurd hm (by simp)
  | returnedErr e => exact Or.inl ⟨e, rfl⟩
  | returned r => exact Or.inr ⟨r, rfl⟩

/-! ## What does not hold -/

/-- Main steps: the next parameter is received and its goroutine started. -/
theorem spawn (h : Reach n cap hasGrad outcome st) (hp : st.panicked = false) (hpc : st.pc = .recv) (hn : st.next < n)
    (he : st.errCh = none) (hg : st.guard < cap) :
    Reach n cap hasGrad outcome
      { st with next := st.next + 1, wg := st.wg + 1, guard := st.guard + 1, w := update st.w st.next .start } := by
  have h1 : Reach n cap hasGrad outcome { st with pc := .sel st.next, next := st.next + 1 } :=
    .step .main h (by simp [step, hp, stepMain, hpc, hn])
  have h2 : Reach n cap hasGrad outcome { st with pc := .acquire st.next, next := st.next + 1, wg := st.wg + 1 } :=
    .step .main h1 (by simp [step, hp, stepMain, he])
  have h3 := Reach.step (st' := { st with
      pc := .recv, next := st.next + 1, wg := st.wg + 1, guard := st.guard + 1, w := update st.w st.next .start })
    .main h2 (by simp [step, hp, stepMain, hg])
  rw [← hpc] at h3
  exact h3

/-- Worker steps: a goroutine which has just started runs to its end without an error. -/
theorem runWorker {j : Nat} (h : Reach n cap hasGrad outcome st) (hp : st.panicked = false) (hw : st.w j = .start)
    (ho : hasGrad j = true → outcome j = none) :
    ∃ st', Reach n cap hasGrad outcome st' ∧ st'.panicked = false ∧ st'.pc = st.pc ∧ st'.next = st.next ∧
      st'.errCh = st.errCh ∧ st'.closed = st.closed ∧ st'.guard = st.guard - 1 ∧ st'.w j = .done ∧
      st'.calls j = st.calls j + (if hasGrad j then 1 else 0) ∧
      ∀ k, k ≠ j → st'.w k = st.w k ∧ st'.calls k = st.calls k := by
  have tail : ∀ st1 : State E, Reach n cap hasGrad outcome st1 → st1.panicked = false → st1.w j = .release →
      ∃ st', Reach n cap hasGrad outcome st' ∧ st'.panicked = false ∧ st'.pc = st1.pc ∧ st'.next = st1.next ∧
        st'.errCh = st1.errCh ∧ st'.closed = st1.closed ∧ st'.guard = st1.guard - 1 ∧ st'.w j = .done ∧
        st'.calls j = st1.calls j ∧ ∀ k, k ≠ j → st'.w k = st1.w k ∧ st'.calls k = st1.calls k := by
    intro st1 h1 hp1 hw1
    have h2 : Reach n cap hasGrad outcome { st1 with guard := st1.guard - 1, w := update st1.w j .finish } :=
      .step (.worker j) h1 (by simp [step, hp1, stepWorker, hw1])
    have h3 : Reach n cap hasGrad outcome
        { st1 with guard := st1.guard - 1, wg := st1.wg - 1, w := update (update st1.w j .finish) j .done } :=
      .step (.worker j) h2 (by simp [step, hp1, stepWorker])
    exact ⟨_, h3, hp1, rfl, rfl, rfl, rfl, rfl, by simp, rfl, fun k hk => ⟨by simp [hk], rfl⟩⟩
  cases hg : hasGrad j with
  | false =>
    have h1 : Reach n cap hasGrad outcome { st with w := update st.w j .release } :=
      .step (.worker j) h (by simp [step, hp, stepWorker, hw, hg])
    obtain ⟨st', a1, a2, a3, a4, a5, a6, a7, a8, a9, a10⟩ := tail _ h1 hp (by simp)
    exact ⟨st', a1, a2, a3, a4, a5, a6, a7, a8, by simpa [hg] using a9, fun k hk => by simpa [hk] using a10 k hk⟩
  | true =>
    have h1 : Reach n cap hasGrad outcome { st with w := update st.w j .optimize } :=
      .step (.worker j) h (by simp [step, hp, stepWorker, hw, hg])
    have h2 : Reach n cap hasGrad outcome
        { st with w := update (update st.w j .optimize) j .release, calls := update st.calls j (st.calls j + 1) } :=
      .step (.worker j) h1 (by simp [step, hp, stepWorker, ho hg])
    obtain ⟨st', a1, a2, a3, a4, a5, a6, a7, a8, a9, a10⟩ := tail _ h2 hp (by simp)
    exact ⟨st', a1, a2, a3, a4, a5, a6, a7, a8, by simpa [hg] using a9, fun k hk => by simpa [hk] using a10 k hk⟩

/-- After the loop, `Optimize` returns whatever is in the error channel, whether its goroutines have finished or not. -/
theorem finishMain (h : Reach n cap hasGrad outcome st) (hp : st.panicked = false) (hpc : st.pc = .recv)
    (hn : ¬ st.next < n) :
    Reach n cap hasGrad outcome { st with pc := .returned st.errCh, closed := true, errCh := none } := by
  have h1 : Reach n cap hasGrad outcome { st with pc := .closing } :=
    .step .main h (by simp [step, hp, stepMain, hpc, hn])
  have h2 : Reach n cap hasGrad outcome { st with pc := .reading, closed := true } :=
    .step .main h1 (by simp [step, hp, stepMain])
  exact .step .main h2 (by simp [step, hp, stepMain])

/-- The first `k` parameters can be optimised one after the other. -/
theorem serial (hcap : 0 < cap) : ∀ k ≤ n, (∀ j < k, hasGrad j = true → outcome j = none) →
    ∃ st, Reach n cap hasGrad outcome st ∧ st.panicked = false ∧ st.pc = .recv ∧ st.next = k ∧ st.errCh = none ∧
      st.closed = false ∧ st.guard = 0 ∧ (∀ j < k, st.calls j = if hasGrad j then 1 else 0) ∧
      ∀ j, k ≤ j → st.w j = .idle ∧ st.calls j = 0 := by
  intro k
  induction k with
  | zero => intro _ _; exact ⟨init, .init, rfl, rfl, rfl, rfl, rfl, rfl, by simp, fun j _ => ⟨rfl, rfl⟩⟩
  | succ k ih =>
    intro hk ho
    obtain ⟨st, a1, a2, a3, a4, a5, a6, a7, a8, a9⟩ := ih (by omega) fun j hj => ho j (by omega)
    have h1 := spawn a1 a2 a3 (by omega) a5 (by omega)
    obtain ⟨st', b1, b2, b3, b4, b5, b6, b7, b8, b9, b10⟩ := runWorker (j := k) h1 a2 (by simp [a4]) (ho k (by omega))
    refine ⟨st', b1, b2, by rw [b3]; exact a3, by rw [b4]; simp [a4], by rw [b5]; exact a5, by rw [b6]; exact a6,
      by rw [b7]; simp [a7], ?_, ?_⟩
    · intro j hj
      by_cases hjk : j = k
      · subst hjk; rw [b9]; simp [a9 j le_rfl]
      · rw [(b10 j hjk).2]; exact a8 j (by omega)
    · intro j hj
      obtain ⟨c1, c2⟩ := b10 j (by omega)
      rw [c1, c2]
      have hne : j ≠ st.next := by omega
      simp only [Function.update_of_ne hne]
      exact a9 j (by omega)

/-- Violation: for every number of parameters, `Optimize` can return success while the last parameter, which has a
gradient, has not been optimised. -/
theorem returns_early (hcap : 0 < cap) (m : Nat) (ho : ∀ j < m, hasGrad j = true → outcome j = none) :
    ∃ st, Reach (m + 1) cap hasGrad outcome st ∧ st.pc = .returned none ∧ st.panicked = false ∧ st.calls m = 0 ∧
      st.w m = .start ∧ st.closed = true := by
  obtain ⟨st, a1, a2, a3, a4, a5, a6, a7, a8, a9⟩ := serial (n := m + 1) hcap m (by omega) ho
  have h1 := spawn a1 a2 a3 (by omega) a5 (by omega)
  have h2 := finishMain h1 a2 a3 (by simp [a4])
  exact ⟨_, h2, by simp [a5], a2, by simpa using (a9 m le_rfl).2, by simp [a4], rfl⟩

/-- Violation: with at most as many parameters as the limit, `Optimize` can return success before any of them has been
optimised. -/
theorem returns_before_anything (hn : n ≤ cap) :
    ∃ st : State E, Reach n cap hasGrad outcome st ∧ st.pc = .returned none ∧ st.panicked = false ∧
      ∀ j, st.calls j = 0 := by
  have key : ∀ k ≤ n, ∃ st : State E, Reach n cap hasGrad outcome st ∧ st.panicked = false ∧ st.pc = .recv ∧
      st.next = k ∧ st.errCh = none ∧ st.guard = k ∧ ∀ j, st.calls j = 0 := by
    intro k
    induction k with
    | zero => intro _; exact ⟨init, .init, rfl, rfl, rfl, rfl, rfl, fun _ => rfl⟩
    | succ k ih =>
      intro hk
      obtain ⟨st, a1, a2, a3, a4, a5, a6, a7⟩ := ih (by omega)
      exact ⟨_, spawn a1 a2 a3 (by omega) a5 (by omega), a2, a3, by simp [a4], a5, by simp [a6], a7⟩
  obtain ⟨st, a1, a2, a3, a4, a5, a6, a7⟩ := key n le_rfl
  exact ⟨_, finishMain a1 a2 a3 (by omega), by simp [a5], a2, a7⟩

/-- Violation: the strategy fails on the last parameter, and yet `Optimize` can return success (the error is lost) and
the process die afterwards, by a send on the closed channel. -/
theorem error_lost_late_panic (hcap : 0 < cap) (m : Nat) (ho : ∀ j < m, hasGrad j = true → outcome j = none)
    (hg : hasGrad m = true) {e : E} (hm : outcome m = some e) :
    ∃ st, Reach (m + 1) cap hasGrad outcome st ∧ st.pc = .returned none ∧ st.panicked = true := by
  obtain ⟨st, b1, b2, b3, b4, b5, b6⟩ := returns_early (hasGrad := hasGrad) (outcome := outcome) hcap m ho
  have h1 : Reach (m + 1) cap hasGrad outcome { st with w := update st.w m .optimize } :=
    .step (.worker m) b1 (by simp [step, b3, stepWorker, b5, hg])
  have h2 : Reach (m + 1) cap hasGrad outcome
      { st with w := update (update st.w m .optimize) m (.send e), calls := update st.calls m (st.calls m + 1) } :=
    .step (.worker m) h1 (by simp [step, b3, stepWorker, hm])
  have h3 : Reach (m + 1) cap hasGrad outcome
      { st with w := update (update st.w m .optimize) m (.send e), calls := update st.calls m (st.calls m + 1),
                panicked := true } :=
    .step (.worker m) h2 (by simp [step, b3, stepWorker, b6])
  exact ⟨_, h3, b2, rfl⟩

/-- The schedule which goes well is also possible: all goroutines finish before `Optimize` returns. -/
theorem can_succeed (hcap : 0 < cap) (ho : ∀ j < n, hasGrad j = true → outcome j = none) :
    ∃ st : State E, Reach n cap hasGrad outcome st ∧ st.pc = .returned none ∧ st.panicked = false ∧
      ∀ j < n, st.calls j = if hasGrad j then 1 else 0 := by
  obtain ⟨st, a1, a2, a3, a4, a5, a6, a7, a8, a9⟩ := serial (n := n) hcap n le_rfl ho
  exact ⟨_, finishMain a1 a2 a3 (by omega), by simp [a5], a2, a8⟩

/-- Three parameters, the second without gradient, the third failing: a case of `error_lost_late_panic`. -/
example : ∃ st, Reach 3 8 (fun j => j != 1) (fun j => if j = 2 then some "unsupported state" else none) st ∧
    st.pc = .returned none ∧ st.panicked = true :=
  error_lost_late_panic (by decide) 2 (fun j hj _ => by simp; omega) (by decide) (e := "unsupported state") (by simp)

end Verif.Optimize
