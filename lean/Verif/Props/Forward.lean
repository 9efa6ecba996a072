import Verif.Lemmas.Forward

/-! # Property C10: asynchronous forward execution -/

set_option linter.unusedSimpArgs false
set_option autoImplicit false

namespace Verif.Forward
variable {V : Type} {limit : Nat} {blank : Op V} {P : List (Cmd V)} {s : St V}

theorem syncStep_prefix (l : List (Cmd V)) (p : List V × List V) :
    p.1 <+: (l.foldl syncStep p).1 ∧ p.2 <+: (l.foldl syncStep p).2 := by
  induction l generalizing p with
  | nil => exact ⟨List.prefix_refl _, List.prefix_refl _⟩
  | cons c l ih =>
    have := ih (syncStep p c)
    rw [List.foldl_cons]
    have hc : p.1 <+: (syncStep p c).1 ∧ p.2 <+: (syncStep p c).2 := by
      cases c <;> simp [syncStep]
    exact ⟨hc.1.trans this.1, hc.2.trans this.2⟩

/-- **C10, values.** Whatever the schedule, the async flags and the limit: an operator's value,
once present, is the value it has in synchronous execution in creation order. -/
theorem forward_value_eq_sync (hP : Valid 0 P) (h : Reach limit (init blank P) s) {k : Nat}
    (hk : k < s.n) {v : V} (hv : (s.op k).value = some v) : (sync P).1[k]? = some v := by
  obtain ⟨vals, outs, hi⟩ := reach_inv hP h
  have hval : vals[k]? = some v := by
    have hp := (hi.ops k hk).phase
    cases hph : (s.op k).phase <;> rw [hph] at hp <;> simp only at hp
    · rw [hp.2.2.2] at hv; cases hv
    · rw [hp.2.2] at hv; cases hv
    · rw [← hp.2.1]; exact hv
    · rw [← hp.2.1]; exact hv
    · rw [← hp.1]; exact hv
  obtain ⟨bef, h1, h2⟩ := hi.split
  have := (syncStep_prefix s.prog (vals, outs)).1
  rw [← h2, ← List.foldl_append, ← h1] at this
  rw [h2] at this
  obtain ⟨t, ht⟩ := this
  show ((P.foldl syncStep ([], [])).1)[k]? = some v
  rw [← ht]
  rw [List.getElem?_append_left (List.getElem?_eq_some_iff.mp hval).1]
  exact hval

/-- **C10, results.** The `Value` calls made so far have returned what they return in synchronous
execution, and no value was ever used before it was there. -/
theorem forward_results_eq_sync (hP : Valid 0 P) (h : Reach limit (init blank P) s) :
    s.out <+: (sync P).2 ∧ s.bad = false := by
  obtain ⟨vals, outs, hi⟩ := reach_inv hP h
  refine ⟨?_, hi.ok⟩
  obtain ⟨bef, h1, h2⟩ := hi.split
  have := (syncStep_prefix s.prog (vals, outs)).2
  rw [← h2, ← List.foldl_append, ← h1] at this
  rw [h2] at this
  rw [hi.out]
  exact this

/-- **C10, no deadlock.** With a positive limit, a state in which nobody can move is one where the
program has been executed completely, every operator has its synchronous value, every goroutine
has finished and no slot is taken. -/
theorem forward_completes (hlim : 0 < limit) (hP : Valid 0 P) (h : Reach limit (init blank P) s)
    (hstuck : ∀ c, step limit s c = none) :
    s.prog = [] ∧ s.out = (sync P).2 ∧ s.n = (sync P).1.length ∧ s.guard = 0 ∧
    ∀ k, k < s.n → (s.op k).phase = .done ∧ (s.op k).value = (sync P).1[k]? := by
  obtain ⟨vals, outs, hi⟩ := reach_inv hP h
  obtain ⟨h1, h2, h3⟩ := hi.progress hlim hstuck
  obtain ⟨bef, h4, h5⟩ := hi.split
  rw [h1, List.append_nil] at h4
  have hs : sync P = (vals, outs) := by rw [sync, h4]; exact h5
  rw [hs]
  refine ⟨h1, hi.out, hi.n, ?_, ?_⟩
  · rw [hi.guard]
    apply Finset.sum_eq_zero
    intro k hk
    simp [holds, h3 k (Finset.mem_range.mp hk)]
  · intro k hk
    refine ⟨h3 k hk, ?_⟩
    have hp := (hi.ops k hk).phase
    rw [h3 k hk] at hp
    exact hp.1

/-- **C10, no livelock.** There is no infinite run. -/
theorem forward_terminates (hP : Valid 0 P) (run : Nat → St V) (h0 : run 0 = init blank P) :
    ¬ ∀ i, ∃ c, step limit (run i) c = some (run (i + 1)) := by
  intro hrun
  have hr : ∀ i, Reach limit (init blank P) (run i) := by
    intro i
    induction i with
    | zero => rw [h0]; exact .init
    | succ i ih => obtain ⟨c, hc⟩ := hrun i; exact .step c ih hc
  have hd : ∀ i, rank (run i) + i ≤ rank (run 0) := by
    intro i
    induction i with
    | zero => omega
    | succ i ih =>
      obtain ⟨c, hc⟩ := hrun i
      obtain ⟨vals, outs, hi⟩ := reach_inv hP (hr i)
      have := (hi.step hc).2
      omega
  have := hd (rank (run 0) + 1)
  omega

/-- **C10, limit.** At any time at most `limit` forward goroutines are running. -/
theorem forward_limit (hP : Valid 0 P) (h : Reach limit (init blank P) s) (l : List Nat)
    (hnd : l.Nodup) (hl : ∀ k ∈ l, k < s.n ∧ (s.op k).async = true ∧ (s.op k).phase ≠ .done) :
    l.length ≤ limit := by
  obtain ⟨vals, outs, hi⟩ := reach_inv hP h
  refine le_trans ?_ hi.limit
  rw [hi.guard, held, ← List.toFinset_card_of_nodup hnd, Finset.card_eq_sum_ones]
  have hsub : l.toFinset ⊆ Finset.range s.n := by
    intro k hk
    exact Finset.mem_range.mpr (hl k (List.mem_toFinset.mp hk)).1
  refine le_trans ?_ (Finset.sum_le_sum_of_subset hsub)
  apply Finset.sum_le_sum
  intro k hk
  obtain ⟨_, h1, h2⟩ := hl k (List.mem_toFinset.mp hk)
  unfold holds
  cases hph : (s.op k).phase <;> simp [h1]
  exact h2 hph

/-! ### The hypotheses are met: a diamond run asynchronously and read at the end -/

def exProg : List (Cmd Nat) :=
  [.run true [] fun _ => 5, .run true [0] fun l => l.sum + 1, .run false [0] fun l => l.sum + 2,
   .run true [1, 2] fun l => l.sum, .value 3]

example : Valid 0 exProg := by simp [Valid, exProg]

/-- the synchronous result is 13 -/
example : (sync exProg).2 = [13] := by decide

def exBlank : Op Nat := ⟨false, [], fun _ => 0, .done, none, false⟩

/-- with limit 1 the second `Run` has to wait for the first operator to finish: the state after
the first command offers no client step -/
example : ∃ s, Reach 1 (init exBlank exProg) s ∧ step 1 s .client = none ∧
    ∃ s', step 1 s (.goroutine 0) = some s' :=
  ⟨_, .step .client .init rfl, rfl, _, rfl⟩

end Verif.Forward
