import Verif.Lemmas.BackwardGraph

/-! The bookkeeping a failed call of `Backward` leaves behind, and what `AccGrad` does to it. -/

set_option linter.unusedSimpArgs false
set_option autoImplicit false

namespace Verif.Backward
open Function (update update_self update_of_ne)
open scoped BigOperators
variable {n : Nat} {M : Type}

/-- The state between a failed call and its repetition. -/
structure Retry (G : Graph n) (xs : List (Fin n)) (e : Fin n → Nat) (s : St n M) : Prop where
  start : Start G xs e s
  all : ∀ x, Reached G xs x → s.st x = .pending

theorem Assign.retry [Add M] {G : Graph n} {F : Fns n M} {xs done rest : List (Fin n)}
    {s₀ t : St n M} (hcl : Clean G s₀) (h : Assign G F xs (fun _ => 0) s₀ done rest t) :
    Retry G xs (fun y => rest.count y) { t with main := .failed } := by
  refine ⟨⟨h.alive, h.thr, h.st, ?_, h.pendIdle, fun x hx => (h.reach x).mp hx, ?_⟩,
    fun x hx => (h.reach x).mpr hx⟩
  · intro x hr ho
    by_cases hx : Reached G xs x
    · have := h.pend x hx
      simp only at this ⊢
      omega
    · have hi : t.st x = .idle := (h.st x).resolve_right (fun hp => hx ((h.reach x).mp hp))
      have h1 := h.pendIdle x hr hi
      have h2 : rest.count x = 0 := by
        rw [List.count_eq_zero]
        intro hm
        exact hx (.out (by rw [h.split]; simp [hm]) ho hr)
      have h3 : uses G (fun c => decide (t.st c = .pending)) x = 0 := by
        by_contra hne
        obtain ⟨c, hc, hm⟩ := uses_pos G _ x (Nat.pos_of_ne_zero hne)
        exact hx (.operand ((h.reach c).mp (by simpa using hc)) hm ho hr)
      simp only [h1, h2, h3]
      rfl
  · intro x hx
    have hr := (h.reach x).mp hx
    rcases h.chan x hr with hc | ⟨hc, -, hg, hu⟩
    · exact Or.inl hc
    · right
      refine ⟨hc, ?_, hg, hu⟩
      rcases h.fresh hcl.idle x hr with h1 | h1
      · rw [hc] at h1; cases h1
      · exact h1.2

/-- `AccGrad` by the caller while the counters still expect something for `x`. -/
theorem Retry.accGrad [Add M] {G : Graph n} {xs : List (Fin n)} {e : Fin n → Nat} {s : St n M}
    (h : Retry G xs e s) (x : Fin n) (g : M) (he : s.st x = .pending → 0 < e x) :
    Retry G xs (if s.st x = .pending then update e x (e x - 1) else e) (accGradSeq G s x g) := by
  obtain ⟨hs, hall⟩ := h
  have hne : ∀ y, s.grad y ≠ none → addGrad G s.grad x g y ≠ none := by
    intro y hy
    unfold addGrad
    split
    · exact hy
    · by_cases hyx : y = x
      · subst hyx; simp only [update_self]; cases s.grad y <;> simp [accOpt]
      · simpa [hyx] using hy
  unfold accGradSeq
  simp only
  by_cases hp : s.st x = .pending
  · have hni : s.st x ≠ .idle := by rw [hp]; simp
    rw [if_pos hp, if_neg hni]
    have hpos := he hp
    have hre := hs.reach x hp
    have hpd := hs.pend x hre.rg hre.isOp
    have hopen : s.chan x = .open := by
      rcases hs.chan x hp with h1 | ⟨_, h2, _⟩
      · exact h1
      · omega
    have hpend : ∀ y, G.requiresGrad y = true → G.isOp y = true →
        update s.pend x (s.pend x - 1) y =
          (uses G (fun c => decide (s.st c = .pending)) y : Int) + update e x (e x - 1) y := by
      intro y hr ho
      by_cases hyx : y = x
      · subst hyx
        simp only [update_self]
        omega
      · simp only [ne_eq, hyx, not_false_eq_true, update_of_ne]
        exact hs.pend y hr ho
    have hpi : ∀ y, G.requiresGrad y = true → s.st y = .idle →
        update s.pend x (s.pend x - 1) y = 0 := by
      intro y hr hi
      have hyx : y ≠ x := by rintro rfl; exact hni hi
      simp only [ne_eq, hyx, not_false_eq_true, update_of_ne]
      exact hs.pendIdle y hr hi
    simp only [update_self]
    split
    · rename_i hz
      unfold closeChan
      simp only [hopen]
      refine ⟨⟨hs.alive, hs.thr, hs.st, hpend, hpi, hs.reach, ?_⟩, hall⟩
      intro y hy
      by_cases hyx : y = x
      · subst hyx
        right
        refine ⟨by simp, by simp; omega, ?_, ?_⟩
        · simp only
          unfold addGrad
          rw [if_neg (by simp [isBlocker_of_isOp hre.isOp])]
          simp only [update_self]
          cases s.grad y <;> simp [accOpt]
        · intro c hc hm
          have h1 := le_uses G (fun c => decide (s.st c = .pending)) c y (by simp [hall c hc])
          have := List.count_pos_iff.mpr hm
          omega
      · simp only [ne_eq, hyx, not_false_eq_true, update_of_ne]
        exact (hs.chan y hy).imp_right fun ⟨h1, h2, h3, h4⟩ => ⟨h1, h2, hne y h3, h4⟩
    · refine ⟨⟨hs.alive, hs.thr, hs.st, hpend, hpi, hs.reach, ?_⟩, hall⟩
      intro y hy
      by_cases hyx : y = x
      · subst hyx; exact Or.inl hopen
      · simp only [ne_eq, hyx, not_false_eq_true, update_of_ne]
        exact (hs.chan y hy).imp_right fun ⟨h1, h2, h3, h4⟩ => ⟨h1, h2, hne y h3, h4⟩
  · have hi : s.st x = .idle := (hs.st x).resolve_right hp
    rw [if_neg hp, if_pos hi]
    exact ⟨⟨hs.alive, hs.thr, hs.st, hs.pend, hs.pendIdle, hs.reach,
      fun y hy => (hs.chan y hy).imp_right fun ⟨h1, h2, h3, h4⟩ => ⟨h1, h2, hne y h3, h4⟩⟩, hall⟩

theorem closeChan_st (s : St n M) (x : Fin n) : (closeChan s x).st = s.st := by
  unfold closeChan; split <;> rfl

theorem closeChan_grad (s : St n M) (x : Fin n) : (closeChan s x).grad = s.grad := by
  unfold closeChan; split <;> rfl

theorem accGradSeq_st [Add M] (G : Graph n) (s : St n M) (x : Fin n) (g : M) :
    (accGradSeq G s x g).st = s.st := by
  unfold accGradSeq; simp only; split
  · rfl
  · split
    · rw [closeChan_st]
    · rfl

theorem accGradSeq_grad [Add M] (G : Graph n) (s : St n M) (x : Fin n) (g : M) :
    (accGradSeq G s x g).grad = addGrad G s.grad x g := by
  unfold accGradSeq; simp only; split
  · rfl
  · split
    · rw [closeChan_grad]
    · rfl

theorem Retry.congr {G : Graph n} {xs : List (Fin n)} {e e' : Fin n → Nat} {s : St n M}
    (h : Retry G xs e s) (he : ∀ x, G.requiresGrad x = true → G.isOp x = true → e x = e' x) :
    Retry G xs e' s := by
  refine ⟨⟨h.start.alive, h.start.thr, h.start.st, ?_, h.start.pendIdle, h.start.reach, ?_⟩, h.all⟩
  · intro x hr ho; rw [← he x hr ho]; exact h.start.pend x hr ho
  · intro x hx
    have hre := h.start.reach x hx
    rw [← he x hre.rg hre.isOp]
    exact h.start.chan x hx

/-- a list of `AccGrad` calls by the caller -/
theorem Retry.accGrads [Add M] {G : Graph n} {xs : List (Fin n)} {e : Fin n → Nat} {s : St n M}
    (h : Retry G xs e s) (l : List (Fin n × M))
    (he : ∀ x, Reached G xs x → (l.map Prod.fst).count x ≤ e x) :
    Retry G xs (fun x => if s.st x = .pending then e x - (l.map Prod.fst).count x else e x)
      (l.foldl (fun s p => accGradSeq G s p.1 p.2) s) := by
  induction l generalizing s e with
  | nil => exact h.congr (by intro x _ _; simp)
  | cons p l ih =>
    simp only [List.foldl_cons]
    have h1 := h.accGrad p.1 p.2 (by
      intro hp
      have := he p.1 (h.start.reach _ hp)
      simp at this
      omega)
    refine (ih h1 ?_).congr ?_
    · intro x hx
      have h2 := he x hx
      simp only [List.map_cons, List.count_cons] at h2
      split
      · by_cases hxp : x = p.1
        · subst hxp; simp at h2 ⊢; omega
        · simp [hxp, Ne.symm hxp] at h2 ⊢; exact h2
      · omega
    · intro x _ _
      rw [accGradSeq_st]
      by_cases hx : s.st x = .pending
      · rw [if_pos hx, if_pos hx]
        simp only [List.map_cons, List.count_cons]
        by_cases hxp : x = p.1
        · subst hxp; rw [if_pos hx]; simp; omega
        · split <;> simp [hxp, Ne.symm hxp]
      · rw [if_neg hx, if_neg hx]
        split
        · rename_i hp
          have hxp : x ≠ p.1 := by rintro rfl; exact hx hp
          simp [hxp]
        · rfl

end Verif.Backward
