import Verif.Spec.Backward
import Mathlib.Algebra.Order.BigOperators.Group.Finset

/-! Invariants of the two sequential phases of the machine (prepare and assign). -/

namespace Verif.Backward
open Function (update)
open scoped BigOperators
variable {n : Nat} {M : Type}

theorem sum_change {A : Type} [AddCommMonoid A] (f f' : Fin n → A) (i : Fin n)
    (h : ∀ c, c ≠ i → f' c = f c) : f i + ∑ c, f' c = f' i + ∑ c, f c := by
  classical
  rw [← Finset.add_sum_erase Finset.univ f' (Finset.mem_univ i),
      ← Finset.add_sum_erase Finset.univ f (Finset.mem_univ i)]
  have : ∑ c ∈ Finset.univ.erase i, f' c = ∑ c ∈ Finset.univ.erase i, f c := by
    apply Finset.sum_congr rfl
    intro c hc
    exact h c (Finset.ne_of_mem_erase hc)
  rw [this, add_left_comm]

theorem count_opOperands (G : Graph n) (c x : Fin n) (hx : G.isOp x = true) :
    (G.opOperands c).count x = (G.operands c).count x := by
  unfold Graph.opOperands
  rw [List.count_filter hx]

theorem mem_opOperands (G : Graph n) (c x : Fin n) :
    x ∈ G.opOperands c ↔ x ∈ G.operands c ∧ G.isOp x = true := by
  simp [Graph.opOperands]

/-- number of uses of `x` by the operators satisfying `p` -/
def uses (G : Graph n) (p : Fin n → Bool) (x : Fin n) : Nat :=
  ∑ c, if p c then (G.operands c).count x else 0

theorem uses_change (G : Graph n) (p q : Fin n → Bool) (i x : Fin n)
    (h : ∀ c, c ≠ i → q c = p c) :
    (if p i then (G.operands i).count x else 0) + uses G q x =
      (if q i then (G.operands i).count x else 0) + uses G p x :=
  sum_change (fun c => if p c then (G.operands c).count x else 0)
    (fun c => if q c then (G.operands c).count x else 0) i (by intro c hc; simp [h c hc])

theorem le_uses (G : Graph n) (p : Fin n → Bool) (c x : Fin n) (h : p c = true) :
    (G.operands c).count x ≤ uses G p x := by
  have h1 := Finset.single_le_sum
    (f := fun c => if p c = true then (G.operands c).count x else 0)
    (fun _ _ => Nat.zero_le _) (Finset.mem_univ c)
  simp only [h, if_true] at h1
  exact h1

theorem uses_pos (G : Graph n) (p : Fin n → Bool) (x : Fin n) (h : 0 < uses G p x) :
    ∃ c, p c = true ∧ x ∈ G.operands c := by
  by_contra hc
  have : uses G p x = 0 := by
    unfold uses
    apply Finset.sum_eq_zero
    intro c _
    split
    · rename_i hp
      exact List.count_eq_zero.mpr fun hm => hc ⟨c, hp, hm⟩
    · rfl
  omega

/-- Condition under which a call may be made; `e` are contributions that are counted but that
nobody will deliver (zero in ordinary use). -/
structure Start (G : Graph n) (xs : List (Fin n)) (e : Fin n → Nat) (s₀ : St n M) : Prop where
  alive : s₀.panicked = false
  thr : ∀ x, s₀.thr x = .none
  st : ∀ x, s₀.st x = .idle ∨ s₀.st x = .pending
  pend : ∀ x, G.requiresGrad x = true → G.isOp x = true →
    s₀.pend x = (uses G (fun c => decide (s₀.st c = .pending)) x : Int) + e x
  pendIdle : ∀ x, G.requiresGrad x = true → s₀.st x = .idle → s₀.pend x = 0
  reach : ∀ x, s₀.st x = .pending → Reached G xs x
  chan : ∀ x, s₀.st x = .pending → s₀.chan x = .open ∨
    (s₀.chan x = .closed ∧ e x = 0 ∧ s₀.grad x ≠ none ∧ ∀ c, Reached G xs c → x ∉ G.operands c)

theorem Clean.start {G : Graph n} {s₀ : St n M} (h : Clean G s₀) (xs : List (Fin n)) :
    Start G xs (fun _ => 0) s₀ where
  alive := h.alive
  thr := h.quiet
  st x := Or.inl (h.idle x)
  pend x hr _ := by
    have : uses G (fun c => decide (s₀.st c = .pending)) x = 0 := by simp [uses, h.idle]
    simp [this, h.noPending x hr]
  pendIdle x hr _ := h.noPending x hr
  reach x hx := by simp [h.idle x] at hx
  chan x hx := by simp [h.idle x] at hx

structure Prep (G : Graph n) (xs : List (Fin n)) (e : Fin n → Nat) (s₀ : St n M)
    (stk : List (Fin n)) (s : St n M) : Prop where
  main : s.main = .prepare stk
  alive : s.panicked = false
  grad : s.grad = s₀.grad
  thr : ∀ x, s.thr x = .none
  wg : s.wg = 0
  log : s.log = []
  st : ∀ x, s.st x = .idle ∨ s.st x = .pending
  stkOp : ∀ x ∈ stk, G.isOp x = true
  stkReach : ∀ x ∈ stk, G.requiresGrad x = true → Reached G xs x
  pend : ∀ x, G.requiresGrad x = true → G.isOp x = true →
    s.pend x + (stk.count x : Int) =
      (xs.count x : Int) + (uses G (fun c => decide (s.st c = .pending)) x : Int) + e x
  pendIdle : ∀ x, G.requiresGrad x = true → s.st x = .idle → s.pend x = 0
  reach : ∀ x, s.st x = .pending → Reached G xs x
  chan : ∀ x, s.st x = .pending → s.chan x = .open ∨
    (s.chan x = .closed ∧ e x = 0 ∧ s.grad x ≠ none ∧ ∀ c, Reached G xs c → x ∉ G.operands c)
  fresh : (∀ x, s₀.st x = .idle) → ∀ x, s.st x = .pending → s.chan x = .open

theorem Prep.init [Add M] {G : Graph n} {xs : List (Fin n)} {e : Fin n → Nat} {s₀ : St n M}
    (h : Start G xs e s₀) (hxs : ∀ x ∈ xs, G.isOp x = true) :
    Prep G xs e s₀ xs { s₀ with main := .prepare xs, wg := 0, log := [] } where
  main := rfl
  alive := h.alive
  grad := rfl
  thr := h.thr
  wg := rfl
  log := rfl
  st := h.st
  stkOp := hxs
  stkReach x hx hr := .out hx (hxs x hx) hr
  pend x hr ho := by
    have := h.pend x hr ho
    simp only at this ⊢
    omega
  pendIdle := h.pendIdle
  reach := h.reach
  chan := h.chan
  fresh h0 x hx := by simp [h0 x] at hx

theorem Reached.isOp {G : Graph n} {xs : List (Fin n)} {x : Fin n} (h : Reached G xs x) :
    G.isOp x = true := by cases h <;> assumption

theorem Reached.rg {G : Graph n} {xs : List (Fin n)} {x : Fin n} (h : Reached G xs x) :
    G.requiresGrad x = true := by cases h <;> assumption

theorem Prep.step [Add M] {G : Graph n} {xs : List (Fin n)} {e : Fin n → Nat} {s₀ s : St n M}
    {x : Fin n} {rest : List (Fin n)} (h : Prep G xs e s₀ (x :: rest) s) :
    ∃ stk, Prep G xs e s₀ stk (prepareStep G s x rest) := by
  have hop := h.stkOp x (by simp)
  unfold prepareStep
  split
  · rename_i hrg
    have hre := h.stkReach x (by simp) hrg
    split
    · rename_i hidle
      refine ⟨G.opOperands x ++ rest, ?_⟩
      refine ⟨rfl, h.alive, h.grad, h.thr, h.wg, h.log, ?_, ?_, ?_, ?_, ?_, ?_, ?_, ?_⟩
      · intro y
        by_cases hy : y = x
        · subst hy; simp
        · simpa [hy] using h.st y
      · intro y hy
        simp only [List.mem_append, mem_opOperands] at hy
        rcases hy with hy | hy
        · exact hy.2
        · exact h.stkOp y (by simp [hy])
      · intro y hy hr
        simp only [List.mem_append, mem_opOperands] at hy
        rcases hy with hy | hy
        · exact .operand hre hy.1 hy.2 hr
        · exact h.stkReach y (by simp [hy]) hr
      · intro y hr hyop
        have hp := h.pend y hr hyop
        have hs := uses_change G (fun c => decide (s.st c = .pending))
          (fun c => decide (update s.st x .pending c = .pending)) x y (by intro c hc; simp [hc])
        simp only [hidle, Function.update_self, List.count_append,
          count_opOperands G x y hyop] at hs ⊢
        simp only [decide_true, if_true, reduceCtorEq, decide_false, Bool.false_eq_true,
          if_false] at hs
        by_cases hy : y = x
        · subst hy
          simp at hp ⊢
          omega
        · simp [hy, Ne.symm hy] at hp ⊢
          omega
      · intro y hr hyi
        by_cases hy : y = x
        · subst hy; simp at hyi
        · simp only [ne_eq, hy, not_false_eq_true, Function.update_of_ne] at hyi ⊢
          exact h.pendIdle y hr hyi
      · intro y hyp
        by_cases hy : y = x
        · subst hy; exact hre
        · simp only [ne_eq, hy, not_false_eq_true, Function.update_of_ne] at hyp
          exact h.reach y hyp
      · intro y hyp
        by_cases hy : y = x
        · subst hy; simp
        · simp only [ne_eq, hy, not_false_eq_true, Function.update_of_ne] at hyp ⊢
          exact h.chan y hyp
      · intro h0 y hyp
        by_cases hy : y = x
        · subst hy; simp
        · simp only [ne_eq, hy, not_false_eq_true, Function.update_of_ne] at hyp ⊢
          exact h.fresh h0 y hyp
    · rename_i hidle
      refine ⟨rest, rfl, h.alive, h.grad, h.thr, h.wg, h.log, h.st, ?_, ?_, ?_, ?_, h.reach, h.chan, h.fresh⟩
      · intro y hy; exact h.stkOp y (by simp [hy])
      · intro y hy; exact h.stkReach y (by simp [hy])
      · intro y hr hyop
        have hp := h.pend y hr hyop
        by_cases hy : y = x
        · subst hy
          simp at hp ⊢
          omega
        · simp [hy, Ne.symm hy] at hp ⊢
          omega
      · intro y hr hyi
        by_cases hy : y = x
        · subst hy; exact absurd hyi hidle
        · simp only [ne_eq, hy, not_false_eq_true, Function.update_of_ne]
          exact h.pendIdle y hr hyi
  · rename_i hrg
    refine ⟨rest, rfl, h.alive, h.grad, h.thr, h.wg, h.log, h.st, ?_, ?_, ?_, h.pendIdle, h.reach, h.chan, h.fresh⟩
    · intro y hy; exact h.stkOp y (by simp [hy])
    · intro y hy; exact h.stkReach y (by simp [hy])
    · intro y hr hyop
      have hp := h.pend y hr hyop
      have hy : y ≠ x := by rintro rfl; exact hrg hr
      simpa [Ne.symm hy] using hp

structure Assign (G : Graph n) (F : Fns n M) (xs : List (Fin n)) (e : Fin n → Nat) (s₀ : St n M)
    (done rest : List (Fin n)) (s : St n M) : Prop where
  split : xs = done ++ rest
  main : s.main = .assign rest
  alive : s.panicked = false
  grad : ∀ x, s.grad x = if x ∈ done ∧ s₀.grad x = none then F.seed x else s₀.grad x
  gradSome : ∀ x ∈ done, s.grad x ≠ none
  thr : ∀ x, s.thr x = .none
  wg : s.wg = 0
  log : s.log = []
  st : ∀ x, s.st x = .idle ∨ s.st x = .pending
  reach : ∀ x, s.st x = .pending ↔ Reached G xs x
  pend : ∀ x, Reached G xs x →
    s.pend x = (rest.count x : Int) + (uses G (fun c => decide (s.st c = .pending)) x : Int) + e x
  pendIdle : ∀ x, G.requiresGrad x = true → s.st x = .idle → s.pend x = 0
  chan : ∀ x, Reached G xs x → s.chan x = .open ∨
    (s.chan x = .closed ∧ e x = 0 ∧ s.grad x ≠ none ∧ ∀ c, Reached G xs c → x ∉ G.operands c)
  fresh : (∀ x, s₀.st x = .idle) → ∀ x, Reached G xs x → s.chan x = .open ∨
    (s.chan x = .closed ∧ rest.count x = 0)

theorem Prep.toAssign [Add M] {G : Graph n} {F : Fns n M} {xs : List (Fin n)} {e : Fin n → Nat}
    {s₀ s : St n M}
    (h : Prep G xs e s₀ [] s) :
    Assign G F xs e s₀ [] xs { s with main := .assign xs } := by
  have hre : ∀ x, Reached G xs x → s.st x = .pending := by
    have key : ∀ x, G.requiresGrad x = true → G.isOp x = true →
        (0 < xs.count x ∨ 0 < uses G (fun c => decide (s.st c = .pending)) x) →
        s.st x = .pending := by
      intro x hr ho hpos
      have hp := h.pend x hr ho
      rcases h.st x with hi | hi
      · have := h.pendIdle x hr hi
        simp at hp
        omega
      · exact hi
    intro x hx
    induction hx with
    | out hm ho hr => exact key _ hr ho (Or.inl (List.count_pos_iff.mpr hm))
    | @operand c x hc hm ho hr ih =>
      refine key _ hr ho (Or.inr ?_)
      have h1 := le_uses G (fun c => decide (s.st c = .pending)) c x (by simp [ih])
      have := List.count_pos_iff.mpr hm
      omega
  refine ⟨rfl, rfl, h.alive, ?_, ?_, h.thr, h.wg, h.log, h.st, ?_, ?_, h.pendIdle, ?_, ?_⟩
  · intro x; simp [h.grad]
  · simp
  · intro x; exact ⟨h.reach x, hre x⟩
  · intro x hx
    have := h.pend x hx.rg hx.isOp
    simp at this ⊢
    omega
  · intro x hx
    exact h.chan x (hre x hx)
  · intro h0 x hx
    exact Or.inl (h.fresh h0 x (hre x hx))

theorem isBlocker_of_isOp {G : Graph n} {x : Fin n} (h : G.isOp x = true) :
    G.isBlocker x = false := by
  unfold Graph.isOp at h
  unfold Graph.isBlocker
  split at h <;> simp_all

theorem uses_nonneg (G : Graph n) (p : Fin n → Bool) (x : Fin n) : (0 : Int) ≤ uses G p x := by
  omega

/-- One assignment: it either fails because gradient and seed are both missing, or keeps the
invariant. -/
theorem Assign.step [Add M] {G : Graph n} {F : Fns n M} {xs : List (Fin n)} {e : Fin n → Nat}
    {s₀ s : St n M}
    {x : Fin n} {done rest : List (Fin n)} (h : Assign G F xs e s₀ done (x :: rest) s)
    (hxs : ∀ x ∈ xs, G.isOp x = true) :
    (assignStep G F s x rest = { s with main := .failed } ∧ s.grad x = none ∧
      s₀.grad x = none ∧ F.seed x = none) ∨
    Assign G F xs e s₀ (done ++ [x]) rest (assignStep G F s x rest) := by
  have hxm : x ∈ xs := by rw [h.split]; simp
  have hop := hxs x hxm
  have hrp : Reached G xs x ∨ G.requiresGrad x = false := by
    by_cases hr : G.requiresGrad x = true
    · exact Or.inl (.out hxm hop hr)
    · exact Or.inr (by simpa using hr)
  have hsp : xs = (done ++ [x]) ++ rest := by rw [h.split]; simp
  have hfresh : (∀ x, s₀.st x = .idle) → ∀ y, Reached G xs y → s.chan y = .open ∨
      (s.chan y = .closed ∧ rest.count y = 0) := by
    intro h0 y hy
    refine (h.fresh h0 y hy).imp_right fun ⟨h1, h2⟩ => ⟨h1, ?_⟩
    rw [List.count_cons] at h2
    omega
  unfold assignStep
  split
  · -- existing gradient
    rename_i g hg
    right
    refine ⟨hsp, rfl, h.alive, ?_, ?_, h.thr, h.wg, h.log, h.st, h.reach, ?_, ?_, ?_, ?_⟩
    · intro y
      have := h.grad y
      by_cases hy : y = x
      · subst hy
        simp only at *
        rw [hg] at this ⊢
        by_cases hd : s₀.grad y = none
        · by_cases hm : y ∈ done
          · simp [hd, hm] at this ⊢; exact this
          · simp [hd, hm] at this
        · simp [hd] at this ⊢; exact this
      · simpa [hy] using this
    · intro y hy
      simp only [List.mem_append, List.mem_singleton] at hy
      rcases hy with hy | rfl
      · exact h.gradSome y hy
      · simp [hg]
    · intro y hy
      have hp := h.pend y hy
      by_cases hyx : y = x
      · subst hyx; simp at hp ⊢; omega
      · simp [hyx, Ne.symm hyx] at hp ⊢; omega
    · intro y hr hyi
      by_cases hyx : y = x
      · subst hyx
        rcases hrp with hre | hre
        · have h3 := hyi.symm.trans ((h.reach y).mpr hre); cases h3
        · simp [hr] at hre
      · simp only [ne_eq, hyx, not_false_eq_true, Function.update_of_ne]
        exact h.pendIdle y hr hyi
    · exact h.chan
    · exact hfresh
  · rename_i hg
    have hs0 : s₀.grad x = none ∧ x ∉ done := by
      have h1 := h.grad x
      have h2 := h.gradSome x
      constructor
      · by_contra hd
        simp [hd, hg] at h1
        exact hd h1.symm
      · intro hm; exact h2 hm hg
    split
    · -- seeding
      rename_i g hseed
      right
      -- facts independent of the bookkeeping branch
      have hgrad : ∀ y, addGrad G s.grad x g y =
          if y ∈ done ++ [x] ∧ s₀.grad y = none then F.seed y else s₀.grad y := by
        intro y
        unfold addGrad
        rw [if_neg (by simp [isBlocker_of_isOp hop])]
        by_cases hy : y = x
        · subst hy; simp [hg, hs0.1, hseed, accOpt]
        · simp [hy, h.grad y]
      have hsome : ∀ y ∈ done ++ [x], addGrad G s.grad x g y ≠ none := by
        intro y hy
        unfold addGrad
        rw [if_neg (by simp [isBlocker_of_isOp hop])]
        by_cases hyx : y = x
        · subst hyx; simp [hg, accOpt]
        · simp only [List.mem_append, List.mem_singleton, hyx, or_false] at hy
          simp only [ne_eq, hyx, not_false_eq_true, Function.update_of_ne]
          exact h.gradSome y hy
      have hchan : ∀ y, Reached G xs y → s.chan y = .open ∨ (s.chan y = .closed ∧ e y = 0 ∧
          addGrad G s.grad x g y ≠ none ∧ ∀ c, Reached G xs c → y ∉ G.operands c) := by
        intro y hy
        refine (h.chan y hy).imp_right fun ⟨h1, h2, h3, h4⟩ => ⟨h1, h2, ?_, h4⟩
        unfold addGrad
        rw [if_neg (by simp [isBlocker_of_isOp hop])]
        by_cases hyx : y = x
        · subst hyx; exact absurd hg h3
        · simpa [hyx] using h3
      have hpend : ∀ y, Reached G xs y → y ≠ x →
          s.pend y = (rest.count y : Int) +
            (uses G (fun c => decide (s.st c = .pending)) y : Int) + e y := by
        intro y hy hyx
        have hp := h.pend y hy
        simpa [Ne.symm hyx] using hp
      unfold accGradSeq
      simp only
      split
      · -- not requiring gradients
        rename_i hidle
        have hnr : ¬ Reached G xs x := by
          intro hre; have := (h.reach x).mpr hre; simp [hidle] at this
        refine ⟨hsp, rfl, h.alive, hgrad, hsome, h.thr, h.wg, h.log, h.st, h.reach, ?_, h.pendIdle, hchan, hfresh⟩
        intro y hy
        exact hpend y hy (by rintro rfl; exact hnr hy)
      · rename_i hidle
        have hpx : s.st x = .pending := (h.st x).resolve_left hidle
        have hre := (h.reach x).mp hpx
        have hp := h.pend x hre
        simp only [List.count_cons_self, Nat.cast_add, Nat.cast_one] at hp
        have hopen : s.chan x = .open := by
          rcases h.chan x hre with hc | hc
          · exact hc
          · exact absurd hg hc.2.2.1
        simp only [Function.update_self]
        split
        · rename_i hz
          unfold closeChan
          simp only [hopen]
          refine ⟨hsp, rfl, h.alive, hgrad, hsome, h.thr, h.wg, h.log, h.st, h.reach, ?_, ?_, ?_, ?_⟩
          · intro y hy
            by_cases hyx : y = x
            · subst hyx; simp; omega
            · simp only [ne_eq, hyx, not_false_eq_true, Function.update_of_ne]
              exact hpend y hy hyx
          · intro y hr hyi
            have hyx : y ≠ x := by rintro rfl; exact hidle hyi
            simp only [ne_eq, hyx, not_false_eq_true, Function.update_of_ne]
            exact h.pendIdle y hr hyi
          · intro y hy
            by_cases hyx : y = x
            · subst hyx
              right
              refine ⟨by simp, by omega, hsome y (by simp), ?_⟩
              intro c hc hm
              have h1 := le_uses G (fun c => decide (s.st c = .pending)) c y
                (by simp [(h.reach c).mpr hc])
              have := List.count_pos_iff.mpr hm
              omega
            · simp only [ne_eq, hyx, not_false_eq_true, Function.update_of_ne]
              exact hchan y hy
          · intro h0 y hy
            by_cases hyx : y = x
            · subst hyx; right; simp; omega
            · simp only [ne_eq, hyx, not_false_eq_true, Function.update_of_ne]
              exact hfresh h0 y hy
        · rename_i hz
          refine ⟨hsp, rfl, h.alive, hgrad, hsome, h.thr, h.wg, h.log, h.st, h.reach, ?_, ?_, ?_, ?_⟩
          · intro y hy
            by_cases hyx : y = x
            · subst hyx; simp; omega
            · simp only [ne_eq, hyx, not_false_eq_true, Function.update_of_ne]
              exact hpend y hy hyx
          · intro y hr hyi
            have hyx : y ≠ x := by rintro rfl; exact hidle hyi
            simp only [ne_eq, hyx, not_false_eq_true, Function.update_of_ne]
            exact h.pendIdle y hr hyi
          · exact hchan
          · exact hfresh
    · rename_i hseed
      left
      exact ⟨rfl, hg, hs0.1, hseed⟩

end Verif.Backward
