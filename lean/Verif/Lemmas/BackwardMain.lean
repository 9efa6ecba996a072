import Verif.Lemmas.BackwardCount
import Mathlib.Data.Prod.Lex

/-! The invariant of whole runs, progress and termination. -/

set_option linter.unusedSimpArgs false
set_option autoImplicit false

namespace Verif.Backward
open Function (update)
open scoped BigOperators
variable {n : Nat} {M : Type}

/-! ### value equation -/

def Task.amt [AddCommSemigroup M] (x : Fin n) : Task n M → WithZero M
  | .add t g => if t = x then (g : WithZero M) else 0
  | _ => 0

def logSum [AddCommSemigroup M] (F : Fns n M) (log : List (Fin n × M)) (x : Fin n) : WithZero M :=
  (log.map fun p => contrib F p.1 (some p.2) x).sum

def Val [AddCommSemigroup M] (G : Graph n) (F : Fns n M) (g₁ : Fin n → Option M) (s : St n M) :
    Prop :=
  ∀ x, G.isBlocker x = false →
    amount (s.grad x) + total (Task.amt x) s.thr = amount (g₁ x) + logSum F s.log x

theorem amount_accOpt [AddCommSemigroup M] (o : Option M) (g : M) :
    amount (accOpt o g) = amount o + (g : WithZero M) := by
  cases o with
  | none => simp [accOpt, amount]
  | some h => simp [accOpt, amount, WithZero.coe_add]

theorem sum_tasksOf_amt [AddCommSemigroup M] (F : Fns n M) (c : Fin n) (g : M) (x : Fin n) :
    ((tasksOf (F.bw c g)).map (Task.amt x)).sum = contrib F c (some g) x := by
  simp only [tasksOf, List.map_map, contrib]
  rfl

theorem Val.sameTodo [AddCommSemigroup M] {G : Graph n} {F : Fns n M} {g₁ : Fin n → Option M}
    {s s' : St n M} {x : Fin n} {t : Thread n M} (h : Val G F g₁ s)
    (hthr : s'.thr = update s.thr x t) (htodo : (s.thr x).todo = t.todo)
    (hlog : s'.log = s.log) (hgrad : s'.grad = s.grad) : Val G F g₁ s' := by
  intro y hy
  have ht : total (Task.amt y) s'.thr = total (Task.amt y) s.thr := by
    rw [hthr]; exact total_same _ s.thr x t htodo
  rw [ht, hlog, hgrad]
  exact h y hy

theorem total_mid0 {A : Type} [AddCommMonoid A] (f : Task n M → A) (thr : Fin n → Thread n M)
    (i : Fin n) (a b r : List (Task n M)) (t : Task n M) (h : thr i = .running (a ++ t :: b))
    (hr : (r.map f).sum = 0) :
    f t + total f (update thr i (.running (a ++ r ++ b))) = total f thr := by
  obtain ⟨q, h1, h2⟩ := total_split f thr i
  rw [h2, h1, h]
  simp only [Thread.todo, List.map_append, List.map_cons, List.sum_append, List.sum_cons, hr]
  abel

theorem Val.step [AddCommSemigroup M] {G : Graph n} {F : Fns n M} {g₁ : Fin n → Option M}
    {xs stk : List (Fin n)} {s s' : St n M} (hc : Core G xs stk s) (h : Val G F g₁ s)
    (hs : PStep G F s s') : Val G F g₁ s' := by
  cases hs with
  | fork x rest hm hr hx =>
    obtain ⟨hna, hre, hnk⟩ := hc.pending_iff hx
    have hne : (s.thr x).entered = false := by
      by_contra hcc; exact hnk (hc.entered x (by simpa using hcc))
    have hnone : s.thr x = .none := by
      cases ht : s.thr x <;> simp_all [Thread.active, Thread.entered]
    exact h.sameTodo (x := x) (t := .start) rfl (by simp [hnone, Thread.todo]) rfl rfl
  | skip x rest hm hx => exact h
  | wait hm => exact h
  | ret hm hw => exact h
  | block x ht hp =>
    exact h.sameTodo (x := x) (t := .blocked) rfl (by simp [ht, Thread.todo]) rfl rfl
  | enter x g hw hcond hg =>
    intro y hy
    have htodo : (s.thr x).todo = [] := by
      cases ht : s.thr x <;> simp_all [Thread.waiting, Thread.todo]
    have := total_update (Task.amt y) s.thr x (.running (tasksOf (F.bw x g)))
    rw [htodo] at this
    simp only [List.map_nil, List.sum_nil, zero_add, Thread.todo, sum_tasksOf_amt] at this
    simp only [this, logSum, List.map_append, List.sum_append, List.map_cons, List.map_nil,
      List.sum_cons, List.sum_nil, add_zero]
    have h1 := h y hy
    unfold logSum at h1
    rw [← add_assoc (amount (g₁ y)), ← h1]
    abel
  | enterNil x hw hcond hg => exact h
  | finish x ht =>
    exact h.sameTodo (x := x) (t := .finishing) rfl (by simp [ht, Thread.todo]) rfl rfl
  | done x ht =>
    exact h.sameTodo (x := x) (t := .none) rfl (by simp [ht, Thread.todo]) rfl rfl
  | add x a b t g ht =>
    intro y hy
    have hm := total_mid0 (Task.amt y) s.thr x a b (if G.isOp t then [.check t] else [])
      (.add t g) ht (by split <;> simp [Task.amt])
    simp only
    rw [← h y hy, ← hm]
    by_cases hty : y = t
    · subst hty
      simp only [addGrad, hy, Bool.false_eq_true, if_false, Function.update_self, amount_accOpt,
        Task.amt, if_true]
      abel
    · have : addGrad G s.grad t g y = s.grad y := by
        unfold addGrad
        split
        · rfl
        · simp [hty]
      rw [this]
      simp [Task.amt, Ne.symm hty]
  | check x a b t ht =>
    intro y hy
    have hm := total_mid0 (Task.amt y) s.thr x a b (if s.st t = .idle then [] else [.dec t])
      (.check t) ht (by split <;> simp [Task.amt])
    simp only
    rw [← h y hy, ← hm]
    simp [Task.amt]
  | dec x a b t ht =>
    intro y hy
    have hm := total_mid0 (Task.amt y) s.thr x a b (if s.pend t - 1 = 0 then [.close t] else [])
      (.dec t) ht (by split <;> simp [Task.amt])
    simp only
    rw [← h y hy, ← hm]
    simp [Task.amt]
  | closeOk x a b t ht hco =>
    intro y hy
    have hm := total_mid0 (Task.amt y) s.thr x a b [] (.close t) ht (by simp)
    simp only [List.append_nil] at hm
    simp only
    rw [← h y hy, ← hm]
    simp [Task.amt]
  | closeBad x a b t ht hco =>
    intro y hy
    have hm := total_mid0 (Task.amt y) s.thr x a b [] (.close t) ht (by simp)
    simp only [List.append_nil] at hm
    simp only
    rw [← h y hy, ← hm]
    simp [Task.amt]

/-! ### from the assign phase to the concurrent phase -/

theorem total_none {A : Type} [AddCommMonoid A] (f : Task n M → A) (thr : Fin n → Thread n M)
    (h : ∀ x, thr x = .none) : total f thr = 0 := by
  simp [total, h, Thread.todo]

theorem Assign.toCore [Add M] {G : Graph n} {F : Fns n M} {xs : List (Fin n)} {e : Fin n → Nat}
    {s₀ s : St n M} {done : List (Fin n)} (h : Assign G F xs e s₀ done [] s) (hac : G.Acyclic) :
    Core G xs xs { s with main := .process xs } := by
  have hdue : ∀ x, dueOp { s with main := Main.process xs } x = decide (s.st x = .pending) := by
    intro x; simp [dueOp, h.thr, Thread.waiting]
  refine ⟨Or.inl rfl, ?_, ?_, ?_, ?_, ?_, ?_, ?_⟩
  · intro x
    rcases h.st x with hx | hx <;> simp [hx, h.thr, Thread.active]
  · intro x
    rw [hdue]
    simp [keys, h.log, h.reach x]
  · intro x; simp [keys, h.log]
  · simp [keys, h.log]
  · intro x; simp [h.thr, Thread.entered]
  · intro x hx
    have hr := (h.reach x).mp hx
    cases hr with
    | out hm _ _ => exact Or.inl hm
    | operand hcr hm _ _ => exact Or.inr ⟨_, (h.reach _).mpr hcr, hm⟩
  · simp only [h.wg]
    unfold nPresent
    simp [h.thr, Thread.present]

theorem Assign.toCnt [Add M] {G : Graph n} {F : Fns n M} {xs : List (Fin n)} {e : Fin n → Nat}
    {s₀ s : St n M} {done : List (Fin n)} (h : Assign G F xs e s₀ done [] s) :
    Cnt G F xs e { s with main := .process xs } := by
  have hdue : dueOp { s with main := Main.process xs } = fun x => decide (s.st x = .pending) := by
    funext x; simp [dueOp, h.thr, Thread.waiting]
  have htot : ∀ f : Task n M → Nat, total f s.thr = 0 := fun f => total_none f _ h.thr
  have huse0 : ∀ x, (∀ c, Reached G xs c → x ∉ G.operands c) →
      uses G (fun c => decide (s.st c = .pending)) x = 0 := by
    intro x hx
    by_contra hne
    obtain ⟨c, hc, hm⟩ := uses_pos G _ x (Nat.pos_of_ne_zero hne)
    exact hx c ((h.reach c).mp (by simpa using hc)) hm
  refine ⟨h.alive, ?_, ?_, ?_, ?_, ?_, ?_, ?_, ?_, ?_⟩
  · intro x hx
    have := h.pend x hx
    rw [hdue]
    simp only [htot, deficit, h.log, List.count_nil, List.map_nil, List.sum_nil] at this ⊢
    omega
  · simp [keys, h.log]
  · intro x hx
    simp only [htot]
    rcases h.chan x hx with hc | hc
    · left; exact ⟨hc, by omega⟩
    · right; exact ⟨hc.1, by simp⟩
  · intro x hx hcond
    simp only [htot] at hcond ⊢
    have hclosed : s.chan x = .closed := by
      rcases hcond with hc | hc
      · exact hc
      · omega
    rcases h.chan x hx with hc | hc
    · rw [hclosed] at hc; cases hc
    · have h1 := h.pend x hx
      have h2 := huse0 x hc.2.2.2
      rw [h2, hc.2.1] at h1
      simpa using h1
  · intro x hx; simp [h.thr] at hx
  · intro x _; exact htot _
  · intro x hx hr
    rcases h.st x with hi | hi
    · exact h.pendIdle x hr hi
    · exact absurd ((h.reach x).mp hi) hx
  · intro x hx hg
    rw [hdue]
    simp only [htot, deficit, h.log, List.map_nil, List.sum_nil] at hg ⊢
    cases hx with
    | out hm _ _ =>
      have := h.gradSome x (by have := h.split; simp at this; rw [← this]; exact hm)
      exact absurd hg this
    | @operand c _ hcr hm _ _ =>
      have h1 := le_uses G (fun c => decide (s.st c = .pending)) c x
        (by simp [(h.reach c).mpr hcr])
      have := List.count_pos_iff.mpr hm
      omega
  · intro p hp; simp [h.log] at hp

theorem Assign.toVal [AddCommSemigroup M] {G : Graph n} {F : Fns n M} {xs : List (Fin n)}
    {e : Fin n → Nat} {s₀ s : St n M} {done : List (Fin n)} (h : Assign G F xs e s₀ done [] s)
    (hxs : ∀ x ∈ xs, G.isOp x = true) :
    Val G F (seeded G F xs s₀.grad) { s with main := .process xs } := by
  intro x _
  have hd : done = xs := by have := h.split; simpa using this.symm
  simp only [total_none _ _ h.thr, logSum, h.log, List.map_nil, List.sum_nil, add_zero]
  congr 1
  rw [h.grad x]
  unfold seeded
  rw [hd]
  by_cases hx : x ∈ xs
  · simp [hx, hxs x hx]
  · simp [hx]

theorem Assign.seeded_ne [Add M] {G : Graph n} {F : Fns n M} {xs : List (Fin n)}
    {e : Fin n → Nat} {s₀ s : St n M} {done : List (Fin n)} (h : Assign G F xs e s₀ done [] s)
    (hxs : ∀ x ∈ xs, G.isOp x = true) : ∀ x ∈ xs, seeded G F xs s₀.grad x ≠ none := by
  intro x hx
  have hd : done = xs := by have := h.split; simpa using this.symm
  have h1 := h.gradSome x (by rw [hd]; exact hx)
  rw [h.grad x, hd] at h1
  unfold seeded
  simpa [hx, hxs x hx] using h1

/-! ### runs -/

/-- What holds in every state of a run. -/
inductive Inv [AddCommSemigroup M] (G : Graph n) (F : Fns n M) (xs : List (Fin n))
    (e : Fin n → Nat) (s₀ : St n M) (s : St n M) : Prop
  | prep (stk : List (Fin n)) (h : Prep G xs e s₀ stk s)
  | assign (done rest : List (Fin n)) (h : Assign G F xs e s₀ done rest s)
  | failed (done rest : List (Fin n)) (x : Fin n) (t : St n M)
      (h : Assign G F xs e s₀ done (x :: rest) t) (hs : s = { t with main := .failed })
      (hg : s.grad x = none) (hg₀ : s₀.grad x = none) (hseed : F.seed x = none)
  | par (stk : List (Fin n)) (hc : Core G xs stk s) (hn : Cnt G F xs e s)
      (hv : Val G F (seeded G F xs s₀.grad) s)
      (hsd : ∀ x ∈ xs, seeded G F xs s₀.grad x ≠ none)

theorem Inv.alive [AddCommSemigroup M] {G : Graph n} {F : Fns n M} {xs : List (Fin n)}
    {e : Fin n → Nat} {s₀ s : St n M} (h : Inv G F xs e s₀ s) : s.panicked = false := by
  cases h with
  | prep stk h => exact h.alive
  | assign d r h => exact h.alive
  | failed d r x t h hs => rw [hs]; exact h.alive
  | par stk hc hn hv hsd => exact hn.alive

theorem threadStep_none [Add M] {G : Graph n} {F : Fns n M} {xs : List (Fin n)} {s s' : St n M}
    (hthr : ∀ x, s.thr x = .none) (x : Fin n) (k : Nat) :
    step G F xs s (.thread x k) ≠ some s' := by
  simp only [step, threadStep, hthr]
  split <;> simp

theorem step_caller [Add M] {G : Graph n} {F : Fns n M} {xs : List (Fin n)} {s : St n M}
    (h : s.panicked = false) : step G F xs s .caller = mainStep G F xs s := by
  simp [step, h]

theorem Inv.step [AddCommSemigroup M] {G : Graph n} {F : Fns n M} {xs : List (Fin n)}
    {e : Fin n → Nat} {s₀ s s' : St n M} {c : Choice n} (hxs : ∀ x ∈ xs, G.isOp x = true)
    (hac : G.Acyclic) (ham : AtMost G F xs) (h : Inv G F xs e s₀ s)
    (hs : Backward.step G F xs s c = some s') : Inv G F xs e s₀ s' := by
  cases h with
  | prep stk h =>
    cases c with
    | thread x k => exact absurd hs (threadStep_none h.thr x k)
    | caller =>
      cases stk with
      | nil =>
        rw [step_caller h.alive] at hs
        simp only [mainStep, h.main, Option.some.injEq] at hs
        subst hs
        exact .assign [] xs h.toAssign
      | cons x rest =>
        rw [step_caller h.alive] at hs
        simp only [mainStep, h.main, Option.some.injEq] at hs
        subst hs
        obtain ⟨stk', h'⟩ := h.step
        exact .prep stk' h'
  | assign done rest h =>
    cases c with
    | thread x k => exact absurd hs (threadStep_none h.thr x k)
    | caller =>
      cases rest with
      | nil =>
        rw [step_caller h.alive] at hs
        simp only [mainStep, h.main, Option.some.injEq] at hs
        subst hs
        exact .par xs (h.toCore hac) h.toCnt (h.toVal hxs) (h.seeded_ne hxs)
      | cons x rest =>
        rw [step_caller h.alive] at hs
        simp only [mainStep, h.main, Option.some.injEq] at hs
        subst hs
        rcases h.step hxs with ⟨h1, h2, h3, h4⟩ | h'
        · exact .failed done rest x s h h1 (by rw [h1]; exact h2) h3 h4
        · exact .assign _ _ h'
  | failed done rest x t h hst =>
    exfalso
    subst hst
    cases c with
    | thread x k => exact threadStep_none (s := { t with main := .failed }) h.thr x k hs
    | caller => simp [Backward.step, mainStep] at hs
  | par stk hc hn hv hsd =>
    obtain ⟨hp, -⟩ := pstep_of_step hc.par hs
    obtain ⟨stk', hc'⟩ := hc.step hp
    exact .par stk' hc' (hn.step ham hc hp) (hv.step hc hp) hsd

theorem reached_filter {G : Graph n} {xs : List (Fin n)} {x : Fin n} :
    Reached G (xs.filter G.isOp) x ↔ Reached G xs x := by
  constructor
  · intro h
    induction h with
    | out hm ho hr => exact .out (List.mem_filter.mp hm).1 ho hr
    | operand _ hm ho hr ih => exact .operand ih hm ho hr
  · intro h
    induction h with
    | out hm ho hr => exact .out (List.mem_filter.mpr ⟨hm, ho⟩) ho hr
    | operand _ hm ho hr ih => exact .operand ih hm ho hr

theorem seeded_filter {G : Graph n} {F : Fns n M} {xs : List (Fin n)} {g : Fin n → Option M} :
    seeded G F (xs.filter G.isOp) g = seeded G F xs g := by
  funext x
  unfold seeded
  by_cases h : G.isOp x = true <;> simp [h]

theorem AtMost.filter {G : Graph n} {F : Fns n M} {xs : List (Fin n)} (h : AtMost G F xs) :
    AtMost G F (xs.filter G.isOp) := fun c hc => h c (reached_filter.mp hc)

theorem Contract.atMost {G : Graph n} {F : Fns n M} {xs : List (Fin n)} (h : Contract G F xs) :
    AtMost G F xs := fun c hc g x h1 h2 => le_of_eq (h c hc g x h1 h2)

theorem reach_inv [AddCommSemigroup M] {G : Graph n} {F : Fns n M} {xs : List (Fin n)}
    {e : Fin n → Nat} {s₀ s : St n M} (hac : G.Acyclic) (ham : AtMost G F xs)
    (hst : Start G (xs.filter G.isOp) e s₀) (h : Reach G F xs s₀ s) :
    Inv G F (xs.filter G.isOp) e s₀ s := by
  have hxs : ∀ x ∈ xs.filter G.isOp, G.isOp x = true := fun x hx => (List.mem_filter.mp hx).2
  induction h with
  | init => exact .prep _ (Prep.init hst hxs)
  | step c _ hs ih => exact ih.step hxs hac ham.filter hs

/-! ### what the invariant says about a finished call -/

theorem returned_facts [AddCommSemigroup M] {G : Graph n} {F : Fns n M} {xs : List (Fin n)}
    {e : Fin n → Nat} {s₀ s : St n M} (h : Inv G F xs e s₀ s) (hm : s.main = .returned) :
    ∃ hc : Core G xs [] s, Cnt G F xs e s ∧ Val G F (seeded G F xs s₀.grad) s ∧ s.wg = 0 := by
  cases h with
  | prep stk h => rw [h.main] at hm; cases hm
  | assign d r h => rw [h.main] at hm; cases hm
  | failed d r x t h hs => rw [hs] at hm; cases hm
  | par stk hc hn hv hsd =>
    rcases hc.main with h1 | ⟨h1, h2 | ⟨h2, h3⟩⟩
    · rw [hm] at h1; cases h1
    · rw [hm] at h2; cases h2
    · subst h1; exact ⟨hc, hn, hv, h3⟩

theorem Core.thr_none_of_wg {G : Graph n} {xs stk : List (Fin n)} {s : St n M}
    (h : Core G xs stk s) (hw : s.wg = 0) (x : Fin n) : s.thr x = .none := by
  have h1 := h.wg
  rw [hw] at h1
  have h2 : ∀ y ∈ Finset.univ, (if (s.thr y).present then (1:Int) else 0) = 0 := by
    apply (Finset.sum_eq_zero_iff_of_nonneg (by intro y _; split <;> omega)).mp
    exact h1.symm
  have h3 := h2 x (Finset.mem_univ x)
  cases ht : s.thr x <;> simp [ht, Thread.present] at h3 <;> rfl

/-- with an empty stack no operator is still waiting to be started -/
theorem Core.no_pending {G : Graph n} {xs : List (Fin n)} {s : St n M} (h : Core G xs [] s)
    (hac : G.Acyclic) (x : Fin n) : s.st x ≠ .pending := by
  -- strong induction from the largest index downwards
  suffices H : ∀ k, ∀ x : Fin n, n - x.val ≤ k → s.st x ≠ .pending from H n x (by omega)
  intro k
  induction k with
  | zero => intro x hx; have := x.isLt; omega
  | succ k ih =>
    intro x hx hp
    rcases h.stack x hp with h1 | ⟨c, hc, hm⟩
    · cases h1
    · have hlt := hac c x hm
      have : x.val < c.val := hlt
      exact ih c (by omega) hc

theorem Core.all_entered {G : Graph n} {xs : List (Fin n)} {s : St n M} (h : Core G xs [] s)
    (hac : G.Acyclic) (hw : s.wg = 0) (x : Fin n) :
    x ∈ keys s ↔ Reached G xs x := by
  rw [h.cover x]
  have : dueOp s x = false := by
    simp [dueOp, h.no_pending hac x, h.thr_none_of_wg hw x, Thread.waiting]
  simp [this]

theorem log_sum_eq [AddCommSemigroup M] {A : Type} [AddCommMonoid A]
    {G : Graph n} {xs : List (Fin n)} (s : St n M)
    (hnd : (keys s).Nodup) (hk : ∀ x, x ∈ keys s ↔ Reached G xs x)
    (hg : ∀ p ∈ s.log, s.grad p.1 = some p.2) (f : Fin n → Option M → A) :
    (s.log.map fun p => f p.1 (some p.2)).sum =
      ∑ c, (open Classical in if Reached G xs c then f c (s.grad c) else 0) := by
  classical
  have h1 : (s.log.map fun p => f p.1 (some p.2)) = (keys s).map fun c => f c (s.grad c) := by
    unfold keys
    rw [List.map_map]
    apply List.map_congr_left
    intro p hp
    simp [hg p hp]
  rw [h1, ← List.sum_toFinset _ hnd, ← Finset.sum_filter]
  apply Finset.sum_congr _ (fun _ _ => rfl)
  ext c
  simp [hk]

theorem returned_chain [AddCommSemigroup M] {G : Graph n} {F : Fns n M} {xs : List (Fin n)}
    {e : Fin n → Nat} {s₀ s : St n M} (hac : G.Acyclic) (h : Inv G F xs e s₀ s)
    (hm : s.main = .returned) : ChainRule G F xs (seeded G F xs s₀.grad) s.grad := by
  obtain ⟨hc, hn, hv, hw⟩ := returned_facts h hm
  intro x hx
  have h1 := hv x hx
  rw [total_none _ _ (hc.thr_none_of_wg hw), add_zero] at h1
  rw [h1]
  congr 1
  exact log_sum_eq s hc.nodup (hc.all_entered hac hw) hn.glog (fun c g => contrib F c g x)

theorem returned_clean [AddCommSemigroup M] {G : Graph n} {F : Fns n M} {xs : List (Fin n)}
    {e : Fin n → Nat} {s₀ s : St n M} (hac : G.Acyclic) (h : Inv G F xs e s₀ s)
    (hm : s.main = .returned) : Clean G s := by
  obtain ⟨hc, hn, hv, hw⟩ := returned_facts h hm
  have ht := hc.thr_none_of_wg hw
  refine ⟨?_, ht, ?_, hn.alive⟩
  · intro x
    cases hst : s.st x with
    | idle => rfl
    | pending => exact absurd hst (hc.no_pending hac x)
    | ongoing => have := (hc.ongoing x).mp hst; simp [ht, Thread.active] at this
  · intro x hr
    by_cases hre : Reached G xs x
    · exact hn.keys0 x ((hc.all_entered hac hw x).mpr hre)
    · exact hn.pendU x hre hr

/-- a call that has returned left nothing undelivered -/
theorem returned_no_deficit [AddCommSemigroup M] {G : Graph n} {F : Fns n M} {xs : List (Fin n)}
    {e : Fin n → Nat} {s₀ s : St n M} (hac : G.Acyclic) (h : Inv G F xs e s₀ s)
    (hm : s.main = .returned) (x : Fin n) (hr : Reached G xs x) :
    e x = 0 ∧ ∀ p ∈ s.log, (G.operands p.1).count x ≤ ((F.bw p.1 p.2).map Prod.fst).count x := by
  obtain ⟨hc, hn, hv, hw⟩ := returned_facts h hm
  have h1 := hn.pend x hr
  have h2 := hn.keys0 x ((hc.all_entered hac hw x).mpr hr)
  refine ⟨by omega, ?_⟩
  intro p hp
  have h3 : (G.operands p.1).count x - ((F.bw p.1 p.2).map Prod.fst).count x ≤
      deficit G F s.log x :=
    List.single_le_sum (by simp) _ (List.mem_map_of_mem
      (f := fun p => (G.operands p.1).count x - ((F.bw p.1 p.2).map Prod.fst).count x) hp)
  omega

/-! ### progress -/

theorem deficit_zero {G : Graph n} {F : Fns n M} {xs stk : List (Fin n)} {s : St n M}
    (hct : Contract G F xs) (hc : Core G xs stk s) {x : Fin n} (hr : Reached G xs x) :
    deficit G F s.log x = 0 := by
  unfold deficit
  rw [List.sum_eq_zero_iff]
  intro k hk
  obtain ⟨p, hp, rfl⟩ := List.mem_map.mp hk
  have hre := (hc.cover p.1).mpr (Or.inr (List.mem_map_of_mem hp))
  rw [hct p.1 hre p.2 x hr.isOp hr.rg]
  omega

theorem Inv.progress [AddCommSemigroup M] {G : Graph n} {F : Fns n M} {xs : List (Fin n)}
    {s₀ s : St n M} (hac : G.Acyclic) (hct : Contract G F xs)
    (h : Inv G F xs (fun _ => 0) s₀ s) :
    s.main = .returned ∨ s.main = .failed ∨ ∃ c s', Backward.step G F xs s c = some s' := by
  have hal := h.alive
  cases h with
  | prep stk h =>
    right; right
    cases stk <;> exact ⟨.caller, by simp [Backward.step, hal, mainStep, h.main]⟩
  | assign d r h =>
    right; right
    cases r <;> exact ⟨.caller, by simp [Backward.step, hal, mainStep, h.main]⟩
  | failed d r x t h hs => right; left; rw [hs]
  | par stk hc hn hv hsd =>
    rcases hc.main with h1 | ⟨h1, h2 | ⟨h2, h3⟩⟩
    · right; right
      cases stk <;> exact ⟨.caller, by simp [Backward.step, hal, mainStep, h1]⟩
    · right; right
      subst h1
      by_cases hw : s.wg = 0
      · exact ⟨.caller, by simp [Backward.step, hal, mainStep, h2, hw]⟩
      · -- some goroutine exists; suppose none can move
        by_contra hno
        have hno' : ∀ x k, threadStep G F s x k = none := by
          intro x k
          by_contra hne
          obtain ⟨s', hs'⟩ := Option.ne_none_iff_exists'.mp hne
          exact hno ⟨.thread x k, s', by simpa [Backward.step, hal] using hs'⟩
        have hblk : ∀ x, s.thr x = .none ∨ (s.thr x = .blocked ∧ s.chan x ≠ .closed) := by
          intro x
          have h0 := hno' x 0
          cases ht : s.thr x with
          | none => exact Or.inl rfl
          | start =>
            simp only [threadStep, ht] at h0
            split at h0 <;> cases h0
          | blocked =>
            right
            refine ⟨rfl, ?_⟩
            intro hcl
            simp [threadStep, ht, hcl] at h0
          | running l =>
            cases l <;> simp [threadStep, ht] at h0
          | finishing => simp [threadStep, ht] at h0
        have htot : ∀ f : Task n M → Nat, total f s.thr = 0 := by
          intro f
          unfold total
          apply Finset.sum_eq_zero
          intro c _
          rcases hblk c with hb | hb
          · simp [hb, Thread.todo]
          · simp [hb.1, Thread.todo]
        have hnb : ∀ k, ∀ x : Fin n, n - x.val ≤ k → s.thr x ≠ .blocked := by
          intro k
          induction k with
          | zero => intro x hx; have := x.isLt; omega
          | succ k ih =>
            intro x hx hb
            have hcl := ((hblk x).resolve_left (by rw [hb]; simp)).2
            have hre := hc.reached_of_thr (x := x) (by simp [hb, Thread.active])
            have hp : s.pend x ≠ 0 := by
              rcases hn.blk x hb with hp | hp | hp
              · exact hp
              · rw [htot] at hp; omega
              · exact absurd hp hcl
            have h1 := hn.pend x hre
            rw [htot, deficit_zero hct hc hre] at h1
            obtain ⟨c, hcd, hmem⟩ := uses_pos G (dueOp s) x (by omega)
            have hlt : x.val < c.val := hac c x hmem
            have hcb : s.thr c = .blocked := by
              simp only [dueOp, Bool.or_eq_true, decide_eq_true_eq] at hcd
              rcases hcd with hcd | hcd
              · exact absurd hcd (hc.no_pending hac c)
              · rcases hblk c with hb | hb
                · simp [hb, Thread.waiting] at hcd
                · exact hb.1
            exact ih c (by omega) hcb
        have hall : ∀ x, s.thr x = .none := by
          intro x
          rcases hblk x with hb | hb
          · exact hb
          · exact absurd hb.1 (hnb n x (by omega))
        apply hw
        rw [hc.wg]
        unfold nPresent
        simp [hall, Thread.present]
    · left; exact h2

/-! ### termination -/

def stRank : BState → Nat
  | .pending => 5
  | _ => 0
def thrRank : Thread n M → Nat
  | .none => 0
  | .start => 4
  | .blocked => 3
  | .running _ => 2
  | .finishing => 1
def taskRank : Task n M → Nat
  | .add _ _ => 4
  | .check _ => 3
  | .dec _ => 2
  | .close _ => 1
def mainRank : Main n → Nat
  | .prepare l => l.length
  | .assign l => l.length
  | .process l => l.length + 2
  | .wait => 1
  | .returned => 0
  | .failed => 0
def phase : Main n → Nat
  | .prepare _ => 2
  | .assign _ => 1
  | _ => 0

def w1 (s : St n M) : Nat :=
  match s.main with
  | .prepare _ => ∑ x, if s.st x = .idle then 1 else 0
  | .assign _ => 0
  | _ => ∑ x, (stRank (s.st x) + thrRank (s.thr x))

def w2 (s : St n M) : Nat := mainRank s.main + total taskRank s.thr

def meas (s : St n M) : Nat ×ₗ Nat ×ₗ Nat := toLex (phase s.main, toLex (w1 s, w2 s))

theorem sum_lt_of_change (f f' : Fin n → Nat) (i : Fin n) (h : ∀ c, c ≠ i → f' c = f c)
    (hi : f' i < f i) : ∑ c, f' c < ∑ c, f c := by
  have := sum_change f f' i h
  omega

theorem w1_par {s : St n M} (h : inPar s) : w1 s = ∑ x, (stRank (s.st x) + thrRank (s.thr x)) := by
  rcases h with ⟨l, h⟩ | h | h <;> simp [w1, h]

theorem phase_par {s : St n M} (h : inPar s) : phase s.main = 0 := by
  rcases h with ⟨l, h⟩ | h | h <;> simp [phase, h]

theorem lex_lt {p p' a a' b b' : Nat}
    (h : p' < p ∨ (p' = p ∧ (a' < a ∨ (a' = a ∧ b' < b)))) :
    (toLex (p', toLex (a', b')) : Nat ×ₗ Nat ×ₗ Nat) < toLex (p, toLex (a, b)) := by
  rw [Prod.Lex.toLex_lt_toLex]
  rcases h with h | ⟨h1, h⟩
  · exact Or.inl h
  · refine Or.inr ⟨h1, ?_⟩
    rw [Prod.Lex.toLex_lt_toLex]
    exact h

theorem rank_change {s s' : St n M} (x : Fin n) (hp : inPar s) (hp' : inPar s')
    (h : ∀ c, c ≠ x → s'.st c = s.st c ∧ s'.thr c = s.thr c)
    (hx : stRank (s'.st x) + thrRank (s'.thr x) < stRank (s.st x) + thrRank (s.thr x)) :
    meas s' < meas s := by
  apply lex_lt
  right
  refine ⟨by rw [phase_par hp, phase_par hp'], Or.inl ?_⟩
  rw [w1_par hp, w1_par hp']
  exact sum_lt_of_change _ _ x (by intro c hc; rw [(h c hc).1, (h c hc).2]) hx

theorem rank_same {s s' : St n M} (hp : inPar s) (hp' : inPar s')
    (h : ∀ c, stRank (s'.st c) + thrRank (s'.thr c) = stRank (s.st c) + thrRank (s.thr c))
    (h2 : w2 s' < w2 s) : meas s' < meas s := by
  apply lex_lt
  right
  refine ⟨by rw [phase_par hp, phase_par hp'], Or.inr ⟨?_, h2⟩⟩
  rw [w1_par hp, w1_par hp']
  exact Finset.sum_congr rfl (fun c _ => h c)

theorem rank_task {s s' : St n M} (hp : inPar s) (x : Fin n) (a b r : List (Task n M))
    (t : Task n M) (ht : s.thr x = .running (a ++ t :: b))
    (hthr : s'.thr = update s.thr x (.running (a ++ r ++ b))) (hst : s'.st = s.st)
    (hm : s'.main = s.main) (hr : (r.map taskRank).sum < taskRank t) : meas s' < meas s := by
  refine rank_same hp (by unfold inPar; rw [hm]; exact hp) ?_ ?_
  · intro c
    rw [hst, hthr]
    by_cases hc : c = x
    · subst hc; simp [ht, thrRank]
    · simp [hc]
  · unfold w2
    rw [hm, hthr]
    have := total_mid taskRank s.thr x a b r t ht
    omega

theorem PStep.meas_lt [Add M] {G : Graph n} {F : Fns n M} {xs stk : List (Fin n)} {s s' : St n M}
    (hc : Core G xs stk s) (h : PStep G F s s') (hnp : s'.panicked = false) : meas s' < meas s := by
  have hp := hc.par
  cases h with
  | fork x rest hm hr hx =>
    obtain ⟨hna, hre, hnk⟩ := hc.pending_iff hx
    refine rank_change x hp (Or.inl ⟨_, rfl⟩) ?_ ?_
    · intro c hcx; simp [hcx]
    · simp [hx, stRank, thrRank]
      omega
  | skip x rest hm hx =>
    refine rank_same hp (Or.inl ⟨_, rfl⟩) (fun _ => rfl) ?_
    simp [w2, hm, mainRank]
  | wait hm =>
    refine rank_same hp (Or.inr (Or.inl rfl)) (fun _ => rfl) ?_
    simp [w2, hm, mainRank]
  | ret hm hw =>
    refine rank_same hp (Or.inr (Or.inr rfl)) (fun _ => rfl) ?_
    simp [w2, hm, mainRank]
  | block x ht hpd =>
    refine rank_change x hp hp ?_ ?_
    · intro c hcx; simp [hcx]
    · simp [ht, thrRank]
  | enter x g hw hcond hg =>
    refine rank_change x hp hp ?_ ?_
    · intro c hcx; simp [hcx]
    · cases ht : s.thr x <;> simp_all [Thread.waiting, thrRank]
  | enterNil x hw hcond hg => simp at hnp
  | finish x ht =>
    refine rank_change x hp hp ?_ ?_
    · intro c hcx; simp [hcx]
    · simp [ht, thrRank, stRank]
  | done x ht =>
    refine rank_change x hp hp ?_ ?_
    · intro c hcx; simp [hcx]
    · simp [ht, thrRank]
  | add x a b t g ht =>
    exact rank_task hp x a b _ _ ht rfl rfl rfl (by split <;> simp [taskRank])
  | check x a b t ht =>
    exact rank_task hp x a b _ _ ht rfl rfl rfl (by split <;> simp [taskRank])
  | dec x a b t ht =>
    exact rank_task hp x a b _ _ ht rfl rfl rfl (by split <;> simp [taskRank])
  | closeOk x a b t ht hco =>
    exact rank_task hp x a b [] _ ht (by simp) rfl rfl (by simp [taskRank])
  | closeBad x a b t ht hco => simp at hnp

theorem Inv.meas_lt [AddCommSemigroup M] {G : Graph n} {F : Fns n M} {xs : List (Fin n)}
    {e : Fin n → Nat} {s₀ s s' : St n M} {c : Choice n} (hxs : ∀ x ∈ xs, G.isOp x = true)
    (hac : G.Acyclic) (ham : AtMost G F xs)
    (h : Inv G F xs e s₀ s) (hs : Backward.step G F xs s c = some s') : meas s' < meas s := by
  have hal' := (h.step hxs hac ham hs).alive
  cases h with
  | prep stk h =>
    cases c with
    | thread x k => exact absurd hs (threadStep_none h.thr x k)
    | caller =>
      cases stk with
      | nil =>
        rw [step_caller h.alive] at hs
        simp only [mainStep, h.main, Option.some.injEq] at hs
        subst hs
        apply lex_lt; left; simp [phase, h.main]
      | cons x rest =>
        rw [step_caller h.alive] at hs
        simp only [mainStep, h.main, Option.some.injEq] at hs
        subst hs
        apply lex_lt
        right
        unfold prepareStep
        split
        · split
          · rename_i hi
            refine ⟨by simp [phase, h.main], Or.inl ?_⟩
            simp only [w1, h.main]
            exact sum_lt_of_change _ _ x (by intro c hc; simp [hc]) (by simp [hi])
          · exact ⟨by simp [phase, h.main], Or.inr ⟨by simp only [w1, h.main],
              by simp [w2, h.main, mainRank]⟩⟩
        · exact ⟨by simp [phase, h.main], Or.inr ⟨by simp only [w1, h.main],
              by simp [w2, h.main, mainRank]⟩⟩
  | assign done rest h =>
    cases c with
    | thread x k => exact absurd hs (threadStep_none h.thr x k)
    | caller =>
      cases rest with
      | nil =>
        rw [step_caller h.alive] at hs
        simp only [mainStep, h.main, Option.some.injEq] at hs
        subst hs
        apply lex_lt; left; simp [phase, h.main]
      | cons x rest =>
        rw [step_caller h.alive] at hs
        simp only [mainStep, h.main, Option.some.injEq] at hs
        subst hs
        apply lex_lt
        rcases h.step hxs with ⟨h1, _⟩ | h'
        · left; rw [h1]; simp [phase, h.main]
        · right
          refine ⟨by simp [phase, h.main, h'.main], Or.inr ⟨?_, ?_⟩⟩
          · simp only [w1, h.main, h'.main]
          · simp only [w2, h.main, h'.main, mainRank, total_none _ _ h.thr,
              total_none _ _ h'.thr]
            simp
  | failed done rest x t h hst =>
    exfalso
    subst hst
    cases c with
    | thread x k => exact threadStep_none (s := { t with main := .failed }) h.thr x k hs
    | caller => simp [Backward.step, mainStep] at hs
  | par stk hc hn hv hsd =>
    obtain ⟨hp, -⟩ := pstep_of_step hc.par hs
    exact hp.meas_lt hc hal'

end Verif.Backward
