import Verif.Lemmas.BackwardPar

/-! The counting invariant of the concurrent phase. -/

set_option linter.unusedSimpArgs false
set_option autoImplicit false

namespace Verif.Backward
open Function (update)
open scoped BigOperators
variable {n : Nat} {M : Type}

def Task.isAdd (x : Fin n) : Task n M → Nat
  | .add t _ => if t = x then 1 else 0
  | _ => 0
def Task.out (x : Fin n) : Task n M → Nat
  | .add t _ => if t = x then 1 else 0
  | .check t => if t = x then 1 else 0
  | .dec t => if t = x then 1 else 0
  | .close _ => 0
def Task.cl (x : Fin n) : Task n M → Nat
  | .close t => if t = x then 1 else 0
  | _ => 0
def Task.decs (x : Fin n) : Task n M → Nat
  | .dec t => if t = x then 1 else 0
  | .close t => if t = x then 1 else 0
  | _ => 0

def deficit (G : Graph n) (F : Fns n M) (log : List (Fin n × M)) (x : Fin n) : Nat :=
  (log.map fun p => (G.operands p.1).count x - ((F.bw p.1 p.2).map Prod.fst).count x).sum

theorem total_split {A : Type} [AddCommMonoid A] (f : Task n M → A) (thr : Fin n → Thread n M)
    (i : Fin n) : ∃ r, total f thr = ((thr i).todo.map f).sum + r ∧
      ∀ t, total f (update thr i t) = (t.todo.map f).sum + r := by
  classical
  refine ⟨∑ c ∈ Finset.univ.erase i, ((thr c).todo.map f).sum, ?_, ?_⟩
  · unfold total
    rw [← Finset.add_sum_erase Finset.univ _ (Finset.mem_univ i)]
  · intro t
    unfold total
    rw [← Finset.add_sum_erase Finset.univ _ (Finset.mem_univ i)]
    congr 1
    · simp
    · apply Finset.sum_congr rfl
      intro c hc
      simp [Finset.ne_of_mem_erase hc]

theorem total_ge (f : Task n M → Nat) (thr : Fin n → Thread n M) (i : Fin n) (t : Task n M)
    (h : t ∈ (thr i).todo) : f t ≤ total f thr := by
  obtain ⟨r, hr, -⟩ := total_split f thr i
  have : f t ≤ ((thr i).todo.map f).sum := List.single_le_sum (by simp) _ (List.mem_map_of_mem h)
  omega

theorem total_mid (f : Task n M → Nat) (thr : Fin n → Thread n M) (i : Fin n)
    (a b r : List (Task n M)) (t : Task n M) (h : thr i = .running (a ++ t :: b)) :
    total f (update thr i (.running (a ++ r ++ b))) + f t = total f thr + (r.map f).sum := by
  have := total_update f thr i (.running (a ++ r ++ b))
  rw [h] at this
  simp only [Thread.todo, List.map_append, List.map_cons, List.sum_append, List.sum_cons] at this
  omega

theorem sum_tasksOf_count (f : Fin n → Task n M → Nat) (x : Fin n) (l : List (Fin n × M))
    (hf : ∀ t g, f x (.add t g) = if t = x then 1 else 0) :
    ((tasksOf l).map (f x)).sum = (l.map Prod.fst).count x := by
  induction l with
  | nil => simp [tasksOf]
  | cons p l ih =>
    simp only [tasksOf, List.map_cons, List.sum_cons, hf] at ih ⊢
    rw [ih, List.count_cons]
    by_cases h : p.1 = x <;> simp [h, Nat.add_comm]

theorem sum_tasksOf_zero (f : Task n M → Nat) (l : List (Fin n × M))
    (hf : ∀ t g, f (.add t g) = 0) : ((tasksOf l).map f).sum = 0 := by
  induction l with
  | nil => simp [tasksOf]
  | cons p l ih =>
    simp only [tasksOf, List.map_cons, List.sum_cons, hf] at ih ⊢
    omega

structure Cnt (G : Graph n) (F : Fns n M) (xs : List (Fin n)) (e : Fin n → Nat) (s : St n M) :
    Prop where
  alive : s.panicked = false
  pend : ∀ x, Reached G xs x → s.pend x = (uses G (dueOp s) x : Int) +
    ((total (Task.out x) s.thr : Nat) : Int) + (deficit G F s.log x : Int) + e x
  keys0 : ∀ x, x ∈ keys s → s.pend x = 0
  ch : ∀ x, Reached G xs x → (s.chan x = .open ∧ total (Task.cl x) s.thr ≤ 1) ∨
    (s.chan x = .closed ∧ total (Task.cl x) s.thr = 0)
  cl0 : ∀ x, Reached G xs x → (s.chan x = .closed ∨ 0 < total (Task.cl x) s.thr) → s.pend x = 0
  blk : ∀ x, s.thr x = .blocked → s.pend x ≠ 0 ∨ 0 < total (Task.cl x) s.thr ∨ s.chan x = .closed
  unr : ∀ x, ¬ Reached G xs x → total (Task.decs x) s.thr = 0
  pendU : ∀ x, ¬ Reached G xs x → G.requiresGrad x = true → s.pend x = 0
  gnone : ∀ x, Reached G xs x → s.grad x = none →
    0 < uses G (dueOp s) x + total (Task.isAdd x) s.thr + deficit G F s.log x
  glog : ∀ p ∈ s.log, s.grad p.1 = some p.2

theorem isAdd_le_out (x : Fin n) (thr : Fin n → Thread n M) :
    total (Task.isAdd x) thr ≤ total (Task.out x) thr := by
  unfold total
  apply Finset.sum_le_sum
  intro c _
  apply List.sum_le_sum
  intro t _
  cases t <;> simp [Task.isAdd, Task.out]

/-- waiting or pending operators are exactly those whose state is not idle and which have not
entered -/
theorem Core.st_ne_idle {G : Graph n} {xs stk : List (Fin n)} {s : St n M}
    (h : Core G xs stk s) {x : Fin n} (hr : Reached G xs x) (hk : x ∉ keys s) :
    s.st x ≠ .idle := by
  have hd := ((h.cover x).mp hr).resolve_right hk
  simp only [dueOp, Bool.or_eq_true, decide_eq_true_eq] at hd
  rcases hd with hd | hd
  · rw [hd]; simp
  · have : (s.thr x).active = true := by
      cases ht : s.thr x <;> simp_all [Thread.waiting, Thread.active]
    rw [(h.ongoing x).mpr this]; simp

theorem Core.reached_of_st {G : Graph n} {xs stk : List (Fin n)} {s : St n M}
    (h : Core G xs stk s) {x : Fin n} (hx : s.st x ≠ .idle) : Reached G xs x := by
  cases hst : s.st x with
  | idle => exact absurd hst hx
  | pending => exact (h.pending_iff hst).2.1
  | ongoing =>
    have ha := (h.ongoing x).mp hst
    apply (h.cover x).mpr
    cases ht : s.thr x with
    | none => simp [ht, Thread.active] at ha
    | start => left; simp [dueOp, ht, Thread.waiting]
    | blocked => left; simp [dueOp, ht, Thread.waiting]
    | running l => right; exact h.entered x (by simp [ht, Thread.entered])
    | finishing => simp [ht, Thread.active] at ha

theorem Core.reached_of_thr {G : Graph n} {xs stk : List (Fin n)} {s : St n M}
    (h : Core G xs stk s) {x : Fin n} (hx : (s.thr x).active = true) : Reached G xs x :=
  h.reached_of_st (by rw [(h.ongoing x).mpr hx]; simp)

/-- A step that replaces the goroutine of `x` by one with the same tasks and leaves the rest. -/
theorem Cnt.sameTodo {G : Graph n} {F : Fns n M} {xs : List (Fin n)} {e : Fin n → Nat}
    {s s' : St n M} {x : Fin n} {t : Thread n M} (h : Cnt G F xs e s)
    (hthr : s'.thr = update s.thr x t) (htodo : (s.thr x).todo = t.todo)
    (hdue : ∀ y, dueOp s' y = dueOp s y) (hlog : s'.log = s.log)
    (hpend : s'.pend = s.pend) (hchan : s'.chan = s.chan) (hgrad : s'.grad = s.grad)
    (hp : s'.panicked = s.panicked)
    (hblk : t = .blocked → s.pend x ≠ 0) : Cnt G F xs e s' := by
  have ht : ∀ f : Task n M → Nat, total f s'.thr = total f s.thr := by
    intro f; rw [hthr]; exact total_same f s.thr x t htodo
  have hu : dueOp s' = dueOp s := funext hdue
  have hk : keys s' = keys s := by simp [keys, hlog]
  refine ⟨?_, ?_, ?_, ?_, ?_, ?_, ?_, ?_, ?_, ?_⟩
  · rw [hp]; exact h.alive
  · intro y; rw [hpend, hu, ht, hlog]; exact h.pend y
  · intro y; rw [hk, hpend]; exact h.keys0 y
  · intro y; rw [hchan, ht]; exact h.ch y
  · intro y; rw [hchan, ht, hpend]; exact h.cl0 y
  · intro y hy
    rw [hchan, ht, hpend]
    rw [hthr] at hy
    by_cases hyx : y = x
    · subst hyx; simp at hy; exact Or.inl (hblk hy)
    · simp [hyx] at hy; exact h.blk y hy
  · intro y; rw [ht]; exact h.unr y
  · intro y; rw [hpend]; exact h.pendU y
  · intro y; rw [hgrad, hu, ht, hlog]; exact h.gnone y
  · rw [hlog, hgrad]; exact h.glog

/-- a task step that changes only tasks and possibly `pend`, `chan`, `grad` -/
theorem Cnt.step [Add M] {G : Graph n} {F : Fns n M} {xs stk : List (Fin n)} {e : Fin n → Nat}
    {s s' : St n M} (ham : AtMost G F xs)
    (hc : Core G xs stk s) (h : Cnt G F xs e s) (hs : PStep G F s s') : Cnt G F xs e s' := by
  cases hs with
  | fork x rest hm hr hx =>
    obtain ⟨hna, hre, hnk⟩ := hc.pending_iff hx
    have hne : (s.thr x).entered = false := by
      by_contra hcc; exact hnk (hc.entered x (by simpa using hcc))
    have hnone : s.thr x = .none := by
      cases ht : s.thr x <;> simp_all [Thread.active, Thread.entered]
    refine h.sameTodo (x := x) (t := .start) rfl (by simp [hnone, Thread.todo]) ?_ rfl rfl rfl rfl rfl
      (by simp)
    intro y
    by_cases hy : y = x
    · subst hy; simp [dueOp, Thread.waiting, hx]
    · simp [dueOp, hy]
  | skip x rest hm hx =>
    exact ⟨h.alive, h.pend, h.keys0, h.ch, h.cl0, h.blk, h.unr, h.pendU, h.gnone, h.glog⟩
  | wait hm =>
    exact ⟨h.alive, h.pend, h.keys0, h.ch, h.cl0, h.blk, h.unr, h.pendU, h.gnone, h.glog⟩
  | ret hm hw =>
    exact ⟨h.alive, h.pend, h.keys0, h.ch, h.cl0, h.blk, h.unr, h.pendU, h.gnone, h.glog⟩
  | block x ht hp =>
    refine h.sameTodo (x := x) (t := .blocked) rfl (by simp [ht, Thread.todo]) ?_ rfl rfl rfl rfl rfl
      (fun _ => hp)
    intro y
    by_cases hy : y = x
    · subst hy; simp [dueOp, Thread.waiting, ht]
    · simp [dueOp, hy]
  | enter x g hw hcond hg =>
    have hact : (s.thr x).active = true := by
      cases ht : s.thr x <;> simp_all [Thread.waiting, Thread.active]
    have hre := hc.reached_of_thr hact
    have hong := (hc.ongoing x).mpr hact
    have htodo : (s.thr x).todo = [] := by
      cases ht : s.thr x <;> simp_all [Thread.waiting, Thread.todo]
    have hp0 : s.pend x = 0 := by
      rcases hcond with ⟨_, h1 | h1⟩ | ⟨_, h1⟩
      · rw [hong] at h1; cases h1
      · exact h1
      · exact h.cl0 x hre (Or.inl h1)
    have hdx : dueOp s x = true := by simp [dueOp, hw]
    have htot : ∀ f : Task n M → Nat,
        total f (update s.thr x (.running (tasksOf (F.bw x g)))) =
          ((tasksOf (F.bw x g)).map f).sum + total f s.thr := by
      intro f
      have := total_update f s.thr x (.running (tasksOf (F.bw x g)))
      rw [htodo] at this
      simpa [Thread.todo] using this
    have huses : ∀ y, uses G (dueOp { s with thr := update s.thr x (.running (tasksOf (F.bw x g))), log := s.log ++ [(x, g)] }) y
        + (G.operands x).count y = uses G (dueOp s) y := by
      intro y
      have := uses_change G (dueOp s) (dueOp { s with thr := update s.thr x (.running (tasksOf (F.bw x g))), log := s.log ++ [(x, g)] }) x y
        (by intro c hcx; simp [dueOp, hcx])
      have hf : dueOp { s with thr := update s.thr x (.running (tasksOf (F.bw x g))), log := s.log ++ [(x, g)] } x = false := by
        simp [dueOp, hong, Thread.waiting]
      simp only [hdx, hf, if_true, Bool.false_eq_true, if_false] at this
      omega
    have hdef : ∀ y, deficit G F (s.log ++ [(x, g)]) y = deficit G F s.log y +
        ((G.operands x).count y - ((F.bw x g).map Prod.fst).count y) := by
      intro y; simp [deficit]
    have hadd : ∀ y, ((tasksOf (F.bw x g)).map (Task.isAdd y)).sum = ((F.bw x g).map Prod.fst).count y :=
      fun y => sum_tasksOf_count Task.isAdd y _ (by intro t g; rfl)
    have hout : ∀ y, ((tasksOf (F.bw x g)).map (Task.out y)).sum = ((F.bw x g).map Prod.fst).count y :=
      fun y => sum_tasksOf_count Task.out y _ (by intro t g; rfl)
    have hcl : ∀ y, ((tasksOf (F.bw x g)).map (Task.cl y)).sum = 0 :=
      fun y => sum_tasksOf_zero _ _ (by intro t g; rfl)
    have hdecs : ∀ y, ((tasksOf (F.bw x g)).map (Task.decs y)).sum = 0 :=
      fun y => sum_tasksOf_zero _ _ (by intro t g; rfl)
    refine ⟨h.alive, ?_, ?_, ?_, ?_, ?_, ?_, h.pendU, ?_, ?_⟩
    · intro y hy
      have h1 := h.pend y hy
      have h2 := huses y
      have h3 := ham x hre g y hy.isOp hy.rg
      simp only [htot, hout, hdef]
      omega
    · intro y hy
      simp only [keys, List.map_append, List.map_cons, List.map_nil, List.mem_append,
        List.mem_singleton] at hy
      rcases hy with hy | rfl
      · exact h.keys0 y hy
      · exact hp0
    · intro y hy
      simp only [htot, hcl, Nat.zero_add]
      exact h.ch y hy
    · intro y hy
      simp only [htot, hcl, Nat.zero_add]
      exact h.cl0 y hy
    · intro y hy
      simp only [htot, hcl, Nat.zero_add]
      by_cases hyx : y = x
      · subst hyx; simp at hy
      · simp [hyx] at hy; exact h.blk y hy
    · intro y hy
      simp only [htot, hdecs, Nat.zero_add]
      exact h.unr y hy
    · intro y hy hyg
      have h1 := h.gnone y hy hyg
      have h2 := huses y
      have h3 := ham x hre g y hy.isOp hy.rg
      simp only [htot, hadd, hdef]
      omega
    · intro p hp
      simp only [List.mem_append, List.mem_singleton] at hp
      rcases hp with hp | rfl
      · exact h.glog p hp
      · exact hg
  | enterNil x hw hcond hg =>
    exfalso
    have hact : (s.thr x).active = true := by
      cases ht : s.thr x <;> simp_all [Thread.waiting, Thread.active]
    have hre := hc.reached_of_thr hact
    have hong := (hc.ongoing x).mpr hact
    have hp0 : s.pend x = 0 := by
      rcases hcond with ⟨_, h1 | h1⟩ | ⟨_, h1⟩
      · rw [hong] at h1; cases h1
      · exact h1
      · exact h.cl0 x hre (Or.inl h1)
    have h1 := h.gnone x hre hg
    have h2 := h.pend x hre
    have h3 := isAdd_le_out x s.thr
    omega
  | finish x ht =>
    have hong := (hc.ongoing x).mpr (by simp [ht, Thread.active])
    refine h.sameTodo (x := x) (t := .finishing) rfl (by simp [ht, Thread.todo]) ?_ rfl rfl rfl rfl rfl
      (by simp)
    intro y
    by_cases hy : y = x
    · subst hy; simp [dueOp, Thread.waiting, hong, ht]
    · simp [dueOp, hy]
  | done x ht =>
    refine h.sameTodo (x := x) (t := .none) rfl (by simp [ht, Thread.todo]) ?_ rfl rfl rfl rfl rfl
      (by simp)
    intro y
    by_cases hy : y = x
    · subst hy; simp [dueOp, Thread.waiting, ht]
    · simp [dueOp, hy]
  | add x a b t g ht =>
    have hmid := fun f : Task n M → Nat => total_mid f s.thr x a b
      (if G.isOp t then [.check t] else []) (.add t g) ht
    have hdue : dueOp { s with
        grad := addGrad G s.grad t g
        thr := update s.thr x (.running (a ++ (if G.isOp t then [.check t] else []) ++ b)) } = dueOp s := by
      funext y
      by_cases hy : y = x
      · subst hy; simp [dueOp, Thread.waiting, ht]
      · simp [dueOp, hy]
    have hcl : ∀ y, total (Task.cl y) (update s.thr x (.running (a ++ (if G.isOp t then [.check t] else []) ++ b)))
        = total (Task.cl y) s.thr := by
      intro y
      have := hmid (Task.cl y)
      by_cases hop : G.isOp t <;> simpa [hop, Task.cl] using this
    have hdecs : ∀ y, total (Task.decs y) (update s.thr x (.running (a ++ (if G.isOp t then [.check t] else []) ++ b)))
        = total (Task.decs y) s.thr := by
      intro y
      have := hmid (Task.decs y)
      by_cases hop : G.isOp t <;> simpa [hop, Task.decs] using this
    have hout : ∀ y, G.isOp y = true → total (Task.out y) (update s.thr x (.running (a ++ (if G.isOp t then [.check t] else []) ++ b)))
        = total (Task.out y) s.thr := by
      intro y hy
      have := hmid (Task.out y)
      by_cases hop : G.isOp t
      · simpa [hop, Task.out] using this
      · have hty : t ≠ y := by rintro rfl; exact hop hy
        simpa [hop, Task.out, hty] using this
    have hadd : ∀ y, total (Task.isAdd y) (update s.thr x (.running (a ++ (if G.isOp t then [.check t] else []) ++ b)))
        + (if t = y then 1 else 0) = total (Task.isAdd y) s.thr := by
      intro y
      have := hmid (Task.isAdd y)
      by_cases hop : G.isOp t <;> simpa [hop, Task.isAdd] using this
    refine ⟨h.alive, ?_, h.keys0, ?_, ?_, ?_, ?_, h.pendU, ?_, ?_⟩
    · intro y hy
      rw [hdue]
      simp only [hout y hy.isOp]
      exact h.pend y hy
    · intro y; simp only [hcl]; exact h.ch y
    · intro y; simp only [hcl]; exact h.cl0 y
    · intro y hy
      simp only [hcl]
      by_cases hyx : y = x
      · subst hyx; simp at hy
      · simp [hyx] at hy; exact h.blk y hy
    · intro y; simp only [hdecs]; exact h.unr y
    · intro y hy hyg
      rw [hdue]
      have h2 := hadd y
      have hyt : t ≠ y := by
        rintro rfl
        simp [addGrad, isBlocker_of_isOp hy.isOp, accOpt] at hyg
        cases hgt : s.grad t <;> simp [hgt] at hyg
      have hyg' : s.grad y = none := by
        simp only [addGrad] at hyg
        split at hyg
        · exact hyg
        · simpa [Ne.symm hyt] using hyg
      have h1 := h.gnone y hy hyg'
      simp only [hyt, if_false] at h2
      simp only
      omega
    · intro p hp
      have hg := h.glog p hp
      have hpk : p.1 ∈ keys s := List.mem_map_of_mem hp
      have hpr := (hc.cover p.1).mpr (Or.inr hpk)
      have hp0 := h.keys0 _ hpk
      have h1 := h.pend _ hpr
      have h2 : Task.out p.1 (.add t g : Task n M) ≤ total (Task.out p.1) s.thr :=
        total_ge _ s.thr x _ (by simp [ht, Thread.todo])
      have hne : t ≠ p.1 := by
        intro heq
        simp [Task.out, heq] at h2
        omega
      simp only [addGrad]
      split
      · exact hg
      · simpa [Ne.symm hne] using hg
  | check x a b t ht =>
    have hmid := fun f : Task n M → Nat => total_mid f s.thr x a b
      (if s.st t = .idle then [] else [.dec t]) (.check t) ht
    have hdue : dueOp { s with
        thr := update s.thr x (.running (a ++ (if s.st t = .idle then [] else [.dec t]) ++ b)) } = dueOp s := by
      funext y
      by_cases hy : y = x
      · subst hy; simp [dueOp, Thread.waiting, ht]
      · simp [dueOp, hy]
    have hnidle : Reached G xs t → s.st t ≠ .idle := by
      intro hre
      apply hc.st_ne_idle hre
      intro hk
      have hp0 := h.keys0 _ hk
      have h1 := h.pend _ hre
      have h2 : Task.out t (.check t : Task n M) ≤ total (Task.out t) s.thr :=
        total_ge _ s.thr x _ (by simp [ht, Thread.todo])
      simp [Task.out] at h2
      omega
    have hcl : ∀ y, total (Task.cl y) (update s.thr x (.running (a ++ (if s.st t = .idle then [] else [.dec t]) ++ b)))
        = total (Task.cl y) s.thr := by
      intro y
      have := hmid (Task.cl y)
      by_cases hop : s.st t = .idle <;> simpa [hop, Task.cl] using this
    have hadd : ∀ y, total (Task.isAdd y) (update s.thr x (.running (a ++ (if s.st t = .idle then [] else [.dec t]) ++ b)))
        = total (Task.isAdd y) s.thr := by
      intro y
      have := hmid (Task.isAdd y)
      by_cases hop : s.st t = .idle <;> simpa [hop, Task.isAdd] using this
    have hout : ∀ y, Reached G xs y → total (Task.out y) (update s.thr x (.running (a ++ (if s.st t = .idle then [] else [.dec t]) ++ b)))
        = total (Task.out y) s.thr := by
      intro y hy
      have := hmid (Task.out y)
      by_cases hop : s.st t = .idle
      · have hty : t ≠ y := by rintro rfl; exact hnidle hy hop
        simpa [hop, Task.out, hty] using this
      · simpa [hop, Task.out] using this
    refine ⟨h.alive, ?_, h.keys0, ?_, ?_, ?_, ?_, h.pendU, ?_, h.glog⟩
    · intro y hy
      rw [hdue]
      simp only [hout y hy]
      exact h.pend y hy
    · intro y; simp only [hcl]; exact h.ch y
    · intro y; simp only [hcl]; exact h.cl0 y
    · intro y hy
      simp only [hcl]
      by_cases hyx : y = x
      · subst hyx; simp at hy
      · simp [hyx] at hy; exact h.blk y hy
    · intro y hy
      have h1 := h.unr y hy
      have := hmid (Task.decs y)
      by_cases hop : s.st t = .idle
      · simp only [hop, if_true] at this ⊢
        simp [Task.decs] at this ⊢
        omega
      · have hty : t ≠ y := by rintro rfl; exact hy (hc.reached_of_st hop)
        simp only [hop, if_false] at this ⊢
        simp [Task.decs, hty] at this ⊢
        omega
    · intro y
      rw [hdue]
      simp only [hadd]
      exact h.gnone y
  | dec x a b t ht =>
    have hmid := fun f : Task n M → Nat => total_mid f s.thr x a b
      (if s.pend t - 1 = 0 then [.close t] else []) (.dec t) ht
    have htr : Reached G xs t := by
      by_contra hn
      have h1 := h.unr t hn
      have h2 : Task.decs t (.dec t : Task n M) ≤ total (Task.decs t) s.thr :=
        total_ge _ s.thr x _ (by simp [ht, Thread.todo])
      simp [Task.decs] at h2
      omega
    have hdue : dueOp { s with
        pend := update s.pend t (s.pend t - 1)
        thr := update s.thr x (.running (a ++ (if s.pend t - 1 = 0 then [.close t] else []) ++ b)) } = dueOp s := by
      funext y
      by_cases hy : y = x
      · subst hy; simp [dueOp, Thread.waiting, ht]
      · simp [dueOp, hy]
    have hp1 : 0 < s.pend t := by
      have h1 := h.pend _ htr
      have h2 : Task.out t (.dec t : Task n M) ≤ total (Task.out t) s.thr :=
        total_ge _ s.thr x _ (by simp [ht, Thread.todo])
      simp [Task.out] at h2
      omega
    have hcl0 : total (Task.cl t) s.thr = 0 ∧ s.chan t ≠ .closed := by
      constructor
      · by_contra hn
        have := h.cl0 t htr (Or.inr (by omega))
        omega
      · intro hn
        have := h.cl0 t htr (Or.inl hn)
        omega
    have hcl : ∀ y, total (Task.cl y) (update s.thr x (.running (a ++ (if s.pend t - 1 = 0 then [.close t] else []) ++ b)))
        = total (Task.cl y) s.thr + (if s.pend t - 1 = 0 ∧ t = y then 1 else 0) := by
      intro y
      have := hmid (Task.cl y)
      by_cases hop : s.pend t - 1 = 0 <;> simpa [hop, Task.cl] using this
    have hadd : ∀ y, total (Task.isAdd y) (update s.thr x (.running (a ++ (if s.pend t - 1 = 0 then [.close t] else []) ++ b)))
        = total (Task.isAdd y) s.thr := by
      intro y
      have := hmid (Task.isAdd y)
      by_cases hop : s.pend t - 1 = 0 <;> simpa [hop, Task.isAdd] using this
    have hout : ∀ y, total (Task.out y) (update s.thr x (.running (a ++ (if s.pend t - 1 = 0 then [.close t] else []) ++ b)))
        + (if t = y then 1 else 0) = total (Task.out y) s.thr := by
      intro y
      have := hmid (Task.out y)
      by_cases hop : s.pend t - 1 = 0 <;> simpa [hop, Task.out] using this
    refine ⟨h.alive, ?_, ?_, ?_, ?_, ?_, ?_, ?_, ?_, h.glog⟩
    · intro y hy
      rw [hdue]
      have h1 := h.pend y hy
      have h2 := hout y
      by_cases hty : y = t
      · subst hty; simp at h2 ⊢; omega
      · simp only [ne_eq, hty, not_false_eq_true, Function.update_of_ne, Ne.symm hty, if_false] at h2 ⊢
        omega
    · intro y hy
      have h1 := h.keys0 y hy
      have hty : y ≠ t := by rintro rfl; omega
      simpa [hty] using h1
    · intro y hy
      simp only [hcl]
      by_cases hty : y = t
      · subst hty
        rcases h.ch y hy with h1 | h1
        · left
          refine ⟨h1.1, ?_⟩
          split <;> omega
        · exact absurd h1.1 hcl0.2
      · simp only [Ne.symm hty, and_false, if_false, Nat.add_zero]
        exact h.ch y hy
    · intro y hy hcond
      simp only [hcl] at hcond
      by_cases hty : y = t
      · subst hty
        simp only [Function.update_self]
        rcases hcond with h1 | h1
        · exact absurd h1 hcl0.2
        · by_contra hne
          simp [hne, hcl0.1] at h1
      · simp only [Ne.symm hty, and_false, if_false, Nat.add_zero] at hcond
        simp only [ne_eq, hty, not_false_eq_true, Function.update_of_ne]
        exact h.cl0 y hy hcond
    · intro y hy
      simp only [hcl]
      have hyx : y ≠ x := by rintro rfl; simp at hy
      simp only [ne_eq, hyx, not_false_eq_true, Function.update_of_ne] at hy
      by_cases hty : y = t
      · subst hty
        simp only [Function.update_self]
        by_cases hz : s.pend y - 1 = 0
        · right; left; simp [hz]
        · left; exact hz
      · simp only [Ne.symm hty, and_false, if_false, Nat.add_zero, ne_eq, hty,
          not_false_eq_true, Function.update_of_ne]
        exact h.blk y hy
    · intro y hy
      have h1 := h.unr y hy
      have := hmid (Task.decs y)
      have hty : t ≠ y := by rintro rfl; exact hy htr
      by_cases hop : s.pend t - 1 = 0
      · simp only [hop, if_true] at this ⊢
        simp [Task.decs, hty] at this ⊢
        omega
      · simp only [hop, if_false] at this ⊢
        simp [Task.decs, hty] at this ⊢
        omega
    · intro y hy hrg
      have hty : y ≠ t := by rintro rfl; exact hy htr
      simpa [hty] using h.pendU y hy hrg
    · intro y
      rw [hdue]
      simp only [hadd]
      exact h.gnone y
  | closeOk x a b t ht hco =>
    have hmid := fun f : Task n M → Nat => total_mid f s.thr x a b [] (.close t) ht
    simp only [List.append_nil, List.map_nil, List.sum_nil, Nat.add_zero] at hmid
    have htr : Reached G xs t := by
      by_contra hn
      have h1 := h.unr t hn
      have h2 : Task.decs t (.close t : Task n M) ≤ total (Task.decs t) s.thr :=
        total_ge _ s.thr x _ (by simp [ht, Thread.todo])
      simp [Task.decs] at h2
      omega
    have hdue : dueOp { s with
        chan := update s.chan t .closed
        thr := update s.thr x (.running (a ++ b)) } = dueOp s := by
      funext y
      by_cases hy : y = x
      · subst hy; simp [dueOp, Thread.waiting, ht]
      · simp [dueOp, hy]
    have hcl : ∀ y, total (Task.cl y) (update s.thr x (.running (a ++ b))) + (if t = y then 1 else 0)
        = total (Task.cl y) s.thr := fun y => hmid (Task.cl y)
    have hadd : ∀ y, total (Task.isAdd y) (update s.thr x (.running (a ++ b)))
        = total (Task.isAdd y) s.thr := fun y => hmid (Task.isAdd y)
    have hout : ∀ y, total (Task.out y) (update s.thr x (.running (a ++ b)))
        = total (Task.out y) s.thr := fun y => hmid (Task.out y)
    have hdecs : ∀ y, total (Task.decs y) (update s.thr x (.running (a ++ b))) + (if t = y then 1 else 0)
        = total (Task.decs y) s.thr := fun y => hmid (Task.decs y)
    refine ⟨h.alive, ?_, h.keys0, ?_, ?_, ?_, ?_, h.pendU, ?_, h.glog⟩
    · intro y hy
      rw [hdue]
      simp only [hout y]
      exact h.pend y hy
    · intro y hy
      have h2 := hcl y
      have h3 := h.ch y hy
      by_cases hty : y = t
      · subst hty
        right
        simp [hco] at h2 h3 ⊢
        omega
      · simp only [Ne.symm hty, if_false, Nat.add_zero] at h2
        simp only [ne_eq, hty, not_false_eq_true, Function.update_of_ne, h2]
        exact h3
    · intro y hy hcond
      have h2 := hcl y
      by_cases hty : y = t
      · subst hty
        apply h.cl0 y hy
        right; simp at h2; omega
      · simp only [Ne.symm hty, if_false, Nat.add_zero] at h2
        simp only [ne_eq, hty, not_false_eq_true, Function.update_of_ne, h2] at hcond
        exact h.cl0 y hy hcond
    · intro y hy
      have hyx : y ≠ x := by rintro rfl; simp at hy
      simp only [ne_eq, hyx, not_false_eq_true, Function.update_of_ne] at hy
      have h2 := hcl y
      by_cases hty : y = t
      · subst hty; right; right; simp
      · simp only [Ne.symm hty, if_false, Nat.add_zero] at h2
        simp only [ne_eq, hty, not_false_eq_true, Function.update_of_ne, h2]
        exact h.blk y hy
    · intro y hy
      have h1 := h.unr y hy
      have h2 := hdecs y
      simp only
      omega
    · intro y
      rw [hdue]
      simp only [hadd]
      exact h.gnone y
  | closeBad x a b t ht hco =>
    exfalso
    have htr : Reached G xs t := by
      by_contra hn
      have h1 := h.unr t hn
      have h2 : Task.decs t (.close t : Task n M) ≤ total (Task.decs t) s.thr :=
        total_ge _ s.thr x _ (by simp [ht, Thread.todo])
      simp [Task.decs] at h2
      omega
    have h2 : Task.cl t (.close t : Task n M) ≤ total (Task.cl t) s.thr :=
      total_ge _ s.thr x _ (by simp [ht, Thread.todo])
    simp [Task.cl] at h2
    rcases h.ch t htr with h3 | h3
    · exact hco h3.1
    · omega

end Verif.Backward
