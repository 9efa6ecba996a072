import Verif.Lemmas.BackwardGraph

/-! # Properties C01-C04, C06-C08: the backward pass -/

set_option linter.unusedSimpArgs false
set_option autoImplicit false

namespace Verif.Backward
open Function (update)
open scoped BigOperators
section
variable {n : Nat} {M : Type} [AddCommSemigroup M]
  {G : Graph n} {F : Fns n M} {xs : List (Fin n)} {s₀ s s' : St n M}

/-- **C01.** If every backward function delivers one gradient per operand occurrence, a call of
`Backward` on an acyclic graph is over in bounded time under every schedule, without panic. -/
theorem backward_returns (hac : G.Acyclic) (hct : Contract G F xs) (hcl : Clean G s₀) :
    Returns G F xs s₀ where
  finite run h0 hrun := no_infinite hac hct.atMost (hcl.start _) run h0 hrun
  noPanic s hs := (reach_inv hac hct.atMost (hcl.start _) hs).alive
  done s hs hstuck := by
    have hct' : Contract G F (xs.filter G.isOp) := fun c hc => hct c (reached_filter.mp hc)
    rcases (reach_inv hac hct.atMost (hcl.start _) hs).progress hac hct' with h | h | ⟨c, s', h⟩
    · exact Or.inl h
    · exact Or.inr h
    · rw [hstuck c] at h; cases h

/-- **C02, chain rule.** When `Backward` has returned, every gradient is the seeded initial
gradient plus the contributions of all operators concerned, each computed from that operator's
own final gradient. -/
theorem backward_chain_rule (hac : G.Acyclic) (hct : AtMost G F xs) (hcl : Clean G s₀)
    (hr : Reach G F xs s₀ s) (hm : s.main = .returned) :
    ChainRule G F xs (seeded G F xs s₀.grad) s.grad := by
  have h := returned_chain hac (reach_inv hac hct (hcl.start _) hr) hm
  rw [seeded_filter] at h
  intro x hx
  rw [h x hx]
  congr 1
  apply Finset.sum_congr rfl
  intro c _
  by_cases hc : Reached G xs c
  · rw [if_pos hc, if_pos (reached_filter.mpr hc)]
  · rw [if_neg hc, if_neg (fun h => hc (reached_filter.mp h))]

/-- **C02, determinism.** The chain rule has at most one solution on an acyclic graph. -/
theorem chain_rule_unique (hac : G.Acyclic) (ham : AtMost G F xs) {g₁ g g' : Fin n → Option M}
    (h : ChainRule G F xs g₁ g) (h' : ChainRule G F xs g₁ g') (x : Fin n)
    (hx : G.isBlocker x = false) : g x = g' x :=
  chainRule_unique hac ham h h' x hx

/-- **C02, schedule independence.** Two runs of the same call leave the same gradients. -/
theorem backward_schedule_independent (hac : G.Acyclic) (hct : AtMost G F xs)
    (hcl : Clean G s₀) (hr : Reach G F xs s₀ s) (hm : s.main = .returned)
    (hr' : Reach G F xs s₀ s') (hm' : s'.main = .returned) (x : Fin n)
    (hx : G.isBlocker x = false) : s.grad x = s'.grad x :=
  chainRule_unique hac hct (backward_chain_rule hac hct hcl hr hm)
    (backward_chain_rule hac hct hcl hr' hm') x hx

/-- **C03.** In every state of every run: the backward functions invoked so far were invoked
once each, only for operators concerned, and with a gradient that is still the gradient of
their operator; once the call has returned all operators concerned have been invoked. -/
theorem backward_once_with_complete_gradient (hac : G.Acyclic) (hct : AtMost G F xs)
    (hcl : Clean G s₀) (hr : Reach G F xs s₀ s) :
    (s.log.map Prod.fst).Nodup ∧
    (∀ p ∈ s.log, Reached G xs p.1 ∧ s.grad p.1 = some p.2) ∧
    (s.main = .returned → ∀ x, Reached G xs x → ∃ g, (x, g) ∈ s.log) := by
  have h := reach_inv hac hct (hcl.start _) hr
  refine ⟨?_, ?_, ?_⟩
  · cases h with
    | prep stk h => simp [h.log]
    | assign d r h => simp [h.log]
    | failed d r x t h hs => rw [hs]; simp [h.log]
    | par stk hc hn hv hsd => exact hc.nodup
  · intro p hp
    cases h with
    | prep stk h => simp [h.log] at hp
    | assign d r h => simp [h.log] at hp
    | failed d r x t h hs => rw [hs] at hp; simp [h.log] at hp
    | par stk hc hn hv hsd =>
      exact ⟨reached_filter.mp ((hc.cover p.1).mpr (Or.inr (List.mem_map_of_mem hp))),
        hn.glog p hp⟩
  · intro hm x hx
    obtain ⟨hc, hn, hv, hw⟩ := returned_facts h hm
    have := (hc.all_entered hac hw x).mpr (reached_filter.mpr hx)
    obtain ⟨p, hp, rfl⟩ := List.mem_map.mp this
    exact ⟨p.2, hp⟩

/-- Steps only extend the history (used with C03: a gradient handed to a backward function is
never changed afterwards). -/
theorem log_extends {ops : List (Fin n)} {c : Choice n} (h : step G F ops s c = some s') :
    s.log <+: s'.log := by
  have hclose : ∀ (t : St n M) x, (closeChan t x).log = t.log := by
    intro t x; unfold closeChan; split <;> rfl
  have hbegin : ∀ x, s.log <+: (begin F s x).log := by
    intro x; unfold begin; split <;> simp
  have hacc : ∀ x g, (accGradSeq G s x g).log = s.log := by
    intro x g
    unfold accGradSeq
    simp only
    split
    · rfl
    · split
      · rw [hclose]
      · rfl
  unfold step at h
  split at h
  · split at h
    · cases h
    · unfold mainStep at h
      split at h
      case h_7 =>
        split at h
        · cases h; exact List.prefix_refl _
        · cases h
      all_goals first
        | (cases h; exact List.prefix_refl _)
        | (cases h; done)
        | (simp only [Option.some.injEq] at h; subst h)
        | skip
      · unfold prepareStep; split
        · split <;> exact List.prefix_refl _
        · exact List.prefix_refl _
      · unfold assignStep; split
        · exact List.prefix_refl _
        · split
          · simp [hacc]
          · exact List.prefix_refl _
      · unfold processStep; split <;> exact List.prefix_refl _
  · split at h
    · cases h
    · unfold threadStep at h
      split at h
      · cases h
      · split at h
        · cases h; exact hbegin _
        · cases h; exact List.prefix_refl _
      · split at h
        · cases h; exact hbegin _
        · cases h
      · cases h; exact List.prefix_refl _
      · split at h
        · cases h
        · rename_i t _
          cases h
          cases t <;> simp [taskStep, hclose]
      · cases h; exact List.prefix_refl _

/-- **C03, nothing arrives late.** A gradient handed to a backward function in state `s` is the
gradient of that operator in every state reached from `s`. -/
theorem backward_gradient_final (hac : G.Acyclic) (hct : AtMost G F xs) (hcl : Clean G s₀)
    (hr : Reach G F xs s₀ s) {p : Fin n × M} (hp : p ∈ s.log) {sched : List (Choice n)}
    (hs : sched.foldlM (step G F (xs.filter G.isOp)) s = some s') :
    p ∈ s'.log ∧ s'.grad p.1 = some p.2 := by
  induction sched generalizing s with
  | nil =>
    simp only [List.foldlM_nil, Option.pure_def, Option.some.injEq] at hs
    subst hs
    exact ⟨hp, ((backward_once_with_complete_gradient hac hct hcl hr).2.1 p hp).2⟩
  | cons c l ih =>
    simp only [List.foldlM_cons, Option.bind_eq_bind, Option.bind_eq_some_iff] at hs
    obtain ⟨t, h1, h2⟩ := hs
    exact ih (.step c hr h1) ((log_extends h1).subset hp) h2

/-- **C04.** After `Backward` has returned, nothing of the call is left in the bookkeeping. -/
theorem backward_leaves_clean (hac : G.Acyclic) (hct : AtMost G F xs) (hcl : Clean G s₀)
    (hr : Reach G F xs s₀ s) (hm : s.main = .returned) : Clean G s :=
  returned_clean hac (reach_inv hac hct (hcl.start _) hr) hm

/-- **C04, any history.** After any sequence of `Backward` calls, `AccGrad`s and `ZeroGrad`s the
graph is as good as new: the next call is over in bounded time and adds the chain-rule sums to
the gradients then present. -/
theorem session_reusable (hac : G.Acyclic) {l : List (UserOp n M)}
    (hct : ∀ ys, .backward ys ∈ l → Contract G F ys) (hcl : Clean G s₀)
    (hs : Session G F l s₀ s) (hxs : Contract G F xs) :
    Returns G F xs s ∧
    ∀ s', Reach G F xs s s' → s'.main = .returned →
      ChainRule G F xs (seeded G F xs s.grad) s'.grad := by
  have hclean : Clean G s := by
    clear hxs
    induction hs with
    | nil s => exact hcl
    | backward hr hm _ ih =>
      exact ih (fun ys hy => hct ys (List.mem_cons_of_mem _ hy))
        (backward_leaves_clean hac (hct _ (List.mem_cons_self ..)).atMost hcl hr hm)
    | @accGrad x g l s s'' _ ih =>
      refine ih (fun ys hy => hct ys (List.mem_cons_of_mem _ hy)) ?_
      unfold accGradSeq
      simp only [hcl.idle, if_true]
      exact ⟨hcl.idle, hcl.quiet, hcl.noPending, hcl.alive⟩
    | @zeroGrad x l s s'' _ ih =>
      refine ih (fun ys hy => hct ys (List.mem_cons_of_mem _ hy)) ?_
      unfold zeroGrad
      split
      · exact hcl
      · exact ⟨hcl.idle, hcl.quiet, hcl.noPending, hcl.alive⟩
  exact ⟨backward_returns hac hxs hclean,
    fun s' hr hm => backward_chain_rule hac hxs.atMost hclean hr hm⟩

/-! ### C06: seeding -/

/-- **C06, error.** If the call returns an error, some output has no gradient and no default;
no backward function has been invoked, no gradient other than the outputs' has changed, and
an output's only by getting its default. -/
theorem backward_error (hac : G.Acyclic) (hct : AtMost G F xs) (hcl : Clean G s₀)
    (hr : Reach G F xs s₀ s) (hm : s.main = .failed) :
    (∃ x ∈ xs, G.isOp x = true ∧ s₀.grad x = none ∧ F.seed x = none) ∧
    s.log = [] ∧ (∀ y, ¬ (y ∈ xs ∧ G.isOp y = true) → s.grad y = s₀.grad y) ∧
    (∀ y, s.grad y = s₀.grad y ∨ (s₀.grad y = none ∧ s.grad y = F.seed y)) := by
  have h := reach_inv hac hct (hcl.start _) hr
  cases h with
  | prep stk h => rw [h.main] at hm; cases hm
  | assign d r h => rw [h.main] at hm; cases hm
  | failed d r x t h hs hg hg₀ hseed =>
    have hx : x ∈ xs.filter G.isOp := by rw [h.split]; simp
    refine ⟨⟨x, (List.mem_filter.mp hx).1, (List.mem_filter.mp hx).2, hg₀, hseed⟩, ?_, ?_, ?_⟩
    · rw [hs]; exact h.log
    · intro y hy
      rw [hs]
      simp only
      rw [h.grad y, if_neg]
      rintro ⟨h1, -⟩
      have : y ∈ xs.filter G.isOp := by rw [h.split]; simp [h1]
      exact hy (by simpa using this)
    · intro y
      rw [hs]
      simp only
      rw [h.grad y]
      split
      · rename_i h1; exact Or.inr ⟨h1.2, rfl⟩
      · exact Or.inl rfl
  | par stk hc hn hv hsd =>
    rcases hc.main with h1 | ⟨h1, h2 | ⟨h2, h3⟩⟩
    · rw [hm] at h1; cases h1
    · rw [hm] at h2; cases h2
    · rw [hm] at h2; cases h2

/-- **C06, decision.** A call ends with an error under every schedule if some output has neither
gradient nor default, and returns normally under every schedule otherwise. -/
theorem backward_outcome (hac : G.Acyclic) (hct : AtMost G F xs) (hcl : Clean G s₀)
    (hr : Reach G F xs s₀ s) (hm : s.main = .returned ∨ s.main = .failed) :
    s.main = .failed ↔ ∃ x ∈ xs, G.isOp x = true ∧ s₀.grad x = none ∧ F.seed x = none := by
  constructor
  · intro h; exact (backward_error hac hct hcl hr h).1
  · rintro ⟨x, hx, ho, hg, hsd⟩
    rcases hm with hm | hm
    · exfalso
      have h := reach_inv hac hct (hcl.start _) hr
      cases h with
      | prep stk h => rw [h.main] at hm; cases hm
      | assign d r h => rw [h.main] at hm; cases hm
      | failed d r x t h hs hg hg₀ hseed => rw [hs] at hm; cases hm
      | par stk hc hn hv hne =>
        have := hne x (List.mem_filter.mpr ⟨hx, ho⟩)
        rw [seeded_filter] at this
        simp [seeded, hx, ho, hg, hsd] at this
    · exact hm

/-! ### C07 and C08 -/

/-- **C08.** An operator reports `RequiresGrad` exactly when a chain of operands leads to a leaf
that requires gradients. -/
theorem requiresGrad_iff_trainable (hac : G.Acyclic) (x : Fin n) :
    G.requiresGrad x = true ↔ Trainable G x := by
  constructor
  · intro h
    suffices H : ∀ k, ∀ x : Fin n, x.val < k → G.requiresGrad x = true → Trainable G x from
      H n x x.isLt h
    intro k
    induction k with
    | zero => intro x hx; omega
    | succ k ih =>
      intro x hx h
      rw [Graph.requiresGrad_eq hac] at h
      cases hn : G.node x with
      | leaf b => rw [hn] at h; simp only at h; subst h; exact .leaf hn
      | blocker w => rw [hn] at h; cases h
      | op os =>
        rw [hn] at h
        simp only [List.any_eq_true] at h
        obtain ⟨o, ho, h1⟩ := h
        have hm : o ∈ G.operands x := by simp [Graph.operands, hn, ho]
        have hlt : o.val < x.val := hac x o hm
        exact .op hm (ih o (by omega) h1)
  · intro h
    induction h with
    | leaf hn => rw [Graph.requiresGrad_eq hac, hn]
    | @op x o hm _ ih =>
      rw [Graph.requiresGrad_eq hac]
      cases hn : G.node x with
      | leaf b => simp [Graph.operands, hn] at hm
      | blocker w => simp [Graph.operands, hn] at hm
      | op os =>
        simp only [List.any_eq_true]
        exact ⟨o, by simpa [Graph.operands, hn] using hm, ih⟩

theorem contrib_of_not_mem {c x : Fin n} {g : Option M}
    (h : ∀ g', g = some g' → ∀ p ∈ F.bw c g', p.1 ≠ x) : contrib F c g x = 0 := by
  cases g with
  | none => rfl
  | some g =>
    simp only [contrib]
    apply List.sum_eq_zero
    intro y hy
    obtain ⟨p, hp, rfl⟩ := List.mem_map.mp hy
    rw [if_neg (h g rfl p hp)]

/-- **C08, untouched.** If backward functions check `RequiresGrad`, a tensor that does not require
gradients and is no output keeps the gradient it had. -/
theorem backward_untouched_of_not_requiresGrad (hac : G.Acyclic) (hct : AtMost G F xs)
    (hresp : Respectful G F xs) (hcl : Clean G s₀)
    (hr : Reach G F xs s₀ s) (hm : s.main = .returned) {x : Fin n}
    (hb : G.isBlocker x = false) (hx : G.requiresGrad x = false)
    (hout : ¬ (x ∈ xs ∧ G.isOp x = true)) : s.grad x = s₀.grad x := by
  apply amount_injective
  rw [backward_chain_rule hac hct hcl hr hm x hb]
  have h1 : seeded G F xs s₀.grad x = s₀.grad x := by
    unfold seeded
    rw [if_neg (fun h => hout ⟨h.1, h.2.1⟩)]
  rw [h1]
  have : ∀ c ∈ Finset.univ, (open Classical in if Reached G xs c then contrib F c (s.grad c) x else 0) = 0 := by
    intro c _
    split
    · rename_i hc
      apply contrib_of_not_mem
      intro g' _ p hp he
      have := (hresp c hc g' p hp).2
      rw [he, hx] at this
      cases this
    · rfl
  rw [Finset.sum_eq_zero this, add_zero]

/-- **C07, blocking.** A tensor that is no output and is not an operand of an operator connected
to the outputs (in particular one used only behind a `StopGrad`) keeps the gradient it had. -/
theorem backward_untouched_of_unreachable (hac : G.Acyclic) (hct : AtMost G F xs)
    (hloc : Local G F xs) (hcl : Clean G s₀)
    (hr : Reach G F xs s₀ s) (hm : s.main = .returned) {x : Fin n}
    (hb : G.isBlocker x = false) (hout : ¬ (x ∈ xs ∧ G.isOp x = true))
    (hun : ∀ c, Reached G xs c → x ∉ G.operands c) : s.grad x = s₀.grad x := by
  apply amount_injective
  rw [backward_chain_rule hac hct hcl hr hm x hb]
  have h1 : seeded G F xs s₀.grad x = s₀.grad x := by
    unfold seeded
    rw [if_neg (fun h => hout ⟨h.1, h.2.1⟩)]
  rw [h1]
  have : ∀ c ∈ Finset.univ, (open Classical in if Reached G xs c then contrib F c (s.grad c) x else 0) = 0 := by
    intro c _
    split
    · rename_i hc
      apply contrib_of_not_mem
      intro g' _ p hp he
      exact hun c hc (he ▸ hloc c hc g' p hp)
    · rfl
  rw [Finset.sum_eq_zero this, add_zero]

omit [AddCommSemigroup M] in
theorem freeze_operands (x : Fin n) : G.freeze.operands x = G.operands x := by
  unfold Graph.operands Graph.freeze
  cases h : G.node x <;> simp [h]

theorem freeze_isOp (x : Fin n) : G.freeze.isOp x = G.isOp x := by
  unfold Graph.isOp Graph.freeze
  cases h : G.node x <;> simp [h]

theorem freeze_acyclic (hac : G.Acyclic) : G.freeze.Acyclic := by
  intro x o ho
  rw [freeze_operands] at ho
  exact hac x o ho

theorem freeze_requiresGrad (x : Fin n) : G.freeze.requiresGrad x = G.requiresGrad x := by
  unfold Graph.requiresGrad
  suffices H : ∀ k (x : Fin n), G.freeze.rgFuel k x = G.rgFuel k x from H n x
  intro k
  induction k with
  | zero => intro x; rfl
  | succ k ih =>
    intro x
    have : G.freeze.rgFuel k = G.rgFuel k := funext ih
    simp only [Graph.rgFuel, this]
    unfold Graph.freeze
    cases h : G.node x <;> simp [h]

theorem freeze_reached (x : Fin n) : Reached G.freeze xs x ↔ Reached G xs x := by
  constructor
  · intro h
    induction h with
    | out hm ho hr => exact .out hm (by rwa [freeze_isOp] at ho) (by rwa [freeze_requiresGrad] at hr)
    | operand _ hm ho hr ih =>
      exact .operand ih (by rwa [freeze_operands] at hm) (by rwa [freeze_isOp] at ho)
        (by rwa [freeze_requiresGrad] at hr)
  · intro h
    induction h with
    | out hm ho hr => exact .out hm (by rwa [freeze_isOp]) (by rwa [freeze_requiresGrad])
    | operand _ hm ho hr ih =>
      exact .operand ih (by rwa [freeze_operands]) (by rwa [freeze_isOp])
        (by rwa [freeze_requiresGrad])

/-- **C07, nothing else.** The gradients a call leaves on all tensors other than the `StopGrad`
nodes are those it leaves when these nodes are constants. -/
theorem stopGrad_is_constant (hac : G.Acyclic) (hct : AtMost G F xs) (hcl : Clean G s₀)
    (hr : Reach G F xs s₀ s) (hm : s.main = .returned)
    (hr' : Reach G.freeze F xs s₀ s') (hm' : s'.main = .returned) (x : Fin n)
    (hx : G.isBlocker x = false) : s.grad x = s'.grad x := by
  have hct' : AtMost G.freeze F xs := by
    intro c hc g x ho hr
    rw [freeze_operands]
    exact hct c ((freeze_reached c).mp hc) g x (by rwa [freeze_isOp] at ho)
      (by rwa [freeze_requiresGrad] at hr)
  have hcl' : Clean G.freeze s₀ :=
    ⟨hcl.idle, hcl.quiet, fun x h => hcl.noPending x (by rwa [freeze_requiresGrad] at h), hcl.alive⟩
  have h' := backward_chain_rule (freeze_acyclic hac) hct' hcl' hr' hm'
  have hsd : seeded G.freeze F xs s₀.grad = seeded G F xs s₀.grad := by
    funext x; unfold seeded; rw [freeze_isOp]
  rw [hsd] at h'
  refine chainRule_unique hac hct (backward_chain_rule hac hct hcl hr hm) ?_ x hx
  intro y hy
  have hb : G.freeze.isBlocker y = false := by
    unfold Graph.isBlocker Graph.freeze
    cases h : G.node y <;> simp [h]
  rw [h' y hb]
  congr 1
  apply Finset.sum_congr rfl
  intro c _
  by_cases hc : Reached G xs c
  · rw [if_pos hc, if_pos ((freeze_reached c).mpr hc)]
  · rw [if_neg hc, if_neg (fun h => hc ((freeze_reached c).mp h))]

end

/-! ### The hypotheses are met: a diamond with a repeated operand and a StopGrad

Leaf 0, operator 1 on it, StopGrad 2 of operator 1, operator 3 on (0, 1, 2), operator 4 on
(1, 3, 3). -/

namespace Ex

def G : Graph 5 where
  node := ![.leaf true, .op [0], .blocker 1, .op [0, 1, 2], .op [1, 3, 3]]

/-- backward functions as the library writes them: one `AccGrad` per operand occurrence that
requires gradients; here each passes on the incoming gradient plus the operand's number -/
def F : Fns 5 Int where
  bw c g := ((G.operands c).filter G.requiresGrad).map fun x => (x, g + x.val)
  seed := fun x => if x = 4 then some 1 else none

def s₀ : St 5 Int where
  grad := fun _ => none
  st := fun _ => .idle
  pend := fun _ => 0
  chan := fun _ => .unmade
  thr := fun _ => .none
  wg := 0
  main := .returned
  panicked := false
  log := []

theorem acyclic : G.Acyclic := by decide

theorem clean : Clean G s₀ := ⟨fun _ => rfl, fun _ => rfl, fun _ _ => rfl, rfl⟩

theorem contract (xs : List (Fin 5)) : Contract G F xs := by
  intro c _ g x _ hr
  simp only [F, List.map_map]
  have : (Prod.fst ∘ fun x : Fin 5 => (x, g + (x.val : Int))) = id := rfl
  rw [this, List.map_id, List.count_filter hr]

theorem respectful (xs : List (Fin 5)) : Respectful G F xs := by
  intro c _ g p hp
  simp only [F, List.mem_map, List.mem_filter] at hp
  obtain ⟨x, ⟨h1, h2⟩, rfl⟩ := hp
  exact ⟨h1, h2⟩

example : Returns G F [4] s₀ := backward_returns acyclic (contract _) clean

/-- complete runs of the call exist, so the theorems about returned calls are not vacuous -/
theorem run_exists : ∃ s, Reach G F [4] s₀ s ∧ s.main = .returned := by
  obtain ⟨s, hs, hstuck⟩ := exists_final acyclic (contract [4]).atMost (clean.start _)
    (Reach.init (G := G) (F := F) (xs := [4]) (s₀ := s₀))
  refine ⟨s, hs, ?_⟩
  rcases (backward_returns acyclic (contract [4]) clean).done s hs hstuck with h | h
  · exact h
  · exfalso
    obtain ⟨x, hx, _, _, h4⟩ := (backward_error acyclic (contract [4]).atMost clean hs h).1
    simp at hx
    subst hx
    simp [F] at h4

example : ∃ s, Reach G F [4] s₀ s ∧ s.main = .returned ∧
    ChainRule G F [4] (seeded G F [4] s₀.grad) s.grad ∧ Clean G s := by
  obtain ⟨s, h1, h2⟩ := run_exists
  exact ⟨s, h1, h2, backward_chain_rule acyclic (contract _).atMost clean h1 h2,
    backward_leaves_clean acyclic (contract _).atMost clean h1 h2⟩

/-- the error branch is reachable too: operator 1 has no default gradient -/
example : ∃ s, Reach G F [4, 1] s₀ s ∧ s.main = .failed := by
  obtain ⟨s, hs, hstuck⟩ := exists_final acyclic (contract [4, 1]).atMost (clean.start _)
    (Reach.init (G := G) (F := F) (xs := [4, 1]) (s₀ := s₀))
  refine ⟨s, hs, ?_⟩
  refine (backward_outcome acyclic (contract _).atMost clean hs
    ((backward_returns acyclic (contract _) clean).done s hs hstuck)).mpr
    ⟨1, by simp, by decide, rfl, by simp [F]⟩

end Ex
end Verif.Backward
