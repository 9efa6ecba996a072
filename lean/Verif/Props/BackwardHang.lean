import Mathlib.Tactic.FinCases
import Verif.Props.Backward
import Verif.Lemmas.BackwardRetry
import Verif.Model.LibOps

/-! # Properties C05 (when Backward hangs) and C06 (retrying after an error) -/

set_option linter.unusedSimpArgs false
set_option autoImplicit false

namespace Verif.Backward
open Function (update)
open scoped BigOperators
section
variable {n : Nat} {M : Type} [AddCommSemigroup M]
  {G : Graph n} {F : Fns n M} {xs : List (Fin n)} {s₀ s s' : St n M}

/-- Every output has a gradient or a default. -/
def Seedable (G : Graph n) (F : Fns n M) (xs : List (Fin n)) (s₀ : St n M) : Prop :=
  ∀ x ∈ xs, G.isOp x = true → s₀.grad x ≠ none ∨ F.seed x ≠ none

theorem not_failed {e : Fin n → Nat} (hac : G.Acyclic) (ham : AtMost G F xs)
    (hst : Start G (xs.filter G.isOp) e s₀) (hsd : Seedable G F xs s₀)
    (hr : Reach G F xs s₀ s) : s.main ≠ .failed := by
  intro hm
  have h := reach_inv hac ham hst hr
  cases h with
  | prep stk h => rw [h.main] at hm; cases hm
  | assign d r h => rw [h.main] at hm; cases hm
  | failed d r x t h hs hg hg₀ hseed =>
    have hx : x ∈ xs.filter G.isOp := by rw [h.split]; simp
    rcases hsd x (List.mem_filter.mp hx).1 (List.mem_filter.mp hx).2 with h1 | h1
    · exact h1 hg₀
    · exact h1 hseed
  | par stk hc hn hv hsd =>
    rcases hc.main with h1 | ⟨h1, h2 | ⟨h2, h3⟩⟩
    · rw [hm] at h1; cases h1
    · rw [hm] at h2; cases h2
    · rw [hm] at h2; cases h2

theorem returned_keys {e : Fin n → Nat} (hac : G.Acyclic) (ham : AtMost G F xs)
    (hst : Start G (xs.filter G.isOp) e s₀) (hr : Reach G F xs s₀ s) (hm : s.main = .returned)
    {x : Fin n} (hx : Reached G xs x) : ∃ g, (x, g) ∈ s.log := by
  obtain ⟨hc, hn, hv, hw⟩ := returned_facts (reach_inv hac ham hst hr) hm
  have := (hc.all_entered hac hw x).mpr (reached_filter.mpr hx)
  obtain ⟨p, hp, rfl⟩ := List.mem_map.mp this
  exact ⟨p.2, hp⟩

/-- **C05, hang.** If some operator concerned gives some operator operand fewer gradients than it
has occurrences, the call never returns, whatever the schedule. -/
theorem backward_hangs (hac : G.Acyclic) (ham : AtMost G F xs) (hcl : Clean G s₀)
    (hsd : Seedable G F xs s₀) {c x : Fin n} (hc : Reached G xs c) (ho : G.isOp x = true)
    (hrg : G.requiresGrad x = true)
    (hmiss : ∀ g, ((F.bw c g).map Prod.fst).count x < (G.operands c).count x) :
    Hangs G F xs s₀ := by
  intro s hr
  refine ⟨?_, not_failed hac ham (hcl.start _) hsd hr⟩
  intro hm
  have hmem : x ∈ G.operands c := by
    by_contra hn
    have := List.count_eq_zero.mpr hn
    have hg := returned_keys hac ham (hcl.start _) hr hm hc
    obtain ⟨g, -⟩ := hg
    have := hmiss g
    omega
  have hx : Reached G xs x := .operand hc hmem ho hrg
  obtain ⟨g, hg⟩ := returned_keys hac ham (hcl.start _) hr hm hc
  have h1 := (returned_no_deficit hac (reach_inv hac ham (hcl.start _) hr) hm x
    (reached_filter.mpr hx)).2 _ hg
  have h2 := hmiss g
  simp only at h1
  omega

/-- A call that cannot return does not return. -/
theorem Hangs.not_returns (hac : G.Acyclic) (ham : AtMost G F xs) {e : Fin n → Nat}
    (hst : Start G (xs.filter G.isOp) e s₀) (h : Hangs G F xs s₀) : ¬ Returns G F xs s₀ := by
  intro hret
  obtain ⟨s, hs, hstuck⟩ := exists_final hac ham hst Reach.init
  rcases hret.done s hs hstuck with h1 | h1
  · exact (h s hs).1 h1
  · exact (h s hs).2 h1

/-- **C05, exact condition.** For backward functions whose targets do not depend on the numbers and
which serve no operand occurrence twice, `Backward` returns if and only if every operator operand
requiring gradients receives as many contributions as it has occurrences. -/
theorem backward_returns_iff (hac : G.Acyclic) (ham : AtMost G F xs) (hcl : Clean G s₀)
    (hsd : Seedable G F xs s₀)
    (huni : ∀ c g g', (F.bw c g).map Prod.fst = (F.bw c g').map Prod.fst) :
    Returns G F xs s₀ ↔ Contract G F xs := by
  refine ⟨?_, fun h => backward_returns hac h hcl⟩
  intro hret c hc g x ho hr
  by_contra hne
  have hle := ham c hc g x ho hr
  refine Hangs.not_returns hac ham (hcl.start _) (backward_hangs hac ham hcl hsd hc ho hr ?_) hret
  intro g'
  rw [huni c g' g]
  omega

/-! ### the library's operators -/

omit [AddCommSemigroup M] in
theorem lib_targets (L : Lib n M) (c : Fin n) (g : M) : (((L.fns G).bw c g).map Prod.fst) =
    ((G.operands c).zipIdx.filter fun p => (L.op c).delivers p.2 &&
      (G.requiresGrad p.1 || !(L.op c).checks)).map Prod.fst := by
  simp [Lib.fns, List.map_map, Function.comp_def]

omit [AddCommSemigroup M] in
theorem zipIdx_count_fst (l : List (Fin n)) (x : Fin n) :
    (l.zipIdx.map Prod.fst).count x = l.count x := by
  congr 1
  exact List.zipIdx_map_fst 0 l

omit [AddCommSemigroup M] in
theorem lib_atMost (L : Lib n M) : AtMost G (L.fns G) xs := by
  intro c _ g x _ _
  rw [lib_targets, ← zipIdx_count_fst (G.operands c) x]
  exact (List.filter_sublist.map Prod.fst).count_le x

omit [AddCommSemigroup M] in
theorem filter_map_count_eq {A : Type} (l : List (Fin n × A)) (p : Fin n × A → Bool) (x : Fin n) :
    ((l.filter p).map Prod.fst).count x = (l.map Prod.fst).count x ↔
      ∀ a ∈ l, a.1 = x → p a = true := by
  induction l with
  | nil => simp
  | cons a l ih =>
    have hle : ((l.filter p).map Prod.fst).count x ≤ (l.map Prod.fst).count x :=
      (List.filter_sublist.map Prod.fst).count_le x
    by_cases hp : p a = true
    · rw [List.filter_cons_of_pos hp]
      simp only [List.map_cons, List.count_cons, List.forall_mem_cons, hp, implies_true, true_and]
      rw [← ih]
      omega
    · rw [List.filter_cons_of_neg hp]
      simp only [List.map_cons, List.count_cons, List.forall_mem_cons]
      by_cases hx : a.1 = x
      · simp only [hx, beq_self_eq_true, if_true]
        constructor
        · omega
        · intro h; exact absurd (h.1 trivial) hp
      · rw [if_neg (by simpa using hx)]
        simp only [hx, false_implies, true_and]
        exact ih

/-- No operator concerned starves an operand: every position its backward function leaves out
holds a tensor that is no operator or does not require gradients. -/
def NoneStarved (G : Graph n) (L : Lib n M) (xs : List (Fin n)) : Prop :=
  ∀ c, Reached G xs c → ∀ i x, (G.operands c)[i]? = some x → G.isOp x = true →
    G.requiresGrad x = true → (L.op c).delivers i = true

omit [AddCommSemigroup M] in
theorem lib_contract_iff (L : Lib n M) [Nonempty M] :
    Contract G (L.fns G) xs ↔ NoneStarved G L xs := by
  constructor
  · intro h c hc i x hi ho hr
    have h1 := h c hc (Classical.choice inferInstance) x ho hr
    rw [lib_targets, ← zipIdx_count_fst (G.operands c) x, filter_map_count_eq] at h1
    have h2 := h1 (x, i) (by
      rw [List.mk_mem_zipIdx_iff_getElem?]; exact hi) rfl
    simp only [Bool.and_eq_true] at h2
    exact h2.1
  · intro h c hc g x ho hr
    rw [lib_targets, ← zipIdx_count_fst (G.operands c) x, filter_map_count_eq]
    rintro ⟨y, i⟩ ha rfl
    rw [List.mk_mem_zipIdx_iff_getElem?] at ha
    simp [h c hc i y ha ho hr, hr]

/-- **C05, library operators.** `Backward` on a graph of library operators returns exactly when no
operator concerned leaves out an operand that is itself an operator requiring gradients. -/
theorem lib_backward_returns_iff (L : Lib n M) (hac : G.Acyclic) (hcl : Clean G s₀)
    (hsd : Seedable G (L.fns G) xs s₀) [Nonempty M] :
    Returns G (L.fns G) xs s₀ ↔ NoneStarved G L xs := by
  rw [← lib_contract_iff]
  exact backward_returns_iff hac (lib_atMost L) hcl hsd
    (fun c g g' => by rw [lib_targets, lib_targets])

/-- **C05, starving hangs.** In the other case it never returns under any schedule. -/
theorem lib_backward_hangs (L : Lib n M) (hac : G.Acyclic) (hcl : Clean G s₀)
    (hsd : Seedable G (L.fns G) xs s₀) {c x : Fin n} {i : Nat} (hc : Reached G xs c)
    (hi : (G.operands c)[i]? = some x) (ho : G.isOp x = true) (hr : G.requiresGrad x = true)
    (hd : (L.op c).delivers i = false) : Hangs G (L.fns G) xs s₀ := by
  refine backward_hangs hac (lib_atMost L) hcl hsd hc ho hr ?_
  intro g
  have h1 := lib_atMost (xs := xs) L c hc g x ho hr
  refine lt_of_le_of_ne h1 ?_
  rw [lib_targets, ← zipIdx_count_fst (G.operands c) x]
  intro h2
  rw [filter_map_count_eq] at h2
  have := h2 (x, i) (by rw [List.mk_mem_zipIdx_iff_getElem?]; exact hi) rfl
  simp [hd] at this

/-- **C05, graphs without the exceptions.** If no operator concerned is a `ScalarMax` and no
hyper-parameter operand is an operator requiring gradients, `Backward` returns. -/
theorem lib_backward_returns (L : Lib n M) (hac : G.Acyclic) (hcl : Clean G s₀)
    (h : ∀ c, Reached G xs c → ∀ i x, (G.operands c)[i]? = some x → G.isOp x = true →
      G.requiresGrad x = true → i = 0 ∨ (L.op c).delivers i = true)
    (hsm : ∀ c k, Reached G xs c → L.op c ≠ .scalarMax k) :
    Returns G (L.fns G) xs s₀ := by
  refine backward_returns hac ?_ hcl
  by_cases hM : Nonempty M
  · rw [lib_contract_iff]
    intro c hc i x hi ho hr
    rcases h c hc i x hi ho hr with h1 | h1
    · subst h1
      have := hsm c
      cases hop : L.op c <;> simp [LibOp.delivers]
      rename_i k
      exact absurd hop (this k hc)
    · exact h1
  · intro c hc g; exact absurd ⟨g⟩ hM

/-- **C05, LogSumExp.** `LogSumExp(xs…)` of several tensors is `Add(max, Log(sum))` with
`max = ScalarMax(xs)` (ag/operators.go:518-523). As soon as two of its arguments are operators
requiring gradients, `Backward` from its result `y` (or from anything using it) never returns. -/
theorem logSumExp_hangs (L : Lib n M) (hac : G.Acyclic) (hcl : Clean G s₀)
    (hsd : Seedable G (L.fns G) xs s₀) {y m l : Fin n} {args : List (Fin n)} {k : Nat}
    (hy : Reached G xs y) (hyn : G.node y = .op [m, l]) (hmn : G.node m = .op args)
    (hm : L.op m = .scalarMax k) {i j : Nat} {a b : Fin n} (hij : i ≠ j)
    (hi : args[i]? = some a) (hj : args[j]? = some b)
    (ha : G.isOp a = true ∧ G.requiresGrad a = true)
    (hb : G.isOp b = true ∧ G.requiresGrad b = true) : Hangs G (L.fns G) xs s₀ := by
  have hargs : G.operands m = args := by simp [Graph.operands, hmn]
  have hrm : G.requiresGrad m = true := by
    rw [Graph.requiresGrad_eq hac, hmn]
    simp only [List.any_eq_true]
    exact ⟨a, List.mem_of_getElem? hi, ha.2⟩
  have hmr : Reached G xs m :=
    .operand hy (by simp [Graph.operands, hyn]) (by simp [Graph.isOp, hmn]) hrm
  by_cases hk : i = k
  · refine lib_backward_hangs L hac hcl hsd hmr (hargs ▸ hj) hb.1 hb.2 ?_
    rw [hm]; simp only [LibOp.delivers, beq_eq_false_iff_ne]; omega
  · refine lib_backward_hangs L hac hcl hsd hmr (hargs ▸ hi) ha.1 ha.2 ?_
    rw [hm]; simp only [LibOp.delivers, beq_eq_false_iff_ne]; omega

/-- **C08, library functions.** The library's functions never accumulate on a tensor that does not
require gradients. `Copy` does not test `RequiresGrad`, but it has one operand only, so it is not
reached unless that operand requires gradients. -/
theorem lib_respectful (L : Lib n M) (hac : G.Acyclic)
    (hcopy : ∀ c, L.op c = .copy → (G.operands c).length = 1) : Respectful G (L.fns G) xs := by
  intro c hc g p hp
  simp only [Lib.fns, List.mem_map, List.mem_filter, Bool.and_eq_true, Bool.or_eq_true,
    Bool.not_eq_true'] at hp
  obtain ⟨q, ⟨hq, hd, hcheck⟩, rfl⟩ := hp
  have hmem : q.1 ∈ G.operands c := List.fst_mem_of_mem_zipIdx hq
  refine ⟨hmem, ?_⟩
  rcases hcheck with h | h
  · exact h
  · have hcp : L.op c = .copy := by
      revert h; cases L.op c <;> simp [LibOp.checks]
    have hlen := hcopy c hcp
    have hrg : G.requiresGrad c = true := by cases hc <;> assumption
    rw [Graph.requiresGrad_eq hac] at hrg
    obtain ⟨y, hy⟩ := List.length_eq_one_iff.mp hlen
    rw [hy, List.mem_singleton] at hmem
    simp only [Graph.operands] at hy
    split at hy
    · rename_i os hn
      rw [hn] at hrg
      subst hy
      simpa [hmem] using hrg
    · cases hy

/-! ### C06: calling again after an error -/

/-- The operator outputs from the first one that has neither gradient nor default on. -/
def unserved (G : Graph n) (F : Fns n M) (xs : List (Fin n)) (s₀ : St n M) : List (Fin n) :=
  (xs.filter G.isOp).dropWhile fun x => (s₀.grad x).isSome || (F.seed x).isSome

/-- The caller accumulates gradients by hand. -/
def supply (G : Graph n) (s : St n M) (l : List (Fin n × M)) : St n M :=
  l.foldl (fun s p => accGradSeq G s p.1 p.2) s

theorem failed_retry (hac : G.Acyclic) (ham : AtMost G F xs) (hcl : Clean G s₀)
    (hr : Reach G F xs s₀ s) (hm : s.main = .failed) :
    Retry G (xs.filter G.isOp) (fun y => (unserved G F xs s₀).count y) s := by
  have h := reach_inv hac ham (hcl.start _) hr
  cases h with
  | prep stk h => rw [h.main] at hm; cases hm
  | assign d r h => rw [h.main] at hm; cases hm
  | failed d r x t h hs hg hg₀ hseed =>
    have hun : unserved G F xs s₀ = x :: r := by
      unfold unserved
      rw [h.split, List.dropWhile_append_of_pos, List.dropWhile_cons_of_neg]
      · simp [hg₀, hseed]
      · intro y hy
        have h1 := h.gradSome y hy
        rw [h.grad y] at h1
        simp only [Bool.or_eq_true, Option.isSome_iff_ne_none]
        by_cases h2 : s₀.grad y = none
        · right; simpa [hy, h2] using h1
        · exact Or.inl h2
    rw [hun, hs]
    exact h.retry hcl
  | par stk hc hn hv hsd =>
    rcases hc.main with h1 | ⟨h1, h2 | ⟨h2, h3⟩⟩
    · rw [hm] at h1; cases h1
    · rw [hm] at h2; cases h2
    · rw [hm] at h2; cases h2

/-- **C06, retry, when it works.** After an error the caller supplies gradients `l`. If every output
from the first missing one on has been given as many gradients as it has occurrences there, the
repeated call is over in bounded time and leaves the chain-rule sums. -/
theorem backward_retry_partial (hac : G.Acyclic) (hct : Contract G F xs) (hcl : Clean G s₀)
    (hr : Reach G F xs s₀ s) (hm : s.main = .failed) (l : List (Fin n × M))
    (hl : ∀ x, Reached G xs x → (l.map Prod.fst).count x = (unserved G F xs s₀).count x) :
    Returns G F xs (supply G s l) ∧
    ∀ t, Reach G F xs (supply G s l) t → t.main = .returned →
      Clean G t ∧ ChainRule G F xs (seeded G F xs (supply G s l).grad) t.grad := by
  have h0 := failed_retry hac hct.atMost hcl hr hm
  have h1 := (h0.accGrads l (fun x hx => (hl x (reached_filter.mp hx)).le)).congr
    (e' := fun _ => 0) (by
      intro x hrg ho
      split
      · rename_i hp
        rw [hl x (reached_filter.mp (h0.start.reach x hp))]
        omega
      · rename_i hp
        rw [List.count_eq_zero]
        intro hmem
        have : x ∈ xs.filter G.isOp := (List.dropWhile_sublist _).subset hmem
        exact hp (h0.all x (.out this ho hrg)))
  have hst := h1.start
  refine ⟨⟨?_, ?_, ?_⟩, ?_⟩
  · intro run hi hrun; exact no_infinite hac hct.atMost hst run hi hrun
  · intro t ht; exact (reach_inv hac hct.atMost hst ht).alive
  · intro t ht hstuck
    have hct' : Contract G F (xs.filter G.isOp) := fun c hc => hct c (reached_filter.mp hc)
    rcases (reach_inv hac hct.atMost hst ht).progress hac hct' with h | h | ⟨c, s', h⟩
    · exact Or.inl h
    · exact Or.inr h
    · rw [hstuck c] at h; cases h
  · intro t ht hmt
    have hinv := reach_inv hac hct.atMost hst ht
    refine ⟨returned_clean hac hinv hmt, ?_⟩
    have h := returned_chain hac hinv hmt
    rw [seeded_filter] at h
    intro x hx
    rw [h x hx]
    congr 1
    apply Finset.sum_congr rfl
    intro c _
    by_cases hc : Reached G xs c
    · rw [if_pos hc, if_pos (reached_filter.mpr hc)]
    · rw [if_neg hc, if_neg (fun h => hc (reached_filter.mp h))]

/-- **C06, retry, when it hangs.** If some output concerned has been given fewer gradients than it
has occurrences from the first missing one on, the repeated call never returns, although every
output now has a gradient or a default. -/
theorem backward_retry_hangs (hac : G.Acyclic) (ham : AtMost G F xs) (hcl : Clean G s₀)
    (hr : Reach G F xs s₀ s) (hm : s.main = .failed) (l : List (Fin n × M))
    (hle : ∀ x, Reached G xs x → (l.map Prod.fst).count x ≤ (unserved G F xs s₀).count x)
    (hsd : Seedable G F xs (supply G s l)) {x : Fin n} (hx : Reached G xs x)
    (hlt : (l.map Prod.fst).count x < (unserved G F xs s₀).count x) :
    Hangs G F xs (supply G s l) := by
  have h0 := failed_retry hac ham hcl hr hm
  have h1 := (h0.accGrads l (fun x hx => hle x (reached_filter.mp hx)))
  intro t ht
  refine ⟨?_, not_failed hac ham h1.start hsd ht⟩
  intro hmt
  have h2 := (returned_no_deficit hac (reach_inv hac ham h1.start ht) hmt x
    (reached_filter.mpr hx)).1
  rw [if_pos (h0.all x (reached_filter.mpr hx))] at h2
  omega

/-- **C06, retry, exact condition.** -/
theorem backward_retry_iff (hac : G.Acyclic) (hct : Contract G F xs) (hcl : Clean G s₀)
    (hr : Reach G F xs s₀ s) (hm : s.main = .failed) (l : List (Fin n × M))
    (hle : ∀ x, Reached G xs x → (l.map Prod.fst).count x ≤ (unserved G F xs s₀).count x)
    (hsd : Seedable G F xs (supply G s l)) :
    Returns G F xs (supply G s l) ↔
      ∀ x, Reached G xs x → (l.map Prod.fst).count x = (unserved G F xs s₀).count x := by
  refine ⟨?_, fun h => (backward_retry_partial hac hct hcl hr hm l h).1⟩
  intro hret x hx
  by_contra hne
  have h0 := failed_retry hac hct.atMost hcl hr hm
  have h1 := (h0.accGrads l (fun x hx => hle x (reached_filter.mp hx)))
  exact Hangs.not_returns hac hct.atMost h1.start
    (backward_retry_hangs hac hct.atMost hcl hr hm l hle hsd hx
      (lt_of_le_of_ne (hle x hx) hne)) hret

end

/-! ### The hypotheses are met -/

namespace ExHang

/-- leaf 0; operators 1 and 2 on it; 3 = ScalarMax(1, 2); 4 = Log of something on 1;
5 = Add(3, 4) -/
def G : Graph 6 where
  node := ![.leaf true, .op [0], .op [0], .op [1, 2], .op [1], .op [3, 4]]

def L : Lib 6 Int where
  op := ![.copy, .exp, .exp, .scalarMax 1, .log, .add]
  val := fun _ _ g => g
  seed := fun _ => some 1

def s₀ : St 6 Int where
  grad := fun _ => none
  st := fun _ => .idle
  pend := fun _ => 0
  chan := fun _ => .unmade
  thr := fun _ => .none
  wg := 0
  main := .returned
  panicked := false
  log := []

theorem acyclic : G.Acyclic := by decide

theorem clean : Clean G s₀ := ⟨fun _ => rfl, fun _ => rfl, fun _ _ => rfl, rfl⟩

theorem seedable (xs : List (Fin 6)) : Seedable G (L.fns G) xs s₀ :=
  fun _ _ _ => Or.inr (by simp [Lib.fns, L])

/-- the library's own LogSumExp of two operators deadlocks -/
example : Hangs G (L.fns G) [5] s₀ :=
  logSumExp_hangs L acyclic clean (seedable _) (y := 5) (m := 3) (l := 4) (args := [1, 2])
    (.out (by simp) (by decide) (by decide)) rfl rfl rfl (i := 0) (j := 1) (by decide) rfl rfl
    (by decide) (by decide)

/-- a leaf without gradients beside one with gradients, and a copy of the product -/
def G4 : Graph 4 := ⟨fun | 0 => .leaf true | 1 => .leaf false | 2 => .op [0, 1] | 3 => .op [2]⟩

example : Respectful G4 (Lib.fns G4 (M := Int)
    ⟨fun | 3 => .copy | _ => .prod, fun _ _ g => g, fun _ => some 1⟩) [3] :=
  lib_respectful _ (by decide) (by intro c; fin_cases c <;> simp [G4, Graph.operands])

/-- back-propagating operator 4 alone returns -/
example : Returns G (L.fns G) [4] s₀ := by
  have hre : ∀ c, Reached G [4] c → c = 4 ∨ c = 1 := by
    intro c hc
    induction hc with
    | out hm _ _ => left; simpa using hm
    | @operand c x _ hm ho _ ih =>
      rcases ih with rfl | rfl
      · right; simpa [Graph.operands, G] using hm
      · have : x = 0 := by simpa [Graph.operands, G] using hm
        subst this; simp [Graph.isOp, G] at ho
  apply lib_backward_returns L acyclic clean
  · intro c hc i x _ _ _
    rcases hre c hc with rfl | rfl <;> exact Or.inr rfl
  · intro c k hc
    rcases hre c hc with rfl | rfl <;> simp [L]

/-- outputs 1 and 2 without default gradient: whoever then supplies both gradients can go on,
whoever supplies the first only (the second now having a default) waits forever -/
def F : Fns 6 Int := { L.fns G with seed := fun x => if x = 2 then some 1 else none }

theorem contract : Contract G F [1, 2] := by
  have hre : ∀ c, Reached G [1, 2] c → c = 1 ∨ c = 2 := by
    intro c hc
    induction hc with
    | out hm _ _ => simpa using hm
    | @operand c x _ hm ho _ ih =>
      have : x = 0 := by rcases ih with rfl | rfl <;> simpa [Graph.operands, G] using hm
      subst this; simp [Graph.isOp, G] at ho
  intro c hc g x ho hr
  have : (F.bw c g).map Prod.fst = G.operands c := by
    rcases hre c hc with rfl | rfl <;> rfl
  rw [this]

/-- supplying the one missing gradient is not enough -/
example : ∃ s, Reach G F [1, 2] s₀ s ∧ s.main = .failed ∧
    Hangs G F [1, 2] (supply G s [(1, 7)]) ∧
    Returns G F [1, 2] (supply G s [(1, 7), (2, 1)]) := by
  obtain ⟨s, hs, hstuck⟩ := exists_final acyclic contract.atMost (clean.start _)
    (Reach.init (G := G) (F := F) (xs := [1, 2]) (s₀ := s₀))
  have hm : s.main = .failed := (backward_outcome acyclic contract.atMost clean hs
    ((backward_returns acyclic contract clean).done s hs hstuck)).mpr
    ⟨1, by simp, by decide, rfl, rfl⟩
  have hun : unserved G F [1, 2] s₀ = [1, 2] := by decide
  refine ⟨s, hs, hm, ?_, ?_⟩
  · refine backward_retry_hangs acyclic contract.atMost clean hs hm [(1, 7)] ?_ ?_ (x := 2)
      (.out (by simp) (by decide) (by decide)) ?_
    · intro x hx
      rw [hun]
      simp [List.count_cons]
    · intro x hx _
      simp only [List.mem_cons, List.not_mem_nil, or_false] at hx
      rcases hx with rfl | rfl
      · left
        simp only [supply, List.foldl_cons, List.foldl_nil, accGradSeq_grad]
        have : G.isBlocker 1 = false := by decide
        simp only [addGrad, this]
        simp only [Bool.false_eq_true, if_false, Function.update_self]
        cases s.grad 1 <;> simp [accOpt]
      · right; simp [F]
    · rw [hun]; decide
  · refine (backward_retry_partial acyclic contract clean hs hm [(1, 7), (2, 1)] ?_).1
    intro x _; rw [hun]; rfl

end ExHang
end Verif.Backward
