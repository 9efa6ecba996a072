import Verif.Props.Record

set_option autoImplicit false
set_option linter.unusedSimpArgs false

/-!
# Programs that cannot be told apart at a point

Two programs whose operators have the same operands, the same values and the same backward functions at the
values of one run: what `Backward` does to the one it does to the other. So a program trains a model if
another one does that is alike at the point in question.
-/

namespace Verif.Record
open GradFn Backward Tape
open scoped BigOperators Topology

variable {θ : Nat → Dense ℝ} {α γ : Type}

/-- The two functions do the same at the operands `xs`. -/
def SameAt (f g : GradFn ℝ) (xs : List (Dense ℝ)) : Prop :=
  f.forward xs = g.forward xs ∧ ∀ gy, f.backward xs gy = g.backward xs gy

/-- The programs differ only in functions that do the same at their operands. -/
def Alike (θ : Nat → Dense ℝ) : List Instr → List Instr → List (Dense ℝ) → Prop
  | [], [], _ => True
  | i :: is, j :: js, vals =>
    (i = j ∨ ∃ f g args, i = .call f args ∧ j = .call g args ∧ ∀ xs, args.mapM (vals[·]?) = some xs → SameAt f g xs) ∧
      ∀ v, Tape.step θ vals i = some v → Alike θ is js (vals ++ [v])
  | _, _, _ => False

theorem alike_refl : ∀ (P : List Instr) (vals : List (Dense ℝ)), Alike θ P P vals
  | [], _ => trivial
  | _ :: P, _ => ⟨Or.inl rfl, fun _ _ => alike_refl P _⟩

theorem alike_step {i j : Instr} {vals : List (Dense ℝ)}
    (h : i = j ∨ ∃ f g args, i = .call f args ∧ j = .call g args ∧ ∀ xs, args.mapM (vals[·]?) = some xs → SameAt f g xs) :
    Tape.step θ vals i = Tape.step θ vals j := by
  rcases h with rfl | ⟨f, g, args, rfl, rfl, h⟩
  · rfl
  · simp only [Tape.step, Option.bind_eq_bind]
    cases hm : args.mapM (vals[·]?) with
    | none => rfl
    | some xs => exact (h xs hm).1

theorem alike_run : ∀ {P Q : List Instr} {vals : List (Dense ℝ)}, Alike θ P Q vals → run θ P vals = run θ Q vals
  | [], [], _, _ => rfl
  | [], _ :: _, _, h => h.elim
  | _ :: _, [], _, h => h.elim
  | i :: P, j :: Q, vals, h => by
    simp only [run, Option.bind_eq_bind, ← alike_step h.1]
    cases hv : Tape.step θ vals i with
    | none => rfl
    | some v => exact alike_run (h.2 v hv)

theorem alike_append : ∀ {P P' Q Q' : List Instr} {vals : List (Dense ℝ)}, Alike θ P P' vals →
    (∀ vals', run θ P vals = some vals' → Alike θ Q Q' vals') → Alike θ (P ++ Q) (P' ++ Q') vals
  | [], [], _, _, vals, _, h => h vals rfl
  | [], _ :: _, _, _, _, h, _ => h.elim
  | _ :: _, [], _, _, _, h, _ => h.elim
  | i :: P, j :: P', Q, Q', vals, hp, h => by
    refine ⟨hp.1, fun v hv => alike_append (hp.2 v hv) fun vals' hr => h vals' ?_⟩
    simp only [run, Option.bind_eq_bind, hv, Option.bind_some]
    exact hr

/-- The instructions of alike programs. -/
theorem alike_get : ∀ {P Q : List Instr} {pre vals : List (Dense ℝ)}, Alike θ P Q pre → run θ P pre = some vals →
    Q.length = P.length ∧ ∀ (c : Nat) (i : Instr), P[c]? = some i → ∃ j, Q[c]? = some j ∧
      (i = j ∨ ∃ f g args, i = .call f args ∧ j = .call g args ∧
        SameAt f g (args.map fun a => vals.getD a ⟨0, 0, []⟩))
  | [], [], _, _, _, _ => ⟨rfl, fun c i h => by simp at h⟩
  | [], _ :: _, _, _, h, _ => h.elim
  | _ :: _, [], _, _, h, _ => h.elim
  | i₀ :: P, j₀ :: Q, pre, vals, ha, hr => by
    have hspec := (run_iff θ (i₀ :: P) pre vals).mp hr
    simp only [run, Option.bind_eq_bind, Option.bind_eq_some_iff] at hr
    obtain ⟨v, hv, hr⟩ := hr
    obtain ⟨h1, h2⟩ := alike_get (ha.2 v hv) hr
    refine ⟨by simp [h1], fun c i hc => ?_⟩
    cases c with
    | succ c => exact h2 c i hc
    | zero =>
      obtain rfl := Option.some.inj hc
      refine ⟨j₀, rfl, ?_⟩
      rcases ha.1 with h | ⟨f, g, args, rfl, rfl, h⟩
      · exact Or.inl h
      · refine Or.inr ⟨f, g, args, rfl, rfl, ?_⟩
        simp only [Tape.step, Option.bind_eq_bind, Option.bind_eq_some_iff] at hv
        obtain ⟨xs, hx, -⟩ := hv
        have hs := h xs hx
        have htake : vals.take pre.length = pre := hspec.2.1
        rw [← htake] at hx
        rw [((mapM_get (by rw [hspec.1]; omega) args xs).mp hx).2] at hs
        exact hs

/-! ### Code -/

/-- Code after tensors with the values `vals`: if the first runs, the second is alike. -/
def Twin (θ : Nat → Dense ℝ) (vals : List (Dense ℝ)) (c c' : B α) : Prop :=
  (run θ (c vals.length).2 vals).isSome →
    (c vals.length).1 = (c' vals.length).1 ∧ Alike θ (c vals.length).2 (c' vals.length).2 vals

theorem Twin.refl (vals : List (Dense ℝ)) (c : B α) : Twin θ vals c c := fun _ => ⟨rfl, alike_refl _ _⟩

theorem Twin.bind {vals : List (Dense ℝ)} {c c' : B α} {k k' : α → B γ} (h : Twin θ vals c c')
    (hk : ∀ vals', run θ (c vals.length).2 vals = some vals' → vals <+: vals' →
      Twin θ vals' (k (c vals.length).1) (k' (c vals.length).1)) :
    Twin θ vals (c >>= k) (c' >>= k') := by
  intro hrun
  replace hrun : (run θ ((c vals.length).2 ++ (k (c vals.length).1 (vals.length + (c vals.length).2.length)).2)
    vals).isSome := hrun
  rw [run_append] at hrun
  obtain ⟨ws, hrun⟩ := Option.isSome_iff_exists.mp hrun
  obtain ⟨vals', hr, hr'⟩ := Option.bind_eq_some_iff.mp hrun
  obtain ⟨h1, h2⟩ := h (by rw [hr]; rfl)
  have hspec := (run_iff θ _ _ _).mp hr
  have hpre : vals <+: vals' := by
    conv_lhs => rw [← hspec.2.1]
    exact List.take_prefix _ _
  have hk := hk vals' hr hpre
  have hlen := (alike_get h2 hr).1
  rw [Twin, hspec.1] at hk
  obtain ⟨h3, h4⟩ := hk (by rw [hr']; rfl)
  refine ⟨?_, ?_⟩
  · show (k (c vals.length).1 (vals.length + (c vals.length).2.length)).1 =
      (k' (c' vals.length).1 (vals.length + (c' vals.length).2.length)).1
    rw [← h1, hlen]; exact h3
  · show Alike θ ((c vals.length).2 ++ (k (c vals.length).1 (vals.length + (c vals.length).2.length)).2)
      ((c' vals.length).2 ++ (k' (c' vals.length).1 (vals.length + (c' vals.length).2.length)).2) vals
    rw [← h1, hlen]
    refine alike_append h2 fun vals'' hr'' => ?_
    rw [hr] at hr''
    obtain rfl := Option.some.inj hr''
    exact h4

theorem Twin.call {vals : List (Dense ℝ)} {f g : GradFn ℝ} {args : List Nat}
    (h : ∀ xs, args.mapM (vals[·]?) = some xs → SameAt f g xs) : Twin θ vals (call f args) (call g args) :=
  fun _ => ⟨rfl, Or.inr ⟨f, g, args, rfl, rfl, h⟩, fun _ _ => trivial⟩

/-! ### Training -/

/-- The node of an instruction, among `n` tensors. -/
def nodeOf (n : Nat) : Option Instr → Node n
  | some (.leaf b) => .leaf b
  | some (.const _) => .leaf false
  | some (.stop j) => if h : j < n then .blocker ⟨j, h⟩ else .leaf false
  | some (.call _ args) => .op (fins n args)
  | none => .leaf false

/-- The graph of a program of `n` instructions. -/
def graphN (n : Nat) (P : List Instr) : Graph n := ⟨fun i => nodeOf n P[i.val]?⟩

/-- The functions of a program of `n` instructions. -/
def fnsN (n : Nat) (P : List Instr) (i : Fin n) : GradFn ℝ :=
  match P[i.val]? with
  | some (.call f _) => f
  | _ => ⟨fun _ => none, fun _ _ => none⟩

theorem graphN_eq (P : List Instr) : graphN P.length P = graph P := by
  unfold graphN graph
  congr 1
  funext i
  rw [get_fin i]
  unfold nodeOf
  cases P[i] <;> rfl

theorem fnsN_eq (P : List Instr) : fnsN P.length P = fns P := by
  funext i
  unfold fnsN fns
  rw [get_fin i]
  cases P[i] <;> rfl

/-- What `Backward` does in a graph of `n` tensors, as `Trains` says it. -/
def Learns (k n : Nat) (G : Graph n) (F : Fns n (Nat → ℝ)) (y : Fin n) (feeds : Nat → Prop)
    (loss : (Nat → Dense ℝ) → Option (Dense ℝ)) (θ : Nat → Dense ℝ) (L : Dense ℝ) : Prop :=
  ∀ s₀ : St n (Nat → ℝ), Clean G s₀ → (∀ x : Fin n, k ≤ x.val → s₀.grad x = none) →
    Returns G F [y] s₀ ∧ (∀ s, Reach G F [y] s₀ s → s.main ≠ .failed) ∧
    ∀ s, Reach G F [y] s₀ s → s.main = .returned →
      (∀ (Θ : Nat → ℝ → Dense ℝ) (v : Nat → Nat → ℝ), (∀ l < k, Curve (θ l) (Θ l) (v l)) →
        (∀ᶠ t in 𝓝 0, (loss (withParams k (Θ · t) θ)).isSome) ∧
        HasDerivAt (fun t => number (loss (withParams k (Θ · t) θ)))
          (∑ l ∈ Finset.range k, ∑ i ∈ Finset.range (θ l).data.length,
            (gnum (gradOf s l) i - gnum (gradOf s₀ l) i) * v l i) 0) ∧
      (∀ l : Fin n, l.val < k → ∀ i < (θ l).data.length,
        HasDerivAt (fun t => number (loss (moved θ l i t))) (gnum (s.grad l) i - gnum (s₀.grad l) i) 0) ∧
      (∀ l : Fin n, l.val < k → s₀.grad l ≠ none ∨ feeds l.val → s.grad l ≠ none) ∧
      ((∀ x, s₀.grad x = none) → (∃ l : Fin n, l.val < k ∧ ∃ i < (θ l).data.length, gnum (s.grad l) i ≠ 0) →
        ∃ ε > 0, ∀ α, 0 < α → α < ε → ∀ τ : Nat → Dense ℝ,
          (∀ x : Fin n, x.val < k → SgdStep α (θ x) (s.grad x) (τ x)) → (∀ x, k ≤ x → τ x = θ x) →
          ∃ L', loss τ = some L' ∧ L'.val 0 < L.val 0)

theorem trains_iff {k : Nat} {P : List Instr} {y n : Nat} {loss : (Nat → Dense ℝ) → Option (Dense ℝ)}
    (hn : P.length = n) : Trains k P y loss θ ↔ ∃ (vals : List (Dense ℝ)) (L : Dense ℝ) (hlt : y < n),
      run θ P [] = some vals ∧ vals[y]? = some L ∧ loss θ = some L ∧
        Learns k n (graphN n P) (progFns (graphN n P) (fnsN n P) (valOf vals)) ⟨y, hlt⟩ (Feeds P y) loss θ L := by
  subst hn
  rw [graphN_eq, fnsN_eq]
  exact Iff.rfl

theorem alike_feeds {P Q : List Instr} {vals : List (Dense ℝ)} {y x : Nat}
    (h : ∀ (c : Nat) (i : Instr), P[c]? = some i → ∃ j, Q[c]? = some j ∧
      (i = j ∨ ∃ f g args, i = .call f args ∧ j = .call g args ∧
        SameAt f g (args.map fun a => vals.getD a ⟨0, 0, []⟩))) (hf : Feeds P y x) : Feeds Q y x := by
  induction hf with
  | self => exact .self
  | arg _ hc ho ih =>
    obtain ⟨j, hj, rfl | ⟨f, g, args, h1, rfl, -⟩⟩ := h _ _ hc
    · exact .arg ih hj ho
    · cases h1
      exact .arg ih hj ho

/-- **Replacing a program.** A program that is alike one that trains a model trains the model. -/
theorem Trains.alike {k : Nat} {P Q : List Instr} {y : Nat} {loss : (Nat → Dense ℝ) → Option (Dense ℝ)}
    (h : Trains k P y loss θ) (ha : Alike θ P Q []) : Trains k Q y loss θ := by
  obtain ⟨vals, L, hlt, hrun, hy, hL, hl⟩ := (trains_iff rfl).mp h
  obtain ⟨hlen, hget⟩ := alike_get ha hrun
  refine (trains_iff hlen).mpr ⟨vals, L, hlt, by rw [← alike_run ha]; exact hrun, hy, hL, ?_⟩
  have hR := ran_iff.mp hrun
  have hG : graphN P.length Q = graphN P.length P := by
    unfold graphN
    congr 1
    funext i
    obtain ⟨j, hj, rfl | ⟨f, g, args, h1, rfl, -⟩⟩ := hget i.val P[i] (get_fin i)
    · rw [hj, get_fin i]
    · rw [hj, get_fin i, h1]; rfl
  have hF : progFns (graphN P.length P) (fnsN P.length Q) (valOf vals) =
      progFns (graphN P.length P) (fnsN P.length P) (valOf vals) := by
    unfold progFns
    congr 1
    funext c g
    obtain ⟨j, hj, rfl | ⟨f, f', args, h1, rfl, hs⟩⟩ := hget c.val P[c] (get_fin c)
    · unfold fnsN
      rw [hj, get_fin c]
    · have hc : P[c.val]? = some (.call f args) := by rw [get_fin c, h1]
      have hop : ((graphN P.length P).operands c).map (valOf vals) = args.map fun a => vals.getD a ⟨0, 0, []⟩ := by
        rw [graphN_eq, operands_call hc]
        conv_rhs => rw [← fins_get args (args_lt hR hc), List.map_map]
        rfl
      have e1 : fnsN P.length Q c = f' := by simp only [fnsN, hj]
      have e2 : fnsN P.length P c = f := by simp only [fnsN, hc]
      rw [e1, e2, hop, hs.2]
  rw [hG, hF]
  intro s₀ h1 h2
  obtain ⟨h3, h4, h5⟩ := hl s₀ h1 h2
  refine ⟨h3, h4, fun s hs hm => ?_⟩
  obtain ⟨h6, h7, h8, h9⟩ := h5 s hs hm
  refine ⟨h6, h7, fun l hlk hor => h8 l hlk (hor.imp id fun hf => ?_), h9⟩
  refine alike_feeds (vals := vals) (fun c j hc => ?_) hf
  have hcl : c < P.length := by rw [← hlen]; exact (List.getElem?_eq_some_iff.mp hc).1
  obtain ⟨j', hj', hor⟩ := hget c P[c] (List.getElem?_eq_getElem hcl)
  rw [hc] at hj'
  obtain rfl := Option.some.inj hj'
  refine ⟨_, List.getElem?_eq_getElem hcl, ?_⟩
  rcases hor with h | ⟨f, g, args, e1, e2, hs⟩
  · exact Or.inl h.symm
  · exact Or.inr ⟨g, f, args, e2, e1, hs.1.symm, fun gy => (hs.2 gy).symm⟩

/-- The same for recorded code. -/
theorem Trains.twin {k j : Nat} {c c' : B Nat} {loss : (Nat → Dense ℝ) → Option (Dense ℝ)}
    (h : Trains k (program k j c) (result k j c) loss θ) (ht : Twin θ ((start k j θ).map Prod.fst) c c') :
    Trains k (program k j c') (result k j c') loss θ := by
  have hr : (run θ (program k j c) []).isSome := by
    obtain ⟨vals, -, -, hrun, -⟩ := h
    rw [hrun]; rfl
  rw [run_program] at hr
  rw [Twin, List.length_map, start_length] at ht
  obtain ⟨h1, h2⟩ := ht hr
  have hres : result k j c = result k j c' := h1
  rw [← hres]
  refine h.alike ?_
  unfold program
  refine alike_append (alike_refl _ _) fun vals hv => alike_append (alike_refl _ _) fun vals' hv' => ?_
  rw [run_leaves] at hv
  obtain rfl := Option.some.inj hv
  rw [run_leaves] at hv'
  obtain rfl := Option.some.inj hv'
  refine (congrArg (Alike θ _ _) ?_).mp h2
  simp [start, Function.comp_def]

end Verif.Record
