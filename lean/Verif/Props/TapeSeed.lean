import Verif.Props.Tape

set_option autoImplicit false
set_option linter.unusedSimpArgs false

/-!
# C76: programs with several results of any sizes, with gradients given by the caller

`Backward(ys...)` of results `ys` that hold gradients `G` (given with `AccGrad`), or that have one element and hold
none: what is added to the gradients of the leaves is the derivative of `Σ G · y`.
-/

namespace Verif.Tape
open GradFn Backward Dense
open scoped BigOperators Topology

/-- Element `i` of tensor `y` as a function of the trainable leaves; 0 if the program fails. -/
noncomputable def outputAt (P : List Instr) (vals : List (Dense ℝ)) (y i : Nat) (τ : Nat → Dense ℝ) : ℝ :=
  match run (leafVals P vals τ) (P.map held) [] with
  | some ys => (ys.getD y ⟨0, 0, []⟩).val i
  | none => 0

/-- The weight of element `i` of a result: its gradient, if it holds one, and else 1. -/
def weightAt (g : Option (Nat → ℝ)) (i : Nat) : ℝ :=
  match g with
  | some g => g i
  | none => 1

/-- The weighted sum of the elements of the results `ys`. -/
noncomputable def weighted (P : List Instr) (vals : List (Dense ℝ)) (ys : List (Fin P.length))
    (grad : Fin P.length → Option (Nat → ℝ)) (τ : Nat → Dense ℝ) : ℝ :=
  (ys.map fun y : Fin P.length => ∑ i ∈ Finset.range (vals.getD y.val ⟨0, 0, []⟩).data.length,
    weightAt (grad y) i * outputAt P vals y i τ).sum

variable {θ : Nat → Dense ℝ} {P : List Instr} {vals : List (Dense ℝ)}

theorem outputAt_of_ran {y i : Nat} {ys : List (Dense ℝ)} {τ : Nat → Dense ℝ}
    (h : Ran (leafVals P vals τ) (P.map held) ys) : outputAt P vals y i τ = (ys.getD y ⟨0, 0, []⟩).val i := by
  have := ran_iff.mpr h
  simp only [outputAt, this]

/-- **C76.** A program of operators of the list `Safe`, run on any leaves, which may hold gradients from before; any
different results of any sizes, of which those with more than one element hold gradients, while no other operator does.
After `Backward` of these results has returned, and however the trainable leaves move, the weighted sum of the results
moves with the leaves' velocities weighted with what is added to their gradients. -/
theorem program_results_gradient (hrun : run θ P [] = some vals) (hd : DataWF P vals) (hs : AllSafe P vals)
    {ys : List (Fin P.length)} (hnd : ys.Nodup)
    (hop : ∀ y ∈ ys, ∃ f as, P[y.val]? = some (.call f as) ∧ (needs P []).getD y.val false = true)
    {s₀ s : St P.length (Nat → ℝ)} (hcl : Clean (graph P) s₀)
    (hg0 : ∀ x, (graph P).isOp x = true → x ∉ ys → s₀.grad x = none)
    (hr : Reach (graph P) (progFns (graph P) (fns P) (valOf vals)) ys s₀ s) (hm : s.main = .returned)
    {Θ : ℝ → Nat → Dense ℝ} {v : Nat → Nat → ℝ}
    (hΘ : ∀ i, P[i]? = some (.leaf true) → Curve (θ i) (fun t => Θ t i) (v i)) :
    (∀ᶠ t in 𝓝 0, (run (leafVals P vals (Θ t)) (P.map held) []).isSome) ∧
    HasDerivAt (fun t => weighted P vals ys s₀.grad (Θ t))
      (∑ x : Fin P.length, if trainable P x then
        ∑ i ∈ Finset.range (θ x).data.length, (gnum (s.grad x) i - gnum (s₀.grad x) i) * v x i else 0) 0 := by
  classical
  have hR := ran_iff.mp hrun
  have hnode : ∀ x : Fin P.length, (graph P).node x = .leaf true ↔ P[x.val]? = some (.leaf true) := by
    intro x
    refine ⟨fun h => ?_, node_leaf⟩
    cases e : P[x] with
    | leaf b =>
      have hx := (get_fin x).trans (congrArg some e)
      rw [node_leaf hx] at h
      rw [hx]; cases h; rfl
    | const w =>
      have hx := (get_fin x).trans (congrArg some e)
      rw [node_const hx] at h; cases h
    | stop j =>
      have hx := (get_fin x).trans (congrArg some e)
      rw [node_stop hx ((hR.stop _ _ hx).1.trans x.isLt)] at h; cases h
    | call f as =>
      rw [node_call ((get_fin x).trans (congrArg some e))] at h; cases h
  have hac := acyclic hR
  obtain ⟨W, h1, h2⟩ := library_gradients_are_derivatives hac (all_wf hR hd hs) (evaluates hR)
    (opsCorrect hR hd hs) hcl hr hm (Θ := fun x t => Θ t x.val) (v := fun x => v x.val)
    (by
      intro x hx
      have hx := (hnode x).mp hx
      have := hΘ x.val hx
      rw [← hR.leaf _ _ hx] at this
      exact this)
  have h2 := h2 (Finset.univ.filter fun x => Reached (graph P) ys x) (by simp)
    (Finset.univ.filter fun x => (graph P).node x = .leaf true) (by simp)
  have hran : ∀ᶠ t in 𝓝 (0 : ℝ), Ran (leafVals P vals (Θ t)) (P.map held) (List.ofFn fun x => W x t) := by
    filter_upwards [h1.eval] with t ht
    exact ran_of_moves hR h1 (fun _ _ => rfl) ht
  have hok : ¬ ∃ x ∈ ys, (graph P).isOp x = true ∧ s₀.grad x = none ∧
      (progFns (graph P) (fns P) (valOf vals)).seed x = none := by
    intro h
    have := (backward_outcome hac (progFns_atMost ys) hcl hr (Or.inl hm)).mpr h
    rw [hm] at this
    cases this
  have hisop : ∀ y ∈ ys, (graph P).isOp y = true := by
    intro y hy
    obtain ⟨f, as, h, -⟩ := hop y hy
    simp [Graph.isOp, node_call h]
  -- the seeded gradients are the weights
  have hw : ∀ y ∈ ys, ∀ i ∈ Finset.range (valOf vals y).data.length,
      gnum (seeded (graph P) (progFns (graph P) (fns P) (valOf vals)) ys s₀.grad y) i = weightAt (s₀.grad y) i := by
    intro y hy i hi
    cases hg : s₀.grad y with
    | some g => simp [seeded, hg, gnum, weightAt]
    | none =>
      have hl : (valOf vals y).data.length = 1 := by
        by_contra hl
        exact hok ⟨y, hy, hisop y hy, hg, by simp [progFns, hl]⟩
      rw [hl] at hi
      have hi : i = 0 := by simpa using hi
      subst hi
      simp [seeded, hg, gnum, weightAt, hy, hisop y hy, progFns, hl]
  have h0 : ∀ x, Reached (graph P) ys x → x ∉ ys →
      ∀ i, gnum (seeded (graph P) (progFns (graph P) (fns P) (valOf vals)) ys s₀.grad x) i = 0 := by
    intro x hx hn i
    simp [seeded, hn, hg0 x hx.isOp hn, gnum]
  have hsum : ∀ t, (∑ x ∈ Finset.univ.filter fun x => Reached (graph P) ys x,
      ∑ i ∈ Finset.range (valOf vals x).data.length,
        gnum (seeded (graph P) (progFns (graph P) (fns P) (valOf vals)) ys s₀.grad x) i * (W x t).val i) =
      (ys.map fun y => ∑ i ∈ Finset.range (valOf vals y).data.length, weightAt (s₀.grad y) i * (W y t).val i).sum := by
    intro t
    rw [← List.sum_toFinset _ hnd, ← Finset.sum_subset (s₁ := ys.toFinset)]
    · refine Finset.sum_congr rfl fun y hy => Finset.sum_congr rfl fun i hi => ?_
      rw [hw y (List.mem_toFinset.mp hy) i hi]
    · intro y hy
      have hy := List.mem_toFinset.mp hy
      obtain ⟨f, as, h, hn⟩ := hop y hy
      exact Finset.mem_filter.mpr ⟨Finset.mem_univ _, .out hy (hisop y hy) (by rw [requiresGrad_needs hR]; exact hn)⟩
    · intro x hx hn
      have hx := (Finset.mem_filter.mp hx).2
      refine Finset.sum_eq_zero fun i _ => ?_
      rw [h0 x hx (fun h => hn (List.mem_toFinset.mpr h)), zero_mul]
  simp only [hsum] at h2
  refine ⟨?_, ?_⟩
  · filter_upwards [hran] with t ht
    rw [ran_iff.mpr ht]; rfl
  · refine HasDerivAt.congr_of_eventuallyEq (h2.congr_deriv ?_) ?_
    · rw [Finset.sum_filter]
      refine Finset.sum_congr rfl fun x _ => ?_
      by_cases hx : P[x.val]? = some (.leaf true)
      · rw [if_pos ((hnode x).mpr hx), if_pos (trainable_iff.mpr hx)]
        rw [show valOf vals x = θ x from hR.leaf _ _ hx]
      · rw [if_neg (fun h => hx ((hnode x).mp h)), if_neg]
        exact fun e => hx (trainable_iff.mp e)
    · filter_upwards [hran] with t ht
      unfold weighted
      congr 1
      refine List.map_congr_left fun y _ => Finset.sum_congr rfl fun i _ => ?_
      rw [outputAt_of_ran ht, getD_eq (by rw [List.getElem?_ofFn, dif_pos y.isLt])]

/-- **C76, partial derivatives.** What is added to element `i` of the gradient of the trainable leaf `l` is the partial
derivative of the weighted sum in that element. -/
theorem program_results_partial_derivative (hrun : run θ P [] = some vals) (hd : DataWF P vals) (hs : AllSafe P vals)
    {ys : List (Fin P.length)} (hnd : ys.Nodup)
    (hop : ∀ y ∈ ys, ∃ f as, P[y.val]? = some (.call f as) ∧ (needs P []).getD y.val false = true)
    {s₀ s : St P.length (Nat → ℝ)} (hcl : Clean (graph P) s₀)
    (hg0 : ∀ x, (graph P).isOp x = true → x ∉ ys → s₀.grad x = none)
    (hr : Reach (graph P) (progFns (graph P) (fns P) (valOf vals)) ys s₀ s) (hm : s.main = .returned)
    {l : Fin P.length} (hl : trainable P l = true) {i : Nat} (hi : i < (θ l).data.length) :
    HasDerivAt (fun t => weighted P vals ys s₀.grad fun x => if x = l.val then bump (θ x) i t else θ x)
      (gnum (s.grad l) i - gnum (s₀.grad l) i) 0 := by
  have hw : ∀ x, P[x]? = some (.leaf true) → (θ x).WF := fun x hx => by
    have := hd.leaf x _ hx
    rwa [(ran_iff.mp hrun).leaf _ _ hx] at this
  have h := (program_results_gradient hrun hd hs hnd hop hcl hg0 hr hm
    (Θ := fun t x => if x = l.val then bump (θ x) i t else θ x)
    (v := fun x j => if x = l.val then (if j = i then 1 else 0) else 0) (by
      intro x hx
      by_cases e : x = l.val
      · simp only [if_pos e]; exact bump_curve (hw x hx) i
      · simp only [if_neg e]; exact const_curve (hw x hx))).2
  refine h.congr_deriv ?_
  rw [Finset.sum_eq_single l]
  · rw [if_pos hl]; simp [hi]
  · intro x _ hx
    have : x.val ≠ l.val := fun e => hx (Fin.ext e)
    simp [this]
  · intro h; exact absurd (Finset.mem_univ l) h

/-- **C76, failure.** `Backward` of such a program ends with an error if and only if one of the results without a
gradient does not have exactly one element; then no backward function has run. -/
theorem program_results_outcome (hrun : run θ P [] = some vals) {ys : List (Fin P.length)}
    {s₀ s : St P.length (Nat → ℝ)} (hcl : Clean (graph P) s₀)
    (hr : Reach (graph P) (progFns (graph P) (fns P) (valOf vals)) ys s₀ s)
    (hm : s.main = .returned ∨ s.main = .failed) :
    s.main = .failed ↔ ∃ y ∈ ys, (graph P).isOp y = true ∧ s₀.grad y = none ∧
      (vals.getD y ⟨0, 0, []⟩).data.length ≠ 1 := by
  rw [backward_outcome (acyclic (ran_iff.mp hrun)) (progFns_atMost ys) hcl hr hm]
  simp [progFns, valOf]

end Verif.Tape
