import Verif.Props.Batch

set_option autoImplicit false
set_option linter.unusedSimpArgs false

/-!
# Gradients of several samples add up, for samples with losses of their own

As Props/Batch.lean, but the loss of a sample may depend on more than its program and its inputs: `E` is the
type of examples, and `smp` gives the sample of an example.
-/

namespace Verif.Record
open GradFn Backward Tape
open scoped BigOperators Topology

variable {E : Type} {smp : E → Sample} {k : Nat} {w : Nat → Dense ℝ} {es : List E} {γ γ' : Nat → Option (Nat → ℝ)}
  {loss : E → (Nat → Dense ℝ) → Option (Dense ℝ)}

/-- Every example is computed by the program of its sample and trains the parameters. -/
def AllTrains (smp : E → Sample) (k : Nat) (loss : E → (Nat → Dense ℝ) → Option (Dense ℝ)) (w : Nat → Dense ℝ)
    (es : List E) : Prop :=
  ∀ e ∈ es, Trains k ((smp e).program k) ((smp e).result k) (loss e) (withParams k w (smp e).data)

/-- The loop over the samples comes to an end. -/
theorem learn_ends_of (h : AllTrains smp k loss w es) (γ : Nat → Option (Nat → ℝ)) : ∃ γ', Learn k w (es.map smp) γ γ' := by
  induction es generalizing γ with
  | nil => exact ⟨γ, .nil⟩
  | cons e es ih =>
    obtain ⟨vals, L, hlt, hrun, -, -, hall⟩ := h e (by simp)
    have hcl := fresh_clean (graph ((smp e).program k)) k γ
    obtain ⟨hret, hnf, -⟩ := hall _ hcl (fun x hx => if_neg (Nat.not_lt.mpr hx))
    obtain ⟨s, hs, hstuck⟩ := exists_final (acyclic (ran_iff.mp hrun)) (progFns_atMost [⟨(smp e).result k, hlt⟩]) (hcl.start _)
      .init
    have hm : s.main = .returned := (hret.done s hs hstuck).resolve_right (hnf s hs)
    obtain ⟨γ', hγ⟩ := ih (fun e he => h e (by simp [he])) (gradOf s)
    exact ⟨γ', .cons hlt hrun hcl (fun _ => rfl) hs hm hγ⟩

/-- However the parameters move, the sum of the losses moves with the velocities weighted with what the loop has added to
the gradients. -/
theorem batch_gradient_of (h : AllTrains smp k loss w es) (hl : Learn k w (es.map smp) γ γ') (Θ : Nat → ℝ → Dense ℝ)
    (v : Nat → Nat → ℝ) (hΘ : ∀ l < k, Curve (w l) (Θ l) (v l)) :
    (∀ᶠ t in 𝓝 0, ∀ e ∈ es, (loss e (withParams k (Θ · t) (smp e).data)).isSome) ∧
    HasDerivAt (fun t => (es.map fun e => number (loss e (withParams k (Θ · t) (smp e).data))).sum)
      (∑ l ∈ Finset.range k, ∑ i ∈ Finset.range (w l).data.length, (gnum (γ' l) i - gnum (γ l) i) * v l i) 0 := by
  induction es generalizing γ with
  | nil =>
    cases hl
    simpa using hasDerivAt_const (0 : ℝ) (0 : ℝ)
  | cons e es ih =>
    rw [List.map_cons] at hl
    cases hl with
    | @cons _ _ _ _ vals s₀ s hlt hrun hcl hg0 hr hm hl =>
    obtain ⟨ih1, ih2⟩ := ih (fun e he => h e (by simp [he])) hl
    obtain ⟨vals', L, hlt', hrun', -, -, hall⟩ := h e (by simp)
    rw [hrun] at hrun'
    obtain rfl := Option.some.inj hrun'
    obtain ⟨-, -, hall⟩ := hall s₀ hcl (fun x hx => by rw [hg0, if_neg (Nat.not_lt.mpr hx)])
    obtain ⟨h1, h2⟩ := (hall s hr hm).1 Θ v (fun l hlk => by rw [withParams_lt hlk]; exact hΘ l hlk)
    simp only [withParams_twice] at h1 h2
    constructor
    · filter_upwards [ih1, h1] with t a b e' he'
      rcases List.mem_cons.mp he' with rfl | he'
      · exact b
      · exact a e' he'
    · simp only [List.map_cons, List.sum_cons]
      refine (h2.add ih2).congr_deriv ?_
      rw [← Finset.sum_add_distrib]
      refine Finset.sum_congr rfl fun l hlk => ?_
      have hlk := Finset.mem_range.mp hlk
      rw [withParams_lt hlk, ← Finset.sum_add_distrib]
      refine Finset.sum_congr rfl fun i _ => ?_
      have e0 : gradOf s₀ l = γ l := by
        have hx : l < ((smp e).program k).length := lt_of_lt_of_le hlk (program_length (smp e) k)
        simp only [gradOf, dif_pos hx, hg0, if_pos hlk]
      rw [e0]; ring

/-- What the loop adds to element `i` of the gradient of parameter `l` is the partial derivative of the sum of the
losses. -/
theorem batch_partial_derivative_of (hw : ∀ l < k, (w l).WF) (h : AllTrains smp k loss w es)
    (hl : Learn k w (es.map smp) γ γ') {l i : Nat} (hlk : l < k) (hi : i < (w l).data.length) :
    HasDerivAt (fun t => (es.map fun e => number (loss e (withParams k (moved w l i t) (smp e).data))).sum)
      (gnum (γ' l) i - gnum (γ l) i) 0 := by
  obtain ⟨-, h2⟩ := batch_gradient_of h hl (fun x t => moved w l i t x)
    (fun x j => if x = l then (if j = i then 1 else 0) else 0) (by
      intro x hx
      unfold moved
      by_cases e : x = l
      · simp only [if_pos e]; exact bump_curve (hw x hx) i
      · simp only [if_neg e]; exact const_curve (hw x hx))
  refine h2.congr_deriv ?_
  rw [Finset.sum_eq_single l]
  · simp [hi]
  · intro x _ hx; simp [hx]
  · intro h; exact absurd (Finset.mem_range.mpr hlk) h

/-- If the gradients of the loop, begun without gradients, are not all zero, then with every small enough learning rate
one step of SGD makes the sum of the losses smaller. -/
theorem batch_descends_of (hw : ∀ l < k, (w l).WF) (h : AllTrains smp k loss w es)
    (hl : Learn k w (es.map smp) (fun _ => none) γ') (hne : ∃ l < k, ∃ i < (w l).data.length, gnum (γ' l) i ≠ 0) :
    ∃ ε > 0, ∀ α, 0 < α → α < ε → ∀ τ : Nat → Dense ℝ, (∀ x < k, SgdStep α (w x) (γ' x) (τ x)) →
      (es.map fun e => number (loss e (withParams k τ (smp e).data))).sum <
        (es.map fun e => number (loss e (withParams k w (smp e).data))).sum := by
  obtain ⟨l, hlk, i, hi, hne⟩ := hne
  obtain ⟨-, h2⟩ := batch_gradient_of h hl (fun x t => descend (w x) (γ' x) t) (fun x j => -gnum (γ' x) j)
    (fun x hx => descend_curve (hw x hx) _)
  obtain ⟨F, hF⟩ : ∃ F : ℝ → ℝ, F = fun t => (es.map fun e =>
      number (loss e (withParams k (fun x => descend (w x) (γ' x) t) (smp e).data))).sum := ⟨_, rfl⟩
  have hcongr : ∀ (e : E) (τ τ' : Nat → Dense ℝ), (∀ x < k, τ x = τ' x) →
      withParams k τ (smp e).data = withParams k τ' (smp e).data := by
    intro e τ τ' hx
    funext x
    unfold withParams
    split
    · rename_i hlt; exact hx x hlt
    · rfl
  have hF0 : F 0 = (es.map fun e => number (loss e (withParams k w (smp e).data))).sum := by
    rw [hF]
    refine congrArg List.sum (List.map_congr_left fun e _ => ?_)
    rw [hcongr e _ w fun x hx => (descend_curve (hw x hx) _).start]
  have hneg : (∑ l ∈ Finset.range k, ∑ i ∈ Finset.range (w l).data.length,
      (gnum (γ' l) i - gnum (none : Option (Nat → ℝ)) i) * -gnum (γ' l) i) < 0 := by
    have ht : ∀ x j, (gnum (γ' x) j - gnum (none : Option (Nat → ℝ)) j) * -gnum (γ' x) j ≤ 0 := by
      intro x j
      have : gnum (none : Option (Nat → ℝ)) j = 0 := rfl
      rw [this]; nlinarith [mul_self_nonneg (gnum (γ' x) j)]
    refine Finset.sum_neg' (fun x _ => Finset.sum_nonpos fun j _ => ht x j) ⟨l, Finset.mem_range.mpr hlk, ?_⟩
    refine Finset.sum_neg' (fun j _ => ht l j) ⟨i, Finset.mem_range.mpr hi, ?_⟩
    have : gnum (none : Option (Nat → ℝ)) i = 0 := rfl
    rw [this]; nlinarith [mul_self_pos.mpr hne]
  have hslope := h2.tendsto_slope_zero_right
  have hev : ∀ᶠ t in 𝓝[>] (0 : ℝ), F t < F 0 := by
    filter_upwards [hslope.eventually (gt_mem_nhds hneg), self_mem_nhdsWithin] with t ht h0
    have h0 : 0 < t := h0
    simp only [zero_add, smul_eq_mul] at ht
    have := mul_neg_of_pos_of_neg h0 ht
    rw [mul_inv_cancel_left₀ h0.ne'] at this
    rw [hF]
    exact sub_neg.mp this
  rw [eventually_nhdsWithin_iff, Metric.eventually_nhds_iff] at hev
  obtain ⟨ε, hε, hb⟩ := hev
  refine ⟨ε, hε, fun α h0 hα τ hτ => ?_⟩
  have a := hb (y := α) (by simpa [abs_of_pos h0] using hα) h0
  have hτ' : ∀ x < k, τ x = descend (w x) (γ' x) α := fun x hx => sgdStep_iff.mp (hτ x hx)
  rw [← hF0]
  have : (es.map fun e => number (loss e (withParams k τ (smp e).data))).sum = F α := by
    rw [hF]
    exact congrArg List.sum (List.map_congr_left fun e _ => by rw [hcongr e τ _ hτ'])
  rw [this]; exact a

end Verif.Record
