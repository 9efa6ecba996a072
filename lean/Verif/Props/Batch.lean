import Verif.Model.Batch
import Verif.Props.Record

set_option autoImplicit false
set_option linter.unusedSimpArgs false

/-!
# Gradients of several samples add up
-/

namespace Verif.Record
open GradFn Backward Tape
open scoped BigOperators Topology

variable {k : Nat} {w : Nat → Dense ℝ} {es : List Sample} {γ γ' : Nat → Option (Nat → ℝ)}
  {loss : Sample → (Nat → Dense ℝ) → Option (Dense ℝ)}

/-- The loss of a sample as a function of the parameters. -/
noncomputable def lossOf (k : Nat) (loss : Sample → (Nat → Dense ℝ) → Option (Dense ℝ)) (e : Sample) (τ : Nat → Dense ℝ) :
    Option (Dense ℝ) := loss e (withParams k τ e.data)

/-- Every sample is computed by its program and trains the parameters. -/
def AllTrain (k : Nat) (loss : Sample → (Nat → Dense ℝ) → Option (Dense ℝ)) (w : Nat → Dense ℝ) (es : List Sample) : Prop :=
  ∀ e ∈ es, Trains k (e.program k) (e.result k) (loss e) (withParams k w e.data)

theorem withParams_twice (k : Nat) (τ w θ : Nat → Dense ℝ) : withParams k τ (withParams k w θ) = withParams k τ θ := by
  funext x
  unfold withParams
  split <;> rfl

theorem withParams_lt {x : Nat} (h : x < k) (τ θ : Nat → Dense ℝ) : withParams k τ θ x = τ x := if_pos h

/-- No back-propagation is under way and the parameters hold the gradients `γ`. -/
def fresh (n k : Nat) (γ : Nat → Option (Nat → ℝ)) : St n (Nat → ℝ) :=
  ⟨fun x => if x.val < k then γ x else none, fun _ => .idle, fun _ => 0, fun _ => .closed, fun _ => .none, 0, .returned, false, []⟩

theorem fresh_clean {n : Nat} (G : Graph n) (k : Nat) (γ : Nat → Option (Nat → ℝ)) : Clean G (fresh n k γ) :=
  ⟨fun _ => rfl, fun _ => rfl, fun _ _ => rfl, rfl⟩

/-- **C70, progress.** The loop over the samples comes to an end. -/
theorem learn_ends (h : AllTrain k loss w es) (γ : Nat → Option (Nat → ℝ)) : ∃ γ', Learn k w es γ γ' := by
  induction es generalizing γ with
  | nil => exact ⟨γ, .nil⟩
  | cons e es ih =>
    obtain ⟨vals, L, hlt, hrun, -, -, hall⟩ := h e (by simp)
    have hcl := fresh_clean (graph (e.program k)) k γ
    obtain ⟨hret, hnf, -⟩ := hall _ hcl (fun x hx => if_neg (Nat.not_lt.mpr hx))
    obtain ⟨s, hs, hstuck⟩ := exists_final (acyclic (ran_iff.mp hrun)) (progFns_atMost [⟨e.result k, hlt⟩]) (hcl.start _) .init
    have hm : s.main = .returned := (hret.done s hs hstuck).resolve_right (hnf s hs)
    obtain ⟨γ', hγ⟩ := ih (fun e he => h e (by simp [he])) (gradOf s)
    exact ⟨γ', .cons hlt hrun hcl (fun _ => rfl) hs hm hγ⟩

theorem program_length (e : Sample) (k : Nat) : k ≤ (e.program k).length := by
  simp [Sample.program, program]

/-- **C70.** However the parameters move, the sum of the losses of all samples moves with the velocities weighted with
what the loop has added to the gradients. -/
theorem batch_gradient (h : AllTrain k loss w es) (hl : Learn k w es γ γ') (Θ : Nat → ℝ → Dense ℝ) (v : Nat → Nat → ℝ)
    (hΘ : ∀ l < k, Curve (w l) (Θ l) (v l)) :
    (∀ᶠ t in 𝓝 0, ∀ e ∈ es, (lossOf k loss e (Θ · t)).isSome) ∧
    HasDerivAt (fun t => (es.map fun e => number (lossOf k loss e (Θ · t))).sum)
      (∑ l ∈ Finset.range k, ∑ i ∈ Finset.range (w l).data.length, (gnum (γ' l) i - gnum (γ l) i) * v l i) 0 := by
  induction hl with
  | nil => simpa using hasDerivAt_const (0 : ℝ) (0 : ℝ)
  | @cons e es γ γ' vals s₀ s hlt hrun hcl hg0 hr hm _ ih =>
    obtain ⟨ih1, ih2⟩ := ih fun e he => h e (by simp [he])
    obtain ⟨vals', L, hlt', hrun', -, -, hall⟩ := h e (by simp)
    rw [hrun] at hrun'
    obtain rfl := Option.some.inj hrun'
    obtain ⟨-, -, hall⟩ := hall s₀ hcl (fun x hx => by rw [hg0, if_neg (Nat.not_lt.mpr hx)])
    obtain ⟨h1, h2⟩ := (hall s hr hm).1 Θ v (fun l hlk => by rw [withParams_lt hlk]; exact hΘ l hlk)
    simp only [withParams_twice] at h1 h2
    constructor
    · filter_upwards [ih1, h1] with t a b e' he'
      rcases List.mem_cons.mp he' with rfl | he'
      · exact b
      · exact a e' he'
    · simp only [List.map_cons, List.sum_cons]
      refine (h2.add ih2).congr_deriv ?_
      rw [← Finset.sum_add_distrib]
      refine Finset.sum_congr rfl fun l hlk => ?_
      have hlk := Finset.mem_range.mp hlk
      rw [withParams_lt hlk, ← Finset.sum_add_distrib]
      refine Finset.sum_congr rfl fun i _ => ?_
      have e0 : gradOf s₀ l = γ l := by
        have hx : l < (e.program k).length := lt_of_lt_of_le hlk (program_length e k)
        simp only [gradOf, dif_pos hx, hg0, if_pos hlk]
      rw [e0]; ring

/-- Parameters that have a gradient keep one. -/
theorem learn_keeps (h : AllTrain k loss w es) (hl : Learn k w es γ γ') {l : Nat} (hlk : l < k) :
    (γ l ≠ none ∨ ∃ e ∈ es, Feeds (e.program k) (e.result k) l) → γ' l ≠ none := by
  induction hl with
  | nil => simp
  | @cons e es γ γ' vals s₀ s hlt hrun hcl hg0 hr hm _ ih =>
    intro hor
    apply ih fun e he => h e (by simp [he])
    obtain ⟨vals', L, hlt', hrun', -, -, hall⟩ := h e (by simp)
    rw [hrun] at hrun'
    obtain rfl := Option.some.inj hrun'
    obtain ⟨-, -, hall⟩ := hall s₀ hcl (fun x hx => by rw [hg0, if_neg (Nat.not_lt.mpr hx)])
    have hx : l < (e.program k).length := lt_of_lt_of_le hlk (program_length e k)
    have hkeep := (hall s hr hm).2.2.1 ⟨l, hx⟩ hlk
    simp only [gradOf, dif_pos hx]
    rcases hor with hor | ⟨e', he', hf⟩
    · exact .inl (hkeep (.inl (by rw [hg0, if_pos hlk]; exact hor)))
    · rcases List.mem_cons.mp he' with rfl | he'
      · exact .inl (hkeep (.inr hf))
      · exact .inr ⟨e', he', hf⟩

/-- **C70, partial derivatives.** What the loop adds to element `i` of the gradient of parameter `l` is the partial
derivative of the sum of the losses. -/
theorem batch_partial_derivative (hw : ∀ l < k, (w l).WF) (h : AllTrain k loss w es) (hl : Learn k w es γ γ') {l i : Nat}
    (hlk : l < k) (hi : i < (w l).data.length) :
    HasDerivAt (fun t => (es.map fun e => number (lossOf k loss e (moved w l i t))).sum)
      (gnum (γ' l) i - gnum (γ l) i) 0 := by
  obtain ⟨-, h2⟩ := batch_gradient h hl (fun x t => moved w l i t x)
    (fun x j => if x = l then (if j = i then 1 else 0) else 0) (by
      intro x hx
      unfold moved
      by_cases e : x = l
      · simp only [if_pos e]; exact bump_curve (hw x hx) i
      · simp only [if_neg e]; exact const_curve (hw x hx))
  refine h2.congr_deriv ?_
  rw [Finset.sum_eq_single l]
  · simp [hi]
  · intro x _ hx; simp [hx]
  · intro h; exact absurd (Finset.mem_range.mpr hlk) h

/-- **C70, descent.** If the gradients of the loop, begun without gradients, are not all zero, then with every small
enough learning rate one step of SGD makes the sum of the losses smaller. -/
theorem batch_descends (hw : ∀ l < k, (w l).WF) (h : AllTrain k loss w es) (hl : Learn k w es (fun _ => none) γ')
    (hne : ∃ l < k, ∃ i < (w l).data.length, gnum (γ' l) i ≠ 0) :
    ∃ ε > 0, ∀ α, 0 < α → α < ε → ∀ τ : Nat → Dense ℝ, (∀ x < k, SgdStep α (w x) (γ' x) (τ x)) →
      (∀ e ∈ es, (lossOf k loss e τ).isSome) ∧
      (es.map fun e => number (lossOf k loss e τ)).sum < (es.map fun e => number (lossOf k loss e w)).sum := by
  obtain ⟨l, hlk, i, hi, hne⟩ := hne
  obtain ⟨h1, h2⟩ := batch_gradient h hl (fun x t => descend (w x) (γ' x) t) (fun x j => -gnum (γ' x) j)
    (fun x hx => descend_curve (hw x hx) _)
  obtain ⟨F, hF⟩ : ∃ F : ℝ → ℝ, F = fun t => (es.map fun e => number (lossOf k loss e fun x => descend (w x) (γ' x) t)).sum :=
    ⟨_, rfl⟩
  have hcongr : ∀ e τ τ', (∀ x < k, τ x = τ' x) → lossOf k loss e τ = lossOf k loss e τ' := by
    intro e τ τ' hx
    unfold lossOf
    congr 1
    funext x
    unfold withParams
    split
    · rename_i hlt; exact hx x hlt
    · rfl
  have hF0 : F 0 = (es.map fun e => number (lossOf k loss e w)).sum := by
    rw [hF]
    refine congrArg List.sum (List.map_congr_left fun e _ => ?_)
    rw [hcongr e _ w fun x hx => (descend_curve (hw x hx) _).start]
  have hneg : (∑ l ∈ Finset.range k, ∑ i ∈ Finset.range (w l).data.length,
      (gnum (γ' l) i - gnum (none : Option (Nat → ℝ)) i) * -gnum (γ' l) i) < 0 := by
    have ht : ∀ x j, (gnum (γ' x) j - gnum (none : Option (Nat → ℝ)) j) * -gnum (γ' x) j ≤ 0 := by
      intro x j
      have : gnum (none : Option (Nat → ℝ)) j = 0 := rfl
      rw [this]; nlinarith [mul_self_nonneg (gnum (γ' x) j)]
    refine Finset.sum_neg' (fun x _ => Finset.sum_nonpos fun j _ => ht x j) ⟨l, Finset.mem_range.mpr hlk, ?_⟩
    refine Finset.sum_neg' (fun j _ => ht l j) ⟨i, Finset.mem_range.mpr hi, ?_⟩
    have : gnum (none : Option (Nat → ℝ)) i = 0 := rfl
    rw [this]; nlinarith [mul_self_pos.mpr hne]
  have hslope := h2.tendsto_slope_zero_right
  have hev : ∀ᶠ t in 𝓝[>] (0 : ℝ), F t < F 0 := by
    filter_upwards [hslope.eventually (gt_mem_nhds hneg), self_mem_nhdsWithin] with t ht h0
    have h0 : 0 < t := h0
    simp only [zero_add, smul_eq_mul] at ht
    have := mul_neg_of_pos_of_neg h0 ht
    rw [mul_inv_cancel_left₀ h0.ne'] at this
    rw [hF]
    exact sub_neg.mp this
  have hboth := hev.and (h1.filter_mono nhdsWithin_le_nhds)
  rw [eventually_nhdsWithin_iff, Metric.eventually_nhds_iff] at hboth
  obtain ⟨ε, hε, hb⟩ := hboth
  refine ⟨ε, hε, fun α h0 hα τ hτ => ?_⟩
  obtain ⟨a, b⟩ := hb (y := α) (by simpa [abs_of_pos h0] using hα) h0
  have hτ' : ∀ x < k, τ x = descend (w x) (γ' x) α := fun x hx => sgdStep_iff.mp (hτ x hx)
  constructor
  · intro e he
    rw [hcongr e τ _ hτ']; exact b e he
  · rw [← hF0]
    have : (es.map fun e => number (lossOf k loss e τ)).sum = F α := by
      rw [hF]
      exact congrArg List.sum (List.map_congr_left fun e _ => by rw [hcongr e τ _ hτ'])
    rw [this]; exact a

end Verif.Record
