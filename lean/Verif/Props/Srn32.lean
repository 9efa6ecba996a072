import Verif.Lemmas.Srn32Back

set_option autoImplicit false
set_option linter.unusedSimpArgs false

/-!
# C100: back-propagation through time of a simple recurrent network on the words of float32
-/

namespace Verif.Srn32
open Verif.F32 Verif.Asm Verif.Spec Verif.Spec.Kernels Verif.Net32 Verif.Rec32 Verif.Att32 Verif.Back32 Verif.Spec.Net32 Verif.Spec.Rec32
  Verif.Spec.Back32 Verif.Spec.Srn32 Verif.Spec.Train32

variable {n m : Nat} {M : Machine} {sl : Slopes} {g : Gate} {X E P H : ℝ} {es : List SStep}

theorem cells_sum {C B : Type} {R : C → B → Prop} {f : C → Option (List F32.W)} {F : B → ℝ} {i : Nat} {β : ℝ} :
    ∀ {cs : List C} {ds : List B}, List.Forall₂ R cs ds →
      (∀ c d, R c d → match f c with | none => F d = 0 | some q => |val (q.getD i 0) - F d| ≤ β) →
      |Train32.cellSum (cs.filterMap f) i - (ds.map F).sum| ≤ (cs.filterMap f).length * β
  | _, _, .nil, _ => by simp [Train32.cellSum]
  | _, _, .cons (a := c) (b := d) (l₁ := cs) (l₂ := ds) h t, hR => by
    have ih := cells_sum t hR
    have hc := hR c d h
    cases hf : f c with
    | none =>
      rw [hf] at hc
      have hc : F d = 0 := hc
      rw [List.filterMap_cons_none hf, List.map_cons, List.sum_cons, hc, zero_add]
      exact ih
    | some q =>
      rw [hf] at hc
      have hc : |val (q.getD i 0) - F d| ≤ β := hc
      rw [List.filterMap_cons_some hf, List.map_cons, List.sum_cons, List.length_cons]
      have e : Train32.cellSum (q :: cs.filterMap f) i = val (q.getD i 0) + Train32.cellSum (cs.filterMap f) i := by simp [Train32.cellSum]
      rw [e, Nat.cast_add, Nat.cast_one]
      have e' : val (q.getD i 0) + Train32.cellSum (cs.filterMap f) i - (F d + (ds.map F).sum) =
          (val (q.getD i 0) - F d) + (Train32.cellSum (cs.filterMap f) i - (ds.map F).sum) := by ring
      rw [e']
      exact (abs_add_le _ _).trans (by linarith)

theorem forall₂_left {α β : Type} {R : α → β → Prop} {l : List α} {l' : List β} (h : List.Forall₂ R l l') : ∀ a ∈ l, ∃ b, R a b := by
  induction h with
  | nil => simp
  | cons h _ ih =>
    intro a ha
    rcases List.mem_cons.mp ha with rfl | ha
    · exact ⟨_, h⟩
    · exact ih a ha

/-- A gradient from its contributions. -/
theorem sum_ok (cpu : Cpu) {C B : Type} {R : C → B → Prop} {f : C → Option (List F32.W)} {F : B → Nat → ℝ} {k T : Nat} {Y β : ℝ} (hY : 0 ≤ Y) (hβ : 0 ≤ β)
    {cs : List C} {ds : List B} (h : List.Forall₂ R cs ds) (hT : cs.length = T) (hT' : T ≤ 2 ^ 20) (ht : total T Y ≤ 2 ^ 120)
    (hR : ∀ c d, R c d → match f c with | none => ∀ i < k, F d i = 0 | some q => Train32.Upto k Y q ∧ ∀ i < k, |val (q.getD i 0) - F d i| ≤ β) :
    (∃ z, Gather cpu (cs.filterMap f) z) ∧ ∀ z, Gather cpu (cs.filterMap f) z → match z with
      | none => cs.filterMap f = [] ∧ ∀ i < k, (ds.map fun d => F d i).sum = 0
      | some q => q.length = k ∧ ∀ i < k, F32.Finite (q.getD i 0) ∧ |val (q.getD i 0) - (ds.map fun d => F d i).sum| ≤ sumOff T Y β := by
  have hL : (cs.filterMap f).length ≤ T := hT ▸ List.length_filterMap_le _ _
  have hLr : ((cs.filterMap f).length : ℝ) ≤ T := by exact_mod_cast hL
  have hL0 : (0 : ℝ) ≤ (cs.filterMap f).length := Nat.cast_nonneg _
  have hsq : ((cs.filterMap f).length : ℝ) * (cs.filterMap f).length * Y / 2 ^ 24 ≤ (T : ℝ) * T * Y / 2 ^ 24 :=
    div_le_div_of_nonneg_right (mul_le_mul_of_nonneg_right (mul_le_mul hLr hLr hL0 (hL0.trans hLr)) hY) (by positivity)
  have hup : ∀ q ∈ cs.filterMap f, Train32.Upto k Y q := by
    intro q hq
    obtain ⟨c, hc, hf⟩ := List.mem_filterMap.mp hq
    obtain ⟨d, hd⟩ := forall₂_left h c hc
    have := hR c d hd
    rw [hf] at this
    exact this.1
  have hcell : ∀ i < k, |Train32.cellSum (cs.filterMap f) i - (ds.map fun d => F d i).sum| ≤ (cs.filterMap f).length * β := by
    intro i hi
    refine cells_sum (F := fun d => F d i) h fun c d hcd => ?_
    have := hR c d hcd
    cases hf : f c with
    | none => rw [hf] at this; exact this i hi
    | some q => rw [hf] at this; exact this.2 i hi
  have htot : total (cs.filterMap f).length Y ≤ 2 ^ 120 := by
    refine le_trans ?_ ht
    unfold total
    have := mul_le_mul_of_nonneg_right hLr hY
    linarith
  have acc := fun (o : List (List F32.W)) (ho : o.Perm (cs.filterMap f)) => Train32.acc_ok (cpu := cpu) hY (l := o)
    (fun q hq => hup q (ho.subset hq)) (by rw [ho.length_eq]; omega) (by rw [ho.length_eq]; exact htot)
  refine ⟨?_, ?_⟩
  · obtain ⟨z, hz⟩ := (acc _ (List.Perm.refl _)).1
    exact ⟨z, _, List.Perm.refl _, hz⟩
  · rintro z ⟨o, ho, hz⟩
    have key := (acc o ho).2 z hz
    cases z with
    | none =>
      have key : o = [] := key
      subst key
      have he : cs.filterMap f = [] := by simpa using ho.symm
      refine ⟨he, fun i hi => ?_⟩
      have := hcell i hi
      rw [he] at this
      simpa [Train32.cellSum] using this
    | some q =>
      obtain ⟨k1, k2⟩ := key
      refine ⟨k1, fun i hi => ?_⟩
      obtain ⟨f1, f2, -⟩ := k2 i hi
      have ec : Train32.cellSum o i = Train32.cellSum (cs.filterMap f) i := (ho.map _).sum_eq
      rw [ec, ho.length_eq] at f2
      refine ⟨f1, ?_⟩
      have h1 := hcell i hi
      have h2 : ((cs.filterMap f).length : ℝ) * β ≤ T * β := mul_le_mul_of_nonneg_right hLr hβ
      have h3 := abs_sub_le (val (q.getD i 0)) (Train32.cellSum (cs.filterMap f) i) ((ds.map fun d => F d i).sum)
      unfold sumOff
      linarith

/-! ## The derivatives -/

theorem der_at {θ : Theta} (hgs : GoodSteps n m θ E P H (fun _ => 0) es) (c : ℝ → Theta) (c' : Theta) (h0 : c 0 = θ)
    (hw : ∀ i < n, ∀ k < m, HasDerivAt (fun t => (c t).w i k) (c'.w i k) 0) (hu : ∀ i < n, ∀ k < n, HasDerivAt (fun t => (c t).u i k) (c'.u i k) 0)
    (hb : ∀ i < n, HasDerivAt (fun t => (c t).b i) (c'.b i) 0) :
    HasDerivAt (fun t => lossOf n m (c t) (fun _ => 0) es) (((deltas n m θ (fun _ => 0) es).map fun d => ∑ i ∈ Finset.range n, d.δ i *
      (∑ k ∈ Finset.range m, c'.w i k * d.x k + c'.b i + ∑ k ∈ Finset.range n, c'.u i k * d.y k)).sum) 0 := by
  have := loss_der (E := E) (P := P) (H := H) c c' 0 hw hu hb es (fun _ _ => 0) (fun _ => 0) (by rw [h0]; exact hgs) (fun k _ => hasDerivAt_const _ _)
  rw [h0] at this
  simpa using this

theorem add_zero_if {p : Prop} [Decidable p] (x : ℝ) : (x + if p then (0 : ℝ) else 0) = x := by split <;> simp

theorem der_if {p : Prop} [Decidable p] (x s : ℝ) : HasDerivAt (fun t => x + if p then t else 0) (if p then 1 else 0) s := by
  by_cases h : p
  · simp only [h, if_true]; exact (hasDerivAt_id s).const_add x
  · simp only [h, if_false]; exact hasDerivAt_const s _

theorem der_w {θ : Theta} (hgs : GoodSteps n m θ E P H (fun _ => 0) es) {i j : Nat} (hi : i < n) (hj : j < m) :
    HasDerivAt (fun t => lossOf n m (θ.addW i j t) (fun _ => 0) es) ((deltas n m θ (fun _ => 0) es).map fun d => d.δ i * d.x j).sum 0 := by
  refine (der_at hgs (fun t => θ.addW i j t) ⟨fun r k => if r = i ∧ k = j then 1 else 0, fun _ _ => 0, fun _ => 0⟩
    (by simp [Theta.addW]) (fun r _ k _ => der_if _ _) (fun r _ k _ => hasDerivAt_const _ _) (fun r _ => hasDerivAt_const _ _)).congr_deriv ?_
  congr 1
  refine List.map_congr_left fun d _ => ?_
  have e : ∀ r ∈ Finset.range n, d.δ r * (∑ k ∈ Finset.range m, (if r = i ∧ k = j then (1 : ℝ) else 0) * d.x k + 0 + ∑ k ∈ Finset.range n, (0 : ℝ) * d.y k) =
      if r = i then d.δ i * d.x j else 0 := by
    intro r _
    by_cases h : r = i
    · subst h
      simp [Finset.sum_ite_eq', hj]
    · simp [h]
  rw [Finset.sum_congr rfl e, Finset.sum_ite_eq', if_pos (Finset.mem_range.mpr hi)]

theorem der_u {θ : Theta} (hgs : GoodSteps n m θ E P H (fun _ => 0) es) {i j : Nat} (hi : i < n) (hj : j < n) :
    HasDerivAt (fun t => lossOf n m (θ.addU i j t) (fun _ => 0) es) ((deltas n m θ (fun _ => 0) es).map fun d => d.δ i * d.y j).sum 0 := by
  refine (der_at hgs (fun t => θ.addU i j t) ⟨fun _ _ => 0, fun r k => if r = i ∧ k = j then 1 else 0, fun _ => 0⟩
    (by simp [Theta.addU]) (fun r _ k _ => hasDerivAt_const _ _) (fun r _ k _ => der_if _ _) (fun r _ => hasDerivAt_const _ _)).congr_deriv ?_
  congr 1
  refine List.map_congr_left fun d _ => ?_
  have e : ∀ r ∈ Finset.range n, d.δ r * (∑ k ∈ Finset.range m, (0 : ℝ) * d.x k + 0 + ∑ k ∈ Finset.range n, (if r = i ∧ k = j then (1 : ℝ) else 0) * d.y k) =
      if r = i then d.δ i * d.y j else 0 := by
    intro r _
    by_cases h : r = i
    · subst h
      simp [Finset.sum_ite_eq', hj]
    · simp [h]
  rw [Finset.sum_congr rfl e, Finset.sum_ite_eq', if_pos (Finset.mem_range.mpr hi)]

theorem der_b {θ : Theta} (hgs : GoodSteps n m θ E P H (fun _ => 0) es) {i : Nat} (hi : i < n) :
    HasDerivAt (fun t => lossOf n m (θ.addB i t) (fun _ => 0) es) ((deltas n m θ (fun _ => 0) es).map fun d => d.δ i).sum 0 := by
  refine (der_at hgs (fun t => θ.addB i t) ⟨fun _ _ => 0, fun _ _ => 0, fun r => if r = i then 1 else 0⟩
    (by simp [Theta.addB]) (fun r _ k _ => hasDerivAt_const _ _) (fun r _ k _ => hasDerivAt_const _ _) (fun r _ => der_if _ _)).congr_deriv ?_
  congr 1
  refine List.map_congr_left fun d _ => ?_
  have e : ∀ r ∈ Finset.range n, d.δ r * (∑ k ∈ Finset.range m, (0 : ℝ) * d.x k + (if r = i then (1 : ℝ) else 0) + ∑ k ∈ Finset.range n, (0 : ℝ) * d.y k) =
      if r = i then d.δ i else 0 := by
    intro r _
    by_cases h : r = i
    · subst h; simp
    · simp [h]
  rw [Finset.sum_congr rfl e, Finset.sum_ite_eq', if_pos (Finset.mem_range.mpr hi)]

theorem der_x {θ : Theta} {j : Nat} (hj : j < m) : ∀ (es : List SStep) (y : Nat → ℝ) (p : Nat) (e : SStep) (d : Delta), GoodSteps n m θ E P H y es →
    es[p]? = some e → (deltas n m θ y es)[p]? = some d →
    HasDerivAt (fun t => lossIn n m θ y es p (addX e.x j t)) (∑ i ∈ Finset.range n, d.δ i * θ.w i j) 0
  | [], _, _, _, _, _, he, _ => by simp at he
  | e :: es, y, p + 1, e', d, hgs, he, hd => by
    have ih := der_x hj es (out n m θ (vals e.x) y) p e' d hgs.2 (by simpa using he) (by simpa [deltas] using hd)
    exact ih.const_add _
  | e :: es, y, 0, e', d, hgs, he, hd => by
    obtain rfl : e = e' := by simpa using he
    obtain ⟨hl, hes⟩ := hgs
    have h0 : addX e.x j 0 = vals e.x := by funext k; simp [addX]
    have harg : ∀ i < n, HasDerivAt (fun t => arg n m θ (addX e.x j t) y i) (θ.w i j) 0 := by
      intro i hi
      have h1 : HasDerivAt (fun t => ∑ k ∈ Finset.range m, θ.w i k * addX e.x j t k) (∑ k ∈ Finset.range m, θ.w i k * if k = j then 1 else 0) 0 :=
        HasDerivAt.fun_sum fun k hk => (der_if (p := k = j) (vals e.x k) 0).const_mul (θ.w i k)
      have e1 : ∑ k ∈ Finset.range m, θ.w i k * (if k = j then (1 : ℝ) else 0) = θ.w i j := by simp [hj]
      rw [e1] at h1
      exact (h1.add_const (θ.b i)).add_const _
    have hout : ∀ i < n, HasDerivAt (fun t => out n m θ (addX e.x j t) y i) ((1 - Real.tanh (arg n m θ (vals e.x) y i) ^ 2) * θ.w i j) 0 := by
      intro i hi
      have ht := Back32.tanh_der (arg n m θ (addX e.x j 0) y i)
      have := ht.comp 0 (harg i hi)
      rw [h0] at this
      exact this
    have hJ : HasDerivAt (fun t => e.J (out n m θ (addX e.x j t) y)) (∑ i ∈ Finset.range n, e.γ i *
        ((1 - Real.tanh (arg n m θ (vals e.x) y i) ^ 2) * θ.w i j)) 0 := by
      unfold SStep.J SStep.γ
      cases h : e.loss with
      | none => simp only [zero_mul, Finset.sum_const_zero]; exact hasDerivAt_const (0 : ℝ) (0 : ℝ)
      | some l => exact (hl l h).2 (fun t => out n m θ (addX e.x j t) y) _ 0 (by beta_reduce; rw [h0]) hout
    have hrest := loss_der (E := E) (P := P) (H := H) (fun _ => θ) ⟨fun _ _ => 0, fun _ _ => 0, fun _ => 0⟩ 0 (fun _ _ _ _ => hasDerivAt_const _ _)
      (fun _ _ _ _ => hasDerivAt_const _ _) (fun _ _ => hasDerivAt_const _ _) es (fun t => out n m θ (addX e.x j t) y) _ (by beta_reduce; rw [h0]; exact hes) hout
    refine (hJ.fun_add hrest).congr_deriv ?_
    beta_reduce
    rw [h0]
    obtain rfl : _ = d := by simpa [deltas] using hd
    simp only [zero_mul, Finset.sum_const_zero, add_zero, mul_zero]
    have ez : (List.map (fun _ : Delta => (0 : ℝ)) (deltas n m θ (out n m θ (vals e.x) y) es)).sum = 0 := by simp
    rw [ez, zero_add, ← Finset.sum_add_distrib]
    exact Finset.sum_congr rfl fun i _ => by ring

/-! ## The theorems -/

/-- From the start. -/
theorem bptt_start (hM : GoodLib M.lib) (hS : GoodSlopeLib sl) (h : Sound n m g X E P H es) :
    (∃ z cs, Bptt M sl n m g none (es.map word) z cs) ∧ ∀ z cs, Bptt M sl n m g none (es.map word) z cs →
      List.Forall₂ (ConOk n m g (slopeOff n m g X E) P H X E es.length) cs (deltas n m (theta n m g) (fun _ => 0) es) := by
  have key := bptt_ok (sl := sl) hM hS h.gate h.e50 h.p0 h.h0 h.time h.out es 0 none (fun _ => 0) (by omega) h.input h.losses h.last (fun _ h => by simp at h)
    (fun k _ => by simp [pv, srnBound]) (fun _ _ => by simp) (fun _ _ => rfl)
  exact ⟨key.1, fun z cs hb => (key.2 z cs hb).2.2⟩

theorem deltas_length (θ : Theta) : ∀ (es : List SStep) (y : Nat → ℝ), (deltas n m θ y es).length = es.length
  | [], _ => rfl
  | e :: es, y => by simp [deltas, deltas_length θ es]

theorem forall₂_length {α β : Type} {R : α → β → Prop} {l : List α} {l' : List β} (h : List.Forall₂ R l l') : l.length = l'.length := h.length_eq

/-- **C100: it ends, with one contribution for every step.** -/
theorem srn_ends (hM : GoodLib M.lib) (hS : GoodSlopeLib sl) (h : Sound n m g X E P H es) :
    (∃ z cs, Bptt M sl n m g none (es.map word) z cs) ∧ ∀ z cs, Bptt M sl n m g none (es.map word) z cs → cs.length = es.length := by
  obtain ⟨h1, h2⟩ := bptt_start hM hS h
  exact ⟨h1, fun z cs hb => by rw [(h2 z cs hb).length_eq, deltas_length]⟩

theorem nonneg_largest (k : Nat) (f : Nat → ℝ) : 0 ≤ largest k f := largest_nonneg _ _

/-- **C100: the weights.** -/
theorem srn_weights (hM : GoodLib M.lib) (hS : GoodSlopeLib sl) (h : Sound n m g X E P H es) {z : Option (List F32.W)} {cs : List Con}
    (hb : Bptt M sl n m g none (es.map word) z cs) :
    (∃ gw, Gather M.cpu (cs.map (·.gw)) gw) ∧ ∀ gw, Gather M.cpu (cs.map (·.gw)) gw → ∃ q, gw = some q ∧ q.length = n * m ∧
      ∀ i < n, ∀ j < m, F32.Finite (q.getD (i * m + j) 0) ∧
        ∃ Δ, HasDerivAt (fun t => lossOf n m ((theta n m g).addW i j t) (fun _ => 0) es) Δ 0 ∧
          |val (q.getD (i * m + j) 0) - Δ| ≤ sumOff es.length (conSize n g.wRec (slopeOff n m g X E) P H X 0 es.length)
            (conOff n g.wRec (slopeOff n m g X E) P H X 0 es.length) := by
  have hf := (bptt_start hM hS h).2 z cs hb
  have hlen := (srn_ends hM hS h).2 z cs hb
  have key := sum_ok M.cpu (C := Con) (B := Delta) (f := fun c => some c.gw) (F := fun d c => d.δ (c / m) * d.x (c % m)) (k := n * m) (nonneg_largest _ _) (nonneg_largest _ _) hf hlen h.steps.2 h.sumW
    (fun c d hcd => ⟨hcd.w, fun k hk => by
      have hc : 0 < m := by
        rcases Nat.eq_zero_or_pos m with h | h
        · subst h; simp at hk
        · exact h
      have hi : k / m < n := Nat.div_lt_of_lt_mul (by rw [Nat.mul_comm]; exact hk)
      have := hcd.w' _ hi _ (Nat.mod_lt k hc)
      rwa [Nat.div_add_mod'] at this⟩)
  have efm : cs.filterMap (fun c => some c.gw) = cs.map (·.gw) := by simp
  rw [efm] at key
  refine ⟨key.1, fun gw hgw => ?_⟩
  have k2 := key.2 gw hgw
  cases gw with
  | none =>
    have : cs.length = 0 := by simpa using k2.1
    rw [hlen] at this
    exact absurd (List.eq_nil_of_length_eq_zero this) h.steps.1
  | some q =>
    refine ⟨q, rfl, k2.1, fun i hi j hj => ?_⟩
    have hc : i * m + j < n * m := by
      calc i * m + j < i * m + m := by omega
        _ = (i + 1) * m := by ring
        _ ≤ n * m := Nat.mul_le_mul_right m hi
    obtain ⟨f1, f2⟩ := k2.2 _ hc
    have d1 : (i * m + j) / m = i := by rw [Nat.mul_comm, Nat.mul_add_div (by omega), Nat.div_eq_of_lt hj, add_zero]
    have d2 : (i * m + j) % m = j := by rw [Nat.mul_comm, Nat.mul_add_mod, Nat.mod_eq_of_lt hj]
    simp only [d1, d2] at f2
    exact ⟨f1, _, der_w h.losses hi hj, f2⟩

/-- **C100: the bias.** -/
theorem srn_bias (hM : GoodLib M.lib) (hS : GoodSlopeLib sl) (h : Sound n m g X E P H es) {z : Option (List F32.W)} {cs : List Con}
    (hb : Bptt M sl n m g none (es.map word) z cs) :
    (∃ gb, Gather M.cpu (cs.map (·.gb)) gb) ∧ ∀ gb, Gather M.cpu (cs.map (·.gb)) gb → ∃ q, gb = some q ∧ q.length = n ∧
      ∀ i < n, F32.Finite (q.getD i 0) ∧
        ∃ Δ, HasDerivAt (fun t => lossOf n m ((theta n m g).addB i t) (fun _ => 0) es) Δ 0 ∧
          |val (q.getD i 0) - Δ| ≤ sumOff es.length (biasSize n g.wRec (slopeOff n m g X E) P H es.length)
            (biasOffT n g.wRec (slopeOff n m g X E) P H es.length) := by
  have hf := (bptt_start hM hS h).2 z cs hb
  have hlen := (srn_ends hM hS h).2 z cs hb
  have key := sum_ok M.cpu (C := Con) (B := Delta) (f := fun c => some c.gb) (F := fun d c => d.δ c) (k := n) (nonneg_largest _ _) (nonneg_largest _ _) hf hlen h.steps.2 h.sumB
    (fun c d hcd => ⟨hcd.b, hcd.b'⟩)
  have efm : cs.filterMap (fun c => some c.gb) = cs.map (·.gb) := by simp
  rw [efm] at key
  refine ⟨key.1, fun gb hgb => ?_⟩
  have k2 := key.2 gb hgb
  cases gb with
  | none =>
    have : cs.length = 0 := by simpa using k2.1
    rw [hlen] at this
    exact absurd (List.eq_nil_of_length_eq_zero this) h.steps.1
  | some q =>
    refine ⟨q, rfl, k2.1, fun i hi => ?_⟩
    obtain ⟨f1, f2⟩ := k2.2 i hi
    exact ⟨f1, _, der_b h.losses hi, f2⟩

/-- **C100: the recurrent weights.** When no step contributes (as with one step), the derivatives are 0. -/
theorem srn_recurrent (hM : GoodLib M.lib) (hS : GoodSlopeLib sl) (h : Sound n m g X E P H es) {z : Option (List F32.W)} {cs : List Con}
    (hb : Bptt M sl n m g none (es.map word) z cs) :
    (∃ gu, Gather M.cpu (cs.filterMap (·.gu)) gu) ∧ ∀ gu, Gather M.cpu (cs.filterMap (·.gu)) gu → (∀ q, gu = some q → q.length = n * n) ∧
      ∀ i < n, ∀ j < n, ∃ Δ, HasDerivAt (fun t => lossOf n m ((theta n m g).addU i j t) (fun _ => 0) es) Δ 0 ∧
        (gu = none → Δ = 0) ∧ ∀ q, gu = some q → F32.Finite (q.getD (i * n + j) 0) ∧
          |val (q.getD (i * n + j) 0) - Δ| ≤ sumOff es.length (conSize n g.wRec (slopeOff n m g X E) P H 1 E es.length)
            (conOff n g.wRec (slopeOff n m g X E) P H 1 E es.length) := by
  have hf := (bptt_start hM hS h).2 z cs hb
  have hlen := (srn_ends hM hS h).2 z cs hb
  have key := sum_ok M.cpu (C := Con) (B := Delta) (f := fun c => c.gu) (F := fun d c => d.δ (c / n) * d.y (c % n)) (k := n * n) (nonneg_largest _ _) (nonneg_largest _ _) hf hlen h.steps.2 h.sumU
    (fun c d hcd => by
      have := hcd.u
      cases hgu : c.gu with
      | none =>
        rw [hgu] at this
        have this : ∀ k, d.y k = 0 := this
        exact fun k _ => by rw [this, mul_zero]
      | some q =>
        rw [hgu] at this
        refine ⟨this.1, fun k hk => ?_⟩
        have hc : 0 < n := by
          rcases Nat.eq_zero_or_pos n with h | h
          · subst h; simp at hk
          · exact h
        have hi : k / n < n := Nat.div_lt_of_lt_mul hk
        have := this.2 _ hi _ (Nat.mod_lt k hc)
        rwa [Nat.div_add_mod'] at this)
  refine ⟨key.1, fun gu hgu => ?_⟩
  have k2 := key.2 gu hgu
  have idx : ∀ i < n, ∀ j < n, i * n + j < n * n ∧ (i * n + j) / n = i ∧ (i * n + j) % n = j := by
    intro i hi j hj
    refine ⟨?_, ?_, ?_⟩
    · calc i * n + j < i * n + n := by omega
        _ = (i + 1) * n := by ring
        _ ≤ n * n := Nat.mul_le_mul_right n hi
    · rw [Nat.mul_comm, Nat.mul_add_div (by omega), Nat.div_eq_of_lt hj, add_zero]
    · rw [Nat.mul_comm, Nat.mul_add_mod, Nat.mod_eq_of_lt hj]
  refine ⟨fun q hq => by subst hq; exact k2.1, fun i hi j hj => ⟨_, der_u h.losses hi hj, ?_, ?_⟩⟩
  · rintro rfl
    obtain ⟨d0, d1, d2⟩ := idx i hi j hj
    have := k2.2 _ d0
    simp only [d1, d2] at this
    exact this
  · rintro q rfl
    obtain ⟨d0, d1, d2⟩ := idx i hi j hj
    obtain ⟨f1, f2⟩ := k2.2 _ d0
    simp only [d1, d2] at f2
    exact ⟨f1, f2⟩

theorem later_contribute : ∀ (es : List In) {y : List F32.W} {z : Option (List F32.W)} {cs : List Con}, Bptt M sl n m g (some y) es z cs →
    ∀ c ∈ cs, c.gu.isSome = true
  | [], _, _, _, h => by obtain ⟨-, rfl⟩ := h; simp
  | e :: es, y, z, cs, h => by
    obtain ⟨a, h', qs, c, gy, -, hb, -, -, hrest⟩ := h
    have ih := later_contribute es hb
    cases gy with
    | none => obtain ⟨-, rfl⟩ := hrest; exact ih
    | some gy =>
      obtain ⟨δ, gw, gx, -, -, -, -, gu, zz, -, -, -, rfl⟩ := hrest
      intro c hc
      rcases List.mem_cons.mp hc with rfl | hc
      · rfl
      · exact ih c hc

/-- From two steps on there is a gradient. -/
theorem srn_recurrent_some (hM : GoodLib M.lib) (hS : GoodSlopeLib sl) (h : Sound n m g X E P H es) (h2 : 2 ≤ es.length) {z : Option (List F32.W)}
    {cs : List Con} (hb : Bptt M sl n m g none (es.map word) z cs) {gu : Option (List F32.W)} (hgu : Gather M.cpu (cs.filterMap (·.gu)) gu) : gu ≠ none := by
  have hlen := (srn_ends hM hS h).2 z cs hb
  have hne : cs.filterMap (·.gu) ≠ [] := by
    match es, h2, hb, hlen with
    | e :: es, h2, hb, hlen =>
      obtain ⟨a, h', qs, c, gy, -, hb', -, -, hrest⟩ := hb
      have hall := later_contribute _ hb'
      have hq : qs ≠ [] ∧ ∀ c ∈ qs, c ∈ cs := by
        cases gy with
        | none =>
          obtain ⟨-, rfl⟩ := hrest
          refine ⟨?_, fun c hc => hc⟩
          rintro rfl
          simp at hlen
        | some gy =>
          obtain ⟨δ, gw, gx, -, -, -, -, -, rfl⟩ := hrest
          refine ⟨?_, fun c hc => List.mem_cons_of_mem _ hc⟩
          rintro rfl
          simp at hlen h2
          subst hlen
          simp at h2
      obtain ⟨c, hc⟩ := List.exists_mem_of_ne_nil _ hq.1
      obtain ⟨u, hu⟩ := Option.isSome_iff_exists.mp (hall c hc)
      intro he
      have : u ∈ cs.filterMap (·.gu) := List.mem_filterMap.mpr ⟨c, hq.2 c hc, hu⟩
      rw [he] at this
      simp at this
  rintro rfl
  obtain ⟨o, ho, ha⟩ := hgu
  cases o with
  | nil => exact hne (by simpa using ho.symm)
  | cons a o => obtain ⟨q, -, hq⟩ := ha; simp at hq

/-- **C100: the inputs.** -/
theorem srn_inputs (hM : GoodLib M.lib) (hS : GoodSlopeLib sl) (h : Sound n m g X E P H es) {z : Option (List F32.W)} {cs : List Con}
    (hb : Bptt M sl n m g none (es.map word) z cs) {p : Nat} {e : SStep} (he : es[p]? = some e) :
    ∃ c, cs[p]? = some c ∧ c.gx.length = m ∧ ∀ j < m, F32.Finite (c.gx.getD j 0) ∧
      ∃ Δ, HasDerivAt (fun t => lossIn n m (theta n m g) (fun _ => 0) es p (addX e.x j t)) Δ 0 ∧
        |val (c.gx.getD j 0) - Δ| ≤ inOff n m g (slopeOff n m g X E) P H es.length := by
  have hf := (bptt_start hM hS h).2 z cs hb
  have hp : p < es.length := (List.getElem?_eq_some_iff.mp he).1
  have hpd : p < (deltas n m (theta n m g) (fun _ => 0) es).length := by rw [deltas_length]; exact hp
  have hpc : p < cs.length := by rw [hf.length_eq]; exact hpd
  have hok := hf.get hpc hpd
  refine ⟨cs[p], List.getElem?_eq_getElem hpc, hok.x.1, fun j hj => ⟨(hok.x.2 j hj).1, _, der_x hj es _ p e _ h.losses he (List.getElem?_eq_getElem hpd), (hok.x.2 j hj).2⟩⟩

end Verif.Srn32
