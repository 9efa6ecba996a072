import Verif.Props.Lstm32Loss
import Verif.Props.SrnTrain32
import Verif.Spec.LstmTrain32

set_option autoImplicit false
set_option linter.unusedSimpArgs false

/-!
# C103: one step of training of an LSTM on the words of float32
-/

namespace Verif.Lstm32
open Verif.F32 Verif.Asm Verif.Spec Verif.Spec.Kernels Verif.Net32 Verif.Rec32 Verif.Att32 Verif.Back32 Verif.Srn32 Verif.Spec.Net32 Verif.Spec.Rec32
  Verif.Spec.Back32 Verif.Spec.Srn32 Verif.Spec.Train32 Verif.Spec.Lstm32

variable {n m : Nat} {M : Machine} {sl : Slopes} {g : Lstm} {X Ec Ey P H W : ℝ} {T : Nat} {ess : List (List SStep)} {lr : F32.W}

theorem batchL_der {c : ℝ → Thetas} {Θ : Thetas} {F : (Gt → Delta) → ℝ} : ∀ (ess : List (List SStep)),
    (∀ es ∈ ess, HasDerivAt (fun t => lossL n m (c t) (fun _ => 0) (fun _ => 0) es) ((deltasL n m Θ (fun _ => 0) (fun _ => 0) es).map F).sum 0) →
    HasDerivAt (fun t => batchL n m (c t) ess) (((ess.map fun es => deltasL n m Θ (fun _ => 0) (fun _ => 0) es).flatten).map F).sum 0
  | [], _ => by simpa [batchL] using hasDerivAt_const (0 : ℝ) (0 : ℝ)
  | es :: ess, h => by
    have ih := batchL_der ess fun es he => h es (List.mem_cons_of_mem _ he)
    have h1 := h es List.mem_cons_self
    have := h1.fun_add ih
    simp only [batchL, List.map_cons, List.sum_cons, List.flatten_cons, List.map_append, List.sum_append] at *
    exact this

theorem batch_tol {l : ℝ} (h : SoundBatch n m g X Ec Ey P H W l T ess) : TolOk (tol n m g X Ec Ey T) := by
  have hX0 := (h.gate .inp).x0
  have hb := lstmBound_nonneg (n := n) (m := m) (g := g) hX0 0
  have hE : 0 ≤ Ey := hb.2.trans (h.out 0 (by omega)).2
  have hC : 0 ≤ Ec := hb.1.trans (h.out 0 (by omega)).1
  have hs : ∀ q, 0 ≤ sumErr n m g X Ey q := sumErr_nonneg hX0 hE
  refine ⟨fun q => ?_, fun q => ?_, hC, Nat.cast_nonneg _, fun q => (h.gates q).1, fun q => (h.gates q).2, h.cells, ?_⟩
  · have := hs q
    show 0 ≤ actErr (actOf q) + lipOf (actOf q) * sumErr n m g X Ey q
    cases q <;> simp only [actOf, actErr, lipOf] <;> positivity
  · have := hs q
    show 0 ≤ slopeErr (actOf q) (sumErr n m g X Ey q)
    cases q <;> simp only [actOf, slopeErr] <;> positivity
  · show ((T : ℕ) : ℝ) ≤ 2 ^ 20
    exact_mod_cast h.steps

/-- The passes, and what is known of all contributions. -/
theorem passes_ok (hM : GoodLib M.lib) (hS : GoodSlopeLib sl) {l : ℝ} : ∀ (ess' : List (List SStep)), SoundBatch n m g X Ec Ey P H W l T ess → (∀ es ∈ ess', es ∈ ess) →
    (∃ css, PassesL M sl n m g (ess'.map (·.map word)) css) ∧ ∀ css, PassesL M sl n m g (ess'.map (·.map word)) css →
      List.Forall₂ (StepOk n m g (tol n m g X Ec Ey T) P H X Ey T) css.flatten (ess'.map fun es => deltasL n m (thetas n m g) (fun _ => 0) (fun _ => 0) es).flatten
  | [], _, _ => by
    refine ⟨⟨[], List.Forall₂.nil⟩, fun css h => ?_⟩
    cases h
    exact List.Forall₂.nil
  | es :: ess', h, hsub => by
    obtain ⟨i1, i2⟩ := passes_ok hM hS ess' h fun es he => hsub es (List.mem_cons_of_mem _ he)
    have hm := hsub es List.mem_cons_self
    have key := bptt_ok (sl := sl) hM hS h.gate h.e50 h.p0 h.h0 rfl (batch_tol h) h.time h.out es 0 none (fun _ => 0) (fun _ => 0) (by have := h.length es hm; omega)
      (h.input es hm) (h.losses es hm) (h.last es hm)
      ⟨fun _ h => by simp at h, fun k _ => by simp, fun k _ => by simp [pc, lstmBound], fun k _ => by simp [pv, lstmBound]⟩ (fun _ _ => by simp) (fun _ => ⟨fun _ => rfl, fun _ => rfl⟩)
    refine ⟨?_, fun css hc => ?_⟩
    · obtain ⟨css, hcss⟩ := i1
      obtain ⟨zy, zc, cs, hb⟩ := key.1
      exact ⟨cs :: css, List.Forall₂.cons ⟨zy, zc, hb⟩ hcss⟩
    · cases hc with
      | cons hb ht =>
        obtain ⟨zy, zc, hb⟩ := hb
        have k := (key.2 zy zc _ hb).2
        rw [List.flatten_cons, List.map_cons, List.flatten_cons]
        exact List.rel_append k (i2 _ ht)

theorem flat_length : ∀ (ess : List (List SStep)) (Θ : Thetas), (ess.map fun es => deltasL n m Θ (fun _ => 0) (fun _ => 0) es).flatten.length = stepCount ess
  | [], _ => rfl
  | es :: ess, Θ => by
    have := flat_length ess Θ
    simp only [List.map_cons, List.flatten_cons, List.length_append, deltas_length, stepCount, List.sum_cons] at *
    omega

/-- **C103: one step of training.** It ends; the shapes stay; and every parameter of every gate is finite and close to `w - lr * Δ`, where `Δ` is the
derivative of the loss of all sequences with respect to this parameter. -/
theorem lstm_train (hM : GoodLib M.lib) (hS : GoodSlopeLib sl) (flr : F32.Finite lr) (h : SoundBatch n m g X Ec Ey P H W |val lr| T ess) :
    (∃ g', TrainStep M sl lr n m (ess.map (·.map word)) g g') ∧ ∀ g', TrainStep M sl lr n m (ess.map (·.map word)) g g' → ∀ q,
      (gateOf g' q).w.length = n * m ∧ (gateOf g' q).wRec.length = n * n ∧ (gateOf g' q).b.length = n ∧
      (∀ i < n, ∀ j < m, F32.Finite ((gateOf g' q).w.getD (i * m + j) 0) ∧
        ∃ Δ, HasDerivAt (fun t => batchL n m ((thetas n m g).set q ((thetas n m g q).addW i j t)) ess) Δ 0 ∧
        |val ((gateOf g' q).w.getD (i * m + j) 0) - (val ((gateOf g q).w.getD (i * m + j) 0) - val lr * Δ)| ≤
          stepOff (stepCount ess) |val lr| W (conTop (tops n g (tol n m g X Ec Ey T) P H q) (offs n g (tol n m g X Ec Ey T) P H q) X 0 T)
            (conErr (tops n g (tol n m g X Ec Ey T) P H q) (offs n g (tol n m g X Ec Ey T) P H q) X 0 T)) ∧
      (∀ i < n, ∀ j < n, F32.Finite ((gateOf g' q).wRec.getD (i * n + j) 0) ∧
        ∃ Δ, HasDerivAt (fun t => batchL n m ((thetas n m g).set q ((thetas n m g q).addU i j t)) ess) Δ 0 ∧
        |val ((gateOf g' q).wRec.getD (i * n + j) 0) - (val ((gateOf g q).wRec.getD (i * n + j) 0) - val lr * Δ)| ≤
          stepOff (stepCount ess) |val lr| W (conTop (tops n g (tol n m g X Ec Ey T) P H q) (offs n g (tol n m g X Ec Ey T) P H q) 1 Ey T)
            (conErr (tops n g (tol n m g X Ec Ey T) P H q) (offs n g (tol n m g X Ec Ey T) P H q) 1 Ey T)) ∧
      ∀ i < n, F32.Finite ((gateOf g' q).b.getD i 0) ∧
        ∃ Δ, HasDerivAt (fun t => batchL n m ((thetas n m g).set q ((thetas n m g q).addB i t)) ess) Δ 0 ∧
        |val ((gateOf g' q).b.getD i 0) - (val ((gateOf g q).b.getD i 0) - val lr * Δ)| ≤
          stepOff (stepCount ess) |val lr| W (biasTop (tops n g (tol n m g X Ec Ey T) P H q) (offs n g (tol n m g X Ec Ey T) P H q) T)
            (biasErr (offs n g (tol n m g X Ec Ey T) P H q) T) := by
  obtain ⟨⟨css0, hcss0⟩, pall⟩ := passes_ok (sl := sl) hM hS ess h fun _ he => he
  have hg := h.gate
  have uw := fun q => upto_params (hg q).w (fun v hv => ((hg q).wv v hv).1) fun v hv => h.params q v (Or.inl hv)
  have uu := fun q => upto_params (hg q).wRec (fun v hv => ((hg q).wRecv v hv).1) fun v hv => h.params q v (Or.inr (Or.inl hv))
  have ub := fun q => upto_params (hg q).b (hg q).bv fun v hv => h.params q v (Or.inr (Or.inr hv))
  have hlen : ∀ css, PassesL M sl n m g (ess.map (·.map word)) css → css.flatten.length = stepCount ess := fun css hc => by
    rw [(pall css hc).length_eq, flat_length]
  have kw := fun css hc q => param_ok M.cpu (C := Gt → Option Con) (B := Gt → Delta) flr (f := toW q) (F := fun d c => (d q).δ (c / m) * (d q).x (c % m)) (nonneg_largest _ _)
    (nonneg_largest _ _) h.w120 (uw q) (pall css hc) (hlen css hc) h.count (h.sumW q) (fun k d hkd => by
      have := hkd q
      unfold toW
      cases hk : k q with
      | none => rw [hk] at this; exact fun i _ => by rw [this, zero_mul]
      | some c =>
        rw [hk] at this
        refine ⟨this.w, fun k hk => ?_⟩
        have e := this.w' _ (idx_cell hk).1 _ (idx_cell hk).2
        rwa [Nat.div_add_mod'] at e)
  have ku := fun css hc q => param_ok M.cpu (C := Gt → Option Con) (B := Gt → Delta) flr (f := toU q) (F := fun d c => (d q).δ (c / n) * (d q).y (c % n)) (nonneg_largest _ _)
    (nonneg_largest _ _) h.w120 (uu q) (pall css hc) (hlen css hc) h.count (h.sumU q) (fun k d hkd => by
      have := hkd q
      unfold toU
      cases hk : k q with
      | none => rw [hk] at this; exact fun i _ => by rw [this, zero_mul]
      | some c =>
        rw [hk] at this
        have hu := this.u
        rw [Option.bind_some]
        cases hgu : c.gu with
        | none => rw [hgu] at hu; exact fun k _ => by rw [hu, mul_zero]
        | some w =>
          rw [hgu] at hu
          refine ⟨hu.1, fun k hk => ?_⟩
          have e := hu.2 _ (idx_cell hk).1 _ (idx_cell hk).2
          rwa [Nat.div_add_mod'] at e)
  have kb := fun css hc q => param_ok M.cpu (C := Gt → Option Con) (B := Gt → Delta) flr (f := toB q) (F := fun d c => (d q).δ c) (nonneg_largest _ _)
    (nonneg_largest _ _) h.w120 (ub q) (pall css hc) (hlen css hc) h.count (h.sumB q) (fun k d hkd => by
      have := hkd q
      unfold toB
      cases hk : k q with
      | none => rw [hk] at this; exact fun i _ => this i
      | some c => rw [hk] at this; exact ⟨this.b, this.b'⟩)
  refine ⟨?_, ?_⟩
  · choose w' hw' using fun q => (kw css0 hcss0 q).1
    choose u' hu' using fun q => (ku css0 hcss0 q).1
    choose b' hb' using fun q => (kb css0 hcss0 q).1
    refine ⟨⟨⟨w' .inp, u' .inp, b' .inp⟩, ⟨w' .out, u' .out, b' .out⟩, ⟨w' .forget, u' .forget, b' .forget⟩, ⟨w' .cand, u' .cand, b' .cand⟩⟩, css0, hcss0, fun q => ?_⟩
    cases q <;> exact ⟨hw' _, hu' _, hb' _⟩
  · rintro g' ⟨css, hc, hall⟩ q
    obtain ⟨hw', hu', hb'⟩ := hall q
    obtain ⟨a1, a2⟩ := (kw css hc q).2 _ hw'
    obtain ⟨b1, b2⟩ := (ku css hc q).2 _ hu'
    obtain ⟨c1, c2⟩ := (kb css hc q).2 _ hb'
    refine ⟨a1, b1, c1, fun i hi j hj => ?_, fun i hi j hj => ?_, fun i hi => ?_⟩
    · obtain ⟨d0, d1, d2⟩ := cell_idx hi hj
      obtain ⟨f1, f2⟩ := a2 _ d0
      simp only [d1, d2] at f2
      exact ⟨f1, _, batchL_der ess fun es he => der_w (h.losses es he) q hi hj, f2⟩
    · obtain ⟨d0, d1, d2⟩ := cell_idx hi hj
      obtain ⟨f1, f2⟩ := b2 _ d0
      simp only [d1, d2] at f2
      exact ⟨f1, _, batchL_der ess fun es he => der_u (h.losses es he) q hi hj, f2⟩
    · obtain ⟨f1, f2⟩ := c2 i hi
      exact ⟨f1, _, batchL_der ess fun es he => der_b (h.losses es he) q hi, f2⟩

/-! ## An example: two copies of the sequence of the example of C102, and the rate 1/64 -/

namespace Example
open Verif.Rec32.Example Verif.Net32.Example Verif.Srn32.Example

noncomputable def sequence (cpu : Cpu) : List SStep := mseSteps cpu 1 1 (thetas 1 1 net) p1 (fun _ => 0) (fun _ => 0) data

theorem soundBatch (cpu : Cpu) : SoundBatch 1 1 net 1 (1 / 2 ^ 16) (1 / 2 ^ 16) (3 / 2) (mseErr (1 / 2 ^ 16) (1 + 1 / 2 ^ 16 + 1 / 2)) 1 |val rate| 2
    [sequence cpu, sequence cpu] := by
  have s := sound cpu
  have one : ∀ {p : List SStep → Prop}, p (sequence cpu) → ∀ es ∈ [sequence cpu, sequence cpu], p es := by
    intro p hp es he
    simp only [List.mem_cons, List.not_mem_nil, or_false, or_self] at he
    rw [he]; exact hp
  have b := fun q => bounds lossErr.1 lossErr.2 q (E := 0) le_rfl (by norm_num)
  have b' := fun q => bounds lossErr.1 lossErr.2 q (E := 1 / 2 ^ 16) (by norm_num) le_rfl
  have hc : stepCount [sequence cpu, sequence cpu] = 4 := by simp [stepCount, sequence, mseSteps, data]
  refine ⟨s.gate, fun q v hv => ?_, by norm_num, one s.input, one s.losses, one s.last, one (p := fun es => es.length ≤ 2) (by simp [sequence, mseSteps, data]), by norm_num,
    by rw [hc]; norm_num, outSmall, s.e50, s.p0, s.h0, s.gates, s.cells, s.time, fun q => ?_, fun q => ?_, fun q => ?_⟩
  · rw [net_gate] at hv
    simp only [gate, List.mem_cons, List.not_mem_nil, or_false] at hv
    rcases hv with rfl | rfl | rfl
    · rw [v1]; norm_num
    · rw [vh]; norm_num
    · rw [show val 0 = 0 from v0]; norm_num
  · rw [hc]; exact total4 (nonneg_largest _ _) (b q).1
  · rw [hc]; exact total4 (nonneg_largest _ _) (b' q).1
  · rw [hc]; exact total4 (nonneg_largest _ _) (b q).2.2.1

/-- The step ends, and the recurrent weight of every gate is within `1/1000` of that after a step of gradient descent. -/
example (cpu : Cpu) (j : ExpLog.Lane) : ∃ lib sl g', TrainStep ⟨cpu, j, lib⟩ sl rate 1 1
      [data.map fun q => (q.1, q.2.map (MseGrad cpu p1)), data.map fun q => (q.1, q.2.map (MseGrad cpu p1))] net g' ∧
    ∀ q, ∃ Δ, HasDerivAt (fun t => batchL 1 1 ((thetas 1 1 net).set q ((thetas 1 1 net q).addU 0 0 t)) [sequence cpu, sequence cpu]) Δ 0 ∧
    |val ((gateOf g' q).wRec.getD 0 0) - (1 / 2 - 1 / 64 * Δ)| ≤ 1 / 1000 := by
  obtain ⟨lib, h⟩ := exists_lib cpu j
  obtain ⟨sl, hs⟩ := Back32.Example.exists_slopes
  have hM : GoodLib (⟨cpu, j, lib⟩ : Machine).lib := h
  obtain ⟨⟨g', hg'⟩, hall⟩ := lstm_train (M := ⟨cpu, j, lib⟩) (sl := sl) (lr := rate) hM hs (by unfold F32.Finite; decide) (soundBatch cpu)
  have hg'' := hg'
  simp only [sequence, List.map_cons, List.map_nil, mse_words] at hg''
  refine ⟨lib, sl, g', hg'', fun q => ?_⟩
  obtain ⟨-, -, -, -, hu, -⟩ := hall g' hg' q
  obtain ⟨-, Δ, hΔ, e⟩ := hu 0 (by norm_num) 0 (by norm_num)
  refine ⟨Δ, hΔ, ?_⟩
  have ev : val ((gateOf net q).wRec.getD (0 * 1 + 0) 0) = 1 / 2 := by rw [net_gate]; exact vh
  have el : |val rate| = 1 / 64 := by rw [rate_val]; norm_num
  rw [ev, el, rate_val] at e
  refine e.trans ?_
  obtain ⟨b3, b4, -⟩ := bounds lossErr.1 lossErr.2 q (E := 1 / 2 ^ 16) (by norm_num) le_rfl
  rw [show stepCount [sequence cpu, sequence cpu] = 4 by simp [stepCount, sequence, mseSteps, data]]
  change stepOff 4 (1 / 64) 1 (conTop (tops 1 net τ (3 / 2) _ q) (offs 1 net τ (3 / 2) _ q) 1 (1 / 2 ^ 16) 2) (conErr (tops 1 net τ (3 / 2) _ q) (offs 1 net τ (3 / 2) _ q) 1 (1 / 2 ^ 16) 2) ≤ _
  generalize conTop _ _ 1 (1 / 2 ^ 16) 2 = Y at *
  generalize conErr _ _ 1 (1 / 2 ^ 16) 2 = β at *
  unfold stepOff total
  push_cast
  norm_num at *
  linarith

end Example
end Verif.Lstm32
