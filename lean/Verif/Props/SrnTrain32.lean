import Verif.Props.Srn32Loss
import Verif.Spec.SrnTrain32

set_option autoImplicit false
set_option linter.unusedSimpArgs false

/-!
# C101: one step of training of a simple recurrent network on the words of float32
-/

namespace Verif.Srn32
open Verif.F32 Verif.Asm Verif.Spec Verif.Spec.Kernels Verif.Net32 Verif.Rec32 Verif.Att32 Verif.Back32 Verif.Spec.Net32 Verif.Spec.Rec32
  Verif.Spec.Back32 Verif.Spec.Srn32 Verif.Spec.Train32

variable {n m : Nat} {M : Machine} {sl : Slopes} {g : Gate} {X E P H W : ℝ} {T : Nat} {ess : List (List SStep)} {lr : F32.W}

theorem batch_der {c : ℝ → Theta} {θ : Theta} {F : Delta → ℝ} : ∀ (ess : List (List SStep)),
    (∀ es ∈ ess, HasDerivAt (fun t => lossOf n m (c t) (fun _ => 0) es) ((deltas n m θ (fun _ => 0) es).map F).sum 0) →
    HasDerivAt (fun t => batchOf n m (c t) ess) (((ess.map fun es => deltas n m θ (fun _ => 0) es).flatten).map F).sum 0
  | [], _ => by simpa [batchOf] using hasDerivAt_const (0 : ℝ) (0 : ℝ)
  | es :: ess, h => by
    have ih := batch_der ess fun es he => h es (List.mem_cons_of_mem _ he)
    have h1 := h es List.mem_cons_self
    have := h1.fun_add ih
    simp only [batchOf, List.map_cons, List.sum_cons, List.flatten_cons, List.map_append, List.sum_append] at *
    exact this

/-- The passes, and what is known of all contributions. -/
theorem passes_ok (hM : GoodLib M.lib) (hS : GoodSlopeLib sl) {l : ℝ} : ∀ (ess' : List (List SStep)), SoundBatch n m g X E P H W l T ess → (∀ es ∈ ess', es ∈ ess) →
    (∃ css, PassesS M sl n m g (ess'.map (·.map word)) css) ∧ ∀ css, PassesS M sl n m g (ess'.map (·.map word)) css →
      List.Forall₂ (ConOk n m g (slopeOff n m g X E) P H X E T) css.flatten (ess'.map fun es => deltas n m (theta n m g) (fun _ => 0) es).flatten
  | [], _, _ => by
    refine ⟨⟨[], List.Forall₂.nil⟩, fun css h => ?_⟩
    cases h
    exact List.Forall₂.nil
  | es :: ess', h, hsub => by
    obtain ⟨i1, i2⟩ := passes_ok hM hS ess' h fun es he => hsub es (List.mem_cons_of_mem _ he)
    have hm := hsub es List.mem_cons_self
    have key := bptt_ok (sl := sl) hM hS h.gate h.e50 h.p0 h.h0 h.time h.out es 0 none (fun _ => 0) (by have := h.length es hm; omega) (h.input es hm) (h.losses es hm)
      (h.last es hm) (fun _ h => by simp at h) (fun k _ => by simp [pv, srnBound]) (fun _ _ => by simp) (fun _ _ => rfl)
    refine ⟨?_, fun css hc => ?_⟩
    · obtain ⟨css, hcss⟩ := i1
      obtain ⟨z, cs, hb⟩ := key.1
      exact ⟨cs :: css, List.Forall₂.cons ⟨z, hb⟩ hcss⟩
    · cases hc with
      | cons hb ht =>
        obtain ⟨z, hb⟩ := hb
        have k := (key.2 z _ hb).2.2
        rw [List.flatten_cons, List.map_cons, List.flatten_cons]
        exact List.rel_append k (i2 _ ht)

theorem flat_length : ∀ (ess : List (List SStep)) (θ : Theta), (ess.map fun es => deltas n m θ (fun _ => 0) es).flatten.length = stepCount ess
  | [], _ => rfl
  | es :: ess, θ => by
    have := flat_length ess θ
    simp only [List.map_cons, List.flatten_cons, List.length_append, deltas_length, stepCount, List.sum_cons] at *
    omega

/-- A parameter after the step. -/
theorem param_ok (cpu : Cpu) {C B : Type} (flr : F32.Finite lr) {f : C → Option (List F32.W)} {F : B → Nat → ℝ} {k N : Nat} {Y β : ℝ} (hY : 0 ≤ Y) (hβ : 0 ≤ β) {R : C → B → Prop}
    {w : List F32.W} (hW : W ≤ 2 ^ 120) (hw : Train32.Upto k W w) {cs : List C} {ds : List B} (h : List.Forall₂ R cs ds) (hN : cs.length = N) (hN' : N ≤ 2 ^ 20)
    (ht : max 1 |val lr| * total N Y ≤ 2 ^ 120)
    (hR : ∀ c d, R c d → match f c with | none => ∀ i < k, F d i = 0 | some q => Train32.Upto k Y q ∧ ∀ i < k, |val (q.getD i 0) - F d i| ≤ β) :
    (∃ w', Train32.Learn cpu lr w (cs.filterMap f) w') ∧ ∀ w', Train32.Learn cpu lr w (cs.filterMap f) w' → w'.length = k ∧ ∀ i < k, F32.Finite (w'.getD i 0) ∧
      |val (w'.getD i 0) - (val (w.getD i 0) - val lr * (ds.map fun d => F d i).sum)| ≤ stepOff N |val lr| W Y β := by
  have hL : (cs.filterMap f).length ≤ N := hN ▸ List.length_filterMap_le _ _
  have hLr : ((cs.filterMap f).length : ℝ) ≤ N := by exact_mod_cast hL
  have hL0 : (0 : ℝ) ≤ (cs.filterMap f).length := Nat.cast_nonneg _
  have hsq : ((cs.filterMap f).length : ℝ) * (cs.filterMap f).length * Y / 2 ^ 24 ≤ (N : ℝ) * N * Y / 2 ^ 24 :=
    div_le_div_of_nonneg_right (mul_le_mul_of_nonneg_right (mul_le_mul hLr hLr hL0 (hL0.trans hLr)) hY) (by positivity)
  have htot : total (cs.filterMap f).length Y ≤ total N Y := by
    unfold total
    have := mul_le_mul_of_nonneg_right hLr hY
    linarith
  have t0 : 0 ≤ total N Y := Train32.total_nonneg N hY
  have t1 : total N Y ≤ 2 ^ 120 := by
    refine le_trans ?_ ht
    have := mul_le_mul_of_nonneg_right (le_max_left 1 |val lr|) t0
    linarith
  have t2 : |val lr| * total N Y ≤ 2 ^ 120 := (mul_le_mul_of_nonneg_right (le_max_right 1 |val lr|) t0).trans ht
  have t3 : |val lr| * total (cs.filterMap f).length Y ≤ |val lr| * total N Y := mul_le_mul_of_nonneg_left htot (abs_nonneg _)
  have hup : ∀ q ∈ cs.filterMap f, Train32.Upto k Y q := by
    intro q hq
    obtain ⟨c, hc, hf⟩ := List.mem_filterMap.mp hq
    obtain ⟨d, hd⟩ := forall₂_left h c hc
    have := hR c d hd
    rw [hf] at this
    exact this.1
  have hcell : ∀ i < k, |Train32.cellSum (cs.filterMap f) i - (ds.map fun d => F d i).sum| ≤ (cs.filterMap f).length * β := by
    intro i hi
    refine cells_sum (F := fun d => F d i) h fun c d hcd => ?_
    have := hR c d hcd
    cases hf : f c with
    | none => rw [hf] at this; exact this i hi
    | some q => rw [hf] at this; exact this.2 i hi
  obtain ⟨l1, l2⟩ := Train32.learn_ok cpu flr hY hW hw hup (by omega) (htot.trans t1) (t3.trans t2)
  refine ⟨l1, fun w' hw' => ⟨(l2 w' hw').1, fun i hi => ⟨((l2 w' hw').2 i hi).1, ?_⟩⟩⟩
  have e := ((l2 w' hw').2 i hi).2
  have c := hcell i hi
  have h2 : ((cs.filterMap f).length : ℝ) * β ≤ N * β := mul_le_mul_of_nonneg_right hLr hβ
  have c' : |val lr * (Train32.cellSum (cs.filterMap f) i - (ds.map fun d => F d i).sum)| ≤ |val lr| * (N * β) := by
    rw [abs_mul]; exact mul_le_mul_of_nonneg_left (c.trans h2) (abs_nonneg _)
  have s1 := mul_le_mul_of_nonneg_left hsq (abs_nonneg (val lr))
  have e' : val (w'.getD i 0) - (val (w.getD i 0) - val lr * (ds.map fun d => F d i).sum) =
      (val (w'.getD i 0) - (val (w.getD i 0) - val lr * Train32.cellSum (cs.filterMap f) i)) -
        val lr * (Train32.cellSum (cs.filterMap f) i - (ds.map fun d => F d i).sum) := by ring
  rw [e']
  refine (abs_sub _ _).trans ?_
  unfold stepOff
  have e3 : (W + 3 * (|val lr| * total (cs.filterMap f).length Y + 1 / 2 ^ 126)) / 2 ^ 24 ≤ (W + 3 * (|val lr| * total N Y + 1 / 2 ^ 126)) / 2 ^ 24 :=
    div_le_div_of_nonneg_right (by linarith) (by positivity)
  have e4 : |val lr| * (N * β + N * N * Y / 2 ^ 24) = |val lr| * (N * β) + |val lr| * (N * N * Y / 2 ^ 24) := by ring
  rw [e4]
  linarith

theorem cell_index {a b : Nat} {i j : Nat} (hi : i < a) (hj : j < b) : i * b + j < a * b ∧ (i * b + j) / b = i ∧ (i * b + j) % b = j := by
  refine ⟨?_, ?_, ?_⟩
  · calc i * b + j < i * b + b := by omega
      _ = (i + 1) * b := by ring
      _ ≤ a * b := Nat.mul_le_mul_right b hi
  · rw [Nat.mul_comm, Nat.mul_add_div (by omega), Nat.div_eq_of_lt hj, add_zero]
  · rw [Nat.mul_comm, Nat.mul_add_mod, Nat.mod_eq_of_lt hj]

theorem index_cell {a b k : Nat} (hk : k < a * b) : k / b < a ∧ k % b < b := by
  have hc : 0 < b := by
    rcases Nat.eq_zero_or_pos b with h | h
    · subst h; simp at hk
    · exact h
  exact ⟨Nat.div_lt_of_lt_mul (by rw [Nat.mul_comm]; exact hk), Nat.mod_lt k hc⟩

theorem upto_params {k : Nat} {w : List F32.W} (hl : w.length = k) (hf : ∀ v ∈ w, F32.Finite v) (hW : ∀ v ∈ w, |val v| ≤ W) : Train32.Upto k W w :=
  ⟨hl, fun i hi => by
    have hi' : i < w.length := hl ▸ hi
    rw [List.getD_eq_getElem _ _ hi']
    exact ⟨hf _ (List.getElem_mem hi'), hW _ (List.getElem_mem hi')⟩⟩

/-- **C101: one step of training.** It ends; the shapes stay; and every parameter is finite and close to `w - lr * Δ`, where `Δ` is the derivative of
the loss of all sequences with respect to this parameter. -/
theorem srn_train (hM : GoodLib M.lib) (hS : GoodSlopeLib sl) (flr : F32.Finite lr) (h : SoundBatch n m g X E P H W |val lr| T ess) :
    (∃ g', TrainStep M sl lr n m (ess.map (·.map word)) g g') ∧ ∀ g', TrainStep M sl lr n m (ess.map (·.map word)) g g' →
      g'.w.length = n * m ∧ g'.wRec.length = n * n ∧ g'.b.length = n ∧
      (∀ i < n, ∀ j < m, F32.Finite (g'.w.getD (i * m + j) 0) ∧ ∃ Δ, HasDerivAt (fun t => batchOf n m ((theta n m g).addW i j t) ess) Δ 0 ∧
        |val (g'.w.getD (i * m + j) 0) - (val (g.w.getD (i * m + j) 0) - val lr * Δ)| ≤
          stepOff (stepCount ess) |val lr| W (conSize n g.wRec (slopeOff n m g X E) P H X 0 T) (conOff n g.wRec (slopeOff n m g X E) P H X 0 T)) ∧
      (∀ i < n, ∀ j < n, F32.Finite (g'.wRec.getD (i * n + j) 0) ∧ ∃ Δ, HasDerivAt (fun t => batchOf n m ((theta n m g).addU i j t) ess) Δ 0 ∧
        |val (g'.wRec.getD (i * n + j) 0) - (val (g.wRec.getD (i * n + j) 0) - val lr * Δ)| ≤
          stepOff (stepCount ess) |val lr| W (conSize n g.wRec (slopeOff n m g X E) P H 1 E T) (conOff n g.wRec (slopeOff n m g X E) P H 1 E T)) ∧
      ∀ i < n, F32.Finite (g'.b.getD i 0) ∧ ∃ Δ, HasDerivAt (fun t => batchOf n m ((theta n m g).addB i t) ess) Δ 0 ∧
        |val (g'.b.getD i 0) - (val (g.b.getD i 0) - val lr * Δ)| ≤
          stepOff (stepCount ess) |val lr| W (biasSize n g.wRec (slopeOff n m g X E) P H T) (biasOffT n g.wRec (slopeOff n m g X E) P H T) := by
  obtain ⟨⟨css0, hcss0⟩, pall⟩ := passes_ok (sl := sl) hM hS ess h fun _ he => he
  have hg := h.gate
  have uw := upto_params hg.w (fun v hv => (hg.wv v hv).1) fun v hv => h.params v (Or.inl hv)
  have uu := upto_params hg.wRec (fun v hv => (hg.wRecv v hv).1) fun v hv => h.params v (Or.inr (Or.inl hv))
  have ub := upto_params hg.b hg.bv fun v hv => h.params v (Or.inr (Or.inr hv))
  have fm : ∀ (f : Con → List F32.W) (l : List Con), l.filterMap (fun c => some (f c)) = l.map f := fun f l => by simp
  have hlen : ∀ css, PassesS M sl n m g (ess.map (·.map word)) css → css.flatten.length = stepCount ess := fun css hc => by
    rw [(pall css hc).length_eq, flat_length]
  have kw := fun css hc => param_ok M.cpu (C := Con) (B := Delta) flr (f := fun c => some c.gw) (F := fun d c => d.δ (c / m) * d.x (c % m)) (nonneg_largest _ _) (nonneg_largest _ _) h.w120 uw
    (pall css hc) (hlen css hc) h.count h.sumW (fun c d hcd => ⟨hcd.w, fun k hk => by
      obtain ⟨hi, hj⟩ := index_cell hk
      have := hcd.w' _ hi _ hj
      rwa [Nat.div_add_mod'] at this⟩)
  have ku := fun css hc => param_ok M.cpu (C := Con) (B := Delta) flr (f := fun c => c.gu) (F := fun d c => d.δ (c / n) * d.y (c % n)) (nonneg_largest _ _) (nonneg_largest _ _) h.w120 uu
    (pall css hc) (hlen css hc) h.count h.sumU (fun c d hcd => by
      have := hcd.u
      cases hgu : c.gu with
      | none =>
        rw [hgu] at this
        have this : ∀ k, d.y k = 0 := this
        exact fun k _ => by rw [this, mul_zero]
      | some q =>
        rw [hgu] at this
        refine ⟨this.1, fun k hk => ?_⟩
        obtain ⟨hi, hj⟩ := index_cell hk
        have := this.2 _ hi _ hj
        rwa [Nat.div_add_mod'] at this)
  have kb := fun css hc => param_ok M.cpu (C := Con) (B := Delta) flr (f := fun c => some c.gb) (F := fun d c => d.δ c) (nonneg_largest _ _) (nonneg_largest _ _) h.w120 ub
    (pall css hc) (hlen css hc) h.count h.sumB (fun c d hcd => ⟨hcd.b, hcd.b'⟩)
  simp only [fm] at kw kb
  refine ⟨?_, ?_⟩
  · obtain ⟨w', hw'⟩ := (kw css0 hcss0).1
    obtain ⟨u', hu'⟩ := (ku css0 hcss0).1
    obtain ⟨b', hb'⟩ := (kb css0 hcss0).1
    exact ⟨⟨w', u', b'⟩, css0, hcss0, hw', hu', hb'⟩
  · rintro g' ⟨css, hc, hw', hu', hb'⟩
    obtain ⟨a1, a2⟩ := (kw css hc).2 _ hw'
    obtain ⟨b1, b2⟩ := (ku css hc).2 _ hu'
    obtain ⟨c1, c2⟩ := (kb css hc).2 _ hb'
    refine ⟨a1, b1, c1, fun i hi j hj => ?_, fun i hi j hj => ?_, fun i hi => ?_⟩
    · obtain ⟨d0, d1, d2⟩ := cell_index hi hj
      obtain ⟨f1, f2⟩ := a2 _ d0
      simp only [d1, d2] at f2
      exact ⟨f1, _, batch_der ess fun es he => der_w (h.losses es he) hi hj, f2⟩
    · obtain ⟨d0, d1, d2⟩ := cell_index hi hj
      obtain ⟨f1, f2⟩ := b2 _ d0
      simp only [d1, d2] at f2
      exact ⟨f1, _, batch_der ess fun es he => der_u (h.losses es he) hi hj, f2⟩
    · obtain ⟨f1, f2⟩ := c2 i hi
      exact ⟨f1, _, batch_der ess fun es he => der_b (h.losses es he) hi, f2⟩

/-! ## An example: two copies of the sequence of the example of C100, and the rate 1/64 -/

namespace Example
open Verif.Rec32.Example Verif.Net32.Example

def rate : F32.W := 0x3c800000
theorem rate_val : val rate = 1 / 64 := by unfold rate; simp [val, unpack]; norm_num

theorem total4 {Y : ℝ} (h0 : 0 ≤ Y) (h : Y ≤ 10) : max 1 |val rate| * total 4 Y ≤ 2 ^ 120 := by
  have e : max 1 |val rate| = 1 := by rw [rate_val]; norm_num
  rw [e]
  unfold total
  push_cast
  have : (1000 : ℝ) ≤ 2 ^ 120 := by norm_num
  linarith

theorem soundBatch (cpu : Cpu) : SoundBatch 1 1 gate 1 (1 / 2 ^ 20) (3 / 2) (mseErr (1 / 2 ^ 20) (1 + 1 / 2 ^ 20 + 1 / 2)) 1 |val rate| 2
    [mseSteps cpu 1 1 (theta 1 1 gate) p1 (fun _ => 0) data, mseSteps cpu 1 1 (theta 1 1 gate) p1 (fun _ => 0) data] := by
  have s := sound cpu
  have one : ∀ {p : List SStep → Prop}, p (mseSteps cpu 1 1 (theta 1 1 gate) p1 (fun _ => 0) data) →
      ∀ es ∈ [mseSteps cpu 1 1 (theta 1 1 gate) p1 (fun _ => 0) data, mseSteps cpu 1 1 (theta 1 1 gate) p1 (fun _ => 0) data], p es := by
    intro p hp es he
    simp only [List.mem_cons, List.not_mem_nil, or_false, or_self] at he
    rw [he]; exact hp
  refine ⟨fits, ?_, by norm_num, one s.input, one s.losses, one s.last, one (p := fun es => es.length ≤ 2) (by simp [mseSteps, data]), ?_, s.out, s.e50, s.p0, s.h0, s.time,
    total4 (nonneg_largest _ _) bounds.1, total4 (nonneg_largest _ _) bounds.2.2.1, total4 (nonneg_largest _ _) bounds.2.2.2.2⟩
  · intro v hv
    simp only [gate, List.mem_cons, List.not_mem_nil, or_false] at hv
    rcases hv with rfl | rfl | rfl
    · rw [v1]; norm_num
    · rw [vh]; norm_num
    · rw [show val 0 = 0 from v0]; norm_num
  · simp [stepCount, mseSteps, data]

/-- The step ends, and the recurrent weight is within `1/1000` of that after a step of gradient descent. -/
example (cpu : Cpu) (j : ExpLog.Lane) : ∃ lib sl g' Δ, TrainStep ⟨cpu, j, lib⟩ sl rate 1 1
      [data.map fun q => (q.1, q.2.map (MseGrad cpu p1)), data.map fun q => (q.1, q.2.map (MseGrad cpu p1))] gate g' ∧
    HasDerivAt (fun t => batchOf 1 1 ((theta 1 1 gate).addU 0 0 t)
      [mseSteps cpu 1 1 (theta 1 1 gate) p1 (fun _ => 0) data, mseSteps cpu 1 1 (theta 1 1 gate) p1 (fun _ => 0) data]) Δ 0 ∧
    |val (g'.wRec.getD 0 0) - (1 / 2 - 1 / 64 * Δ)| ≤ 1 / 1000 := by
  obtain ⟨lib, h⟩ := exists_lib cpu j
  obtain ⟨sl, hs⟩ := Back32.Example.exists_slopes
  have hM : GoodLib (⟨cpu, j, lib⟩ : Machine).lib := h
  obtain ⟨⟨g', hg'⟩, hall⟩ := srn_train (M := ⟨cpu, j, lib⟩) (sl := sl) (lr := rate) hM hs (by unfold F32.Finite; decide) (soundBatch cpu)
  obtain ⟨-, -, -, -, hu, -⟩ := hall g' hg'
  obtain ⟨-, Δ, hΔ, e⟩ := hu 0 (by norm_num) 0 (by norm_num)
  simp only [List.map_cons, List.map_nil, mse_words] at hg'
  refine ⟨lib, sl, g', Δ, hg', hΔ, ?_⟩
  have ev : val (gate.wRec.getD (0 * 1 + 0) 0) = 1 / 2 := vh
  have el : |val rate| = 1 / 64 := by rw [rate_val]; norm_num
  rw [ev, el, rate_val] at e
  refine e.trans ?_
  obtain ⟨-, -, b3, b4, -⟩ := bounds
  rw [show stepCount [mseSteps cpu 1 1 (theta 1 1 gate) p1 (fun _ => 0) data, mseSteps cpu 1 1 (theta 1 1 gate) p1 (fun _ => 0) data] = 4 by simp [stepCount, mseSteps, data]]
  generalize conSize 1 gate.wRec (slopeOff 1 1 gate 1 (1 / 2 ^ 20)) (3 / 2) (mseErr (1 / 2 ^ 20) (1 + 1 / 2 ^ 20 + 1 / 2)) 1 (1 / 2 ^ 20) 2 = Y at *
  generalize conOff 1 gate.wRec (slopeOff 1 1 gate 1 (1 / 2 ^ 20)) (3 / 2) (mseErr (1 / 2 ^ 20) (1 + 1 / 2 ^ 20 + 1 / 2)) 1 (1 / 2 ^ 20) 2 = β at *
  unfold stepOff total
  push_cast
  norm_num at *
  linarith

end Example
end Verif.Srn32
