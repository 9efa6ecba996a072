import Verif.Lemmas.Lstm32Back
import Verif.Props.Srn32

set_option autoImplicit false
set_option linter.unusedSimpArgs false

/-!
# C102: back-propagation through time of an LSTM on the words of float32
-/

namespace Verif.Lstm32
open Verif.F32 Verif.Asm Verif.Spec Verif.Spec.Kernels Verif.Net32 Verif.Rec32 Verif.Att32 Verif.Back32 Verif.Srn32 Verif.Spec.Net32 Verif.Spec.Rec32
  Verif.Spec.Back32 Verif.Spec.Srn32 Verif.Spec.Train32 Verif.Spec.Lstm32

variable {n m : Nat} {M : Machine} {sl : Slopes} {g : Lstm} {X Ec Ey P H : ℝ} {es : List SStep}

/-! ## The derivatives -/

theorem sumG_single (q : Gt) (f : Gt → ℝ) (h : ∀ p, p ≠ q → f p = 0) : sumG f = f q := by
  unfold sumG
  cases q
  · rw [h .out (by decide), h .forget (by decide), h .cand (by decide)]; ring
  · rw [h .inp (by decide), h .forget (by decide), h .cand (by decide)]; ring
  · rw [h .inp (by decide), h .out (by decide), h .cand (by decide)]; ring
  · rw [h .inp (by decide), h .out (by decide), h .forget (by decide)]; ring

/-- The parameters of one gate move. -/
theorem der_gate {Θ : Thetas} (hgs : GoodL n m Θ Ey P H (fun _ => 0) (fun _ => 0) es) (q : Gt) (c : ℝ → Theta) (c' : Theta) (h0 : c 0 = Θ q)
    (hw : ∀ i < n, ∀ k < m, HasDerivAt (fun t => (c t).w i k) (c'.w i k) 0) (hu : ∀ i < n, ∀ k < n, HasDerivAt (fun t => (c t).u i k) (c'.u i k) 0)
    (hb : ∀ i < n, HasDerivAt (fun t => (c t).b i) (c'.b i) 0) :
    HasDerivAt (fun t => lossL n m (Θ.set q (c t)) (fun _ => 0) (fun _ => 0) es) (((deltasL n m Θ (fun _ => 0) (fun _ => 0) es).map fun d =>
      ∑ i ∈ Finset.range n, (d q).δ i * (∑ k ∈ Finset.range m, c'.w i k * (d q).x k + c'.b i + ∑ k ∈ Finset.range n, c'.u i k * (d q).y k)).sum) 0 := by
  have e0 : Θ.set q (c 0) = Θ := by
    funext p
    unfold Thetas.set
    split
    · rename_i h; rw [h, h0]
    · rfl
  have := loss_der (E := Ey) (P := P) (H := H) (fun t => Θ.set q (c t)) (fun p => if p = q then c' else ⟨fun _ _ => 0, fun _ _ => 0, fun _ => 0⟩) 0
    (fun p i hi k hk => by
      unfold Thetas.set
      by_cases h : p = q
      · simp only [h, if_true]; exact hw i hi k hk
      · simp only [h, if_false]; exact hasDerivAt_const _ _)
    (fun p i hi k hk => by
      unfold Thetas.set
      by_cases h : p = q
      · simp only [h, if_true]; exact hu i hi k hk
      · simp only [h, if_false]; exact hasDerivAt_const _ _)
    (fun p i hi => by
      unfold Thetas.set
      by_cases h : p = q
      · simp only [h, if_true]; exact hb i hi
      · simp only [h, if_false]; exact hasDerivAt_const _ _)
    es (fun _ _ => 0) (fun _ _ => 0) (fun _ => 0) (fun _ => 0) (by rw [e0]; exact hgs) (fun k _ => hasDerivAt_const _ _) (fun k _ => hasDerivAt_const _ _)
  rw [e0] at this
  refine this.congr_deriv ?_
  simp only [mul_zero, add_zero, Finset.sum_const_zero]
  congr 1
  refine List.map_congr_left fun d _ => ?_
  unfold pairing
  refine Finset.sum_congr rfl fun i _ => ?_
  rw [sumG_single q _ (fun p hp => by simp [hp])]
  simp

theorem der_w {Θ : Thetas} (hgs : GoodL n m Θ Ey P H (fun _ => 0) (fun _ => 0) es) (q : Gt) {i j : Nat} (hi : i < n) (hj : j < m) :
    HasDerivAt (fun t => lossL n m (Θ.set q ((Θ q).addW i j t)) (fun _ => 0) (fun _ => 0) es)
      ((deltasL n m Θ (fun _ => 0) (fun _ => 0) es).map fun d => (d q).δ i * (d q).x j).sum 0 := by
  refine (der_gate hgs q (fun t => (Θ q).addW i j t) ⟨fun r k => if r = i ∧ k = j then 1 else 0, fun _ _ => 0, fun _ => 0⟩
    (by simp [Theta.addW]) (fun r _ k _ => der_if _ _) (fun r _ k _ => hasDerivAt_const _ _) (fun r _ => hasDerivAt_const _ _)).congr_deriv ?_
  congr 1
  refine List.map_congr_left fun d _ => ?_
  have e : ∀ r ∈ Finset.range n, (d q).δ r * (∑ k ∈ Finset.range m, (if r = i ∧ k = j then (1 : ℝ) else 0) * (d q).x k + 0 + ∑ k ∈ Finset.range n, (0 : ℝ) * (d q).y k) =
      if r = i then (d q).δ i * (d q).x j else 0 := by
    intro r _
    by_cases h : r = i
    · subst h
      simp [Finset.sum_ite_eq', hj]
    · simp [h]
  rw [Finset.sum_congr rfl e, Finset.sum_ite_eq', if_pos (Finset.mem_range.mpr hi)]

theorem der_u {Θ : Thetas} (hgs : GoodL n m Θ Ey P H (fun _ => 0) (fun _ => 0) es) (q : Gt) {i j : Nat} (hi : i < n) (hj : j < n) :
    HasDerivAt (fun t => lossL n m (Θ.set q ((Θ q).addU i j t)) (fun _ => 0) (fun _ => 0) es)
      ((deltasL n m Θ (fun _ => 0) (fun _ => 0) es).map fun d => (d q).δ i * (d q).y j).sum 0 := by
  refine (der_gate hgs q (fun t => (Θ q).addU i j t) ⟨fun _ _ => 0, fun r k => if r = i ∧ k = j then 1 else 0, fun _ => 0⟩
    (by simp [Theta.addU]) (fun r _ k _ => hasDerivAt_const _ _) (fun r _ k _ => der_if _ _) (fun r _ => hasDerivAt_const _ _)).congr_deriv ?_
  congr 1
  refine List.map_congr_left fun d _ => ?_
  have e : ∀ r ∈ Finset.range n, (d q).δ r * (∑ k ∈ Finset.range m, (0 : ℝ) * (d q).x k + 0 + ∑ k ∈ Finset.range n, (if r = i ∧ k = j then (1 : ℝ) else 0) * (d q).y k) =
      if r = i then (d q).δ i * (d q).y j else 0 := by
    intro r _
    by_cases h : r = i
    · subst h
      simp [Finset.sum_ite_eq', hj]
    · simp [h]
  rw [Finset.sum_congr rfl e, Finset.sum_ite_eq', if_pos (Finset.mem_range.mpr hi)]

theorem der_b {Θ : Thetas} (hgs : GoodL n m Θ Ey P H (fun _ => 0) (fun _ => 0) es) (q : Gt) {i : Nat} (hi : i < n) :
    HasDerivAt (fun t => lossL n m (Θ.set q ((Θ q).addB i t)) (fun _ => 0) (fun _ => 0) es)
      ((deltasL n m Θ (fun _ => 0) (fun _ => 0) es).map fun d => (d q).δ i).sum 0 := by
  refine (der_gate hgs q (fun t => (Θ q).addB i t) ⟨fun _ _ => 0, fun _ _ => 0, fun r => if r = i then 1 else 0⟩
    (by simp [Theta.addB]) (fun r _ k _ => hasDerivAt_const _ _) (fun r _ k _ => hasDerivAt_const _ _) (fun r _ => der_if _ _)).congr_deriv ?_
  congr 1
  refine List.map_congr_left fun d _ => ?_
  have e : ∀ r ∈ Finset.range n, (d q).δ r * (∑ k ∈ Finset.range m, (0 : ℝ) * (d q).x k + (if r = i then (1 : ℝ) else 0) + ∑ k ∈ Finset.range n, (0 : ℝ) * (d q).y k) =
      if r = i then (d q).δ i else 0 := by
    intro r _
    by_cases h : r = i
    · subst h; simp
    · simp [h]
  rw [Finset.sum_congr rfl e, Finset.sum_ite_eq', if_pos (Finset.mem_range.mpr hi)]

theorem der_x {Θ : Thetas} {j : Nat} (hj : j < m) : ∀ (es : List SStep) (c y : Nat → ℝ) (p : Nat) (e : SStep) (d : Gt → Delta), GoodL n m Θ Ey P H c y es →
    es[p]? = some e → (deltasL n m Θ c y es)[p]? = some d →
    HasDerivAt (fun t => lossInL n m Θ c y es p (addX e.x j t)) (sumG fun q => ∑ i ∈ Finset.range n, (d q).δ i * (Θ q).w i j) 0
  | [], _, _, _, _, _, _, he, _ => by simp at he
  | e :: es, c, y, p + 1, e', d, hgs, he, hd => by
    have ih := der_x hj es (cellL n m Θ (vals e.x) c y) (outL n m Θ (vals e.x) c y) p e' d hgs.2 (by simpa using he) (by simpa [deltasL] using hd)
    exact ih.const_add _
  | e :: es, c, y, 0, e', d, hgs, he, hd => by
    obtain rfl : e = e' := by simpa using he
    obtain ⟨hl, hes⟩ := hgs
    have h0 : addX e.x j 0 = vals e.x := by funext k; simp [addX]
    have harg : ∀ q, ∀ i < n, HasDerivAt (fun t => arg n m (Θ q) (addX e.x j t) y i) ((Θ q).w i j) 0 := by
      intro q i hi
      have h1 : HasDerivAt (fun t => ∑ k ∈ Finset.range m, (Θ q).w i k * addX e.x j t k) (∑ k ∈ Finset.range m, (Θ q).w i k * if k = j then 1 else 0) 0 :=
        HasDerivAt.fun_sum fun k hk => (der_if (p := k = j) (vals e.x k) 0).const_mul ((Θ q).w i k)
      have e1 : ∑ k ∈ Finset.range m, (Θ q).w i k * (if k = j then (1 : ℝ) else 0) = (Θ q).w i j := by simp [hj]
      rw [e1] at h1
      exact (h1.add_const ((Θ q).b i)).add_const _
    have hst := fun i (hi : i < n) => step_der (Θ := fun _ => Θ) (x := fun t => addX e.x j t) (c := fun _ => c) (y := fun _ => y) (A := fun q i => (Θ q).w i j) (c' := fun _ => 0)
      harg (fun k _ => hasDerivAt_const _ _) hi
    have hJ := own_der (e := e) (v := fun t => outL n m Θ (addX e.x j t) c y) (by beta_reduce; rw [h0]; exact hl) (fun i hi => (hst i hi).2)
    have hrest := loss_der (E := Ey) (P := P) (H := H) (fun _ => Θ) (fun _ => ⟨fun _ _ => 0, fun _ _ => 0, fun _ => 0⟩) 0 (fun _ _ _ _ _ => hasDerivAt_const _ _)
      (fun _ _ _ _ _ => hasDerivAt_const _ _) (fun _ _ _ => hasDerivAt_const _ _) es (fun t => cellL n m Θ (addX e.x j t) c y) (fun t => outL n m Θ (addX e.x j t) c y) _ _
      (by beta_reduce; rw [h0]; exact hes) (fun i hi => (hst i hi).1) (fun i hi => (hst i hi).2)
    refine (hJ.fun_add hrest).congr_deriv ?_
    beta_reduce
    rw [h0]
    obtain rfl : _ = d := by simpa [deltasL] using hd
    have ez : (List.map (pairing n m fun _ => ⟨fun _ _ => 0, fun _ _ => 0, fun _ => 0⟩) (deltasL n m Θ (cellL n m Θ (vals e.x) c y) (outL n m Θ (vals e.x) c y) es)).sum = 0 := by
      have : (pairing n m fun _ => (⟨fun _ _ => 0, fun _ _ => 0, fun _ => 0⟩ : Theta)) = fun _ => 0 := by funext d; simp [pairing, sumG]
      rw [this]; simp
    rw [ez, zero_add, ← Finset.sum_add_distrib, Finset.sum_congr rfl fun i _ => key_sum Θ c y e _ _ _ i]
    simp only [mul_zero, add_zero]
    rw [sum_sumG]

/-! ## The theorems -/

theorem sound_tol (h : Sound n m g X Ec Ey P H es) : TolOk (tol n m g X Ec Ey es.length) := by
  have hX0 := (h.gate .inp).x0
  have hb := lstmBound_nonneg (n := n) (m := m) (g := g) hX0 0
  have hE : 0 ≤ Ey := hb.2.trans (h.out 0 (by omega)).2
  have hC : 0 ≤ Ec := hb.1.trans (h.out 0 (by omega)).1
  have hs : ∀ q, 0 ≤ sumErr n m g X Ey q := sumErr_nonneg hX0 hE
  refine ⟨fun q => ?_, fun q => ?_, hC, Nat.cast_nonneg _, fun q => (h.gates q).1, fun q => (h.gates q).2, h.cells, ?_⟩
  · have := hs q
    show 0 ≤ actErr (actOf q) + lipOf (actOf q) * sumErr n m g X Ey q
    cases q <;> simp only [actOf, actErr, lipOf] <;> positivity
  · have := hs q
    show 0 ≤ slopeErr (actOf q) (sumErr n m g X Ey q)
    cases q <;> simp only [actOf, slopeErr] <;> positivity
  · show ((es.length : ℕ) : ℝ) ≤ 2 ^ 20
    exact_mod_cast h.steps.2

/-- From the start. -/
theorem bptt_start (hM : GoodLib M.lib) (hS : GoodSlopeLib sl) (h : Sound n m g X Ec Ey P H es) :
    (∃ zy zc cs, Bptt M sl n m g none (es.map word) zy zc cs) ∧ ∀ zy zc cs, Bptt M sl n m g none (es.map word) zy zc cs →
      List.Forall₂ (StepOk n m g (tol n m g X Ec Ey es.length) P H X Ey es.length) cs (deltasL n m (thetas n m g) (fun _ => 0) (fun _ => 0) es) := by
  have key := bptt_ok (sl := sl) hM hS h.gate h.e50 h.p0 h.h0 rfl (sound_tol h) h.time h.out es 0 none (fun _ => 0) (fun _ => 0) (by omega) h.input h.losses h.last
    ⟨fun _ h => by simp at h, fun k _ => by simp, fun k _ => by simp [pc, lstmBound], fun k _ => by simp [pv, lstmBound]⟩ (fun _ _ => by simp) (fun _ => ⟨fun _ => rfl, fun _ => rfl⟩)
  exact ⟨key.1, fun zy zc cs hb => (key.2 zy zc cs hb).2⟩

theorem deltas_length (Θ : Thetas) : ∀ (es : List SStep) (c y : Nat → ℝ), (deltasL n m Θ c y es).length = es.length
  | [], _, _ => rfl
  | e :: es, c, y => by simp [deltasL, deltas_length Θ es]

/-- **C102: it ends, with the contributions of every step.** -/
theorem lstm_ends (hM : GoodLib M.lib) (hS : GoodSlopeLib sl) (h : Sound n m g X Ec Ey P H es) :
    (∃ zy zc cs, Bptt M sl n m g none (es.map word) zy zc cs) ∧ ∀ zy zc cs, Bptt M sl n m g none (es.map word) zy zc cs → cs.length = es.length := by
  obtain ⟨h1, h2⟩ := bptt_start hM hS h
  exact ⟨h1, fun zy zc cs hb => by rw [(h2 zy zc cs hb).length_eq, deltas_length]⟩

/-- What the steps contribute to the gradients of a gate. -/
def toW (q : Gt) (k : Gt → Option Con) : Option (List F32.W) := (k q).map (·.gw)
def toB (q : Gt) (k : Gt → Option Con) : Option (List F32.W) := (k q).map (·.gb)
def toU (q : Gt) (k : Gt → Option Con) : Option (List F32.W) := (k q).bind (·.gu)

theorem cell_idx {r cols i j : Nat} (hi : i < r) (hj : j < cols) : i * cols + j < r * cols ∧ (i * cols + j) / cols = i ∧ (i * cols + j) % cols = j := by
  refine ⟨?_, ?_, ?_⟩
  · calc i * cols + j < i * cols + cols := by omega
      _ = (i + 1) * cols := by ring
      _ ≤ r * cols := Nat.mul_le_mul_right cols hi
  · rw [Nat.mul_comm, Nat.mul_add_div (by omega), Nat.div_eq_of_lt hj, add_zero]
  · rw [Nat.mul_comm, Nat.mul_add_mod, Nat.mod_eq_of_lt hj]

theorem idx_cell {r cols k : Nat} (hk : k < r * cols) : k / cols < r ∧ k % cols < cols := by
  have hc : 0 < cols := by
    rcases Nat.eq_zero_or_pos cols with h | h
    · subst h; simp at hk
    · exact h
  exact ⟨Nat.div_lt_of_lt_mul (by rw [Nat.mul_comm]; exact hk), Nat.mod_lt k hc⟩

/-- **C102: the weights of the inputs.** A gate without a gradient has derivatives 0. -/
theorem lstm_weights (hM : GoodLib M.lib) (hS : GoodSlopeLib sl) (h : Sound n m g X Ec Ey P H es) {zy : List (List F32.W)} {zc : Option (List F32.W)}
    {cs : List (Gt → Option Con)} (hb : Bptt M sl n m g none (es.map word) zy zc cs) (q : Gt) :
    (∃ gw, Gather M.cpu (cs.filterMap (toW q)) gw) ∧ ∀ gw, Gather M.cpu (cs.filterMap (toW q)) gw → (∀ w, gw = some w → w.length = n * m) ∧
      ∀ i < n, ∀ j < m, ∃ Δ, HasDerivAt (fun t => lossL n m ((thetas n m g).set q ((thetas n m g q).addW i j t)) (fun _ => 0) (fun _ => 0) es) Δ 0 ∧
        (gw = none → Δ = 0) ∧ ∀ w, gw = some w → F32.Finite (w.getD (i * m + j) 0) ∧
          |val (w.getD (i * m + j) 0) - Δ| ≤ sumOff es.length
            (conTop (tops n g (tol n m g X Ec Ey es.length) P H q) (offs n g (tol n m g X Ec Ey es.length) P H q) X 0 es.length)
            (conErr (tops n g (tol n m g X Ec Ey es.length) P H q) (offs n g (tol n m g X Ec Ey es.length) P H q) X 0 es.length) := by
  have hf := (bptt_start hM hS h).2 zy zc cs hb
  have hlen := (lstm_ends hM hS h).2 zy zc cs hb
  have key := sum_ok M.cpu (C := Gt → Option Con) (B := Gt → Delta) (f := toW q) (F := fun d c => (d q).δ (c / m) * (d q).x (c % m)) (k := n * m) (nonneg_largest _ _) (nonneg_largest _ _) hf hlen h.steps.2 (h.sumW q)
    (fun k d hkd => by
      have := hkd q
      unfold toW
      cases hk : k q with
      | none => rw [hk] at this; exact fun i _ => by rw [this, zero_mul]
      | some c =>
        rw [hk] at this
        refine ⟨this.w, fun k hk => ?_⟩
        have e := this.w' _ (idx_cell hk).1 _ (idx_cell hk).2
        rwa [Nat.div_add_mod'] at e)
  refine ⟨key.1, fun gw hgw => ?_⟩
  have k2 := key.2 gw hgw
  refine ⟨fun w hw => by subst hw; exact k2.1, fun i hi j hj => ⟨_, der_w h.losses q hi hj, ?_, ?_⟩⟩
  · rintro rfl
    obtain ⟨d0, d1, d2⟩ := cell_idx hi hj
    have := k2.2 _ d0
    simp only [d1, d2] at this
    exact this
  · rintro w rfl
    obtain ⟨d0, d1, d2⟩ := cell_idx hi hj
    obtain ⟨f1, f2⟩ := k2.2 _ d0
    simp only [d1, d2] at f2
    exact ⟨f1, f2⟩

/-- **C102: the biases.** -/
theorem lstm_bias (hM : GoodLib M.lib) (hS : GoodSlopeLib sl) (h : Sound n m g X Ec Ey P H es) {zy : List (List F32.W)} {zc : Option (List F32.W)}
    {cs : List (Gt → Option Con)} (hb : Bptt M sl n m g none (es.map word) zy zc cs) (q : Gt) :
    (∃ gb, Gather M.cpu (cs.filterMap (toB q)) gb) ∧ ∀ gb, Gather M.cpu (cs.filterMap (toB q)) gb → (∀ w, gb = some w → w.length = n) ∧
      ∀ i < n, ∃ Δ, HasDerivAt (fun t => lossL n m ((thetas n m g).set q ((thetas n m g q).addB i t)) (fun _ => 0) (fun _ => 0) es) Δ 0 ∧
        (gb = none → Δ = 0) ∧ ∀ w, gb = some w → F32.Finite (w.getD i 0) ∧
          |val (w.getD i 0) - Δ| ≤ sumOff es.length
            (biasTop (tops n g (tol n m g X Ec Ey es.length) P H q) (offs n g (tol n m g X Ec Ey es.length) P H q) es.length)
            (biasErr (offs n g (tol n m g X Ec Ey es.length) P H q) es.length) := by
  have hf := (bptt_start hM hS h).2 zy zc cs hb
  have hlen := (lstm_ends hM hS h).2 zy zc cs hb
  have key := sum_ok M.cpu (C := Gt → Option Con) (B := Gt → Delta) (f := toB q) (F := fun d c => (d q).δ c) (k := n) (nonneg_largest _ _) (nonneg_largest _ _) hf hlen h.steps.2 (h.sumB q)
    (fun k d hkd => by
      have := hkd q
      unfold toB
      cases hk : k q with
      | none => rw [hk] at this; exact fun i _ => this i
      | some c => rw [hk] at this; exact ⟨this.b, this.b'⟩)
  refine ⟨key.1, fun gb hgb => ?_⟩
  have k2 := key.2 gb hgb
  refine ⟨fun w hw => by subst hw; exact k2.1, fun i hi => ⟨_, der_b h.losses q hi, ?_, ?_⟩⟩
  · rintro rfl; exact k2.2 i hi
  · rintro w rfl; exact k2.2 i hi

/-- **C102: the recurrent weights.** -/
theorem lstm_recurrent (hM : GoodLib M.lib) (hS : GoodSlopeLib sl) (h : Sound n m g X Ec Ey P H es) {zy : List (List F32.W)} {zc : Option (List F32.W)}
    {cs : List (Gt → Option Con)} (hb : Bptt M sl n m g none (es.map word) zy zc cs) (q : Gt) :
    (∃ gu, Gather M.cpu (cs.filterMap (toU q)) gu) ∧ ∀ gu, Gather M.cpu (cs.filterMap (toU q)) gu → (∀ w, gu = some w → w.length = n * n) ∧
      ∀ i < n, ∀ j < n, ∃ Δ, HasDerivAt (fun t => lossL n m ((thetas n m g).set q ((thetas n m g q).addU i j t)) (fun _ => 0) (fun _ => 0) es) Δ 0 ∧
        (gu = none → Δ = 0) ∧ ∀ w, gu = some w → F32.Finite (w.getD (i * n + j) 0) ∧
          |val (w.getD (i * n + j) 0) - Δ| ≤ sumOff es.length
            (conTop (tops n g (tol n m g X Ec Ey es.length) P H q) (offs n g (tol n m g X Ec Ey es.length) P H q) 1 Ey es.length)
            (conErr (tops n g (tol n m g X Ec Ey es.length) P H q) (offs n g (tol n m g X Ec Ey es.length) P H q) 1 Ey es.length) := by
  have hf := (bptt_start hM hS h).2 zy zc cs hb
  have hlen := (lstm_ends hM hS h).2 zy zc cs hb
  have key := sum_ok M.cpu (C := Gt → Option Con) (B := Gt → Delta) (f := toU q) (F := fun d c => (d q).δ (c / n) * (d q).y (c % n)) (k := n * n) (nonneg_largest _ _) (nonneg_largest _ _) hf hlen h.steps.2 (h.sumU q)
    (fun k d hkd => by
      have := hkd q
      unfold toU
      cases hk : k q with
      | none => rw [hk] at this; exact fun i _ => by rw [this, zero_mul]
      | some c =>
        rw [hk] at this
        have hu := this.u
        rw [Option.bind_some]
        cases hgu : c.gu with
        | none => rw [hgu] at hu; exact fun k _ => by rw [hu, mul_zero]
        | some w =>
          rw [hgu] at hu
          refine ⟨hu.1, fun k hk => ?_⟩
          have e := hu.2 _ (idx_cell hk).1 _ (idx_cell hk).2
          rwa [Nat.div_add_mod'] at e)
  refine ⟨key.1, fun gu hgu => ?_⟩
  have k2 := key.2 gu hgu
  refine ⟨fun w hw => by subst hw; exact k2.1, fun i hi j hj => ⟨_, der_u h.losses q hi hj, ?_, ?_⟩⟩
  · rintro rfl
    obtain ⟨d0, d1, d2⟩ := cell_idx hi hj
    have := k2.2 _ d0
    simp only [d1, d2] at this
    exact this
  · rintro w rfl
    obtain ⟨d0, d1, d2⟩ := cell_idx hi hj
    obtain ⟨f1, f2⟩ := k2.2 _ d0
    simp only [d1, d2] at f2
    exact ⟨f1, f2⟩

/-- Which gates contribute. -/
theorem contribute : ∀ (es : List In) {prev : Option Cell} {zy : List (List F32.W)} {zc : Option (List F32.W)} {cs : List (Gt → Option Con)},
    Bptt M sl n m g prev es zy zc cs → ∀ k ∈ cs, ∀ q, (q ≠ .forget ∨ prev.isSome = true) → ∃ c, k q = some c ∧ (prev.isSome = true → c.gu.isSome = true)
  | [], _, _, _, _, h => by obtain ⟨-, -, rfl⟩ := h; simp
  | e :: es, prev, zy, zc, cs, h => by
    obtain ⟨a, v, s, hy, hc, qs, c, gy, -, hb, -, -, hrest⟩ := h
    have ih := contribute es hb
    have ih' : ∀ k ∈ qs, ∀ q, (q ≠ .forget ∨ prev.isSome = true) → ∃ c, k q = some c ∧ (prev.isSome = true → c.gu.isSome = true) := by
      intro k hk q _
      obtain ⟨c, h1, h2⟩ := ih k hk q (Or.inr rfl)
      exact ⟨c, h1, fun _ => h2 rfl⟩
    cases gy with
    | none => obtain ⟨-, -, rfl⟩ := hrest; exact ih'
    | some gy =>
      obtain ⟨gc, d, k, z, -, hk, -, rfl⟩ := hrest
      intro k' hk' q hq
      rcases List.mem_cons.mp hk' with rfl | hk'
      · have hkq := hk q
        rw [if_neg (by rintro ⟨h1, h2⟩; rcases hq with hq | hq; exacts [hq h2, by cases prev <;> simp_all])] at hkq
        obtain ⟨c, h1, s, -, -, -, -, -, h2⟩ := hkq
        refine ⟨c, h1, fun hp => ?_⟩
        obtain ⟨sp, rfl⟩ := Option.isSome_iff_exists.mp hp
        obtain ⟨gu, zz, -, -, h3, -⟩ := h2
        rw [h3]; rfl
      · exact ih' k' hk' q hq

theorem gather_some {l : List (List F32.W)} (hl : l ≠ []) {z : Option (List F32.W)} (h : Gather M.cpu l z) : z ≠ none := by
  rintro rfl
  obtain ⟨o, ho, ha⟩ := h
  cases o with
  | nil => exact hl (by simpa using ho.symm)
  | cons a o => obtain ⟨q, -, hq⟩ := ha; simp at hq

/-- The contributions of the second step and the later ones, if there are two. -/
theorem later_steps (hM : GoodLib M.lib) (hS : GoodSlopeLib sl) (h : Sound n m g X Ec Ey P H es) (h2 : 2 ≤ es.length) {zy : List (List F32.W)}
    {zc : Option (List F32.W)} {cs : List (Gt → Option Con)} (hb : Bptt M sl n m g none (es.map word) zy zc cs) :
    ∃ k ∈ cs, ∀ q, ∃ c u, k q = some c ∧ c.gu = some u := by
  have hlen := (lstm_ends hM hS h).2 zy zc cs hb
  match es, h2, hb, hlen with
  | e :: es, h2, hb, hlen =>
    obtain ⟨a, v, s, hy, hc, qs, c, gy, -, hb', -, -, hrest⟩ := hb
    have hall := contribute _ hb'
    have hq : qs ≠ [] ∧ ∀ c ∈ qs, c ∈ cs := by
      cases gy with
      | none =>
        obtain ⟨-, -, rfl⟩ := hrest
        refine ⟨?_, fun c hc => hc⟩
        rintro rfl
        simp at hlen
      | some gy =>
        obtain ⟨gc, d, k, z, -, -, -, rfl⟩ := hrest
        refine ⟨?_, fun c hc => List.mem_cons_of_mem _ hc⟩
        rintro rfl
        simp at hlen h2
        subst hlen
        simp at h2
    obtain ⟨k, hk⟩ := List.exists_mem_of_ne_nil _ hq.1
    refine ⟨k, hq.2 k hk, fun q => ?_⟩
    obtain ⟨c, h1, h3⟩ := hall k hk q (Or.inr rfl)
    obtain ⟨u, hu⟩ := Option.isSome_iff_exists.mp (h3 rfl)
    exact ⟨c, u, h1, hu⟩

/-- **C102: which gradients are there.** The weights and the bias of a gate have one, those of the forget gate from two steps on;
so do all recurrent weights. -/
theorem lstm_some (hM : GoodLib M.lib) (hS : GoodSlopeLib sl) (h : Sound n m g X Ec Ey P H es) {zy : List (List F32.W)} {zc : Option (List F32.W)}
    {cs : List (Gt → Option Con)} (hb : Bptt M sl n m g none (es.map word) zy zc cs) (q : Gt) :
    (q ≠ .forget ∨ 2 ≤ es.length → ∀ gw gb, Gather M.cpu (cs.filterMap (toW q)) gw → Gather M.cpu (cs.filterMap (toB q)) gb → gw ≠ none ∧ gb ≠ none) ∧
      (2 ≤ es.length → ∀ gu, Gather M.cpu (cs.filterMap (toU q)) gu → gu ≠ none) := by
  have hlen := (lstm_ends hM hS h).2 zy zc cs hb
  constructor
  · intro hq gw gb hgw hgb
    have : ∃ k ∈ cs, ∃ c, k q = some c := by
      rcases hq with hq | hq
      · have hne : cs ≠ [] := by
          rintro rfl
          exact h.steps.1 (List.eq_nil_of_length_eq_zero hlen.symm)
        obtain ⟨k, hk⟩ := List.exists_mem_of_ne_nil _ hne
        obtain ⟨c, hc, -⟩ := contribute _ hb k hk q (Or.inl hq)
        exact ⟨k, hk, c, hc⟩
      · obtain ⟨k, hk, hall⟩ := later_steps hM hS h hq hb
        obtain ⟨c, u, hc, -⟩ := hall q
        exact ⟨k, hk, c, hc⟩
    obtain ⟨k, hk, c, hc⟩ := this
    exact ⟨gather_some (List.ne_nil_of_mem (List.mem_filterMap.mpr ⟨k, hk, show toW q k = some c.gw by simp [toW, hc]⟩)) hgw,
      gather_some (List.ne_nil_of_mem (List.mem_filterMap.mpr ⟨k, hk, show toB q k = some c.gb by simp [toB, hc]⟩)) hgb⟩
  · intro h2 gu hgu
    obtain ⟨k, hk, hall⟩ := later_steps hM hS h h2 hb
    obtain ⟨c, u, hc, hu⟩ := hall q
    exact gather_some (List.ne_nil_of_mem (List.mem_filterMap.mpr ⟨k, hk, show toU q k = some u by simp [toU, hc, hu]⟩)) hgu

/-- **C102: one step leaves the forget gate without gradients**, and all recurrent weights. -/
theorem lstm_one_step (e : In) {zy : List (List F32.W)} {zc : Option (List F32.W)} {cs : List (Gt → Option Con)} (hb : Bptt M sl n m g none [e] zy zc cs) :
    cs.filterMap (toW .forget) = [] ∧ cs.filterMap (toB .forget) = [] ∧ ∀ q, cs.filterMap (toU q) = [] := by
  obtain ⟨a, v, s, hy, hc, qs, c, gy, -, ⟨-, -, rfl⟩, -, -, hrest⟩ := hb
  cases gy with
  | none => obtain ⟨-, -, rfl⟩ := hrest; simp
  | some gy =>
    obtain ⟨gc, d, k, z, -, hk, -, rfl⟩ := hrest
    have hf := hk .forget
    rw [if_pos ⟨rfl, rfl⟩] at hf
    refine ⟨by simp [toW, hf.1], by simp [toB, hf.1], fun q => ?_⟩
    have hq := hk q
    by_cases h : q = .forget
    · subst h; simp [toU, hf.1]
    · rw [if_neg (fun hh => h hh.2)] at hq
      obtain ⟨c, h1, s, -, -, -, -, -, h2, -⟩ := hq
      simp [toU, h1, h2]

/-- **C102: the inputs.** -/
theorem lstm_inputs (hM : GoodLib M.lib) (hS : GoodSlopeLib sl) (h : Sound n m g X Ec Ey P H es) {zy : List (List F32.W)} {zc : Option (List F32.W)}
    {cs : List (Gt → Option Con)} (hb : Bptt M sl n m g none (es.map word) zy zc cs) {p : Nat} {e : SStep} (he : es[p]? = some e) :
    ∃ k, cs[p]? = some k ∧ (∃ gx, Gather M.cpu (Gt.all.filterMap fun q => (k q).map (·.gx)) gx) ∧
      ∀ gx, Gather M.cpu (Gt.all.filterMap fun q => (k q).map (·.gx)) gx → ∃ w, gx = some w ∧ w.length = m ∧ ∀ j < m, F32.Finite (w.getD j 0) ∧
        ∃ Δ, HasDerivAt (fun t => lossInL n m (thetas n m g) (fun _ => 0) (fun _ => 0) es p (addX e.x j t)) Δ 0 ∧
          |val (w.getD j 0) - Δ| ≤ xOff n m g (tol n m g X Ec Ey es.length) P H es.length := by
  have hf := (bptt_start hM hS h).2 zy zc cs hb
  have hp : p < es.length := (List.getElem?_eq_some_iff.mp he).1
  have hpd : p < (deltasL n m (thetas n m g) (fun _ => 0) (fun _ => 0) es).length := by rw [deltas_length]; exact hp
  have hpc : p < cs.length := by rw [hf.length_eq]; exact hpd
  have hok := hf.get hpc hpd
  have hder := fun j (hj : j < m) => der_x hj es _ _ p e _ h.losses he (List.getElem?_eq_getElem hpd)
  obtain ⟨c0, hc0, -⟩ := contribute _ hb _ (List.getElem_mem hpc) .inp (Or.inl (by decide))
  simp only [List.get_eq_getElem] at hok
  refine ⟨cs[p], List.getElem?_eq_getElem hpc, ?_⟩
  generalize cs[p] = k at *
  generalize (deltasL n m (thetas n m g) (fun _ => 0) (fun _ => 0) es)[p] = d at *
  have hXs := h.sumX
  unfold xOff
  unfold xSum at hXs ⊢
  generalize htol : tol n m g X Ec Ey es.length = τ at *
  have hi : ∀ q, ItOk m ((k q).map (·.gx)) ⟨fun j => ∑ i ∈ Finset.range n, (d q).δ i * (thetas n m g q).w i j, inTop n m (gateOf g q).w (tops n g τ P H q) es.length,
      inErr n m (gateOf g q).w (tops n g τ P H q) (offs n g τ P H q) es.length⟩ := by
    intro q
    refine ⟨?_, largest_nonneg _ _, largest_nonneg _ _⟩
    have := hok q
    cases hk : k q with
    | none =>
      rw [hk] at this
      intro j
      show ∑ i ∈ Finset.range n, (d q).δ i * (thetas n m g q).w i j = 0
      exact Finset.sum_eq_zero fun i _ => by rw [this, zero_mul]
    | some c => rw [hk] at this; exact this.x
  have key := gather_items M.cpu (n := m) (l := Gt.all.map fun q => (k q).map (·.gx)) (ts := Gt.all.map fun q =>
      ⟨fun j => ∑ i ∈ Finset.range n, (d q).δ i * (thetas n m g q).w i j, inTop n m (gateOf g q).w (tops n g τ P H q) es.length,
        inErr n m (gateOf g q).w (tops n g τ P H q) (offs n g τ P H q) es.length⟩)
    (by simp only [Gt.all, List.map_cons, List.map_nil]; exact .cons (hi _) (.cons (hi _) (.cons (hi _) (.cons (hi _) .nil)))) (N := 4) rfl (by norm_num)
    (by rw [List.map_map]; exact (all_sum _).le.trans hXs) ⟨c0.gx, by simp [Gt.all, hc0]⟩
  rw [List.filterMap_map] at key
  simp only [List.map_map, Function.comp_def, id] at key
  refine ⟨key.1, fun gx hgx => ?_⟩
  obtain ⟨w, hw, h1, h3⟩ := key.2 gx hgx
  refine ⟨w, hw, h1, fun j hj => ?_⟩
  obtain ⟨f1, f2, -⟩ := h3 j hj
  refine ⟨f1, _, hder j hj, ?_⟩
  beta_reduce at f2
  rw [all_sum, all_sum, all_sum, show ((4 : ℕ) : ℝ) * ((4 : ℕ) : ℝ) = 16 by norm_num] at f2
  exact f2

end Verif.Lstm32
