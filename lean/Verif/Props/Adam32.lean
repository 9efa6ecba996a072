import Verif.Lemmas.Adam32Step

set_option autoImplicit false
set_option linter.unusedSimpArgs false

/-!
# Adam and AdamW on 32-bit words, for any number of steps
-/

namespace Verif.Adam32
open Verif.F32 Verif.Asm Verif.Spec Verif.Spec.Kernels Verif.Net32 Verif.Rec32 Verif.Att32 Verif.Spec.Adam32

/-! ### One element -/

/-- What holds of one element after any number of steps. -/
structure Inv (K G : ℝ) (P : Int) (c : Cell) : Prop where
  w_fin : F32.Finite c.w
  v_fin : F32.Finite c.v
  m_fin : F32.Finite c.m
  w_le : |val c.w| ≤ (2 : ℝ) ^ P
  v_le : |val c.v| ≤ 2 * G
  m_nonneg : 0 ≤ val c.m
  m_le : val c.m ≤ 2 * G ^ 2
  ratio : |val c.v| ≤ K * Real.sqrt (val c.m) + 1 / 2 ^ 50

/-- One step of one element. -/
def Feed1 (A G : ℝ) (p : F32.W × F32.W) : Prop := F32.Finite p.1 ∧ 0 ≤ val p.1 ∧ val p.1 ≤ A ∧ F32.Finite p.2 ∧ |val p.2| ≤ G

theorem step1_ok {o : Settings} {A K G : ℝ} {P : Int} (ho : Sane o K) (hR : Room o A K P) (hG : 1 ≤ G) (hG' : G ≤ 2 ^ 60) {c : Cell}
    {p : F32.W × F32.W} (hc : Inv K G P c) (hp : Feed1 A G p) :
    Inv K G P (step1 o p.1 p.2 c) ∧
      |val (step1 o p.1 p.2 c).v - (val o.b1 * val c.v + val o.b1c * val p.2)| ≤ 6 * G / 2 ^ 24 ∧
      |val (step1 o p.1 p.2 c).m - (val o.b2 * val c.m + val o.b2c * val p.2 ^ 2)| ≤ 7 * G ^ 2 / 2 ^ 24 ∧
      |val (step1 o p.1 p.2 c).w - update o (val p.1) (val c.w) (val (step1 o p.1 p.2 c).v) (val (step1 o p.1 p.2 c).m)| ≤
        val p.1 * (K + decay o * |val c.w|) / 2 ^ 17 + |val c.w| / 2 ^ 24 + (2 : ℝ) ^ (-148 : Int) := by
  obtain ⟨fa, a0, a1, fg, hg⟩ := hp
  obtain ⟨fv, v2, v3⟩ := v1_ok ho hG (hG'.trans (by norm_num)) fg hc.v_fin hg hc.v_le
  obtain ⟨fm, m0, m2, m3⟩ := m1_ok ho hG hG' fg hc.m_fin hg hc.m_nonneg hc.m_le
  have hr := ratio_ok ho fv fm hc.m_nonneg m0 hc.ratio
  obtain ⟨fw, w2, w3⟩ := w1_ok ho hR fa a0 a1 hc.w_fin hc.w_le fv fm m0 hr
  exact ⟨⟨fw, fv, fm, w2, v2, m0, m2, hr⟩, v3, m3, w3⟩

/-- An average with an error in each step. -/
theorem avg_step {b c x g y X r : ℝ} (hb : 0 ≤ b) (hb1 : b < 1) (hx : |x - X| ≤ r / (1 - b)) (hy : |y - (b * x + c * g)| ≤ r) :
    |y - (b * X + c * g)| ≤ r / (1 - b) := by
  have e : y - (b * X + c * g) = (y - (b * x + c * g)) + b * (x - X) := by ring
  have h1 : |b * (x - X)| ≤ b * (r / (1 - b)) := by
    rw [abs_mul, abs_of_nonneg hb]; exact mul_le_mul_of_nonneg_left hx hb
  have h2 : r + b * (r / (1 - b)) = r / (1 - b) := by
    have : (1 - b) ≠ 0 := by linarith
    field_simp; ring
  rw [e, ← h2]
  exact (abs_add_le _ _).trans (add_le_add hy h1)

theorem run1_ok {o : Settings} {A K G : ℝ} {P : Int} (ho : Sane o K) (hR : Room o A K P) (hG : 1 ≤ G) (hG' : G ≤ 2 ^ 60) :
    ∀ (l : List (F32.W × F32.W)) (c : Cell) (V M : ℝ), Inv K G P c → (∀ p ∈ l, Feed1 A G p) →
      |val c.v - V| ≤ 6 * G / 2 ^ 24 / (1 - val o.b1) → |val c.m - M| ≤ 7 * G ^ 2 / 2 ^ 24 / (1 - val o.b2) →
      Inv K G P (run1 o l c) ∧
      |val (run1 o l c).v - avg (val o.b1) (val o.b1c) V (l.map fun p => val p.2)| ≤ 6 * G / 2 ^ 24 / (1 - val o.b1) ∧
      |val (run1 o l c).m - avg (val o.b2) (val o.b2c) M ((l.map fun p => val p.2).map (· ^ 2))| ≤ 7 * G ^ 2 / 2 ^ 24 / (1 - val o.b2)
  | [], c, V, M, hc, _, hV, hM => ⟨hc, hV, hM⟩
  | p :: l, c, V, M, hc, hl, hV, hM => by
    obtain ⟨h1, h2, h3, -⟩ := step1_ok ho hR hG hG' hc (hl p List.mem_cons_self)
    have b1 : val o.b1 < 1 := lt_of_le_of_lt ho.b1_le (by norm_num)
    have b2 : val o.b2 < 1 := lt_of_le_of_lt ho.b2_le (by norm_num)
    exact run1_ok ho hR hG hG' l _ _ _ h1 (fun q hq => hl q (List.mem_cons_of_mem _ hq)) (avg_step ho.b1_nonneg b1 hV h2)
      (avg_step ho.b2_pos.le b2 hM h3)

theorem inv_start {K G : ℝ} {P : Int} (hK : 1 ≤ K) (hG : 1 ≤ G) {w : F32.W} (hf : F32.Finite w) (hw : |val w| ≤ (2 : ℝ) ^ P) :
    Inv K G P ⟨w, 0, 0⟩ := by
  have f0 : F32.Finite 0 := by unfold F32.Finite; decide
  refine ⟨hf, f0, f0, hw, ?_, ?_, ?_, ?_⟩ <;> simp only [val_zero]
  · rw [abs_zero]; linarith
  · exact le_rfl
  · positivity
  · rw [Real.sqrt_zero, abs_zero, mul_zero, zero_add]; positivity

theorem feed_col {n : Nat} {A G : ℝ} {l : List (F32.W × List F32.W)} (h : ∀ p ∈ l, Feeds n A G p) {i : Nat} (hi : i < n) :
    ∀ p ∈ col l i, Feed1 A G p := by
  intro p hp
  obtain ⟨q, hq, rfl⟩ := List.mem_map.mp hp
  obtain ⟨h1, h2, h3, -, h5⟩ := h q hq
  exact ⟨h1, h2, h3, h5 i hi⟩

theorem col_grads (l : List (F32.W × List F32.W)) (i : Nat) : (col l i).map (fun p => val p.2) = grads l i := by
  unfold col grads; rw [List.map_map]; rfl

/-- The invariant and the averages after training. -/
theorem train_inv {cpu : Cpu} {o : Settings} {A K G : ℝ} {P : Int} (ho : Sane o K) (hR : Room o A K P) (hG : 1 ≤ G) (hG' : G ≤ 2 ^ 60)
    {n : Nat} {l : List (F32.W × List F32.W)} (hl : ∀ p ∈ l, Feeds n A G p) {w w' : List F32.W} {s' : State} (hn : w.length = n)
    (hw : ∀ i < n, F32.Finite (w.getD i 0) ∧ |val (w.getD i 0)| ≤ (2 : ℝ) ^ P) (h : Train cpu o l w w' s') :
    Fit n w' s' ∧ ∀ i < n, Inv K G P (cell w' s' i) ∧
      |val (s'.v.getD i 0) - avg (val o.b1) (val o.b1c) 0 (grads l i)| ≤ 6 * G / 2 ^ 24 / (1 - val o.b1) ∧
      |val (s'.m.getD i 0) - avg (val o.b2) (val o.b2c) 0 ((grads l i).map (· ^ 2))| ≤ 7 * G ^ 2 / 2 ^ 24 / (1 - val o.b2) := by
  subst hn
  obtain ⟨-, h2, h3⟩ := steps_cell l (newState_fit w) h
  refine ⟨h2, fun i hi => ?_⟩
  have hb1 : 0 < 1 - val o.b1 := by have := ho.b1_le; norm_num at this; linarith
  have hb2 : 0 < 1 - val o.b2 := by have := ho.b2_le; norm_num at this; linarith
  have := run1_ok ho hR hG hG' (col l i) ⟨w.getD i 0, 0, 0⟩ 0 0 (inv_start ho.K_ge hG (hw i hi).1 (hw i hi).2) (feed_col hl hi)
    (by simp only [val_zero, sub_zero, abs_zero]; positivity) (by simp only [val_zero, sub_zero, abs_zero]; positivity)
  rw [← newState_cell w i, ← h3 i hi, col_grads] at this
  exact this

/-- **Training never leaves the numbers**: for any number of steps with gradients up to `G` the optimizer runs to its end, parameters
and moments are numbers, the moments are those of Adam but for rounding, and the parameters stay bounded. -/
theorem adam_close (cpu : Cpu) {o : Settings} {A K G : ℝ} {P : Int} (ho : Sane o K) (hR : Room o A K P) (hG : 1 ≤ G) (hG' : G ≤ 2 ^ 60)
    {n : Nat} {l : List (F32.W × List F32.W)} (hl : ∀ p ∈ l, Feeds n A G p) {w : List F32.W} (hn : w.length = n)
    (hw : ∀ i < n, F32.Finite (w.getD i 0) ∧ |val (w.getD i 0)| ≤ (2 : ℝ) ^ P) :
    (∃ w' s', Train cpu o l w w' s') ∧ ∀ w' s', Train cpu o l w w' s' → Close o K G P n l w' s' := by
  constructor
  · exact steps_exists cpu o l (newState_fit w) fun p hp => (hl p hp).2.2.2.1.trans hn.symm
  · intro w' s' h
    obtain ⟨⟨h1, h2, h3⟩, h4⟩ := train_inv ho hR hG hG' hl hn hw h
    refine ⟨h1, h2, h3, fun i hi => ?_⟩
    obtain ⟨hi1, hi2, hi3⟩ := h4 i hi
    exact ⟨hi1.w_fin, hi1.v_fin, hi1.m_fin, hi1.w_le, hi2, hi3, hi1.m_nonneg, hi1.ratio⟩

/-- **Every step is the one of Adam**, with the moments after it, but for rounding. -/
theorem adam_step {cpu : Cpu} {o : Settings} {A K G : ℝ} {P : Int} (ho : Sane o K) (hR : Room o A K P) (hG : 1 ≤ G) (hG' : G ≤ 2 ^ 60)
    {n : Nat} {l : List (F32.W × List F32.W)} (hl : ∀ p ∈ l, Feeds n A G p) {w w₁ w₂ : List F32.W} {s₁ s₂ : State} (hn : w.length = n)
    (hw : ∀ i < n, F32.Finite (w.getD i 0) ∧ |val (w.getD i 0)| ≤ (2 : ℝ) ^ P) (h : Train cpu o l w w₁ s₁)
    {alpha : F32.W} {g : List F32.W} (hp : Feeds n A G (alpha, g)) (hs : Step cpu o alpha w₁ g s₁ w₂ s₂) :
    StepClose o K n alpha w₁ w₂ s₂ := by
  obtain ⟨hf, h4⟩ := train_inv ho hR hG hG' hl hn hw h
  obtain ⟨-, -, h5⟩ := step_cell hf hs
  intro i hi
  obtain ⟨h6, -, -, h7⟩ := step1_ok ho hR hG hG' (h4 i hi).1 (p := (alpha, g.getD i 0))
    ⟨hp.1, hp.2.1, hp.2.2.1, hp.2.2.2.2 i hi⟩
  simp only at h6 h7
  rw [← h5 i hi] at h6 h7
  exact ⟨h7, (quot_ok ho h6.v_fin h6.m_fin h6.m_nonneg h6.ratio).1⟩

/-- **No gradient makes a step larger than `K` times `Alpha`**, but for rounding. -/
theorem adam_step_bound {cpu : Cpu} {o : Settings} {A K G : ℝ} {P : Int} (ho : Sane o K) (hR : Room o A K P) (hG : 1 ≤ G)
    (hG' : G ≤ 2 ^ 60) (hd : o.decay = none)
    {n : Nat} {l : List (F32.W × List F32.W)} (hl : ∀ p ∈ l, Feeds n A G p) {w w₁ w₂ : List F32.W} {s₁ s₂ : State} (hn : w.length = n)
    (hw : ∀ i < n, F32.Finite (w.getD i 0) ∧ |val (w.getD i 0)| ≤ (2 : ℝ) ^ P) (h : Train cpu o l w w₁ s₁)
    {alpha : F32.W} {g : List F32.W} (hp : Feeds n A G (alpha, g)) (hs : Step cpu o alpha w₁ g s₁ w₂ s₂) :
    ∀ i < n, |val (w₂.getD i 0) - val (w₁.getD i 0)| ≤
      val alpha * K * (1 + 1 / 2 ^ 17) + |val (w₁.getD i 0)| / 2 ^ 24 + (2 : ℝ) ^ (-148 : Int) := by
  intro i hi
  obtain ⟨h1, h2⟩ := adam_step ho hR hG hG' hl hn hw h hp hs i hi
  have ha : 0 ≤ val alpha := hp.2.1
  unfold update at h1
  rw [decay_none hd, zero_mul, zero_mul, add_zero, add_zero] at h1
  generalize val (s₂.v.getD i 0) / (Real.sqrt (val (s₂.m.getD i 0)) + val o.eps) = Q at *
  have h3 : |val alpha * Q| ≤ val alpha * K := by
    rw [abs_mul, abs_of_nonneg ha]; exact mul_le_mul_of_nonneg_left h2 ha
  have h4 := abs_sub_le (val (w₂.getD i 0)) (val (w₁.getD i 0) - val alpha * Q) (val (w₁.getD i 0))
  have h5 : val (w₁.getD i 0) - val alpha * Q - val (w₁.getD i 0) = -(val alpha * Q) := by ring
  rw [h5, abs_neg] at h4
  have h6 : val alpha * K * (1 + 1 / 2 ^ 17) = val alpha * K + val alpha * K / 2 ^ 17 := by ring
  rw [h6]
  linarith

end Verif.Adam32
