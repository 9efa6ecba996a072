import Verif.Lemmas.Opt32
import Verif.Props.Adam32Frozen

set_option autoImplicit false
set_option linter.unusedSimpArgs false

/-!
# AdaGrad and RMSProp on 32-bit words (C95)
-/

namespace Verif.Opt32
open Verif.F32 Verif.Asm Verif.Spec Verif.Spec.Kernels Verif.Net32 Verif.Rec32 Verif.Att32 Verif.Adam32
open Verif.Spec.Adam32 (grads Feeds Room Sane avg)
open Verif.Spec.Opt32

theorem half_val : val 0x3f000000 = 1 / 2 := by simp [val, unpack]; norm_num
theorem one_val : val 0x3f800000 = 1 := by simp [val, unpack]; norm_num

/-- The epsilon of AdaGrad and RMSProp is a number as one uses it. -/
theorem ada_sane {eps : F32.W} (f : F32.Finite eps) (h1 : 1 / 2 ^ 40 ≤ val eps) (h2 : val eps ≤ 1) : Sane (adaSet eps) (1 + 1 / 2 ^ 20) where
  b1_fin := by change F32.Finite 0; unfold F32.Finite; decide
  b1c_fin := by change F32.Finite 0; unfold F32.Finite; decide
  b2_fin := by change F32.Finite 0x3f000000; unfold F32.Finite; decide
  b2c_fin := by change F32.Finite 0x3f000000; unfold F32.Finite; decide
  eps_fin := f
  b1_nonneg := by change 0 ≤ val 0; rw [val_zero]
  b1_le := by change val 0 ≤ _; rw [val_zero]; norm_num
  b1c_nonneg := by change 0 ≤ val 0; rw [val_zero]
  b1_sum := by change val 0 + val 0 ≤ _; rw [val_zero]; norm_num
  b2_pos := by change 0 < val 0x3f000000; rw [half_val]; norm_num
  b2_le := by change val 0x3f000000 ≤ _; rw [half_val]; norm_num
  b2c_pos := by change 0 < val 0x3f000000; rw [half_val]; norm_num
  b2_sum := by change val 0x3f000000 + val 0x3f000000 ≤ _; rw [half_val]; norm_num
  eps_ge := h1
  eps_le := h2
  K_ge := by norm_num
  K_le := by norm_num
  ratio := by change val 0 ^ 2 * _ / _ + val 0 ^ 2 / _ ≤ _; rw [val_zero]; norm_num

theorem rms_sane {decay rest eps : F32.W} {K : ℝ} (h : SaneRms decay rest eps K) : Sane (rmsSet decay rest eps) K where
  b1_fin := by change F32.Finite 0; unfold F32.Finite; decide
  b1c_fin := by change F32.Finite 0x3f800000; unfold F32.Finite; decide
  b2_fin := h.decay_fin
  b2c_fin := h.rest_fin
  eps_fin := h.eps_fin
  b1_nonneg := by change 0 ≤ val 0; rw [val_zero]
  b1_le := by change val 0 ≤ _; rw [val_zero]; norm_num
  b1c_nonneg := by change 0 ≤ val 0x3f800000; rw [one_val]; norm_num
  b1_sum := by change val 0 + val 0x3f800000 ≤ _; rw [val_zero, one_val]; norm_num
  b2_pos := h.decay_pos
  b2_le := h.decay_le
  b2c_pos := h.rest_pos
  b2_sum := h.sum
  eps_ge := h.eps_ge
  eps_le := h.eps_le
  K_ge := h.K_ge
  K_le := h.K_le
  ratio := by
    change val 0 ^ 2 * _ / _ + val 0x3f800000 ^ 2 / val rest ≤ _
    rw [val_zero, one_val, zero_pow (by norm_num), zero_mul, zero_div, zero_add, one_pow]; exact h.ratio

/-! ### The sum of squares of AdaGrad -/

theorem acc_ok {q : Nat} (hq : q ≤ 50) {g m : F32.W} (fg : F32.Finite g) (hg : |val g| ≤ 2 ^ q) (fm : F32.Finite m) (m0 : 0 ≤ val m)
    (hm : val m ≤ 2 ^ (2 * q + 25)) :
    F32.Finite (addIeee m (mulIeee g g)) ∧ val m ≤ val (addIeee m (mulIeee g g)) ∧ val (addIeee m (mulIeee g g)) ≤ 2 ^ (2 * q + 25) ∧
      (val m + val g ^ 2 * (1 - 1 / 2 ^ 24) - 1 / 2 ^ 150) * (1 - 1 / 2 ^ 24) ≤ val (addIeee m (mulIeee g g)) ∧
      val (addIeee m (mulIeee g g)) ≤ (val m + val g ^ 2 * (1 + 1 / 2 ^ 24) + 1 / 2 ^ 150) * (1 + 1 / 2 ^ 24) ∧
      (1 - 1 / 2 ^ 24) * (val g ^ 2 * (1 - 1 / 2 ^ 24) - 1 / 2 ^ 150) ≤ val (addIeee m (mulIeee g g)) := by
  have h0 : 0 ≤ val g * val g := mul_self_nonneg _
  have h1 : val g * val g ≤ 2 ^ (2 * q) := by
    rw [← abs_mul_abs_self, two_mul, pow_add]; exact mul_self_le_mul_self (abs_nonneg _) hg
  have hQ1 : (1 : ℝ) ≤ 2 ^ (2 * q) := one_le_pow₀ (by norm_num)
  have hQ2 : (2 : ℝ) ^ (2 * q) ≤ 2 ^ 100 := pow_le_pow_right₀ (by norm_num) (by omega)
  have e25 : (2 : ℝ) ^ (2 * q + 25) = 2 ^ (2 * q) * 2 ^ 25 := pow_add _ _ _
  have f1 : F32.Finite (mulIeee g g) := mul_fin fg fg (by
    rw [abs_of_nonneg h0]; exact big_fin (h1.trans (hQ2.trans (by norm_num))))
  have n1 := mul_rel f1
  have s0 := mul_nonneg' f1 h0
  rw [abs_of_nonneg h0] at n1
  have t : (2 : ℝ) ^ (-150 : Int) = 1 / 2 ^ 150 := by norm_num
  have tq : (1 : ℝ) / 2 ^ 150 ≤ 2 ^ (2 * q) / 2 ^ 30 := by
    have : (1 : ℝ) / 2 ^ 150 ≤ 1 / 2 ^ 30 := by norm_num
    exact this.trans (div_le_div_of_nonneg_right hQ1 (by norm_num))
  rw [t] at n1
  have s1 : val (mulIeee g g) ≤ 2 ^ (2 * q) * (1 + 1 / 2 ^ 20) := by
    have := (abs_le.mp n1).2
    norm_num at *; linarith
  have f2 : F32.Finite (addIeee m (mulIeee g g)) := add_fin fm f1 (by
    rw [abs_of_nonneg (add_nonneg m0 s0)]
    refine big_fin ?_
    rw [e25] at hm
    norm_num at *; linarith)
  have n2 := Norm32.add_pure f2
  rw [abs_of_nonneg (add_nonneg m0 s0)] at n2
  have z1 : ((2 : ℝ) ^ ((2 * q + 25 : Nat) : Int)) = 2 ^ (2 * q + 25) := zpow_natCast _ _
  have z2 : ((2 : ℝ) ^ (((2 * q + 25 : Nat) : Int) - 24)) = 2 ^ (2 * q) * 2 := by
    rw [zpow_sub₀ (by norm_num), z1, e25]; norm_num; ring
  have sat := Verif.F32.add_sat f2 (p := ((2 * q + 25 : Nat) : Int)) (by omega) (by
    rw [abs_of_nonneg (add_nonneg m0 s0), z1, z2]
    norm_num at s1 ⊢; linarith)
  rw [z1] at sat
  have mono := add_ge f2 (finite_exact fm).1 (le_add_of_nonneg_right s0)
  rw [← sq] at n1 h0
  obtain ⟨n1a, n1b⟩ := abs_le.mp n1
  obtain ⟨n2a, n2b⟩ := abs_le.mp n2
  refine ⟨f2, mono, (le_abs_self _).trans sat, ?_, ?_, ?_⟩
  all_goals
    generalize val (addIeee m (mulIeee g g)) = y at *
    generalize val (mulIeee g g) = s at *
    generalize val g ^ 2 = r at *
    generalize val m = v at *
    clear sat mono hm z1 z2 e25 hQ1 hQ2 tq s1 t h1 n1 n2
    norm_num at *
    linarith

/-- The gradient is no more than the root of the sum. -/
theorem acc_ratio {q : Nat} (hq : q ≤ 50) {g m : F32.W} (fg : F32.Finite g) (hg : |val g| ≤ 2 ^ q) (fm : F32.Finite m) (m0 : 0 ≤ val m)
    (hm : val m ≤ 2 ^ (2 * q + 25)) :
    |val g| ≤ (1 + 1 / 2 ^ 20) * Real.sqrt (val (addIeee m (mulIeee g g))) + 1 / 2 ^ 50 := by
  obtain ⟨-, a1, -, -, -, a6⟩ := acc_ok hq fg hg fm m0 hm
  have y0 := m0.trans a1
  have hs := Real.sq_sqrt y0
  have hs0 := Real.sqrt_nonneg (val (addIeee m (mulIeee g g)))
  by_cases hsmall : |val g| ≤ 1 / 2 ^ 50
  · have : 0 ≤ (1 + 1 / 2 ^ 20) * Real.sqrt (val (addIeee m (mulIeee g g))) := by positivity
    linarith
  · push Not at hsmall
    have h1 : 1 / 2 ^ 100 ≤ val g ^ 2 := by
      rw [← sq_abs]
      calc (1 : ℝ) / 2 ^ 100 = (1 / 2 ^ 50) ^ 2 := by norm_num
        _ ≤ _ := pow_le_pow_left₀ (by norm_num) hsmall.le 2
    have h2 : |val g| ≤ (1 + 1 / 2 ^ 20) * Real.sqrt (val (addIeee m (mulIeee g g))) := by
      refine le_of_sq_le_sq ?_ (by positivity)
      rw [mul_pow, hs, sq_abs]
      generalize val (addIeee m (mulIeee g g)) = y at *
      generalize val g ^ 2 = r at *
      norm_num at *; linarith
    have : (0 : ℝ) ≤ 1 / 2 ^ 50 := by positivity
    linarith

theorem ada_step1 {eps : F32.W} {A : ℝ} {P : Int} {q : Nat} (ho : Sane (adaSet eps) (1 + 1 / 2 ^ 20))
    (hR : Room (adaSet eps) A (1 + 1 / 2 ^ 20) P) (hq : q ≤ 50) {lr g w m : F32.W} (hp : Feed1 A (2 ^ q) (lr, g)) (fw : F32.Finite w)
    (hw : |val w| ≤ (2 : ℝ) ^ P) (fm : F32.Finite m) (m0 : 0 ≤ val m) (hm : val m ≤ 2 ^ (2 * q + 25)) :
    F32.Finite (ada1 eps lr g (w, m)).1 ∧ |val (ada1 eps lr g (w, m)).1| ≤ (2 : ℝ) ^ P ∧
      |val (ada1 eps lr g (w, m)).1 - update (val eps) (val lr) (val w) (val g) (val (ada1 eps lr g (w, m)).2)| ≤
        val lr * (1 + 1 / 2 ^ 20) / 2 ^ 17 + |val w| / 2 ^ 24 + (2 : ℝ) ^ (-148 : Int) ∧
      |val g / (Real.sqrt (val (ada1 eps lr g (w, m)).2) + val eps)| ≤ 1 + 1 / 2 ^ 20 := by
  obtain ⟨fa, a0, aA, fg, hg⟩ := hp
  obtain ⟨f2, b1, b2, -⟩ := acc_ok hq fg hg fm m0 hm
  have hr := acc_ratio hq fg hg fm m0 hm
  obtain ⟨c1, c2, c3⟩ := w1_ok ho hR fa a0 aA fw hw fg f2 (m0.trans b1) hr
  have c4 := (quot_ok ho fg f2 (m0.trans b1) hr).1
  refine ⟨c1, c2, ?_, c4⟩
  have e : Adam32.decay (adaSet eps) = 0 := rfl
  unfold Adam32.update at c3
  rw [e, zero_mul, zero_mul, add_zero, add_zero] at c3
  exact c3

theorem ada_run {eps : F32.W} {A : ℝ} {P : Int} {q : Nat} (ho : Sane (adaSet eps) (1 + 1 / 2 ^ 20))
    (hR : Room (adaSet eps) A (1 + 1 / 2 ^ 20) P) (hq : q ≤ 50) :
    ∀ (l : List (F32.W × F32.W)) {w m : F32.W} {S : ℝ} {N : Nat}, (∀ p ∈ l, Feed1 A (2 ^ q) p) → F32.Finite w → |val w| ≤ (2 : ℝ) ^ P →
      F32.Finite m → 0 ≤ val m → val m ≤ 2 ^ (2 * q + 25) → 0 ≤ S →
      S * (1 - 1 / 2 ^ 24) ^ (N + 1) - N / 2 ^ 150 ≤ val m → val m ≤ (S + N / 2 ^ 150) * (1 + 1 / 2 ^ 24) ^ (N + 1) →
      F32.Finite (run (ada1 eps) l (w, m)).1 ∧ F32.Finite (run (ada1 eps) l (w, m)).2 ∧ |val (run (ada1 eps) l (w, m)).1| ≤ (2 : ℝ) ^ P ∧
        0 ≤ val (run (ada1 eps) l (w, m)).2 ∧ val (run (ada1 eps) l (w, m)).2 ≤ 2 ^ (2 * q + 25) ∧
        (S + (l.map fun p => val p.2 ^ 2).sum) * (1 - 1 / 2 ^ 24) ^ (N + l.length + 1) - (N + l.length : Nat) / 2 ^ 150 ≤
          val (run (ada1 eps) l (w, m)).2 ∧
        val (run (ada1 eps) l (w, m)).2 ≤
          (S + (l.map fun p => val p.2 ^ 2).sum + (N + l.length : Nat) / 2 ^ 150) * (1 + 1 / 2 ^ 24) ^ (N + l.length + 1)
  | [], w, m, S, N, _, fw, hw, fm, m0, hm, _, h1, h2 => by
    simp only [List.map_nil, List.sum_nil, List.length_nil, Nat.add_zero, add_zero]
    exact ⟨fw, fm, hw, m0, hm, h1, h2⟩
  | (lr, g) :: l, w, m, S, N, hl, fw, hw, fm, m0, hm, S0, h1, h2 => by
    have hp := hl _ List.mem_cons_self
    obtain ⟨c1, c2, -, -⟩ := ada_step1 ho hR hq hp fw hw fm m0 hm
    obtain ⟨f2, b1, b2, b3, b4, -⟩ := acc_ok hq hp.2.2.2.1 hp.2.2.2.2 fm m0 hm
    have key1 : (S + val g ^ 2) * (1 - 1 / 2 ^ 24) ^ (N + 1 + 1) - (N + 1 : Nat) / 2 ^ 150 ≤ val (addIeee m (mulIeee g g)) := by
      refine le_trans ?_ b3
      have e : (1 - 1 / 2 ^ 24 : ℝ) ^ (N + 1 + 1) = (1 - 1 / 2 ^ 24) ^ (N + 1) * (1 - 1 / 2 ^ 24) := pow_succ _ _
      have e1 : (1 - 1 / 2 ^ 24 : ℝ) ^ (N + 1) ≤ 1 - 1 / 2 ^ 24 := by
        rw [pow_succ]
        have : (1 - 1 / 2 ^ 24 : ℝ) ^ N ≤ 1 := pow_le_one₀ (by norm_num) (by norm_num)
        exact mul_le_of_le_one_left (by norm_num) this
      rw [e]
      have e2 := mul_le_mul_of_nonneg_left e1 (sq_nonneg (val g))
      generalize (1 - 1 / 2 ^ 24 : ℝ) ^ (N + 1) = x at *
      have n0 : (0 : ℝ) ≤ N := Nat.cast_nonneg _
      have : (S * x - N / 2 ^ 150 + val g ^ 2 * x - 1 / 2 ^ 150) * (1 - 1 / 2 ^ 24) ≤
          (val m + val g ^ 2 * (1 - 1 / 2 ^ 24) - 1 / 2 ^ 150) * (1 - 1 / 2 ^ 24) :=
        mul_le_mul_of_nonneg_right (by linarith) (by norm_num)
      refine le_trans ?_ this
      have z : 0 ≤ ((N : ℝ) + 1) / 2 ^ 150 * (1 / 2 ^ 24) := by
        have : (0 : ℝ) ≤ ((N : ℝ) + 1) / 2 ^ 150 := div_nonneg (by linarith) (pow_nonneg (by norm_num) _)
        exact mul_nonneg this (by norm_num)
      push_cast
      have e3 : (S * x - N / 2 ^ 150 + val g ^ 2 * x - 1 / 2 ^ 150) * (1 - 1 / 2 ^ 24) =
          (S + val g ^ 2) * (x * (1 - 1 / 2 ^ 24)) - ((N : ℝ) + 1) / 2 ^ 150 + ((N : ℝ) + 1) / 2 ^ 150 * (1 / 2 ^ 24) := by ring
      rw [e3]; linarith
    have key2 : val (addIeee m (mulIeee g g)) ≤ (S + val g ^ 2 + (N + 1 : Nat) / 2 ^ 150) * (1 + 1 / 2 ^ 24) ^ (N + 1 + 1) := by
      refine b4.trans ?_
      have e : (1 + 1 / 2 ^ 24 : ℝ) ^ (N + 1 + 1) = (1 + 1 / 2 ^ 24) ^ (N + 1) * (1 + 1 / 2 ^ 24) := pow_succ _ _
      have e1 : (1 + 1 / 2 ^ 24 : ℝ) ≤ (1 + 1 / 2 ^ 24) ^ (N + 1) := by
        have := pow_le_pow_right₀ (show (1 : ℝ) ≤ 1 + 1 / 2 ^ 24 by norm_num) (show 1 ≤ N + 1 by omega)
        rwa [pow_one] at this
      rw [e, ← mul_assoc]
      refine mul_le_mul_of_nonneg_right ?_ (by norm_num)
      have e2 := mul_le_mul_of_nonneg_left e1 (sq_nonneg (val g))
      have e4 : (1 : ℝ) / 2 ^ 150 * 1 ≤ 1 / 2 ^ 150 * (1 + 1 / 2 ^ 24) ^ (N + 1) :=
        mul_le_mul_of_nonneg_left (by norm_num at e1 ⊢; linarith) (by norm_num)
      generalize (1 + 1 / 2 ^ 24 : ℝ) ^ (N + 1) = x at *
      push_cast
      have e3 : (S + val g ^ 2 + ((N : ℝ) + 1) / 2 ^ 150) * x = (S + N / 2 ^ 150) * x + val g ^ 2 * x + 1 / 2 ^ 150 * x := by ring
      rw [e3]; linarith
    obtain ⟨r1, r2, r3, r4, r5, r6, r7⟩ := ada_run ho hR hq l (fun p hp => hl p (List.mem_cons_of_mem _ hp)) c1 c2 f2 (m0.trans b1) b2
      (add_nonneg S0 (sq_nonneg _)) key1 key2
    refine ⟨r1, r2, r3, r4, r5, ?_, ?_⟩
    · rw [show N + 1 + l.length = N + ((lr, g) :: l).length by rw [List.length_cons]; omega] at r6
      simp only [List.map_cons, List.sum_cons]
      rw [← add_assoc]; exact r6
    · rw [show N + 1 + l.length = N + ((lr, g) :: l).length by rw [List.length_cons]; omega] at r7
      simp only [List.map_cons, List.sum_cons]
      rw [← add_assoc]; exact r7

theorem squares_col (l : List (F32.W × List F32.W)) (i : Nat) : ((col l i).map fun p => val p.2 ^ 2).sum = squares l i := by
  unfold squares
  rw [← col_grads, List.map_map]; rfl

/-- C95: AdaGrad for any number of steps: nothing overflows, and the sum of squares is the exact one but for rounding. -/
theorem ada_close (cpu : Cpu) {eps : F32.W} (he : SaneEps eps) {A : ℝ} {P : Int} {q : Nat} (hR : Roomy A (1 + 1 / 2 ^ 20) P) (hq : q ≤ 50)
    {w : List F32.W} {n : Nat} (hw : w.length = n) (hwf : ∀ i < n, F32.Finite (w.getD i 0) ∧ |val (w.getD i 0)| ≤ (2 : ℝ) ^ P)
    {l : List (F32.W × List F32.W)} (hl : ∀ p ∈ l, Feeds n A (2 ^ q) p) :
    (∃ w' m', Train (AdaGrad cpu eps) l w w' m') ∧ ∀ w' m', Train (AdaGrad cpu eps) l w w' m' → AdaClose q P n l w' m' := by
  have hz : (List.replicate w.length (0 : F32.W)).length = n := by simp [hw]
  have hg : ∀ p ∈ l, p.2.length = n := fun p hp => (hl p hp).2.2.2.1
  refine ⟨steps_exists (ada_cellwise cpu eps) l hw hz hg, fun w' m' h => ?_⟩
  obtain ⟨lw, lv, e⟩ := steps_cell (ada_cellwise cpu eps) l hw hz hg h
  refine ⟨lw, lv, fun i hi => ?_⟩
  have e' := e i hi
  rw [zeros_get] at e'
  obtain ⟨r1, r2, r3, r4, r5, r6, r7⟩ := ada_run (ada_sane he.1 he.2.1 he.2.2) hR hq (col l i) (S := 0) (N := 0) (feed_col hl hi)
    (hwf i hi).1 (hwf i hi).2 (m := 0) (by unfold F32.Finite; decide) (by rw [val_zero]) (by rw [val_zero]; positivity) le_rfl
    (by rw [val_zero]; simp) (by rw [val_zero]; simp)
  have hlen : (col l i).length = l.length := by unfold col; rw [List.length_map]
  rw [squares_col, hlen, zero_add, Nat.zero_add] at r6 r7
  rw [← e'] at r1 r2 r3 r4 r5 r6 r7
  exact ⟨r1, r2, r3, r4, r5, r6, r7⟩

/-- C95: every step of AdaGrad is its rule but for rounding; no gradient moves an element by more than the rate. -/
theorem ada_step {cpu : Cpu} {eps : F32.W} (he : SaneEps eps) {A : ℝ} {P : Int} {q : Nat} (hR : Roomy A (1 + 1 / 2 ^ 20) P) (hq : q ≤ 50)
    {w : List F32.W} {n : Nat} (hw : w.length = n) (hwf : ∀ i < n, F32.Finite (w.getD i 0) ∧ |val (w.getD i 0)| ≤ (2 : ℝ) ^ P)
    {l : List (F32.W × List F32.W)} (hl : ∀ p ∈ l, Feeds n A (2 ^ q) p) {w₁ m₁ w₂ m₂ : List F32.W}
    (h : Train (AdaGrad cpu eps) l w w₁ m₁) {lr : F32.W} {g : List F32.W} (hp : Feeds n A (2 ^ q) (lr, g))
    (hs : AdaGrad cpu eps lr w₁ g m₁ w₂ m₂) : RuleClose eps (1 + 1 / 2 ^ 20) n lr g w₁ w₂ m₂ := by
  obtain ⟨lw, lm, hc⟩ := (ada_close cpu he hR hq hw hwf hl).2 w₁ m₁ h
  obtain ⟨-, -, e⟩ := (ada_cellwise cpu eps).cell lw lm hp.2.2.2.1 hs
  intro i hi
  obtain ⟨c1, c2, c3, c4, c5, -⟩ := hc i hi
  obtain ⟨-, -, r3, r4⟩ := ada_step1 (ada_sane he.1 he.2.1 he.2.2) hR hq (lr := lr) (g := g.getD i 0)
    ⟨hp.1, hp.2.1, hp.2.2.1, hp.2.2.2.2 i hi⟩ c1 c3 c2 c4 c5
  rw [← e i hi] at r3 r4
  exact ⟨r3, r4⟩

/-- C95: the sum of squares stands still while the exact one grows without bound: whatever `D`, after enough equal gradients it is
more than `D` too small. -/
theorem ada_stalls (cpu : Cpu) {eps : F32.W} (he : SaneEps eps) {A : ℝ} {P : Int} {q : Nat} (hR : Roomy A (1 + 1 / 2 ^ 20) P) (hq : q ≤ 50)
    {w : List F32.W} {n : Nat} (hw : w.length = n) (hwf : ∀ i < n, F32.Finite (w.getD i 0) ∧ |val (w.getD i 0)| ≤ (2 : ℝ) ^ P)
    {p : F32.W × List F32.W} (hp : Feeds n A (2 ^ q) p) {i : Nat} (hi : i < n) (hne : val (p.2.getD i 0) ≠ 0) (D : ℝ) :
    ∃ N, ∀ N' ≥ N, ∀ w' m', Train (AdaGrad cpu eps) (List.replicate N' p) w w' m' →
      val (m'.getD i 0) + D < squares (List.replicate N' p) i := by
  have hsq : ∀ N, squares (List.replicate N p) i = N * val (p.2.getD i 0) ^ 2 := by
    intro N
    unfold squares grads
    rw [List.map_replicate, List.map_replicate, List.sum_replicate, nsmul_eq_mul]
  have hpos : 0 < val (p.2.getD i 0) ^ 2 := by positivity
  obtain ⟨N, hN⟩ := exists_nat_gt ((2 ^ (2 * q + 25) + D) / val (p.2.getD i 0) ^ 2)
  refine ⟨N, fun N' hN' w' m' h => ?_⟩
  obtain ⟨-, -, hc⟩ := (ada_close cpu he hR hq hw hwf (l := List.replicate N' p)
    (fun p' hp' => by rw [List.eq_of_mem_replicate hp']; exact hp)).2 w' m' h
  have h5 := (hc i hi).2.2.2.2.1
  rw [hsq]
  rw [div_lt_iff₀ hpos] at hN
  have hle : (N : ℝ) * val (p.2.getD i 0) ^ 2 ≤ N' * val (p.2.getD i 0) ^ 2 :=
    mul_le_mul_of_nonneg_right (by exact_mod_cast hN') hpos.le
  linarith

/-! ### An infinite sum or average of squares -/

/-- `+Inf` stays, and the element with it. -/
theorem run_stays {o : Settings} {K A : ℝ} (ho : Sane o K) (hd : o.decay = none) {f : F32.W → F32.W → F32.W × F32.W → F32.W × F32.W}
    (hf : ∀ lr g w, F32.Finite g → f lr g (w, posInf) = (w1 o lr w g posInf, posInf)) :
    ∀ (l : List (F32.W × F32.W)) {w : F32.W}, (∀ p ∈ l, Feed1 A (2 ^ 120) p) → F32.Finite w →
      F32.Finite (run f l (w, posInf)).1 ∧ val (run f l (w, posInf)).1 = val w
  | [], w, _, hw => ⟨hw, rfl⟩
  | (lr, g) :: l, w, hl, hw => by
    obtain ⟨fa, a0, a1, fg, hg⟩ := hl _ List.mem_cons_self
    obtain ⟨w1', w2'⟩ := w1_stays ho hd fa hw fg
    have e : run f ((lr, g) :: l) (w, posInf) = run f l (w1 o lr w g posInf, posInf) := by
      change run f l (f lr g (w, posInf)) = _
      rw [hf _ _ _ fg]
    rw [e]
    obtain ⟨r1, r2⟩ := run_stays ho hd hf l (fun q hq => hl q (List.mem_cons_of_mem _ hq)) w1'
    exact ⟨r1, r2.trans w2'⟩

theorem square_not {g : F32.W} (hg : F32.Finite g) : isNaN (mulIeee g g) = false ∧ mulIeee g g ≠ negInf := by
  rcases (mul_plus hg hg rfl).1 with h | h
  · exact finite_not h
  · rw [h]; decide +kernel

/-- C95: one gradient above 2⁶⁴ ends the training of its element: neither this step nor any later one changes it. -/
theorem ada_frozen {cpu : Cpu} {eps : F32.W} (he : SaneEps eps) {A : ℝ} {P : Int} {q : Nat} (hR : Roomy A (1 + 1 / 2 ^ 20) P) (hq : q ≤ 50)
    {w : List F32.W} {n : Nat} (hw : w.length = n) (hwf : ∀ i < n, F32.Finite (w.getD i 0) ∧ |val (w.getD i 0)| ≤ (2 : ℝ) ^ P)
    {l l' : List (F32.W × List F32.W)} (hl : ∀ p ∈ l, Feeds n A (2 ^ q) p) {w₁ m₁ w₂ m₂ : List F32.W}
    (h : Train (AdaGrad cpu eps) l w w₁ m₁) {lr : F32.W} {g : List F32.W} (hp : Feeds n A (2 ^ 120) (lr, g)) {i : Nat} (hi : i < n)
    (hbig : 2 ^ 64 < |val (g.getD i 0)|) (hl' : ∀ p ∈ l', Feeds n A (2 ^ 120) p)
    (h' : Steps (AdaGrad cpu eps) ((lr, g) :: l') w₁ m₁ w₂ m₂) :
    F32.Finite (w₂.getD i 0) ∧ val (w₂.getD i 0) = val (w₁.getD i 0) := by
  have ho := ada_sane he.1 he.2.1 he.2.2
  obtain ⟨lw, lm, hc⟩ := (ada_close cpu he hR hq hw hwf hl).2 w₁ m₁ h
  obtain ⟨-, -, e⟩ := steps_cell (ada_cellwise cpu eps) _ lw lm (fun p hp' => by
    rcases List.mem_cons.mp hp' with rfl | hp'
    · exact hp.2.2.2.1
    · exact (hl' p hp').2.2.2.1) h'
  obtain ⟨c1, c2, -⟩ := hc i hi
  have fg := (hp.2.2.2.2 i hi).1
  have e1 : w₂.getD i 0 = (run (ada1 eps) (col l' i) (ada1 eps lr (g.getD i 0) (w₁.getD i 0, m₁.getD i 0))).1 := congrArg Prod.fst (e i hi)
  have e2 : ada1 eps lr (g.getD i 0) (w₁.getD i 0, m₁.getD i 0) = (w1 (adaSet eps) lr (w₁.getD i 0) (g.getD i 0) posInf, posInf) := by
    unfold ada1
    rw [square_inf fg hbig, add_inf (finite_not c2).1 (finite_not c2).2]
  rw [e1, e2]
  obtain ⟨a1, a2⟩ := w1_stays ho rfl (w := w₁.getD i 0) hp.1 c1 fg
  obtain ⟨r1, r2⟩ := run_stays ho rfl (f := ada1 eps) (fun lr g w fg => by
    unfold ada1; rw [inf_add (square_not fg).1 (square_not fg).2]) (col l' i) (feed_col hl' hi) a1
  exact ⟨r1, r2.trans a2⟩

/-! ### RMSProp -/

theorem rms_ratio {o : Settings} {K : ℝ} (ho : Sane o K) (hr : 1 / val o.b2c ≤ K ^ 2 * (1 - 1 / 2 ^ 20)) {g m : F32.W}
    (fm : F32.Finite (m1 o g m)) (hm0 : 0 ≤ val m) (hm1 : 0 ≤ val (m1 o g m)) :
    |val g| ≤ K * Real.sqrt (val (m1 o g m)) + 1 / 2 ^ 50 := by
  have ht : (0 : ℝ) ≤ (2 : ℝ) ^ (-150 : Int) := by positivity
  have ht' : (2 : ℝ) ^ (-150 : Int) ≤ 1 / 2 ^ 150 := by norm_num
  refine ratio_real (t := (2 : ℝ) ^ (-150 : Int)) (b := 0) (c := 1) (v := 0) (g := val g) (m := val m) le_rfl (by norm_num) zero_le_one
    ho.b2_pos ho.b2c_pos ho.K_ge ho.K_le ?_ hm0 hm1 ht ht' ?_ ?_ (m1_low ho fm hm0)
  · rw [zero_pow (by norm_num), zero_mul, zero_div, zero_add, one_pow]; exact hr
  · rw [abs_zero]
    have := ho.K_ge
    positivity
  · rw [abs_zero, mul_zero, zero_add, one_mul]
    have : 0 ≤ 1 / 2 ^ 22 * |val g| := by positivity
    linarith

theorem rms_step1 {decay rest eps : F32.W} {A K G : ℝ} {P : Int} (ho : SaneRms decay rest eps K) (hR : Roomy A K P) (hG : 1 ≤ G)
    (hG' : G ≤ 2 ^ 60) {lr g w m : F32.W} (hp : Feed1 A G (lr, g)) (fw : F32.Finite w) (hw : |val w| ≤ (2 : ℝ) ^ P) (fm : F32.Finite m)
    (m0 : 0 ≤ val m) (hm : val m ≤ 2 * G ^ 2) :
    (F32.Finite (rms1 decay rest eps lr g (w, m)).1 ∧ |val (rms1 decay rest eps lr g (w, m)).1| ≤ (2 : ℝ) ^ P ∧
      |val (rms1 decay rest eps lr g (w, m)).1 - update (val eps) (val lr) (val w) (val g) (val (rms1 decay rest eps lr g (w, m)).2)| ≤
        val lr * K / 2 ^ 17 + |val w| / 2 ^ 24 + (2 : ℝ) ^ (-148 : Int) ∧
      |val g / (Real.sqrt (val (rms1 decay rest eps lr g (w, m)).2) + val eps)| ≤ K) ∧
    F32.Finite (rms1 decay rest eps lr g (w, m)).2 ∧ 0 ≤ val (rms1 decay rest eps lr g (w, m)).2 ∧
      val (rms1 decay rest eps lr g (w, m)).2 ≤ 2 * G ^ 2 ∧
      |val (rms1 decay rest eps lr g (w, m)).2 - (val decay * val m + val rest * val g ^ 2)| ≤ 7 * G ^ 2 / 2 ^ 24 := by
  obtain ⟨fa, a0, aA, fg, hg⟩ := hp
  have hs := rms_sane ho
  obtain ⟨f2, b1, b2, b3⟩ := m1_ok hs hG hG' fg fm hg m0 hm
  have hr := rms_ratio hs ho.ratio f2 m0 b1
  obtain ⟨c1, c2, c3⟩ := w1_ok hs hR fa a0 aA fw hw fg f2 b1 hr
  have c4 := (quot_ok hs fg f2 b1 hr).1
  refine ⟨⟨c1, c2, ?_, c4⟩, f2, b1, b2, b3⟩
  have e : Adam32.decay (rmsSet decay rest eps) = 0 := rfl
  unfold Adam32.update at c3
  rw [e, zero_mul, zero_mul, add_zero, add_zero] at c3
  exact c3

theorem rms_run {decay rest eps : F32.W} {A K G : ℝ} {P : Int} (ho : SaneRms decay rest eps K) (hR : Roomy A K P) (hG : 1 ≤ G)
    (hG' : G ≤ 2 ^ 60) :
    ∀ (l : List (F32.W × F32.W)) {w m : F32.W} {M : ℝ}, (∀ p ∈ l, Feed1 A G p) → F32.Finite w → |val w| ≤ (2 : ℝ) ^ P →
      F32.Finite m → 0 ≤ val m → val m ≤ 2 * G ^ 2 → |val m - M| ≤ 7 * G ^ 2 / 2 ^ 24 / (1 - val decay) →
      F32.Finite (run (rms1 decay rest eps) l (w, m)).1 ∧ F32.Finite (run (rms1 decay rest eps) l (w, m)).2 ∧
        |val (run (rms1 decay rest eps) l (w, m)).1| ≤ (2 : ℝ) ^ P ∧ 0 ≤ val (run (rms1 decay rest eps) l (w, m)).2 ∧
        val (run (rms1 decay rest eps) l (w, m)).2 ≤ 2 * G ^ 2 ∧
        |val (run (rms1 decay rest eps) l (w, m)).2 - avg (val decay) (val rest) M ((l.map fun p => val p.2).map (· ^ 2))| ≤
          7 * G ^ 2 / 2 ^ 24 / (1 - val decay)
  | [], w, m, M, _, fw, hw, fm, m0, hm, hM => ⟨fw, fm, hw, m0, hm, hM⟩
  | (lr, g) :: l, w, m, M, hl, fw, hw, fm, m0, hm, hM => by
    obtain ⟨⟨c1, c2, -, -⟩, f2, b1, b2, b3⟩ := rms_step1 ho hR hG hG' (hl _ List.mem_cons_self) fw hw fm m0 hm
    have d1 : val decay < 1 := lt_of_le_of_lt ho.decay_le (by norm_num)
    exact rms_run ho hR hG hG' l (fun p hp => hl p (List.mem_cons_of_mem _ hp)) c1 c2 f2 b1 b2 (avg_step ho.decay_pos.le d1 hM b3)

theorem rms_inv {cpu : Cpu} {decay rest eps : F32.W} {A K G : ℝ} {P : Int} (ho : SaneRms decay rest eps K) (hR : Roomy A K P) (hG : 1 ≤ G)
    (hG' : G ≤ 2 ^ 60) {w : List F32.W} {n : Nat} (hw : w.length = n)
    (hwf : ∀ i < n, F32.Finite (w.getD i 0) ∧ |val (w.getD i 0)| ≤ (2 : ℝ) ^ P) {l : List (F32.W × List F32.W)}
    (hl : ∀ p ∈ l, Feeds n A G p) {w' m' : List F32.W} (h : Train (RMSProp cpu decay rest eps) l w w' m') :
    RmsClose decay rest G P n l w' m' ∧ ∀ i < n, val (m'.getD i 0) ≤ 2 * G ^ 2 := by
  have hz : (List.replicate w.length (0 : F32.W)).length = n := by simp [hw]
  have hg : ∀ p ∈ l, p.2.length = n := fun p hp => (hl p hp).2.2.2.1
  obtain ⟨lw, lv, e⟩ := steps_cell (rms_cellwise cpu decay rest eps) l hw hz hg h
  have all : ∀ i < n, _ := fun i hi => by
    have e' := e i hi
    rw [zeros_get] at e'
    have d1 : 0 < 1 - val decay := by have := ho.decay_le; norm_num at this; linarith
    have r := rms_run ho hR hG hG' (col l i) (M := 0) (feed_col hl hi) (hwf i hi).1 (hwf i hi).2 (m := 0)
      (by unfold F32.Finite; decide) (by rw [val_zero]) (by rw [val_zero]; positivity)
      (by rw [val_zero, sub_zero, abs_zero]; positivity)
    rw [col_grads, ← e'] at r
    exact r
  exact ⟨⟨lw, lv, fun i hi => ⟨(all i hi).1, (all i hi).2.1, (all i hi).2.2.1, (all i hi).2.2.2.1, (all i hi).2.2.2.2.2⟩⟩,
    fun i hi => (all i hi).2.2.2.2.1⟩

/-- C95: RMSProp for any number of steps: nothing overflows, and the average of squares is the exact one but for a fixed distance. -/
theorem rms_close (cpu : Cpu) {decay rest eps : F32.W} {A K G : ℝ} {P : Int} (ho : SaneRms decay rest eps K) (hR : Roomy A K P) (hG : 1 ≤ G)
    (hG' : G ≤ 2 ^ 60) {w : List F32.W} {n : Nat} (hw : w.length = n)
    (hwf : ∀ i < n, F32.Finite (w.getD i 0) ∧ |val (w.getD i 0)| ≤ (2 : ℝ) ^ P) {l : List (F32.W × List F32.W)}
    (hl : ∀ p ∈ l, Feeds n A G p) :
    (∃ w' m', Train (RMSProp cpu decay rest eps) l w w' m') ∧
      ∀ w' m', Train (RMSProp cpu decay rest eps) l w w' m' → RmsClose decay rest G P n l w' m' :=
  ⟨steps_exists (rms_cellwise cpu decay rest eps) l hw (by simp [hw]) (fun p hp => (hl p hp).2.2.2.1),
    fun _ _ h => (rms_inv ho hR hG hG' hw hwf hl h).1⟩

/-- C95: every step of RMSProp is its rule but for rounding; no gradient moves an element by more than `K` times the rate. -/
theorem rms_step {cpu : Cpu} {decay rest eps : F32.W} {A K G : ℝ} {P : Int} (ho : SaneRms decay rest eps K) (hR : Roomy A K P) (hG : 1 ≤ G)
    (hG' : G ≤ 2 ^ 60) {w : List F32.W} {n : Nat} (hw : w.length = n)
    (hwf : ∀ i < n, F32.Finite (w.getD i 0) ∧ |val (w.getD i 0)| ≤ (2 : ℝ) ^ P) {l : List (F32.W × List F32.W)}
    (hl : ∀ p ∈ l, Feeds n A G p) {w₁ m₁ w₂ m₂ : List F32.W} (h : Train (RMSProp cpu decay rest eps) l w w₁ m₁) {lr : F32.W}
    {g : List F32.W} (hp : Feeds n A G (lr, g)) (hs : RMSProp cpu decay rest eps lr w₁ g m₁ w₂ m₂) : RuleClose eps K n lr g w₁ w₂ m₂ := by
  obtain ⟨⟨lw, lm, hc⟩, hm⟩ := rms_inv ho hR hG hG' hw hwf hl h
  obtain ⟨-, -, e⟩ := (rms_cellwise cpu decay rest eps).cell lw lm hp.2.2.2.1 hs
  intro i hi
  obtain ⟨c1, c2, c3, c4, -⟩ := hc i hi
  obtain ⟨⟨-, -, r3, r4⟩, -⟩ := rms_step1 ho hR hG hG' (lr := lr) (g := g.getD i 0) ⟨hp.1, hp.2.1, hp.2.2.1, hp.2.2.2.2 i hi⟩ c1 c3 c2 c4
    (hm i hi)
  rw [← e i hi] at r3 r4
  exact ⟨r3, r4⟩

/-- C95: one gradient above 2⁶⁴ ends the training of its element: neither this step nor any later one changes it. -/
theorem rms_frozen {cpu : Cpu} {decay rest eps : F32.W} {A K : ℝ} {P : Int} (ho : SaneRms decay rest eps K) (hR : Roomy A K P)
    {w : List F32.W} {n : Nat} (hw : w.length = n) (hwf : ∀ i < n, F32.Finite (w.getD i 0) ∧ |val (w.getD i 0)| ≤ (2 : ℝ) ^ P)
    {l l' : List (F32.W × List F32.W)} (hl : ∀ p ∈ l, Feeds n A (2 ^ 60) p) {w₁ m₁ w₂ m₂ : List F32.W}
    (h : Train (RMSProp cpu decay rest eps) l w w₁ m₁) {lr : F32.W} {g : List F32.W} (hp : Feeds n A (2 ^ 120) (lr, g)) {i : Nat}
    (hi : i < n) (hbig : 2 ^ 64 < |val (g.getD i 0)|) (hl' : ∀ p ∈ l', Feeds n A (2 ^ 120) p)
    (h' : Steps (RMSProp cpu decay rest eps) ((lr, g) :: l') w₁ m₁ w₂ m₂) :
    F32.Finite (w₂.getD i 0) ∧ val (w₂.getD i 0) = val (w₁.getD i 0) := by
  have hs := rms_sane ho
  obtain ⟨⟨lw, lm, hc⟩, hm⟩ := rms_inv ho hR (by norm_num) le_rfl hw hwf hl h
  obtain ⟨-, -, e⟩ := steps_cell (rms_cellwise cpu decay rest eps) _ lw lm (fun p hp' => by
    rcases List.mem_cons.mp hp' with rfl | hp'
    · exact hp.2.2.2.1
    · exact (hl' p hp').2.2.2.1) h'
  obtain ⟨c1, c2, -, c4, -⟩ := hc i hi
  have fg := (hp.2.2.2.2 i hi).1
  have e1 : w₂.getD i 0 = (run (rms1 decay rest eps) (col l' i) (rms1 decay rest eps lr (g.getD i 0) (w₁.getD i 0, m₁.getD i 0))).1 :=
    congrArg Prod.fst (e i hi)
  have e2 : rms1 decay rest eps lr (g.getD i 0) (w₁.getD i 0, m₁.getD i 0) =
      (w1 (rmsSet decay rest eps) lr (w₁.getD i 0) (g.getD i 0) posInf, posInf) := by
    unfold rms1
    rw [m1_jumps hs fg hbig c2 c4]
  rw [e1, e2]
  obtain ⟨a1, a2⟩ := w1_stays hs rfl (w := w₁.getD i 0) hp.1 c1 fg
  obtain ⟨r1, r2⟩ := run_stays hs rfl (f := rms1 decay rest eps) (fun lr g w fg => by
    unfold rms1; rw [m1_stays hs fg]) (col l' i) (feed_col hl' hi) a1
  exact ⟨r1, r2.trans a2⟩

end Verif.Opt32
