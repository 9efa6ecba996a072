import Verif.Props.Opt32Sgd

set_option autoImplicit false
set_option linter.unusedSimpArgs false

/-!
# SGD on 32-bit words: steps that are too small (C95)

A step of less than an eighth of the distance to the next number is lost, and with it any number of such steps.
-/

namespace Verif.Opt32
open Verif.F32 Verif.Asm Verif.Spec Verif.Spec.Kernels Verif.Spec.Opt32 Verif.Net32 Verif.Rec32 Verif.Att32 Verif.Adam32

theorem exact_grid {a : ℝ} (ha : F32.Exact a) {p : Int} (h : (2 : ℝ) ^ p ≤ |a|) : ∃ k : Int, a = k * (2 : ℝ) ^ (p - 23) := by
  obtain ⟨k, j, rfl, hk, -⟩ := ha
  have hj0 : (0 : ℝ) < (2 : ℝ) ^ j := by positivity
  have hk' : |(k : ℝ)| < (2 : ℝ) ^ (24 : Int) := by
    have : |k| < 2 ^ 24 := by rw [Int.abs_eq_natAbs]; exact_mod_cast hk
    exact_mod_cast this
  have hjp : p < j + 24 := by
    have : (2 : ℝ) ^ p < (2 : ℝ) ^ (j + 24) := by
      rw [zpow_add₀ (by norm_num), mul_comm]
      rw [abs_mul, abs_of_pos hj0] at h
      exact lt_of_le_of_lt h (mul_lt_mul_of_pos_right hk' hj0)
    exact (zpow_lt_zpow_iff_right₀ (by norm_num)).mp this
  obtain ⟨d, hd⟩ := Int.eq_ofNat_of_zero_le (show 0 ≤ j - (p - 23) by omega)
  refine ⟨k * 2 ^ d, ?_⟩
  rw [show j = (d : Int) + (p - 23) by omega, zpow_add₀ (by norm_num), zpow_natCast]
  push_cast; ring

theorem int_eq {a b : Int} {u : ℝ} (hu : 0 < u) (h : |(a : ℝ) * u - b * u| < u) : a = b := by
  rw [← sub_mul, abs_mul, abs_of_pos hu] at h
  have h1 : |(a : ℝ) - b| < 1 := by
    by_contra hc
    push Not at hc
    have := mul_le_mul_of_nonneg_right hc hu.le
    linarith
  have h2 : |a - b| < 1 := by exact_mod_cast h1
  rw [Int.abs_lt_one_iff] at h2
  omega

theorem int_lt {a b : Int} {u : ℝ} (hu : 0 < u) (h : (a : ℝ) * u < b * u) : (a : ℝ) * u ≤ b * u - u := by
  have h1 : (a : ℝ) < b := lt_of_mul_lt_mul_right h hu.le
  have h2 : a + 1 ≤ b := by exact_mod_cast h1
  have h3 : (a : ℝ) + 1 ≤ b := by exact_mod_cast h2
  have := mul_le_mul_of_nonneg_right h3 hu.le
  linarith

theorem pow_shift (p : Int) (u : ℝ) (hu : (2 : ℝ) ^ (p - 26) = u) :
    (2 : ℝ) ^ p = 2 ^ 26 * u ∧ (2 : ℝ) ^ (p + 1) = 2 ^ 27 * u ∧ (2 : ℝ) ^ (p - 1) = 2 ^ 25 * u ∧ (2 : ℝ) ^ (p - 23) = 2 ^ 3 * u ∧
      (2 : ℝ) ^ (p - 24) = 2 ^ 2 * u ∧ (2 : ℝ) ^ (p - 25) = 2 * u := by
  have k : ∀ d : Int, (2 : ℝ) ^ (p - 26 + d) = (2 : ℝ) ^ d * u := fun d => by rw [zpow_add₀ (by norm_num), hu, mul_comm]
  refine ⟨?_, ?_, ?_, ?_, ?_, ?_⟩
  · rw [show p = p - 26 + 26 by ring, k]; norm_num
  · rw [show p + 1 = p - 26 + 27 by ring, k]; norm_num
  · rw [show p - 1 = p - 26 + 25 by ring, k]; norm_num
  · rw [show p - 23 = p - 26 + 3 by ring, k]; norm_num
  · rw [show p - 24 = p - 26 + 2 by ring, k]; norm_num
  · rw [show p - 25 = p - 26 + 1 by ring, k]; norm_num

/-- Rounding a number near `x` gives `x`. -/
theorem back {r x s : ℝ} {p : Int} (hr : F32.Exact r) (hx : F32.Exact x) (h1 : (2 : ℝ) ^ p ≤ x) (h3 : |s - x| ≤ (2 : ℝ) ^ (p - 26))
    (h4 : |r - s| ≤ (2 : ℝ) ^ (p - 24)) (h5 : (2 : ℝ) ^ p ≤ s → (2 : ℝ) ^ p ≤ r) (h6 : s < (2 : ℝ) ^ p → |r - s| ≤ (2 : ℝ) ^ (p - 25)) :
    r = x := by
  have u0 : (0 : ℝ) < (2 : ℝ) ^ (p - 26) := by positivity
  obtain ⟨e0, e1, e2, e3, e4, e5⟩ := pow_shift p _ rfl
  obtain ⟨k, hk⟩ := exact_grid hx (p := p) (h1.trans (le_abs_self _))
  by_cases hc : (2 : ℝ) ^ p ≤ r
  · obtain ⟨k', hk'⟩ := exact_grid hr (p := p) (hc.trans (le_abs_self _))
    have : k' = k := by
      refine int_eq (u := (2 : ℝ) ^ (p - 23)) (by positivity) ?_
      rw [← hk, ← hk', e3]
      rw [e4] at h4
      clear hk hk' hr hx h1 h5 h6 hc e0 e1 e2 e3 e4 e5
      generalize (2 : ℝ) ^ (p - 26) = u at *
      rw [abs_le] at *
      rw [abs_lt]
      constructor <;> linarith [h3.1, h3.2, h4.1, h4.2]
    rw [hk, hk', this]
  · exfalso
    push Not at hc
    have hs : s < (2 : ℝ) ^ p := by
      by_contra hs
      exact absurd (h5 (not_lt.mp hs)) (not_le.mpr hc)
    have h6' := h6 hs
    have g1 : (2 : ℝ) ^ p - 3 * (2 : ℝ) ^ (p - 26) ≤ r := by
      rw [e5] at h6'
      have := (abs_le.mp h3).1
      have := (abs_le.mp h6').1
      linarith
    have g2 : (2 : ℝ) ^ (p - 1) ≤ |r| := by
      refine le_trans ?_ (le_abs_self _)
      rw [e2]; rw [e0] at g1
      norm_num at *; linarith
    obtain ⟨k', hk'⟩ := exact_grid hr g2
    rw [show p - 1 - 23 = p - 24 by ring] at hk'
    have hp : (2 : ℝ) ^ p = ((2 ^ 24 : Int) : ℝ) * (2 : ℝ) ^ (p - 24) := by rw [e0, e4]; push_cast; ring
    rw [hk', hp] at hc
    have := int_lt (by positivity) hc
    rw [← hk', ← hp, e4] at this
    norm_num at *; linarith

/-- **A small summand is lost.** -/
theorem add_lost {x y : F32.W} (fx : F32.Finite x) (fy : F32.Finite y) {p : Int} (hp : -123 ≤ p) (hp' : p ≤ 120)
    (h1 : (2 : ℝ) ^ p ≤ |val x|) (h2 : |val x| < (2 : ℝ) ^ (p + 1)) (hy : |val y| ≤ (2 : ℝ) ^ (p - 26)) :
    F32.Finite (addIeee x y) ∧ val (addIeee x y) = val x := by
  have u0 : (0 : ℝ) < (2 : ℝ) ^ (p - 26) := by positivity
  obtain ⟨e0, e1, e2, e3, e4, e5⟩ := pow_shift p _ rfl
  obtain ⟨k, hk⟩ := exact_grid (finite_exact fx).1 h1
  have hx : |val x| ≤ (2 : ℝ) ^ (p + 1) - (2 : ℝ) ^ (p - 23) := by
    have hp1 : (2 : ℝ) ^ (p + 1) = ((2 ^ 24 : Int) : ℝ) * (2 : ℝ) ^ (p - 23) := by rw [e1, e3]; push_cast; ring
    have hk2 : |val x| = ((|k| : Int) : ℝ) * (2 : ℝ) ^ (p - 23) := by
      rw [hk, abs_mul, abs_of_pos (show (0 : ℝ) < (2 : ℝ) ^ (p - 23) by positivity)]; push_cast; rfl
    rw [hk2, hp1] at h2 ⊢
    exact int_lt (by positivity) h2
  have hs : |val x + val y| < (2 : ℝ) ^ (p + 1) := by
    refine lt_of_le_of_lt (abs_add_le _ _) ?_
    rw [e1] at *
    rw [e3] at hx
    norm_num at *; linarith
  have hmax : (2 : ℝ) ^ (p + 1) ≤ 2 ^ 127 := by
    calc (2 : ℝ) ^ (p + 1) ≤ (2 : ℝ) ^ (127 : Int) := zpow_le_zpow_right₀ (by norm_num) (by omega)
      _ = 2 ^ 127 := by norm_num
  have hf := add_fin fx fy (hs.le.trans (big_fin hmax))
  refine ⟨hf, ?_⟩
  have n1 := add_half hf (p := p + 1) (by omega) hs
  rw [show p + 1 - 25 = p - 24 by ring] at n1
  have hpe : F32.Exact ((2 : ℝ) ^ p) := ⟨1, p, by simp, by norm_num, by omega⟩
  have hne : F32.Exact (-(2 : ℝ) ^ p) := ⟨-1, p, by simp, by norm_num, by omega⟩
  have neg_exact : ∀ {a : ℝ}, F32.Exact a → F32.Exact (-a) := by
    rintro a ⟨k, j, rfl, hk, hj⟩
    exact ⟨-k, j, by push_cast; ring, by rwa [Int.natAbs_neg], hj⟩
  have ps : ∀ {s : ℝ}, 0 ≤ s → s < (2 : ℝ) ^ p → |s| < (2 : ℝ) ^ p := fun h0 h => by rwa [abs_of_nonneg h0]
  have small : (2 : ℝ) ^ (p - 26) ≤ (2 : ℝ) ^ p := zpow_le_zpow_right₀ (by norm_num) (by omega)
  rcases le_total 0 (val x) with h0 | h0
  · rw [abs_of_nonneg h0] at h1
    refine back (s := val x + val y) (finite_exact hf).1 (finite_exact fx).1 h1 (by rwa [add_sub_cancel_left]) n1
      (fun h => add_ge hf hpe h) (fun h => add_half hf (by omega) ?_)
    refine ps ?_ h
    have := (abs_le.mp hy).1
    linarith
  · rw [abs_of_nonpos h0] at h1
    have := back (r := -val (addIeee x y)) (x := -val x) (s := -(val x + val y)) (p := p) (neg_exact (finite_exact hf).1)
      (neg_exact (finite_exact fx).1) h1
      (by rw [show -(val x + val y) - -val x = -val y by ring, abs_neg]; exact hy)
      (by rw [show -val (addIeee x y) - -(val x + val y) = -(val (addIeee x y) - (val x + val y)) by ring, abs_neg]; exact n1)
      (fun h => by
        have := Verif.F32.add_le hf hne (by linarith)
        linarith)
      (fun h => by
        rw [show -val (addIeee x y) - -(val x + val y) = -(val (addIeee x y) - (val x + val y)) by ring, abs_neg]
        refine add_half hf (by omega) ?_
        rw [← abs_neg]
        refine ps ?_ h
        have := (abs_le.mp hy).2
        linarith)
    linarith

theorem stall_run {o : Mode} (ho : SaneMode o) {B : ℝ} {p : Int} (hB : (2 : ℝ) ^ (-126 : Int) ≤ B) (hp : -123 ≤ p) (hp' : p ≤ 120)
    (hBp : 4 * B ≤ (2 : ℝ) ^ (p - 26)) :
    ∀ (l : List (F32.W × F32.W)) {w v : F32.W}, (∀ c ∈ l, Push1 ((1 - mu o) / 2 * B) c) → F32.Finite w → F32.Finite v →
      (2 : ℝ) ^ p ≤ |val w| → |val w| < (2 : ℝ) ^ (p + 1) → |val v| ≤ B →
      F32.Finite (run (sgd1 o) l (w, v)).1 ∧ val (run (sgd1 o) l (w, v)).1 = val w
  | [], w, v, _, fw, _, _, _, _ => ⟨fw, rfl⟩
  | (alpha, g) :: l, w, v, hl, fw, fv, h1, h2, hv => by
    obtain ⟨fa, fg, hu⟩ := hl _ List.mem_cons_self
    have hB' : B ≤ 2 ^ 120 := by
      have : (2 : ℝ) ^ (p - 26) ≤ (2 : ℝ) ^ (120 : Int) := zpow_le_zpow_right₀ (by norm_num) (by omega)
      have B0 : 0 < B := lt_of_lt_of_le (by positivity) hB
      norm_num at *; linarith
    obtain ⟨f1, b1, -⟩ := vel_ok ho fa fg fv hB hB' hv hu
    obtain ⟨f2, b2, -⟩ := go_ok ho fv f1 hB hB' hv b1
    obtain ⟨f3, e3⟩ := add_lost fw (flip_finite f2) hp hp' h1 h2 (by rw [flip_val, abs_neg]; exact b2.trans hBp)
    rw [← e3] at h1 h2
    obtain ⟨r1, r2⟩ := stall_run ho hB hp hp' hBp l (fun c hc => hl c (List.mem_cons_of_mem _ hc)) f3 f1 h1 h2 b1
    exact ⟨r1, r2.trans e3⟩

/-- C95: **steps that are too small never add up**: let element `i` be at least `2 ^ p`, and let no step take more than an eighth of the
distance `2 ^ (p-23)` to the next number.  Then no number of steps changes the element, although the steps of exact SGD add up. -/
theorem sgd_stalls {cpu : Cpu} {o : Mode} (ho : SaneMode o) {B : ℝ} {p : Int} (hB : (2 : ℝ) ^ (-126 : Int) ≤ B) (hp : -123 ≤ p)
    (hp' : p ≤ 120) (hBp : 4 * B ≤ (2 : ℝ) ^ (p - 26)) {w : List F32.W} {n : Nat} (hw : w.length = n) {l : List (F32.W × List F32.W)}
    (hl : ∀ c ∈ l, Pushes n ((1 - mu o) / 2 * B) c) {w' v' : List F32.W} (h : Train (Sgd cpu o) l w w' v') {i : Nat} (hi : i < n)
    (hwf : F32.Finite (w.getD i 0)) (h1 : (2 : ℝ) ^ p ≤ |val (w.getD i 0)|) (h2 : |val (w.getD i 0)| < (2 : ℝ) ^ (p + 1)) :
    F32.Finite (w'.getD i 0) ∧ val (w'.getD i 0) = val (w.getD i 0) := by
  have hz : (List.replicate w.length (0 : F32.W)).length = n := by simp [hw]
  obtain ⟨-, -, e⟩ := steps_cell (sgd_cellwise cpu o) l hw hz (fun c hc => (hl c hc).2.1) h
  have e' := e i hi
  rw [zeros_get] at e'
  have B0 : 0 < B := lt_of_lt_of_le (by positivity) hB
  obtain ⟨r1, r2⟩ := stall_run ho hB hp hp' hBp (col l i) (v := 0) (push_col hl hi) hwf (by unfold F32.Finite; decide) h1 h2
    (by rw [val_zero, abs_zero]; exact B0.le)
  rw [← e'] at r1 r2
  exact ⟨r1, r2⟩

end Verif.Opt32
