import Verif.Lemmas.Norm32Cell

set_option autoImplicit false
set_option linter.unusedSimpArgs false

/-!
# The denominators of the normalisation layers on float32 (C94)
-/

namespace Verif.Norm32
open Verif.F32 Verif.Asm Verif.Spec Verif.Spec.Kernels Verif.Net32 Verif.Rec32 Verif.Att32 Verif.Adam32

theorem sqrt_close {a b κ t : ℝ} (ha : 0 ≤ a) (hb : 0 ≤ b) (hκ : 0 ≤ κ) (ht : 0 ≤ t) (h : |a - b| ≤ κ * b + t * t) :
    |Real.sqrt a - Real.sqrt b| ≤ κ * Real.sqrt b + t := by
  have h1 := Real.sqrt_nonneg a
  have h2 := Real.sqrt_nonneg b
  have e1 := Real.mul_self_sqrt ha
  have e2 := Real.mul_self_sqrt hb
  generalize Real.sqrt a = r at *
  generalize Real.sqrt b = s at *
  have e : |a - b| = |r - s| * (r + s) := by
    rw [← e1, ← e2, show r * r - s * s = (r - s) * (r + s) by ring, abs_mul, abs_of_nonneg (add_nonneg h1 h2)]
  rw [e, ← e2] at h
  by_contra hc
  push Not at hc
  have d0 : 0 ≤ |r - s| := abs_nonneg _
  have d1 : |r - s| ≤ r + s := abs_le.mpr ⟨by linarith, by linarith⟩
  generalize |r - s| = Δ at *
  rcases le_total t s with hts | hts
  · have : Δ * (r + s) ≥ Δ * s := mul_le_mul_of_nonneg_left (by linarith) d0
    have h3 : (κ * s + t) * s < Δ * s ∨ s = 0 := by
      rcases h2.eq_or_lt with h | h
      · exact .inr h.symm
      · exact .inl (mul_lt_mul_of_pos_right hc h)
    rcases h3 with h3 | h3
    · have : t * t ≤ t * s := mul_le_mul_of_nonneg_left hts ht
      nlinarith
    · subst h3
      have ht0 : t = 0 := le_antisymm hts ht
      subst ht0
      have : 0 < Δ := by linarith
      nlinarith
  · have h3 : Δ * Δ ≤ Δ * (r + s) := mul_le_mul_of_nonneg_left d1 d0
    have h4 : (κ * s + t) * (κ * s + t) < Δ * Δ := mul_self_lt_mul_self (by positivity) hc
    have h5 : κ * s * s ≤ κ * s * t := mul_le_mul_of_nonneg_left hts (by positivity)
    have h6 : 0 ≤ κ * s * (κ * s) := mul_self_nonneg _
    nlinarith

/-- `q` is close to the denominator `D`, and no number is much larger than `√m q`. -/
def Den (n : Nat) (d : Nat → ℝ) (m D : ℝ) (q : F32.W) : Prop :=
  F32.Finite q ∧ 1 / 2 ^ 35 ≤ val q ∧ val q ≤ 2 ^ 62 ∧ 0 < D ∧ |val q - D| ≤ (n + 16) / 2 ^ 23 * D ∧
    ∀ i < n, d i * d i * (1 - 1 / 2 ^ 18) ≤ m * (val q * val q)

theorem kappa {n : Nat} (hn : n ≤ 2 ^ 20) {k : ℝ} (h0 : 0 ≤ k) (hk : k ≤ 16) : 0 ≤ (n + k) / 2 ^ 23 ∧ (n + k) / 2 ^ 23 ≤ 1 / 7 := by
  have h1 : (n : ℝ) ≤ 1048576 := by exact_mod_cast hn
  have h2 : (0 : ℝ) ≤ n := Nat.cast_nonneg _
  refine ⟨by positivity, ?_⟩
  rw [div_le_iff₀ (by norm_num)]
  norm_num
  linarith

theorem den1 {n : Nat} (hn : n ≤ 2 ^ 20) {d : Nat → ℝ} {m T : ℝ} (hm : 1 ≤ m) (hT : 0 ≤ T) {v eps : F32.W} (h : SqNear n d m T v)
    (he : F32.Finite eps) (he1 : 1 / 2 ^ 60 ≤ val eps) (he2 : val eps ≤ 2 ^ 60) :
    Den n d m (Real.sqrt (T + val eps)) (sqrtIeee (addIeee v eps)) := by
  obtain ⟨fv, pv, uv, ev, gv⟩ := h
  have hpe : 0 < val eps := lt_of_lt_of_le (by positivity) he1
  have fs : F32.Finite (addIeee v eps) := by
    refine add_fin fv he ?_
    rw [abs_of_nonneg (by linarith)]
    unfold maxFin
    norm_num at uv he2 ⊢
    linarith
  have ps := add_pure fs
  rw [abs_of_nonneg (show 0 ≤ val v + val eps by linarith)] at ps
  have pa : 0 ≤ val (addIeee v eps) := add_ge fs zero_exact (by linarith)
  obtain ⟨fq, eq⟩ := sqrt_near fs pa
  generalize sqrtIeee (addIeee v eps) = q at *
  obtain ⟨k0, k1⟩ := kappa hn (k := 8) (by norm_num) (by norm_num)
  obtain ⟨A, hA⟩ : ∃ A, A = T + val eps := ⟨_, rfl⟩
  have hA0 : 0 < A := by rw [hA]; linarith
  have hA1 : 1 / 2 ^ 60 ≤ A := by rw [hA]; linarith
  -- the sum
  have e1 : |val v + val eps - A| ≤ ((n + 8) / 2 ^ 23 + 1 / 2 ^ 60) * A := by
    have e : val v + val eps - A = val v - T := by rw [hA]; ring
    rw [e]
    refine ev.trans ?_
    have a1 : (n + 8) / 2 ^ 23 * T ≤ (n + 8) / 2 ^ 23 * A := mul_le_mul_of_nonneg_left (by rw [hA]; linarith) k0
    have a2 : (1 : ℝ) / 2 ^ 128 ≤ 1 / 2 ^ 60 * A := by
      calc (1 : ℝ) / 2 ^ 128 ≤ 1 / 2 ^ 60 * (1 / 2 ^ 60) := by norm_num
        _ ≤ _ := mul_le_mul_of_nonneg_left hA1 (by positivity)
    rw [add_mul]; linarith
  have e2 : |val (addIeee v eps) - A| ≤ ((n + 8) / 2 ^ 23 + 1 / 2 ^ 23) * A + 0 * 0 := by
    have a1 := abs_sub_le (val (addIeee v eps)) (val v + val eps) A
    have a2 := (abs_le.mp e1).2
    have a3 : ((n + 8) / 2 ^ 23 + 1 / 2 ^ 60) * A ≤ 1 / 6 * A := mul_le_mul_of_nonneg_right (by norm_num at k1 ⊢; linarith) hA0.le
    have a4 : (val v + val eps) / 2 ^ 24 ≤ (7 / 6 * A) / 2 ^ 24 := div_le_div_of_nonneg_right (by linarith) (by positivity)
    have a5 : (7 / 6 * A) / 2 ^ 24 = 7 / 12 * (1 / 2 ^ 23 * A) := by ring
    have a6 : (1 : ℝ) / 2 ^ 60 * A ≤ 1 / 4 * (1 / 2 ^ 23 * A) := by
      rw [← mul_assoc]; exact mul_le_mul_of_nonneg_right (by norm_num) hA0.le
    have a7 : 0 ≤ 1 / 2 ^ 23 * A := by positivity
    rw [add_mul] at e1 ⊢
    linarith
  have e3 := sqrt_close pa hA0.le (show 0 ≤ (n + 8 : ℝ) / 2 ^ 23 + 1 / 2 ^ 23 by positivity) le_rfl e2
  rw [add_zero] at e3
  have hD0 : 0 < Real.sqrt A := Real.sqrt_pos.mpr hA0
  rw [← hA]
  have hlow : 1 / 2 ^ 30 ≤ Real.sqrt A := Real.le_sqrt_of_sq_le (le_trans (by norm_num) hA1)
  have e4 : Real.sqrt (val (addIeee v eps)) ≤ 2 * Real.sqrt A := by
    have := (abs_le.mp e3).2
    have : ((n + 8) / 2 ^ 23 + 1 / 2 ^ 23) * Real.sqrt A ≤ 1 * Real.sqrt A :=
      mul_le_mul_of_nonneg_right (by norm_num at k1 ⊢; linarith) hD0.le
    linarith
  have e5 : |val q - Real.sqrt A| ≤ (n + 16) / 2 ^ 23 * Real.sqrt A := by
    have a1 := abs_sub_le (val q) (Real.sqrt (val (addIeee v eps))) (Real.sqrt A)
    have a2 : Real.sqrt (val (addIeee v eps)) / 2 ^ 23 ≤ 2 * Real.sqrt A / 2 ^ 23 := div_le_div_of_nonneg_right e4 (by positivity)
    have a3 : (n + 16) / 2 ^ 23 * Real.sqrt A = ((n + 8) / 2 ^ 23 + 1 / 2 ^ 23) * Real.sqrt A + 7 / 2 * (2 * Real.sqrt A / 2 ^ 23) := by ring
    have a4 : 0 ≤ 2 * Real.sqrt A / 2 ^ 23 := by positivity
    rw [a3]; linarith
  have hqs : Real.sqrt (val (addIeee v eps)) * (1 - 1 / 2 ^ 23) ≤ val q := by
    have := (abs_le.mp eq).1
    have e : Real.sqrt (val (addIeee v eps)) * (1 - 1 / 2 ^ 23) = Real.sqrt (val (addIeee v eps)) - Real.sqrt (val (addIeee v eps)) / 2 ^ 23 := by ring
    rw [e]; linarith
  have hsum : (val v + val eps) * (1 - 1 / 2 ^ 24) ≤ val (addIeee v eps) := by
    have := (abs_le.mp ps).1
    have e : (val v + val eps) * (1 - 1 / 2 ^ 24) = (val v + val eps) - (val v + val eps) / 2 ^ 24 := by ring
    rw [e]; linarith
  have hss := Real.mul_self_sqrt pa
  have hs0 := Real.sqrt_nonneg (val (addIeee v eps))
  refine ⟨fq, ?_, ?_, hD0, e5, fun i hi => ?_⟩
  · have a1 := (abs_le.mp e5).1
    have a2 : (n + 16) / 2 ^ 23 * Real.sqrt A ≤ 1 / 2 * Real.sqrt A :=
      mul_le_mul_of_nonneg_right (by norm_num at k1 ⊢; linarith) hD0.le
    have a3 : (1 : ℝ) / 2 ^ 35 ≤ 1 / 2 * (1 / 2 ^ 30) := by norm_num
    linarith
  · have a1 := (abs_le.mp eq).2
    have a2 : Real.sqrt (val (addIeee v eps)) ≤ 2 ^ 61 := by
      rw [Real.sqrt_le_left (by norm_num)]
      have a3 := (abs_le.mp ps).2
      have a4 : (val v + val eps) / 2 ^ 24 ≤ val v + val eps := div_le_self (by linarith) (by norm_num)
      norm_num at uv he2 ⊢
      linarith
    have a3 : Real.sqrt (val (addIeee v eps)) / 2 ^ 23 ≤ 2 ^ 61 := le_trans (div_le_self hs0 (by norm_num)) a2
    norm_num at a2 a3 ⊢
    linarith
  · have a1 := gv i hi
    have hm0 : 0 < m := by linarith
    have hd0 : 0 ≤ d i * d i / m := div_nonneg (mul_self_nonneg _) hm0.le
    have hq : d i * d i = m * (d i * d i / m) := by field_simp
    rw [hq]
    generalize d i * d i / m = p at *
    rw [mul_assoc]
    refine mul_le_mul_of_nonneg_left ?_ hm0.le
    have a2 : p * (1 - 1 / 2 ^ 20) ≤ val v + val eps := by
      have : (1 : ℝ) / 2 ^ 128 ≤ 1 / 2 ^ 60 := by norm_num
      linarith
    have a3 : p * (1 - 1 / 2 ^ 20) * (1 - 1 / 2 ^ 24) ≤ val (addIeee v eps) :=
      (mul_le_mul_of_nonneg_right a2 (by norm_num)).trans hsum
    have a4 : Real.sqrt (val (addIeee v eps)) * (1 - 1 / 2 ^ 23) * (Real.sqrt (val (addIeee v eps)) * (1 - 1 / 2 ^ 23)) ≤
        val q * val q := mul_self_le_mul_self (mul_nonneg hs0 (by norm_num)) hqs
    have a5 : val (addIeee v eps) * ((1 - 1 / 2 ^ 23) * (1 - 1 / 2 ^ 23)) ≤ val q * val q := by
      rw [← hss]; refine le_trans (le_of_eq ?_) a4; ring
    calc p * (1 - 1 / 2 ^ 18) ≤ p * ((1 - 1 / 2 ^ 20) * (1 - 1 / 2 ^ 24) * ((1 - 1 / 2 ^ 23) * (1 - 1 / 2 ^ 23))) :=
          mul_le_mul_of_nonneg_left (by norm_num) hd0
      _ = p * (1 - 1 / 2 ^ 20) * (1 - 1 / 2 ^ 24) * ((1 - 1 / 2 ^ 23) * (1 - 1 / 2 ^ 23)) := by ring
      _ ≤ val (addIeee v eps) * ((1 - 1 / 2 ^ 23) * (1 - 1 / 2 ^ 23)) := mul_le_mul_of_nonneg_right a3 (by norm_num)
      _ ≤ _ := a5

theorem tiny10_fin : F32.Finite tiny10 := by unfold F32.Finite tiny10; decide

theorem tiny10_val : val tiny10 = 14411519 / 2 ^ 57 := by simp [tiny10, val, unpack]; norm_num

theorem tiny10_near : |val tiny10 - 1e-10| ≤ 1e-10 / 2 ^ 24 := by rw [tiny10_val, abs_le]; norm_num

theorem den2 {n : Nat} (hn : n ≤ 2 ^ 20) {d : Nat → ℝ} {m T : ℝ} (hm : 1 ≤ m) (hT : 0 ≤ T) {v : F32.W} (h : SqNear n d m T v) :
    Den n d m (Real.sqrt T + 1e-10) (addIeee (sqrtIeee v) tiny10) := by
  obtain ⟨fv, pv, uv, ev, gv⟩ := h
  obtain ⟨fs, es⟩ := sqrt_near fv pv
  obtain ⟨k0, k1⟩ := kappa hn (k := 8) (by norm_num) (by norm_num)
  have ht := tiny10_near
  have hs0 := Real.sqrt_nonneg (val v)
  have hss := Real.mul_self_sqrt pv
  have hT0 := Real.sqrt_nonneg T
  have e3 := sqrt_close pv hT k0 (show (0 : ℝ) ≤ 1 / 2 ^ 64 by positivity)
    (ev.trans (by rw [show (1 : ℝ) / 2 ^ 64 * (1 / 2 ^ 64) = 1 / 2 ^ 128 by norm_num]))
  have hu : Real.sqrt (val v) ≤ 2 ^ 61 := by
    rw [Real.sqrt_le_left (by norm_num)]
    norm_num at uv ⊢; linarith
  have u23 : Real.sqrt (val v) / 2 ^ 23 ≤ Real.sqrt (val v) := div_le_self hs0 (by norm_num)
  have es1 := (abs_le.mp es).1
  have es2 := (abs_le.mp es).2
  have p0 : 0 ≤ val (sqrtIeee v) := by linarith
  generalize sqrtIeee v = r at *
  have ft := tiny10_fin
  have t1 := (abs_le.mp ht).1
  have t2 := (abs_le.mp ht).2
  generalize tiny10 = ε at *
  have tlo : (1 : ℝ) / 2 ^ 34 ≤ val ε := le_trans (by norm_num) (show (1e-10 : ℝ) - 1e-10 / 2 ^ 24 ≤ val ε by linarith)
  have thi : val ε ≤ 1 := le_trans (show val ε ≤ (1e-10 : ℝ) + 1e-10 / 2 ^ 24 by linarith) (by norm_num)
  have fq : F32.Finite (addIeee r ε) := by
    refine add_fin fs ft ?_
    rw [abs_of_nonneg (by linarith [show (0 : ℝ) < 1 / 2 ^ 34 by positivity])]
    unfold maxFin
    norm_num at hu ⊢
    linarith
  have pq := add_pure fq
  have hsum0 : 0 ≤ val r + val ε := by linarith [show (0 : ℝ) < 1 / 2 ^ 34 by positivity]
  rw [abs_of_nonneg hsum0] at pq
  have q1 := (abs_le.mp pq).1
  have q2 := (abs_le.mp pq).2
  unfold Den
  generalize val (addIeee r ε) = Q at *
  obtain ⟨D, hD⟩ : ∃ D, D = Real.sqrt T + 1e-10 := ⟨_, rfl⟩
  rw [← hD]
  have hD0 : 1e-10 ≤ D := by rw [hD]; linarith
  have hDp : 0 < D := lt_of_lt_of_le (by norm_num) hD0
  have e4 : |Real.sqrt (val v) + 1e-10 - D| ≤ (n + 8) / 2 ^ 23 * D + 1 / 2 ^ 24 * D := by
    have e : Real.sqrt (val v) + 1e-10 - D = Real.sqrt (val v) - Real.sqrt T := by rw [hD]; ring
    rw [e]
    refine e3.trans (add_le_add (mul_le_mul_of_nonneg_left (by rw [hD]; linarith [show (0 : ℝ) < 1e-10 by norm_num]) k0) ?_)
    calc (1 : ℝ) / 2 ^ 64 ≤ 1 / 2 ^ 24 * 1e-10 := by norm_num
      _ ≤ _ := mul_le_mul_of_nonneg_left hD0 (by positivity)
  have hlow : val r + val ε ≥ Real.sqrt (val v) * (1 - 1 / 2 ^ 23) + 1 / 2 ^ 34 := by
    have : Real.sqrt (val v) * (1 - 1 / 2 ^ 23) = Real.sqrt (val v) - Real.sqrt (val v) / 2 ^ 23 := by ring
    rw [this]; linarith
  have hv2 : Real.sqrt (val v) + 1e-10 ≤ 2 * D := by
    have a1 := (abs_le.mp e4).2
    have a2 : (n + 8) / 2 ^ 23 * D ≤ 1 / 7 * D := mul_le_mul_of_nonneg_right k1 hDp.le
    have a3 : 1 / 2 ^ 24 * D ≤ 1 / 7 * D := mul_le_mul_of_nonneg_right (by norm_num) hDp.le
    linarith
  have e5 : |val r + val ε - (Real.sqrt (val v) + 1e-10)| ≤ 2 * D / 2 ^ 23 := by
    have e : val r + val ε - (Real.sqrt (val v) + 1e-10) = (val r - Real.sqrt (val v)) + (val ε - 1e-10) := by ring
    rw [e]
    refine (abs_add_le _ _).trans ((add_le_add es ht).trans ?_)
    have a1 : (Real.sqrt (val v) + 1e-10) / 2 ^ 23 ≤ 2 * D / 2 ^ 23 := div_le_div_of_nonneg_right hv2 (by positivity)
    refine le_trans ?_ a1
    rw [add_div]
    refine add_le_add le_rfl (by norm_num)
  have e6 : |Q - D| ≤ (n + 16) / 2 ^ 23 * D := by
    have a1 := abs_sub_le Q (val r + val ε) D
    have a2 := abs_sub_le (val r + val ε) (Real.sqrt (val v) + 1e-10) D
    have a3 : (val r + val ε) / 2 ^ 24 ≤ 4 * D / 2 ^ 24 := by
      refine div_le_div_of_nonneg_right ?_ (by positivity)
      have b1 := (abs_le.mp e5).2
      have b2 : 2 * D / 2 ^ 23 ≤ 2 * D := div_le_self (by linarith) (by norm_num)
      linarith
    have a4 : (n + 16) / 2 ^ 23 * D = (n + 8) / 2 ^ 23 * D + 8 * (D / 2 ^ 23) := by ring
    have a5 : 4 * D / 2 ^ 24 = 2 * (D / 2 ^ 23) := by ring
    have a6 : 2 * D / 2 ^ 23 = 2 * (D / 2 ^ 23) := by ring
    have a7 : 1 / 2 ^ 24 * D = 1 / 2 * (D / 2 ^ 23) := by ring
    have a8 : 0 ≤ D / 2 ^ 23 := by positivity
    rw [a4]; rw [a5] at a3; rw [a6] at e5; rw [a7] at e4
    linarith
  have hQlow : (Real.sqrt (val v) * (1 - 1 / 2 ^ 23) + 1 / 2 ^ 34) * (1 - 1 / 2 ^ 24) ≤ Q := by
    have a1 : (val r + val ε) * (1 - 1 / 2 ^ 24) ≤ Q := by
      have : (val r + val ε) * (1 - 1 / 2 ^ 24) = (val r + val ε) - (val r + val ε) / 2 ^ 24 := by ring
      rw [this]; linarith
    exact (mul_le_mul_of_nonneg_right hlow (by norm_num)).trans a1
  refine ⟨fq, ?_, ?_, hDp, e6, fun i hi => ?_⟩
  · have a1 : 0 ≤ Real.sqrt (val v) * (1 - 1 / 2 ^ 23) * (1 - 1 / 2 ^ 24) := by
      refine mul_nonneg (mul_nonneg hs0 (by norm_num)) (by norm_num)
    have a2 : (1 : ℝ) / 2 ^ 35 ≤ 1 / 2 ^ 34 * (1 - 1 / 2 ^ 24) := by norm_num
    rw [add_mul] at hQlow
    linarith
  · have a1 : (val r + val ε) / 2 ^ 24 ≤ 1 / 4 * (val r + val ε) := by
      rw [div_le_iff₀ (by norm_num)]; nlinarith
    have a2 : Real.sqrt (val v) / 2 ^ 23 ≤ 1 / 4 * Real.sqrt (val v) := by
      rw [div_le_iff₀ (by norm_num)]; nlinarith
    norm_num at hu ⊢
    linarith
  · have a1 := gv i hi
    have hm0 : 0 < m := by linarith
    have hd0 : 0 ≤ d i * d i / m := div_nonneg (mul_self_nonneg _) hm0.le
    have hq : d i * d i = m * (d i * d i / m) := by field_simp
    rw [hq]
    generalize d i * d i / m = p at *
    rw [mul_assoc]
    refine mul_le_mul_of_nonneg_left ?_ hm0.le
    have b1 : 0 ≤ (Real.sqrt (val v) * (1 - 1 / 2 ^ 23) + 1 / 2 ^ 34) * (1 - 1 / 2 ^ 24) := by
      refine mul_nonneg (add_nonneg (mul_nonneg hs0 (by norm_num)) (by positivity)) (by norm_num)
    have b2 := mul_self_le_mul_self b1 hQlow
    refine le_trans ?_ b2
    have b3 : (val v + 1 / 2 ^ 128) * ((1 - 1 / 2 ^ 23) * (1 - 1 / 2 ^ 23) * ((1 - 1 / 2 ^ 24) * (1 - 1 / 2 ^ 24))) ≤
        (Real.sqrt (val v) * (1 - 1 / 2 ^ 23) + 1 / 2 ^ 34) * (1 - 1 / 2 ^ 24) *
          ((Real.sqrt (val v) * (1 - 1 / 2 ^ 23) + 1 / 2 ^ 34) * (1 - 1 / 2 ^ 24)) := by
      generalize Real.sqrt (val v) = y at *
      rw [← hss]
      have c1 : (y * y + 1 / 2 ^ 128) * ((1 - 1 / 2 ^ 23) * (1 - 1 / 2 ^ 23)) ≤
          (y * (1 - 1 / 2 ^ 23) + 1 / 2 ^ 34) * (y * (1 - 1 / 2 ^ 23) + 1 / 2 ^ 34) := by
        have d1 : 0 ≤ y * (1 - 1 / 2 ^ 23) * (1 / 2 ^ 34) := mul_nonneg (mul_nonneg hs0 (by norm_num)) (by positivity)
        have d2 : (1 : ℝ) / 2 ^ 128 * ((1 - 1 / 2 ^ 23) * (1 - 1 / 2 ^ 23)) ≤ 1 / 2 ^ 34 * (1 / 2 ^ 34) := by norm_num
        generalize (1 : ℝ) / 2 ^ 34 = c at *
        generalize (1 - 1 / 2 ^ 23 : ℝ) = f at *
        generalize (1 : ℝ) / 2 ^ 128 = g at *
        nlinarith
      have c2 := mul_le_mul_of_nonneg_right c1 (show (0 : ℝ) ≤ (1 - 1 / 2 ^ 24) * (1 - 1 / 2 ^ 24) by norm_num)
      refine le_trans (le_of_eq ?_) (c2.trans (le_of_eq ?_)) <;> ring
    refine le_trans ?_ b3
    calc p * (1 - 1 / 2 ^ 18) ≤ p * ((1 - 1 / 2 ^ 20) * ((1 - 1 / 2 ^ 23) * (1 - 1 / 2 ^ 23) * ((1 - 1 / 2 ^ 24) * (1 - 1 / 2 ^ 24)))) :=
          mul_le_mul_of_nonneg_left (by norm_num) hd0
      _ = p * (1 - 1 / 2 ^ 20) * ((1 - 1 / 2 ^ 23) * (1 - 1 / 2 ^ 23) * ((1 - 1 / 2 ^ 24) * (1 - 1 / 2 ^ 24))) := by ring
      _ ≤ _ := mul_le_mul_of_nonneg_right a1 (by norm_num)

end Verif.Norm32
