import Verif.Lemmas.Norm32Sum
import Verif.Spec.Rec32

set_option autoImplicit false
set_option linter.unusedSimpArgs false

/-!
# The numbers of the normalisation layers on float32 (C94)
-/

namespace Verif.Norm32
open Verif.F32 Verif.Asm Verif.Spec Verif.Spec.Kernels Verif.Net32 Verif.Rec32 Verif.Att32 Verif.Adam32

/-- The values of a list of words. -/
noncomputable abbrev vals' (x : List F32.W) (i : Nat) : ℝ := val (x.getD i 0)

theorem count_pos {n : Nat} (h1 : 1 ≤ n) (hn : n ≤ 2 ^ 20) : (1 : ℝ) ≤ n ∧ (n : ℝ) ≤ 2 ^ 20 := ⟨by exact_mod_cast h1, by exact_mod_cast hn⟩

theorem inv_ok {n : Nat} (h1 : 1 ≤ n) (hn : n ≤ 2 ^ 20) :
    F32.Finite (invCount n) ∧ 0 < val (invCount n) ∧ |val (invCount n) - 1 / n| ≤ 1 / n / 2 ^ 23 := by
  obtain ⟨g1, g2⟩ := count_pos h1 hn
  have hr := round_int (t := (n : Int)) (by omega) (by rw [abs_of_nonneg (by omega)]; omega)
  have e : F32.round (decide ((n : Int) < 0)) (n : Int).natAbs 0 = F32.round false n 0 := by
    have : decide ((n : Int) < 0) = false := by simp
    rw [this, Int.natAbs_natCast]
  rw [e] at hr
  obtain ⟨hf, hv⟩ := hr
  have hv' : val (F32.round false n 0) = n := by rw [hv]; simp
  have hq : val one / val (F32.round false n 0) = 1 / n := by rw [one_val, hv']
  have hn0 : (0 : ℝ) < n := by linarith
  have hle : 1 / (n : ℝ) ≤ 1 := by rw [div_le_one hn0]; exact g1
  have hge : 1 / 2 ^ 20 ≤ 1 / (n : ℝ) := one_div_le_one_div_of_le hn0 g2
  have hd := div_near one_fin hf (by rw [one_val]; norm_num) (by rw [hv']; exact hn0.ne')
    (by rw [hq, abs_of_pos (by positivity)]; exact hle.trans (by norm_num))
    (by rw [hq, abs_of_pos (by positivity)]; exact le_trans (by norm_num) hge)
  rw [hq, abs_of_pos (show (0 : ℝ) < 1 / n by positivity)] at hd
  refine ⟨hd.1, ?_, hd.2⟩
  have := (abs_le.mp hd.2).1
  show 0 < val (divIeee one (F32.round false n 0))
  have hp : (0 : ℝ) < 1 / n := by positivity
  generalize (1 / n : ℝ) = c at *
  linarith

theorem mean_ok {cpu : Cpu} {x : List F32.W} {m : F32.W} (h : Mean cpu x m) (h1 : 1 ≤ x.length) (hn : x.length ≤ 2 ^ 20) {X : ℝ}
    (hX : X ≤ 2 ^ 50) (hx : ∀ i < x.length, F32.Finite (x.getD i 0) ∧ |val (x.getD i 0)| ≤ X) :
    F32.Finite m ∧ |val m - (∑ i ∈ Finset.range x.length, val (x.getD i 0)) / x.length| ≤
      (x.length + 4) / 2 ^ 23 * (X + 1 / 2 ^ 63) := by
  obtain ⟨s, hs, hm⟩ := h
  rw [scaleIn_iff] at hm
  simp only [List.map_cons, List.map_nil, List.cons.injEq, and_true] at hm
  obtain ⟨g1, g2⟩ := count_pos h1 hn
  obtain ⟨fs, es⟩ := sum_near hs hn (K := 50) (by norm_num) hX hx
  obtain ⟨fc, pc, ec⟩ := inv_ok h1 hn
  have hsum : |∑ i ∈ Finset.range x.length, val (x.getD i 0)| ≤ x.length * X := by
    refine (Finset.abs_sum_le_sum_abs _ _).trans ((Finset.sum_le_sum fun i hi => (hx i (Finset.mem_range.mp hi)).2).trans ?_)
    simp
  have hX0 : 0 ≤ X := (abs_nonneg _).trans (hx 0 (by omega)).2
  generalize (∑ i ∈ Finset.range x.length, val (x.getD i 0)) = S at *
  generalize (x.length : ℝ) = n at *
  generalize hc : val (invCount x.length) = c at *
  have hn0 : 0 < n := by linarith
  obtain ⟨Y, hY⟩ : ∃ Y, Y = X + 1 / 2 ^ 63 := ⟨_, rfl⟩
  rw [← hY] at es ⊢
  have hY0 : 1 / 2 ^ 63 ≤ Y := by rw [hY]; linarith
  have hYu : Y ≤ 2 ^ 51 := by rw [hY]; norm_num; norm_num at hX; linarith
  -- the sum divided by n
  have d1 : |val s / n - S / n| ≤ n / 2 ^ 23 * Y := by
    rw [← sub_div, abs_div, abs_of_pos hn0, div_le_iff₀ hn0]
    calc _ ≤ _ := es
      _ = _ := by ring
  have d2 : |S / n| ≤ Y := by
    rw [abs_div, abs_of_pos hn0, div_le_iff₀ hn0]
    refine hsum.trans ?_
    rw [hY]; nlinarith
  have hn8 : n / 2 ^ 23 ≤ 1 / 8 := by rw [div_le_iff₀ (by norm_num)]; linarith
  have d3 : |val s / n| ≤ 9 / 8 * Y := by
    have := abs_sub_abs_le_abs_sub (val s / n) (S / n)
    have h8 : n / 2 ^ 23 * Y ≤ 1 / 8 * Y := mul_le_mul_of_nonneg_right hn8 (by linarith [show (0 : ℝ) < 1 / 2 ^ 63 by positivity])
    linarith
  have d4 : |val s * c - val s / n| ≤ 9 / 8 * Y / 2 ^ 23 := by
    have e : val s * c - val s / n = val s / n * (n * (c - 1 / n)) := by field_simp
    have e2 : |n * (c - 1 / n)| ≤ 1 / 2 ^ 23 := by
      rw [abs_mul, abs_of_pos hn0]
      calc n * |c - 1 / n| ≤ n * (1 / n / 2 ^ 23) := mul_le_mul_of_nonneg_left ec hn0.le
        _ = 1 / 2 ^ 23 := by field_simp
    rw [e, abs_mul]
    calc _ ≤ 9 / 8 * Y * (1 / 2 ^ 23) := mul_le_mul d3 e2 (abs_nonneg _) (by linarith [abs_nonneg (val s / n)])
      _ = _ := by ring
  have d5 : |val s * c| ≤ 5 / 4 * Y := by
    have := abs_sub_abs_le_abs_sub (val s * c) (val s / n)
    have : 9 / 8 * Y / 2 ^ 23 ≤ 1 / 8 * Y := by
      rw [div_le_iff₀ (by norm_num)]; norm_num at hY0 ⊢; linarith
    linarith
  have fm : F32.Finite (mulIeee s (invCount x.length)) := by
    refine mul_fin fs fc ?_
    rw [hc]
    refine d5.trans (lt127 ?_)
    norm_num at hYu ⊢
    linarith
  subst hm
  refine ⟨fm, ?_⟩
  have d6 := mul_rel fm
  rw [hc] at d6
  have e : val (mulIeee s (invCount x.length)) - S / n = (val (mulIeee s (invCount x.length)) - val s * c) +
      ((val s * c - val s / n) + (val s / n - S / n)) := by ring
  rw [e]
  refine (abs_add_le _ _).trans ((add_le_add d6 ((abs_add_le _ _).trans (add_le_add d4 d1))).trans ?_)
  have d7 : |val s * c| / 2 ^ 24 ≤ 5 / 4 * Y / 2 ^ 24 := div_le_div_of_nonneg_right d5 (by positivity)
  have d8 : (2 : ℝ) ^ (-150 : Int) ≤ Y / 2 ^ 23 := by
    rw [le_div_iff₀ (by positivity)]
    exact le_trans (by norm_num) hY0
  have e2 : (n + 4) / 2 ^ 23 * Y = n / 2 ^ 23 * Y + 4 * Y / 2 ^ 23 := by ring
  rw [e2]
  have e3 : 4 * Y / 2 ^ 23 = 4 * (Y / 2 ^ 23) := by ring
  have e4 : 5 / 4 * Y / 2 ^ 24 = 5 / 8 * (Y / 2 ^ 23) := by ring
  have e5 : 9 / 8 * Y / 2 ^ 23 = 9 / 8 * (Y / 2 ^ 23) := by ring
  have : 0 ≤ Y / 2 ^ 23 := by positivity
  generalize (2 : ℝ) ^ (-150 : Int) = t at *
  rw [e3, e5]
  rw [e4] at d7
  linarith

/-! ### Squares -/

/-- `v` is close to `T`, and hardly less than any `(d i)²/m`. -/
def SqNear (n : Nat) (d : Nat → ℝ) (m : ℝ) (T : ℝ) (v : F32.W) : Prop :=
  F32.Finite v ∧ 0 ≤ val v ∧ val v ≤ 2 ^ 121 ∧ |val v - T| ≤ (n + 8) / 2 ^ 23 * T + 1 / 2 ^ 128 ∧
    ∀ i < n, d i * d i / m * (1 - 1 / 2 ^ 20) ≤ val v + 1 / 2 ^ 128

theorem sq_ok {z : F32.W} (hz : F32.Finite z) (h : |val z| ≤ 2 ^ 50) :
    F32.Finite (mulIeee z z) ∧ 0 ≤ val (mulIeee z z) ∧ val (mulIeee z z) ≤ 2 ^ 100 ∧
      |val (mulIeee z z) - val z * val z| ≤ val z * val z / 2 ^ 24 + 1 / 2 ^ 150 := by
  have h0 := mul_self_nonneg (val z)
  have hb : |val z * val z| ≤ 2 ^ 100 := by
    rw [abs_mul]
    calc |val z| * |val z| ≤ 2 ^ 50 * 2 ^ 50 := mul_le_mul h h (abs_nonneg _) (by positivity)
      _ = 2 ^ 100 := by norm_num
  have he : F32.Exact ((2 : ℝ) ^ 100) := by
    have := exact_mul (n := 1) (K := 100) (by norm_num)
    simpa using this
  have hf := mul_fin hz hz (lt127 hb)
  have hu := mul_unit hz hz he hb (lt127 le_rfl)
  refine ⟨hf, mul_nonneg' hf h0, (abs_le.mp hu.2).2, ?_⟩
  have := mul_rel hf
  rw [abs_of_nonneg h0] at this
  refine this.trans (le_of_eq ?_)
  norm_num

theorem sumSq_ok {cpu : Cpu} {x sq : List F32.W} {v : F32.W} (hsq : Prod x x sq) (h : Sum1 cpu sq v) (hn : x.length ≤ 2 ^ 20)
    (hx : ∀ i < x.length, F32.Finite (x.getD i 0) ∧ |val (x.getD i 0)| ≤ 2 ^ 50) :
    F32.Finite v ∧ 0 ≤ val v ∧ val v ≤ x.length * 2 ^ 100 ∧
      |val v - ∑ i ∈ Finset.range x.length, vals' x i * vals' x i| ≤
        (x.length + 2) / 2 ^ 23 * (∑ i ∈ Finset.range x.length, vals' x i * vals' x i) + x.length / 2 ^ 149 ∧
      ∀ i < x.length, vals' x i * vals' x i * (1 - 1 / 2 ^ 24) ≤ val v + 1 / 2 ^ 150 := by
  obtain ⟨-, rfl⟩ := hsq
  have hl : (List.zipWith mulIeee x x).length = x.length := by simp
  have hg : ∀ i < x.length, (List.zipWith mulIeee x x).getD i 0 = mulIeee (x.getD i 0) (x.getD i 0) := fun i hi => zget _ hi rfl
  obtain ⟨f, p, u, g, e⟩ := sum_heap h (by rw [hl]; exact hn) (K := 100) le_rfl (fun i hi => by
    rw [hl] at hi
    rw [hg i hi]
    obtain ⟨a, b, c, -⟩ := sq_ok (hx i hi).1 (hx i hi).2
    exact ⟨a, b, c⟩)
  rw [hl] at u g e
  have hs : |∑ i ∈ Finset.range x.length, val ((List.zipWith mulIeee x x).getD i 0) -
      ∑ i ∈ Finset.range x.length, vals' x i * vals' x i| ≤
      (∑ i ∈ Finset.range x.length, vals' x i * vals' x i) / 2 ^ 24 + x.length / 2 ^ 150 := by
    rw [← Finset.sum_sub_distrib]
    refine (Finset.abs_sum_le_sum_abs _ _).trans ((Finset.sum_le_sum (g := fun i => vals' x i * vals' x i / 2 ^ 24 + 1 / 2 ^ 150)
      fun i hi => ?_).trans (le_of_eq ?_))
    · have hi' := Finset.mem_range.mp hi
      rw [hg i hi']
      exact (sq_ok (hx i hi').1 (hx i hi').2).2.2.2
    · rw [Finset.sum_add_distrib, ← Finset.sum_div]
      simp only [Finset.sum_const, Finset.card_range, nsmul_eq_mul]
      ring
  refine ⟨f, p, u, ?_, fun i hi => ?_⟩
  · have hT : 0 ≤ ∑ i ∈ Finset.range x.length, vals' x i * vals' x i := Finset.sum_nonneg fun i _ => mul_self_nonneg _
    have hnr : (x.length : ℝ) ≤ 2 ^ 20 := by exact_mod_cast hn
    have hn0 : (0 : ℝ) ≤ x.length := Nat.cast_nonneg _
    generalize (∑ i ∈ Finset.range x.length, vals' x i * vals' x i) = T at *
    generalize (∑ i ∈ Finset.range x.length, val ((List.zipWith mulIeee x x).getD i 0)) = Q at *
    generalize (x.length : ℝ) = n at *
    have hQ : Q ≤ T + (T / 2 ^ 24 + n / 2 ^ 150) := by have := (abs_le.mp hs).2; linarith
    have h1 : n / 2 ^ 23 ≤ 1 / 8 := by rw [div_le_iff₀ (by norm_num)]; linarith
    have h2 : n / 2 ^ 23 * Q ≤ n / 2 ^ 23 * T + 1 / 8 * (T / 2 ^ 24 + n / 2 ^ 150) := by
      have a1 := mul_le_mul_of_nonneg_left hQ (show 0 ≤ n / 2 ^ 23 by positivity)
      have a2 := mul_le_mul_of_nonneg_right h1 (show 0 ≤ T / 2 ^ 24 + n / 2 ^ 150 by positivity)
      linarith [mul_add (n / 2 ^ 23) T (T / 2 ^ 24 + n / 2 ^ 150)]
    have h3 := abs_sub_le (val v) Q T
    have e1 : (n + 2) / 2 ^ 23 * T = n / 2 ^ 23 * T + 4 * (T / 2 ^ 24) := by ring
    have e2 : n / 2 ^ 149 = 2 * (n / 2 ^ 150) := by ring
    rw [e1, e2]
    have : 0 ≤ T / 2 ^ 24 := by positivity
    have : 0 ≤ n / 2 ^ 150 := div_nonneg hn0 (pow_nonneg (by norm_num) _)
    linarith
  · have h1 := g i hi
    rw [hg i hi] at h1
    have h2 := (abs_le.mp (sq_ok (hx i hi).1 (hx i hi).2).2.2.2).1
    unfold vals'
    generalize val (x.getD i 0) * val (x.getD i 0) = q at *
    have e : q * (1 - 1 / 2 ^ 24) = q - q / 2 ^ 24 := by ring
    rw [e]
    linarith

theorem meanSq_ok {cpu : Cpu} {x : List F32.W} {v : F32.W} (h : MeanSq cpu x v) (h1 : 1 ≤ x.length) (hn : x.length ≤ 2 ^ 20)
    (hx : ∀ i < x.length, F32.Finite (x.getD i 0) ∧ |val (x.getD i 0)| ≤ 2 ^ 50) :
    SqNear x.length (vals' x) x.length ((∑ i ∈ Finset.range x.length, vals' x i * vals' x i) / x.length) v := by
  obtain ⟨sq, hsq, s, hs, hm⟩ := h
  have hl : sq.length = x.length := by rw [hsq.2]; simp
  rw [scaleIn_iff, hl] at hm
  simp only [List.map_cons, List.map_nil, List.cons.injEq, and_true] at hm
  obtain ⟨f, p, u, e, g⟩ := sumSq_ok hsq hs hn hx
  obtain ⟨g1, g2⟩ := count_pos h1 hn
  obtain ⟨fc, pc, ec⟩ := inv_ok h1 hn
  have hT : 0 ≤ ∑ i ∈ Finset.range x.length, vals' x i * vals' x i := Finset.sum_nonneg fun i _ => mul_self_nonneg _
  unfold SqNear
  generalize (∑ i ∈ Finset.range x.length, vals' x i * vals' x i) = T at *
  generalize hc : val (invCount x.length) = c at *
  generalize (x.length : ℝ) = n at *
  have hn0 : 0 < n := by linarith
  -- s * c
  have q0 : 0 ≤ val s / n := by positivity
  have d4 : |val s * c - val s / n| ≤ val s / n / 2 ^ 23 := by
    have e : val s * c - val s / n = val s / n * (n * (c - 1 / n)) := by field_simp
    have e2 : |n * (c - 1 / n)| ≤ 1 / 2 ^ 23 := by
      rw [abs_mul, abs_of_pos hn0]
      calc n * |c - 1 / n| ≤ n * (1 / n / 2 ^ 23) := mul_le_mul_of_nonneg_left ec hn0.le
        _ = 1 / 2 ^ 23 := by field_simp
    rw [e, abs_mul, abs_of_nonneg q0]
    calc _ ≤ val s / n * (1 / 2 ^ 23) := mul_le_mul_of_nonneg_left e2 q0
      _ = _ := by ring
  have d5 : val s / n ≤ 2 ^ 100 := by rw [div_le_iff₀ hn0]; linarith
  have d6 : 0 ≤ val s * c := mul_nonneg p pc.le
  have d7 : val s * c ≤ 2 ^ 101 := by
    have := (abs_le.mp d4).2
    have : val s / n / 2 ^ 23 ≤ 2 ^ 100 := le_trans (div_le_self q0 (by norm_num)) d5
    norm_num at d5 this ⊢
    linarith
  have fm : F32.Finite (mulIeee s (invCount x.length)) := by
    refine mul_fin f fc ?_
    rw [hc, abs_of_nonneg d6]
    exact d7.trans (by unfold maxFin; norm_num)
  have r := mul_rel fm
  rw [hc, abs_of_nonneg d6] at r
  have r0 : 0 ≤ val (mulIeee s (invCount x.length)) := mul_nonneg' fm (by rw [hc]; exact d6)
  subst hm
  have ht : (2 : ℝ) ^ (-150 : Int) ≤ 1 / 2 ^ 150 := by norm_num
  have t1 : (1 : ℝ) / 2 ^ 150 ≤ 1 / 2 ^ 128 / 2 ^ 20 := by norm_num
  -- relative to s / n
  have d8 : |val (mulIeee s (invCount x.length)) - val s / n| ≤ val s / n / 2 ^ 22 + 1 / 2 ^ 150 := by
    have a := abs_sub_le (val (mulIeee s (invCount x.length))) (val s * c) (val s / n)
    have b : val s * c / 2 ^ 24 ≤ 2 * (val s / n) / 2 ^ 24 := by
      refine div_le_div_of_nonneg_right ?_ (by positivity)
      have := (abs_le.mp d4).2
      have : val s / n / 2 ^ 23 ≤ val s / n := div_le_self q0 (by norm_num)
      linarith
    have e1 : val s / n / 2 ^ 22 = val s / n / 2 ^ 23 + 2 * (val s / n) / 2 ^ 24 := by ring
    rw [e1]
    linarith
  have eT : |val s / n - T / n| ≤ (n + 2) / 2 ^ 23 * (T / n) + 1 / 2 ^ 149 := by
    rw [← sub_div, abs_div, abs_of_pos hn0, div_le_iff₀ hn0]
    refine e.trans (le_of_eq ?_)
    field_simp
  have hTn : 0 ≤ T / n := by positivity
  refine ⟨fm, r0, ?_, ?_, fun i hi => ?_⟩
  · have a := (abs_le.mp d8).2
    have b : val s / n / 2 ^ 22 ≤ 2 ^ 100 := le_trans (div_le_self q0 (by norm_num)) d5
    norm_num at a b d5 ⊢
    linarith
  · have a := abs_sub_le (val (mulIeee s (invCount x.length))) (val s / n) (T / n)
    have hn8 : (n + 2) / 2 ^ 23 ≤ 1 / 2 := by
      rw [div_le_iff₀ (by norm_num)]; norm_num; norm_num at g2; linarith
    have b : val s / n ≤ 2 * (T / n) + 1 / 2 ^ 149 := by
      have b1 := (abs_le.mp eT).2
      have b2 := mul_le_mul_of_nonneg_right hn8 hTn
      linarith
    have b' : val s / n / 2 ^ 22 ≤ (2 * (T / n) + 1 / 2 ^ 149) / 2 ^ 22 := div_le_div_of_nonneg_right b (by positivity)
    have e1 : (n + 8) / 2 ^ 23 * (T / n) = (n + 2) / 2 ^ 23 * (T / n) + 3 * (T / n) / 2 ^ 22 := by ring
    have e2 : (2 * (T / n) + 1 / 2 ^ 149) / 2 ^ 22 = 2 * (T / n) / 2 ^ 22 + 1 / 2 ^ 149 / 2 ^ 22 := by ring
    have e3 : 2 * (T / n) / 2 ^ 22 ≤ 3 * (T / n) / 2 ^ 22 := div_le_div_of_nonneg_right (by linarith) (by positivity)
    have t2 : (1 : ℝ) / 2 ^ 149 + 1 / 2 ^ 149 / 2 ^ 22 + 1 / 2 ^ 150 ≤ 1 / 2 ^ 128 := by norm_num
    rw [e1]
    rw [e2] at b'
    linarith
  · have a := g i hi
    have b := (abs_le.mp d8).1
    have c1 : vals' x i * vals' x i / n * (1 - 1 / 2 ^ 24) ≤ val s / n + 1 / 2 ^ 150 := by
      have e1 : vals' x i * vals' x i / n * (1 - 1 / 2 ^ 24) = vals' x i * vals' x i * (1 - 1 / 2 ^ 24) / n := by ring
      have e2 : val s / n + 1 / 2 ^ 150 = (val s + 1 / 2 ^ 150 * n) / n := by field_simp
      rw [e1, e2]
      refine div_le_div_of_nonneg_right (a.trans ?_) hn0.le
      have : (1 : ℝ) / 2 ^ 150 * 1 ≤ 1 / 2 ^ 150 * n := mul_le_mul_of_nonneg_left g1 (by positivity)
      linarith
    have h0 : 0 ≤ vals' x i * vals' x i / n := div_nonneg (mul_self_nonneg _) hn0.le
    generalize vals' x i * vals' x i / n = q at *
    generalize val (mulIeee s (invCount x.length)) = V at *
    have c2 : q * (1 - 1 / 2 ^ 24) * (1 - 1 / 2 ^ 22) ≤ (val s / n + 1 / 2 ^ 150) * (1 - 1 / 2 ^ 22) :=
      mul_le_mul_of_nonneg_right c1 (by norm_num)
    have c3 : q * (1 - 1 / 2 ^ 20) ≤ q * (1 - 1 / 2 ^ 24) * (1 - 1 / 2 ^ 22) := by
      rw [mul_assoc]; exact mul_le_mul_of_nonneg_left (by norm_num) h0
    have c4 : (val s / n + 1 / 2 ^ 150) * (1 - 1 / 2 ^ 22) ≤ val s / n - val s / n / 2 ^ 22 + 1 / 2 ^ 150 := by
      have : (val s / n + 1 / 2 ^ 150) * (1 - 1 / 2 ^ 22) = val s / n - val s / n / 2 ^ 22 + 1 / 2 ^ 150 * (1 - 1 / 2 ^ 22) := by ring
      rw [this]; norm_num
    have t3 : (1 : ℝ) / 2 ^ 150 + 1 / 2 ^ 150 ≤ 1 / 2 ^ 128 := by norm_num
    linarith

end Verif.Norm32
