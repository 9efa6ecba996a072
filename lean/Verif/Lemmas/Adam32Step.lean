import Verif.Lemmas.Adam32Cell

set_option autoImplicit false
set_option linter.unusedSimpArgs false

/-!
# One element of Adam: the step
-/

namespace Verif.Adam32
open Verif.F32 Verif.Asm Verif.Spec Verif.Spec.Kernels Verif.Net32 Verif.Rec32 Verif.Att32 Verif.Spec.Adam32

/-- A quotient with a denominator slightly off. -/
theorem quot_real {a N D E K u : ℝ} (hD : 0 < D) (ha : a / D = N) (hN : |N| ≤ K) (hE : |E - D| ≤ D * u) (hu0 : 0 ≤ u) (hu : u ≤ 1 / 2) :
    0 < E ∧ |a / E - N| ≤ K * (2 * u) := by
  obtain ⟨h1, h2⟩ := abs_le.mp hE
  have hDu : D * u ≤ D * (1 / 2) := mul_le_mul_of_nonneg_left hu hD.le
  have hE0 : 0 < E := by linarith
  refine ⟨hE0, ?_⟩
  have e : a / E - N = N * ((D - E) / E) := by rw [← ha]; field_simp
  rw [e, abs_mul]
  refine mul_le_mul hN ?_ (abs_nonneg _) ((abs_nonneg _).trans hN)
  rw [abs_div, abs_of_pos hE0, div_le_iff₀ hE0, abs_sub_comm]
  refine hE.trans ?_
  have : 2 * u * (D / 2) ≤ 2 * u * E := mul_le_mul_of_nonneg_left (by linarith) (by linarith)
  linarith

/-- **The quotient of the moments.** -/
theorem quot_ok {o : Settings} {K : ℝ} (ho : Sane o K) {v m : F32.W} (fv : F32.Finite v) (fm : F32.Finite m) (hm0 : 0 ≤ val m)
    (h : |val v| ≤ K * Real.sqrt (val m) + 1 / 2 ^ 50) :
    |val v / (Real.sqrt (val m) + val o.eps)| ≤ K ∧ F32.Finite (divIeee v (addIeee (sqrtIeee m) o.eps)) ∧
      |val (divIeee v (addIeee (sqrtIeee m) o.eps)) - val v / (Real.sqrt (val m) + val o.eps)| ≤ K / 2 ^ 20 := by
  have e1 := ho.eps_ge
  have e2 := ho.eps_le
  have k1 := ho.K_ge
  have k2 := ho.K_le
  have e0 : 0 < val o.eps := lt_of_lt_of_le (by positivity) e1
  have s0 := Real.sqrt_nonneg (val m)
  have s1 : Real.sqrt (val m) ≤ 2 ^ 64 := by
    rw [Real.sqrt_le_left (by positivity)]
    have := (finite_exact fm).2
    rw [abs_of_nonneg hm0] at this
    refine this.trans ?_
    unfold maxFin; norm_num
  have hN : |val v / (Real.sqrt (val m) + val o.eps)| ≤ K := by
    rw [abs_div, abs_of_pos (show 0 < Real.sqrt (val m) + val o.eps by linarith), div_le_iff₀ (by linarith), mul_add]
    have : 1 / 2 ^ 40 * 1 ≤ val o.eps * K := mul_le_mul e1 k1 (by norm_num) e0.le
    norm_num at this h ⊢; linarith
  refine ⟨hN, ?_⟩
  obtain ⟨fr, nr⟩ := sqrt_near fm hm0
  generalize hs : Real.sqrt (val m) = s at *
  obtain ⟨r1, r2⟩ := abs_le.mp nr
  have hr0 : 0 ≤ val (sqrtIeee m) := by norm_num at r1; linarith
  have hb : |val (sqrtIeee m) + val o.eps| ≤ (s + val o.eps) * (1 + 1 / 2 ^ 23) := by
    rw [abs_of_nonneg (by linarith)]; norm_num at r2 ⊢; linarith
  have hsum : (2 : ℝ) ^ (-126 : Int) ≤ (s + val o.eps) * (1 + 1 / 2 ^ 23) := by
    have : (2 : ℝ) ^ (-126 : Int) ≤ 1 / 2 ^ 40 := by norm_num
    generalize (2 : ℝ) ^ (-126 : Int) = t at *
    norm_num at *; linarith
  have fD : F32.Finite (addIeee (sqrtIeee m) o.eps) := add_fin fr ho.eps_fin (hb.trans (big_fin (by norm_num at s1 e2 ⊢; linarith)))
  have nD := (add_near_fin fD).trans (slack_le hb hsum)
  have hE : |val (addIeee (sqrtIeee m) o.eps) - (s + val o.eps)| ≤ (s + val o.eps) * (1 / 2 ^ 22) := by
    rw [abs_le] at nD ⊢
    norm_num at nD r1 r2 ⊢
    constructor <;> linarith [nD.1, nD.2]
  obtain ⟨hE0, hq⟩ := quot_real (a := val v) (by linarith) rfl hN hE (by norm_num) (by norm_num)
  have hx : |val v / val (addIeee (sqrtIeee m) o.eps)| ≤ K * (1 + 1 / 2 ^ 21) := by
    have := abs_sub_abs_le_abs_sub (val v / val (addIeee (sqrtIeee m) o.eps)) (val v / (s + val o.eps))
    norm_num at hq ⊢; linarith
  obtain ⟨fq, nq⟩ := div_bound fv fD hE0.ne' (hx.trans (by norm_num at k2 ⊢; linarith))
  refine ⟨fq, ?_⟩
  have h3 := abs_sub_le (val (divIeee v (addIeee (sqrtIeee m) o.eps))) (val v / val (addIeee (sqrtIeee m) o.eps)) (val v / (s + val o.eps))
  have ht : (2 : ℝ) ^ (-149 : Int) ≤ 1 / 2 ^ 40 := by norm_num
  generalize (2 : ℝ) ^ (-149 : Int) = t at *
  norm_num at nq hq hx ht ⊢
  linarith

theorem decay_none {o : Settings} (h : o.decay = none) : decay o = 0 := by unfold decay; rw [h]

theorem decay_some {o : Settings} {l : F32.W} (h : o.decay = some l) : decay o = val l := by unfold decay; rw [h]

/-- **The direction.** -/
theorem dir1_ok {o : Settings} {A K : ℝ} {P : Int} (ho : Sane o K) (hR : Room o A K P) {w v m : F32.W} (fw : F32.Finite w)
    (hw : |val w| ≤ (2 : ℝ) ^ P) (fv : F32.Finite v) (fm : F32.Finite m) (hm0 : 0 ≤ val m)
    (h : |val v| ≤ K * Real.sqrt (val m) + 1 / 2 ^ 50) :
    F32.Finite (dir1 o w v m) ∧ 0 ≤ decay o ∧
      |val (dir1 o w v m) - (val v / (Real.sqrt (val m) + val o.eps) + decay o * val w)| ≤ (K + decay o * |val w|) / 2 ^ 19 := by
  obtain ⟨hN, fq, nq⟩ := quot_ok ho fv fm hm0 h
  have k1 := ho.K_ge
  have k2 := ho.K_le
  obtain ⟨hP1, hP2, hA, hR⟩ := hR
  have hP : (2 : ℝ) ^ P ≤ 2 ^ 90 := by
    rw [← zpow_natCast]; exact zpow_le_zpow_right₀ (by norm_num) (by exact_mod_cast hP2)
  cases hd : o.decay with
  | none =>
    rw [decay_none hd]
    have e : dir1 o w v m = divIeee v (addIeee (sqrtIeee m) o.eps) := by unfold dir1; rw [hd]
    rw [e]
    refine ⟨fq, le_rfl, ?_⟩
    rw [zero_mul, add_zero, zero_mul, add_zero]
    refine nq.trans ?_
    norm_num; linarith
  | some l =>
    rw [decay_some hd]
    rw [hd] at hR
    obtain ⟨fl, l0, l1, -, -⟩ := hR
    have e : dir1 o w v m = addIeee (divIeee v (addIeee (sqrtIeee m) o.eps)) (mulIeee w l) := by unfold dir1; rw [hd]
    rw [e]
    have hy : |val w * val l| = val l * |val w| := by rw [abs_mul, abs_of_pos l0, mul_comm]
    have hlw : val l * |val w| ≤ 2 ^ 90 := by
      have := mul_le_mul l1 (hw.trans hP) (abs_nonneg _) (by norm_num)
      linarith
    have hlw0 : 0 ≤ val l * |val w| := mul_nonneg l0.le (abs_nonneg _)
    have fy : F32.Finite (mulIeee w l) := mul_fin fw fl (by rw [hy]; exact big_fin (hlw.trans (by norm_num)))
    have ny := mul_rel fy
    rw [hy] at ny
    have y1 := abs_sub_abs_le_abs_sub (val (mulIeee w l)) (val w * val l)
    rw [hy] at y1
    have q1 := abs_sub_abs_le_abs_sub (val (divIeee v (addIeee (sqrtIeee m) o.eps))) (val v / (Real.sqrt (val m) + val o.eps))
    have ht : (2 : ℝ) ^ (-150 : Int) ≤ 1 / 2 ^ 60 := by norm_num
    have ht0 : 0 ≤ (2 : ℝ) ^ (-150 : Int) := by positivity
    have a1 := abs_add_le (val (divIeee v (addIeee (sqrtIeee m) o.eps))) (val (mulIeee w l))
    generalize hQ : val v / (Real.sqrt (val m) + val o.eps) = Q at *
    generalize val l * |val w| = L at *
    have hb : |val (divIeee v (addIeee (sqrtIeee m) o.eps)) + val (mulIeee w l)| ≤ 2 * (K + L) := by
      norm_num at nq ny ht ⊢; linarith
    have fz := add_fin fq fy (hb.trans (big_fin (by norm_num at hlw k2 ⊢; linarith)))
    refine ⟨fz, l0.le, ?_⟩
    have nz := (add_near_fin fz).trans (slack_le hb (tiny126.trans (by linarith)))
    rw [abs_le] at nz ny nq ⊢
    rw [mul_comm (val l)]
    norm_num at nz ny nq ht ⊢
    constructor <;> linarith [nz.1, nz.2, ny.1, ny.2, nq.1, nq.2]

/-- **The step of one element.** -/
theorem w1_ok {o : Settings} {A K : ℝ} {P : Int} (ho : Sane o K) (hR : Room o A K P) {alpha w v m : F32.W} (fa : F32.Finite alpha)
    (ha : 0 ≤ val alpha) (haA : val alpha ≤ A) (fw : F32.Finite w)
    (hw : |val w| ≤ (2 : ℝ) ^ P) (fv : F32.Finite v) (fm : F32.Finite m) (hm0 : 0 ≤ val m)
    (h : |val v| ≤ K * Real.sqrt (val m) + 1 / 2 ^ 50) :
    F32.Finite (w1 o alpha w v m) ∧ |val (w1 o alpha w v m)| ≤ (2 : ℝ) ^ P ∧
      |val (w1 o alpha w v m) - update o (val alpha) (val w) (val v) (val m)| ≤
        val alpha * (K + decay o * |val w|) / 2 ^ 17 + |val w| / 2 ^ 24 + (2 : ℝ) ^ (-148 : Int) := by
  obtain ⟨fz, hl0, nz⟩ := dir1_ok ho hR fw hw fv fm hm0 h
  obtain ⟨hN, -, -⟩ := quot_ok ho fv fm hm0 h
  have k1 := ho.K_ge
  have k2 := ho.K_le
  have hR' := hR
  obtain ⟨hP1, hP2, hA, hR⟩ := hR
  have hP : (2 : ℝ) ^ P ≤ 2 ^ 90 := by
    rw [← zpow_natCast]; exact zpow_le_zpow_right₀ (by norm_num) (by exact_mod_cast hP2)
  have hPp : (2 : ℝ) ^ (-50 : Int) ≤ (2 : ℝ) ^ P := zpow_le_zpow_right₀ (by norm_num) hP1
  have h24 : (2 : ℝ) ^ (P - 24) = (2 : ℝ) ^ P / 2 ^ 24 := by rw [zpow_sub₀ (by norm_num)]; norm_cast
  have h25 : (2 : ℝ) ^ (P - 25) = (2 : ℝ) ^ P / 2 ^ 25 := by rw [zpow_sub₀ (by norm_num)]; norm_cast
  unfold update
  generalize hQ : val v / (Real.sqrt (val m) + val o.eps) = Q at *
  have hl0w : 0 ≤ decay o * |val w| := mul_nonneg hl0 (abs_nonneg _)
  -- the size of a step
  have hT : val alpha * (K + decay o * |val w|) ≤ 2 ^ 92 := by
    cases hd : o.decay with
    | none =>
      rw [hd] at hR
      simp only at hR
      rw [decay_none hd, zero_mul, add_zero]
      have := mul_le_mul_of_nonneg_right haA (show 0 ≤ K by linarith)
      have h0 : 0 ≤ A * K := mul_nonneg hA (by linarith)
      rw [h25] at hR
      norm_num at hR hP ⊢; linarith
    | some l =>
      rw [hd] at hR
      obtain ⟨fl, l0, l1, l2, l3⟩ := hR
      rw [decay_some hd, mul_add]
      have c1 : val alpha * K ≤ val alpha * (val l * (2 : ℝ) ^ P) := by
        refine mul_le_mul_of_nonneg_left (le_trans ?_ l3) ha
        norm_num; linarith
      have c2 : val alpha * (val l * |val w|) ≤ val alpha * (val l * (2 : ℝ) ^ P) :=
        mul_le_mul_of_nonneg_left (mul_le_mul_of_nonneg_left hw l0.le) ha
      have c3 : val alpha * val l ≤ 1 := (mul_le_mul_of_nonneg_right haA l0.le).trans l2
      have c4 : val alpha * (val l * (2 : ℝ) ^ P) ≤ (2 : ℝ) ^ P := by
        rw [← mul_assoc]
        calc _ ≤ 1 * (2 : ℝ) ^ P := mul_le_mul_of_nonneg_right c3 (by positivity)
          _ = _ := one_mul _
      norm_num at hP ⊢; linarith
  have hT0 : 0 ≤ val alpha * (K + decay o * |val w|) := mul_nonneg ha (by linarith)
  have hz1 : |val (dir1 o w v m)| ≤ 2 * (K + decay o * |val w|) := by
    have z1 := abs_sub_abs_le_abs_sub (val (dir1 o w v m)) (Q + decay o * val w)
    have z2 := abs_add_le Q (decay o * val w)
    rw [abs_mul, abs_of_nonneg hl0] at z2
    norm_num at nz; linarith
  have hd0 : |val (dir1 o w v m) * val alpha| ≤ 2 * (val alpha * (K + decay o * |val w|)) := by
    rw [abs_mul, abs_of_nonneg ha, mul_comm]
    have := mul_le_mul_of_nonneg_left hz1 ha
    linarith
  have fd : F32.Finite (mulIeee (dir1 o w v m) alpha) := mul_fin fz fa (hd0.trans (big_fin (by norm_num at hT ⊢; linarith)))
  have nd := mul_rel fd
  have hmul : |val (dir1 o w v m) * val alpha - val alpha * (Q + decay o * val w)| ≤ val alpha * ((K + decay o * |val w|) / 2 ^ 19) := by
    rw [mul_comm, ← mul_sub, abs_mul, abs_of_nonneg ha]
    exact mul_le_mul_of_nonneg_left nz ha
  have hdif : |val (mulIeee (dir1 o w v m) alpha) - val alpha * (Q + decay o * val w)| ≤
      val alpha * (K + decay o * |val w|) / 2 ^ 18 + (2 : ℝ) ^ (-150 : Int) := by
    have := abs_sub_le (val (mulIeee (dir1 o w v m) alpha)) (val (dir1 o w v m) * val alpha) (val alpha * (Q + decay o * val w))
    generalize (2 : ℝ) ^ (-150 : Int) = t at *
    norm_num at nd hd0 hmul ⊢
    linarith
  have hfl := flip_val (mulIeee (dir1 o w v m) alpha)
  have ffl := flip_finite fd
  -- the sum
  have hup : |val w + val (F32.flip (mulIeee (dir1 o w v m) alpha))| < (2 : ℝ) ^ P + (2 : ℝ) ^ (P - 24) := by
    rw [hfl, h24]
    have ht : (2 : ℝ) ^ (-150 : Int) ≤ (2 : ℝ) ^ P / 2 ^ 60 := by
      have : (2 : ℝ) ^ (-150 : Int) ≤ (2 : ℝ) ^ (-50 : Int) / 2 ^ 60 := by norm_num
      refine this.trans ?_
      gcongr
    have hPp0 : 0 < (2 : ℝ) ^ P := by positivity
    cases hd : o.decay with
    | none =>
      rw [hd] at hR
      simp only at hR
      rw [decay_none hd, zero_mul, add_zero, zero_mul, add_zero] at hdif
      rw [h25] at hR
      have c1 : |val alpha * Q| ≤ val alpha * K := by
        rw [abs_mul, abs_of_nonneg ha]; exact mul_le_mul_of_nonneg_left hN ha
      have c2 := mul_le_mul_of_nonneg_right haA (show 0 ≤ K by linarith)
      have c3 := abs_sub_abs_le_abs_sub (val (mulIeee (dir1 o w v m) alpha)) (val alpha * Q)
      have c4 := abs_add_le (val w) (-val (mulIeee (dir1 o w v m) alpha))
      rw [abs_neg] at c4
      generalize (2 : ℝ) ^ (-150 : Int) = t at *
      generalize (2 : ℝ) ^ P = B at *
      have h0 : 0 ≤ val alpha * K := mul_nonneg ha (by linarith)
      have h0' : 0 ≤ A * K := mul_nonneg hA (by linarith)
      norm_num at hR hdif ht ⊢
      linarith
    | some l =>
      rw [hd] at hR
      obtain ⟨fl, l0, l1, l2, l3⟩ := hR
      rw [decay_some hd] at hdif
      have c3 : val alpha * val l ≤ 1 := (mul_le_mul_of_nonneg_right haA l0.le).trans l2
      have e : val w + -val (mulIeee (dir1 o w v m) alpha) = val w * (1 - val alpha * val l) - val alpha * Q -
          (val (mulIeee (dir1 o w v m) alpha) - val alpha * (Q + val l * val w)) := by ring
      rw [e]
      have d1 : |val w * (1 - val alpha * val l)| ≤ (2 : ℝ) ^ P * (1 - val alpha * val l) := by
        rw [abs_mul, abs_of_nonneg (show 0 ≤ 1 - val alpha * val l by linarith)]
        exact mul_le_mul_of_nonneg_right hw (by linarith)
      have d2 : |val alpha * Q| ≤ val alpha * K := by
        rw [abs_mul, abs_of_nonneg ha]; exact mul_le_mul_of_nonneg_left hN ha
      have d3 := abs_sub (val w * (1 - val alpha * val l) - val alpha * Q)
          (val (mulIeee (dir1 o w v m) alpha) - val alpha * (Q + val l * val w))
      have d4 := abs_sub (val w * (1 - val alpha * val l)) (val alpha * Q)
      have d5 : val alpha * (val l * |val w|) ≤ val alpha * (val l * (2 : ℝ) ^ P) :=
        mul_le_mul_of_nonneg_left (mul_le_mul_of_nonneg_left hw l0.le) ha
      have d6 : val alpha * (K * (1 + 1 / 2 ^ 10)) ≤ val alpha * (val l * (2 : ℝ) ^ P) := mul_le_mul_of_nonneg_left l3 ha
      have d7 : (2 : ℝ) ^ P * (1 - val alpha * val l) = (2 : ℝ) ^ P - val alpha * (val l * (2 : ℝ) ^ P) := by ring
      have d8 : val alpha * (K * (1 + 1 / 2 ^ 10)) = val alpha * K * (1 + 1 / 2 ^ 10) := by ring
      have d9 : 0 ≤ val alpha * K := mul_nonneg ha (by linarith)
      rw [mul_add (val alpha) K] at hdif
      rw [d7] at d1
      rw [d8] at d6
      generalize val alpha * (val l * (2 : ℝ) ^ P) = X at *
      generalize val alpha * (val l * |val w|) = Y at *
      generalize (2 : ℝ) ^ (-150 : Int) = t at *
      generalize (2 : ℝ) ^ P = B at *
      norm_num at hdif ht d6 ⊢
      linarith
  have ff : F32.Finite (w1 o alpha w v m) := by
    refine add_fin fw ffl (hup.le.trans (big_fin ?_))
    rw [h24]; norm_num at hP ⊢; linarith
  refine ⟨ff, add_sat ff (by omega) hup, ?_⟩
  have nw := add_rel ff
  change |val (w1 o alpha w v m) - _| ≤ _ at nw
  have hT3 : |val w + val (F32.flip (mulIeee (dir1 o w v m) alpha))| ≤ |val w| + 3 * (val alpha * (K + decay o * |val w|)) + (2 : ℝ) ^ (-150 : Int) := by
    rw [hfl]
    have c1 := abs_add_le (val w) (-val (mulIeee (dir1 o w v m) alpha))
    have c2 := abs_sub_abs_le_abs_sub (val (mulIeee (dir1 o w v m) alpha)) (val (dir1 o w v m) * val alpha)
    rw [abs_neg] at c1
    generalize (2 : ℝ) ^ (-150 : Int) = t at *
    generalize |val (dir1 o w v m) * val alpha| = Z at *
    norm_num at nd; linarith
  have ht : (2 : ℝ) ^ (-148 : Int) = 4 * (2 : ℝ) ^ (-150 : Int) := by norm_num
  have ht0 : 0 < (2 : ℝ) ^ (-150 : Int) := by positivity
  rw [hfl] at nw hT3
  rw [ht]
  generalize (2 : ℝ) ^ (-150 : Int) = t at *
  rw [abs_le] at nw hdif ⊢
  norm_num at nw hdif hT3 ⊢
  constructor <;> linarith [nw.1, nw.2, hdif.1, hdif.2]

end Verif.Adam32
