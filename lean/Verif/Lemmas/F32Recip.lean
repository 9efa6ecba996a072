import Verif.Lemmas.F32Div
import Verif.Lemmas.F32Mono

set_option autoImplicit false
set_option linter.unusedSimpArgs false

/-!
# One divided by a float32 from 1 on
-/

namespace Verif.F32

/-- The quotient with its last bit does not pass an integer. -/
theorem sticky_le {a b c : Nat} (hb : b ≠ 0) (h : a ≤ b * c) : 2 * (a / b) + (if a % b = 0 then 0 else 1) ≤ 2 * c := by
  have h1 : a / b ≤ c := Nat.div_le_of_le_mul h
  have h2 := Nat.div_add_mod a b
  rcases h1.lt_or_eq with h3 | h3
  · split <;> omega
  · have : a % b = 0 := by rw [h3] at h2; omega
    rw [if_pos this]; omega

/-- 1. -/
def one : W := 0x3f800000

theorem one_val : val one = 1 := by simp [one, val, unpack]; norm_num
theorem one_fin : Finite one := by unfold Finite one; decide
theorem one_exact : Exact (1 : ℝ) := ⟨1, 0, by simp, by norm_num, by norm_num⟩

/-- **`1 / y` for `y ≥ 1`.** -/
theorem recip_unit {y : W} (hy : Finite y) (h1 : 1 ≤ val y) :
    Finite (divIeee one y) ∧ 0 ≤ val (divIeee one y) ∧ val (divIeee one y) ≤ 1 ∧
    |val (divIeee one y) - 1 / val y| ≤ 1 / 2 ^ 23 := by
  have hmy : (unpack y).2.1 ≠ 0 := fun h => by
    have : val y = 0 := by unfold val; rw [h]; simp
    linarith
  have hs : (unpack y).1 = false := by
    by_contra h
    have hs : (unpack y).1 = true := by simpa using h
    have : val y ≤ 0 := by
      unfold val
      rw [hs]
      have : (0 : ℝ) ≤ ((unpack y).2.1 : ℝ) * (2 : ℝ) ^ (unpack y).2.2 := by positivity
      simp only [if_true]; linarith
    linarith
  have hry := unpack_range y
  have hu : unpack one = (false, 2 ^ 23, -23) := by decide
  have hd : divIeee one y = round false
      (2 * (2 ^ 83 / (unpack y).2.1) + if 2 ^ 83 % (unpack y).2.1 = 0 then 0 else 1) (-84 - (unpack y).2.2) := by
    unfold divIeee
    rw [one_fin.not_nan, hy.not_nan, one_fin.not_inf, hy.not_inf, hu]
    simp only [Bool.or_self, Bool.false_eq_true, if_false, if_neg hmy, hs, bne_self_eq_false]
    norm_num
    congr 1
    ring
  have hval : val y = (unpack y).2.1 * (2 : ℝ) ^ (unpack y).2.2 := by
    unfold val; rw [hs]; simp
  have hst := sticky (2 ^ 83) (unpack y).2.1 hmy
  clear hs
  revert hmy hd hst hry hval
  generalize unpack y = u
  obtain ⟨_, my, ey⟩ := u
  simp only
  generalize hm : (2 * (2 ^ 83 / my) + if 2 ^ 83 % my = 0 then 0 else 1) = m
  intro hmy hry hd hval hst
  rw [hval] at h1 ⊢
  have hmy0 : (0 : ℝ) < my := by exact_mod_cast Nat.pos_of_ne_zero hmy
  have hmy1 : (1 : ℝ) ≤ my := by exact_mod_cast Nat.one_le_iff_ne_zero.mpr hmy
  have hmy24 : (my : ℝ) < 2 ^ 24 := by exact_mod_cast hry
  have he : -24 ≤ ey := by
    by_contra h
    have : (2 : ℝ) ^ ey ≤ (2 : ℝ) ^ (-24 : Int) := zpow_le_zpow_right₀ (by norm_num) (by omega)
    have : (my : ℝ) * (2 : ℝ) ^ ey < 2 ^ 24 * (2 : ℝ) ^ (-24 : Int) :=
      mul_lt_mul hmy24 this (by positivity) (by positivity)
    norm_num at this
    linarith
  obtain ⟨c, hc⟩ : ∃ c : Nat, (c : Int) = 83 + ey := ⟨(83 + ey).toNat, by omega⟩
  have hcr : ((2 ^ c : Nat) : ℝ) = 2 ^ 83 * (2 : ℝ) ^ ey := by
    have : ((2 ^ c : Nat) : ℝ) = (2 : ℝ) ^ (c : Int) := by norm_cast
    rw [this, hc, zpow_add₀ (by norm_num)]; norm_cast
  have hle : 2 ^ 83 ≤ my * 2 ^ c := by
    have : (2 : ℝ) ^ 83 ≤ my * ((2 ^ c : Nat) : ℝ) := by rw [hcr]; nlinarith
    exact_mod_cast this
  have hmle := sticky_le hmy hle
  rw [hm] at hmle
  have hpe : (2 : ℝ) ^ (-84 - ey) = 1 / (2 ^ 84 * (2 : ℝ) ^ ey) := by
    rw [sub_eq_add_neg, zpow_add₀ (by norm_num), zpow_neg, zpow_neg]; norm_num [div_eq_mul_inv, mul_comm]
  have hp : (0 : ℝ) < (2 : ℝ) ^ (-84 - ey) := by positivity
  have hey : (0 : ℝ) < (2 : ℝ) ^ ey := by positivity
  have hm1 : (m : ℝ) * (2 : ℝ) ^ (-84 - ey) ≤ 1 := by
    have : (m : ℝ) ≤ 2 * ((2 ^ c : Nat) : ℝ) := by exact_mod_cast hmle
    rw [hcr] at this
    rw [hpe, mul_one_div, div_le_one (by positivity)]
    linarith
  have hA : 1 / (my * (2 : ℝ) ^ ey) = 2 * (((2 ^ 83 : Nat) : ℝ) / my) * (2 : ℝ) ^ (-84 - ey) := by
    rw [hpe]; push_cast; field_simp; norm_num
  have hq : |(m : ℝ) * (2 : ℝ) ^ (-84 - ey) - 1 / (my * (2 : ℝ) ^ ey)| ≤ 1 / 2 ^ 37 := by
    rw [hA, ← sub_mul, abs_mul, abs_of_pos hp]
    have h2 : (2 : ℝ) ^ (-84 - ey) ≤ 1 / 2 ^ 37 := by
      have : (2 : ℝ) ^ (-84 - ey) ≤ (2 : ℝ) ^ (-37 : Int) := zpow_le_zpow_right₀ (by norm_num) (by omega)
      exact this.trans (by norm_num)
    calc _ ≤ 1 * (2 : ℝ) ^ (-84 - ey) := mul_le_mul_of_nonneg_right hst hp.le
      _ ≤ _ := by rw [one_mul]; exact h2
  have hm0 : m ≠ 0 := by
    rw [← hm]
    have : 0 < 2 ^ 83 / my := Nat.div_pos (by omega) (Nat.pos_of_ne_zero hmy)
    omega
  have hr : divIeee one y = rnd false (m : Int) (-84 - ey) := by
    rw [hd]; unfold rnd
    rw [if_neg (by exact_mod_cast hm0)]
    have : decide ((m : Int) < 0) = false := by simp
    rw [this, Int.natAbs_natCast]
  have hmr : ((m : Int) : ℝ) * (2 : ℝ) ^ (-84 - ey) ≤ 1 := by rw [Int.cast_natCast]; exact hm1
  have hm00 : 0 ≤ ((m : Int) : ℝ) * (2 : ℝ) ^ (-84 - ey) := by rw [Int.cast_natCast]; positivity
  have hf : Finite (rnd false (m : Int) (-84 - ey)) := rnd_finite _ _ _ (by
    rw [abs_of_nonneg hm00]; exact hmr.trans (by unfold maxFin; norm_num))
  rw [hr]
  refine ⟨hf, rnd_ge _ _ _ hf ⟨0, 0, by simp, by norm_num, by norm_num⟩ hm00, rnd_le _ _ _ hf one_exact hmr, ?_⟩
  have hn := rnd_near _ _ _ hf
  have hsl : slack (((m : Int) : ℝ) * (2 : ℝ) ^ (-84 - ey)) ≤ 1 / 2 ^ 24 := by
    unfold slack
    rw [abs_of_nonneg hm00]
    exact div_le_div_of_nonneg_right (max_le hmr (by norm_num)) (by positivity)
  rw [Int.cast_natCast] at hn hsl
  have := abs_sub_le (val (rnd false (m : Int) (-84 - ey))) ((m : ℝ) * (2 : ℝ) ^ (-84 - ey)) (1 / (my * (2 : ℝ) ^ ey))
  norm_num at *
  linarith

/-- `1 / +Inf`. -/
theorem recip_inf : divIeee one posInf = 0 := by decide

theorem one_add_inf : addIeee one posInf = posInf := by decide

end Verif.F32
