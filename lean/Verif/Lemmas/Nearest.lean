import Verif.Spec.Rounding
import Mathlib.Data.Int.Log
import Mathlib.Algebra.Order.Field.Power
import Mathlib.Data.Real.Archimedean
import Mathlib.Algebra.Order.Round
import Mathlib.Tactic.FieldSimp
import Mathlib.Tactic.Linarith
import Mathlib.Tactic.Ring
import Mathlib.Tactic.Positivity

set_option autoImplicit false
set_option linter.unusedSimpArgs false

namespace Verif.Asm
open Verif.Spec

/-! ## A format to which this applies: `p` significant bits, rounded to the nearest -/

theorem round_near (y : ℝ) : |(round y : ℝ) - y| ≤ 1 / 2 := by
  rw [abs_sub_comm]; exact abs_sub_round y

/-- The spacing of the numbers with `p` significant bits around `x`. -/
noncomputable def spacing (p : Nat) (x : ℝ) : ℝ := (2 : ℝ) ^ (Int.log 2 |x| + 1 - p)

/-- The nearest number with `p` significant bits. -/
noncomputable def nearestRd (p : Nat) (x : ℝ) : ℝ := round (x / spacing p x) * spacing p x

theorem spacing_pos (p : Nat) (x : ℝ) : 0 < spacing p x := zpow_pos (by norm_num) _

theorem nearest_err (p : Nat) (x : ℝ) : |nearestRd p x - x| ≤ (2 : ℝ) ^ (-(p : ℤ)) * |x| := by
  have hs := spacing_pos p x
  by_cases hx : x = 0
  · simp [hx, nearestRd]
  have hx' : 0 < |x| := abs_pos.mpr hx
  have e : nearestRd p x - x = (round (x / spacing p x) - x / spacing p x) * spacing p x := by
    unfold nearestRd; rw [sub_mul, div_mul_cancel₀ _ hs.ne']
  rw [e, abs_mul, abs_of_pos hs]
  have h1 : spacing p x ≤ 2 * (2 : ℝ) ^ (-(p : ℤ)) * |x| := by
    have h2 := Int.zpow_log_le_self (b := 2) one_lt_two hx'
    have : spacing p x = 2 * (2 : ℝ) ^ (-(p : ℤ)) * (2 : ℝ) ^ (Int.log 2 |x|) := by
      unfold spacing
      rw [show Int.log 2 |x| + 1 - (p : ℤ) = 1 + (-(p : ℤ)) + Int.log 2 |x| by ring, zpow_add₀ (by norm_num),
        zpow_add₀ (by norm_num), zpow_one]
    rw [this]
    exact mul_le_mul_of_nonneg_left (by exact_mod_cast h2) (by positivity)
  calc |(round (x / spacing p x) : ℝ) - x / spacing p x| * spacing p x
      ≤ 1 / 2 * spacing p x := mul_le_mul_of_nonneg_right (round_near _) hs.le
    _ ≤ _ := by linarith

/-- A number with `p` significant bits. -/
theorem nearest_fits {p : Nat} (hp : 1 ≤ p) {k : ℤ} {L : ℤ} (h1 : 2 ^ (p - 1) ≤ |k|) (h2 : |k| ≤ 2 ^ p) :
    nearestRd p (k * (2 : ℝ) ^ (L + 1 - p)) = k * (2 : ℝ) ^ (L + 1 - p) := by
  have two : (2 : ℝ) ≠ 0 := by norm_num
  have habs : |(k : ℝ) * (2 : ℝ) ^ (L + 1 - (p : ℤ))| = |(k : ℝ)| * (2 : ℝ) ^ (L + 1 - (p : ℤ)) := by
    rw [abs_mul, abs_of_pos (zpow_pos (two_pos (α := ℝ)) _)]
  have hp1 : ((p - 1 : Nat) : ℤ) = (p : ℤ) - 1 := by omega
  have lo : (2 : ℝ) ^ L ≤ |(k : ℝ)| * (2 : ℝ) ^ (L + 1 - (p : ℤ)) := by
    have : (2 : ℝ) ^ ((p : ℤ) - 1) ≤ |(k : ℝ)| := by
      rw [← hp1, zpow_natCast]; exact_mod_cast h1
    calc (2 : ℝ) ^ L = (2 : ℝ) ^ ((p : ℤ) - 1) * (2 : ℝ) ^ (L + 1 - (p : ℤ)) := by
          rw [← zpow_add₀ two]; congr 1; ring
      _ ≤ _ := mul_le_mul_of_nonneg_right this (by positivity)
  by_cases hk : |k| = 2 ^ p
  · have hk' : |(k : ℝ)| = (2 : ℝ) ^ (p : ℤ) := by rw [zpow_natCast]; exact_mod_cast hk
    have hlog : Int.log 2 |(k : ℝ) * (2 : ℝ) ^ (L + 1 - (p : ℤ))| = L + 1 := by
      rw [habs, hk', ← zpow_add₀ two, show (p : ℤ) + (L + 1 - p) = L + 1 by ring]
      exact_mod_cast Int.log_zpow (R := ℝ) (b := 2) one_lt_two (L + 1)
    have hsp : spacing p ((k : ℝ) * (2 : ℝ) ^ (L + 1 - (p : ℤ))) = 2 * (2 : ℝ) ^ (L + 1 - (p : ℤ)) := by
      unfold spacing
      rw [hlog, show L + 1 + 1 - (p : ℤ) = 1 + (L + 1 - p) by ring, zpow_add₀ two, zpow_one]
    obtain ⟨q, hq⟩ : ∃ q : ℤ, k = 2 * q := by
      have : (2 : ℤ) ∣ |k| := hk ▸ dvd_pow_self 2 (by omega)
      exact (dvd_abs _ _).mp this
    have hdiv : (k : ℝ) * (2 : ℝ) ^ (L + 1 - (p : ℤ)) / (2 * (2 : ℝ) ^ (L + 1 - (p : ℤ))) = (q : ℝ) := by
      have : (2 : ℝ) ^ (L + 1 - (p : ℤ)) ≠ 0 := zpow_ne_zero _ two
      rw [hq]; push_cast; field_simp
    unfold nearestRd
    rw [hsp, hdiv, round_intCast, hq]
    push_cast; ring
  · have hk' : |(k : ℝ)| < (2 : ℝ) ^ (p : ℤ) := by
      rw [zpow_natCast]; exact_mod_cast lt_of_le_of_ne h2 hk
    have hi : |(k : ℝ)| * (2 : ℝ) ^ (L + 1 - (p : ℤ)) < (2 : ℝ) ^ (L + 1) := by
      calc _ < (2 : ℝ) ^ (p : ℤ) * (2 : ℝ) ^ (L + 1 - (p : ℤ)) := mul_lt_mul_of_pos_right hk' (by positivity)
        _ = _ := by rw [← zpow_add₀ two]; congr 1; ring
    have hpos : 0 < |(k : ℝ)| * (2 : ℝ) ^ (L + 1 - (p : ℤ)) := lt_of_lt_of_le (by positivity) lo
    have hlog : Int.log 2 |(k : ℝ) * (2 : ℝ) ^ (L + 1 - (p : ℤ))| = L := by
      rw [habs]
      apply le_antisymm
      · exact Int.lt_add_one_iff.mp ((Int.lt_zpow_iff_log_lt (b := 2) one_lt_two hpos).mp (by exact_mod_cast hi))
      · exact (Int.zpow_le_iff_le_log (b := 2) one_lt_two hpos).mp (by exact_mod_cast lo)
    have hsp : spacing p ((k : ℝ) * (2 : ℝ) ^ (L + 1 - (p : ℤ))) = (2 : ℝ) ^ (L + 1 - (p : ℤ)) := by
      unfold spacing; rw [hlog]
    unfold nearestRd
    rw [hsp, mul_div_cancel_right₀ _ (zpow_ne_zero _ two), round_intCast]

theorem nearest_idem {p : Nat} (hp : 1 ≤ p) (x : ℝ) : nearestRd p (nearestRd p x) = nearestRd p x := by
  by_cases hx : x = 0
  · simp [hx, nearestRd]
  have two : (2 : ℝ) ≠ 0 := by norm_num
  have hx' : 0 < |x| := abs_pos.mpr hx
  have hs := spacing_pos p x
  set k := round (x / spacing p x) with hk
  have hp1 : ((p - 1 : Nat) : ℤ) = (p : ℤ) - 1 := by omega
  have ey : |x / spacing p x| = |x| / spacing p x := by rw [abs_div, abs_of_pos hs]
  have lo : (2 : ℝ) ^ (p - 1) ≤ |x / spacing p x| := by
    rw [ey, le_div_iff₀ hs, ← zpow_natCast, hp1, spacing, ← zpow_add₀ two,
      show (p : ℤ) - 1 + (Int.log 2 |x| + 1 - p) = Int.log 2 |x| by ring]
    exact_mod_cast Int.zpow_log_le_self (b := 2) one_lt_two hx'
  have hi : |x / spacing p x| ≤ (2 : ℝ) ^ p := by
    rw [ey, div_le_iff₀ hs, ← zpow_natCast, spacing, ← zpow_add₀ two,
      show (p : ℤ) + (Int.log 2 |x| + 1 - p) = Int.log 2 |x| + 1 by ring]
    exact_mod_cast (Int.lt_zpow_succ_log_self (b := 2) one_lt_two |x|).le
  have hr := round_near (x / spacing p x)
  rw [← hk] at hr
  have d1 := abs_sub_abs_le_abs_sub (k : ℝ) (x / spacing p x)
  have d2 := abs_sub_abs_le_abs_sub (x / spacing p x) (k : ℝ)
  rw [abs_sub_comm] at d2
  have c1 : ((2 ^ (p - 1) : ℤ) : ℝ) < ((|k| + 1 : ℤ) : ℝ) := by push_cast; linarith
  have c2 : ((|k| : ℤ) : ℝ) < ((2 ^ p + 1 : ℤ) : ℝ) := by push_cast; linarith
  have c1' := Int.cast_lt.mp c1
  have c2' := Int.cast_lt.mp c2
  exact nearest_fits hp (k := k) (L := Int.log 2 |x|) (by omega) (by omega)

/-- Rounding to the nearest number with `p` significant bits, as IEEE 754 does while the exponent stays in range; `p` is
24 for float32 and 53 for float64. -/
noncomputable def nearest (p : Nat) (hp : 1 ≤ p) : Rounding ((2 : ℝ) ^ (-(p : ℤ))) where
  rd := nearestRd p
  idem := nearest_idem hp
  err := nearest_err p

/-- Integers of at most `p` bits are numbers of the format. -/
theorem nearest_int {p : Nat} (hp : 1 ≤ p) {k : ℤ} (h : |k| ≤ 2 ^ p) : (nearest p hp).Fits (k : ℝ) := by
  by_cases h0 : k = 0
  · simp [h0, Rounding.Fits, nearest, nearestRd]
  have h0' : 0 < |k| := abs_pos.mpr h0
  -- scale `k` up to `p` bits
  set e := Nat.log 2 |k|.toNat with he
  have hn : |k|.toNat ≠ 0 := by omega
  have l1 : 2 ^ e ≤ |k|.toNat := Nat.pow_log_le_self 2 hn
  have l2 : |k|.toNat < 2 ^ (e + 1) := Nat.lt_pow_succ_log_self (by norm_num) _
  by_cases hep : e + 1 ≤ p
  · have hq : |k * 2 ^ (p - 1 - e)| = |k| * 2 ^ (p - 1 - e) := by rw [abs_mul]; simp
    have m1 : (2 : ℤ) ^ e ≤ |k| := by
      have : ((2 ^ e : Nat) : ℤ) ≤ (|k|.toNat : ℤ) := by exact_mod_cast l1
      push_cast at this; omega
    have m2 : |k| ≤ (2 : ℤ) ^ (e + 1) := by
      have : (|k|.toNat : ℤ) < ((2 ^ (e + 1) : Nat) : ℤ) := by exact_mod_cast l2
      push_cast at this; omega
    have := nearest_fits hp (k := k * 2 ^ (p - 1 - e)) (L := e)
      (by rw [hq]
          calc (2 : ℤ) ^ (p - 1) = 2 ^ e * 2 ^ (p - 1 - e) := by rw [← pow_add]; congr 1; omega
            _ ≤ _ := mul_le_mul_of_nonneg_right m1 (by positivity))
      (by rw [hq]
          calc |k| * 2 ^ (p - 1 - e) ≤ 2 ^ (e + 1) * 2 ^ (p - 1 - e) := mul_le_mul_of_nonneg_right m2 (by positivity)
            _ = 2 ^ p := by rw [← pow_add]; congr 1; omega)
    have ek : ((k * 2 ^ (p - 1 - e) : ℤ) : ℝ) * (2 : ℝ) ^ ((e : ℤ) + 1 - p) = k := by
      push_cast
      rw [mul_assoc, ← zpow_natCast, ← zpow_add₀ (by norm_num)]
      rw [show ((p - 1 - e : Nat) : ℤ) + ((e : ℤ) + 1 - p) = 0 by omega, zpow_zero, mul_one]
    rw [ek] at this
    exact this
  · have : |k| = 2 ^ p := by
      have : (2 : ℤ) ^ p ≤ |k| := by
        have h3 : (2 : ℤ) ^ p ≤ 2 ^ e := pow_le_pow_right₀ (by norm_num) (by omega)
        have : ((2 ^ e : Nat) : ℤ) ≤ (|k|.toNat : ℤ) := by exact_mod_cast l1
        push_cast at this; omega
      omega
    have := nearest_fits hp (k := k) (L := (p : ℤ) - 1)
      (by rw [this]; exact pow_le_pow_right₀ (by norm_num) (by omega)) h
    rw [show (p : ℤ) - 1 + 1 - p = 0 by ring, zpow_zero, mul_one] at this
    exact this

end Verif.Asm
