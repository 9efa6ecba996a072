import Verif.Lemmas.F32Mono
import Verif.Lemmas.F32Recip

set_option autoImplicit false
set_option linter.unusedSimpArgs false

/-!
# Products with factors up to 1, and sums that stay in their range because of the rounding
-/

namespace Verif.F32

/-- Product of two finite words as a rounded integer. -/
theorem mulIeee_rnd {x y : W} (hx : Finite x) (hy : Finite y) :
    ∃ z v e, mulIeee x y = rnd z v e ∧ (v : ℝ) * (2 : ℝ) ^ e = val x * val y := by
  have hval : val x * val y = (if (unpack x).1 != (unpack y).1 then -1 else 1) *
      ((((unpack x).2.1 * (unpack y).2.1 : Nat) : ℝ) * (2 : ℝ) ^ ((unpack x).2.2 + (unpack y).2.2)) := by
    unfold val
    rw [zpow_add₀ (by norm_num)]
    cases (unpack x).1 <;> cases (unpack y).1 <;> simp <;> ring
  have hm : mulIeee x y = round ((unpack x).1 != (unpack y).1) ((unpack x).2.1 * (unpack y).2.1)
      ((unpack x).2.2 + (unpack y).2.2) := by
    unfold mulIeee
    rw [hx.not_nan, hy.not_nan, hx.not_inf, hy.not_inf]
    simp only [Bool.or_self, Bool.false_eq_true, if_false]
  rw [hm, hval]
  generalize ((unpack x).1 != (unpack y).1) = s
  generalize (unpack x).2.1 * (unpack y).2.1 = m
  generalize (unpack x).2.2 + (unpack y).2.2 = e
  refine ⟨s, if s then -(m : Int) else m, e, ?_, ?_⟩
  · unfold rnd
    by_cases h0 : m = 0
    · subst h0
      unfold round
      cases s <;> simp
    · cases s
      · have : ¬ ((m : Int) < 0) := by omega
        simp [h0, this]
      · have : -(m : Int) < 0 := by omega
        simp [h0, Nat.pos_of_ne_zero h0]
  · cases s <;> simp

theorem mul_fin {x y : W} (hx : Finite x) (hy : Finite y) (hlt : |val x * val y| ≤ maxFin) : Finite (mulIeee x y) := by
  obtain ⟨z, v, e, h1, h2⟩ := mulIeee_rnd hx hy
  rw [h1]; exact rnd_finite z v e (by rwa [h2])

theorem exact_neg {a : ℝ} (h : Exact a) : Exact (-a) := by
  obtain ⟨k, j, rfl, hk, hj⟩ := h
  exact ⟨-k, j, by push_cast; ring, by omega, hj⟩

/-- The product of a number with a factor from -1 to 1 is not larger. -/
theorem mul_unit {x y : W} (hx : Finite x) (hy : Finite y) {a : ℝ} (ha : Exact a) (h : |val x * val y| ≤ a) (hm : a ≤ maxFin) :
    Finite (mulIeee x y) ∧ |val (mulIeee x y)| ≤ a := by
  have hf := mul_fin hx hy (h.trans hm)
  refine ⟨hf, ?_⟩
  obtain ⟨z, v, e, h1, h2⟩ := mulIeee_rnd hx hy
  rw [h1] at hf ⊢
  obtain ⟨h3, h4⟩ := abs_le.mp h
  rw [← h2] at h3 h4
  exact abs_le.mpr ⟨rnd_ge z v e hf (exact_neg ha) h3, rnd_le z v e hf ha h4⟩

/-- Half a unit in the last place, for numbers below `2^p`. -/
theorem rnd_half (z : Bool) (v e : Int) (hf : Finite (rnd z v e)) {p : Int} (hp : -125 ≤ p) (h : |v * (2 : ℝ) ^ e| < (2 : ℝ) ^ p) :
    |val (rnd z v e) - v * (2 : ℝ) ^ e| ≤ (2 : ℝ) ^ (p - 25) := by
  unfold rnd at hf ⊢
  by_cases h0 : v = 0
  · rw [if_pos h0, val_signed_zero, h0]; simp; positivity
  · rw [if_neg h0] at hf ⊢
    have hn : v.natAbs ≠ 0 := by omega
    rw [← rnd_sign] at h ⊢
    rw [sign_abs _ _ (by positivity)] at h
    rw [round_val_fin _ hn hf]
    have he0 : (0 : ℝ) < (2 : ℝ) ^ e := by positivity
    have hlog : (Nat.log2 v.natAbs : Int) + e < p := by
      have h1 := (log2_real hn).1
      have : (2 : ℝ) ^ ((Nat.log2 v.natAbs : Int) + e) < 2 ^ p := by
        rw [zpow_add₀ (by norm_num)]
        exact lt_of_le_of_lt (mul_le_mul_of_nonneg_right h1 he0.le) h
      exact (zpow_lt_zpow_iff_right₀ (by norm_num)).mp this
    have hpl : place v.natAbs e ≤ p - 24 := by unfold place; omega
    have hne := nearest_err v.natAbs (place v.natAbs e - e)
    have e2 : |(if decide (v < 0) = true then (-1 : ℝ) else 1)| = 1 := by split <;> simp
    have e1 : (if decide (v < 0) = true then (-1 : ℝ) else 1) * (nearest v.natAbs (place v.natAbs e - e) : ℝ) * (2 : ℝ) ^ place v.natAbs e -
        (if decide (v < 0) = true then -1 else 1) * (v.natAbs * (2 : ℝ) ^ e) =
        (if decide (v < 0) = true then (-1 : ℝ) else 1) *
          (((nearest v.natAbs (place v.natAbs e - e) : ℝ) * (2 : ℝ) ^ (place v.natAbs e - e) - v.natAbs) * (2 : ℝ) ^ e) := by
      have : (2 : ℝ) ^ place v.natAbs e = (2 : ℝ) ^ (place v.natAbs e - e) * (2 : ℝ) ^ e := by
        rw [← zpow_add₀ (by norm_num)]; congr 1; ring
      rw [this]; ring
    rw [e1, abs_mul, e2, one_mul, abs_mul, abs_of_pos he0]
    calc _ ≤ (2 : ℝ) ^ (place v.natAbs e - e) / 2 * (2 : ℝ) ^ e := mul_le_mul_of_nonneg_right hne he0.le
      _ = (2 : ℝ) ^ (place v.natAbs e - 1) := by
        rw [show place v.natAbs e - 1 = (place v.natAbs e - e) + e + (-1) by ring, zpow_add₀ (by norm_num), zpow_add₀ (by norm_num)]
        norm_num; ring
      _ ≤ _ := zpow_le_zpow_right₀ (by norm_num) (by omega)

theorem add_half {x y : W} (h : Finite (addIeee x y)) {p : Int} (hp : -125 ≤ p) (hlt : |val x + val y| < (2 : ℝ) ^ p) :
    |val (addIeee x y) - (val x + val y)| ≤ (2 : ℝ) ^ (p - 25) := by
  obtain ⟨hx, hy⟩ := add_finite h
  obtain ⟨z, v, e, h1, h2⟩ := addIeee_rnd hx hy
  rw [h1] at h ⊢
  rw [← h2] at hlt ⊢
  exact rnd_half z v e h hp hlt

/-- There is no number of 24 bits between `2^p` and `2^p + 2^(p-23)`. -/
theorem exact_gap {a : ℝ} (ha : Exact a) {p : Int} (h : a < (2 : ℝ) ^ p + (2 : ℝ) ^ (p - 23)) : a ≤ (2 : ℝ) ^ p := by
  obtain ⟨k, j, rfl, hk, -⟩ := ha
  by_contra hc
  have hc := not_le.mp hc
  have hj0 : (0 : ℝ) < (2 : ℝ) ^ j := by positivity
  have hk' : (k : ℝ) < (2 : ℝ) ^ (24 : Int) := by
    have : k < 2 ^ 24 := by omega
    exact_mod_cast this
  have hjp : p < j + 24 := by
    have : (2 : ℝ) ^ p < (2 : ℝ) ^ (j + 24) := by
      rw [zpow_add₀ (by norm_num), mul_comm]
      exact hc.trans (mul_lt_mul_of_pos_right hk' hj0)
    exact (zpow_lt_zpow_iff_right₀ (by norm_num)).mp this
  obtain ⟨d, hd⟩ := Int.eq_ofNat_of_zero_le (show 0 ≤ j - (p - 23) by omega)
  have hj : (2 : ℝ) ^ j = (2 : ℝ) ^ d * (2 : ℝ) ^ (p - 23) := by
    rw [show j = (d : Int) + (p - 23) by omega, zpow_add₀ (by norm_num), zpow_natCast]
  have hp : (2 : ℝ) ^ p = 2 ^ 23 * (2 : ℝ) ^ (p - 23) := by
    rw [show p = 23 + (p - 23) by ring, zpow_add₀ (by norm_num)]
    norm_num
  have hq : (0 : ℝ) < (2 : ℝ) ^ (p - 23) := by positivity
  rw [hj, hp, ← mul_assoc] at hc
  rw [hj, hp, ← mul_assoc] at h
  have h1 : (2 : ℝ) ^ 23 < k * 2 ^ d := lt_of_mul_lt_mul_right hc hq.le
  have h2 : (k : ℝ) * 2 ^ d < 2 ^ 23 + 1 := by
    have : (k : ℝ) * 2 ^ d * (2 : ℝ) ^ (p - 23) < (2 ^ 23 + 1) * (2 : ℝ) ^ (p - 23) := by linarith
    exact lt_of_mul_lt_mul_right this hq.le
  have i1 : (2 : Int) ^ 23 < k * 2 ^ d := by exact_mod_cast h1
  have i2 : k * 2 ^ d < (2 : Int) ^ 23 + 1 := by exact_mod_cast h2
  omega

/-- A sum stays up to `2^p` when it is above by less than half a unit in the last place there. -/
theorem add_sat {x y : W} (h : Finite (addIeee x y)) {p : Int} (hp : -126 ≤ p)
    (hlt : |val x + val y| < (2 : ℝ) ^ p + (2 : ℝ) ^ (p - 24)) : |val (addIeee x y)| ≤ (2 : ℝ) ^ p := by
  have h1 : (2 : ℝ) ^ (p - 24) < (2 : ℝ) ^ p := zpow_lt_zpow_right₀ (by norm_num) (by omega)
  have h2 : (2 : ℝ) ^ (p + 1) = 2 * (2 : ℝ) ^ p := by rw [zpow_add₀ (by norm_num)]; ring
  have h3 := add_half h (p := p + 1) (by omega) (by linarith)
  rw [show p + 1 - 25 = p - 24 by ring] at h3
  have h4 : (2 : ℝ) ^ (p - 23) = 2 * (2 : ℝ) ^ (p - 24) := by
    rw [show p - 23 = (p - 24) + 1 by ring, zpow_add₀ (by norm_num)]; ring
  have he := (finite_exact h).1
  obtain ⟨a1, a2⟩ := abs_lt.mp hlt
  obtain ⟨b1, b2⟩ := abs_le.mp h3
  refine abs_le.mpr ⟨?_, exact_gap he (by rw [h4]; linarith)⟩
  have := exact_gap (exact_neg he) (p := p) (by rw [h4]; linarith)
  linarith

/-- A cell of an LSTM does not leave its range: adding 1 to `2^25` gives `2^25`. -/
theorem cell_sat {x y : W} (hx : Finite x) (hy : Finite y) (h1 : |val x| ≤ 1) (h2 : |val y| ≤ 2 ^ 25) :
    Finite (addIeee x y) ∧ |val (addIeee x y)| ≤ 2 ^ 25 := by
  have hb : |val x + val y| ≤ 2 ^ 25 + 1 := (abs_add_le _ _).trans (by linarith)
  have hf : Finite (addIeee x y) := add_fin hx hy (hb.trans (by unfold maxFin; norm_num))
  refine ⟨hf, ?_⟩
  have := add_sat hf (p := 25) (by norm_num) (lt_of_le_of_lt hb (by norm_num))
  exact_mod_cast this

/-- `1 - p` as the code computes it. -/
theorem rev_sub {m : W} {p : ℝ} (hm : Finite m) (hv : val m = -p) (h0 : 0 ≤ p) (h1 : p ≤ 1) :
    Finite (addIeee m one) ∧ 0 ≤ val (addIeee m one) ∧ val (addIeee m one) ≤ 1 ∧
    |val (addIeee m one) - (1 - p)| ≤ 1 / 2 ^ 25 := by
  have hs : val m + val one = 1 - p := by rw [hv, one_val]; ring
  have hf : Finite (addIeee m one) := add_fin hm one_fin (by
    rw [hs, abs_of_nonneg (by linarith)]; unfold maxFin; norm_num; linarith)
  have hge := add_ge hf (a := 0) ⟨0, 0, by norm_num, by norm_num, by norm_num⟩ (by rw [hs]; linarith)
  have hle := add_le hf (a := 1) (by simpa [one_val] using one_exact) (by rw [hs]; linarith)
  refine ⟨hf, hge, hle, ?_⟩
  rcases h0.lt_or_eq with hlt | heq
  · have := add_half hf (p := 0) (by norm_num) (by rw [hs, abs_of_nonneg (by linarith)]; norm_num; linarith)
    rw [hs] at this
    refine this.trans (le_of_eq (by norm_num))
  · have h2 := add_ge hf (a := 1) (by simpa [one_val] using one_exact) (by rw [hs]; linarith)
    rw [← heq, sub_zero, show val (addIeee m one) = 1 by linarith]; norm_num

/-- A weighted average, as the code computes it, is not above 1. -/
theorem avg_sat {x y : W} (hx : Finite x) (hy : Finite y) {p q : ℝ} (h1 : |val x| ≤ p) (h2 : |val y| ≤ q)
    (hq : |q - (1 - p)| ≤ 1 / 2 ^ 25) : Finite (addIeee x y) ∧ |val (addIeee x y)| ≤ 1 := by
  have hb : |val x + val y| ≤ 1 + 1 / 2 ^ 25 := (abs_add_le _ _).trans (by linarith [(abs_le.mp hq).2])
  have hf : Finite (addIeee x y) := add_fin hx hy (hb.trans (by unfold maxFin; norm_num))
  refine ⟨hf, ?_⟩
  have := add_sat hf (p := 0) (by norm_num) (lt_of_le_of_lt hb (by norm_num))
  simpa using this

end Verif.F32
