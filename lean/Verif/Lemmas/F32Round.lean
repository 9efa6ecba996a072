import Verif.Lemmas.F32
import Verif.Model.F32Fma

set_option autoImplicit false
set_option linter.unusedSimpArgs false

/-!
# Rounding errors when the result is finite

`Lemmas/F32.lean` bounds the errors of results below the largest number; here the hypothesis is that the result is finite,
which can be seen from the result itself.
-/

namespace Verif.F32

theorem round_val_fin (neg : Bool) {m : Nat} {e : Int} (h : m ≠ 0) (hf : Finite (round neg m e)) :
    val (round neg m e) = (if neg then -1 else 1) * (nearest m (place m e - e) : ℝ) * (2 : ℝ) ^ place m e := by
  obtain ⟨h1, h2⟩ := log2_real h
  have hpl : (-149 : Int) ≤ place m e := le_max_right _ _
  have hb : (place m e + 149).toNat * 0x800000 + nearest m (place m e - e) < 0x7f800000 := by
    rw [round_eq h] at hf
    unfold Finite at hf
    rw [BitVec.toNat_ofNat] at hf
    cases neg <;> simp only [Bool.false_eq_true, if_false, if_true] at hf <;> omega
  have hup : nearest m (place m e - e) ≤ 0x1000000 := by
    apply nearest_le
    refine h2.le.trans ?_
    have e24 : ((0x1000000 : Nat) : ℝ) = (2 : ℝ) ^ (24 : Int) := by norm_num
    rw [e24, ← zpow_add₀ (by norm_num)]
    apply zpow_le_zpow_right₀ (by norm_num)
    have : (Nat.log2 m : Int) + e - 23 ≤ place m e := le_max_left _ _
    omega
  rw [round_eq h]
  refine (val_bits (by omega) hup ?_ hb).2
  rcases le_total ((Nat.log2 m : Int) + e - 23) (-149) with hc | hc
  · exact .inr (max_eq_right hc)
  · left
    have hpe : place m e = (Nat.log2 m : Int) + e - 23 := max_eq_left hc
    apply le_nearest
    refine le_trans ?_ h1
    have e23 : ((0x800000 : Nat) : ℝ) = (2 : ℝ) ^ (23 : Int) := by norm_num
    rw [e23, ← zpow_add₀ (by norm_num)]
    apply zpow_le_zpow_right₀ (by norm_num)
    omega

/-- The error of one rounding. -/
noncomputable def slack (R : ℝ) : ℝ := max |R| ((2 : ℝ) ^ (-126 : Int)) / 2 ^ 24

theorem slack_nonneg (R : ℝ) : 0 ≤ slack R := max_pos R

theorem round_near_fin (neg : Bool) {m : Nat} {e : Int} (h : m ≠ 0) (hf : Finite (round neg m e)) :
    |val (round neg m e) - (if neg then -1 else 1) * (m * (2 : ℝ) ^ e)| ≤
      slack ((if neg then -1 else 1) * (m * (2 : ℝ) ^ e)) := by
  have e1 : val (round neg m e) - (if neg then -1 else 1) * (m * (2 : ℝ) ^ e) =
      (if neg then (-1 : ℝ) else 1) * (((nearest m (place m e - e) : ℝ) * (2 : ℝ) ^ (place m e - e) - m) * (2 : ℝ) ^ e) := by
    have : (2 : ℝ) ^ place m e = (2 : ℝ) ^ (place m e - e) * (2 : ℝ) ^ e := by
      rw [← zpow_add₀ (by norm_num)]; congr 1; ring
    rw [round_val_fin neg h hf, this]; ring
  have e2 : |(if neg then (-1 : ℝ) else 1)| = 1 := by cases neg <;> simp
  have hp : (0 : ℝ) < (2 : ℝ) ^ e := by positivity
  have e3 : |val (round neg m e) - (if neg then -1 else 1) * (m * (2 : ℝ) ^ e)| ≤ (2 : ℝ) ^ place m e / 2 := by
    rw [e1, abs_mul, e2, one_mul, abs_mul, abs_of_pos hp]
    calc _ ≤ (2 : ℝ) ^ (place m e - e) / 2 * (2 : ℝ) ^ e := mul_le_mul_of_nonneg_right (nearest_err _ _) hp.le
      _ = (2 : ℝ) ^ (place m e - e) * (2 : ℝ) ^ e / 2 := by ring
      _ = _ := by rw [← zpow_add₀ (by norm_num)]; congr 2; ring
  refine e3.trans ?_
  unfold slack
  rw [sign_abs _ _ (by positivity)]
  obtain ⟨h1, -⟩ := log2_real h
  unfold place
  rcases le_total ((Nat.log2 m : Int) + e - 23) (-149) with hc | hc
  · rw [max_eq_right hc]
    calc (2 : ℝ) ^ (-149 : Int) / 2 = (2 : ℝ) ^ (-126 : Int) / 2 ^ 24 := by norm_num
      _ ≤ _ := by gcongr; exact le_max_right _ _
  · rw [max_eq_left hc]
    have : (2 : ℝ) ^ ((Nat.log2 m : Int) + e - 23) / 2 = (2 : ℝ) ^ (Nat.log2 m : Int) * (2 : ℝ) ^ e / 2 ^ 24 := by
      rw [zpow_sub₀ (by norm_num), zpow_add₀ (by norm_num)]; norm_num; ring
    rw [this]
    gcongr
    exact (mul_le_mul_of_nonneg_right h1 (by positivity)).trans (le_max_left _ _)

/-- A sum of integers times `2^e`, rounded; zero has the sign `z`. -/
def rnd (z : Bool) (v : Int) (e : Int) : W :=
  if v = 0 then (if z then 0x80000000 else 0) else round (v < 0) v.natAbs e

theorem rnd_sign {v : Int} {e : Int} :
    (if decide (v < 0) = true then (-1 : ℝ) else 1) * (v.natAbs * (2 : ℝ) ^ e) = v * (2 : ℝ) ^ e := by
  rw [← mul_assoc]; congr 1
  by_cases hneg : v < 0
  · simp only [hneg, decide_true, if_true]
    rw [Nat.cast_natAbs, Int.cast_abs, abs_of_neg (by exact_mod_cast hneg)]; ring
  · simp only [hneg, decide_false, Bool.false_eq_true, if_false]
    rw [Nat.cast_natAbs, Int.cast_abs, abs_of_nonneg (by exact_mod_cast not_lt.mp hneg)]; ring

theorem val_signed_zero (z : Bool) : val (if z then 0x80000000 else 0) = 0 := by
  cases z
  · exact val_zero
  · exact val_negZero

theorem rnd_near (z : Bool) (v e : Int) (hf : Finite (rnd z v e)) :
    |val (rnd z v e) - v * (2 : ℝ) ^ e| ≤ slack (v * (2 : ℝ) ^ e) := by
  unfold rnd at hf ⊢
  by_cases h0 : v = 0
  · rw [if_pos h0, val_signed_zero, h0]; simpa using slack_nonneg 0
  · rw [if_neg h0] at hf ⊢
    have := round_near_fin (decide (v < 0)) (show v.natAbs ≠ 0 by omega) hf
    rwa [rnd_sign] at this

theorem rnd_exact (z : Bool) (v e : Int) (hx : Exact (v * (2 : ℝ) ^ e)) (hlt : |v * (2 : ℝ) ^ e| ≤ maxFin) :
    val (rnd z v e) = v * (2 : ℝ) ^ e := by
  unfold rnd
  by_cases h0 : v = 0
  · rw [if_pos h0, val_signed_zero, h0]; simp
  · rw [if_neg h0]
    rw [← rnd_sign (v := v)] at hx hlt ⊢
    rw [sign_abs _ _ (by positivity)] at hlt
    exact round_exact _ (by omega) hlt hx

theorem scale (m : Nat) (a b : Int) (hab : b ≤ a) :
    ((m * 2 ^ (a - b).toNat : Nat) : ℝ) * (2 : ℝ) ^ b = m * (2 : ℝ) ^ a := by
  obtain ⟨k, hk⟩ := Int.eq_ofNat_of_zero_le (show 0 ≤ a - b by omega)
  have hk' : a = k + b := by have : a - b = k := hk; omega
  have e : (a - b).toNat = k := by rw [hk]; rfl
  rw [e, hk', zpow_add₀ (by norm_num), zpow_natCast]; push_cast; ring

theorem not_finite_qNaN : ¬ Finite qNaN := by unfold Finite qNaN; decide
theorem not_finite_inf : ¬ Finite posInf ∧ ¬ Finite negInf := by unfold Finite posInf negInf; decide

theorem finite_of {x : W} (h1 : isNaN x = false) (h2 : isInf x = false) : Finite x := by
  unfold Finite; simp [isNaN, isInf] at h1 h2; omega

theorem Finite.of_inf {x : W} (h : isInf x = true) : ¬ Finite x := fun hf => by rw [hf.not_inf] at h; cases h

/-- Sum of two finite words as a rounded sum of integers. -/
theorem addIeee_rnd {x y : W} (hx : Finite x) (hy : Finite y) :
    ∃ z v e, addIeee x y = rnd z v e ∧ (v : ℝ) * (2 : ℝ) ^ e = val x + val y := by
  unfold addIeee
  rw [hx.not_nan, hy.not_nan, hx.not_inf, hy.not_inf]
  simp only [Bool.or_self, Bool.false_eq_true, if_false]
  refine ⟨_, _, _, rfl, ?_⟩
  have h1 := scale (unpack x).2.1 (unpack x).2.2 (min (unpack x).2.2 (unpack y).2.2) (min_le_left _ _)
  have h2 := scale (unpack y).2.1 (unpack y).2.2 (min (unpack x).2.2 (unpack y).2.2) (min_le_right _ _)
  unfold val
  rw [mul_assoc, mul_assoc, ← h1, ← h2]
  cases (unpack x).1 <;> cases (unpack y).1 <;> simp <;> ring

theorem fmaIeee_rnd {x y w : W} (hx : Finite x) (hy : Finite y) (hw : Finite w) :
    ∃ z v e, fmaIeee x y w = rnd z v e ∧ (v : ℝ) * (2 : ℝ) ^ e = val x * val y + val w := by
  unfold fmaIeee
  rw [hx.not_nan, hy.not_nan, hw.not_nan, hx.not_inf, hy.not_inf, hw.not_inf]
  simp only [Bool.or_self, Bool.false_eq_true, if_false]
  refine ⟨_, _, _, rfl, ?_⟩
  have h1 := scale ((unpack x).2.1 * (unpack y).2.1) ((unpack x).2.2 + (unpack y).2.2)
    (min ((unpack x).2.2 + (unpack y).2.2) (unpack w).2.2) (min_le_left _ _)
  have h2 := scale (unpack w).2.1 (unpack w).2.2 (min ((unpack x).2.2 + (unpack y).2.2) (unpack w).2.2) (min_le_right _ _)
  have e : val x * val y = (if (unpack x).1 != (unpack y).1 then -1 else 1) *
      ((((unpack x).2.1 * (unpack y).2.1 : Nat) : ℝ) * (2 : ℝ) ^ ((unpack x).2.2 + (unpack y).2.2)) := by
    unfold val
    rw [zpow_add₀ (by norm_num)]
    cases (unpack x).1 <;> cases (unpack y).1 <;> simp <;> ring
  have ew : val w = (if (unpack w).1 then -1 else 1) * (((unpack w).2.1 : ℝ) * (2 : ℝ) ^ (unpack w).2.2) := by
    unfold val; ring
  rw [e, ew, ← h1, ← h2]
  cases ((unpack x).1 != (unpack y).1) <;> cases (unpack w).1 <;> simp <;> ring

/-- Up to the largest number the result is finite. -/
theorem rnd_finite (z : Bool) (v e : Int) (hlt : |v * (2 : ℝ) ^ e| ≤ maxFin) : Finite (rnd z v e) := by
  unfold rnd
  by_cases h0 : v = 0
  · rw [if_pos h0]; cases z <;> (unfold Finite; decide)
  · rw [if_neg h0]
    rw [← rnd_sign (v := v), sign_abs _ _ (by positivity)] at hlt
    exact (round_val _ (by omega) hlt).1

theorem add_fin {x y : W} (hx : Finite x) (hy : Finite y) (hlt : |val x + val y| ≤ maxFin) : Finite (addIeee x y) := by
  obtain ⟨z, v, e, h1, h2⟩ := addIeee_rnd hx hy
  rw [h1]; exact rnd_finite z v e (by rwa [h2])

theorem fma_fin {x y w : W} (hx : Finite x) (hy : Finite y) (hw : Finite w) (hlt : |val x * val y + val w| ≤ maxFin) :
    Finite (fmaIeee x y w) := by
  obtain ⟨z, v, e, h1, h2⟩ := fmaIeee_rnd hx hy hw
  rw [h1]; exact rnd_finite z v e (by rwa [h2])

/-- A finite sum has finite operands. -/
theorem add_finite {x y : W} (h : Finite (addIeee x y)) : Finite x ∧ Finite y := by
  unfold addIeee at h
  cases hnx : isNaN x
  swap
  · simp [hnx, not_finite_qNaN] at h
  cases hny : isNaN y
  swap
  · simp [hny, not_finite_qNaN] at h
  cases hix : isInf x
  swap
  · simp only [hnx, hny, hix, Bool.or_self, Bool.false_eq_true, if_false, if_true] at h
    split at h
    · exact absurd h not_finite_qNaN
    · exact absurd h (Finite.of_inf hix)
  cases hiy : isInf y
  swap
  · simp only [hnx, hny, hix, hiy, Bool.or_self, Bool.false_eq_true, if_false, if_true] at h
    exact absurd h (Finite.of_inf hiy)
  exact ⟨finite_of hnx hix, finite_of hny hiy⟩

theorem mul_finite {x y : W} (h : Finite (mulIeee x y)) : Finite x ∧ Finite y := by
  unfold mulIeee at h
  cases hnx : isNaN x
  swap
  · simp [hnx, not_finite_qNaN] at h
  cases hny : isNaN y
  swap
  · simp [hny, not_finite_qNaN] at h
  have key : ¬ (isInf x || isInf y) = true := by
    intro hi
    simp only [hnx, hny, Bool.or_self, Bool.false_eq_true, if_false] at h
    rw [if_pos hi] at h
    split at h
    · exact not_finite_qNaN h
    · split at h
      · exact not_finite_inf.2 h
      · exact not_finite_inf.1 h
  simp only [Bool.or_eq_true, not_or, Bool.not_eq_true] at key
  exact ⟨finite_of hnx key.1, finite_of hny key.2⟩

theorem fma_finite {x y z : W} (h : Finite (fmaIeee x y z)) : Finite x ∧ Finite y ∧ Finite z := by
  unfold fmaIeee at h
  cases hnx : isNaN x
  swap
  · simp [hnx, not_finite_qNaN] at h
  cases hny : isNaN y
  swap
  · simp [hny, not_finite_qNaN] at h
  cases hnz : isNaN z
  swap
  · simp [hnz, not_finite_qNaN] at h
  have key : ¬ (isInf x || isInf y) = true := by
    intro hi
    simp only [hnx, hny, hnz, Bool.or_self, Bool.false_eq_true, if_false] at h
    rw [if_pos hi] at h
    split at h
    · exact not_finite_qNaN h
    · split at h
      · exact not_finite_qNaN h
      · split at h
        · exact not_finite_inf.2 h
        · exact not_finite_inf.1 h
  have keyz : isInf z = false := by
    cases hiz : isInf z
    · rfl
    · simp only [hnx, hny, hnz, hiz, Bool.or_self, Bool.false_eq_true, if_false, if_true] at h
      rw [if_neg key] at h
      exact absurd h (Finite.of_inf hiz)
  simp only [Bool.or_eq_true, not_or, Bool.not_eq_true] at key
  exact ⟨finite_of hnx key.1, finite_of hny key.2, finite_of hnz keyz⟩

theorem add_near_fin {x y : W} (h : Finite (addIeee x y)) :
    |val (addIeee x y) - (val x + val y)| ≤ slack (val x + val y) := by
  obtain ⟨hx, hy⟩ := add_finite h
  obtain ⟨z, v, e, h1, h2⟩ := addIeee_rnd hx hy
  rw [h1] at h ⊢
  rw [← h2]
  exact rnd_near z v e h

theorem fma_near_fin {x y w : W} (h : Finite (fmaIeee x y w)) :
    |val (fmaIeee x y w) - (val x * val y + val w)| ≤ slack (val x * val y + val w) := by
  obtain ⟨hx, hy, hw⟩ := fma_finite h
  obtain ⟨z, v, e, h1, h2⟩ := fmaIeee_rnd hx hy hw
  rw [h1] at h ⊢
  rw [← h2]
  exact rnd_near z v e h

theorem mul_near_fin {x y : W} (h : Finite (mulIeee x y)) :
    |val (mulIeee x y) - val x * val y| ≤ slack (val x * val y) := by
  obtain ⟨hx, hy⟩ := mul_finite h
  have hval : val x * val y = (if (unpack x).1 != (unpack y).1 then -1 else 1) *
      ((((unpack x).2.1 * (unpack y).2.1 : Nat) : ℝ) * (2 : ℝ) ^ ((unpack x).2.2 + (unpack y).2.2)) := by
    unfold val
    rw [zpow_add₀ (by norm_num)]
    cases (unpack x).1 <;> cases (unpack y).1 <;> simp <;> ring
  have hm : mulIeee x y = round ((unpack x).1 != (unpack y).1) ((unpack x).2.1 * (unpack y).2.1)
      ((unpack x).2.2 + (unpack y).2.2) := by
    unfold mulIeee
    rw [hx.not_nan, hy.not_nan, hx.not_inf, hy.not_inf]
    simp only [Bool.or_self, Bool.false_eq_true, if_false]
  rw [hm] at h ⊢
  rw [hval]
  by_cases h0 : (unpack x).2.1 * (unpack y).2.1 = 0
  · rw [h0]
    have : val (round ((unpack x).1 != (unpack y).1) 0 ((unpack x).2.2 + (unpack y).2.2)) = 0 := by
      unfold round
      rw [if_pos rfl]
      cases ((unpack x).1 != (unpack y).1)
      · exact val_zero
      · exact val_negZero
    rw [this]
    simpa using slack_nonneg 0
  · exact round_near_fin _ h0 h

/-- Finite words are numbers of 24 bits, not above the largest. -/
theorem finite_exact {x : W} (h : Finite x) : Exact (val x) ∧ |val x| ≤ maxFin := by
  unfold Finite at h
  have hex : (unpack x).2.1 < 2 ^ 24 ∧ -149 ≤ (unpack x).2.2 ∧ (unpack x).2.2 ≤ 104 := by
    unfold unpack
    simp only
    split <;> omega
  obtain ⟨h1, h2, h3⟩ := hex
  constructor
  · refine ⟨if (unpack x).1 then -((unpack x).2.1 : Int) else (unpack x).2.1, (unpack x).2.2, ?_, ?_, h2⟩
    · unfold val; cases (unpack x).1 <;> simp
    · cases (unpack x).1 <;> simpa using h1
  · unfold val maxFin
    rw [mul_assoc, sign_abs _ _ (by positivity)]
    have : ((unpack x).2.1 : ℝ) ≤ 2 ^ 24 - 1 := by
      have : (unpack x).2.1 ≤ 2 ^ 24 - 1 := by omega
      have : ((unpack x).2.1 : ℝ) ≤ ((2 ^ 24 - 1 : Nat) : ℝ) := by exact_mod_cast this
      refine this.trans (le_of_eq (by norm_num))
    gcongr
    norm_num

/-- Adding a zero is exact. -/
theorem add_zero_val {x y : W} (hx : Finite x) (hy : Finite y) (h0 : val x = 0 ∨ val y = 0) :
    val (addIeee x y) = val x + val y := by
  obtain ⟨z, v, e, h1, h2⟩ := addIeee_rnd hx hy
  rw [h1, ← h2]
  refine rnd_exact z v e ?_ ?_ <;> rw [h2] <;> rcases h0 with h0 | h0 <;> rw [h0] <;> simp only [zero_add, add_zero]
  · exact (finite_exact hy).1
  · exact (finite_exact hx).1
  · exact (finite_exact hy).2
  · exact (finite_exact hx).2

theorem fma_zero_val {x y w : W} (hx : Finite x) (hy : Finite y) (hw : Finite w) (h0 : val x * val y = 0) :
    val (fmaIeee x y w) = val w := by
  obtain ⟨z, v, e, h1, h2⟩ := fmaIeee_rnd hx hy hw
  rw [h0, zero_add] at h2
  rw [h1, ← h2]
  refine rnd_exact z v e ?_ ?_ <;> rw [h2]
  · exact (finite_exact hw).1
  · exact (finite_exact hw).2

end Verif.F32
