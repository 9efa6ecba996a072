import Verif.Lemmas.F32Round

set_option autoImplicit false
set_option linter.unusedSimpArgs false

/-!
# Rounding keeps the order

A number of 24 bits on one side of the exact result is on the same side of the rounded one, or equal to it.
-/

namespace Verif.F32

/-- A number of 24 bits is a multiple of the last place of `m * 2^e`, or below everything with that last place. -/
theorem exact_place {m : Nat} {e : Int} (hm : m ≠ 0) {k : Nat} {j : Int} (hk : k < 2 ^ 24) :
    (∃ K : Nat, (k : ℝ) * (2 : ℝ) ^ j = K * (2 : ℝ) ^ place m e) ∨
    ((-149 ≤ j → (k : ℝ) * (2 : ℝ) ^ j ≤ 0x800000 * (2 : ℝ) ^ place m e ∧ (k : ℝ) * (2 : ℝ) ^ j < m * (2 : ℝ) ^ e ∧
      0x800000 * (2 : ℝ) ^ place m e ≤ m * (2 : ℝ) ^ e)) := by
  obtain ⟨h1, -⟩ := log2_real hm
  rcases le_or_gt (place m e) j with hj | hj
  · left
    obtain ⟨d, hd⟩ := Int.eq_ofNat_of_zero_le (show 0 ≤ j - place m e by omega)
    refine ⟨k * 2 ^ d, ?_⟩
    rw [show j = (d : Int) + place m e by omega, zpow_add₀ (by norm_num), zpow_natCast]
    push_cast; ring
  · right
    intro h149
    have hpe : place m e = (Nat.log2 m : Int) + e - 23 := by
      unfold place at hj ⊢
      rcases le_total ((Nat.log2 m : Int) + e - 23) (-149) with hc | hc
      · rw [max_eq_right hc] at hj; omega
      · exact max_eq_left hc
    have hb : 0x800000 * (2 : ℝ) ^ place m e ≤ m * (2 : ℝ) ^ e := by
      have : (0x800000 : ℝ) * (2 : ℝ) ^ place m e = (2 : ℝ) ^ (Nat.log2 m : Int) * (2 : ℝ) ^ e := by
        rw [hpe, show (0x800000 : ℝ) = (2 : ℝ) ^ (23 : Int) by norm_num, ← zpow_add₀ (by norm_num), ← zpow_add₀ (by norm_num)]
        congr 1; ring
      rw [this]
      exact mul_le_mul_of_nonneg_right h1 (by positivity)
    have hlt : (k : ℝ) * (2 : ℝ) ^ j < 0x800000 * (2 : ℝ) ^ place m e := by
      have hk' : (k : ℝ) < 2 ^ 24 := by exact_mod_cast hk
      have hp : (2 : ℝ) ^ (j + 1) ≤ (2 : ℝ) ^ place m e := zpow_le_zpow_right₀ (by norm_num) (by omega)
      rw [zpow_add₀ (by norm_num), zpow_one] at hp
      have h0 : (0 : ℝ) < (2 : ℝ) ^ j := by positivity
      have := mul_lt_mul_of_pos_right hk' h0
      norm_num at this ⊢
      linarith
    exact ⟨hlt.le, hlt.trans_le hb, hb⟩

theorem place_split (m : Nat) (e : Int) : (m : ℝ) * (2 : ℝ) ^ e = (m : ℝ) * (2 : ℝ) ^ (-(place m e - e)) * (2 : ℝ) ^ place m e := by
  rw [mul_assoc, ← zpow_add₀ (by norm_num)]; congr 2; ring

/-- The magnitude of the rounded number. -/
theorem nearest_ge {m : Nat} {e : Int} (hm : m ≠ 0) {k : Nat} {j : Int} (hk : k < 2 ^ 24) (hj : -149 ≤ j)
    (h : (k : ℝ) * (2 : ℝ) ^ j ≤ m * (2 : ℝ) ^ e) :
    (k : ℝ) * (2 : ℝ) ^ j ≤ (nearest m (place m e - e) : ℝ) * (2 : ℝ) ^ place m e := by
  have hp : (0 : ℝ) < (2 : ℝ) ^ place m e := by positivity
  have conv : ∀ K : Nat, (K : ℝ) * (2 : ℝ) ^ place m e ≤ m * (2 : ℝ) ^ e → (K : ℝ) * (2 : ℝ) ^ (place m e - e) ≤ m := by
    intro K hK
    have he : (0 : ℝ) < (2 : ℝ) ^ e := by positivity
    refine le_of_mul_le_mul_right ?_ he
    rw [mul_assoc, ← zpow_add₀ (by norm_num)]
    rwa [sub_add_cancel]
  rcases exact_place (m := m) (e := e) hm (j := j) hk with ⟨K, hK⟩ | hs
  · rw [hK] at h ⊢
    have := le_nearest (conv K h)
    exact mul_le_mul_of_nonneg_right (by exact_mod_cast this) hp.le
  · obtain ⟨a, -, b⟩ := hs hj
    have := le_nearest (conv 0x800000 (by exact_mod_cast b))
    refine a.trans (mul_le_mul_of_nonneg_right ?_ hp.le)
    exact_mod_cast this

theorem nearest_ge' {m : Nat} {e : Int} (hm : m ≠ 0) {k : Nat} {j : Int} (hk : k < 2 ^ 24) (hj : -149 ≤ j)
    (h : (m : ℝ) * (2 : ℝ) ^ e ≤ k * (2 : ℝ) ^ j) :
    (nearest m (place m e - e) : ℝ) * (2 : ℝ) ^ place m e ≤ k * (2 : ℝ) ^ j := by
  have hp : (0 : ℝ) < (2 : ℝ) ^ place m e := by positivity
  rcases exact_place (m := m) (e := e) hm (j := j) hk with ⟨K, hK⟩ | hs
  · rw [hK] at h ⊢
    have : nearest m (place m e - e) ≤ K := by
      apply nearest_le
      have he : (0 : ℝ) < (2 : ℝ) ^ e := by positivity
      refine le_of_mul_le_mul_right ?_ he
      rw [mul_assoc, ← zpow_add₀ (by norm_num)]
      rwa [sub_add_cancel]
    exact mul_le_mul_of_nonneg_right (by exact_mod_cast this) hp.le
  · exact absurd h (not_le.mpr (hs hj).2.1)

/-- **A number of 24 bits below the exact result is not above the rounded one.** -/
theorem rnd_ge (z : Bool) (v e : Int) (hf : Finite (rnd z v e)) {a : ℝ} (ha : Exact a) (h : a ≤ v * (2 : ℝ) ^ e) :
    a ≤ val (rnd z v e) := by
  unfold rnd at hf ⊢
  by_cases h0 : v = 0
  · rw [if_pos h0, val_signed_zero]; simpa [h0] using h
  rw [if_neg h0] at hf ⊢
  rw [round_val_fin _ (by omega) hf]
  have hn : v.natAbs ≠ 0 := by omega
  have hN : (0 : ℝ) ≤ (nearest v.natAbs (place v.natAbs e - e) : ℝ) * (2 : ℝ) ^ place v.natAbs e := by positivity
  obtain ⟨k, j, rfl, hk, hj⟩ := ha
  have hj0 : (0 : ℝ) < (2 : ℝ) ^ j := by positivity
  have he0 : (0 : ℝ) < (2 : ℝ) ^ e := by positivity
  by_cases hneg : v < 0
  · simp only [hneg, decide_true, if_true]
    have hv : (v : ℝ) = -(v.natAbs : ℝ) := by
      rw [Nat.cast_natAbs, Int.cast_abs, abs_of_neg (by exact_mod_cast hneg)]; ring
    have hk0 : k < 0 := by
      by_contra hc
      have : (0 : ℝ) ≤ k := by exact_mod_cast not_lt.mp hc
      have h1 : (v : ℝ) < 0 := by exact_mod_cast hneg
      have := mul_nonneg this hj0.le
      have := mul_neg_of_neg_of_pos h1 he0
      linarith
    have hkv : (k : ℝ) = -(k.natAbs : ℝ) := by
      rw [Nat.cast_natAbs, Int.cast_abs, abs_of_neg (by exact_mod_cast hk0)]; ring
    have := nearest_ge' (e := e) hn hk hj (by rw [hv, hkv] at h; linarith)
    rw [hkv]; linarith
  · simp only [hneg, decide_false, Bool.false_eq_true, if_false, one_mul]
    have hv : (v : ℝ) = (v.natAbs : ℝ) := by
      rw [Nat.cast_natAbs, Int.cast_abs, abs_of_nonneg (by exact_mod_cast not_lt.mp hneg)]
    by_cases hk0 : k < 0
    · have : (k : ℝ) < 0 := by exact_mod_cast hk0
      have := mul_neg_of_neg_of_pos this hj0
      linarith
    · have hkv : (k : ℝ) = (k.natAbs : ℝ) := by
        rw [Nat.cast_natAbs, Int.cast_abs, abs_of_nonneg (by exact_mod_cast not_lt.mp hk0)]
      rw [hkv] at h ⊢
      exact nearest_ge hn hk hj (by rw [hv] at h; exact h)

/-- **A number of 24 bits above the exact result is not below the rounded one.** -/
theorem rnd_le (z : Bool) (v e : Int) (hf : Finite (rnd z v e)) {a : ℝ} (ha : Exact a) (h : v * (2 : ℝ) ^ e ≤ a) :
    val (rnd z v e) ≤ a := by
  unfold rnd at hf ⊢
  by_cases h0 : v = 0
  · rw [if_pos h0, val_signed_zero]; simpa [h0] using h
  rw [if_neg h0] at hf ⊢
  rw [round_val_fin _ (by omega) hf]
  have hn : v.natAbs ≠ 0 := by omega
  have hN : (0 : ℝ) ≤ (nearest v.natAbs (place v.natAbs e - e) : ℝ) * (2 : ℝ) ^ place v.natAbs e := by positivity
  obtain ⟨k, j, rfl, hk, hj⟩ := ha
  have hj0 : (0 : ℝ) < (2 : ℝ) ^ j := by positivity
  have he0 : (0 : ℝ) < (2 : ℝ) ^ e := by positivity
  by_cases hneg : v < 0
  · simp only [hneg, decide_true, if_true]
    have hv : (v : ℝ) = -(v.natAbs : ℝ) := by
      rw [Nat.cast_natAbs, Int.cast_abs, abs_of_neg (by exact_mod_cast hneg)]; ring
    by_cases hk0 : 0 ≤ k
    · have : (0 : ℝ) ≤ k := by exact_mod_cast hk0
      have := mul_nonneg this hj0.le
      linarith
    · have hkv : (k : ℝ) = -(k.natAbs : ℝ) := by
        rw [Nat.cast_natAbs, Int.cast_abs, abs_of_neg (by exact_mod_cast not_le.mp hk0)]; ring
      have := nearest_ge (e := e) hn hk hj (by rw [hv, hkv] at h; linarith)
      rw [hkv]; linarith
  · simp only [hneg, decide_false, Bool.false_eq_true, if_false, one_mul]
    have hv : (v : ℝ) = (v.natAbs : ℝ) := by
      rw [Nat.cast_natAbs, Int.cast_abs, abs_of_nonneg (by exact_mod_cast not_lt.mp hneg)]
    have hk0 : 0 ≤ k := by
      by_contra hc
      have h1 : (k : ℝ) < 0 := by exact_mod_cast not_le.mp hc
      have := mul_neg_of_neg_of_pos h1 hj0
      have h2 : (0 : ℝ) ≤ v := by exact_mod_cast not_lt.mp hneg
      have := mul_nonneg h2 he0.le
      linarith
    have hkv : (k : ℝ) = (k.natAbs : ℝ) := by
      rw [Nat.cast_natAbs, Int.cast_abs, abs_of_nonneg (by exact_mod_cast hk0)]
    rw [hkv] at h ⊢
    exact nearest_ge' hn hk hj (by rw [hv] at h; exact h)

theorem add_ge {x y : W} (h : Finite (addIeee x y)) {a : ℝ} (ha : Exact a) (hle : a ≤ val x + val y) : a ≤ val (addIeee x y) := by
  obtain ⟨hx, hy⟩ := add_finite h
  obtain ⟨z, v, e, h1, h2⟩ := addIeee_rnd hx hy
  rw [h1] at h ⊢
  exact rnd_ge z v e h ha (by rw [h2]; exact hle)

theorem add_le {x y : W} (h : Finite (addIeee x y)) {a : ℝ} (ha : Exact a) (hle : val x + val y ≤ a) : val (addIeee x y) ≤ a := by
  obtain ⟨hx, hy⟩ := add_finite h
  obtain ⟨z, v, e, h1, h2⟩ := addIeee_rnd hx hy
  rw [h1] at h ⊢
  exact rnd_le z v e h ha (by rw [h2]; exact hle)

end Verif.F32
