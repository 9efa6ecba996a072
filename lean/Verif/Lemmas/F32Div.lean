import Verif.Model.Softmax32
import Verif.Lemmas.F32Round
import Verif.Lemmas.F32Int

set_option autoImplicit false
set_option linter.unusedSimpArgs false

/-!
# Division, overflow and maximum of float32
-/

namespace Verif.F32

theorem unpack_range (x : W) : (unpack x).2.1 < 2 ^ 24 := by
  unfold unpack
  simp only
  split <;> omega

/-- The quotient with its last bit. -/
theorem sticky (a b : Nat) (hb : b ≠ 0) :
    |((2 * (a / b) + if a % b = 0 then 0 else 1 : Nat) : ℝ) - 2 * ((a : ℝ) / b)| ≤ 1 := by
  have hb' : (0 : ℝ) < b := by exact_mod_cast Nat.pos_of_ne_zero hb
  have h1 : (a : ℝ) = b * ((a / b : Nat) : ℝ) + ((a % b : Nat) : ℝ) := by exact_mod_cast (Nat.div_add_mod a b).symm
  have h2 : ((a % b : Nat) : ℝ) < b := by exact_mod_cast Nat.mod_lt a (Nat.pos_of_ne_zero hb)
  have h3 : (0 : ℝ) ≤ ((a % b : Nat) : ℝ) := Nat.cast_nonneg _
  have h4 : (a : ℝ) / b = ((a / b : Nat) : ℝ) + ((a % b : Nat) : ℝ) / b := by
    rw [div_eq_iff hb'.ne', add_mul, div_mul_cancel₀ _ hb'.ne']; linarith
  rw [h4]
  by_cases hr : a % b = 0
  · rw [if_pos hr, hr]; push_cast; rw [zero_div, abs_le]; constructor <;> linarith
  · rw [if_neg hr]
    have h5 : ((a % b : Nat) : ℝ) / b < 1 := (div_lt_one hb').mpr h2
    have h6 : 0 < ((a % b : Nat) : ℝ) / b := div_pos (by exact_mod_cast Nat.pos_of_ne_zero hr) hb'
    push_cast
    rw [abs_le]; constructor <;> linarith

/-- **Division.** -/
theorem div_near {x y : W} (hx : Finite x) (hy : Finite y) (hx0 : val x ≠ 0) (hy0 : val y ≠ 0)
    (hlt : |val x / val y| ≤ 2 ^ 100) (hgt : 1 / 2 ^ 100 ≤ |val x / val y|) :
    Finite (divIeee x y) ∧ |val (divIeee x y) - val x / val y| ≤ |val x / val y| / 2 ^ 23 := by
  have hmx : (unpack x).2.1 ≠ 0 := fun h => hx0 (by unfold val; rw [h]; simp)
  have hmy : (unpack y).2.1 ≠ 0 := fun h => hy0 (by unfold val; rw [h]; simp)
  have hd : divIeee x y = round ((unpack x).1 != (unpack y).1)
      (2 * ((unpack x).2.1 * 2 ^ 60 / (unpack y).2.1) + if (unpack x).2.1 * 2 ^ 60 % (unpack y).2.1 = 0 then 0 else 1)
      ((unpack x).2.2 - (unpack y).2.2 - 61) := by
    unfold divIeee
    rw [hx.not_nan, hy.not_nan, hx.not_inf, hy.not_inf]
    simp only [Bool.or_self, Bool.false_eq_true, if_false, if_neg hmy]
  have hry := unpack_range y
  have hst := sticky ((unpack x).2.1 * 2 ^ 60) (unpack y).2.1 hmy
  have hval : val x / val y = (if (unpack x).1 != (unpack y).1 then -1 else 1) *
      (2 * (((unpack x).2.1 * 2 ^ 60 : Nat) / ((unpack y).2.1 : ℝ)) * (2 : ℝ) ^ ((unpack x).2.2 - (unpack y).2.2 - 61)) := by
    have e : (2 : ℝ) ^ ((unpack x).2.2 - (unpack y).2.2 - 61) = (2 : ℝ) ^ (unpack x).2.2 / (2 : ℝ) ^ (unpack y).2.2 / 2 ^ 61 := by
      rw [zpow_sub₀ (by norm_num), zpow_sub₀ (by norm_num)]
      norm_cast
    have hy' : ((unpack y).2.1 : ℝ) ≠ 0 := by exact_mod_cast hmy
    have h2 : (2 : ℝ) ^ (unpack y).2.2 ≠ 0 := by positivity
    unfold val
    rw [e]
    push_cast
    cases (unpack x).1 <;> cases (unpack y).1 <;> simp <;> field_simp <;> norm_num
  revert hst hval hd
  generalize hs : ((unpack x).1 != (unpack y).1) = sg
  generalize he : (unpack x).2.2 - (unpack y).2.2 - 61 = e
  generalize hm : (2 * ((unpack x).2.1 * 2 ^ 60 / (unpack y).2.1) + if (unpack x).2.1 * 2 ^ 60 % (unpack y).2.1 = 0 then 0 else 1) = m
  generalize hq : 2 * (((unpack x).2.1 * 2 ^ 60 : Nat) / ((unpack y).2.1 : ℝ)) = q
  intro hd hst hval
  have hp : (0 : ℝ) < (2 : ℝ) ^ e := by positivity
  have hq1 : (2 : ℝ) ^ 37 ≤ q := by
    rw [← hq]
    have h1 : (1 : ℝ) ≤ (unpack x).2.1 := by exact_mod_cast Nat.one_le_iff_ne_zero.mpr hmx
    have h2 : (0 : ℝ) < (unpack y).2.1 := by exact_mod_cast Nat.pos_of_ne_zero hmy
    have h3 : ((unpack y).2.1 : ℝ) ≤ 2 ^ 24 := by exact_mod_cast hry.le
    rw [← mul_div_assoc, le_div_iff₀ h2]
    push_cast
    nlinarith
  have habs : |val x / val y| = q * (2 : ℝ) ^ e := by
    rw [hval, sign_abs _ _ (by positivity)]
  rw [habs] at hlt hgt ⊢
  have hmq : |((m : ℝ) - q) * (2 : ℝ) ^ e| ≤ q * (2 : ℝ) ^ e / 2 ^ 37 := by
    rw [abs_mul, abs_of_pos hp, mul_div_right_comm]
    refine mul_le_mul_of_nonneg_right (hst.trans ?_) hp.le
    rw [le_div_iff₀ (by positivity)]; linarith
  have hm0 : m ≠ 0 := by
    rintro rfl
    have := (abs_le.mp hst).1
    norm_num at this hq1
    linarith
  set A := q * (2 : ℝ) ^ e with hA
  have hA0 : 0 < A := lt_of_lt_of_le (by positivity) hgt
  have hmA : |(m : ℝ) * (2 : ℝ) ^ e - A| ≤ A / 2 ^ 37 := by rw [hA, ← sub_mul]; exact hmq
  obtain ⟨hlo, hhi⟩ := abs_le.mp hmA
  have hn := round_near sg hm0 (e := e) (by unfold maxFin; norm_num at hlt hhi ⊢; linarith)
  rw [hd]
  refine ⟨hn.1, ?_⟩
  rw [hval]
  have h1 := hn.2
  rw [sign_abs _ _ (by positivity)] at h1
  have h2 : max ((m : ℝ) * (2 : ℝ) ^ e) ((2 : ℝ) ^ (-126 : Int)) ≤ A * (1 + 1 / 2 ^ 37) := by
    refine max_le (by linarith) ?_
    have : (2 : ℝ) ^ (-126 : Int) ≤ 1 / 2 ^ 100 := by norm_num
    nlinarith
  have h3 : |(if sg then (-1 : ℝ) else 1) * (m * (2 : ℝ) ^ e) - (if sg then (-1 : ℝ) else 1) * A| ≤ A / 2 ^ 37 := by
    rw [← mul_sub, abs_mul]
    cases sg <;> simpa using hmA
  have h4 := abs_sub_le (val (round sg m e)) ((if sg then (-1 : ℝ) else 1) * (m * (2 : ℝ) ^ e)) ((if sg then (-1 : ℝ) else 1) * A)
  have h5 : max ((m : ℝ) * (2 : ℝ) ^ e) ((2 : ℝ) ^ (-126 : Int)) / 2 ^ 24 ≤ A * (1 + 1 / 2 ^ 37) / 2 ^ 24 := by gcongr
  have h6 : A * (1 + 1 / 2 ^ 37) / 2 ^ 24 + A / 2 ^ 37 ≤ A / 2 ^ 23 := by
    have : A * (1 + 1 / 2 ^ 37) / 2 ^ 24 + A / 2 ^ 37 = A * ((1 + 1 / 2 ^ 37) / 2 ^ 24 + 1 / 2 ^ 37) := by ring
    rw [this, div_eq_mul_inv A (2 ^ 23)]
    exact mul_le_mul_of_nonneg_left (by norm_num) hA0.le
  linarith

/-- What is too large becomes an infinity of its sign. -/
theorem round_inf (neg : Bool) (m : Nat) (e : Int) (h : ¬ Finite (round neg m e)) :
    round neg m e = if neg then negInf else posInf := by
  unfold round at h ⊢
  simp only at h ⊢
  by_cases h0 : m = 0
  · rw [if_pos h0] at h
    exfalso; apply h
    cases neg <;> (unfold Finite; decide)
  · rw [if_neg h0] at h ⊢
    generalize hb : (max ((Nat.log2 m : Int) + e - 23) (-149) + 149).toNat * 0x800000 + _ = bits at h ⊢
    by_cases hc : bits < 0x7f800000
    · exfalso; apply h
      rw [Nat.min_eq_left hc.le]
      unfold Finite
      cases neg <;> simp only [if_true, if_false, Bool.false_eq_true, BitVec.toNat_ofNat] <;> omega
    · rw [Nat.min_eq_right (by omega)]
      cases neg <;> simp [posInf, negInf]

/-- A difference that is too far below is minus infinity. -/
theorem add_neg_overflow {x y : W} (hx : Finite x) (hy : Finite y) (h : val x + val y ≤ 0) (hf : ¬ Finite (addIeee x y)) :
    addIeee x y = negInf := by
  obtain ⟨z, v, e, h1, h2⟩ := addIeee_rnd hx hy
  rw [h1] at hf ⊢
  have hp : (0 : ℝ) < (2 : ℝ) ^ e := by positivity
  unfold rnd at hf ⊢
  by_cases h0 : v = 0
  · exfalso; apply hf
    rw [if_pos h0]; cases z <;> (unfold Finite; decide)
  · rw [if_neg h0] at hf ⊢
    have hv : v < 0 := by
      rcases lt_trichotomy v 0 with h | h | h
      · exact h
      · exact absurd h h0
      · exfalso
        have : (0 : ℝ) < v := by exact_mod_cast h
        have := mul_pos this hp
        linarith
    rw [round_inf _ _ _ hf]
    simp [hv]

/-- Finite, or minus infinity. -/
def Score (x : W) : Prop := Finite x ∨ x = negInf

theorem key_range {x : W} (h : Finite x) : -0x7f800000 < key x := by
  unfold Finite at h
  unfold key
  split <;> omega

theorem lt_score {x y : W} (hx : Score x) (hy : Score y) : lt x y = true ↔ key x < key y := by
  have h : ∀ {x : W}, Score x → isNaN x = false := fun h => by
    rcases h with h | rfl
    · exact h.not_nan
    · decide
  unfold lt
  rw [h hx, h hy]; simp

/-- **The loop finds the maximum**: a largest element of the list. -/
theorem maxLoop_spec : ∀ (l : List W) (m : W), Score m → (∀ v ∈ l, Score v) →
    (maxLoop m l = m ∨ maxLoop m l ∈ l) ∧ key m ≤ key (maxLoop m l) ∧ ∀ v ∈ l, key v ≤ key (maxLoop m l)
  | [], m, _, _ => ⟨.inl rfl, le_rfl, fun _ h => absurd h List.not_mem_nil⟩
  | v :: l, m, hm, hl => by
    have hv : Score v := hl v List.mem_cons_self
    have hs : Score (if lt m v then v else m) := by split <;> assumption
    obtain ⟨h1, h2, h3⟩ := maxLoop_spec l _ hs fun u hu => hl u (List.mem_cons_of_mem _ hu)
    have hk : key m ≤ key (if lt m v then v else m) ∧ key v ≤ key (if lt m v then v else m) := by
      split
      · rename_i h
        have := (lt_score hm hv).mp h
        exact ⟨this.le, le_rfl⟩
      · rename_i h
        exact ⟨le_rfl, not_lt.mp fun hc => h ((lt_score hm hv).mpr hc)⟩
    refine ⟨?_, hk.1.trans h2, fun u hu => ?_⟩
    · rcases h1 with h1 | h1
      · show maxLoop _ l = m ∨ maxLoop _ l ∈ v :: l
        rw [h1]
        split
        · exact .inr List.mem_cons_self
        · exact .inl rfl
      · exact .inr (List.mem_cons_of_mem _ h1)
    · rcases List.mem_cons.mp hu with rfl | hu
      · exact hk.2.trans h2
      · exact h3 u hu

theorem max32_spec {l : List W} (hl : ∀ v ∈ l, Score v) {a : W} (ha : a ∈ l) (haf : Finite a) :
    ∃ m, max32 l = some m ∧ m ∈ l ∧ Finite m ∧ ∀ v ∈ l, Finite v → val v ≤ val m := by
  cases l with
  | nil => exact absurd ha List.not_mem_nil
  | cons v l =>
    obtain ⟨h1, h2, h3⟩ := maxLoop_spec l v (hl v List.mem_cons_self) fun u hu => hl u (List.mem_cons_of_mem _ hu)
    have hm : maxLoop v l ∈ v :: l := by
      rcases h1 with h1 | h1
      · rw [h1]; exact List.mem_cons_self
      · exact List.mem_cons_of_mem _ h1
    have hk : ∀ u ∈ v :: l, key u ≤ key (maxLoop v l) := fun u hu => by
      rcases List.mem_cons.mp hu with rfl | hu
      · exact h2
      · exact h3 u hu
    refine ⟨_, rfl, hm, ?_, fun u hu _ => not_lt.mp fun hc => ?_⟩
    · rcases hl _ hm with h | h
      · exact h
      · exfalso
        have h4 := hk a ha
        have h5 := key_range haf
        rw [h] at h4
        have : key negInf = -0x7f800000 := by decide
        omega
    · exact absurd ((key_lt _ _).mpr hc) (not_lt.mpr (hk u hu))

end Verif.F32
