import Verif.Model.Adam32
import Verif.Lemmas.F32Div
import Verif.Lemmas.F32Unit
import Mathlib.Analysis.Real.Sqrt

set_option autoImplicit false
set_option linter.unusedSimpArgs false

/-!
# Square root and division of float32
-/

namespace Verif.F32

/-- Sum of a relative and an absolute part. -/
theorem slack_split (R : ℝ) : slack R ≤ |R| / 2 ^ 24 + (2 : ℝ) ^ (-150 : Int) := by
  have e : (2 : ℝ) ^ (-126 : Int) / 2 ^ 24 = (2 : ℝ) ^ (-150 : Int) := by norm_num
  unfold slack
  rcases max_choice |R| ((2 : ℝ) ^ (-126 : Int)) with h | h <;> rw [h]
  · linarith [show (0 : ℝ) < (2 : ℝ) ^ (-150 : Int) by positivity]
  · rw [e]; linarith [show 0 ≤ |R| / 2 ^ 24 by positivity]

/-- The root with its last bit. -/
theorem sticky_sqrt (N : Nat) :
    |((2 * Nat.sqrt N + if Nat.sqrt N * Nat.sqrt N = N then 0 else 1 : Nat) : ℝ) - 2 * Real.sqrt N| ≤ 1 := by
  have h1 : (Nat.sqrt N : ℝ) ≤ Real.sqrt N := Real.nat_sqrt_le_real_sqrt
  have h2 : Real.sqrt N < Nat.sqrt N + 1 := Real.real_sqrt_lt_nat_sqrt_succ
  by_cases h : Nat.sqrt N * Nat.sqrt N = N
  · rw [if_pos h]
    have : Real.sqrt N = Nat.sqrt N := by
      conv_lhs => rw [← h]
      push_cast
      exact Real.sqrt_mul_self (Nat.cast_nonneg _)
    rw [this]; push_cast; simp
  · rw [if_neg h]; push_cast
    rw [abs_le]; constructor <;> linarith

/-- **Square root.** -/
theorem sqrt_near {x : W} (hx : Finite x) (h0 : 0 ≤ val x) :
    Finite (sqrtIeee x) ∧ |val (sqrtIeee x) - Real.sqrt (val x)| ≤ Real.sqrt (val x) / 2 ^ 23 := by
  by_cases hm : (unpack x).2.1 = 0
  · have hv : val x = 0 := by unfold val; rw [hm]; simp
    have hd : sqrtIeee x = x := by
      unfold sqrtIeee
      rw [hx.not_nan]; simp only [Bool.false_eq_true, if_false, if_pos hm]
    rw [hd, hv]; refine ⟨hx, ?_⟩; simp
  have hsg : (unpack x).1 = false := by
    by_contra hc
    have hc : (unpack x).1 = true := by simpa using hc
    have hp : (0 : ℝ) < (unpack x).2.1 * (2 : ℝ) ^ (unpack x).2.2 := by
      have : (0 : ℝ) < (unpack x).2.1 := by exact_mod_cast Nat.pos_of_ne_zero hm
      positivity
    unfold val at h0
    rw [hc] at h0
    simp only [if_true] at h0
    linarith
  have hval : val x = (unpack x).2.1 * (2 : ℝ) ^ (unpack x).2.2 := by unfold val; rw [hsg]; simp
  have hd : sqrtIeee x = round false
      (2 * Nat.sqrt ((unpack x).2.1 * 2 ^ (if (unpack x).2.2 % 2 = 0 then 60 else 61)) +
        if Nat.sqrt ((unpack x).2.1 * 2 ^ (if (unpack x).2.2 % 2 = 0 then 60 else 61)) *
          Nat.sqrt ((unpack x).2.1 * 2 ^ (if (unpack x).2.2 % 2 = 0 then 60 else 61)) =
          (unpack x).2.1 * 2 ^ (if (unpack x).2.2 % 2 = 0 then 60 else 61) then 0 else 1)
      (((unpack x).2.2 - ((if (unpack x).2.2 % 2 = 0 then 60 else 61 : Nat) : Int)) / 2 - 1) := by
    unfold sqrtIeee
    rw [hx.not_nan, hx.not_inf]
    simp only [Bool.false_eq_true, if_false, if_neg hm, hsg]
  have hex : -149 ≤ (unpack x).2.2 ∧ (unpack x).2.2 ≤ 104 := by
    have := hx
    unfold Finite at this
    unfold unpack
    simp only
    constructor <;> split <;> omega
  have hmr := unpack_range x
  revert hd hval
  generalize hk : (if (unpack x).2.2 % 2 = 0 then 60 else 61 : Nat) = k
  generalize (unpack x).2.1 = m at hm hmr ⊢
  have hkk : k = 60 ∨ k = 61 := by rw [← hk]; split <;> simp
  obtain ⟨h, hh⟩ : ∃ h : Int, (unpack x).2.2 = 2 * h + k := by
    refine ⟨((unpack x).2.2 - k) / 2, ?_⟩
    rw [← hk]; split <;> rename_i hc <;> push_cast <;> omega
  rw [hh] at hex ⊢
  have hh2 : (2 * h + (k : Int) - k) / 2 = h := by omega
  rw [hh2]
  intro hval hd
  have hst := sticky_sqrt (m * 2 ^ k)
  have hroot : Real.sqrt (val x) = 2 * Real.sqrt ((m * 2 ^ k : Nat) : ℝ) * (2 : ℝ) ^ (h - 1) := by
    have e : val x = ((m * 2 ^ k : Nat) : ℝ) * ((2 : ℝ) ^ h) ^ 2 := by
      rw [hval, zpow_add₀ (by norm_num), zpow_natCast, mul_comm (2 : Int) h, zpow_mul]
      push_cast
      rw [mul_assoc, mul_comm ((2 : ℝ) ^ k)]
      norm_cast
    rw [e, Real.sqrt_mul (Nat.cast_nonneg _), Real.sqrt_sq (by positivity), zpow_sub₀ (by norm_num), zpow_one]
    ring
  have hq1 : (2 : ℝ) ^ 31 ≤ 2 * Real.sqrt ((m * 2 ^ k : Nat) : ℝ) := by
    have : (2 : ℝ) ^ 30 ≤ Real.sqrt ((m * 2 ^ k : Nat) : ℝ) := by
      apply Real.le_sqrt_of_sq_le
      have h1 : 2 ^ 60 ≤ m * 2 ^ k := by
        have : 2 ^ 60 ≤ 2 ^ k := Nat.pow_le_pow_right (by norm_num) (by omega)
        have hm1 : 1 ≤ m := Nat.one_le_iff_ne_zero.mpr hm
        nlinarith
      have h2 : ((2 ^ 60 : Nat) : ℝ) ≤ ((m * 2 ^ k : Nat) : ℝ) := by exact_mod_cast h1
      calc ((2 : ℝ) ^ 30) ^ 2 = ((2 ^ 60 : Nat) : ℝ) := by norm_num
        _ ≤ _ := h2
    linarith
  have hroot1 : 1 / 2 ^ 100 ≤ Real.sqrt (val x) ∧ Real.sqrt (val x) ≤ 2 ^ 100 := by
    constructor
    · rw [hroot]
      have : (2 : ℝ) ^ (-131 : Int) ≤ (2 : ℝ) ^ (h - 1) := zpow_le_zpow_right₀ (by norm_num) (by omega)
      calc (1 : ℝ) / 2 ^ 100 = 2 ^ 31 * (2 : ℝ) ^ (-131 : Int) := by norm_num
        _ ≤ _ := mul_le_mul hq1 this (by positivity) (by positivity)
    · have h1 := (finite_exact hx).2
      rw [abs_of_nonneg h0] at h1
      rw [Real.sqrt_le_left (by positivity)]
      refine h1.trans ?_
      unfold maxFin; norm_num
  revert hst hroot hd hq1
  generalize (2 * Nat.sqrt (m * 2 ^ k) + if Nat.sqrt (m * 2 ^ k) * Nat.sqrt (m * 2 ^ k) = m * 2 ^ k then 0 else 1) = n
  generalize 2 * Real.sqrt ((m * 2 ^ k : Nat) : ℝ) = q
  generalize h - 1 = e
  generalize Real.sqrt (val x) = A at hroot1 ⊢
  intro hd hst hroot hq1
  rw [hd]
  have hp : (0 : ℝ) < (2 : ℝ) ^ e := by positivity
  have hmA : |(n : ℝ) * (2 : ℝ) ^ e - A| ≤ A / 2 ^ 31 := by
    rw [hroot, ← sub_mul, abs_mul, abs_of_pos hp, mul_div_right_comm]
    refine mul_le_mul_of_nonneg_right (hst.trans ?_) hp.le
    rw [le_div_iff₀ (by positivity)]; linarith
  have hn0 : n ≠ 0 := by
    rintro rfl
    have := (abs_le.mp hst).1
    norm_num at this hq1
    linarith
  obtain ⟨hlo, hhi⟩ := abs_le.mp hmA
  obtain ⟨hA1, hA2⟩ := hroot1
  have hA0 : 0 < A := lt_of_lt_of_le (by positivity) hA1
  have hn := round_near false hn0 (e := e) (by unfold maxFin; norm_num at hA2 hhi ⊢; linarith)
  refine ⟨hn.1, ?_⟩
  have h1 := hn.2
  rw [sign_abs _ _ (by positivity)] at h1
  simp only [Bool.false_eq_true, if_false, one_mul] at h1
  have h2 : max ((n : ℝ) * (2 : ℝ) ^ e) ((2 : ℝ) ^ (-126 : Int)) ≤ A * (1 + 1 / 2 ^ 31) := by
    refine max_le (by linarith) ?_
    have : (2 : ℝ) ^ (-126 : Int) ≤ 1 / 2 ^ 100 := by norm_num
    nlinarith
  have h4 := abs_sub_le (val (round false n e)) (n * (2 : ℝ) ^ e) A
  have h5 : max ((n : ℝ) * (2 : ℝ) ^ e) ((2 : ℝ) ^ (-126 : Int)) / 2 ^ 24 ≤ A * (1 + 1 / 2 ^ 31) / 2 ^ 24 := by gcongr
  have h6 : A * (1 + 1 / 2 ^ 31) / 2 ^ 24 + A / 2 ^ 31 ≤ A / 2 ^ 23 := by
    have : A * (1 + 1 / 2 ^ 31) / 2 ^ 24 + A / 2 ^ 31 = A * ((1 + 1 / 2 ^ 31) / 2 ^ 24 + 1 / 2 ^ 31) := by ring
    rw [this, div_eq_mul_inv A (2 ^ 23)]
    exact mul_le_mul_of_nonneg_left (by norm_num) hA0.le
  linarith

theorem sqrt_inf : sqrtIeee posInf = posInf := by decide +kernel

/-- **Division, also of small numbers.** -/
theorem div_bound {x y : W} (hx : Finite x) (hy : Finite y) (hy0 : val y ≠ 0) (hlt : |val x / val y| ≤ 2 ^ 100) :
    Finite (divIeee x y) ∧ |val (divIeee x y) - val x / val y| ≤ |val x / val y| / 2 ^ 23 + (2 : ℝ) ^ (-149 : Int) := by
  have hmy : (unpack y).2.1 ≠ 0 := fun h => hy0 (by unfold val; rw [h]; simp)
  have hd : divIeee x y = round ((unpack x).1 != (unpack y).1)
      (2 * ((unpack x).2.1 * 2 ^ 60 / (unpack y).2.1) + if (unpack x).2.1 * 2 ^ 60 % (unpack y).2.1 = 0 then 0 else 1)
      ((unpack x).2.2 - (unpack y).2.2 - 61) := by
    unfold divIeee
    rw [hx.not_nan, hy.not_nan, hx.not_inf, hy.not_inf]
    simp only [Bool.or_self, Bool.false_eq_true, if_false, if_neg hmy]
  by_cases hmx : (unpack x).2.1 = 0
  · have hv : val x = 0 := by unfold val; rw [hmx]; simp
    rw [hmx] at hd
    simp only [Nat.zero_mul, Nat.zero_div, Nat.zero_mod, if_true, Nat.mul_zero, Nat.add_zero] at hd
    have hr : ∀ (s : Bool) (e : Int), Finite (round s 0 e) ∧ val (round s 0 e) = 0 := by
      intro s e
      have : round s 0 e = if s then 0x80000000 else 0 := by unfold round; cases s <;> simp
      rw [this]
      exact ⟨by cases s <;> (unfold Finite; decide), val_signed_zero s⟩
    obtain ⟨r1, r2⟩ := hr ((unpack x).1 != (unpack y).1) ((unpack x).2.2 - (unpack y).2.2 - 61)
    rw [hd, r2, hv]
    refine ⟨r1, ?_⟩
    rw [zero_div, sub_zero, abs_zero, zero_div, zero_add]; positivity
  have hry := unpack_range y
  have hst := sticky ((unpack x).2.1 * 2 ^ 60) (unpack y).2.1 hmy
  have hval : val x / val y = (if (unpack x).1 != (unpack y).1 then -1 else 1) *
      (2 * (((unpack x).2.1 * 2 ^ 60 : Nat) / ((unpack y).2.1 : ℝ)) * (2 : ℝ) ^ ((unpack x).2.2 - (unpack y).2.2 - 61)) := by
    have e : (2 : ℝ) ^ ((unpack x).2.2 - (unpack y).2.2 - 61) = (2 : ℝ) ^ (unpack x).2.2 / (2 : ℝ) ^ (unpack y).2.2 / 2 ^ 61 := by
      rw [zpow_sub₀ (by norm_num), zpow_sub₀ (by norm_num)]
      norm_cast
    have hy' : ((unpack y).2.1 : ℝ) ≠ 0 := by exact_mod_cast hmy
    have h2 : (2 : ℝ) ^ (unpack y).2.2 ≠ 0 := by positivity
    unfold val
    rw [e]
    push_cast
    cases (unpack x).1 <;> cases (unpack y).1 <;> simp <;> field_simp <;> norm_num
  revert hst hval hd
  generalize hs : ((unpack x).1 != (unpack y).1) = sg
  generalize he : (unpack x).2.2 - (unpack y).2.2 - 61 = e
  generalize hm : (2 * ((unpack x).2.1 * 2 ^ 60 / (unpack y).2.1) + if (unpack x).2.1 * 2 ^ 60 % (unpack y).2.1 = 0 then 0 else 1) = m
  generalize hq : 2 * (((unpack x).2.1 * 2 ^ 60 : Nat) / ((unpack y).2.1 : ℝ)) = q
  intro hd hst hval
  have hp : (0 : ℝ) < (2 : ℝ) ^ e := by positivity
  have hq1 : (2 : ℝ) ^ 37 ≤ q := by
    rw [← hq]
    have h1 : (1 : ℝ) ≤ (unpack x).2.1 := by exact_mod_cast Nat.one_le_iff_ne_zero.mpr hmx
    have h2 : (0 : ℝ) < (unpack y).2.1 := by exact_mod_cast Nat.pos_of_ne_zero hmy
    have h3 : ((unpack y).2.1 : ℝ) ≤ 2 ^ 24 := by exact_mod_cast hry.le
    rw [← mul_div_assoc, le_div_iff₀ h2]
    push_cast
    nlinarith
  have habs : |val x / val y| = q * (2 : ℝ) ^ e := by
    rw [hval, sign_abs _ _ (by positivity)]
  rw [habs] at hlt ⊢
  have hmq : |((m : ℝ) - q) * (2 : ℝ) ^ e| ≤ q * (2 : ℝ) ^ e / 2 ^ 37 := by
    rw [abs_mul, abs_of_pos hp, mul_div_right_comm]
    refine mul_le_mul_of_nonneg_right (hst.trans ?_) hp.le
    rw [le_div_iff₀ (by positivity)]; linarith
  have hm0 : m ≠ 0 := by
    rintro rfl
    have := (abs_le.mp hst).1
    norm_num at this hq1
    linarith
  set A := q * (2 : ℝ) ^ e with hA
  have hA0 : 0 < A := mul_pos (lt_of_lt_of_le (by positivity) hq1) hp
  have hmA : |(m : ℝ) * (2 : ℝ) ^ e - A| ≤ A / 2 ^ 37 := by rw [hA, ← sub_mul]; exact hmq
  obtain ⟨hlo, hhi⟩ := abs_le.mp hmA
  have hn := round_near sg hm0 (e := e) (by unfold maxFin; norm_num at hlt hhi ⊢; linarith)
  rw [hd]
  refine ⟨hn.1, ?_⟩
  rw [hval]
  have h1 := hn.2
  rw [sign_abs _ _ (by positivity)] at h1
  have h5 : max ((m : ℝ) * (2 : ℝ) ^ e) ((2 : ℝ) ^ (-126 : Int)) / 2 ^ 24 ≤ A * (1 + 1 / 2 ^ 37) / 2 ^ 24 + (2 : ℝ) ^ (-149 : Int) := by
    have e1 : (2 : ℝ) ^ (-126 : Int) / 2 ^ 24 ≤ (2 : ℝ) ^ (-149 : Int) := by norm_num
    have e2 : (m : ℝ) * (2 : ℝ) ^ e ≤ A * (1 + 1 / 2 ^ 37) := by linarith
    have e3 : (0 : ℝ) < (2 : ℝ) ^ (-149 : Int) := by positivity
    have e4 : 0 ≤ A * (1 + 1 / 2 ^ 37) / 2 ^ 24 := by positivity
    rcases max_choice ((m : ℝ) * (2 : ℝ) ^ e) ((2 : ℝ) ^ (-126 : Int)) with h | h <;> rw [h]
    · have : (m : ℝ) * (2 : ℝ) ^ e / 2 ^ 24 ≤ A * (1 + 1 / 2 ^ 37) / 2 ^ 24 := by gcongr
      linarith
    · linarith
  have h3 : |(if sg then (-1 : ℝ) else 1) * (m * (2 : ℝ) ^ e) - (if sg then (-1 : ℝ) else 1) * A| ≤ A / 2 ^ 37 := by
    rw [← mul_sub, abs_mul]
    cases sg <;> simpa using hmA
  have h4 := abs_sub_le (val (round sg m e)) ((if sg then (-1 : ℝ) else 1) * (m * (2 : ℝ) ^ e)) ((if sg then (-1 : ℝ) else 1) * A)
  have h6 : A * (1 + 1 / 2 ^ 37) / 2 ^ 24 + A / 2 ^ 37 ≤ A / 2 ^ 23 := by
    have : A * (1 + 1 / 2 ^ 37) / 2 ^ 24 + A / 2 ^ 37 = A * ((1 + 1 / 2 ^ 37) / 2 ^ 24 + 1 / 2 ^ 37) := by ring
    rw [this, div_eq_mul_inv A (2 ^ 23)]
    exact mul_le_mul_of_nonneg_left (by norm_num) hA0.le
  linarith

end Verif.F32
