import Verif.Model.Decay
import Mathlib.Tactic.FieldSimp
import Mathlib.Tactic.Ring
import Mathlib.Tactic.IntervalCases
import Mathlib.Tactic.Linarith
import Mathlib.Tactic.Positivity
import Mathlib.Analysis.SpecialFunctions.Pow.Real
import Mathlib.Algebra.Order.Archimedean.Basic

set_option autoImplicit false
set_option linter.unusedSimpArgs false

/-!
# C29: learning-rate decay
-/

namespace Verif.Decay

/-! ## Exponential -/

/-- The geometric interpolation between `init` (at `t = 1`) and `final` (at `t = times`). -/
noncomputable def between (init final : ℝ) (times t : Nat) : ℝ :=
  init ^ (((times : ℝ) - t) / (times - 1)) * final ^ (((t : ℝ) - 1) / (times - 1))

theorem log_between {init final : ℝ} (hf : 0 < final) (hi : 0 < init) {times t : Nat} :
    Real.log (between init final times t) =
      ((times : ℝ) - t) / (times - 1) * Real.log init + ((t : ℝ) - 1) / (times - 1) * Real.log final := by
  rw [between, Real.log_mul (Real.rpow_pos_of_pos hi _).ne' (Real.rpow_pos_of_pos hf _).ne', Real.log_rpow hi,
    Real.log_rpow hf]

theorem between_pos {init final : ℝ} (hf : 0 < final) (hi : 0 < init) {times t : Nat} :
    0 < between init final times t := mul_pos (Real.rpow_pos_of_pos hi _) (Real.rpow_pos_of_pos hf _)

/-- With at least two steps, the rate after `t` calls is the geometric interpolation for `1 ≤ t ≤ times`: it is
`final` exactly at `t = times`, and stays there. -/
theorem exponential_rates {init final : ℝ} (hf : 0 < final) (hi : final ≤ init) {times : Nat} (ht : 2 ≤ times)
    (n : Nat) :
    (n = 0 → rates (Exponential.decay ⟨init, final, times⟩) init n = init) ∧
    (1 ≤ n → n ≤ times → rates (Exponential.decay ⟨init, final, times⟩) init n = between init final times n) ∧
    (times ≤ n → rates (Exponential.decay ⟨init, final, times⟩) init n = final) := by
  have hi0 : 0 < init := hf.trans_le hi
  have hT : (2:ℝ) ≤ times := by exact_mod_cast ht
  have hT1 : (0:ℝ) < times - 1 := by linarith
  have hend : between init final times times = final := by
    simp only [between, sub_self, zero_div, Real.rpow_zero, one_mul, div_self hT1.ne', Real.rpow_one]
  have hone : between init final times 1 = init := by
    simp only [between, Nat.cast_one, sub_self, zero_div, Real.rpow_zero, mul_one, div_self hT1.ne', Real.rpow_one]
  have hmid : ∀ n, 1 ≤ n → n ≤ times →
      rates (Exponential.decay ⟨init, final, times⟩) init n = between init final times n := by
    intro n
    induction n with
    | zero => intro h; omega
    | succ n ih =>
      intro _ hn
      by_cases h1 : n = 0
      · subst h1
        rw [hone]
        simp [rates, Exponential.decay]
      · have hr := ih (by omega) (by omega)
        have hp := between_pos (times := times) (t := n) hf hi0
        have hnR : (n : ℝ) + 1 ≤ times := by exact_mod_cast hn
        have hn1 : (1:ℝ) ≤ n := by exact_mod_cast (by omega : 1 ≤ n)
        have hL : Real.log final ≤ Real.log init := Real.log_le_log hf hi
        simp only [rates]
        rw [hr, Exponential.decay]
        by_cases hgt : between init final times n > final
        · have hc1 : ((n + 1 : Nat) : Int) > 1 := by omega
          have hc2 : ¬ ((times : Int) - ((n + 1 : Nat) : Int) + 1 = 0) := by omega
          rw [if_pos ⟨hc1, hgt⟩, if_neg hc2]
          apply Real.log_injOn_pos (Set.mem_Ioi.mpr (Real.exp_pos _)) (Set.mem_Ioi.mpr (between_pos hf hi0))
          rw [Real.log_exp, log_between hf hi0, log_between hf hi0]
          push_cast
          have hne : (times : ℝ) - (n + 1) + 1 ≠ 0 := by linarith
          field_simp
          ring
        · rw [if_neg (fun h => hgt h.2)]
          -- the interpolation has already reached `final`, so `init = final`
          have hle : Real.log (between init final times n) ≤ Real.log final :=
            Real.log_le_log hp (not_lt.mp hgt)
          rw [log_between hf hi0] at hle
          have hpos : 0 < ((times : ℝ) - n) / (times - 1) := div_pos (by linarith) hT1
          have hsum : ((times : ℝ) - n) / (times - 1) + ((n : ℝ) - 1) / (times - 1) = 1 := by
            field_simp; ring
          have hLe : Real.log init ≤ Real.log final := by
            have : ((times : ℝ) - n) / (times - 1) * Real.log init ≤
                ((times : ℝ) - n) / (times - 1) * Real.log final := by
              have e : ((n : ℝ) - 1) / (times - 1) = 1 - ((times : ℝ) - n) / (times - 1) := by linarith
              rw [e] at hle
              linarith
            exact le_of_mul_le_mul_left this hpos
          have heq : init = final := Real.log_injOn_pos (Set.mem_Ioi.mpr hi0) (Set.mem_Ioi.mpr hf) (le_antisymm hLe hL)
          apply Real.log_injOn_pos (Set.mem_Ioi.mpr hp) (Set.mem_Ioi.mpr (between_pos hf hi0))
          rw [log_between hf hi0, log_between hf hi0, heq]
          push_cast
          field_simp
          ring
  refine ⟨fun h => by subst h; rfl, hmid n, fun hn => ?_⟩
  induction n with
  | zero => omega
  | succ n ih =>
    by_cases h : times ≤ n
    · simp only [rates]
      rw [ih h, Exponential.decay, if_neg (fun h => lt_irrefl _ h.2)]
    · rw [hmid (n + 1) (by omega) (by omega), show n + 1 = times by omega, hend]

/-- The interpolation lies between the two rates and decreases. -/
theorem between_mono {init final : ℝ} (hf : 0 < final) (hi : final ≤ init) {times : Nat} (ht : 2 ≤ times) {n : Nat}
    (h1 : 1 ≤ n) (h2 : n ≤ times) :
    final ≤ between init final times n ∧ between init final times n ≤ init ∧
      between init final times (n + 1) ≤ between init final times n := by
  have hi0 : 0 < init := hf.trans_le hi
  have hT : (2:ℝ) ≤ times := by exact_mod_cast ht
  have hT1 : (0:ℝ) < times - 1 := by linarith
  have hn1 : (1:ℝ) ≤ n := by exact_mod_cast h1
  have hn2 : (n:ℝ) ≤ times := by exact_mod_cast h2
  have hL : Real.log final ≤ Real.log init := Real.log_le_log hf hi
  have hp := between_pos (times := times) (t := n) hf hi0
  have ha : 0 ≤ ((times : ℝ) - n) / (times - 1) := div_nonneg (by linarith) hT1.le
  have hb : 0 ≤ ((n : ℝ) - 1) / (times - 1) := div_nonneg (by linarith) hT1.le
  have hsum : ((times : ℝ) - n) / (times - 1) + ((n : ℝ) - 1) / (times - 1) = 1 := by field_simp; ring
  refine ⟨?_, ?_, ?_⟩
  · rw [← Real.log_le_log_iff hf hp, log_between hf hi0]
    have e : ((n : ℝ) - 1) / (times - 1) = 1 - ((times : ℝ) - n) / (times - 1) := by linarith
    rw [e]
    linarith [mul_le_mul_of_nonneg_left hL ha]
  · rw [← Real.log_le_log_iff hp hi0, log_between hf hi0]
    have e : ((times : ℝ) - n) / (times - 1) = 1 - ((n : ℝ) - 1) / (times - 1) := by linarith
    rw [e]
    linarith [mul_le_mul_of_nonneg_left hL hb]
  · rw [← Real.log_le_log_iff (between_pos hf hi0) hp, log_between hf hi0, log_between hf hi0]
    push_cast
    have e1 : ((times : ℝ) - (n + 1)) / (times - 1) = ((times : ℝ) - n) / (times - 1) - 1 / (times - 1) := by ring
    have e2 : ((n : ℝ) + 1 - 1) / (times - 1) = ((n : ℝ) - 1) / (times - 1) + 1 / (times - 1) := by ring
    have hu : 0 ≤ 1 / ((times : ℝ) - 1) := by positivity
    rw [e1, e2]
    nlinarith [mul_le_mul_of_nonneg_left hL hu]

/-- With at least two steps, exponential decay keeps the rate between `final` and `init`, never increases it, and has
it equal to `final` from step `times` on. Missing for the full claim: `times ≤ 1` (`exponential_violated`). -/
theorem exponential_partial {init final : ℝ} (hf : 0 < final) (hi : final ≤ init) {times : Nat} (ht : 2 ≤ times)
    (n : Nat) :
    final ≤ rates (Exponential.decay ⟨init, final, times⟩) init n ∧
    rates (Exponential.decay ⟨init, final, times⟩) init n ≤ init ∧
    rates (Exponential.decay ⟨init, final, times⟩) init (n + 1) ≤
      rates (Exponential.decay ⟨init, final, times⟩) init n ∧
    (times ≤ n → rates (Exponential.decay ⟨init, final, times⟩) init n = final) := by
  obtain ⟨h0, h1, h2⟩ := exponential_rates hf hi ht n
  obtain ⟨-, h1', h2'⟩ := exponential_rates hf hi ht (n + 1)
  have hT1 : (0:ℝ) < times - 1 := by have : (2:ℝ) ≤ times := by exact_mod_cast ht
                                     linarith
  have hone : between init final times 1 = init := by
    simp only [between, Nat.cast_one, sub_self, zero_div, Real.rpow_zero, mul_one, div_self hT1.ne', Real.rpow_one]
  rcases Nat.eq_zero_or_pos n with hn | hn
  · subst hn
    rw [h0 rfl, h1' le_rfl (by omega), hone]
    exact ⟨hi, le_rfl, le_rfl, fun h => by omega⟩
  · rcases Nat.lt_or_ge n times with hlt | hge
    · obtain ⟨m1, m2, m3⟩ := between_mono hf hi ht hn hlt.le
      rw [h1 hn hlt.le, h1' (by omega) (by omega)]
      exact ⟨m1, m2, m3, fun h => by omega⟩
    · rw [h2 hge, h2' (by omega)]
      exact ⟨le_rfl, hi, le_rfl, fun _ => rfl⟩

/-- Violation: configured for one step, the rate drops to 0 at the second call; configured for none, it grows above
`init` there. -/
theorem exponential_violated {init final : ℝ} (hf : 0 < final) (hi : final < init) :
    rates (Exponential.decay ⟨init, final, 1⟩) init 2 = 0 ∧
    init < rates (Exponential.decay ⟨init, final, 0⟩) init 2 := by
  have hi0 : 0 < init := hf.trans hi
  have h1 : ∀ k : Int, rates (Exponential.decay ⟨init, final, k⟩) init 1 = init := by
    intro k; simp [rates, Exponential.decay]
  constructor
  · rw [rates, h1, Exponential.decay, if_pos ⟨by norm_num, hi⟩, if_pos (by norm_num)]
  · rw [rates, h1, Exponential.decay, if_pos ⟨by norm_num, hi⟩, if_neg (by norm_num)]
    have hL : Real.log final < Real.log init := Real.log_lt_log hf hi
    conv_lhs => rw [← Real.exp_log hi0]
    apply Real.exp_lt_exp.mpr
    push_cast
    norm_num
    linarith

/-- A rate which is even slightly above `final` when the configured steps are over (as the rounding of `exp (log
final)` can leave it) becomes 0 at the next call. -/
theorem exponential_past_end (d : Exponential) (lr : ℝ) (h : lr > d.final) (ht : 1 ≤ d.times) :
    d.decay lr (d.times + 1) = 0 := by
  rw [Exponential.decay, if_pos ⟨by omega, h⟩, if_pos (by omega)]

/-- Later calls increase a rate above `final`. -/
theorem exponential_grows (d : Exponential) (hf : 0 < d.final) (lr : ℝ) (h : lr > d.final) (t : Int) (ht1 : 1 < t)
    (ht : d.times + 1 < t) : lr < d.decay lr t := by
  have hl : 0 < lr := hf.trans h
  have hL : Real.log d.final < Real.log lr := Real.log_lt_log hf h
  rw [Exponential.decay, if_pos ⟨ht1, h⟩, if_neg (by omega)]
  conv_lhs => rw [← Real.exp_log hl]
  apply Real.exp_lt_exp.mpr
  have hneg : ((d.times - t + 1 : Int) : ℝ) < 0 := by exact_mod_cast (by omega : d.times - t + 1 < 0)
  rw [lt_div_iff_of_neg hneg]
  push_cast
  linarith

/-! ## Hyperbolic -/

/-- Hyperbolic decay never increases the rate and keeps it positive and at most `init`. -/
theorem hyperbolic_partial {init final rate : ℝ} (hi : 0 < init) (n : Nat) :
    0 < rates (Hyperbolic.decay ⟨init, final, rate⟩) init n ∧
    rates (Hyperbolic.decay ⟨init, final, rate⟩) init n ≤ init ∧
    rates (Hyperbolic.decay ⟨init, final, rate⟩) init (n + 1) ≤
      rates (Hyperbolic.decay ⟨init, final, rate⟩) init n := by
  -- every rate is `init` or `init / (1 + rate * k)` with `k ≤ n`
  have key : ∀ n, ∃ k : Nat, k ≤ n ∧ (0 < rate ∨ k = 0) ∧
      rates (Hyperbolic.decay ⟨init, final, rate⟩) init n = init / (1 + rate * k) := by
    intro n
    induction n with
    | zero => exact ⟨0, le_rfl, Or.inr rfl, by simp [rates]⟩
    | succ n ih =>
      obtain ⟨k, hk, hr0, hr⟩ := ih
      by_cases hc : ((n + 1 : Nat) : Int) > 1 ∧ rate > 0 ∧
          rates (Hyperbolic.decay ⟨init, final, rate⟩) init n > final
      · exact ⟨n + 1, le_rfl, Or.inl hc.2.1, by rw [rates, Hyperbolic.decay, if_pos hc]; push_cast; rfl⟩
      · exact ⟨k, by omega, hr0, by rw [rates, Hyperbolic.decay, if_neg hc]; exact hr⟩
  obtain ⟨k, hk, hr0, hr⟩ := key n
  have hden : 1 ≤ 1 + rate * k := by
    rcases hr0 with h | h
    · have : 0 ≤ rate * k := by positivity
      linarith
    · subst h; simp
  refine ⟨by rw [hr]; positivity, by rw [hr]; exact div_le_self hi.le hden, ?_⟩
  by_cases hc : ((n + 1 : Nat) : Int) > 1 ∧ rate > 0 ∧
      rates (Hyperbolic.decay ⟨init, final, rate⟩) init n > final
  · rw [rates, Hyperbolic.decay, if_pos hc, hr]
    push_cast
    have hkR : (k : ℝ) ≤ n + 1 := by exact_mod_cast (by omega : k ≤ n + 1)
    have : rate * k ≤ rate * (n + 1) := mul_le_mul_of_nonneg_left hkR hc.2.1.le
    exact div_le_div_of_nonneg_left hi.le (by linarith) (by linarith)
  · rw [rates, Hyperbolic.decay, if_neg hc]

/-- The rates as long as they stay above `final`. -/
theorem hyperbolic_rates {init final rate : ℝ} (hr : 0 < rate) (n : Nat) (hn : 2 ≤ n)
    (h : ∀ k < n, final < rates (Hyperbolic.decay ⟨init, final, rate⟩) init k) :
    rates (Hyperbolic.decay ⟨init, final, rate⟩) init n = init / (1 + rate * n) := by
  obtain ⟨m, rfl⟩ : ∃ m, n = m + 1 := ⟨n - 1, by omega⟩
  have hc : ((m + 1 : Nat) : Int) > 1 ∧ rate > 0 ∧ rates (Hyperbolic.decay ⟨init, final, rate⟩) init m > final :=
    ⟨by omega, hr, h m (by omega)⟩
  rw [rates, Hyperbolic.decay, if_pos hc]
  push_cast
  rfl

/-- Violation: for every positive rate, and `0 < final < init`, the rate falls below `final`, unless some
`init / (1 + rate * n)` happens to be exactly `final`. -/
theorem hyperbolic_violated {init final rate : ℝ} (hf : 0 < final) (hi : final < init) (hr : 0 < rate)
    (hne : ∀ n : Nat, 2 ≤ n → init / (1 + rate * n) ≠ final) :
    ∃ n, rates (Hyperbolic.decay ⟨init, final, rate⟩) init n < final := by
  by_contra hcon
  push Not at hcon
  have h1 : rates (Hyperbolic.decay ⟨init, final, rate⟩) init 1 = init := by simp [rates, Hyperbolic.decay]
  have hgt : ∀ n, final < rates (Hyperbolic.decay ⟨init, final, rate⟩) init n := by
    intro n
    induction n using Nat.strong_induction_on with
    | _ n ih =>
      rcases Nat.lt_or_ge n 2 with h2 | h2
      · interval_cases n
        · exact hi
        · rw [h1]; exact hi
      · have hv := hyperbolic_rates hr n h2 ih
        exact lt_of_le_of_ne (hcon n) (fun e => hne n h2 (by rw [← hv, ← e]))
  obtain ⟨N, hN⟩ := exists_nat_gt ((init / final - 1) / rate)
  have h3 := hgt (N + 2)
  rw [hyperbolic_rates hr (N + 2) (by omega) fun k _ => hgt k] at h3
  have hpos : 0 < 1 + rate * ((N + 2 : Nat) : ℝ) := by positivity
  rw [lt_div_iff₀ hpos] at h3
  rw [div_lt_iff₀ hr, sub_lt_iff_lt_add, div_lt_iff₀ hf] at hN
  push_cast at h3
  nlinarith [mul_pos hf hr]

/-! ## Examples -/

/-- Three steps from 4 to 1: the rates are 4, 2, 1. -/
example : between 4 1 3 1 = 4 ∧ between 4 1 3 2 = 2 ∧ between 4 1 3 3 = 1 := by
  have h4 : (4:ℝ) ^ (1 / 2 : ℝ) = 2 := by
    rw [show (4:ℝ) = 2 ^ (2:ℝ) by norm_num, ← Real.rpow_mul (by norm_num)]; norm_num
  refine ⟨by norm_num [between], ?_, by norm_num [between]⟩
  have e : between 4 1 3 2 = (4:ℝ) ^ (1 / 2 : ℝ) * 1 ^ (1 / 2 : ℝ) := by norm_num [between]
  rw [e, h4, Real.one_rpow, mul_one]

/-- Hyperbolic decay from 1 with final rate 0.9 and rate 1: the second call yields 1/3. -/
example : rates (Hyperbolic.decay ⟨1, 0.9, 1⟩) 1 2 = 1 / 3 := by
  have h1 : rates (Hyperbolic.decay ⟨1, 0.9, 1⟩) 1 1 = 1 := by simp [rates, Hyperbolic.decay]
  rw [rates, h1, Hyperbolic.decay, if_pos ⟨by norm_num, by norm_num, by norm_num⟩]
  norm_num

end Verif.Decay
