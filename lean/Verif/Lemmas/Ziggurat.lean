import Mathlib.MeasureTheory.Measure.Lebesgue.Basic
import Mathlib.Analysis.SpecialFunctions.Exp
import Mathlib.Analysis.Complex.Exponential
import Mathlib.Analysis.Complex.ExponentialBounds

/-!
# The ziggurat method in general

A decreasing function covered by strips of (nearly) equal area, and rational bounds of the exponential.
-/

set_option autoImplicit false
set_option linter.unusedSimpArgs false

namespace Verif.Zig

open MeasureTheory

/-- The part of the strip between the heights `b < a` which lies below `p`. -/
noncomputable def part (a b p : ℝ) : ℝ := max 0 (min 1 ((p - b) / (a - b)))

/-- The probability that a uniform height between `b` and `a` is below `p`. -/
theorem volume_below {a b : ℝ} (h : b < a) (p : ℝ) :
    (volume {u : ℝ | 0 ≤ u ∧ u < 1 ∧ b + u * (a - b) < p}).toReal = part a b p := by
  have hd : 0 < a - b := sub_pos.mpr h
  have : {u : ℝ | 0 ≤ u ∧ u < 1 ∧ b + u * (a - b) < p} = Set.Ico 0 (min 1 ((p - b) / (a - b))) := by
    ext u
    simp only [Set.mem_setOf_eq, Set.mem_Ico, lt_min_iff, lt_div_iff₀ hd]
    constructor
    · rintro ⟨h1, h2, h3⟩; exact ⟨h1, h2, by linarith⟩
    · rintro ⟨h1, h2, h3⟩; exact ⟨h1, h2, by linarith⟩
  rw [this, Real.volume_Ico, sub_zero, ENNReal.toReal_ofReal', part, max_comm]

theorem part_mono {a b : ℝ} (h : b < a) {p q : ℝ} (hpq : p ≤ q) : part a b p ≤ part a b q := by
  have hd : 0 < a - b := sub_pos.mpr h
  unfold part
  exact max_le_max le_rfl (min_le_min le_rfl (by gcongr))

theorem part_nonneg (a b p : ℝ) : 0 ≤ part a b p := le_max_left _ _

theorem part_le_one (a b p : ℝ) : part a b p ≤ 1 := max_le zero_le_one (min_le_left _ _)

theorem part_zero {a b p : ℝ} (h : b < a) (hp : p ≤ b) : part a b p = 0 := by
  have : (p - b) / (a - b) ≤ 0 := div_nonpos_of_nonpos_of_nonneg (by linarith) (by linarith)
  exact max_eq_left ((min_le_right _ _).trans this)

theorem part_one {a b p : ℝ} (h : b < a) (hp : a ≤ p) : part a b p = 1 := by
  have : 1 ≤ (p - b) / (a - b) := by rw [one_le_div (by linarith)]; linarith
  rw [part, min_eq_left this]; exact max_eq_right zero_le_one

theorem part_mid {a b p : ℝ} (h : b < a) (h1 : b ≤ p) (h2 : p ≤ a) : (a - b) * part a b p = p - b := by
  have hd : 0 < a - b := by linarith
  have : (p - b) / (a - b) ≤ 1 := by rw [div_le_one hd]; linarith
  rw [part, min_eq_right this, max_eq_right (div_nonneg (by linarith) hd.le)]
  field_simp

/-- The parts of the strips add up to the height. -/
theorem sum_part (f : Nat → ℝ) (p : ℝ) : ∀ n, (∀ i < n, f (i + 1) < f i) →
    ∑ i ∈ Finset.range n, (f i - f (i + 1)) * part (f i) (f (i + 1)) p = max (f n) (min (f 0) p) - f n ∧ f n ≤ f 0
  | 0, _ => by simp
  | n + 1, h => by
    obtain ⟨ih, h0⟩ := sum_part f p n fun i hi => h i (by omega)
    have hn := h n (by omega)
    refine ⟨?_, by linarith⟩
    rw [Finset.sum_range_succ, ih]
    rcases le_total p (f (n + 1)) with h1 | h1
    · rw [part_zero hn h1, min_eq_right (by linarith), max_eq_left h1, max_eq_left (by linarith)]; ring
    · rcases le_total p (f n) with h2 | h2
      · rw [part_mid hn h1 h2, min_eq_right (by linarith), max_eq_left h2, max_eq_right h1]; ring
      · rw [part_one hn h2, max_eq_right (le_min h0 h2), max_eq_right (by exact le_min (by linarith) h1)]; ring

theorem sum_part_ge {f : Nat → ℝ} {p : ℝ} {n : Nat} (h : ∀ i < n, f (i + 1) < f i) (hp : p ≤ f 0) :
    p - f n ≤ ∑ i ∈ Finset.range n, (f i - f (i + 1)) * part (f i) (f (i + 1)) p := by
  rw [(sum_part f p n h).1, min_eq_right hp]
  linarith [le_max_right (f n) p]

theorem sum_part_le {f : Nat → ℝ} {p : ℝ} {n : Nat} (h : ∀ i < n, f (i + 1) < f i) (hp : f n ≤ p) :
    ∑ i ∈ Finset.range n, (f i - f (i + 1)) * part (f i) (f (i + 1)) p ≤ p - f n := by
  rw [(sum_part f p n h).1]
  have := max_le hp (min_le_right (f 0) p)
  linarith

/-- Strips which nearly cover a decreasing function `φ`: `f i` is the height of the top of strip `i + 1`, `X i` the
width of strip `i` and `K i` the part of it which is below `φ`; strip 0 is the base (of height `f n`). `v` is the common
area. -/
structure Cover (n : Nat) (X K f : Nat → ℝ) (φ : ℝ → ℝ) (v ε η : ℝ) : Prop where
  anti : ∀ x y, 0 ≤ x → x ≤ y → φ y ≤ φ x
  desc : ∀ i < n, f (i + 1) < f i
  Kpos : ∀ i ≤ n, 0 ≤ K i
  Xpos : ∀ i ≤ n, 0 < X i
  inner : ∀ i < n, f i ≤ φ (K (i + 1)) * (1 + η)
  outer : ∀ i < n, φ (X (i + 1)) * (1 - η) ≤ f (i + 1)
  area : ∀ i < n, (1 - ε) * (f i - f (i + 1)) ≤ v / X (i + 1) ∧ v / X (i + 1) ≤ (1 + ε) * (f i - f (i + 1))
  base : (1 - ε) * f n ≤ v / X 0 ∧ v / X 0 ≤ (1 + ε) * f n
  last : f n ≤ φ (K 0) * (1 + η)
  top : ∀ x, 0 ≤ x → φ x * (1 - η) ≤ f 0
  eps : 0 ≤ ε ∧ ε ≤ 1
  eta : 0 ≤ η ∧ η ≤ 1
  phi : ∀ x, 0 ≤ φ x
  KX : K 0 ≤ X 0

/-- The probability that a point at distance `x` in strip `i` is returned. -/
noncomputable def acc (X K f : Nat → ℝ) (φ : ℝ → ℝ) (i : Nat) (x : ℝ) : ℝ :=
  if X i ≤ x then 0 else if x < K i then 1
  else if i = 0 then 0 else part (f (i - 1)) (f i) (φ x)

theorem acc_bounds {n : Nat} {X K f : Nat → ℝ} {φ : ℝ → ℝ} {v ε η : ℝ} (c : Cover n X K f φ v ε η) {i : Nat} (hi : i < n)
    {x : ℝ} (hx : 0 ≤ x) :
    part (f i) (f (i + 1)) (φ x * (1 - η)) ≤ acc X K f φ (i + 1) x ∧
      acc X K f φ (i + 1) x ≤ part (f i) (f (i + 1)) (φ x * (1 + η)) := by
  have hd := c.desc i hi
  have hη := c.eta
  have hφ := c.phi x
  unfold acc
  split_ifs with h1 h2 h3
  · refine ⟨?_, part_nonneg _ _ _⟩
    have := c.anti _ _ (c.Xpos (i + 1) hi).le h1
    have h4 := mul_le_mul_of_nonneg_right this (show 0 ≤ 1 - η by linarith)
    rw [part_zero hd (h4.trans (c.outer i hi))]
  · refine ⟨part_le_one _ _ _, ?_⟩
    have := c.anti _ _ hx h2.le
    have h4 := mul_le_mul_of_nonneg_right this (show 0 ≤ 1 + η by linarith)
    rw [part_one hd ((c.inner i hi).trans h4)]
  · exact h3.elim
  · rw [Nat.add_sub_cancel]
    exact ⟨part_mono hd (by nlinarith), part_mono hd (by nlinarith)⟩

/-- The density of the accepted points is `φ`, up to the factor `v` and the tolerances. -/
theorem density {n : Nat} {X K f : Nat → ℝ} {φ : ℝ → ℝ} {v ε η : ℝ} (c : Cover n X K f φ v ε η) {x : ℝ} (hx : 0 ≤ x)
    (hK : x < K 0) :
    (1 - ε) * (1 - η) * φ x ≤ ∑ i ∈ Finset.range (n + 1), v / X i * acc X K f φ i x ∧
      ∑ i ∈ Finset.range (n + 1), v / X i * acc X K f φ i x ≤ (1 + ε) * (1 + η) * φ x := by
  have hb : acc X K f φ 0 x = 1 := by
    have := c.KX
    rw [acc, if_neg (by linarith), if_pos hK]
  have he := c.eps
  have hη := c.eta
  have hφ := c.phi x
  rw [Finset.sum_range_succ', hb, mul_one]
  constructor
  · have h1 : (1 - ε) * (φ x * (1 - η) - f n) ≤
        ∑ i ∈ Finset.range n, v / X (i + 1) * acc X K f φ (i + 1) x := by
      refine (mul_le_mul_of_nonneg_left (sum_part_ge c.desc (c.top x hx)) (by linarith)).trans ?_
      rw [Finset.mul_sum]
      refine Finset.sum_le_sum fun i hi => ?_
      have hi := Finset.mem_range.mp hi
      have ha := (c.area i hi).1
      have hd := c.desc i hi
      have hp := part_nonneg (f i) (f (i + 1)) (φ x * (1 - η))
      rw [← mul_assoc]
      exact mul_le_mul ha (acc_bounds c hi hx).1 hp ((mul_nonneg (by linarith) (by linarith)).trans ha)
    have := c.base.1
    nlinarith
  · have h0 : f n ≤ φ x * (1 + η) := by
      have := c.anti _ _ hx hK.le
      have h4 := mul_le_mul_of_nonneg_right this (show 0 ≤ 1 + η by linarith)
      exact c.last.trans h4
    have h1 : ∑ i ∈ Finset.range n, v / X (i + 1) * acc X K f φ (i + 1) x ≤
        (1 + ε) * (φ x * (1 + η) - f n) := by
      refine le_trans ?_ (mul_le_mul_of_nonneg_left (sum_part_le c.desc h0) (by linarith))
      rw [Finset.mul_sum]
      refine Finset.sum_le_sum fun i hi => ?_
      have hi := Finset.mem_range.mp hi
      have ha := (c.area i hi).2
      have hd := c.desc i hi
      rw [← mul_assoc]
      refine mul_le_mul ha (acc_bounds c hi hx).2 ?_ (mul_nonneg (by linarith) (by linarith))
      exact (part_nonneg _ _ _).trans (acc_bounds c hi hx).1
    have := c.base.2
    nlinarith

/-! ## Rational bounds of the exponential -/

/-- The first twelve terms of the series of the exponential. -/
def taylor (y : ℚ) : ℚ := (List.range 12).foldr (fun m r => 1 + y / (m + 1 : Nat) * r) 1

theorem taylor_eq (y : ℚ) : (taylor y : ℝ) = ∑ m ∈ Finset.range 13, (y : ℝ) ^ m / m.factorial := by
  simp only [taylor, List.range, List.range.loop, List.foldr, Finset.sum_range_succ, Finset.sum_range_zero, Nat.factorial]
  push_cast
  ring

/-- A lower bound. -/
def expLo (t : ℚ) : ℚ := taylor (t / 8) ^ 8

theorem expLo_le {t : ℚ} (h : 0 ≤ t) : (expLo t : ℝ) ≤ Real.exp t := by
  have h8 : (0 : ℝ) ≤ (t / 8 : ℚ) := by exact_mod_cast (by positivity : (0 : ℚ) ≤ t / 8)
  have h1 := Real.sum_le_exp_of_nonneg h8 13
  rw [← taylor_eq] at h1
  rw [show Real.exp t = Real.exp ((t / 8 : ℚ) : ℝ) ^ 8 by rw [← Real.exp_nat_mul]; push_cast; ring_nf]
  unfold expLo
  push_cast at h1 ⊢
  refine pow_le_pow_left₀ ?_ h1 8
  have := taylor_eq (t / 8)
  push_cast at this
  rw [this]
  refine Finset.sum_nonneg fun i _ => by push_cast at h8; positivity

/-- An upper bound, for `t ≤ 8`. -/
def expHi (t : ℚ) : ℚ := (taylor (t / 8) + (t / 8) ^ 13 / 5782233600) ^ 8

theorem le_expHi {t : ℚ} (h : 0 ≤ t) (h8 : t ≤ 8) : Real.exp t ≤ expHi t := by
  have h0 : (0 : ℝ) ≤ (t / 8 : ℚ) := by exact_mod_cast (by positivity : (0 : ℚ) ≤ t / 8)
  have h1 : ((t / 8 : ℚ) : ℝ) ≤ 1 := by
    exact_mod_cast (show t / 8 ≤ 1 by rw [div_le_one (by norm_num)]; exact h8)
  have h2 := Real.exp_bound' h0 h1 (n := 13) (by norm_num)
  rw [← taylor_eq] at h2
  rw [show Real.exp t = Real.exp ((t / 8 : ℚ) : ℝ) ^ 8 by rw [← Real.exp_nat_mul]; push_cast; ring_nf]
  unfold expHi
  push_cast at h2 h0 h1 ⊢
  refine pow_le_pow_left₀ (Real.exp_pos _).le (h2.trans ?_) 8
  refine add_le_add le_rfl ?_
  rw [div_le_div_iff₀ (by positivity) (by norm_num)]
  have : (0:ℝ) ≤ ((t:ℝ)/8)^13 := by positivity
  norm_num [Nat.factorial]
  nlinarith

end Verif.Zig
