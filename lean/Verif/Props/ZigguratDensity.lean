import Verif.Props.Ziggurat
import Mathlib.MeasureTheory.Integral.IntegralEqImproper
import Mathlib.Analysis.SpecialFunctions.ImproperIntegrals

/-!
# C73: the distribution of NormFloat64 and ExpFloat64

With uniformly distributed words, the density with which one round returns `x` is proportional to the normal
(exponential) density, up to a relative error of 5e-5: the tables of the code fit each other and the functions. Here the
position within a strip and the fractions of `Float64` are uniform real numbers; `strip_words` shows that the words which
choose a strip are equally spaced over it.
-/

set_option autoImplicit false
set_option linter.unusedSimpArgs false

namespace Verif.Rand

open MeasureTheory Verif.Zig

/-- **C73.** Every strip is chosen by 2^25 of the 2^32 values of the upper half, equally spaced over the range of
`int32`. -/
theorem strip_words {i : Nat} (hi : i < 128) (j : Int) :
    (-2 ^ 31 ≤ j ∧ j < 2 ^ 31 ∧ (j % 128).toNat = i) ↔ ∃ m : Int, -2 ^ 24 ≤ m ∧ m < 2 ^ 24 ∧ j = 128 * m + i := by
  constructor
  · rintro ⟨h1, h2, h3⟩
    exact ⟨j / 128, by omega, by omega, by omega⟩
  · rintro ⟨m, h1, h2, rfl⟩
    omega

/-- **C73.** The same for `ExpFloat64`: 2^24 values, equally spaced. -/
theorem strip_words_exp {i : Nat} (hi : i < 256) (j : Nat) :
    (j < 2 ^ 32 ∧ j % 256 = i) ↔ ∃ m < 2 ^ 24, j = 256 * m + i := by
  constructor
  · rintro ⟨h1, h2⟩
    exact ⟨j / 256, by omega, by omega⟩
  · rintro ⟨m, h1, rfl⟩
    omega

/-! ## The strips -/

open Classical in
/-- The probability that the point `x` of strip `i` is returned by `NormFloat64`; the strip reaches to
`2^31 wn[i]` on both sides. -/
noncomputable def normAcc (T : Tables) (i : Nat) (x : ℝ) : ℝ :=
  if 2 ^ 31 * T.w i ≤ |x| then 0
  else if |x| < (knTab.getD i 0 : Nat) * T.w i then 1
  else if i = 0 then 0
  else (volume {u : ℝ | 0 ≤ u ∧ u < 1 ∧ normSlow T i x u}).toReal

open Classical in
/-- The probability that the point `x` of strip `i` is returned by `ExpFloat64`. -/
noncomputable def expAcc (T : Tables) (i : Nat) (x : ℝ) : ℝ :=
  if 2 ^ 32 * T.w i ≤ x then 0
  else if x < (keTab.getD i 0 : Nat) * T.w i then 1
  else if i = 0 then 0
  else (volume {u : ℝ | 0 ≤ u ∧ u < 1 ∧ expSlow T i x u}).toReal

/-- The quick test of the code is the second condition of `normAcc`. -/
theorem quick_iff {T : Tables} {i : Nat} (h : 0 < T.w i) (j : Int) (k : Nat) :
    |(j : ℝ) * T.w i| < k * T.w i ↔ j.natAbs < k := by
  rw [abs_mul, abs_of_pos h, mul_lt_mul_iff_left₀ h, abs_int]
  exact Nat.cast_lt

theorem expoN : Expo (fun x => x * x / 2) (fun x => x * x / 2) where
  cast q := by push_cast; ring
  mono x y h0 h := by
    have := mul_le_mul h h h0 (h0.trans h)
    linarith
  nonneg q _ := by positivity
  real x _ := by positivity

theorem expoE : Expo (fun x => x) (fun x => x) where
  cast q := rfl
  mono x y h0 h := h
  nonneg q h := h
  real x h := h

theorem coverN {T : Tables} (hT : NormTables T) : Cover 127 (fun i => 2 ^ 31 * T.w i)
    (fun i => (knTab.getD i 0 : Nat) * T.w i) T.f (fun x => Real.exp (-(x * x / 2))) vn (3 / 10 ^ 5) (2 / 10 ^ 6) := by
  have := cover_of_check expoN checkNorm (by norm_num) (by norm_num) (by norm_num)
    (fun i hi => (hT i (by omega)).1) (fun i hi => (hT i (by omega)).2)
  simp only [Zig.kn] at this
  push_cast at this
  exact this

theorem coverE {T : Tables} (hT : ExpTables T) : Cover 255 (fun i => 2 ^ 32 * T.w i)
    (fun i => (keTab.getD i 0 : Nat) * T.w i) T.f (fun x => Real.exp (-x)) ve (3 / 10 ^ 5) (2 / 10 ^ 6) := by
  have := cover_of_check expoE checkExp (by norm_num) (by norm_num) (by norm_num)
    (fun i hi => (hT i (by omega)).1) (fun i hi => (hT i (by omega)).2)
  simp only [Zig.ke] at this
  push_cast at this
  exact this

theorem normAcc_eq {T : Tables} (hT : NormTables T) {i : Nat} (hi : i < 128) (x : ℝ) :
    normAcc T i x = acc (fun i => 2 ^ 31 * T.w i) (fun i => (knTab.getD i 0 : Nat) * T.w i) T.f
      (fun x => Real.exp (-(x * x / 2))) i |x| := by
  unfold normAcc acc
  split_ifs with h1 h2 h3
  · rfl
  · rfl
  · rfl
  · have hd := (coverN hT).desc (i - 1) (by omega)
    rw [Nat.sub_add_cancel (by omega)] at hd
    rw [← volume_below hd]
    beta_reduce
    rw [abs_mul_abs_self]
    unfold normSlow
    rw [show -(1 / 2) * x * x = -(x * x / 2) by ring]

theorem expAcc_eq {T : Tables} (hT : ExpTables T) {i : Nat} (hi : i < 256) (x : ℝ) :
    expAcc T i x = acc (fun i => 2 ^ 32 * T.w i) (fun i => (keTab.getD i 0 : Nat) * T.w i) T.f
      (fun x => Real.exp (-x)) i x := by
  unfold expAcc acc
  split_ifs with h1 h2 h3
  · rfl
  · rfl
  · rfl
  · have hd := (coverE hT).desc (i - 1) (by omega)
    rw [Nat.sub_add_cancel (by omega)] at hd
    rw [← volume_below hd]
    rfl

/-! ## The tails -/

/-- The probability that the tail loop keeps the number `y`. -/
noncomputable def tailAcc (y : ℝ) : ℝ :=
  (volume {b : ℝ | 0 < b ∧ b < 1 ∧ tailAccept (some y) (negLog b) = true}).toReal

theorem tailAcc_eq {y : ℝ} (hy : 0 < y) : tailAcc y = Real.exp (-(y * y / 2)) := by
  have : {b : ℝ | 0 < b ∧ b < 1 ∧ tailAccept (some y) (negLog b) = true} = Set.Ioc 0 (Real.exp (-(y * y / 2))) := by
    ext b
    simp only [Set.mem_setOf_eq, Set.mem_Ioc]
    constructor
    · rintro ⟨h0, h1, h2⟩
      refine ⟨h0, ?_⟩
      rw [negLog, if_neg h0.ne'] at h2
      simp only [tailAccept, decide_eq_true_eq] at h2
      rw [← Real.log_le_iff_le_exp h0]
      linarith
    · rintro ⟨h0, h1⟩
      have h3 : Real.exp (-(y * y / 2)) < 1 := by
        rw [Real.exp_lt_one_iff]
        have := mul_pos hy hy
        linarith
      refine ⟨h0, h1.trans_lt h3, ?_⟩
      rw [negLog, if_neg h0.ne']
      simp only [tailAccept, decide_eq_true_eq]
      rw [← Real.log_le_iff_le_exp h0] at h1
      linarith
  rw [tailAcc, this, Real.volume_Ioc, sub_zero, ENNReal.toReal_ofReal (Real.exp_pos _).le]

/-- **C73.** The numbers proposed by the tail loop of `NormFloat64` are exponentially distributed with rate `rn`, and
those of `ExpFloat64` with rate 1. -/
theorem tail_proposals {y : ℝ} (hy : 0 ≤ y) :
    (volume {a : ℝ | 0 < a ∧ a < 1 ∧ ∃ x, (negLog a).map (· * (1 / rn)) = some x ∧ x < y}).toReal =
        1 - Real.exp (-(rn * y)) ∧
      (volume {a : ℝ | 0 < a ∧ a < 1 ∧ ∃ x, (negLog a).map (re + ·) = some x ∧ x < re + y}).toReal =
        1 - Real.exp (-y) := by
  have key : ∀ z : ℝ, 0 ≤ z → (volume {a : ℝ | 0 < a ∧ a < 1 ∧ -Real.log a < z}).toReal = 1 - Real.exp (-z) := by
    intro z hz
    have : {a : ℝ | 0 < a ∧ a < 1 ∧ -Real.log a < z} = Set.Ioo (Real.exp (-z)) 1 := by
      ext a
      simp only [Set.mem_setOf_eq, Set.mem_Ioo]
      constructor
      · rintro ⟨h0, h1, h2⟩
        exact ⟨(Real.lt_log_iff_exp_lt h0).mp (by linarith), h1⟩
      · rintro ⟨h1, h2⟩
        have h0 : 0 < a := (Real.exp_pos _).trans h1
        have := (Real.lt_log_iff_exp_lt h0).mpr h1
        exact ⟨h0, h2, by linarith⟩
    have hle : Real.exp (-z) ≤ 1 := Real.exp_le_one_iff.mpr (by linarith)
    rw [this, Real.volume_Ioo, ENNReal.toReal_ofReal (by linarith)]
  have h0 := rn_pos
  constructor
  · rw [← key (rn * y) (by positivity)]
    congr 2
    ext a
    simp only [Set.mem_setOf_eq, and_congr_right_iff]
    intro h1 h2
    rw [negLog, if_neg h1.ne']
    simp only [Option.map_some, Option.some.injEq, exists_eq_left', mul_one_div, div_lt_iff₀ h0]
    rw [mul_comm]
  · rw [← key y hy]
    congr 2
    ext a
    simp only [Set.mem_setOf_eq, and_congr_right_iff]
    intro h1 h2
    rw [negLog, if_neg h1.ne']
    simp only [Option.map_some, Option.some.injEq, exists_eq_left', add_lt_add_iff_left]

/-! ### The mass of the tail of the normal distribution -/

/-- What the tail loop integrates: the normal density beyond `rn`, relative to its value there. -/
noncomputable def tailF (y : ℝ) : ℝ := Real.exp (-(rn * y + y * y / 2))

/-- Numerators and denominators of two convergents of the continued fraction for the tail. -/
def P6 (x : ℝ) : ℝ := x ^ 5 + 14 * x ^ 3 + 33 * x
def Q6 (x : ℝ) : ℝ := x ^ 6 + 15 * x ^ 4 + 45 * x ^ 2 + 15
def P7 (x : ℝ) : ℝ := x ^ 6 + 20 * x ^ 4 + 87 * x ^ 2 + 48
def Q7 (x : ℝ) : ℝ := x ^ 7 + 21 * x ^ 5 + 105 * x ^ 3 + 105 * x

theorem tailF_deriv (y : ℝ) : HasDerivAt tailF (-(rn + y) * tailF y) y := by
  have h1 : HasDerivAt (fun y : ℝ => -(rn * y + y * y / 2)) (-(rn + y)) y := by
    have := (((hasDerivAt_id y).const_mul rn).add (((hasDerivAt_id y).mul (hasDerivAt_id y)).div_const 2)).neg
    exact this.congr_deriv (by simp only [id]; ring)
  have := h1.exp
  rw [mul_comm] at this
  exact this

theorem shift_deriv {p : ℝ → ℝ} {p' y : ℝ} (h : HasDerivAt p p' (rn + y)) : HasDerivAt (fun y => p (rn + y)) p' y := by
  have := HasDerivAt.comp y h ((hasDerivAt_id y).const_add rn)
  exact this.congr_deriv (mul_one _)

theorem P6_deriv (x : ℝ) : HasDerivAt P6 (5 * x ^ 4 + 42 * x ^ 2 + 33) x := by
  have := (((hasDerivAt_pow 5 x).add ((hasDerivAt_pow 3 x).const_mul 14)).add ((hasDerivAt_id x).const_mul 33))
  exact this.congr_deriv (by push_cast; ring)
theorem Q6_deriv (x : ℝ) : HasDerivAt Q6 (6 * x ^ 5 + 60 * x ^ 3 + 90 * x) x := by
  have := (((hasDerivAt_pow 6 x).add ((hasDerivAt_pow 4 x).const_mul 15)).add ((hasDerivAt_pow 2 x).const_mul 45)).add_const 15
  exact this.congr_deriv (by push_cast; ring)
theorem P7_deriv (x : ℝ) : HasDerivAt P7 (6 * x ^ 5 + 80 * x ^ 3 + 174 * x) x := by
  have := (((hasDerivAt_pow 6 x).add ((hasDerivAt_pow 4 x).const_mul 20)).add ((hasDerivAt_pow 2 x).const_mul 87)).add_const 48
  exact this.congr_deriv (by push_cast; ring)
theorem Q7_deriv (x : ℝ) : HasDerivAt Q7 (7 * x ^ 6 + 105 * x ^ 4 + 315 * x ^ 2 + 105) x := by
  have := (((hasDerivAt_pow 7 x).add ((hasDerivAt_pow 5 x).const_mul 21)).add ((hasDerivAt_pow 3 x).const_mul 105)).add ((hasDerivAt_id x).const_mul 105)
  exact this.congr_deriv (by push_cast; ring)

theorem Q6_pos {x : ℝ} (h : 0 < x) : 15 ≤ Q6 x := by unfold Q6; have := pow_pos h 6; have := pow_pos h 4; have := pow_pos h 2; linarith
theorem Q7_pos {x : ℝ} (h : 0 < x) : 0 < Q7 x := by unfold Q7; positivity

theorem G6_deriv {y : ℝ} (hy : 0 ≤ y) : HasDerivAt (fun y => tailF y * (P6 (rn + y) / Q6 (rn + y)))
    (-(tailF y * (1 - 720 / Q6 (rn + y) ^ 2))) y := by
  have h0 : 0 < rn + y := by have := rn_pos; linarith
  have hq : Q6 (rn + y) ≠ 0 := by have := Q6_pos h0; linarith
  have := (tailF_deriv y).mul ((shift_deriv (P6_deriv (rn + y))).div (shift_deriv (Q6_deriv (rn + y))) hq)
  refine this.congr_deriv ?_
  clear this
  rw [Pi.div_apply]
  generalize tailF y = t
  generalize rn + y = x at *
  field_simp
  simp only [P6, Q6]
  ring

theorem G7_deriv {y : ℝ} (hy : 0 ≤ y) : HasDerivAt (fun y => tailF y * (P7 (rn + y) / Q7 (rn + y)))
    (-(tailF y * (1 + 5040 / Q7 (rn + y) ^ 2))) y := by
  have h0 : 0 < rn + y := by have := rn_pos; linarith
  have hq : Q7 (rn + y) ≠ 0 := (Q7_pos h0).ne'
  have := (tailF_deriv y).mul ((shift_deriv (P7_deriv (rn + y))).div (shift_deriv (Q7_deriv (rn + y))) hq)
  refine this.congr_deriv ?_
  clear this
  rw [Pi.div_apply]
  generalize tailF y = t
  generalize rn + y = x at *
  field_simp
  simp only [P7, Q7]
  ring

theorem tailF_pos (y : ℝ) : 0 < tailF y := Real.exp_pos _

theorem tailF_le {y : ℝ} (hy : 0 ≤ y) : tailF y ≤ Real.exp (-y) := by
  apply Real.exp_le_exp.mpr
  have h1 : (1 : ℝ) ≤ rn := by norm_num [rn]
  nlinarith [mul_self_nonneg y]

theorem ratio_le {p q : ℝ → ℝ} (hp : ∀ x, 1 ≤ x → 0 ≤ p x ∧ p x ≤ q x ∧ 0 < q x) :
    Filter.Tendsto (fun y => tailF y * (p (rn + y) / q (rn + y))) Filter.atTop (nhds 0) := by
  have h1 : (1 : ℝ) ≤ rn := by norm_num [rn]
  refine tendsto_of_tendsto_of_tendsto_of_le_of_le' tendsto_const_nhds Real.tendsto_exp_neg_atTop_nhds_zero ?_ ?_
  · filter_upwards [Filter.eventually_ge_atTop 0] with y hy
    obtain ⟨a, -, c⟩ := hp (rn + y) (by linarith)
    exact mul_nonneg (tailF_pos y).le (div_nonneg a c.le)
  · filter_upwards [Filter.eventually_ge_atTop 0] with y hy
    obtain ⟨a, b, c⟩ := hp (rn + y) (by linarith)
    calc _ ≤ tailF y * 1 := mul_le_mul_of_nonneg_left ((div_le_one c).mpr b) (tailF_pos y).le
      _ ≤ _ := by rw [mul_one]; exact tailF_le hy

theorem pq6 : ∀ x : ℝ, 1 ≤ x → 0 ≤ P6 x ∧ P6 x ≤ Q6 x ∧ 0 < Q6 x := by
  intro x hx
  have h0 : 0 ≤ x := by linarith
  refine ⟨by unfold P6; positivity, ?_, by unfold Q6; positivity⟩
  have h1 : 0 ≤ x ^ 5 * (x - 1) := mul_nonneg (by positivity) (by linarith)
  have h2 : 0 ≤ x ^ 3 * (x - 1) := mul_nonneg (by positivity) (by linarith)
  have h3 : 0 ≤ x * (x - 1) := mul_nonneg (by positivity) (by linarith)
  have h4 : 0 ≤ x ^ 4 := by positivity
  have h5 : 0 ≤ x ^ 2 := by positivity
  unfold P6 Q6
  nlinarith

theorem pq7 : ∀ x : ℝ, 1 ≤ x → 0 ≤ P7 x ∧ P7 x ≤ Q7 x ∧ 0 < Q7 x := by
  intro x hx
  have h0 : 0 ≤ x := by linarith
  refine ⟨by unfold P7; positivity, ?_, Q7_pos (by linarith)⟩
  have h1 : 0 ≤ x ^ 6 * (x - 1) := mul_nonneg (by positivity) (by linarith)
  have h2 : 0 ≤ x ^ 4 * (x - 1) := mul_nonneg (by positivity) (by linarith)
  have h3 : 0 ≤ x ^ 2 * (x - 1) := mul_nonneg (by positivity) (by linarith)
  have h4 : 0 ≤ x ^ 5 := by positivity
  have h5 : 0 ≤ x ^ 3 := by positivity
  unfold P7 Q7
  nlinarith

theorem six_nonpos {y : ℝ} (hy : y ∈ Set.Ioi (0 : ℝ)) : -(tailF y * (1 - 720 / Q6 (rn + y) ^ 2)) ≤ 0 := by
  have hy : 0 < y := hy
  have h0 : 3 ≤ rn + y := by have : (3 : ℝ) ≤ rn := by norm_num [rn]
                             linarith
  have h1 : 27 ≤ Q6 (rn + y) := by
    generalize rn + y = x at h0
    have a : 0 ≤ x ^ 6 := by positivity
    have b : 0 ≤ x ^ 4 := by positivity
    have c : 9 ≤ x ^ 2 := by nlinarith
    unfold Q6; linarith
  have h2 : 720 / Q6 (rn + y) ^ 2 ≤ 1 := by
    rw [div_le_one (by positivity)]; nlinarith
  have := mul_nonneg (tailF_pos y).le (sub_nonneg.mpr h2)
  linarith

theorem seven_nonpos {y : ℝ} (_ : y ∈ Set.Ioi (0 : ℝ)) : -(tailF y * (1 + 5040 / Q7 (rn + y) ^ 2)) ≤ 0 := by
  have : 0 ≤ tailF y * (1 + 5040 / Q7 (rn + y) ^ 2) := mul_nonneg (tailF_pos y).le (by positivity)
  linarith

theorem tailF_continuous : Continuous tailF := by unfold tailF; fun_prop

theorem seven_integrable : IntegrableOn (fun y => -(tailF y * (1 + 5040 / Q7 (rn + y) ^ 2))) (Set.Ioi 0) :=
  integrableOn_Ioi_deriv_of_nonpos' (fun _ hx => G7_deriv hx) (fun _ hx => seven_nonpos hx) (ratio_le pq7)

theorem six_integrable : IntegrableOn (fun y => -(tailF y * (1 - 720 / Q6 (rn + y) ^ 2))) (Set.Ioi 0) :=
  integrableOn_Ioi_deriv_of_nonpos' (fun _ hx => G6_deriv hx) (fun _ hx => six_nonpos hx) (ratio_le pq6)

theorem tailF_integrable : IntegrableOn tailF (Set.Ioi 0) := by
  refine Integrable.mono' seven_integrable.neg tailF_continuous.aestronglyMeasurable ?_
  refine Filter.Eventually.of_forall fun y => ?_
  rw [Real.norm_of_nonneg (tailF_pos y).le, Pi.neg_apply, neg_neg]
  have : 0 ≤ tailF y * (5040 / Q7 (rn + y) ^ 2) := mul_nonneg (tailF_pos y).le (by positivity)
  linarith

/-- The mass of the tail is between the two convergents. -/
theorem tailF_integral : P6 rn / Q6 rn ≤ ∫ y in Set.Ioi 0, tailF y ∧ ∫ y in Set.Ioi 0, tailF y ≤ P7 rn / Q7 rn := by
  have h0 : tailF 0 = 1 := by simp [tailF]
  have h6 := integral_Ioi_of_hasDerivAt_of_nonpos' (fun _ hx => G6_deriv hx) (fun _ hx => six_nonpos hx) (ratio_le pq6)
  have h7 := integral_Ioi_of_hasDerivAt_of_nonpos' (fun _ hx => G7_deriv hx) (fun _ hx => seven_nonpos hx) (ratio_le pq7)
  simp only [add_zero, h0, one_mul, zero_sub, integral_neg, neg_inj] at h6 h7
  have m6 := six_integrable.neg
  have m7 := seven_integrable.neg
  simp only [neg_neg, Pi.neg_def] at m6 m7
  constructor
  · rw [← h6]
    refine integral_mono m6 tailF_integrable fun y => ?_
    have : 0 ≤ tailF y * (720 / Q6 (rn + y) ^ 2) := mul_nonneg (tailF_pos y).le (by positivity)
    change tailF y * (1 - 720 / Q6 (rn + y) ^ 2) ≤ tailF y
    linarith
  · rw [← h7]
    refine integral_mono tailF_integrable m7 fun y => ?_
    have : 0 ≤ tailF y * (5040 / Q7 (rn + y) ^ 2) := mul_nonneg (tailF_pos y).le (by positivity)
    change tailF y ≤ tailF y * (1 + 5040 / Q7 (rn + y) ^ 2)
    linarith

/-! ## The densities -/

/-- The density of the numbers kept by the tail loop, moved to start at `rn`: the proposals are exponential with rate
`rn` (`tail_proposals`), and `y` is kept with probability `tailAcc y`; rounds are repeated until a number is kept. -/
noncomputable def tailDens (z : ℝ) : ℝ :=
  rn * Real.exp (-(rn * (z - rn))) * tailAcc (z - rn) / ∫ y in Set.Ioi 0, rn * Real.exp (-(rn * y)) * tailAcc y

open Classical in
/-- The density with which one round of `NormFloat64` returns `x`: a strip is chosen with probability 1/128 and a point
in it with density `1 / (2 * 2^31 wn[i])`. The tail is reached from the base strip, for the part of it beyond
`kn[0] / 2^31`, and both signs are equally likely. -/
noncomputable def normDensity (T : Tables) (x : ℝ) : ℝ :=
  (∑ i ∈ Finset.range 128, 1 / 128 * (1 / (2 * (2 ^ 31 * T.w i))) * normAcc T i x) +
    if rn < |x| then 1 / 128 * (1 - (knTab.getD 0 0 : Nat) / 2 ^ 31) * (1 / 2) * tailDens |x| else 0

open Classical in
/-- The density with which one round of `ExpFloat64` returns `x`. -/
noncomputable def expDensity (T : Tables) (x : ℝ) : ℝ :=
  (∑ i ∈ Finset.range 256, 1 / 256 * (1 / (2 ^ 32 * T.w i)) * expAcc T i x) +
    if re < x then 1 / 256 * (1 - (keTab.getD 0 0 : Nat) / 2 ^ 32) * Real.exp (-(x - re)) else 0

/-- The tail loop gives the normal density beyond `rn`. -/
theorem tailDens_eq {z : ℝ} (hz : rn < z) :
    tailDens z = Real.exp (rn * rn / 2) * Real.exp (-(z * z / 2)) / ∫ y in Set.Ioi 0, tailF y := by
  have h0 := rn_pos
  have h1 : ∀ y, 0 < y → rn * Real.exp (-(rn * y)) * tailAcc y = rn * tailF y := by
    intro y hy
    rw [tailAcc_eq hy, mul_assoc, ← Real.exp_add, tailF]
    congr 2; ring
  have h2 : ∫ y in Set.Ioi 0, rn * Real.exp (-(rn * y)) * tailAcc y = rn * ∫ y in Set.Ioi 0, tailF y := by
    rw [← integral_const_mul]
    exact setIntegral_congr_fun measurableSet_Ioi fun y hy => h1 y hy
  rw [tailDens, h2, h1 _ (by linarith), mul_div_mul_left _ _ h0.ne', ← Real.exp_add, tailF]
  congr 2; ring

/-- The rational value of `rn`. -/
def rnq : ℚ := 3442619855899 / 10 ^ 12

theorem rn_cast : rn = (rnq : ℝ) := by unfold rn rnq; push_cast; rfl

theorem tail_check :
    vn * (1 - Zig.kn 0 / 2 ^ 31) * expHi (rnq * rnq / 2) * (rnq ^ 6 + 15 * rnq ^ 4 + 45 * rnq ^ 2 + 15) ≤
        (1 + 5 / 10 ^ 5) * (rnq ^ 5 + 14 * rnq ^ 3 + 33 * rnq) ∧
      (1 - 5 / 10 ^ 5) * (rnq ^ 6 + 20 * rnq ^ 4 + 87 * rnq ^ 2 + 48) ≤
        vn * (1 - Zig.kn 0 / 2 ^ 31) * expLo (rnq * rnq / 2) * (rnq ^ 7 + 21 * rnq ^ 5 + 105 * rnq ^ 3 + 105 * rnq) ∧
      rnq * rnq / 2 ≤ 8 ∧ 0 < vn * (1 - Zig.kn 0 / 2 ^ 31) := by
  decide +kernel

/-- The base strip hands over to the tail with the right probability. -/
theorem tail_mass : let J := ∫ y in Set.Ioi 0, tailF y
    (1 - 5 / 10 ^ 5 : ℝ) * J ≤ vn * (1 - (knTab.getD 0 0 : Nat) / 2 ^ 31) * Real.exp (rn * rn / 2) ∧
      vn * (1 - (knTab.getD 0 0 : Nat) / 2 ^ 31) * Real.exp (rn * rn / 2) ≤ (1 + 5 / 10 ^ 5 : ℝ) * J := by
  intro J
  obtain ⟨j6, j7⟩ := tailF_integral
  change P6 rn / Q6 rn ≤ J at j6
  change J ≤ P7 rn / Q7 rn at j7
  obtain ⟨c1, c2, c3, c4⟩ := tail_check
  have h0 := rn_pos
  have e1 : Real.exp (rn * rn / 2) ≤ (expHi (rnq * rnq / 2) : ℝ) := by
    have := le_expHi (t := rnq * rnq / 2) (by norm_num [rnq]) c3
    rw [rn_cast]; push_cast at this ⊢; exact this
  have e2 : (expLo (rnq * rnq / 2) : ℝ) ≤ Real.exp (rn * rn / 2) := by
    have := expLo_le (t := rnq * rnq / 2) (by norm_num [rnq])
    rw [rn_cast]; push_cast at this ⊢; exact this
  have hm : (vn * (1 - Zig.kn 0 / 2 ^ 31) : ℝ) = vn * (1 - (knTab.getD 0 0 : Nat) / 2 ^ 31) := by
    unfold Zig.kn; push_cast; rfl
  rw [← hm]
  have hm0 : (0 : ℝ) < vn * (1 - Zig.kn 0 / 2 ^ 31) := by exact_mod_cast c4
  have d1 : (vn * (1 - Zig.kn 0 / 2 ^ 31) * expHi (rnq * rnq / 2) * Q6 rn : ℝ) ≤ (1 + 5 / 10 ^ 5) * P6 rn := by
    have := (Rat.cast_le (K := ℝ)).mpr c1
    rw [rn_cast]; unfold P6 Q6; push_cast at this ⊢; exact this
  have d2 : (1 - 5 / 10 ^ 5) * P7 rn ≤ (vn * (1 - Zig.kn 0 / 2 ^ 31) * expLo (rnq * rnq / 2) * Q7 rn : ℝ) := by
    have := (Rat.cast_le (K := ℝ)).mpr c2
    rw [rn_cast]; unfold P7 Q7; push_cast at this ⊢; exact this
  have q6 : 0 < Q6 rn := by have := Q6_pos h0; linarith
  have q7 := Q7_pos h0
  constructor
  · calc (1 - 5 / 10 ^ 5 : ℝ) * J ≤ (1 - 5 / 10 ^ 5) * (P7 rn / Q7 rn) := mul_le_mul_of_nonneg_left j7 (by norm_num)
      _ = (1 - 5 / 10 ^ 5) * P7 rn / Q7 rn := by ring
      _ ≤ vn * (1 - Zig.kn 0 / 2 ^ 31) * expLo (rnq * rnq / 2) := (div_le_iff₀ q7).mpr d2
      _ ≤ _ := mul_le_mul_of_nonneg_left e2 hm0.le
  · calc _ ≤ (vn * (1 - Zig.kn 0 / 2 ^ 31) * expHi (rnq * rnq / 2) : ℝ) := mul_le_mul_of_nonneg_left e1 hm0.le
      _ ≤ (1 + 5 / 10 ^ 5) * P6 rn / Q6 rn := (le_div_iff₀ q6).mpr d1
      _ = (1 + 5 / 10 ^ 5) * (P6 rn / Q6 rn) := by ring
      _ ≤ _ := mul_le_mul_of_nonneg_left j6 (by norm_num)

theorem kn_low : (34426 / 10 ^ 4 : ℚ) < Zig.kn 0 * (Zig.wn 0 * (1 - ulp)) := by decide +kernel
theorem ke_low : (7697 / 10 ^ 3 : ℚ) < Zig.ke 0 * (Zig.we 0 * (1 - ulp)) := by decide +kernel

/-- **C73.** The density with which `NormFloat64` returns `x` is that of the standard normal distribution, up to a
constant factor (the rejected rounds) and a relative error of 5e-5; except between 3.4426 and 3.4427, where the strips
end. -/
theorem norm_density {T : Tables} (hT : NormTables T) {x : ℝ} (hx : |x| ≤ 34426 / 10 ^ 4 ∨ 34427 / 10 ^ 4 ≤ |x|) :
    |normDensity T x - 1 / (256 * vn) * Real.exp (-(x ^ 2 / 2))| ≤
      5 / 10 ^ 5 * (1 / (256 * vn) * Real.exp (-(x ^ 2 / 2))) := by
  have hv : (0 : ℝ) < vn := by norm_num [vn]
  have hE := Real.exp_pos (-(x ^ 2 / 2))
  have h0 := rn_pos
  have scale : ∀ a : ℝ, (1 - 5 / 10 ^ 5) * Real.exp (-(x ^ 2 / 2)) ≤ 256 * vn * a →
      256 * vn * a ≤ (1 + 5 / 10 ^ 5) * Real.exp (-(x ^ 2 / 2)) →
      |a - 1 / (256 * vn) * Real.exp (-(x ^ 2 / 2))| ≤ 5 / 10 ^ 5 * (1 / (256 * vn) * Real.exp (-(x ^ 2 / 2))) := by
    intro a h1 h2
    have h3 : a = 1 / (256 * vn) * (256 * vn * a) := by field_simp
    rw [h3]
    generalize 256 * (vn : ℝ) * a = b at h1 h2
    rw [← mul_sub, abs_mul, abs_of_pos (by positivity), mul_left_comm]
    refine mul_le_mul_of_nonneg_left ?_ (by positivity)
    rw [abs_le]
    constructor <;> linarith
  rcases hx with hx | hx
  · have hk : |x| < (knTab.getD 0 0 : Nat) * T.w 0 := by
      have h1 := (Rat.cast_lt (K := ℝ)).mpr kn_low
      rw [Rat.cast_mul] at h1
      have h2 : (0 : ℝ) ≤ Zig.kn 0 := by unfold Zig.kn; positivity
      have h3 := mul_le_mul_of_nonneg_left (hT 0 (by norm_num)).1.1 h2
      have h4 : (Zig.kn 0 : ℝ) * T.w 0 = (knTab.getD 0 0 : Nat) * T.w 0 := by unfold Zig.kn; push_cast; rfl
      rw [h4] at h3
      push_cast at h1 hx
      push_cast at h3
      linarith
    have hr : ¬ rn < |x| := by
      have : (34426 / 10 ^ 4 : ℝ) < rn := by norm_num [rn]
      linarith
    obtain ⟨d1, d2⟩ := density (coverN hT) (abs_nonneg x) hk
    rw [abs_mul_abs_self, ← pow_two] at d1 d2
    have key : 256 * vn * normDensity T x = ∑ i ∈ Finset.range (127 + 1), vn / (2 ^ 31 * T.w i) *
        acc (fun i => 2 ^ 31 * T.w i) (fun i => (knTab.getD i 0 : Nat) * T.w i) T.f
          (fun x => Real.exp (-(x * x / 2))) i |x| := by
      rw [normDensity, if_neg hr, add_zero, Finset.mul_sum]
      refine Finset.sum_congr rfl fun i hi => ?_
      have hi := Finset.mem_range.mp hi
      rw [normAcc_eq hT hi]
      have := ((hT i hi).1.pos (wn_pos i hi)).ne'
      field_simp
      ring
    refine scale _ ?_ ?_
    · rw [key]; refine le_trans ?_ d1
      exact mul_le_mul_of_nonneg_right (by norm_num) hE.le
    · rw [key]; refine d2.trans ?_
      exact mul_le_mul_of_nonneg_right (by norm_num) hE.le
  · have hr : rn < |x| := by
      have : rn < (34427 / 10 ^ 4 : ℝ) := by norm_num [rn]
      linarith
    have hz : ∀ i ∈ Finset.range 128, 1 / 128 * (1 / (2 * (2 ^ 31 * T.w i))) * normAcc T i x = 0 := by
      intro i hi
      have hi := Finset.mem_range.mp hi
      have : normAcc T i x = 0 := by
        unfold normAcc
        split_ifs with h1 h2 h3
        · rfl
        · exfalso
          by_cases hi0 : i = 0
          · subst hi0
            have hw := (hT 0 hi).1
            have h2' : (0 : ℝ) ≤ Zig.kn 0 := by unfold Zig.kn; positivity
            have h3 := mul_le_mul_of_nonneg_left hw.2 h2'
            have h4 : (Zig.kn 0 : ℝ) * T.w 0 = (knTab.getD 0 0 : Nat) * T.w 0 := by unfold Zig.kn; push_cast; rfl
            have h5 := (Rat.cast_le (K := ℝ)).mpr kn_base
            rw [Rat.cast_mul] at h5
            rw [h4] at h3
            push_cast at h5 h3
            linarith
          · refine h1 (le_trans ?_ hx)
            have hw := (hT i hi).1.2
            have h5 := (Rat.cast_le (K := ℝ)).mpr (wn_width i hi hi0)
            push_cast at h5 hw
            linarith
        · rfl
        · exfalso
          refine h1 (le_trans ?_ hx)
          have hw := (hT i hi).1.2
          have h5 := (Rat.cast_le (K := ℝ)).mpr (wn_width i hi h3)
          push_cast at h5 hw
          linarith
      rw [this, mul_zero]
    have hd : 256 * vn * normDensity T x =
        vn * (1 - (knTab.getD 0 0 : Nat) / 2 ^ 31) * Real.exp (rn * rn / 2) / (∫ y in Set.Ioi 0, tailF y) *
          Real.exp (-(x ^ 2 / 2)) := by
      rw [normDensity, if_pos hr, Finset.sum_eq_zero hz, zero_add, tailDens_eq hr, abs_mul_abs_self, ← pow_two x]
      ring
    obtain ⟨m1, m2⟩ := tail_mass
    have hJ : 0 < ∫ y in Set.Ioi 0, tailF y := by
      have q6 : 0 < Q6 rn := by have := Q6_pos h0; linarith
      have p6 : 0 < P6 rn := by unfold P6; positivity
      exact lt_of_lt_of_le (div_pos p6 q6) tailF_integral.1
    refine scale _ ?_ ?_
    · rw [hd]
      refine mul_le_mul_of_nonneg_right ?_ hE.le
      rw [le_div_iff₀ hJ]; exact m1
    · rw [hd]
      refine mul_le_mul_of_nonneg_right ?_ hE.le
      rw [div_le_iff₀ hJ]; exact m2

/-- The rational value of `re`. -/
def req : ℚ := 769711747013104972 / 10 ^ 17

theorem re_cast : re = (req : ℝ) := by unfold re req; push_cast; rfl

theorem tail_check_exp : ve * (1 - Zig.ke 0 / 2 ^ 32) * expHi req ≤ 1 + 5 / 10 ^ 5 ∧
    1 - 5 / 10 ^ 5 ≤ ve * (1 - Zig.ke 0 / 2 ^ 32) * expLo req ∧ req ≤ 8 ∧ 0 ≤ ve * (1 - Zig.ke 0 / 2 ^ 32) := by
  decide +kernel

/-- **C73.** The density with which `ExpFloat64` returns `x` is that of the exponential distribution with rate 1, up to
a constant factor (the rejected rounds) and a relative error of 5e-5; except between 7.697 and 7.6972. -/
theorem exp_density {T : Tables} (hT : ExpTables T) {x : ℝ} (hx0 : 0 ≤ x)
    (hx : x ≤ 7697 / 10 ^ 3 ∨ 76972 / 10 ^ 4 ≤ x) :
    |expDensity T x - 1 / (256 * ve) * Real.exp (-x)| ≤ 5 / 10 ^ 5 * (1 / (256 * ve) * Real.exp (-x)) := by
  have hv : (0 : ℝ) < ve := by norm_num [ve]
  have hE := Real.exp_pos (-x)
  have scale : ∀ a : ℝ, (1 - 5 / 10 ^ 5) * Real.exp (-x) ≤ 256 * ve * a →
      256 * ve * a ≤ (1 + 5 / 10 ^ 5) * Real.exp (-x) →
      |a - 1 / (256 * ve) * Real.exp (-x)| ≤ 5 / 10 ^ 5 * (1 / (256 * ve) * Real.exp (-x)) := by
    intro a h1 h2
    have h3 : a = 1 / (256 * ve) * (256 * ve * a) := by field_simp
    rw [h3]
    generalize 256 * (ve : ℝ) * a = b at h1 h2
    rw [← mul_sub, abs_mul, abs_of_pos (by positivity), mul_left_comm]
    refine mul_le_mul_of_nonneg_left ?_ (by positivity)
    rw [abs_le]
    constructor <;> linarith
  rcases hx with hx | hx
  · have hk : x < (keTab.getD 0 0 : Nat) * T.w 0 := by
      have h1 := (Rat.cast_lt (K := ℝ)).mpr ke_low
      rw [Rat.cast_mul] at h1
      have h2 : (0 : ℝ) ≤ Zig.ke 0 := by unfold Zig.ke; positivity
      have h3 := mul_le_mul_of_nonneg_left (hT 0 (by norm_num)).1.1 h2
      have h4 : (Zig.ke 0 : ℝ) * T.w 0 = (keTab.getD 0 0 : Nat) * T.w 0 := by unfold Zig.ke; push_cast; rfl
      rw [h4] at h3
      push_cast at h1 hx
      push_cast at h3
      linarith
    have hr : ¬ re < x := by
      have : (7697 / 10 ^ 3 : ℝ) < re := by norm_num [re]
      linarith
    obtain ⟨d1, d2⟩ := density (coverE hT) hx0 hk
    have key : 256 * ve * expDensity T x = ∑ i ∈ Finset.range (255 + 1), ve / (2 ^ 32 * T.w i) *
        acc (fun i => 2 ^ 32 * T.w i) (fun i => (keTab.getD i 0 : Nat) * T.w i) T.f (fun x => Real.exp (-x)) i x := by
      rw [expDensity, if_neg hr, add_zero, Finset.mul_sum]
      refine Finset.sum_congr rfl fun i hi => ?_
      have hi := Finset.mem_range.mp hi
      rw [expAcc_eq hT hi]
      have := ((hT i hi).1.pos (we_pos i hi)).ne'
      field_simp
    refine scale _ ?_ ?_
    · rw [key]; refine le_trans ?_ d1
      exact mul_le_mul_of_nonneg_right (by norm_num) hE.le
    · rw [key]; refine d2.trans ?_
      exact mul_le_mul_of_nonneg_right (by norm_num) hE.le
  · have hr : re < x := by
      have : re < (76972 / 10 ^ 4 : ℝ) := by norm_num [re]
      linarith
    have hz : ∀ i ∈ Finset.range 256, 1 / 256 * (1 / (2 ^ 32 * T.w i)) * expAcc T i x = 0 := by
      intro i hi
      have hi := Finset.mem_range.mp hi
      have : expAcc T i x = 0 := by
        unfold expAcc
        split_ifs with h1 h2 h3
        · rfl
        · exfalso
          by_cases hi0 : i = 0
          · subst hi0
            have hw := (hT 0 hi).1
            have h2' : (0 : ℝ) ≤ Zig.ke 0 := by unfold Zig.ke; positivity
            have h3 := mul_le_mul_of_nonneg_left hw.2 h2'
            have h4 : (Zig.ke 0 : ℝ) * T.w 0 = (keTab.getD 0 0 : Nat) * T.w 0 := by unfold Zig.ke; push_cast; rfl
            have h5 := (Rat.cast_le (K := ℝ)).mpr ke_base
            rw [Rat.cast_mul] at h5
            rw [h4] at h3
            push_cast at h5 h3
            linarith
          · refine h1 (le_trans ?_ hx)
            have hw := (hT i hi).1.2
            have h5 := (Rat.cast_le (K := ℝ)).mpr (we_width i hi hi0)
            push_cast at h5 hw
            linarith
        · rfl
        · exfalso
          refine h1 (le_trans ?_ hx)
          have hw := (hT i hi).1.2
          have h5 := (Rat.cast_le (K := ℝ)).mpr (we_width i hi h3)
          push_cast at h5 hw
          linarith
      rw [this, mul_zero]
    obtain ⟨c1, c2, c3, c4⟩ := tail_check_exp
    have e1 : Real.exp re ≤ (expHi req : ℝ) := re_cast ▸ le_expHi (t := req) (by norm_num [req]) c3
    have e2 : (expLo req : ℝ) ≤ Real.exp re := re_cast ▸ expLo_le (t := req) (by norm_num [req])
    have hm : (ve * (1 - Zig.ke 0 / 2 ^ 32) : ℝ) = ve * (1 - (keTab.getD 0 0 : Nat) / 2 ^ 32) := by
      unfold Zig.ke; push_cast; rfl
    have hm0 : (0 : ℝ) ≤ ve * (1 - Zig.ke 0 / 2 ^ 32) := by exact_mod_cast c4
    have d1 : (ve * (1 - Zig.ke 0 / 2 ^ 32) * expHi req : ℝ) ≤ 1 + 5 / 10 ^ 5 := by
      have := (Rat.cast_le (K := ℝ)).mpr c1
      push_cast at this ⊢; exact this
    have d2 : 1 - 5 / 10 ^ 5 ≤ (ve * (1 - Zig.ke 0 / 2 ^ 32) * expLo req : ℝ) := by
      have := (Rat.cast_le (K := ℝ)).mpr c2
      push_cast at this ⊢; exact this
    have hd : 256 * ve * expDensity T x =
        ve * (1 - Zig.ke 0 / 2 ^ 32) * Real.exp re * Real.exp (-x) := by
      rw [expDensity, if_pos hr, Finset.sum_eq_zero hz, zero_add, hm, mul_assoc _ (Real.exp re), ← Real.exp_add,
        show -(x - re) = re + -x by ring]
      ring
    refine scale _ ?_ ?_
    · rw [hd]
      refine mul_le_mul_of_nonneg_right ?_ hE.le
      exact d2.trans (mul_le_mul_of_nonneg_left e2 hm0)
    · rw [hd]
      refine mul_le_mul_of_nonneg_right ?_ hE.le
      exact (mul_le_mul_of_nonneg_left e1 hm0).trans d1

section Examples

theorem near_self {q : ℚ} (h : 0 < q) : Near (q : ℝ) q := by
  have hu : (0 : ℚ) < ulp := by norm_num [ulp]
  constructor
  · exact_mod_cast (by nlinarith : q * (1 - ulp) ≤ q)
  · exact_mod_cast (by nlinarith : q ≤ q * (1 + ulp))

/-- The decimals themselves are a possible table. -/
noncomputable def exactN : Tables := ⟨fun i => Zig.wn i, fun i => Zig.fn i⟩
noncomputable def exactE : Tables := ⟨fun i => Zig.we i, fun i => Zig.fe i⟩

theorem fn_pos : ∀ i < 128, 0 < Zig.fn i := by decide +kernel
theorem fe_pos : ∀ i < 256, 0 < Zig.fe i := by decide +kernel

theorem exactN_tables : NormTables exactN := fun i hi => ⟨near_self (wn_pos i hi), near_self (fn_pos i hi)⟩
theorem exactE_tables : ExpTables exactE := fun i hi => ⟨near_self (we_pos i hi), near_self (fe_pos i hi)⟩

example : |normDensity exactN 1 - 1 / (256 * vn) * Real.exp (-(1 ^ 2 / 2))| ≤
    5 / 10 ^ 5 * (1 / (256 * vn) * Real.exp (-(1 ^ 2 / 2))) :=
  norm_density exactN_tables (.inl (by norm_num))

example : |normDensity exactN (-4) - 1 / (256 * vn) * Real.exp (-((-4) ^ 2 / 2))| ≤
    5 / 10 ^ 5 * (1 / (256 * vn) * Real.exp (-((-4) ^ 2 / 2))) :=
  norm_density exactN_tables (.inr (by norm_num))

example : |expDensity exactE 2 - 1 / (256 * ve) * Real.exp (-2)| ≤ 5 / 10 ^ 5 * (1 / (256 * ve) * Real.exp (-2)) :=
  exp_density exactE_tables (by norm_num) (.inl (by norm_num))

/-- A source which returns the words of a list, then zeros. -/
def fromList : List Word → Word × List Word
  | [] => (0, [])
  | w :: ws => (w, ws)

/-- a word with upper half 0 gives 0 -/
example (T : Tables) : expFloat64 fromList T [12345] = some (some 0, []) := exp_zero fromList T (by decide)

/-- a word with upper half 0xFFFFFF00 chooses the tail; the next word makes it infinite -/
example (T : Tables) : expFloat64 fromList T [0xFFFFFF0000000000, 0] = some (none, []) :=
  exp_infinite fromList T (by decide) (by decide) (show Zero fromList _ 1 by unfold Zero; decide)

example (T : Tables) : normFloat64 fromList T [0x7FFFFF8000000000, 0, 0] = some (none, []) :=
  norm_infinite fromList T (by decide) (by decide) (show Zero fromList _ 1 by unfold Zero; decide)
    (show Zero fromList _ 2 by unfold Zero; decide)

/-- an ordinary word: the upper half -256 is 128 * (-2) + 0, in strip 0 -/
example (T : Tables) : normFloat64 fromList T [0xFFFFFF0000000000] = some (some (-256 * T.w 0), []) := by
  have h : half 0xFFFFFF0000000000 = -256 := by decide
  obtain ⟨-, h1⟩ := norm_round fromList T [0xFFFFFF0000000000]
  simp only [fromList, h] at h1
  rw [h1, if_pos (by decide)]
  norm_num

end Examples

end Verif.Rand
