import Verif.Props.Back32Acts
import Verif.Props.Net32Example
import Verif.Props.Acts32Example

set_option autoImplicit false
set_option linter.unusedSimpArgs false

/-!
# C96: an example

One input, a hidden layer of two with `ReLU`, and one output; the input is 3, the target 2.
-/

namespace Verif.Back32.Example
open Verif.F32 Verif.Asm Verif.Spec Verif.Spec.Net32 Verif.Net32 Verif.Back32 Verif.Spec.Back32 Verif.Net32.Example

/-- `x ↦ (x, 2 - x)`, `ReLU`, `(a, b) ↦ 2 a + b`. -/
def back : List (Layer Act) := [.lin 2 1 [p1, m1] [0, p2], .act .relu, .lin 1 2 [p2, p1] [0]]

theorem normA : Net32.norm 2 1 [p1, m1] = 1 := by
  simp [Net32.norm, largest, at2, Finset.sum_range_succ, List.range_succ, v1, vm]
theorem normB : Net32.norm 1 2 [p2, p1] = 3 := by
  simp [Net32.norm, largest, at2, Finset.sum_range_succ, List.range_succ, v1, v2]; norm_num
theorem biasA : bias 2 [0, p2] = 2 := bias1
theorem biasB : bias 1 [0] = 0 := by simp [bias, largest, List.range_succ, v0]
theorem colA : colNorm 2 1 [p1, m1] = 2 := by
  simp [colNorm, largest, at2, Finset.sum_range_succ, List.range_succ, v1, vm]; norm_num
theorem colB : colNorm 1 2 [p2, p1] = 2 := by
  simp [colNorm, largest, at2, Finset.sum_range_succ, List.range_succ, v1, v2]
theorem mostA : most [p1, m1] = 1 := by simp [most, largest, List.range_succ, v1, vm]
theorem mostB : most [p2, p1] = 2 := by simp [most, largest, List.range_succ, v1, v2]

/-- The error behind the first layer. -/
noncomputable def eA : ℝ := dotErr 1 1 3 + (3 + dotErr 1 1 3 + 2 + (2 : ℝ) ^ (-126 : Int)) / 2 ^ 24
/-- The error of the output. -/
noncomputable def eB : ℝ := 3 * eA + dotErr 2 3 (5 + eA) + (3 * (5 + eA) + dotErr 2 3 (5 + eA) + (2 : ℝ) ^ (-126 : Int)) / 2 ^ 24

theorem eA_le : 0 ≤ eA ∧ eA ≤ 1 / 2 ^ 20 := by
  constructor
  · unfold eA dotErr; positivity
  · unfold eA dotErr; norm_num
theorem eB_le : 0 ≤ eB ∧ eB ≤ 1 / 2 ^ 16 := by
  obtain ⟨h0, h1⟩ := eA_le
  have d : dotErr 2 3 (5 + eA) ≤ 2 / 2 ^ 23 * ((3 + 2 / 2 ^ 63) * (6 + 1 / 2 ^ 63)) := by
    unfold dotErr
    push_cast
    refine mul_le_mul_of_nonneg_left (mul_le_mul_of_nonneg_left ?_ (by norm_num)) (by norm_num)
    norm_num at h1 ⊢; linarith
  have d0 : 0 ≤ dotErr 2 3 (5 + eA) := by unfold dotErr; positivity
  unfold eB
  constructor
  · positivity
  · generalize dotErr 2 3 (5 + eA) = D at *
    norm_num at *
    linarith

theorem rangeA : range real lipOf (.lin 2 1 [p1, m1] [0, p2]) 3 = 5 := by simp only [range, normA, biasA]; norm_num
theorem errorA : error lipOf actErr (.lin 2 1 [p1, m1] [0, p2] : Layer Act) 3 0 = eA := by
  simp only [error, top, normA, biasA, eA, add_zero, mul_zero, zero_add, one_mul]
theorem rangeR : range real lipOf (.act .relu) 5 = 5 := by simp [range, lipOf, real]
theorem errorR : error lipOf actErr (.act .relu : Layer Act) 5 eA = eA := by simp [error, lipOf, actErr]
theorem rangeB : range real lipOf (.lin 1 2 [p2, p1] [0]) 5 = 15 := by simp only [range, normB, biasB]; norm_num
theorem errorB : error lipOf actErr (.lin 1 2 [p2, p1] [0] : Layer Act) 5 eA = eB := by
  simp only [error, top, normB, biasB, eB, add_zero]

theorem rangesAll : ranges real lipOf back 3 = 15 := by
  simp only [back, ranges, rangeA, rangeR, rangeB]
theorem errorsAll : errors real lipOf actErr back 3 0 = eB := by
  simp only [back, errors, rangeA, errorA, rangeR, errorR, errorB]

theorem finV (v : F32.W) (h : v ∈ [p1, m1, p2, 0]) : F32.Finite v ∧ |val v| ≤ 2 ^ 50 := Net32.Example.fin v h

theorem fits : Fits real lipOf actErr back 1 3 0 := by
  obtain ⟨a0, a1⟩ := eA_le
  simp only [back, Fits, rangeA, errorA, rangeR, errorR, and_true]
  refine ⟨⟨trivial, by norm_num, rfl, rfl, fun v hv => finV v (by simp at hv ⊢; tauto), fun v hv => (finV v (by simp at hv ⊢; tauto)).1, by norm_num, ?_⟩,
    trivial, by norm_num, rfl, rfl, fun v hv => finV v (by simp at hv ⊢; tauto), fun v hv => (finV v (by simp at hv ⊢; tauto)).1, ?_, ?_⟩
  · simp only [top, normA, biasA, dotErr, maxFin]; norm_num
  · have : (1 : ℝ) / 2 ^ 20 ≤ 1 := by norm_num
    have : (5 : ℝ) + 1 ≤ 2 ^ 50 := by norm_num
    linarith
  · have d : dotErr 2 3 (5 + eA) ≤ 1 := by
      unfold dotErr
      have h6 : 5 + eA + 1 / 2 ^ 63 ≤ 7 := by norm_num at a1 ⊢; linarith
      push_cast
      calc _ ≤ (2 : ℝ) / 2 ^ 23 * ((3 + 2 / 2 ^ 63) * 7) :=
            mul_le_mul_of_nonneg_left (mul_le_mul_of_nonneg_left h6 (by norm_num)) (by norm_num)
        _ ≤ 1 := by norm_num
    simp only [top, normB, biasB]
    have m : (1000 : ℝ) ≤ maxFin := by unfold maxFin; norm_num
    have : (1 : ℝ) / 2 ^ 20 ≤ 1 := by norm_num
    linarith

/-- The error of the gradient of the output, and of those in front of the last layer and of the first. -/
noncomputable def hO : ℝ := mseErr eB (15 + eB + 2)
noncomputable def hB : ℝ := 2 * hO + 1 * (5 * (1 * (2 * (17 + hO)) + (2 : ℝ) ^ (-126 : Int)) / 2 ^ 24)
noncomputable def hR : ℝ := hB + (34 + hB + (2 : ℝ) ^ (-126 : Int)) / 2 ^ 24

theorem hO_le : 0 ≤ hO ∧ hO ≤ 1 / 2 ^ 15 := by
  obtain ⟨h0, h1⟩ := eB_le
  unfold hO mseErr
  constructor
  · positivity
  · norm_num at *; linarith
theorem hB_le : 0 ≤ hB ∧ hB ≤ 1 / 2 ^ 13 := by
  obtain ⟨h0, h1⟩ := hO_le
  unfold hB
  constructor
  · positivity
  · norm_num at *; linarith
theorem hR_le : 0 ≤ hR ∧ hR ≤ 1 / 2 ^ 12 := by
  obtain ⟨h0, h1⟩ := hB_le
  unfold hR
  constructor
  · positivity
  · norm_num at *; linarith

theorem offB : off real lipOf actErr steepest slopeErr 17 hO [.lin 1 2 [p2, p1] [0]] 5 eA = hB := by
  simp only [off, size, reach, colB, mostB, hB, Nat.cast_one]
theorem offR : off real lipOf actErr steepest slopeErr 17 hO [.act .relu, .lin 1 2 [p2, p1] [0]] 5 eA = hR := by
  have s : size steepest 17 [.lin 1 2 [p2, p1] [0]] = 34 := by simp only [size, colB]; norm_num
  rw [off, rangeR, errorR, offB, s, hR]
  simp [steepest, slopeErr]

theorem fitsBack : FitsBack real lipOf actErr steepest slopeErr safeAt 17 hO back 1 (fun _ => 3) 3 0 := by
  obtain ⟨a0, a1⟩ := eA_le
  obtain ⟨o0, o1⟩ := hO_le
  obtain ⟨b0, b1⟩ := hB_le
  obtain ⟨r0, r1⟩ := hR_le
  have s1 : size steepest 17 [.lin 1 2 [p2, p1] [0]] = 34 := by simp only [size, colB]; norm_num
  have s2 : size steepest 17 [.act .relu, .lin 1 2 [p2, p1] [0]] = 34 := by rw [size, s1]; simp [steepest]
  have x50 : (100 : ℝ) ≤ 2 ^ 50 := by norm_num
  have x121 : (1000 : ℝ) ≤ 2 ^ 121 := by norm_num
  have t1 : (2 : ℝ) ^ (-126 : Int) ≤ 1 := by norm_num
  have i1 : (1 : ℝ) / 2 ^ 12 ≤ 1 := by norm_num
  have i2 : (1 : ℝ) / 2 ^ 13 ≤ 1 := by norm_num
  have i3 : (1 : ℝ) / 2 ^ 15 ≤ 1 := by norm_num
  have i4 : (1 : ℝ) / 2 ^ 20 < 1 := by norm_num
  unfold back
  rw [FitsBack, rangeA, errorA, offR, s2, FitsBack, rangeR, errorR, offB, s1, FitsBack]
  refine ⟨⟨by norm_num, by linarith, ?_⟩, ⟨?_, ?_⟩, ⟨by norm_num, ?_, ?_⟩, trivial⟩
  · simp only [reach, mostA]; push_cast; linarith
  · simp only [steepest, slopeErr]; linarith
  · intro i hi
    show eA < _
    have h0 : layer real (.lin 2 1 [p1, m1] [0, p2]) (fun _ => 3) 0 = 3 := by
      simp [layer, at2, v1, vm, v2, v0]
    have h1 : layer real (.lin 2 1 [p1, m1] [0, p2]) (fun _ => 3) 1 = -1 := by
      simp [layer, at2, v1, vm, v2, v0]; norm_num
    interval_cases i
    · rw [h0, abs_of_pos (by norm_num)]; linarith
    · rw [h1, abs_neg, abs_one]; linarith
  · simp only [off, size]; linarith
  · simp only [off, size, reach, mostB]; push_cast; linarith

theorem input : ∀ i < [(0x40400000 : F32.W)].length, F32.Finite ([(0x40400000 : F32.W)].getD i 0) ∧
    |val ([(0x40400000 : F32.W)].getD i 0) - 3| ≤ 0 ∧ |(3 : ℝ)| ≤ 3 := by
  intro i hi
  have : i = 0 := by simpa using hi
  subst this
  refine ⟨by unfold F32.Finite; decide, ?_, by norm_num⟩
  rw [show [(0x40400000 : F32.W)].getD 0 0 = 0x40400000 from rfl, v3]; norm_num

/-- The hypotheses about the library can be met. -/
theorem exists_slopes : ∃ sl, GoodSlopeLib sl := by
  choose t ht using fun v : F32.W => exists_unit (r := 1 - Real.tanh (val v) ^ 2) (by
    have := Back32.tanh_abs (val v)
    have h2 : Real.tanh (val v) ^ 2 ≤ 1 := by rw [← sq_abs]; nlinarith [abs_nonneg (Real.tanh (val v))]
    exact abs_le.mpr ⟨by linarith, by nlinarith [sq_nonneg (Real.tanh (val v))]⟩)
  have hl : ∀ v : F32.W, ∃ w : F32.W, 0 ≤ val v → val v ≤ 1 → F32.Finite w ∧ |val w - val v * (1 - val v)| ≤ 1 / 2 ^ 23 := fun v => by
    by_cases h : 0 ≤ val v ∧ val v ≤ 1
    · obtain ⟨w, w1, -, w3⟩ := exists_unit (r := val v * (1 - val v)) (abs_le.mpr ⟨by nlinarith [h.1, h.2], by nlinarith [h.1, h.2]⟩)
      exact ⟨w, fun _ _ => ⟨w1, w3⟩⟩
    · exact ⟨0, fun h1 h2 => absurd ⟨h1, h2⟩ h⟩
  choose l hl using hl
  exact ⟨⟨l, t⟩, fun v _ => hl v, fun v _ => ⟨(ht v).1, (ht v).2.2⟩⟩

/-- The gradients are there; that of the first weight is close to 24, and so is the derivative of the loss. -/
example (cpu : Cpu) (j : ExpLog.Lane) : ∃ lib sl z ps gw gb, Back cpu (acts cpu j lib) (slopes cpu j lib sl) (MseGrad cpu p1 [p2]) back [0x40400000] z ps ∧
      ps[0]? = some (some (gw, gb)) ∧ |val (gw.getD 0 0) - 24| ≤ 1 / 100 := by
  obtain ⟨lib, h⟩ := exists_lib cpu j
  obtain ⟨sl, hs⟩ := exists_slopes
  have h1 : |val p1| ≤ 1 := by rw [v1]; norm_num
  have hP : (15 : ℝ) + 2 = 17 := by norm_num
  obtain ⟨⟨z, ps, hz⟩, hall⟩ := backward_mse cpu j h hs (r := p1) (by unfold F32.Finite; decide) h1 (ls := back) (x := [0x40400000])
    (t := [p2]) (u := fun _ => 3) (M := 3) (E := 0) (T := 2) (by norm_num) le_rfl (by norm_num) fits
    (by rw [rangesAll, errorsAll, hP]; exact fitsBack) input rfl
    (fun i hi => by
      have : i = 0 := by simpa using hi
      subst this
      exact ⟨by unfold F32.Finite; decide, by rw [show [p2].getD 0 0 = p2 from rfl, v2]; norm_num⟩)
    (by
      rw [rangesAll, errorsAll]
      have := eB_le.2
      have : (1 : ℝ) / 2 ^ 16 ≤ 1 := by norm_num
      have : (18 : ℝ) ≤ 2 ^ 100 := by norm_num
      linarith)
  obtain ⟨gw, gb, g1, g2, g3, g4⟩ := hall z ps hz [] 2 1 [p1, m1] [0, p2] [.act .relu, .lin 1 2 [p2, p1] [0]] rfl
  refine ⟨lib, sl, z, ps, gw, gb, hz, g1, ?_⟩
  obtain ⟨-, δ, d1, d2⟩ := g4 0 (by norm_num) 0 (by norm_num)
  have s1 : size steepest 17 [.act .relu, .lin 1 2 [p2, p1] [0]] = 34 := by
    simp only [size, colB, steepest]; norm_num
  rw [rangesAll, errorsAll, hP, show mseErr eB (15 + eB + 2) = hO from rfl, show ranges real lipOf ([] : List (Layer Act)) 3 = 3 from rfl,
    show errors real lipOf actErr ([] : List (Layer Act)) 3 0 = 0 from rfl, rangeA, errorA, offR, s1] at d2
  have hδ : δ = 24 := by
    refine d1.unique ?_
    have e : (fun s => squared [p2].length (val p1) (fun i => val ([p2].getD i 0)) (network real [.act .relu, .lin 1 2 [p2, p1] [0]]
        (nudged 2 1 [p1, m1] [0, p2] 0 0 (network real [] fun _ => 3) s))) =
        fun s => (2 * max 0 ((1 + s) * 3) + max 0 (-1) - 2) ^ 2 / 2 := by
      funext s
      simp [squared, network, layer, nudged, real, at2, Finset.sum_range_succ, v1, v2, vm, v0]
      norm_num
    rw [e]
    have hm : HasDerivAt (fun s : ℝ => max 0 ((1 + s) * 3)) 3 0 := by
      have inner : HasDerivAt (fun s : ℝ => (1 + s) * 3) 3 0 := by
        simpa using ((hasDerivAt_id (0 : ℝ)).const_add 1).mul_const 3
      have outer := relu_der (u := (1 + 0) * 3) (by norm_num)
      have := HasDerivAt.comp (0 : ℝ) outer inner
      refine this.congr_deriv ?_
      norm_num
    refine ((((hm.const_mul 2).add_const (max 0 (-1))).sub_const 2).pow 2 |>.div_const 2).congr_deriv ?_
    norm_num
  rw [hδ] at d2
  refine d2.trans ?_
  obtain ⟨r0, r1⟩ := hR_le
  have d : dotErr 1 (34 + hR) (3 + 0) ≤ 1 / 2 ^ 23 * (36 * 4) := by
    unfold dotErr
    push_cast
    refine mul_le_mul_of_nonneg_left (mul_le_mul ?_ (by norm_num) (by norm_num) (by norm_num)) (by norm_num)
    norm_num at r1 ⊢; linarith
  unfold weightErr
  generalize dotErr 1 (34 + hR) (3 + 0) = D at *
  norm_num at *
  linarith

end Verif.Back32.Example
