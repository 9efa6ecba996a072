import Verif.Props.Norm32Const
import Verif.Props.Acts32Example

set_option autoImplicit false
set_option linter.unusedSimpArgs false

/-!
# C94: examples
-/

namespace Verif.Norm32.Example
open Verif.F32 Verif.Asm Verif.Spec Verif.Net32 Verif.Rec32 Verif.Spec.Norm32
open Verif.Spec.Rec32 (vals Within)

/-- 1 and -1. -/
def x : List F32.W := [Net32.Example.p1, Net32.Example.m1]

/-- 2^70 and -1. -/
def big : List F32.W := [0x62800000, Net32.Example.m1]

def ones : List F32.W := [Net32.Example.p1, Net32.Example.p1]

/-- `1e-5`. -/
def eps : F32.W := 0x3727c5ac

theorem x0 : vals x 0 = 1 := Net32.Example.v1
theorem x1 : vals x 1 = -1 := Net32.Example.vm
theorem big0 : vals big 0 = 2 ^ 70 := by
  show val 0x62800000 = _
  simp [val, unpack]; norm_num
theorem eps_val : val eps = 10995116 / 2 ^ 40 := by
  unfold eps
  simp [val, unpack]; norm_num

theorem x_in : Within 2 x 1 := by
  refine ⟨rfl, fun i hi => ?_⟩
  have : i = 0 ∨ i = 1 := by omega
  rcases this with rfl | rfl
  · exact ⟨by unfold F32.Finite; decide, by have := x0; unfold vals at this; rw [this]; norm_num⟩
  · exact ⟨by unfold F32.Finite; decide, by have := x1; unfold vals at this; rw [this]; norm_num⟩

theorem ones_in : Within 2 ones (2 ^ 60) := by
  refine ⟨rfl, fun i hi => ?_⟩
  have : i = 0 ∨ i = 1 := by omega
  rcases this with rfl | rfl <;>
    exact ⟨by unfold F32.Finite; decide, by show |val Net32.Example.p1| ≤ _; rw [Net32.Example.v1]; norm_num⟩

theorem big_in : Within 2 big (2 ^ 100) := by
  refine ⟨rfl, fun i hi => ?_⟩
  have : i = 0 ∨ i = 1 := by omega
  rcases this with rfl | rfl
  · exact ⟨by unfold F32.Finite; decide, by have := big0; unfold vals at this; rw [this]; norm_num⟩
  · exact ⟨by unfold F32.Finite; decide, by show |val Net32.Example.m1| ≤ _; rw [Net32.Example.vm]; norm_num⟩

theorem dev_x : layerDen 2 (val eps) (vals x) = Real.sqrt (1 + val eps) := by
  unfold layerDen meanSq mean
  simp only [Finset.sum_range_succ, Finset.sum_range_zero, x0, x1]
  congr 1
  norm_num

/-- LayerNorm of 1 and -1 with the weight 1 and the bias 1: the first element is near 2. -/
example (cpu : Cpu) : ∃ z, LayerNorm cpu ones ones eps x z ∧ F32.Finite (z.getD 0 0) ∧
    |vals z 0 - (1 / Real.sqrt (1 + val eps) + 1)| ≤ 1 / 2 ^ 15 := by
  have heps := eps_val
  obtain ⟨⟨z, hz⟩, h⟩ := layerNorm_close cpu (by norm_num) (by norm_num) (X := 1) (by norm_num) x_in ones_in ones_in
    (eps := eps) (by unfold F32.Finite; decide) (by rw [heps]; norm_num) (by rw [heps]; norm_num)
  refine ⟨z, hz, ((h z hz).2 0 (by norm_num)).1, ?_⟩
  have := ((h z hz).2 0 (by norm_num)).2.2
  have o : vals ones 0 = 1 := Net32.Example.v1
  have e : layer 2 (val eps) (vals x) 0 = 1 / Real.sqrt (1 + val eps) := by
    unfold layer
    rw [dev_x]
    unfold mean
    simp only [Finset.sum_range_succ, Finset.sum_range_zero, x0, x1]
    norm_num
  rw [o, e, mul_one] at this
  refine this.trans ?_
  have hs : Real.sqrt 2 ≤ 2 := by rw [Real.sqrt_le_left (by norm_num)]; norm_num
  have h0 := Real.sqrt_nonneg (2 : ℝ)
  have hd : 1 ≤ Real.sqrt (1 + val eps) := by
    refine Real.le_sqrt_of_sq_le ?_
    rw [heps]; norm_num
  unfold affErr quotErr meanErr
  rw [dev_x]
  push_cast
  generalize Real.sqrt 2 = r at *
  generalize Real.sqrt (1 + val eps) = D at *
  have h1 : (r + 1) * ((2 + 5) / 2 ^ 23 * (1 + 1 / 2 ^ 63)) / D ≤ (r + 1) * ((2 + 5) / 2 ^ 23 * (1 + 1 / 2 ^ 63)) :=
    div_le_self (by positivity) hd
  norm_num at h1 ⊢
  linarith

/-- RMSNorm of the same. -/
example (cpu : Cpu) : ∃ z, RMSNorm cpu ones ones x z ∧ F32.Finite (z.getD 0 0) ∧ |vals z 0 - (1 / (1 + 1e-10) + 1)| ≤ 1 / 2 ^ 15 := by
  have hx : Within 2 x (2 ^ 50) := ⟨rfl, fun i hi => ⟨(x_in.2 i hi).1, (x_in.2 i hi).2.trans (by norm_num)⟩⟩
  obtain ⟨⟨z, hz⟩, h⟩ := rmsNorm_close cpu (by norm_num) (by norm_num) hx ones_in ones_in
  refine ⟨z, hz, ((h z hz).2 0 (by norm_num)).1, ?_⟩
  have := ((h z hz).2 0 (by norm_num)).2.2
  have o : vals ones 0 = 1 := Net32.Example.v1
  have e : rms 2 (vals x) 0 = 1 / (1 + 1e-10) := by
    unfold rms meanSq
    simp only [Finset.sum_range_succ, Finset.sum_range_zero, x0, x1]
    norm_num
  rw [o, e, mul_one] at this
  refine this.trans ?_
  have hs : Real.sqrt 2 ≤ 2 := by rw [Real.sqrt_le_left (by norm_num)]; norm_num
  have h0 := Real.sqrt_nonneg (2 : ℝ)
  unfold affErr quotErr
  push_cast
  generalize Real.sqrt 2 = r at *
  norm_num
  linarith

/-- FixNorm and ScaleNorm. -/
example (cpu : Cpu) : (∃ y, FixNorm cpu x y ∧ |vals y 0| ≤ 1 + 1 / 2 ^ 16) ∧
    ∃ z, ScaleNorm cpu ones x z ∧ |vals z 0| ≤ 1 + 1 / 2 ^ 14 := by
  have hx : Within 2 x (2 ^ 50) := ⟨rfl, fun i hi => ⟨(x_in.2 i hi).1, (x_in.2 i hi).2.trans (by norm_num)⟩⟩
  obtain ⟨⟨y, hy⟩, h⟩ := fixNorm_close cpu (by norm_num) (by norm_num) hx
  obtain ⟨⟨z, hz⟩, h'⟩ := scaleNorm_close cpu (by norm_num) (by norm_num) hx ones_in
  refine ⟨⟨y, hy, by simpa using ((h y hy).2 0 (by norm_num)).2.1⟩, z, hz, (((h' z hz).2 0 (by norm_num)).2.1).trans ?_⟩
  have o : vals ones 0 = 1 := Net32.Example.v1
  rw [o]; norm_num

/-- LayerNormSimple. -/
example (cpu : Cpu) : ∃ y, LayerNormSimple cpu x y ∧ F32.Finite (y.getD 1 0) :=
  have ⟨⟨y, hy⟩, h⟩ := layerNormSimple_close cpu (by norm_num) (by norm_num) (X := 1) (by norm_num) x_in
  ⟨y, hy, ((h y hy).2 1 (by norm_num)).1⟩

/-- One element of 2^70: RMSNorm gives the bias, although the exact result is far from it. -/
example (cpu : Cpu) {z : List F32.W} (h : RMSNorm cpu ones ones big z) : vals z 0 = 1 ∧ 1 ≤ rms 2 (vals big) 0 := by
  constructor
  · have := rmsNorm_blank (n := 2) (by norm_num) rfl (fun i hi => (big_in.2 i hi).1) rfl (fun i hi => (ones_in.2 i hi).1) rfl
      (fun i hi => (ones_in.2 i hi).1) (j := 0) (by norm_num) (by rw [big0]; norm_num) h
    rw [(this 0 (by norm_num)).2]; exact Net32.Example.v1
  · have b1 : vals big 1 = -1 := Net32.Example.vm
    unfold rms meanSq
    simp only [Finset.sum_range_succ, Finset.sum_range_zero, big0, b1]
    have hs : Real.sqrt ((0 + 2 ^ 70 * 2 ^ 70 + -1 * -1) / (2 : ℕ)) ≤ 2 ^ 70 - 1 := by
      rw [Real.sqrt_le_left (by norm_num)]; norm_num
    have h0 := Real.sqrt_nonneg ((0 + 2 ^ 70 * 2 ^ 70 + -1 * -1) / (2 : ℕ))
    generalize Real.sqrt ((0 + 2 ^ 70 * 2 ^ 70 + -1 * -1) / (2 : ℕ)) = r at *
    rw [le_div_iff₀ (by norm_num; linarith)]
    norm_num at hs ⊢
    linarith

example (cpu : Cpu) {z : List F32.W} (h : LayerNorm cpu ones ones eps big z) : vals z 0 = 1 := by
  have b1 : vals big 1 = -1 := Net32.Example.vm
  have := layerNorm_blank (n := 2) (by norm_num) big_in rfl (fun i hi => (ones_in.2 i hi).1) rfl
    (fun i hi => (ones_in.2 i hi).1) (by unfold F32.Finite; decide) (j := 0) (k := 1) (by norm_num) (by norm_num)
    (by rw [big0, b1]; norm_num) h
  rw [(this 0 (by norm_num)).2]; exact Net32.Example.v1

end Verif.Norm32.Example
