import Verif.Props.Sigmoid32

set_option autoImplicit false
set_option linter.unusedSimpArgs false

/-!
# An example for C89
-/

namespace Verif.Sigmoid32
open Verif.F32 Verif.Asm Verif.Spec Verif.Spec.Sigmoid32 Verif.Softmax32

/-- Five numbers: 0, 1, -1, -100 and the largest one. -/
def sample : List F32.W := [0, 0x3f800000, 0xbf800000, 0xc2c80000, 0x7f7fffff]

theorem sample_finite : ∀ v ∈ sample, F32.Finite v := by
  intro v hv
  simp only [sample, List.mem_cons, List.not_mem_nil, or_false] at hv
  rcases hv with rfl | rfl | rfl | rfl | rfl <;> (unfold F32.Finite; decide)

/-- `sigmoid_close` for the sample: the processor has no AVX2, so four elements go through one vector and one is left for the
scalar function, which is taken to be the vector routine for one element; the first element of the result is within `2^-20` of one half. -/
example (j : ExpLog.Lane) : ∃ z, Runs ⟨false, false, false, true⟩ j (expKernel ⟨false, false, false, true⟩ j).2 sample z ∧ |val (z.getD 0 0) - 1 / 2| ≤ 1 / 2 ^ 20 ∧
    0 ≤ val (z.getD 3 0) ∧ val (z.getD 3 0) ≤ 1 / 2 ^ 10 := by
  obtain ⟨⟨z, hz⟩, h⟩ := sigmoid_close ⟨false, false, false, true⟩ j (full_kernel ⟨false, false, false, true⟩ j) sample_finite
  obtain ⟨-, h⟩ := h z hz
  refine ⟨z, hz, ?_, (h 3 (by decide)).2.1, ?_⟩
  · have := (h 0 (by decide)).2.2.2
    have h0 : sigmoid (val (sample.getD 0 0)) = 1 / 2 := by
      simp only [sample, List.getD_cons_zero, val_zero, sigmoid, neg_zero, Real.exp_zero]; norm_num
    rwa [h0] at this
  · have h3 := (h 3 (by decide)).2.2.2
    have hv : val (sample.getD 3 0) = -100 := by
      have : sample.getD 3 0 = 0xc2c80000 := by decide
      rw [this]; simp [val, unpack]; norm_num
    rw [hv] at h3
    have hs : sigmoid (-100) ≤ 1 / 2 ^ 11 := by
      unfold sigmoid
      refine one_div_le_one_div_of_le (by positivity) ?_
      have : (2 : ℝ) ^ 100 ≤ Real.exp 100 := by
        rw [show (100 : ℝ) = ((100 : Nat) : ℝ) * 1 by norm_num, Real.exp_nat_mul]
        gcongr
        linarith [Real.add_one_le_exp (1 : ℝ)]
      rw [neg_neg]
      norm_num at this ⊢; linarith
    have := (abs_le.mp h3).2
    norm_num at *; linarith

end Verif.Sigmoid32
