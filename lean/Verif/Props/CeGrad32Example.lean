import Verif.Props.CeGrad32
import Verif.Props.Back32Example

set_option autoImplicit false
set_option linter.unusedSimpArgs false

/-!
# C97: an example

A linear layer with two outputs, both 1 for the input 1, and the class 0: the derivative for the first weight is -1/2.
-/

namespace Verif.CeGrad32.Example
open Verif.F32 Verif.Asm Verif.Spec Verif.Spec.Net32 Verif.Net32 Verif.Back32 Verif.Spec.Back32 Verif.Net32.Example Verif.Spec.CeGrad32
  Verif.Back32.Example

/-- `x ↦ (x, 2 - x)`. -/
def net : List (Layer Act) := [.lin 2 1 [p1, m1] [0, p2]]

/-- The reciprocal of float32 will do. -/
theorem good_inv : GoodInv (divIeee one) := by
  intro z hz h1 h2
  have h0 : 0 < val z := by linarith
  have p : 0 < 1 / val z := by positivity
  have := div_near one_fin hz (by rw [one_val]; exact one_ne_zero) h0.ne'
    (by rw [one_val, abs_of_pos p, div_le_iff₀ h0]; norm_num; linarith)
    (by rw [one_val, abs_of_pos p, div_le_div_iff₀ (by positivity) h0]; norm_num at h2 ⊢; linarith)
  rw [one_val, abs_of_pos p] at this
  exact this

/-- The error of the outputs. -/
noncomputable def eC : ℝ := dotErr 1 1 1 + (1 + dotErr 1 1 1 + 2 + (2 : ℝ) ^ (-126 : Int)) / 2 ^ 24

theorem eC_le : 0 ≤ eC ∧ eC ≤ 1 / 2 ^ 20 := by
  constructor
  · unfold eC dotErr; positivity
  · unfold eC dotErr; norm_num

theorem errorC : errors real lipOf actErr net 1 0 = eC := by
  simp only [net, errors, error, top, normA, biasA, eC, add_zero, mul_zero, zero_add, one_mul]

theorem ceErr_le : 0 ≤ ceErr 2 eC ∧ ceErr 2 eC ≤ 1 / 1000 := by
  obtain ⟨h0, h1⟩ := eC_le
  have a : |2 * eC| = 2 * eC := abs_of_nonneg (by linarith)
  have b := Real.abs_exp_sub_one_le (x := 2 * eC) (by rw [a]; norm_num at h1 ⊢; linarith)
  rw [a] at b
  have c := Real.one_le_exp (show 0 ≤ 2 * eC by linarith)
  rw [abs_of_nonneg (by linarith)] at b
  unfold ceErr
  generalize Real.exp (2 * eC) = X at *
  norm_num at *
  exact ⟨by linarith, by linarith⟩

theorem fits : Fits real lipOf actErr net 1 1 0 := by
  simp only [net, Fits, and_true]
  refine ⟨trivial, by norm_num, rfl, rfl, fun v hv => finV v (by simp at hv ⊢; tauto), fun v hv => (finV v (by simp at hv ⊢; tauto)).1, by norm_num, ?_⟩
  simp only [top, normA, biasA, dotErr, maxFin]; norm_num

theorem fitsBack : FitsBack real lipOf actErr steepest slopeErr safeAt 1 (ceErr 2 eC) net 1 (fun _ => 1) 1 0 := by
  obtain ⟨h0, h1⟩ := ceErr_le
  unfold net
  rw [FitsBack, FitsBack]
  refine ⟨⟨by norm_num, ?_, ?_⟩, trivial⟩
  · simp only [off, size]; norm_num at h1 ⊢; linarith
  · simp only [off, size, reach, mostA]; norm_num at h1 ⊢; linarith

/-- C97: the gradients are there, and that of the first weight is close to -1/2, the derivative. -/
example (cpu : Cpu) (j : ExpLog.Lane) : ∃ lib sl z ps gw gb,
    Back cpu (acts cpu j lib) (slopes cpu j lib sl) (CeGrad cpu j lib.exp (divIeee one) 0) net [p1] z ps ∧
      ps[0]? = some (some (gw, gb)) ∧ |val (gw.getD 0 0) - (-1 / 2)| ≤ 1 / 100 := by
  choose t ht using fun v : F32.W => exists_unit (Net32.tanh_abs (val v))
  obtain ⟨sl, hs⟩ := exists_slopes
  obtain ⟨⟨z, ps, hz⟩, hall⟩ := backward_ce cpu j (lib := ⟨(Softmax32.expKernel cpu j).2, t⟩) ⟨Sigmoid32.full_kernel cpu j, fun v _ => ht v⟩
    (Softmax32.good_kernel cpu j) good_inv hs (ls := net) (x := [p1]) (u := fun _ => 1) (M := 1) (E := 0) (c := 0) zero_le_one le_rfl fits
    (by show 0 < 2; norm_num) (by show 2 ≤ 2 ^ 20; norm_num) (by rw [errorC]; exact fitsBack) (by
      intro i hi
      obtain rfl : i = 0 := by simpa using hi
      change F32.Finite p1 ∧ |val p1 - 1| ≤ 0 ∧ _
      exact ⟨by unfold F32.Finite; decide, by rw [v1]; norm_num, by norm_num⟩)
  obtain ⟨gw, gb, g1, g2, g3, g4⟩ := hall z ps hz [] 2 1 [p1, m1] [0, p2] [] rfl
  refine ⟨_, sl, z, ps, gw, gb, hz, g1, ?_⟩
  obtain ⟨-, δ, d1, d2⟩ := g4 0 (by norm_num) 0 (by norm_num)
  have hδ : δ = -1 / 2 := by
    refine d1.unique ?_
    have e : (fun s => crossEntropyOf (width net [p1].length) (network real [] (nudged 2 1 [p1, m1] [0, p2] 0 0 (network real [] fun _ => 1) s)) 0) =
        fun s => Real.log (Real.exp (1 + s) + Real.exp 1) - (1 + s) := by
      funext s
      have w : width net [p1].length = 2 := rfl
      have n0 : nudged 2 1 [p1, m1] [0, p2] 0 0 (fun _ => 1) s 0 = 1 + s := by simp [nudged, at2, v1, v0]
      have n1 : nudged 2 1 [p1, m1] [0, p2] 0 0 (fun _ => 1) s 1 = 1 := by simp [nudged, at2, vm, v2]; norm_num
      rw [show network real [] (nudged 2 1 [p1, m1] [0, p2] 0 0 (network real [] fun _ => 1) s) = nudged 2 1 [p1, m1] [0, p2] 0 0 (fun _ => 1) s from rfl]
      unfold crossEntropyOf
      rw [w, Finset.sum_range_succ, Finset.sum_range_one, n0, n1, Real.log_div (Real.exp_ne_zero _) (by positivity), Real.log_exp]
      ring
    rw [e]
    have h1 : HasDerivAt (fun s : ℝ => 1 + s) 1 0 := (hasDerivAt_id (0 : ℝ)).const_add 1
    refine (((h1.exp.add_const (Real.exp 1)).log (by positivity)).sub h1).congr_deriv ?_
    have := Real.exp_pos 1
    rw [add_zero, mul_one]
    field_simp
    norm_num
  rw [hδ, errorC] at d2
  refine d2.trans ?_
  obtain ⟨r0, r1⟩ := ceErr_le
  have w : width net [p1].length = 2 := rfl
  rw [w]
  simp only [ranges, errors, size, off]
  have d : dotErr 1 (1 + ceErr 2 eC) (1 + 0) ≤ 1 / 2 ^ 23 * (2 * 2) := by
    unfold dotErr
    push_cast
    refine mul_le_mul_of_nonneg_left (mul_le_mul ?_ (by norm_num) (by norm_num) (by norm_num)) (by norm_num)
    norm_num at r1 ⊢; linarith
  unfold weightErr
  generalize dotErr 1 (1 + ceErr 2 eC) (1 + 0) = D at *
  norm_num at *
  linarith

end Verif.CeGrad32.Example
