import Verif.Props.DerivedOps

set_option autoImplicit false
set_option linter.unusedSimpArgs false

/-!
# C51: the gradient of LogSumExp
-/

namespace Verif.DerivedOps
open GradFn Dense Losses
open scoped BigOperators

theorem back2_add (a b g : ℝ) : back2 GradFn.add (scalar a) (scalar b) (scalar g) = some (scalar g, scalar g) := by
  simp [back2, GradFn.add, sameDims, scalar]

theorem back1_log {s : ℝ} (hs : 0 < s) (g : ℝ) : back1 logR (scalar s) (scalar g) = some (scalar (1 / s * g)) := by
  have h : ((scalar s).apply fun _ _ v => if v > 0 then 1 / v else 1 / 1.0e-08) = scalar (1 / s) := by
    rw [apply_const]; simp [scalar, Dense.map, hs]
  have hn : ¬ (scalar s).data.any (· < 0) := by simp [scalar, hs.le]
  simp only [back1, logR, GradFn.log]
  rw [if_neg (by simp [sameDims, scalar]), if_neg hn, h]
  rfl

theorem back1_reduceSum (n : Nat) (v : Nat → ℝ) (g : ℝ) : back1 reduceSum (col n v) (scalar g) = some (col n fun _ => g) := by
  simp only [back1, reduceSum, item_scalar_some, Option.bind_eq_bind, Option.bind_some, col_length]
  simp only [col, Option.some.injEq, Dense.mk.injEq, true_and]
  refine List.ext_getElem (by simp) fun i h1 h2 => by simp

theorem back1_exp (n : Nat) (v g : Nat → ℝ) :
    back1 GradFn.exp (col n v) (col n g) = some (col n fun i => Real.exp (v i) * g i) := by
  simp only [back1, GradFn.exp, elementwise]
  rw [if_neg (by simp [sameDims])]
  simp only [apply_const, col_map, col_zipOp, Option.bind_eq_bind, Option.bind_some]

theorem back2_subScalar (n : Nat) (v g : Nat → ℝ) (m : ℝ) : back2 subScalar (col n v) (scalar m) (col n g) =
    some (col n g, scalar (∑ i ∈ Finset.range n, g i * -1)) := by
  simp only [back2, subScalar]
  rw [if_neg (by simp [sameDims])]
  simp only [col_map, col_sum, Option.bind_eq_bind, Option.bind_some]

/-- **C51.** For a nonempty column vector `x` the gradient that `Backward` accumulates on `x` through `LogSumExp` is
the incoming gradient times `softmax(x)` — also where several elements of `x` are maximal. -/
theorem logSumExp_gradient_partial {n : Nat} (hn : 0 < n) (v : Nat → ℝ) (g : ℝ) :
    logSumExpBackward (col n v) (scalar g) =
      some (col n fun i => g * (Real.exp (v i) / ∑ j ∈ Finset.range n, Real.exp (v j))) := by
  have hne : (col n v).data ≠ [] := by
    intro h; have := congrArg List.length h; simp at this; omega
  obtain ⟨a1, a2⟩ := VecFn.argMax_spec (col n v)
  obtain ⟨k, hk⟩ := Option.isSome_iff_exists.mp (a1.mpr ⟨col_isVector n v, hne⟩)
  obtain ⟨m, hm, -⟩ := a2 k hk
  have hkn : k < n := by
    have := (List.getElem?_eq_some_iff.mp hm).1; simpa using this
  have hmax : GradFn.reduceMax.forward [col n v] = some (scalar m) := by
    simp only [GradFn.reduceMax, hk, Option.bind_eq_bind, Option.bind_some, at1]
    rw [if_neg (by simp), if_neg (by simp; omega), Int.toNat_natCast, hm]
    rfl
  set S := ∑ i ∈ Finset.range n, Real.exp (v i - m) with hS
  have hSpos : 0 < S := Finset.sum_pos (fun i _ => Real.exp_pos _) ⟨0, by simp [hn]⟩
  have hexp : GradFn.exp.forward [col n fun i => v i - m] = some (col n fun i => Real.exp (v i - m)) := elementwise_col ..
  have hz : back1 GradFn.reduceMax (col n v) (scalar 0) = some (col n fun _ => 0) := by
    simp only [back1, GradFn.reduceMax, hk, item_scalar_some, Option.bind_eq_bind, Option.bind_some]
    rw [set1_vec (by simp [zeros, isVector]) 0 (by simpa [zeros] using hkn)]
    simp only [Option.bind_some, zeros, col, Option.some.injEq, Dense.mk.injEq, col_rows, col_cols, true_and]
    refine List.ext_getElem (by simp) fun i h1 h2 => ?_
    simp [List.getElem_set]
  have hgm : g + ∑ i ∈ Finset.range n, Real.exp (v i - m) * (1 / S * g) * -1 = 0 := by
    have : ∑ i ∈ Finset.range n, Real.exp (v i - m) * (1 / S * g) * -1 = S * (1 / S * g) * -1 := by
      rw [hS, Finset.sum_mul, Finset.sum_mul]
    rw [this]
    field_simp
    ring
  simp only [logSumExpBackward, hmax, subScalar_col, hexp, reduceSum_col, log_scalar, back2_add, ← hS,
    back1_log hSpos, back1_reduceSum, back1_exp, back2_subScalar, Option.bind_eq_bind, Option.bind_some]
  rw [show zipOp (· + ·) (scalar g) (scalar (∑ i ∈ Finset.range n, Real.exp (v i - m) * (1 / S * g) * -1)) =
    some (scalar (g + ∑ i ∈ Finset.range n, Real.exp (v i - m) * (1 / S * g) * -1)) from rfl, hgm]
  simp only [Option.bind_some, hz, col_zipOp]
  refine congrArg some (col_congr fun i _ => ?_)
  have hsum : S = (∑ j ∈ Finset.range n, Real.exp (v j)) / Real.exp m := by
    rw [hS, Finset.sum_div]
    exact Finset.sum_congr rfl fun j _ => Real.exp_sub _ _
  have hT : ∑ j ∈ Finset.range n, Real.exp (v j) ≠ 0 :=
    ne_of_gt (Finset.sum_pos (fun i _ => Real.exp_pos _) ⟨0, by simp [hn]⟩)
  have hm0 := Real.exp_ne_zero m
  rw [hsum, Real.exp_sub]
  field_simp
  ring

/-- The gradients over the elements add up to the incoming one. -/
theorem logSumExp_gradient_sum {n : Nat} (hn : 0 < n) (v : Nat → ℝ) (g : ℝ) : ∃ gx,
    logSumExpBackward (col n v) (scalar g) = some gx ∧ gx.sum = g := by
  refine ⟨_, logSumExp_gradient_partial hn v g, ?_⟩
  rw [col_sum, ← Finset.mul_sum, ← Finset.sum_div, div_self, mul_one]
  exact ne_of_gt (Finset.sum_pos (fun i _ => Real.exp_pos _) ⟨0, by simp [hn]⟩)

/-- **C51, violated.** For a row vector of more than one element `LogSumExp` has a value but its backward pass fails:
`ReduceSum` sends back a column vector. -/
theorem logSumExp_row_fails {n : Nat} (hn : 1 < n) (v : Nat → ℝ) (g : ℝ) :
    (logSumExp (mat2 1 n fun _ j => v j)).isSome ∧ logSumExpBackward (mat2 1 n fun _ j => v j) (scalar g) = none := by
  have hv : (mat2 1 n fun _ j => v j).isVector := by simp [isVector]
  have hne : (mat2 1 n fun _ j => v j).data ≠ [] := by
    intro h; have := congrArg List.length h; simp at this; omega
  refine ⟨by rw [logSumExp_eq hv hne]; rfl, ?_⟩
  obtain ⟨a1, a2⟩ := VecFn.argMax_spec (mat2 1 n fun _ j => v j)
  obtain ⟨k, hk⟩ := Option.isSome_iff_exists.mp (a1.mpr ⟨hv, hne⟩)
  obtain ⟨m, hm, -⟩ := a2 k hk
  have hkn : k < n := by
    have := (List.getElem?_eq_some_iff.mp hm).1; simpa using this
  have hmax : GradFn.reduceMax.forward [mat2 1 n fun _ j => v j] = some (scalar m) := by
    simp only [GradFn.reduceMax, hk, Option.bind_eq_bind, Option.bind_some, at1]
    rw [if_neg (by simp), if_neg (by simp; omega), Int.toNat_natCast, hm]
    rfl
  have hS : 0 < (mat2 1 n fun _ j => Real.exp (v j - m)).sum := by
    rw [mat2_sum]
    exact Finset.sum_pos (fun i _ => Finset.sum_pos (fun j _ => Real.exp_pos _) ⟨0, by simp; omega⟩) ⟨0, by simp⟩
  have hexp : GradFn.exp.forward [mat2 1 n fun _ j => v j - m] = some (mat2 1 n fun _ j => Real.exp (v j - m)) := by
    rw [GradFn.exp, elementwise_fwd, mat2_map]
  have hb : ∀ s : ℝ, back1 reduceSum (mat2 1 n fun _ j => Real.exp (v j - m)) (scalar s) =
      some ⟨n, 1, List.replicate n s⟩ := by
    intro s
    simp only [back1, reduceSum, item_scalar_some, Option.bind_eq_bind, Option.bind_some, mat2_length, Nat.one_mul]
  have he : ∀ s : ℝ, back1 GradFn.exp (mat2 1 n fun _ j => v j - m) ⟨n, 1, List.replicate n s⟩ = none := by
    intro s
    simp only [back1, GradFn.exp, elementwise]
    rw [if_pos (by simp [sameDims]; omega)]
    rfl
  have hs : subScalar.forward [mat2 1 n fun _ j => v j, scalar m] = some (mat2 1 n fun _ j => v j - m) := by
    rw [subScalar_fwd, mat2_map]
  have hr : reduceSum.forward [mat2 1 n fun _ j => Real.exp (v j - m)] =
      some (scalar (mat2 1 n fun _ j => Real.exp (v j - m)).sum) := rfl
  simp only [logSumExpBackward, hmax, hs, hexp, hr, log_scalar, back2_add, back1_log hS, hb, he, Option.bind_eq_bind,
    Option.bind_some, Option.bind_none]

/-- Two equal maxima: each gets half of the gradient. -/
example : logSumExpBackward (col 2 fun _ => 3) (scalar 1) = some (col 2 fun _ => 1 / 2) := by
  rw [logSumExp_gradient_partial (by omega)]
  refine congrArg some (col_congr fun i _ => ?_)
  have := Real.exp_ne_zero 3
  simp [Finset.sum_range_succ]
  field_simp

end Verif.DerivedOps
