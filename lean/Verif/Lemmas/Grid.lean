import Verif.Lemmas.Col

set_option autoImplicit false
set_option linter.unusedSimpArgs false

/-!
# Matrices written as functions of the row-major position

`grid r c v` is the `r × c` matrix whose data are `v 0, …, v (r*c-1)`. Every well-formed matrix has this form
(`eq_grid`), and element-wise operations act on it like the usual operations on functions.
-/

namespace Verif
open GradFn Dense
open scoped BigOperators

/-- The `r × c` matrix of the elements `v 0, …, v (r * c - 1)`, in row-major order. -/
def grid (r c : Nat) (v : Nat → ℝ) : Dense ℝ := ⟨r, c, (List.range (r * c)).map v⟩

@[simp] theorem grid_rows (r c : Nat) (v : Nat → ℝ) : (grid r c v).rows = r := rfl
@[simp] theorem grid_cols (r c : Nat) (v : Nat → ℝ) : (grid r c v).cols = c := rfl
@[simp] theorem grid_length (r c : Nat) (v : Nat → ℝ) : (grid r c v).data.length = r * c := by simp [grid]
theorem grid_WF (r c : Nat) (v : Nat → ℝ) : (grid r c v).WF := by simp [WF, grid]
theorem grid_val {r c : Nat} (v : Nat → ℝ) {i : Nat} (h : i < r * c) : (grid r c v).val i = v i := by
  simp [val, grid, h]

theorem grid_congr {r c : Nat} {u v : Nat → ℝ} (h : ∀ i < r * c, u i = v i) : grid r c u = grid r c v := by
  simp only [grid, Dense.mk.injEq, true_and]
  exact List.map_congr_left fun i hi => h i (List.mem_range.mp hi)

/-- Every matrix has the form `grid r c v`. -/
theorem eq_grid {d : Dense ℝ} (h : d.WF) : d = grid d.rows d.cols d.val := by
  have hl : d.data.length = d.rows * d.cols := h
  cases d with
  | mk r c l =>
    simp only at hl
    simp only [grid, Dense.mk.injEq, true_and]
    refine List.ext_getElem (by simp [hl]) fun i h1 h2 => ?_
    simp [val, h1]

theorem grid_map (r c : Nat) (v : Nat → ℝ) (f : ℝ → ℝ) : (grid r c v).map f = grid r c fun i => f (v i) := by
  simp [grid, Dense.map]

theorem grid_zipOp (r c : Nat) (f : ℝ → ℝ → ℝ) (u v : Nat → ℝ) :
    zipOp f (grid r c u) (grid r c v) = some (grid r c fun i => f (u i) (v i)) := by
  rw [zipOp, if_pos (by simp [sameDims, grid])]
  simp [grid, List.zipWith_map, List.zipWith_self]

theorem grid_zeros (r c : Nat) : (zeros r c : Dense ℝ) = grid r c fun _ => 0 := by
  simp [zeros, grid]

theorem grid_sum (r c : Nat) (v : Nat → ℝ) : (grid r c v).sum = ∑ i ∈ Finset.range (r * c), v i := by
  rw [sum_eq_val, grid_length]
  exact Finset.sum_congr rfl fun i hi => grid_val v (Finset.mem_range.mp hi)

end Verif
