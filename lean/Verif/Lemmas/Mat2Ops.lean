import Verif.Lemmas.Mat2
import Verif.Props.DenseMul
import Verif.Props.DenseT
import Verif.Props.DenseShape

set_option autoImplicit false
set_option linter.unusedSimpArgs false

/-!
# Matrix operations on matrices written as functions
-/

namespace Verif
open GradFn Dense
open scoped BigOperators

theorem col_eq_mat2 (n : Nat) (v : Nat → ℝ) : col n v = mat2 n 1 fun i _ => v i := by
  refine eq_mat2 (r := n) (c := 1) (col_WF n v) rfl rfl fun i hi j hj => ?_
  obtain rfl : j = 0 := by omega
  rw [el_val _ (by simpa using hi) (by simp)]
  simp [col_val v hi]

theorem mat2_eq_col (n : Nat) (f : Nat → Nat → ℝ) : mat2 n 1 f = col n fun i => f i 0 := by
  rw [col_eq_mat2]
  exact mat2_congr fun i _ j hj => by rw [show j = 0 by omega]

theorem mat2_data (r c : Nat) (f : Nat → Nat → ℝ) : (mat2 r c f).data = (List.range (r * c)).map fun k => f (k / c) (k % c) := rfl

theorem mat2_T (r c : Nat) (f : Nat → Nat → ℝ) : (mat2 r c f).T = some (mat2 c r fun i j => f j i) := by
  obtain ⟨t, h1, h2, h3, h4, h5⟩ := T_spec (mat2_WF r c f)
  rw [h1]
  refine congrArg some (eq_mat2 h2 h3 h4 fun i hi j hj => ?_)
  rw [← mat2_el (r := r) (c := c) f hj hi]
  exact el_of_at2 (h5 j i)

theorem mat2_mul (r c d : Nat) (f g : Nat → Nat → ℝ) :
    (mat2 r c f).mul (mat2 c d g) = some (mat2 r d fun i j => ∑ k ∈ Finset.range c, f i k * g k j) := by
  obtain ⟨h1, h2⟩ := mul_spec (mat2_WF r c f) (mat2_WF c d g)
  obtain ⟨y, hy⟩ := Option.isSome_iff_exists.mp (h1.mpr rfl)
  obtain ⟨h3, h4, h5, h6⟩ := h2 y hy
  rw [hy]
  refine congrArg some (eq_mat2 (r := r) (c := d) h3 h4 h5 fun i hi j hj => ?_)
  rw [h6 i hi j hj]
  exact Finset.sum_congr rfl fun k hk => by rw [mat2_el f hi (Finset.mem_range.mp hk), mat2_el g (Finset.mem_range.mp hk) hj]

theorem mat2_mul_none {r c c' d : Nat} (f g : Nat → Nat → ℝ) (h : c ≠ c') : (mat2 r c f).mul (mat2 c' d g) = none := by
  rw [← Option.not_isSome_iff_eq_none, (mul_spec (mat2_WF r c f) (mat2_WF c' d g)).1]
  exact h

theorem mat2_row {r c i : Nat} (f : Nat → Nat → ℝ) (hi : i < r) :
    (rowView (i : Int)).forward [mat2 r c f] = some (mat2 1 c fun _ j => f i j) := by
  obtain ⟨h1, h2⟩ := extractRow_spec (mat2_WF r c f) (i : Int)
  obtain ⟨y, hy⟩ := Option.isSome_iff_exists.mp (h1.mpr ⟨by omega, by simp; omega⟩)
  obtain ⟨h3, h4, h5, h6⟩ := h2 y hy
  simp only [rowView]
  rw [if_neg (by omega), hy]
  refine congrArg some (eq_mat2 h3 h4 h5 fun p hp j hj => ?_)
  obtain rfl : p = 0 := by omega
  rw [← mat2_el (r := r) (c := c) f hi hj]
  exact el_of_at2 (h6 j)

theorem mat2_colView {r c i : Nat} (f : Nat → Nat → ℝ) (hi : i < c) :
    (colView (i : Int)).forward [mat2 r c f] = some (col r fun j => f j i) := by
  obtain ⟨h1, h2⟩ := extractColumn_spec (mat2_WF r c f) (i : Int)
  obtain ⟨y, hy⟩ := Option.isSome_iff_exists.mp (h1.mpr ⟨by omega, by simp; omega⟩)
  obtain ⟨h3, h4, h5, h6⟩ := h2 y hy
  simp only [colView]
  rw [if_neg (by omega), hy, col_eq_mat2]
  refine congrArg some (eq_mat2 h3 h4 h5 fun j hj p hp => ?_)
  obtain rfl : p = 0 := by omega
  rw [← mat2_el (r := r) (c := c) f hj hi]
  exact el_of_at2 (h6 j)

/-- `Stack` of `n` column vectors of size `c` is the `n × c` matrix with these as rows. -/
theorem stack_cols {n c : Nat} (hn : 0 < n) (F : Nat → Nat → ℝ) :
    GradFn.stack.forward ((List.range n).map fun i => col c (F i)) = some (mat2 n c F) := by
  have hst : GradFn.stack.forward ((List.range n).map fun i => col c (F i)) = Dense.stack ((List.range n).map fun i => col c (F i)) := by
    obtain ⟨m, rfl⟩ : ∃ m, n = m + 1 := ⟨n - 1, by omega⟩
    rw [List.range_succ_eq_map]; rfl
  obtain ⟨s1, s2⟩ := stack_spec ((List.range n).map fun i => col c (F i))
  obtain ⟨m, hm⟩ := Option.isSome_iff_exists.mp (s1.mpr fun v hv => by
    obtain ⟨i, -, rfl⟩ := List.mem_map.mp hv
    refine ⟨Or.inr rfl, fun w hw => ?_⟩
    obtain ⟨j, -, rfl⟩ := List.mem_map.mp hw
    simp)
  obtain ⟨m1, m2, m3⟩ := s2 m hm
  rw [hst, hm]
  have hc := (m3 0 (col c (F 0)) (by simp [hn])).1
  rw [col_length] at hc
  refine congrArg some (eq_mat2 m1 (by simpa using m2) hc fun i hi j hj => ?_)
  have h1 := (m3 i (col c (F i)) (by simp [hi])).2 j
  have h2 := at2_el m1 (i := i) (j := j) (by rw [m2]; simpa using hi) (by omega)
  rw [h2, List.getElem?_eq_getElem (by simpa using hj)] at h1
  rw [Option.some.inj h1]
  simp [col]

theorem item_scalar_some (a : ℝ) : item (scalar a) = some a := rfl

theorem mat2_one_one (f : Nat → Nat → ℝ) : mat2 1 1 f = scalar (f 0 0) := by
  rw [mat2_eq_col]; rfl

end Verif
