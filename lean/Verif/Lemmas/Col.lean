import Verif.Model.Activation
import Verif.Lemmas.GradFn
import Verif.Props.GradMul

set_option autoImplicit false
set_option linter.unusedSimpArgs false

/-!
# Column vectors written as functions

`col n v` is the column vector of `n` elements `v 0, …, v (n-1)`. Every well-formed column vector has this form
(`eq_col`), and the operators act on it like the usual operations on functions.
-/

namespace Verif
open GradFn Dense
open scoped BigOperators

/-- The column vector of the elements `v 0, …, v (n - 1)`. -/
def col (n : Nat) (v : Nat → ℝ) : Dense ℝ := ⟨n, 1, (List.range n).map v⟩

@[simp] theorem col_rows (n : Nat) (v : Nat → ℝ) : (col n v).rows = n := rfl
@[simp] theorem col_cols (n : Nat) (v : Nat → ℝ) : (col n v).cols = 1 := rfl
@[simp] theorem col_length (n : Nat) (v : Nat → ℝ) : (col n v).data.length = n := by simp [col]
theorem col_WF (n : Nat) (v : Nat → ℝ) : (col n v).WF := by simp [WF, col]
theorem col_val {n : Nat} (v : Nat → ℝ) {i : Nat} (h : i < n) : (col n v).val i = v i := by simp [val, col, h]
theorem col_isVector (n : Nat) (v : Nat → ℝ) : (col n v).isVector = true := by simp [isVector, col]

theorem col_congr {n : Nat} {u v : Nat → ℝ} (h : ∀ i < n, u i = v i) : col n u = col n v := by
  simp only [col, Dense.mk.injEq, true_and]
  exact List.map_congr_left fun i hi => h i (List.mem_range.mp hi)

theorem col_inj {n : Nat} {u v : Nat → ℝ} (h : col n u = col n v) : ∀ i < n, u i = v i := fun i hi => by
  rw [← col_val u hi, ← col_val v hi, h]

/-- Every column vector has the form `col n v`. -/
theorem eq_col {d : Dense ℝ} (h : d.WF) (hc : d.cols = 1) : d = col d.rows d.val := by
  have hl : d.data.length = d.rows := by have : d.data.length = d.rows * d.cols := h; simpa [hc] using this
  cases d with
  | mk r c l =>
    simp only at hc hl
    subst hc
    simp only [col, Dense.mk.injEq, true_and]
    refine List.ext_getElem (by simp [hl]) fun i h1 h2 => ?_
    simp [val, h1]

theorem col_scalar (v : Nat → ℝ) : col 1 v = scalar (v 0) := rfl
theorem scalar_col (a : ℝ) : scalar a = col 1 fun _ => a := rfl

theorem col_map (n : Nat) (v : Nat → ℝ) (f : ℝ → ℝ) : (col n v).map f = col n fun i => f (v i) := by
  simp [col, Dense.map]

theorem col_zipOp (n : Nat) (f : ℝ → ℝ → ℝ) (u v : Nat → ℝ) :
    zipOp f (col n u) (col n v) = some (col n fun i => f (u i) (v i)) := by
  rw [zipOp, if_pos (by simp [sameDims, col])]
  simp [col, List.zipWith_map, List.zipWith_self]

theorem zipOp_col_none {n m : Nat} (f : ℝ → ℝ → ℝ) (u v : Nat → ℝ) (h : n ≠ m) :
    zipOp f (col n u) (col m v) = none := by
  rw [zipOp, if_neg (by simp [sameDims, col, h])]

theorem item_sc (a : ℝ) : item (scalar a) = some a := by simp [item, isScalar, scalar]

theorem add_col (n : Nat) (u v : Nat → ℝ) : GradFn.add.forward [col n u, col n v] = some (col n fun i => u i + v i) :=
  col_zipOp _ _ _ _
theorem sub_col (n : Nat) (u v : Nat → ℝ) : GradFn.sub.forward [col n u, col n v] = some (col n fun i => u i - v i) :=
  col_zipOp _ _ _ _
theorem prod_col (n : Nat) (u v : Nat → ℝ) : prod.forward [col n u, col n v] = some (col n fun i => u i * v i) :=
  col_zipOp _ _ _ _
theorem div_col (n : Nat) (u v : Nat → ℝ) : GradFn.div.forward [col n u, col n v] = some (col n fun i => u i / v i) :=
  col_zipOp _ _ _ _

theorem elementwise_col (f df : ℝ → ℝ) (n : Nat) (v : Nat → ℝ) :
    (elementwise f df).forward [col n v] = some (col n fun i => f (v i)) := by
  simp only [elementwise, apply_const, col_map]

theorem addScalar_col (n : Nat) (v : Nat → ℝ) (c : ℝ) :
    addScalar.forward [col n v, scalar c] = some (col n fun i => v i + c) := by
  simp [addScalar, item_sc, col_map]
theorem subScalar_col (n : Nat) (v : Nat → ℝ) (c : ℝ) :
    subScalar.forward [col n v, scalar c] = some (col n fun i => v i - c) := by
  simp [subScalar, item_sc, col_map]
theorem prodScalar_col (n : Nat) (v : Nat → ℝ) (c : ℝ) :
    prodScalar.forward [col n v, scalar c] = some (col n fun i => v i * c) := by
  simp [prodScalar, item_sc, col_map]
theorem divScalar_col (n : Nat) (v : Nat → ℝ) (c : ℝ) :
    divScalar.forward [col n v, scalar c] = some (col n fun i => v i / c) := by
  simp [divScalar, item_sc, col_map, div_eq_mul_inv]
theorem reverseSubScalar_col (n : Nat) (v : Nat → ℝ) (c : ℝ) :
    reverseSubScalar.forward [col n v, scalar c] = some (col n fun i => c - v i) := by
  simp only [reverseSubScalar, item_sc, Option.bind_eq_bind, Option.bind_some, col_map]
  exact congrArg some (col_congr fun i _ => by ring)

theorem col_sum (n : Nat) (v : Nat → ℝ) : (col n v).sum = ∑ i ∈ Finset.range n, v i := by
  rw [sum_eq_val, col_length]
  exact Finset.sum_congr rfl fun i hi => col_val v (Finset.mem_range.mp hi)

theorem reduceSum_col (n : Nat) (v : Nat → ℝ) :
    reduceSum.forward [col n v] = some (scalar (∑ i ∈ Finset.range n, v i)) := by
  simp only [reduceSum, col_sum]

theorem reduceMean_col (n : Nat) (v : Nat → ℝ) :
    GradFn.reduceMean.forward [col n v] = some (scalar ((∑ i ∈ Finset.range n, v i) / n)) := by
  simp only [GradFn.reduceMean, col_sum, col_length, mul_one_div]


/-- A matrix times a column vector. -/
theorem mul_col {w : Dense ℝ} (hw : w.WF) (x : Nat → ℝ) :
    w.mul (col w.cols x) = some (col w.rows fun i => ∑ k ∈ Finset.range w.cols, w.el i k * x k) := by
  obtain ⟨h1, h2⟩ := mul_spec hw (col_WF w.cols x)
  obtain ⟨y, hy⟩ := Option.isSome_iff_exists.mp (h1.mpr rfl)
  obtain ⟨h3, h4, h5, h6⟩ := h2 y hy
  rw [hy, eq_col h3 h5, h4]
  refine congrArg some (col_congr fun i hi => ?_)
  have h7 := h6 i hi 0 (by simp)
  rw [el_val y (by omega) (by rw [h5]; simp), h5] at h7
  simp only [col_cols, Nat.mul_one, Nat.add_zero] at h7
  rw [h7]
  refine Finset.sum_congr rfl fun k hk => ?_
  have hk := Finset.mem_range.mp hk
  rw [el_val (col w.cols x) (by simpa using hk) (by simp)]
  simp [col_val x hk]

/-- `b + W x` -/
theorem affine_col {w : Dense ℝ} (hw : w.WF) (b x : Nat → ℝ) :
    affine.forward [col w.rows b, w, col w.cols x] =
      some (col w.rows fun i => ∑ k ∈ Finset.range w.cols, w.el i k * x k + b i) := by
  simp only [affine, affineLoop, mul_col hw, Option.bind_eq_bind, Option.bind_some, col_zipOp]

/-- `b + W x + V y` -/
theorem affine2_col {w v : Dense ℝ} (hw : w.WF) (hv : v.WF) (hr : v.rows = w.rows) (b x y : Nat → ℝ) :
    affine.forward [col w.rows b, w, col w.cols x, v, col v.cols y] =
      some (col w.rows fun i => ∑ k ∈ Finset.range w.cols, w.el i k * x k + b i +
        ∑ k ∈ Finset.range v.cols, v.el i k * y k) := by
  simp only [affine, affineLoop, mul_col hw, mul_col hv, hr, Option.bind_eq_bind, Option.bind_some, col_zipOp]

end Verif
