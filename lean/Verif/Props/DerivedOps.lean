import Verif.Model.DerivedOps
import Verif.Lemmas.Mat2Ops
import Verif.Props.Losses
import Verif.Props.GradMax
import Verif.Props.MultiHead
import Verif.Props.GradPool
import Mathlib.Tactic.Ring
import Mathlib.Tactic.FieldSimp

set_option autoImplicit false
set_option linter.unusedSimpArgs false

/-!
# C50: functions built from operators
-/

namespace Verif.DerivedOps
open GradFn Dense Losses
open scoped BigOperators

/-- All matrices of the list are well-formed and have the shape `r × c`. -/
def Same (r c : Nat) (xs : List (Dense ℝ)) : Prop := ∀ x ∈ xs, x.WF ∧ x.rows = r ∧ x.cols = c

/-! ### Sum, Mean, Maximum, Minimum -/

theorem foldOp_grid {op : GradFn ℝ} {f : ℝ → ℝ → ℝ} (hop : ∀ a b, op.forward [a, b] = zipOp f a b) {r c : Nat}
    (xs : List (Dense ℝ)) (hx : Same r c xs) (u : Nat → ℝ) :
    foldOp op (grid r c u) xs = some (grid r c fun k => (xs.map fun x => x.val k).foldl f (u k)) := by
  induction xs generalizing u with
  | nil => rfl
  | cons x xs ih =>
    obtain ⟨h1, h2, h3⟩ := hx x (by simp)
    have hg : x = grid r c x.val := by rw [← h2, ← h3]; exact eq_grid h1
    simp only [foldOp, hop]
    rw [show zipOp f (grid r c u) x = some (grid r c fun i => f (u i) (x.val i)) by
      conv_lhs => rw [hg]
      exact grid_zipOp ..]
    simp only [Option.bind_eq_bind, Option.bind_some]
    rw [ih (fun y hy => hx y (by simp [hy]))]
    rfl

theorem foldOp_shape {op : GradFn ℝ} {f : ℝ → ℝ → ℝ} (hop : ∀ a b, op.forward [a, b] = zipOp f a b)
    (xs : List (Dense ℝ)) (a y : Dense ℝ) (h : foldOp op a xs = some y) : ∀ x ∈ xs, x.rows = a.rows ∧ x.cols = a.cols := by
  induction xs generalizing a with
  | nil => simp
  | cons x xs ih =>
    simp only [foldOp, hop, Option.bind_eq_bind, Option.bind_eq_some_iff] at h
    obtain ⟨b, hb, h⟩ := h
    unfold zipOp at hb
    split at hb
    · rename_i hd
      obtain rfl := Option.some.inj hb
      have hd := sameDims_iff.mp hd
      intro z hz
      rcases List.mem_cons.mp hz with rfl | hz
      · exact ⟨hd.1.symm, hd.2.symm⟩
      · exact ih _ h z hz
    · cases hb

theorem foldl_add (l : List ℝ) (a : ℝ) : l.foldl (· + ·) a = a + l.sum := by
  induction l generalizing a with
  | nil => simp
  | cons b l ih => rw [List.foldl_cons, ih, List.sum_cons, _root_.add_assoc]

theorem foldl_max (l : List ℝ) (a : ℝ) :
    IsGreatest {v | v ∈ a :: l} (l.foldl (fun a b => if b < a then a else b) a) := by
  induction l generalizing a with
  | nil => simp [IsGreatest, upperBounds]
  | cons b l ih =>
    rw [List.foldl_cons]
    obtain ⟨h1, h2⟩ := ih (if b < a then a else b)
    constructor
    · rcases List.mem_cons.mp h1 with h1 | h1
      · rw [h1]; split <;> simp
      · simp [h1]
    · intro v hv
      have hm := h2 (show (if b < a then a else b) ∈ (if b < a then a else b) :: l by simp)
      rcases List.mem_cons.mp hv with rfl | hv
      · refine le_trans ?_ hm; split <;> linarith
      rcases List.mem_cons.mp hv with rfl | hv
      · refine le_trans ?_ hm; split <;> linarith
      · exact h2 (List.mem_cons.mpr (Or.inr hv))

theorem foldl_min (l : List ℝ) (a : ℝ) :
    IsLeast {v | v ∈ a :: l} (l.foldl (fun a b => if a < b then a else b) a) := by
  induction l generalizing a with
  | nil => simp [IsLeast, lowerBounds]
  | cons b l ih =>
    rw [List.foldl_cons]
    obtain ⟨h1, h2⟩ := ih (if a < b then a else b)
    constructor
    · rcases List.mem_cons.mp h1 with h1 | h1
      · rw [h1]; split <;> simp
      · simp [h1]
    · intro v hv
      have hm := h2 (show (if a < b then a else b) ∈ (if a < b then a else b) :: l by simp)
      rcases List.mem_cons.mp hv with rfl | hv
      · refine le_trans hm ?_; split <;> linarith
      rcases List.mem_cons.mp hv with rfl | hv
      · refine le_trans hm ?_; split <;> linarith
      · exact h2 (List.mem_cons.mpr (Or.inr hv))

theorem fold_facts {op : GradFn ℝ} {f : ℝ → ℝ → ℝ} (hop : ∀ a b, op.forward [a, b] = zipOp f a b) (x : Dense ℝ)
    (xs : List (Dense ℝ)) (hwf : ∀ z ∈ x :: xs, z.WF) :
    ((foldOp op x xs).isSome ↔ ∃ r c, Same r c (x :: xs)) ∧ ∀ y, foldOp op x xs = some y →
      y.WF ∧ Same y.rows y.cols (x :: xs) ∧
        ∀ k < y.data.length, y.val k = (xs.map fun z => z.val k).foldl f (x.val k) := by
  have key : ∀ r c, Same r c (x :: xs) →
      foldOp op x xs = some (grid r c fun k => (xs.map fun z => z.val k).foldl f (x.val k)) := by
    intro r c hs
    obtain ⟨h1, h2, h3⟩ := hs x (by simp)
    conv_lhs => rw [show x = grid r c x.val by rw [← h2, ← h3]; exact eq_grid h1]
    exact foldOp_grid hop xs (fun z hz => hs z (by simp [hz])) _
  have shape : ∀ y, foldOp op x xs = some y → Same x.rows x.cols (x :: xs) := by
    intro y hy z hz
    refine ⟨hwf z hz, ?_⟩
    rcases List.mem_cons.mp hz with rfl | hz
    · exact ⟨rfl, rfl⟩
    · exact foldOp_shape hop xs x y hy z hz
  refine ⟨⟨fun h => ?_, fun ⟨r, c, hs⟩ => by rw [key r c hs]; rfl⟩, fun y hy => ?_⟩
  · obtain ⟨y, hy⟩ := Option.isSome_iff_exists.mp h
    exact ⟨_, _, shape y hy⟩
  · have hs := shape y hy
    rw [key _ _ hs] at hy
    obtain rfl := Option.some.inj hy
    refine ⟨grid_WF .., hs, fun k hk => ?_⟩
    rw [grid_length] at hk
    exact grid_val _ hk

/-- **C50.** `Sum` returns exactly when there is at least one matrix and all have the same shape; the result has that
shape and its elements are the sums of the elements. -/
theorem sum_spec (xs : List (Dense ℝ)) (hwf : ∀ z ∈ xs, z.WF) :
    ((sum xs).isSome ↔ xs ≠ [] ∧ ∃ r c, Same r c xs) ∧ ∀ y, sum xs = some y →
      y.WF ∧ Same y.rows y.cols xs ∧ ∀ k < y.data.length, y.val k = (xs.map fun z => z.val k).sum := by
  cases xs with
  | nil => simp [sum]
  | cons x xs =>
    obtain ⟨h1, h2⟩ := fold_facts (op := GradFn.add) (f := (· + ·)) (fun _ _ => rfl) x xs hwf
    refine ⟨by simpa [sum] using h1, fun y hy => ?_⟩
    obtain ⟨h3, h4, h5⟩ := h2 y hy
    exact ⟨h3, h4, fun k hk => by rw [h5 k hk, foldl_add]; simp⟩

/-- **C50.** `Mean`: the averages of the elements. -/
theorem mean_spec (xs : List (Dense ℝ)) (hwf : ∀ z ∈ xs, z.WF) :
    ((mean xs).isSome ↔ xs ≠ [] ∧ ∃ r c, Same r c xs) ∧ ∀ y, mean xs = some y →
      y.WF ∧ Same y.rows y.cols xs ∧ ∀ k < y.data.length, y.val k = (xs.map fun z => z.val k).sum / xs.length := by
  cases xs with
  | nil => simp [mean]
  | cons x xs =>
    obtain ⟨h1, h2⟩ := fold_facts (op := GradFn.add) (f := (· + ·)) (fun _ _ => rfl) x xs hwf
    refine ⟨?_, fun y hy => ?_⟩
    · rw [← show (foldOp GradFn.add x xs).isSome ↔ x :: xs ≠ [] ∧ ∃ r c, Same r c (x :: xs) by simpa using h1, mean]
      cases foldOp GradFn.add x xs <;> simp [divScalar_fwd]
    · simp only [mean, Option.bind_eq_bind, Option.bind_eq_some_iff, divScalar_fwd] at hy
      obtain ⟨s, hs, hy⟩ := hy
      obtain rfl := Option.some.inj hy
      obtain ⟨h3, h4, h5⟩ := h2 s hs
      refine ⟨by simpa [WF, Dense.map] using h3, h4, fun k hk => ?_⟩
      have hk' : k < s.data.length := by simpa [Dense.map] using hk
      rw [show (s.map fun v => v * (1 / ((xs.length + 1 : Nat) : ℝ))).val k = s.val k * (1 / ((xs.length + 1 : Nat) : ℝ)) by
        simp [val, Dense.map, hk'], h5 k hk', foldl_add, mul_one_div]
      simp

/-- **C50.** `Maximum`: each element is the greatest of the elements at its position. -/
theorem maximum_spec (xs : List (Dense ℝ)) (hwf : ∀ z ∈ xs, z.WF) :
    ((maximum xs).isSome ↔ xs ≠ [] ∧ ∃ r c, Same r c xs) ∧ ∀ y, maximum xs = some y →
      y.WF ∧ Same y.rows y.cols xs ∧ ∀ k < y.data.length, IsGreatest {v | ∃ z ∈ xs, z.val k = v} (y.val k) := by
  cases xs with
  | nil => simp [maximum]
  | cons x xs =>
    obtain ⟨h1, h2⟩ := fold_facts (op := GradFn.max) (f := fun a b => if b < a then a else b) (fun _ _ => rfl) x xs hwf
    refine ⟨by simpa [maximum] using h1, fun y hy => ?_⟩
    obtain ⟨h3, h4, h5⟩ := h2 y hy
    refine ⟨h3, h4, fun k hk => ?_⟩
    rw [h5 k hk]
    have := foldl_max (xs.map fun z => z.val k) (x.val k)
    convert this using 1
    ext v
    simp [eq_comm]

/-- **C50.** `Minimum`: each element is the least of the elements at its position. -/
theorem minimum_spec (xs : List (Dense ℝ)) (hwf : ∀ z ∈ xs, z.WF) :
    ((minimum xs).isSome ↔ xs ≠ [] ∧ ∃ r c, Same r c xs) ∧ ∀ y, minimum xs = some y →
      y.WF ∧ Same y.rows y.cols xs ∧ ∀ k < y.data.length, IsLeast {v | ∃ z ∈ xs, z.val k = v} (y.val k) := by
  cases xs with
  | nil => simp [minimum]
  | cons x xs =>
    obtain ⟨h1, h2⟩ := fold_facts (op := GradFn.min) (f := fun a b => if a < b then a else b) (fun _ _ => rfl) x xs hwf
    refine ⟨by simpa [minimum] using h1, fun y hy => ?_⟩
    obtain ⟨h3, h4, h5⟩ := h2 y hy
    refine ⟨h3, h4, fun k hk => ?_⟩
    rw [h5 k hk]
    have := foldl_min (xs.map fun z => z.val k) (x.val k)
    convert this using 1
    ext v
    simp [eq_comm]

/-- Three vectors: sum (9, 6), mean (3, 2), maximum (5, 4), minimum (1, 0). -/
example : sum [column [1, 2], column [3, 4], column [5, 0]] = some (column [9, 6]) ∧
    mean [column [1, 2], column [3, 4], column [5, 0]] = some (column [3, 2]) ∧
    maximum [column [1, 2], column [3, 4], column [5, 0]] = some (column [5, 4]) ∧
    minimum [column [1, 2], column [3, 4], column [5, 0]] = some (column [1, 0]) := by
  refine ⟨?_, ?_, ?_, ?_⟩
  · simp [sum, foldOp, GradFn.add, zipOp, column, sameDims]; norm_num
  · simp [mean, foldOp, GradFn.add, zipOp, column, sameDims, divScalar, item, isScalar, scalar, Dense.map]; norm_num
  · simp [maximum, foldOp, GradFn.max, zipOp, column, sameDims]; norm_num
  · simp [minimum, foldOp, GradFn.min, zipOp, column, sameDims]; norm_num

/-! ### BiLinear, BiAffine, PositiveELU -/

/-- **C50.** `BiLinear(w, x, y) = Σ_i Σ_j x_i w_ij y_j`. -/
theorem biLinear_eq {w : Dense ℝ} (hw : w.WF) (x y : Nat → ℝ) : biLinear w (col w.rows x) (col w.cols y) =
    some (scalar (∑ i ∈ Finset.range w.rows, ∑ j ∈ Finset.range w.cols, x i * w.el i j * y j)) := by
  have h1 : transpose.forward [col w.rows x] = some (mat2 1 w.rows fun _ j => x j) := by
    rw [col_eq_mat2]; exact mat2_T ..
  have h2 : GradFn.mul.forward [mat2 1 w.rows fun _ j => x j, w] =
      some (mat2 1 w.cols fun _ j => ∑ k ∈ Finset.range w.rows, x k * w.el k j) := by
    conv_lhs => rw [eq_mat2_self hw]
    exact mat2_mul ..
  have h3 := mat2_mul 1 w.cols 1 (fun _ j => ∑ k ∈ Finset.range w.rows, x k * w.el k j) fun i _ => y i
  simp only [biLinear, h1, h2, Option.bind_eq_bind, Option.bind_some]
  rw [col_eq_mat2]
  refine h3.trans ?_
  rw [mat2_one_one]
  simp only [Finset.sum_mul]
  rw [Finset.sum_comm]

/-- **C50.** `BiAffine(w, u, v, b, x, y) = x' w y + u' x + v' y + b`. -/
theorem biAffine_eq {w : Dense ℝ} (hw : w.WF) (u v x y : Nat → ℝ) (b : ℝ) :
    biAffine w (col w.rows u) (col w.cols v) (scalar b) (col w.rows x) (col w.cols y) =
      some (scalar ((∑ i ∈ Finset.range w.rows, ∑ j ∈ Finset.range w.cols, x i * w.el i j * y j) +
        (∑ i ∈ Finset.range w.rows, u i * x i) + (∑ j ∈ Finset.range w.cols, v j * y j) + b)) := by
  have hd : ∀ (n : Nat) (p q : Nat → ℝ), GradFn.mul.forward [mat2 1 n fun _ j => p j, col n q] =
      some (scalar (∑ k ∈ Finset.range n, p k * q k)) := by
    intro n p q
    rw [col_eq_mat2]
    refine (mat2_mul 1 n 1 _ _).trans ?_
    rw [mat2_one_one]
  have ht : ∀ (n : Nat) (p : Nat → ℝ), transpose.forward [col n p] = some (mat2 1 n fun _ j => p j) := by
    intro n p; rw [col_eq_mat2]; exact mat2_T ..
  simp only [biAffine, biLinear_eq hw, ht, hd, add_scalar, Option.bind_eq_bind, Option.bind_some]

/-- **C50.** `PositiveELU(x)` is `exp x` up to 0 and `x + 1` above, in particular positive. -/
theorem positiveELU_eq (x : Dense ℝ) : positiveELU x = some (x.map fun v => if v ≤ 0 then Real.exp v else v + 1) := by
  have h : elu.forward [x, scalar 1] = some (x.map (eluF [1])) := by
    simp only [elu, elementwiseParams, List.mapM_cons, List.mapM_nil, item_scalar_some, Option.bind_eq_bind,
      Option.bind_some, apply_const, Option.pure_def]
  simp only [positiveELU, h, addScalar_fwd, Option.bind_eq_bind, Option.bind_some]
  rw [Dense.map, Dense.map, Dense.map]
  simp only [List.map_map, Option.some.injEq, Dense.mk.injEq, true_and]
  refine List.map_congr_left fun v _ => ?_
  simp only [Function.comp_apply, eluF]
  by_cases hv : v ≤ 0
  · rw [if_pos hv, if_pos hv]; simp
  · rw [if_neg hv, if_neg hv, if_pos (by linarith)]

theorem positiveELU_pos {x y : Dense ℝ} (h : positiveELU x = some y) : ∀ v ∈ y.data, 0 < v := by
  rw [positiveELU_eq] at h
  obtain rfl := Option.some.inj h
  intro v hv
  obtain ⟨a, -, rfl⟩ := List.mem_map.mp hv
  split
  · exact Real.exp_pos a
  · linarith

/-! ### Views -/

/-- **C50.** `RowViews` returns the rows, `ColViews` the columns (as column vectors). -/
theorem views_eq (r c : Nat) (f : Nat → Nat → ℝ) :
    rowViews (mat2 r c f) = some ((List.range r).map fun i => mat2 1 c fun _ j => f i j) ∧
    colViews (mat2 r c f) = some ((List.range c).map fun j => col r fun i => f i j) :=
  ⟨MultiHead.mapM_range_some fun _ hi => mat2_row f hi, MultiHead.mapM_range_some fun _ hi => mat2_colView f hi⟩

/-- **C50.** `Stack` undoes `RowViews`. -/
theorem stack_rowViews {r c : Nat} (hr : 0 < r) (f : Nat → Nat → ℝ) :
    (rowViews (mat2 r c f)).bind GradFn.stack.forward = some (mat2 r c f) := by
  rw [(views_eq r c f).1, Option.bind_some]
  have hst : GradFn.stack.forward ((List.range r).map fun i => mat2 1 c fun _ j => f i j) =
      Dense.stack ((List.range r).map fun i => mat2 1 c fun _ j => f i j) := by
    obtain ⟨m, rfl⟩ : ∃ m, r = m + 1 := ⟨r - 1, by omega⟩
    rw [List.range_succ_eq_map]; rfl
  obtain ⟨s1, s2⟩ := stack_spec ((List.range r).map fun i => mat2 1 c fun _ j => f i j)
  obtain ⟨m, hm⟩ := Option.isSome_iff_exists.mp (s1.mpr fun v hv => by
    obtain ⟨i, -, rfl⟩ := List.mem_map.mp hv
    refine ⟨Or.inl rfl, fun w hw => ?_⟩
    obtain ⟨j, -, rfl⟩ := List.mem_map.mp hw
    simp)
  obtain ⟨m1, m2, m3⟩ := s2 m hm
  rw [hst, hm]
  have hc := (m3 0 (mat2 1 c fun _ j => f 0 j) (by simp [hr])).1
  rw [mat2_length, Nat.one_mul] at hc
  refine congrArg some (eq_mat2 m1 (by simpa using m2) hc fun i hi j hj => ?_)
  have h1 := (m3 i (mat2 1 c fun _ j => f i j) (by simp [hi])).2 j
  have h2 := at2_el m1 (i := i) (j := j) (by rw [m2]; simpa using hi) (by omega)
  rw [h2, List.getElem?_eq_getElem (by simpa using hj)] at h1
  rw [Option.some.inj h1]
  simp [mat2, grid, Nat.mod_eq_of_lt hj]

/-- **C50.** `SeparateMatrix` returns the elements, row by row. -/
theorem separateMatrix_eq (r c : Nat) (f : Nat → Nat → ℝ) : separateMatrix (mat2 r c f) =
    some ((List.range r).map fun i => (List.range c).map fun j => scalar (f i j)) := by
  refine MultiHead.mapM_range_some fun i hi => MultiHead.mapM_range_some fun j hj => ?_
  simp only [atMat, at2_el (mat2_WF r c f) (i := i) (j := j) hi hj, Option.bind_eq_bind, Option.bind_some,
    mat2_el (r := r) (c := c) f hi hj]

/-- **C50.** `SeparateVec` returns the elements of a vector; on other matrices it fails unless they are empty. -/
theorem separateVec_spec {x : Dense ℝ} (hx : x.WF) :
    ((separateVec x).isSome ↔ x.isVector ∨ x.data = []) ∧
    ∀ ys, separateVec x = some ys → ys = x.data.map scalar := by
  by_cases hv : x.isVector
  · have hv' : x.rows = 1 ∨ x.cols = 1 := by simpa [isVector] using hv
    have : separateVec x = some ((List.range x.data.length).map fun i => scalar (x.val i)) := by
      refine MultiHead.mapM_range_some fun i hi => ?_
      simp only [atVec, at1]
      rw [if_neg (by omega), if_neg (by omega), Int.toNat_natCast, List.getElem?_eq_getElem hi]
      simp [val, hi]
    rw [this]
    refine ⟨by simp [hv], fun ys h => ?_⟩
    obtain rfl := Option.some.inj h
    refine List.ext_getElem (by simp) fun i h1 h2 => ?_
    have : i < x.data.length := by simpa using h1
    simp [val, this]
  · have hv' : x.rows ≠ 1 ∧ x.cols ≠ 1 := by simpa [isVector] using hv
    cases hd : x.data with
    | nil => simp [separateVec, hd]
    | cons a l =>
      have : separateVec x = none := by
        unfold separateVec
        rw [hd, List.length_cons, List.range_succ_eq_map, List.mapM_cons]
        simp [atVec, at1, hv'.1, hv'.2]
      rw [this]
      simp [hv]

/-- **C50.** `Concat` undoes `SeparateVec` up to the shape: it returns a column vector. -/
theorem concat_separateVec {x : Dense ℝ} (hx : x.WF) (hv : x.isVector) (hne : x.data ≠ []) :
    (separateVec x).bind GradFn.concat.forward = some (column x.data) := by
  obtain ⟨h1, h2⟩ := separateVec_spec hx
  obtain ⟨ys, hy⟩ := Option.isSome_iff_exists.mp (h1.mpr (Or.inl hv))
  rw [hy, Option.bind_some, h2 ys hy]
  have : GradFn.concat.forward (x.data.map scalar) = concatV (x.data.map scalar) := by
    cases h : x.data with
    | nil => exact absurd h hne
    | cons a l => rfl
  rw [this, concatV, if_pos (by simp [isVector, scalar])]
  simp [column, Function.comp_def, scalar, List.flatten_eq_flatMap, List.flatMap_map]

/-! ### SplitVec -/

theorem slice_fwd (a b c d : Int) (x : Dense ℝ) : (slice a b c d).forward [x] = x.slice a b c d := rfl

theorem splitLoop_col {n size : Nat} (hs : 0 < size) (v : Nat → ℝ) (m l : Nat) (h : l + m * size ≤ n) :
    splitLoop (col n v) size m l = some ((List.range m).map fun i => col size fun k => v (l + i * size + k)) := by
  induction m generalizing l with
  | zero => rfl
  | succ m ih =>
    have hmul : (m + 1) * size = m * size + size := by ring
    have e : (slice (l : Int) 0 ((l : Int) + size) 1).forward [col n v] = some (col size fun k => v (l + k)) := by
      rw [slice_fwd, col_eq_mat2, col_eq_mat2]
      exact mat2_slice (r := n) (c := 1) (fun i _ => v i) (i := l) (j := 0) (a := size) (b := 1) (by omega) (by omega)
        (by omega) (by omega) (by omega) (by omega)
    simp only [splitLoop, e, Option.bind_eq_bind, Option.bind_some]
    rw [ih (l + size) (by omega)]
    simp only [Option.bind_some, List.range_succ_eq_map, List.map_cons, List.map_map, Option.some.injEq,
      List.cons.injEq]
    refine ⟨by simp, List.map_congr_left fun i _ => ?_⟩
    simp only [Function.comp_apply]
    exact col_congr fun k _ => by congr 1; simp only [Nat.succ_eq_add_one]; ring

theorem splitLoop_some {x : Dense ℝ} (hx : x.WF) {size m l : Nat} {ys : List (Dense ℝ)}
    (h : splitLoop x size m l = some ys) (hm : 0 < m) : l + m * size ≤ x.rows ∧ 0 < x.cols ∧ 0 < x.rows := by
  induction m generalizing l ys with
  | zero => omega
  | succ m ih =>
    simp only [splitLoop, slice_fwd, Option.bind_eq_bind, Option.bind_eq_some_iff] at h
    obtain ⟨y, hy, zs, hz, -⟩ := h
    have h1 := (slice_spec hx _ _ _ _).1.mp (by rw [hy]; rfl)
    obtain ⟨⟨i1, i2, i3, i4⟩, h2, h3, h4, h5⟩ := h1
    have hmul : (m + 1) * size = m * size + size := by ring
    rcases Nat.eq_zero_or_pos m with rfl | hm'
    · omega
    · have := ih hz hm'
      omega

/-- **C50.** `SplitVec(x, n)` returns exactly for a nonempty column vector whose size is a multiple of `n > 0`; there
are then `n` column vectors of equal size, which joined give `x`. (Row vectors of more than one element always fail.) -/
theorem splitVec_spec {x : Dense ℝ} (hx : x.WF) (chunks : Int) :
    ((splitVec x chunks).isSome ↔ 0 < chunks ∧ chunks ∣ x.data.length ∧ 0 < x.data.length ∧ x.cols = 1) ∧
    ∀ ys, splitVec x chunks = some ys → (ys.length : Int) = chunks ∧
      (∀ y ∈ ys, y.WF ∧ y.cols = 1 ∧ y.rows * chunks = x.data.length) ∧ (ys.map data).flatten = x.data := by
  have hl : x.data.length = x.rows * x.cols := hx
  by_cases h0 : 0 < chunks ∧ chunks ∣ x.data.length
  swap
  · have : splitVec x chunks = none := by
      unfold splitVec
      by_cases h1 : chunks = 0
      · rw [if_pos h1]
      · rw [if_neg h1]
        by_cases h2 : chunks ∣ x.data.length
        · have h3 : chunks < 0 := by
            rcases lt_trichotomy chunks 0 with h | h | h
            · exact h
            · exact absurd h h1
            · exact absurd ⟨h, h2⟩ h0
          rw [if_neg (by rw [ne_eq, not_not]; exact Int.tmod_eq_zero_of_dvd h2), if_pos h3]
        · rw [if_pos (fun h => h2 (Int.dvd_of_tmod_eq_zero h))]
    rw [this]
    refine ⟨?_, by intro ys h; cases h⟩
    constructor
    · intro h; cases h
    · intro h; exact absurd ⟨h.1, h.2.1⟩ h0
  obtain ⟨hc, hd⟩ := h0
  obtain ⟨n, rfl⟩ := Int.eq_ofNat_of_zero_le hc.le
  have hn : 0 < n := by omega
  obtain ⟨q, hq⟩ := Int.natCast_dvd_natCast.mp hd
  have hsz : (x.data.length + n - 1) / n = q := by
    rw [hq]
    have : n * q + n - 1 = (n - 1) + q * n := by rw [Nat.mul_comm]; omega
    rw [this, Nat.add_mul_div_right _ _ hn, Nat.div_eq_of_lt (by omega), Nat.zero_add]
  have hdef : splitVec x n = splitLoop x q n 0 := by
    unfold splitVec
    rw [if_neg (by omega), if_neg (by rw [ne_eq, not_not]; exact Int.tmod_eq_zero_of_dvd hd), if_neg (by omega)]
    simp only [Int.toNat_natCast, hsz]
  rw [hdef]
  by_cases hok : 0 < x.data.length ∧ x.cols = 1
  · obtain ⟨hp, h1⟩ := hok
    have hr : x.rows = n * q := by rw [← hq, hl, h1, Nat.mul_one]
    have hqp : 0 < q := by
      rcases Nat.eq_zero_or_pos q with h | h
      · rw [h, Nat.mul_zero] at hq; omega
      · exact h
    have hval : splitLoop x q n 0 = some ((List.range n).map fun i => col q fun k => x.val (0 + i * q + k)) := by
      conv_lhs => rw [eq_col hx h1]
      exact splitLoop_col hqp x.val n 0 (by rw [hr]; omega)
    rw [hval]
    refine ⟨by simp [hn, hp, h1, hd], fun ys h => ?_⟩
    obtain rfl := Option.some.inj h
    refine ⟨by simp, ?_, ?_⟩
    · intro y hy
      obtain ⟨i, -, rfl⟩ := List.mem_map.mp hy
      refine ⟨col_WF _ _, rfl, ?_⟩
      rw [col_rows, hq]; push_cast; ring
    · have hall : ∀ m, m ≤ n → ((List.range m).map fun i => (List.range q).map fun k => x.val (0 + i * q + k)).flatten =
          (List.range (m * q)).map x.val := by
        intro m
        induction m with
        | zero => intro _; simp
        | succ m ih =>
          intro hm
          rw [List.range_succ, List.map_append, List.flatten_append, ih (by omega), Nat.succ_mul, List.range_add,
            List.map_append]
          simp [Function.comp_def]
      rw [List.map_map, show (data ∘ fun i => col q fun k => x.val (0 + i * q + k)) =
        fun i => (List.range q).map fun k => x.val (0 + i * q + k) from rfl, hall n le_rfl, ← hq]
      refine List.ext_getElem (by simp) fun i h1 h2 => ?_
      simp [val, h2]
  · have : splitLoop x q n 0 = none := by
      rw [← Option.not_isSome_iff_eq_none]
      intro h
      obtain ⟨ys, hy⟩ := Option.isSome_iff_exists.mp h
      obtain ⟨h1, h2, h3⟩ := splitLoop_some hx hy hn
      apply hok
      have hle : x.rows * x.cols ≤ x.rows := by rw [← hl, hq]; omega
      have h4 : x.cols ≤ 1 := Nat.le_of_mul_le_mul_left (by omega : x.rows * x.cols ≤ x.rows * 1) h3
      have h5 : x.cols = 1 := by omega
      exact ⟨by rw [hl, h5]; omega, h5⟩
    rw [this]
    refine ⟨?_, by intro ys h; cases h⟩
    constructor
    · intro h; cases h
    · intro h; exact absurd ⟨h.2.2.1, h.2.2.2⟩ hok

/-- **C50.** `Concat` undoes `SplitVec`. -/
theorem concat_splitVec {x : Dense ℝ} (hx : x.WF) {chunks : Int} {ys : List (Dense ℝ)} (h : splitVec x chunks = some ys) :
    GradFn.concat.forward ys = some x := by
  obtain ⟨h1, h2⟩ := splitVec_spec hx chunks
  obtain ⟨c1, c2, c3, c4⟩ := h1.mp (by rw [h]; rfl)
  obtain ⟨d1, d2, d3⟩ := h2 ys h
  have : GradFn.concat.forward ys = concatV ys := by
    cases ys with
    | nil => simp at d1; omega
    | cons a l => rfl
  obtain ⟨e1, e2⟩ := concatV_spec ys
  obtain ⟨c, hc⟩ := Option.isSome_iff_exists.mp (e1.mpr fun v hv => Or.inr (d2 v hv).2.1)
  obtain ⟨f1, f2, f3⟩ := e2 c hc
  rw [this, hc]
  rw [d3] at f3
  have hr : c.rows = x.rows := by
    have a1 : c.data.length = c.rows * c.cols := f1
    have a2 : x.data.length = x.rows * x.cols := hx
    rw [f2, Nat.mul_one] at a1
    rw [c4, Nat.mul_one] at a2
    rw [← a1, ← a2, f3]
  cases c; cases x
  simp only at f2 f3 hr c4
  subst f2 f3 hr c4
  rfl

/-- A vector of six elements in three chunks; as a row vector it cannot be split. -/
example : splitVec (column [1, 2, 3, 4, 5, 6]) 3 = some [column [1, 2], column [3, 4], column [5, 6]] ∧
    splitVec ⟨1, 6, [1, 2, 3, 4, 5, 6]⟩ 3 = none := by
  constructor
  · have h := splitVec_spec (x := column [1, 2, 3, 4, 5, 6]) rfl 3
    have := splitLoop_col (n := 6) (size := 2) (by omega) (fun i => (i : ℝ) + 1) 3 0 (by omega)
    have e : (column [1, 2, 3, 4, 5, 6] : Dense ℝ) = col 6 fun i => (i : ℝ) + 1 := by
      simp only [column, col, List.length_cons, List.length_nil, Dense.mk.injEq, List.range_succ, List.range_zero]
      norm_num
    rw [e]
    unfold splitVec
    simp only [col_length]
    rw [if_neg (by norm_num), if_neg (by decide), if_neg (by norm_num)]
    refine this.trans ?_
    simp only [List.range_succ, List.range_zero, col, column]
    norm_num
  · rw [← Option.not_isSome_iff_eq_none, (splitVec_spec (x := ⟨1, 6, [1, 2, 3, 4, 5, 6]⟩) rfl 3).1]
    simp

/-! ### Map2, Pad, flatten -/

/-- **C50.** `Map2` fails on lists of different length, and otherwise applies the function to the pairs. -/
theorem map2_spec {A B C : Type} (f : A → B → Option C) (xs : List A) (ys : List B) :
    ((map2 f xs ys).isSome ↔ xs.length = ys.length ∧ ∀ (i : Nat) x y, xs[i]? = some x → ys[i]? = some y → (f x y).isSome) ∧
    ∀ zs, map2 f xs ys = some zs → zs.length = xs.length ∧
      ∀ (i : Nat) x y, xs[i]? = some x → ys[i]? = some y → zs[i]? = f x y := by
  unfold map2
  by_cases hl : xs.length = ys.length
  swap
  · rw [if_pos hl]; simp [hl]
  rw [if_neg (by simpa using hl)]
  have key : ∀ zs, (xs.zip ys).mapM (fun p => f p.1 p.2) = some zs → zs.length = xs.length ∧
      ∀ (i : Nat) x y, xs[i]? = some x → ys[i]? = some y → zs[i]? = f x y := by
    intro zs h
    obtain ⟨h1, h2⟩ := MultiHead.mapM_getElem h
    refine ⟨by rw [h1, List.length_zip, hl, Nat.min_self], fun i x y hx hy => ?_⟩
    rw [h2, List.getElem?_zip_eq_some.mpr (show _ from ⟨hx, hy⟩ : xs[i]? = some (x, y).1 ∧ ys[i]? = some (x, y).2)]
    rfl
  refine ⟨⟨fun h => ⟨hl, fun i x y hx hy => ?_⟩, fun ⟨_, h⟩ => ?_⟩, key⟩
  · obtain ⟨zs, hz⟩ := Option.isSome_iff_exists.mp h
    obtain ⟨h1, h2⟩ := key zs hz
    rw [← h2 i x y hx hy, List.getElem?_eq_getElem (by
      rw [h1]; exact (List.getElem?_eq_some_iff.mp hx).1)]
    rfl
  · have : ∀ l : List (A × B), (∀ p ∈ l, (f p.1 p.2).isSome) → (l.mapM fun p => f p.1 p.2).isSome := by
      intro l
      induction l with
      | nil => intro _; rfl
      | cons p l ih =>
        intro hp
        obtain ⟨z, hz⟩ := Option.isSome_iff_exists.mp (hp p (by simp))
        obtain ⟨zs, hzs⟩ := Option.isSome_iff_exists.mp (ih fun p hp' => hp p (by simp [hp']))
        simp [List.mapM_cons, hz, hzs]
    refine this _ fun p hp => ?_
    obtain ⟨i, hi⟩ := List.mem_iff_getElem?.mp hp
    obtain ⟨h1, h2⟩ := List.getElem?_zip_eq_some.mp hi
    exact h i _ _ h1 h2

/-- **C50.** `Pad` returns a list of the wanted length that begins with (as many as fit of) the elements, followed by
the padding of each further position; it fails only for a negative length (or when the padding function does). -/
theorem pad_spec {A : Type} (xs : List A) (n : Int) (p : Nat → A) :
    ((pad xs n fun i => some (p i)).isSome ↔ 0 ≤ n) ∧
    ∀ ys, (pad xs n fun i => some (p i)) = some ys → (ys.length : Int) = n ∧
      ∀ i : Nat, (i : Int) < n → ys[i]? = some (xs.getD i (p i)) := by
  unfold pad
  by_cases h1 : (xs.length : Int) = n
  · rw [if_pos h1]
    refine ⟨by simp; omega, fun ys h => ?_⟩
    obtain rfl := Option.some.inj h
    refine ⟨h1, fun i hi => ?_⟩
    simp [show i < xs.length by omega]
  rw [if_neg h1]
  by_cases h2 : (xs.length : Int) > n
  · rw [if_pos h2]
    by_cases h3 : n < 0
    · rw [if_pos h3]; simp [h3]
    · rw [if_neg h3]
      refine ⟨by simp; omega, fun ys h => ?_⟩
      obtain rfl := Option.some.inj h
      refine ⟨by simp; omega, fun i hi => ?_⟩
      rw [List.getElem?_take_of_lt (by omega)]
      simp [show i < xs.length by omega]
  · rw [if_neg h2]
    have : ∀ l : List Nat, (l.mapM fun i => some (p i)) = some (l.map p) := by
      intro l
      induction l with
      | nil => rfl
      | cons a l ih => simp [List.mapM_cons, ih]
    simp only [this, Option.bind_eq_bind, Option.bind_some]
    refine ⟨by simp; omega, fun ys h => ?_⟩
    obtain rfl := Option.some.inj h
    refine ⟨by simp; omega, fun i hi => ?_⟩
    by_cases h3 : i < xs.length
    · rw [List.getElem?_append_left h3]; simp [h3]
    · rw [List.getElem?_append_right (by omega)]
      simp [List.getElem?_range', h3, show i - xs.length < n.toNat - xs.length by omega,
        show xs.length + (i - xs.length) = i by omega]

/-- **C50.** The flatten layer puts the elements of all inputs, in row-major order, into one column vector; it fails
only without inputs. -/
theorem flattenLayer_eq (xs : List (Dense ℝ)) (hwf : ∀ x ∈ xs, x.WF) :
    flattenLayer xs = if xs = [] then none else some (column (xs.map data).flatten) := by
  have hm : (xs.mapM fun x => do
      let f ← GradFn.flatten.forward [x]
      transpose.forward [f]) = some (xs.map fun x => column x.data) := by
    refine GradFn.mapM_some _ fun x hx => ?_
    have hg : x.flatten = mat2 1 x.data.length fun _ j => x.val j := by
      simp only [Dense.flatten, mat2, grid, Dense.mk.injEq, true_and]
      refine List.ext_getElem (by simp) fun i h1 h2 => ?_
      simp [val, h1, Nat.mod_eq_of_lt h1]
    simp only [GradFn.flatten, transpose, Option.bind_eq_bind, Option.bind_some, hg, mat2_T]
    rw [mat2_eq_col]
    simp only [col, column, Option.some.injEq, Dense.mk.injEq, true_and]
    refine List.ext_getElem (by simp) fun i h1 h2 => ?_
    simp [val, h2]
  unfold flattenLayer
  rw [hm]
  simp only [Option.bind_eq_bind, Option.bind_some]
  cases xs with
  | nil => rfl
  | cons x xs =>
    rw [if_neg (by simp)]
    have : GradFn.concat.forward ((x :: xs).map fun x => column x.data) = concatV ((x :: xs).map fun x => column x.data) := rfl
    rw [this, concatV, if_pos (by simp [isVector, column])]
    simp only [column, List.map_map, Option.some.injEq, Dense.mk.injEq, true_and, List.length_flatten]
    exact ⟨rfl, rfl⟩

end Verif.DerivedOps
