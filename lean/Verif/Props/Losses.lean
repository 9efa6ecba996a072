import Verif.Model.Losses
import Verif.Lemmas.GradFn
import Mathlib.Tactic.NormNum
import Mathlib.Tactic.Positivity
import Mathlib.Tactic.FieldSimp
import Mathlib.Algebra.BigOperators.Field
import Mathlib.Analysis.SpecialFunctions.Log.Basic

set_option autoImplicit false
set_option linter.unusedSimpArgs false

/-! # C39: losses -/

namespace Verif.Losses
open GradFn Dense
open scoped BigOperators

/-! ### the operators on single values and matrices -/

theorem item_scalar (a : ℝ) : item (scalar a) = some a := by simp [item, isScalar, scalar]

theorem elementwise_fwd (f df : ℝ → ℝ) (x : Dense ℝ) : (elementwise f df).forward [x] = some (x.map f) := by
  simp only [elementwise, apply_const]

theorem map_scalar (f : ℝ → ℝ) (a : ℝ) : (scalar a).map f = scalar (f a) := rfl

theorem add_scalar (a b : ℝ) : GradFn.add.forward [scalar a, scalar b] = some (scalar (a + b)) := rfl
theorem sub_scalar (a b : ℝ) : GradFn.sub.forward [scalar a, scalar b] = some (scalar (a - b)) := rfl
theorem prod_scalar (a b : ℝ) : prod.forward [scalar a, scalar b] = some (scalar (a * b)) := rfl
theorem neg_scalar (a : ℝ) : GradFn.neg.forward [scalar a] = some (scalar (-a)) := elementwise_fwd _ _ _
theorem exp_scalar (a : ℝ) : GradFn.exp.forward [scalar a] = some (scalar (Real.exp a)) := elementwise_fwd _ _ _
theorem log_scalar (a : ℝ) : logR.forward [scalar a] = some (scalar (Real.log a)) := rfl
theorem abs_scalar (a : ℝ) : GradFn.abs.forward [scalar a] = some (scalar |a|) := elementwise_fwd _ _ _
theorem pow_scalar (g a : ℝ) : (GradFn.pow g).forward [scalar a] = some (scalar (a ^ g)) := elementwise_fwd _ _ _
theorem square_scalar (a : ℝ) : square (scalar a) = some (scalar (a * a)) := rfl

theorem addScalar_fwd (x : Dense ℝ) (c : ℝ) : addScalar.forward [x, scalar c] = some (x.map (· + c)) := by
  simp [addScalar, item_scalar]
theorem subScalar_fwd (x : Dense ℝ) (c : ℝ) : subScalar.forward [x, scalar c] = some (x.map (· - c)) := by
  simp [subScalar, item_scalar]
theorem prodScalar_fwd (x : Dense ℝ) (c : ℝ) : prodScalar.forward [x, scalar c] = some (x.map (· * c)) := by
  simp [prodScalar, item_scalar]
theorem divScalar_fwd (x : Dense ℝ) (c : ℝ) : divScalar.forward [x, scalar c] = some (x.map (· * (1 / c))) := by
  simp [divScalar, item_scalar]
theorem reverseSubScalar_fwd (x : Dense ℝ) (c : ℝ) :
    reverseSubScalar.forward [x, scalar c] = some (x.map (c - ·)) := by
  simp only [reverseSubScalar, item_scalar, Option.bind_eq_bind, Option.bind_some, Option.some.injEq, Dense.map,
    List.map_map, Dense.mk.injEq, true_and]
  refine List.map_congr_left fun v _ => ?_
  simp only [Function.comp]; ring

theorem square_fwd (x : Dense ℝ) : square x = some (x.map fun v => v * v) := by
  simp only [square, prod]
  rw [zipOp_of _ rfl rfl]
  simp only [Dense.map, Option.some.injEq, Dense.mk.injEq, true_and]
  generalize x.data = l
  induction l with
  | nil => rfl
  | cons a l ih => simp [ih]

theorem reduceSum_fwd (x : Dense ℝ) :
    reduceSum.forward [x] = some (scalar (∑ i ∈ Finset.range x.data.length, x.val i)) := by
  simp only [reduceSum, sum_eq_val]

theorem reduceMean_fwd (x : Dense ℝ) : GradFn.reduceMean.forward [x] =
    some (scalar ((∑ i ∈ Finset.range x.data.length, x.val i) / x.data.length)) := by
  simp only [GradFn.reduceMean, sum_eq_val, mul_one_div]

theorem like_of_sameDims {x y : Dense ℝ} (hy : y.WF) (h : x.sameDims y) : x.Like y :=
  ⟨hy, (sameDims_iff.mp h).1.symm, (sameDims_iff.mp h).2.symm⟩

/-- Matrices of equal dimensions are equal iff their elements are. -/
theorem eq_iff_val {x y : Dense ℝ} (hx : x.WF) (h : x.Like y) :
    x = y ↔ ∀ i < x.data.length, x.val i = y.val i := by
  constructor
  · rintro rfl; intros; rfl
  · intro hv
    have hl := h.len hx
    cases x; cases y
    simp only [Dense.mk.injEq]
    refine ⟨h.rows.symm, h.cols.symm, List.ext_getElem hl.symm fun i h1 h2 => ?_⟩
    have := hv i h1
    rwa [val_of_lt _ h1, val_of_lt _ h2] at this

/-- The sum or, if `mean`, the mean of `f i` for `i < n`. -/
noncomputable def reduce (mean : Bool) (n : Nat) (f : Nat → ℝ) : ℝ :=
  if mean then (∑ i ∈ Finset.range n, f i) / n else ∑ i ∈ Finset.range n, f i

theorem reduce_fwd (mean : Bool) (x : Dense ℝ) :
    (if mean then GradFn.reduceMean.forward [x] else reduceSum.forward [x]) =
      some (scalar (reduce mean x.data.length x.val)) := by
  cases mean
  · rw [if_neg (by simp), reduceSum_fwd]; simp [reduce]
  · rw [if_pos rfl, reduceMean_fwd]; simp [reduce]

theorem reduce_congr {mean : Bool} {n : Nat} {f g : Nat → ℝ} (h : ∀ i < n, f i = g i) :
    reduce mean n f = reduce mean n g := by
  have : ∑ i ∈ Finset.range n, f i = ∑ i ∈ Finset.range n, g i :=
    Finset.sum_congr rfl fun i hi => h i (Finset.mem_range.mp hi)
  simp only [reduce, this]

theorem reduce_nonneg {mean : Bool} {n : Nat} {f : Nat → ℝ} (h : ∀ i < n, 0 ≤ f i) : 0 ≤ reduce mean n f := by
  have : 0 ≤ ∑ i ∈ Finset.range n, f i := Finset.sum_nonneg fun i hi => h i (Finset.mem_range.mp hi)
  unfold reduce
  split
  · positivity
  · exact this

theorem reduce_eq_zero {mean : Bool} {n : Nat} {f : Nat → ℝ} (h : ∀ i < n, 0 ≤ f i) :
    reduce mean n f = 0 ↔ ∀ i < n, f i = 0 := by
  have h0 : (∑ i ∈ Finset.range n, f i) = 0 ↔ ∀ i < n, f i = 0 := by
    rw [Finset.sum_eq_zero_iff_of_nonneg fun i hi => h i (Finset.mem_range.mp hi)]
    simp
  unfold reduce
  split
  · rw [div_eq_zero_iff, h0]
    constructor
    · rintro (h | h)
      · exact h
      · intro i hi
        have : n = 0 := by exact_mod_cast h
        omega
    · exact Or.inl
  · exact h0

/-! ### MAE and MSE -/

/-- **C39.** `MAE` is the sum or mean of `|x_i - y_i|`; it fails exactly on different dimensions. -/
theorem mae_eq {x y : Dense ℝ} (hx : x.WF) (hy : y.WF) (mean : Bool) :
    mae x y mean = if x.sameDims y then
      some (scalar (reduce mean x.data.length fun i => |x.val i - y.val i|)) else none := by
  by_cases h : x.sameDims y
  swap
  · simp [mae, GradFn.sub, zipOp, h]
  have hl := like_of_sameDims hy h
  rw [if_pos h]
  simp only [mae, GradFn.sub, zipOp_like _ hl, Option.bind_eq_bind, Option.bind_some, GradFn.abs, elementwise_fwd,
    reduce_fwd, map_length]
  have hlen : (zip2 (· - ·) x y).data.length = x.data.length := (zip2_like _ hx hl).len hx
  rw [hlen]
  congr 2
  refine reduce_congr fun i hi => ?_
  rw [val_map _ _ (by rw [hlen]; exact hi), val_zip2 _ hi (by rw [hl.len hx]; exact hi)]

/-- **C39.** `MAE` is non-negative and zero exactly for equal matrices. -/
theorem mae_zero_iff {x y l : Dense ℝ} (hx : x.WF) (hy : y.WF) {mean : Bool} (h : mae x y mean = some l) :
    ∃ v, l = scalar v ∧ 0 ≤ v ∧ (v = 0 ↔ x = y) := by
  rw [mae_eq hx hy] at h
  split at h
  · rename_i hd
    obtain rfl := Option.some.inj h
    refine ⟨_, rfl, reduce_nonneg fun i _ => abs_nonneg _, ?_⟩
    rw [reduce_eq_zero fun i _ => abs_nonneg _, eq_iff_val hx (like_of_sameDims hy hd)]
    simp only [abs_eq_zero, sub_eq_zero]
  · cases h

/-- **C39.** `MSE` is the sum or mean of `(x_i - y_i)² / 2`. -/
theorem mse_eq {x y : Dense ℝ} (hx : x.WF) (hy : y.WF) (mean : Bool) :
    mse x y mean = if x.sameDims y then
      some (scalar (reduce mean x.data.length fun i => (x.val i - y.val i) ^ 2 / 2)) else none := by
  by_cases h : x.sameDims y
  swap
  · simp [mse, GradFn.sub, zipOp, h]
  have hl := like_of_sameDims hy h
  rw [if_pos h]
  simp only [mse, GradFn.sub, zipOp_like _ hl, Option.bind_eq_bind, Option.bind_some, square_fwd, prodScalar_fwd,
    reduce_fwd, map_length]
  have hlen : (zip2 (· - ·) x y).data.length = x.data.length := (zip2_like _ hx hl).len hx
  rw [hlen]
  congr 2
  refine reduce_congr fun i hi => ?_
  rw [val_map _ _ (by rw [map_length, hlen]; exact hi), val_map _ _ (by rw [hlen]; exact hi),
    val_zip2 _ hi (by rw [hl.len hx]; exact hi)]
  norm_num; ring

/-- **C39.** `MSE` is non-negative and zero exactly for equal matrices. -/
theorem mse_zero_iff {x y l : Dense ℝ} (hx : x.WF) (hy : y.WF) {mean : Bool} (h : mse x y mean = some l) :
    ∃ v, l = scalar v ∧ 0 ≤ v ∧ (v = 0 ↔ x = y) := by
  rw [mse_eq hx hy] at h
  split at h
  · rename_i hd
    obtain rfl := Option.some.inj h
    refine ⟨_, rfl, reduce_nonneg fun i _ => by positivity, ?_⟩
    rw [reduce_eq_zero fun i _ => by positivity, eq_iff_val hx (like_of_sameDims hy hd)]
    simp only [div_eq_zero_iff, OfNat.ofNat_ne_zero, or_false, pow_eq_zero_iff, ne_eq, not_false_eq_true, sub_eq_zero]
  · cases h

/-! ### cross-entropy -/

theorem logSumExp_eq {x : Dense ℝ} (hv : x.isVector) (hne : x.data ≠ []) :
    logSumExp x = some (scalar (Real.log (x.data.map Real.exp).sum)) := by
  obtain ⟨m, hm⟩ := Option.isSome_iff_exists.mp (VecFn.reduceMax_isSome hv hne)
  have hm' : GradFn.reduceMax.forward [x] = some (scalar m) := by
    simp only [VecFn.reduceMax, Option.bind_eq_bind] at hm
    simp only [GradFn.reduceMax, Option.bind_eq_bind]
    cases ha : x.argMax with
    | none => rw [ha] at hm; cases hm
    | some i =>
      rw [ha] at hm
      simp only [Option.bind_some] at hm ⊢
      rw [hm]; rfl
  have h1 := (VecFn.logSumExpVec_eq (d := x)).2 (m + Real.log ((x.map (· - m)).map Real.exp).sum) (by
    simp only [VecFn.logSumExpVec, hm, Option.bind_eq_bind, Option.bind_some])
  simp only [logSumExp, hm', Option.bind_eq_bind, Option.bind_some, subScalar_fwd, GradFn.exp, elementwise_fwd,
    reduceSum, log_scalar, add_scalar]
  rw [h1]

theorem logSumExp_none {x : Dense ℝ} (h : ¬ (x.isVector ∧ x.data ≠ [])) : logSumExp x = none := by
  have h1 : x.argMax = none := by
    rw [← Option.not_isSome_iff_eq_none, (VecFn.argMax_spec x).1]; exact h
  simp [logSumExp, GradFn.reduceMax, h1]

theorem at1_none {x : Dense ℝ} {c : Int} (h : ¬ (x.isVector ∧ 0 ≤ c ∧ c < x.data.length)) : x.at1 c = none := by
  simp only [isVector, Bool.or_eq_true, beq_iff_eq] at h
  unfold at1
  by_cases h1 : x.rows ≠ 1 ∧ x.cols ≠ 1
  · rw [if_pos h1]
  · rw [if_neg h1, if_pos (by omega)]

theorem at1_val {x : Dense ℝ} (hv : x.isVector) {i : Nat} (hi : i < x.data.length) : x.at1 i = some (x.val i) := by
  simp only [isVector, Bool.or_eq_true, beq_iff_eq] at hv
  unfold at1
  rw [if_neg (by omega), if_neg (by omega), Int.toNat_natCast, List.getElem?_eq_getElem hi, val_of_lt _ hi]

/-- **C39.** `CrossEntropy(x, c)` fails exactly when `x` is no vector or `c` is no index of it. -/
theorem crossEntropy_isSome (x : Dense ℝ) (c : Int) :
    (crossEntropy x c).isSome ↔ x.isVector ∧ 0 ≤ c ∧ c < x.data.length := by
  by_cases h : x.isVector ∧ 0 ≤ c ∧ c < x.data.length
  · obtain ⟨hv, h0, h1⟩ := h
    obtain ⟨i, rfl⟩ := Int.eq_ofNat_of_zero_le h0
    have hi : i < x.data.length := by omega
    have hne : x.data ≠ [] := by rintro h; rw [h] at hi; simp at hi
    simp [crossEntropy, atVec, at1_val hv hi, neg_scalar, logSumExp_eq hv hne, add_scalar]
    exact ⟨hv, hi⟩
  · simp only [crossEntropy, atVec, at1_none h]
    simpa using h

/-- The value of the cross-entropy: `log Σ exp x_i - x_c`. -/
theorem crossEntropy_eq {x : Dense ℝ} (hv : x.isVector) {c : Nat} (hc : c < x.data.length) :
    crossEntropy x c = some (scalar (Real.log (x.data.map Real.exp).sum - x.val c)) := by
  have hne : x.data ≠ [] := by rintro h; rw [h] at hc; simp at hc
  simp only [crossEntropy, atVec, at1_val hv hc, Option.bind_eq_bind, Option.bind_some, neg_scalar,
    logSumExp_eq hv hne, add_scalar]
  congr 2; ring

theorem exp_lt_sum {l : List ℝ} {c : Nat} (hc : c < l.length) (h2 : 2 ≤ l.length) :
    Real.exp l[c] < (l.map Real.exp).sum := by
  have hs : (l.map Real.exp).sum = ∑ i ∈ Finset.range l.length, Real.exp (l.getD i 0) := by
    have := sum_eq_val (⟨1, 1, l.map Real.exp⟩ : Dense ℝ)
    rw [VecFn.sum_eq] at this
    simp only [List.length_map] at this
    rw [this]
    refine Finset.sum_congr rfl fun i hi => ?_
    have hi : i < l.length := Finset.mem_range.mp hi
    simp [val, hi]
  rw [hs]
  obtain ⟨j, hj, hjc⟩ : ∃ j < l.length, j ≠ c := by
    rcases Nat.eq_zero_or_pos c with h | h
    · exact ⟨1, by omega, by omega⟩
    · exact ⟨0, by omega, by omega⟩
  have hcg : Real.exp l[c] = Real.exp (l.getD c 0) := by simp [hc]
  rw [hcg, ← Finset.add_sum_erase _ _ (Finset.mem_range.mpr hc)]
  have : 0 < ∑ i ∈ (Finset.range l.length).erase c, Real.exp (l.getD i 0) :=
    Finset.sum_pos (fun i _ => Real.exp_pos _) ⟨j, Finset.mem_erase.mpr ⟨hjc, Finset.mem_range.mpr hj⟩⟩
  linarith

/-- **C39.** `CrossEntropy(x, c)` is `-log` of entry `c` of `Softmax(x)`. -/
theorem crossEntropy_softmax {x : Dense ℝ} (hx : x.WF) (hv : x.isVector) {c : Nat} (hc : c < x.data.length) :
    ∃ y, VecFn.softmax Real.exp x = some y ∧ 0 < y.val c ∧ y.val c ≤ 1 ∧
      crossEntropy x c = some (scalar (-Real.log (y.val c))) := by
  have hne : x.data ≠ [] := by rintro h; rw [h] at hc; simp at hc
  refine ⟨_, (VecFn.softmax_eq hx).2 hv hne, ?_⟩
  have hval : (⟨x.data.length, 1, x.data.map fun v => Real.exp v / (x.data.map Real.exp).sum⟩ : Dense ℝ).val c =
      Real.exp (x.val c) / (x.data.map Real.exp).sum := by
    simp [val, hc]
  have hpos := VecFn.sum_exp_pos hne
  have hd := VecFn.softmax_distribution hx hne ((VecFn.softmax_eq hx).2 hv hne)
  have hm := hd.2.1 (Real.exp (x.val c) / (x.data.map Real.exp).sum) (by
    refine List.mem_map.mpr ⟨x.val c, ?_, rfl⟩
    rw [val_of_lt _ hc]; exact List.getElem_mem _)
  rw [hval, crossEntropy_eq hv hc]
  refine ⟨hm.1, hm.2, ?_⟩
  rw [Real.log_div (Real.exp_pos _).ne' hpos.ne', Real.log_exp]
  congr 2; ring

/-- **C39.** The cross-entropy is non-negative, and positive if there is more than one class. -/
theorem crossEntropy_pos {x : Dense ℝ} (hx : x.WF) (hv : x.isVector) {c : Nat} (hc : c < x.data.length) :
    ∃ v, crossEntropy x c = some (scalar v) ∧ 0 ≤ v ∧ (0 < v ↔ 2 ≤ x.data.length) := by
  have hne : x.data ≠ [] := by rintro h; rw [h] at hc; simp at hc
  obtain ⟨y, -, h1, h2, h3⟩ := crossEntropy_softmax hx hv hc
  have h4 := crossEntropy_eq hv hc
  refine ⟨_, h3, by have := Real.log_nonpos h1.le h2; linarith, ?_⟩
  rw [h4] at h3
  have h5 : Real.log (x.data.map Real.exp).sum - x.val c = -Real.log (y.val c) := by
    have := Option.some.inj h3
    have := congrArg (fun d => Dense.val d 0) this
    simpa using this
  rw [← h5]
  constructor
  · intro h
    by_contra hlt
    have hl : x.data.length = 1 := by omega
    obtain ⟨a, ha⟩ := List.length_eq_one_iff.mp hl
    have hc0 : c = 0 := by omega
    subst hc0
    simp [val, ha] at h
  · intro h
    have := exp_lt_sum hc h
    have := Real.log_lt_log (Real.exp_pos _) this
    rw [Real.log_exp] at this
    rw [val_of_lt _ hc]; linarith

/-- **C39.** `exp(-CrossEntropy)` is a probability distribution over the classes. -/
theorem crossEntropy_distribution {x : Dense ℝ} (hv : x.isVector) (hne : x.data ≠ []) :
    ∃ ce : Nat → ℝ, (∀ c < x.data.length, crossEntropy x c = some (scalar (ce c))) ∧
      ∑ c ∈ Finset.range x.data.length, Real.exp (-ce c) = 1 := by
  refine ⟨fun c => Real.log (x.data.map Real.exp).sum - x.val c, fun c hc => crossEntropy_eq hv hc, ?_⟩
  have hpos := VecFn.sum_exp_pos hne
  have : ∀ c ∈ Finset.range x.data.length, Real.exp (-(Real.log (x.data.map Real.exp).sum - x.val c)) =
      (x.map Real.exp).val c / (x.data.map Real.exp).sum := by
    intro c hc
    rw [neg_sub, Real.exp_sub, Real.exp_log hpos, val_map _ _ (Finset.mem_range.mp hc)]
  rw [Finset.sum_congr rfl this, ← Finset.sum_div]
  have h2 := sum_eq_val (x.map Real.exp)
  rw [VecFn.sum_eq, map_length] at h2
  rw [← h2]
  exact div_self hpos.ne'

/-- **C39.** `Perplexity` is the reciprocal of the softmax entry. -/
theorem perplexity_eq {x : Dense ℝ} (hx : x.WF) (hv : x.isVector) {c : Nat} (hc : c < x.data.length) :
    ∃ y, VecFn.softmax Real.exp x = some y ∧ 0 < y.val c ∧ perplexity x c = some (scalar (1 / y.val c)) ∧
      1 ≤ 1 / y.val c := by
  obtain ⟨y, h0, h1, h2, h3⟩ := crossEntropy_softmax hx hv hc
  refine ⟨y, h0, h1, ?_, by rw [le_div_iff₀ h1]; linarith⟩
  simp only [perplexity, h3, Option.bind_eq_bind, Option.bind_some, exp_scalar]
  rw [Real.exp_neg, Real.exp_log h1, one_div]

/-- **C39.** The weighted cross-entropy is the cross-entropy times the class's weight. -/
theorem weightedCrossEntropy_eq {w x : Dense ℝ} (hv : x.isVector) (hw : w.isVector) {c : Nat}
    (hc : c < x.data.length) (hcw : c < w.data.length) :
    ∃ v, crossEntropy x c = some (scalar v) ∧ weightedCrossEntropy w x c = some (scalar (v * w.val c)) := by
  refine ⟨_, crossEntropy_eq hv hc, ?_⟩
  simp only [weightedCrossEntropy, crossEntropy_eq hv hc, at1_val hw hcw, Option.bind_eq_bind, Option.bind_some,
    prodScalar_fwd, map_scalar]

/-! ### focal loss -/

theorem focalLoss_eq {x : Dense ℝ} {c : Int} {v : ℝ} (h : crossEntropy x c = some (scalar v)) (gamma : ℝ) :
    focalLoss x c gamma = some (scalar ((1 - Real.exp (-v)) ^ gamma * v)) := by
  simp only [focalLoss, h, Option.bind_eq_bind, Option.bind_some, neg_scalar, exp_scalar, reverseSubScalar_fwd,
    map_scalar, pow_scalar, prod_scalar]

/-- **C39.** With `gamma = 0` the focal loss is the cross-entropy. -/
theorem focalLoss_zero (x : Dense ℝ) (c : Int) : focalLoss x c 0 = crossEntropy x c := by
  by_cases h : x.isVector ∧ 0 ≤ c ∧ c < x.data.length
  · obtain ⟨hv, h0, h1⟩ := h
    obtain ⟨i, rfl⟩ := Int.eq_ofNat_of_zero_le h0
    have hi : i < x.data.length := by omega
    have := crossEntropy_eq hv hi
    change focalLoss x (i : Int) 0 = crossEntropy x (i : Int)
    rw [focalLoss_eq this, this, Real.rpow_zero, one_mul]
  · have : crossEntropy x c = none := by
      rw [← Option.not_isSome_iff_eq_none, crossEntropy_isSome]; exact h
    simp [focalLoss, this]

/-- **C39.** For `0 ≤ gamma` the focal loss is between 0 and the cross-entropy, and it decreases in
`gamma`. -/
theorem focalLoss_bounds {x : Dense ℝ} (hx : x.WF) (hv : x.isVector) {c : Nat} (hc : c < x.data.length)
    {g g' : ℝ} (hg : 0 ≤ g) (hgg : g ≤ g') :
    ∃ v f f', crossEntropy x c = some (scalar v) ∧ focalLoss x c g = some (scalar f) ∧
      focalLoss x c g' = some (scalar f') ∧ 0 ≤ f' ∧ f' ≤ f ∧ f ≤ v := by
  obtain ⟨v, h1, h2, h3⟩ := crossEntropy_pos hx hv hc
  refine ⟨v, _, _, h1, focalLoss_eq h1 g, focalLoss_eq h1 g', ?_⟩
  have hp0 : 0 ≤ 1 - Real.exp (-v) := by
    have := Real.exp_le_one_iff.mpr (neg_nonpos.mpr h2); linarith
  have hp1 : 1 - Real.exp (-v) ≤ 1 := by have := Real.exp_pos (-v); linarith
  refine ⟨mul_nonneg (Real.rpow_nonneg hp0 _) h2, ?_, ?_⟩
  · rcases h2.eq_or_lt with h | h
    · simp [← h]
    · have hpos : 0 < 1 - Real.exp (-v) := by
        have := Real.exp_lt_one_iff.mpr (neg_lt_zero.mpr h); linarith
      exact mul_le_mul_of_nonneg_right (Real.rpow_le_rpow_of_exponent_ge hpos hp1 hgg) h2
  · calc _ ≤ 1 * v := mul_le_mul_of_nonneg_right (Real.rpow_le_one hp0 hp1 hg) h2
      _ = v := one_mul v

/-- **C39.** The weighted focal loss is the focal loss times the class's weight. -/
theorem weightedFocalLoss_eq {w x : Dense ℝ} (hv : x.isVector) (hw : w.isVector) {c : Nat}
    (hc : c < x.data.length) (hcw : c < w.data.length) (gamma : ℝ) :
    ∃ v, focalLoss x c gamma = some (scalar v) ∧ weightedFocalLoss w x c gamma = some (scalar (v * w.val c)) := by
  refine ⟨_, focalLoss_eq (crossEntropy_eq hv hc) gamma, ?_⟩
  simp only [weightedFocalLoss, crossEntropy_eq hv hc, Option.bind_eq_bind, Option.bind_some, neg_scalar, exp_scalar,
    reverseSubScalar_fwd, map_scalar, pow_scalar, prod_scalar, at1_val hw hcw, prodScalar_fwd]

/-! ### NLL -/

/-- **C39.** For a one-hot target of class `c` the loss is `-log x_c`. -/
theorem nll_eq {x y : Dense ℝ} (hx : x.WF) (hl : x.Like y) {c : Nat} (hc : c < x.data.length)
    (hy : ∀ i < x.data.length, y.val i = if i = c then 1 else 0) : nll x y = some (scalar (-Real.log (x.val c))) := by
  have hyl := hl.len hx
  have hly : y.Like (x.map Real.log) := (hl.symm hx).trans (like_map (Like.refl hx) _)
  have hlen : (zip2 (· * ·) y (x.map Real.log)).data.length = x.data.length := by
    rw [(zip2_like _ hl.wf hly).len hl.wf, hyl]
  simp only [nll, logR, GradFn.log, Option.bind_eq_bind, Option.bind_some, prod, zipOp_like _ hly, reduceSum_fwd,
    neg_scalar, hlen]
  congr 3
  rw [Finset.sum_eq_single c]
  · rw [val_zip2 _ (by omega) (by simpa using hc), hy c hc, if_pos rfl, one_mul, val_map _ _ hc]
  · intro i hi hne
    have hi := Finset.mem_range.mp hi
    rw [val_zip2 _ (by omega) (by simpa using hi), hy i hi, if_neg hne, zero_mul]
  · intro h; exact absurd (Finset.mem_range.mpr hc) h

/-! ### quantisation -/

theorem zeroOne_eq (x : Dense ℝ) : zeroOneQuantization x =
    some (scalar (∑ i ∈ Finset.range x.data.length, (x.val i * (1 - x.val i)) ^ 2)) := by
  have e : zipOp (· * ·) (x.map fun v => v * v) ((x.map (1 - ·)).map fun v => v * v) =
      some (x.map fun v => (v * (1 - v)) ^ 2) := by
    rw [zipOp, if_pos (by simp [sameDims, Dense.map])]
    simp only [Dense.map, Option.some.injEq, Dense.mk.injEq, true_and, List.map_map]
    generalize x.data = l
    induction l with
    | nil => rfl
    | cons a l ih =>
      simp only [List.map_cons, List.zipWith_cons_cons, ih, Function.comp, List.cons.injEq, and_true]
      ring
  simp only [zeroOneQuantization, square_fwd, reverseSubScalar_fwd, Option.bind_eq_bind, Option.bind_some, prod, e,
    reduceSum_fwd, map_length]
  congr 2
  exact Finset.sum_congr rfl fun i hi => val_map _ _ (Finset.mem_range.mp hi)

theorem norm2_eq (x : Dense ℝ) : norm2Quantization x =
    some (scalar ((∑ i ∈ Finset.range x.data.length, x.val i ^ 2 - 1) ^ 2)) := by
  simp only [norm2Quantization, square_fwd, reduceSum_fwd, Option.bind_eq_bind, Option.bind_some, subScalar_fwd,
    map_scalar, square_scalar, map_length]
  have : ∑ i ∈ Finset.range x.data.length, (x.map fun v => v * v).val i =
      ∑ i ∈ Finset.range x.data.length, x.val i ^ 2 :=
    Finset.sum_congr rfl fun i hi => by rw [val_map _ _ (Finset.mem_range.mp hi)]; ring
  rw [this]
  congr 2; ring

/-- **C39.** `ZeroOneQuantization` is non-negative and zero exactly if all entries are 0 or 1. -/
theorem zeroOne_zero_iff (x : Dense ℝ) : ∃ v, zeroOneQuantization x = some (scalar v) ∧ 0 ≤ v ∧
    (v = 0 ↔ ∀ a ∈ x.data, a = 0 ∨ a = 1) := by
  refine ⟨_, zeroOne_eq x, Finset.sum_nonneg fun i _ => sq_nonneg _, ?_⟩
  rw [Finset.sum_eq_zero_iff_of_nonneg fun i _ => sq_nonneg _]
  constructor
  · intro h a ha
    obtain ⟨i, hi, rfl⟩ := List.mem_iff_getElem.mp ha
    have := h i (Finset.mem_range.mpr hi)
    rw [pow_eq_zero_iff (by norm_num), mul_eq_zero, sub_eq_zero, val_of_lt _ hi] at this
    exact this.imp id Eq.symm
  · intro h i hi
    have hi := Finset.mem_range.mp hi
    rw [val_of_lt _ hi]
    rcases h _ (List.getElem_mem hi) with h | h <;> rw [h] <;> norm_num

/-- **C39.** `Norm2Quantization` is non-negative and zero exactly if the squares sum to 1. -/
theorem norm2_zero_iff (x : Dense ℝ) : ∃ v, norm2Quantization x = some (scalar v) ∧ 0 ≤ v ∧
    (v = 0 ↔ ∑ i ∈ Finset.range x.data.length, x.val i ^ 2 = 1) := by
  refine ⟨_, norm2_eq x, sq_nonneg _, ?_⟩
  rw [pow_eq_zero_iff (by norm_num), sub_eq_zero]

/-- **C39.** `OneHotQuantization` with positive weight is non-negative and zero exactly for one-hot
vectors. -/
theorem oneHot_zero_iff (x : Dense ℝ) {q : ℝ} (hq : 0 < q) : ∃ v, oneHotQuantization x q = some (scalar v) ∧ 0 ≤ v ∧
    (v = 0 ↔ ∃ c < x.data.length, ∀ i < x.data.length, x.val i = if i = c then 1 else 0) := by
  obtain ⟨a, a1, a2, a3⟩ := zeroOne_zero_iff x
  obtain ⟨b, b1, b2, b3⟩ := norm2_zero_iff x
  refine ⟨(a + b) * q, ?_, by positivity, ?_⟩
  · simp only [oneHotQuantization, a1, b1, Option.bind_eq_bind, Option.bind_some, add_scalar, prodScalar_fwd, map_scalar]
  · rw [mul_eq_zero, or_iff_left hq.ne']
    have : a + b = 0 ↔ a = 0 ∧ b = 0 := by
      constructor
      · intro h; constructor <;> linarith
      · rintro ⟨rfl, rfl⟩; ring
    rw [this, a3, b3]
    constructor
    · rintro ⟨h1, h2⟩
      have h01 : ∀ i < x.data.length, x.val i = 0 ∨ x.val i = 1 := fun i hi => by
        rw [val_of_lt _ hi]; exact h1 _ (List.getElem_mem hi)
      obtain ⟨c, hc, hc1⟩ : ∃ c < x.data.length, x.val c = 1 := by
        by_contra hn
        push Not at hn
        have : ∑ i ∈ Finset.range x.data.length, x.val i ^ 2 = 0 := by
          refine Finset.sum_eq_zero fun i hi => ?_
          have hi := Finset.mem_range.mp hi
          rcases h01 i hi with h | h
          · rw [h]; norm_num
          · exact absurd h (hn i hi)
        rw [this] at h2; norm_num at h2
      refine ⟨c, hc, fun i hi => ?_⟩
      by_cases hic : i = c
      · rw [if_pos hic, hic, hc1]
      · rw [if_neg hic]
        rcases h01 i hi with h | h
        · exact h
        · exfalso
          have hle : ∑ k ∈ ({c, i} : Finset Nat), x.val k ^ 2 ≤ ∑ k ∈ Finset.range x.data.length, x.val k ^ 2 := by
            refine Finset.sum_le_sum_of_subset_of_nonneg ?_ fun _ _ _ => sq_nonneg _
            intro k hk
            simp only [Finset.mem_insert, Finset.mem_singleton] at hk
            rcases hk with rfl | rfl
            · exact Finset.mem_range.mpr hc
            · exact Finset.mem_range.mpr hi
          rw [Finset.sum_pair (Ne.symm hic), hc1, h, h2] at hle
          norm_num at hle
    · rintro ⟨c, hc, h⟩
      constructor
      · intro v hv
        obtain ⟨i, hi, rfl⟩ := List.mem_iff_getElem.mp hv
        have := h i hi
        rw [val_of_lt _ hi] at this
        rw [this]; split <;> simp
      · rw [Finset.sum_eq_single c]
        · rw [h c hc, if_pos rfl]; norm_num
        · intro i hi hne
          rw [h i (Finset.mem_range.mp hi), if_neg hne]; norm_num
        · intro hn; exact absurd (Finset.mem_range.mpr hc) hn

/-- **C39.** `Distance` of a scalar is `|target - x|`. -/
theorem distance_eq (a target : ℝ) : distance (scalar a) target = some (scalar |target - a|) := by
  simp only [distance, sub_scalar, Option.bind_eq_bind, Option.bind_some, abs_scalar]

/-! ### sequences -/

theorem seqLoop_eq {A B : Type} {elem : A → B → Option (Dense ℝ)} {f : A → B → ℝ} :
    ∀ (ps : List A) (ts : List B), ps.length ≤ ts.length →
      (∀ p ∈ ps.zip ts, elem p.1 p.2 = some (scalar (f p.1 p.2))) → ∀ a : ℝ,
      seqLoop elem ps ts (scalar a) = some (scalar (a + ((ps.zip ts).map fun p => f p.1 p.2).sum))
  | [], ts, _, _, a => by simp [seqLoop]
  | p :: ps, [], h, _, a => by simp at h
  | p :: ps, t :: ts, h, he, a => by
    rw [seqLoop, he (p, t) (by simp)]
    simp only [Option.bind_eq_bind, Option.bind_some, add_scalar]
    rw [seqLoop_eq ps ts (by simpa using h) (fun q hq => he q (by simp [hq]))]
    simp only [List.zip_cons_cons, List.map_cons, List.sum_cons, add_assoc]

/-- **C39.** A sequence loss is the sum, or the sum divided by the number of predictions, of the element
losses. -/
theorem lossSeq_eq {A B : Type} {elem : A → B → Option (Dense ℝ)} {f : A → B → ℝ} {ps : List A} {ts : List B}
    (hne : ps ≠ []) (hl : ps.length ≤ ts.length)
    (he : ∀ p ∈ ps.zip ts, elem p.1 p.2 = some (scalar (f p.1 p.2))) (mean : Bool) :
    lossSeq elem ps ts mean = some (scalar
      (((ps.zip ts).map fun p => f p.1 p.2).sum / if mean then (ps.length : ℝ) else 1)) := by
  match ps, ts, hl with
  | [], _, _ => exact absurd rfl hne
  | p :: ps, [], hl => simp at hl
  | p :: ps, t :: ts, hl =>
    have h1 := he (p, t) (by simp)
    simp only [lossSeq]
    rw [h1]
    simp only [Option.bind_eq_bind, Option.bind_some]
    rw [seqLoop_eq ps ts (by simpa using hl) (fun q hq => he q (by simp [hq]))]
    simp only [Option.bind_some]
    cases mean
    · simp
    · simp only [if_true, divScalar_fwd, map_scalar, List.zip_cons_cons, List.map_cons, List.sum_cons, mul_one_div]

/-- **C39.** More predictions than targets, or no prediction at all, is a panic. -/
theorem lossSeq_none {A B : Type} {elem : A → B → Option (Dense ℝ)} {ps : List A} {ts : List B}
    (h : ps = [] ∨ ts.length < ps.length) (mean : Bool) : lossSeq elem ps ts mean = none := by
  have hloop : ∀ (ps : List A) (ts : List B) (l : Dense ℝ), ts.length < ps.length → seqLoop elem ps ts l = none := by
    intro ps
    induction ps with
    | nil => intro ts l h; simp at h
    | cons p ps ih =>
      intro ts l h
      cases ts with
      | nil => rfl
      | cons t ts =>
        rw [seqLoop]
        cases elem p t with
        | none => rfl
        | some d =>
          simp only [Option.bind_eq_bind, Option.bind_some]
          cases GradFn.add.forward [l, d] with
          | none => rfl
          | some d' => simp only [Option.bind_some]; exact ih ts d' (by simpa using h)
  match ps, ts, h with
  | [], _, _ => rfl
  | p :: ps, [], _ => rfl
  | p :: ps, t :: ts, h =>
    have hlt : ts.length < ps.length := by
      rcases h with h | h
      · cases h
      · simpa using h
    simp only [lossSeq]
    cases elem p t with
    | none => rfl
    | some d => simp only [Option.bind_eq_bind, Option.bind_some, hloop ps ts d hlt, Option.bind_none]

/-- **C39** for cross-entropy sequences: the sum or mean of `-log softmax(x_t)_{c_t}`. -/
theorem crossEntropySeq_eq {ps : List (Dense ℝ)} {cs : List Nat} (hne : ps ≠ []) (hl : ps.length ≤ cs.length)
    (hv : ∀ p ∈ ps.zip cs, p.1.isVector ∧ p.2 < p.1.data.length) (mean : Bool) :
    crossEntropySeq ps (cs.map Int.ofNat) mean = some (scalar
      (((ps.zip cs).map fun p => Real.log (p.1.data.map Real.exp).sum - p.1.val p.2).sum /
        if mean then (ps.length : ℝ) else 1)) := by
  have := lossSeq_eq (elem := crossEntropy) (f := fun p (c : Int) => Real.log (p.data.map Real.exp).sum - p.val c.toNat)
    (ps := ps) (ts := cs.map Int.ofNat) hne (by simpa using hl) (by
      intro p hp
      rw [List.zip_map_right] at hp
      obtain ⟨q, hq, rfl⟩ := List.mem_map.mp hp
      obtain ⟨h1, h2⟩ := hv q hq
      simpa using crossEntropy_eq h1 h2) mean
  rw [crossEntropySeq, this]
  congr 3
  rw [List.zip_map_right, List.map_map]
  congr 1

/-- **C39** for sequences of squared errors. -/
theorem mseSeq_eq {ps ts : List (Dense ℝ)} (hne : ps ≠ []) (hl : ps.length ≤ ts.length)
    (hv : ∀ p ∈ ps.zip ts, p.1.WF ∧ p.2.WF ∧ p.1.sameDims p.2) (mean : Bool) :
    mseSeq ps ts mean = some (scalar
      (((ps.zip ts).map fun p => ∑ i ∈ Finset.range p.1.data.length, (p.1.val i - p.2.val i) ^ 2 / 2).sum /
        if mean then (ps.length : ℝ) else 1)) := by
  refine lossSeq_eq (f := fun p t => ∑ i ∈ Finset.range p.data.length, (p.val i - t.val i) ^ 2 / 2) hne hl ?_ mean
  intro p hp
  obtain ⟨h1, h2, h3⟩ := hv p hp
  rw [mse_eq h1 h2, if_pos h3]; simp [reduce]

/-- **C39** for sequences of absolute errors. -/
theorem maeSeq_eq {ps ts : List (Dense ℝ)} (hne : ps ≠ []) (hl : ps.length ≤ ts.length)
    (hv : ∀ p ∈ ps.zip ts, p.1.WF ∧ p.2.WF ∧ p.1.sameDims p.2) (mean : Bool) :
    maeSeq ps ts mean = some (scalar
      (((ps.zip ts).map fun p => ∑ i ∈ Finset.range p.1.data.length, |p.1.val i - p.2.val i|).sum /
        if mean then (ps.length : ℝ) else 1)) := by
  refine lossSeq_eq (f := fun p t => ∑ i ∈ Finset.range p.data.length, |p.val i - t.val i|) hne hl ?_ mean
  intro p hp
  obtain ⟨h1, h2, h3⟩ := hv p hp
  rw [mae_eq h1 h2, if_pos h3]; simp [reduce]

theorem spgLoop_eq : ∀ (as bs : List ℝ), as.length ≤ bs.length → ∀ a : ℝ,
    spgLoop (as.map scalar) (bs.map scalar) (some (scalar a)) =
      some (some (scalar (a + ((as.zip bs).map fun p => p.1 * p.2).sum)))
  | [], bs, _, a => by simp [spgLoop]
  | x :: as, [], h, a => by simp at h
  | x :: as, y :: bs, h, a => by
    simp only [List.map_cons, spgLoop, prod_scalar, Option.bind_eq_bind, Option.bind_some, addNil, add_scalar]
    rw [spgLoop_eq as bs (by simpa using h)]
    simp only [List.zip_cons_cons, List.map_cons, List.sum_cons, add_assoc]

/-- **C39.** `SPG` is minus the sum of the products. -/
theorem spg_eq {as bs : List ℝ} (hne : as ≠ []) (hl : as.length ≤ bs.length) :
    spg (as.map scalar) (bs.map scalar) = some (scalar (-((as.zip bs).map fun p => p.1 * p.2).sum)) := by
  match as, bs, hl with
  | [], _, _ => exact absurd rfl hne
  | x :: as, [], hl => simp at hl
  | x :: as, y :: bs, hl =>
    simp only [spg, List.map_cons, spgLoop, prod_scalar, Option.bind_eq_bind, Option.bind_some, addNil,
      GradFn.copy]
    rw [spgLoop_eq as bs (by simpa using hl)]
    simp only [Option.bind_some, neg_scalar, List.zip_cons_cons, List.map_cons, List.sum_cons]

section Examples

/-- three classes, gold class 1: the hypotheses hold and the loss is positive -/
example : ∃ v, crossEntropy ⟨3, 1, [1, 2, 3]⟩ 1 = some (scalar v) ∧ 0 ≤ v ∧ (0 < v ↔ 2 ≤ 3) :=
  crossEntropy_pos (x := ⟨3, 1, [1, 2, 3]⟩) (by rfl) (by rfl) (c := 1) (by simp)

example : mse ⟨2, 1, [1, 2]⟩ ⟨2, 1, [1, 4]⟩ true = some (scalar 1) := by
  rw [mse_eq (by rfl) (by rfl), if_pos (by rfl)]
  norm_num [reduce, Finset.sum_range_succ, val]

example : ∃ v, oneHotQuantization ⟨3, 1, [0, 1, 0]⟩ 2 = some (scalar v) ∧ v = 0 := by
  obtain ⟨v, h1, -, h3⟩ := oneHot_zero_iff ⟨3, 1, [0, 1, 0]⟩ (q := 2) (by norm_num)
  refine ⟨v, h1, h3.mpr ⟨1, by simp, ?_⟩⟩
  intro i hi
  have : i < 3 := hi
  rcases i with _ | _ | _ | i <;> simp [val] at this ⊢

/-- two steps with two outputs each -/
example : mseSeq [⟨2, 1, [1, 2]⟩, ⟨2, 1, [0, 3]⟩] [⟨2, 1, [1, 4]⟩, ⟨2, 1, [2, 3]⟩] true = some (scalar 2) := by
  rw [mseSeq_eq (by simp) (by simp) (by simp [WF, sameDims])]
  norm_num [Finset.sum_range_succ, val]

example : spg ([2, 3].map scalar) ([5, 7].map scalar) = some (scalar (-31)) := by
  rw [spg_eq (by simp) (by simp)]; norm_num

end Examples
end Verif.Losses
