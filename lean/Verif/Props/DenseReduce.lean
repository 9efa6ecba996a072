import Verif.Model.DenseMisc
import Verif.Model.Spare
import Verif.Props.DenseShape
import Mathlib.Algebra.Order.Field.Basic
import Mathlib.Algebra.BigOperators.Group.List.Basic

/-!
# C74: reductions, ranges and special matrices
-/

set_option autoImplicit false
set_option linter.unusedSimpArgs false

namespace Verif.Dense

open GoSlice

variable {R : Type}

/-! ## Maximum, minimum -/

section Order

variable [LinearOrder R]

theorem foldl_max (vs : List R) : ∀ m : R, let r := vs.foldl (fun m v => if m < v then v else m) m
    (r = m ∨ r ∈ vs) ∧ m ≤ r ∧ ∀ v ∈ vs, v ≤ r := by
  induction vs with
  | nil => intro m; simp
  | cons w vs ih =>
    intro m
    obtain ⟨h1, h2, h3⟩ := ih (if m < w then w else m)
    simp only [List.foldl_cons]
    by_cases h : m < w
    · simp only [h, if_true] at h1 h2 h3 ⊢
      refine ⟨?_, h.le.trans h2, ?_⟩
      · rcases h1 with h1 | h1
        · right; rw [h1]; exact List.mem_cons_self
        · right; exact List.mem_cons_of_mem _ h1
      · intro v hv
        rcases List.mem_cons.mp hv with rfl | hv
        · exact h2
        · exact h3 v hv
    · simp only [h, if_false] at h1 h2 h3 ⊢
      refine ⟨?_, h2, ?_⟩
      · rcases h1 with h1 | h1
        · left; exact h1
        · right; exact List.mem_cons_of_mem _ h1
      · intro v hv
        rcases List.mem_cons.mp hv with rfl | hv
        · exact (not_lt.mp h).trans h2
        · exact h3 v hv

theorem foldl_min (vs : List R) : ∀ m : R, let r := vs.foldl (fun m v => if v < m then v else m) m
    (r = m ∨ r ∈ vs) ∧ r ≤ m ∧ ∀ v ∈ vs, r ≤ v := by
  induction vs with
  | nil => intro m; simp
  | cons w vs ih =>
    intro m
    obtain ⟨h1, h2, h3⟩ := ih (if w < m then w else m)
    simp only [List.foldl_cons]
    by_cases h : w < m
    · simp only [h, if_true] at h1 h2 h3 ⊢
      refine ⟨?_, h2.trans h.le, ?_⟩
      · rcases h1 with h1 | h1
        · right; rw [h1]; exact List.mem_cons_self
        · right; exact List.mem_cons_of_mem _ h1
      · intro v hv
        rcases List.mem_cons.mp hv with rfl | hv
        · exact h2
        · exact h3 v hv
    · simp only [h, if_false] at h1 h2 h3 ⊢
      refine ⟨?_, h2, ?_⟩
      · rcases h1 with h1 | h1
        · left; exact h1
        · right; exact List.mem_cons_of_mem _ h1
      · intro v hv
        rcases List.mem_cons.mp hv with rfl | hv
        · exact h2.trans (not_lt.mp h)
        · exact h3 v hv

/-- **C74.** `Max` panics exactly on an empty matrix; otherwise it is the greatest element. -/
theorem max_spec (d : Dense R) : (d.max = none ↔ d.data = []) ∧
    ∀ m, d.max = some m ↔ m ∈ d.data ∧ ∀ v ∈ d.data, v ≤ m := by
  unfold Dense.max
  cases d.data with
  | nil => simp
  | cons v vs =>
    obtain ⟨h1, h2, h3⟩ := foldl_max vs v
    refine ⟨by simp, fun m => ?_⟩
    have hmem : vs.foldl (fun m v => if m < v then v else m) v ∈ v :: vs := by
      rcases h1 with h1 | h1
      · rw [h1]; exact List.mem_cons_self
      · exact List.mem_cons_of_mem _ h1
    have hle : ∀ w ∈ v :: vs, w ≤ vs.foldl (fun m v => if m < v then v else m) v := by
      intro w hw
      rcases List.mem_cons.mp hw with rfl | hw
      · exact h2
      · exact h3 w hw
    simp only [Option.some.injEq]
    constructor
    · rintro rfl; exact ⟨hmem, hle⟩
    · rintro ⟨a, b⟩; exact le_antisymm (b _ hmem) (hle m a)

/-- **C74.** The exported `Max` gives it as a 1 × 1 matrix. -/
theorem Max_spec (d e : Dense R) : DenseMisc.Max d = some e ↔
    ∃ m, e = ⟨1, 1, [m]⟩ ∧ m ∈ d.data ∧ ∀ v ∈ d.data, v ≤ m := by
  unfold DenseMisc.Max
  rw [Option.map_eq_some_iff]
  constructor
  · rintro ⟨m, h, rfl⟩
    exact ⟨m, rfl, ((max_spec d).2 m).mp h⟩
  · rintro ⟨m, rfl, h⟩
    exact ⟨m, ((max_spec d).2 m).mpr h, rfl⟩

/-- **C74.** `Min` panics exactly on an empty matrix; otherwise it is the least element. -/
theorem min_spec (d : Dense R) : (d.min = none ↔ d.data = []) ∧
    ∀ m, d.min = some m ↔ m ∈ d.data ∧ ∀ v ∈ d.data, m ≤ v := by
  unfold Dense.min
  cases d.data with
  | nil => simp
  | cons v vs =>
    obtain ⟨h1, h2, h3⟩ := foldl_min vs v
    refine ⟨by simp, fun m => ?_⟩
    have hmem : vs.foldl (fun m v => if v < m then v else m) v ∈ v :: vs := by
      rcases h1 with h1 | h1
      · rw [h1]; exact List.mem_cons_self
      · exact List.mem_cons_of_mem _ h1
    have hle : ∀ w ∈ v :: vs, vs.foldl (fun m v => if v < m then v else m) v ≤ w := by
      intro w hw
      rcases List.mem_cons.mp hw with rfl | hw
      · exact h2
      · exact h3 w hw
    simp only [Option.some.injEq]
    constructor
    · rintro rfl; exact ⟨hmem, hle⟩
    · rintro ⟨a, b⟩; exact le_antisymm (hle m a) (b _ hmem)

/-- **C74.** `ClipInPlace` panics when `max < min`; otherwise the values within the limits stay and the others become
the nearer limit. -/
theorem clip_spec (d : Dense R) (lo hi : R) : (d.clip lo hi = none ↔ hi < lo) ∧
    ∀ e, d.clip lo hi = some e → e.rows = d.rows ∧ e.cols = d.cols ∧
      e.data = d.data.map fun v => Max.max lo (Min.min v hi) := by
  unfold Dense.clip
  by_cases h : hi < lo
  · simp [h]
  · simp only [h, if_false, reduceCtorEq, false_iff, not_false_iff, true_and]
    rintro e he
    obtain rfl := Option.some.inj he
    refine ⟨rfl, rfl, List.map_congr_left fun v _ => ?_⟩
    have h := not_lt.mp h
    split_ifs with h1 h2
    · rw [min_eq_left (h1.le.trans h), max_eq_left h1.le]
    · rw [min_eq_right h2.le, max_eq_right h]
    · rw [min_eq_left (not_lt.mp h2), max_eq_right (not_lt.mp h1)]

end Order

/-! ## Sums -/

theorem foldl_add [AddCommMonoid R] (l : List R) (a : R) : l.foldl (· + ·) a = a + l.sum := by
  induction l generalizing a with
  | nil => simp
  | cons v l ih => rw [List.foldl_cons, ih, List.sum_cons, add_assoc]

/-- **C74.** `Sum` is the sum of the elements. -/
theorem sum_spec [AddCommMonoid R] (d : Dense R) : d.sum = d.data.sum := by
  rw [Dense.sum, foldl_add, zero_add]

theorem cumSumLoop_length [Add R] (a : R) (vs : List R) : (cumSumLoop a vs).length = vs.length := by
  induction vs generalizing a with
  | nil => rfl
  | cons v vs ih => simp [cumSumLoop, ih]

theorem cumSumLoop_get [AddCommMonoid R] (a : R) (vs : List R) (i : Nat) (h : i < vs.length) :
    (cumSumLoop a vs)[i]? = some (a + (vs.take (i + 1)).sum) := by
  induction vs generalizing a i with
  | nil => simp at h
  | cons v vs ih =>
    cases i with
    | zero => simp [cumSumLoop]
    | succ i =>
      rw [cumSumLoop, List.getElem?_cons_succ, ih _ _ (by simpa using h), List.take_succ_cons, List.sum_cons, add_assoc]

/-- **C74.** `CumSum` panics exactly when the matrix is not a vector; the result is a column whose element `i` is the sum
of the elements up to `i`. -/
theorem cumSum_spec [AddCommMonoid R] (d : Dense R) : (d.cumSum = none ↔ ¬(d.rows = 1 ∨ d.cols = 1)) ∧
    ∀ e, d.cumSum = some e → e.rows = d.data.length ∧ e.cols = 1 ∧ e.WF ∧
      ∀ i < d.data.length, e.data[i]? = some (d.data.take (i + 1)).sum := by
  unfold cumSum
  have hv : d.isVector = true ↔ d.rows = 1 ∨ d.cols = 1 := by simp [isVector]
  by_cases h : d.isVector
  · simp only [h, not_true_eq_false, if_false, ← hv]
    cases hd : d.data with
    | nil =>
      refine ⟨by simp, fun e he => ?_⟩
      obtain rfl := Option.some.inj he
      exact ⟨rfl, rfl, rfl, fun i hi => by simp at hi⟩
    | cons v vs =>
      refine ⟨by simp, fun e he => ?_⟩
      obtain rfl := Option.some.inj he
      refine ⟨rfl, rfl, by simp [WF, cumSumLoop_length], fun i hi => ?_⟩
      cases i with
      | zero => simp
      | succ i =>
        rw [List.getElem?_cons_succ, cumSumLoop_get _ _ _ (by simpa using hi), List.take_succ_cons, List.sum_cons]
  · simp only [h, not_false_iff, if_true, ← hv]
    simp

/-! ## Ranges -/

theorem subCap_nil (l : List R) (a b : Nat) : subCap l [] a b = sub l a b := by simp [subCap, sub]

/-- **C74.** `Range` panics exactly when the matrix is not a vector or the limits are not `0 ≤ start ≤ end ≤ size`; the
result is the column of the elements from `start` to before `end`. -/
theorem range_spec (d : Dense R) (a b : Int) :
    ((d.range a b).isSome ↔ (d.rows = 1 ∨ d.cols = 1) ∧ 0 ≤ a ∧ a ≤ b ∧ b ≤ d.data.length) ∧
    ∀ e, d.range a b = some e → e.cols = 1 ∧ e.WF ∧ (e.rows : Int) = b - a ∧
      ∀ i : Nat, i < b - a → e.data[i]? = d.data[a.toNat + i]? := by
  unfold Dense.range
  have hv : d.isVector = true ↔ d.rows = 1 ∨ d.cols = 1 := by simp [isVector]
  by_cases h : d.isVector
  swap
  · have h' : ¬(d.rows = 1 ∨ d.cols = 1) := fun h1 => h (hv.mpr h1)
    simp [h, h']
  have h' := hv.mp h
  by_cases h1 : b < a
  · simp only [h, not_true_eq_false, if_false, h1, if_true]
    exact ⟨by simp; intros; omega, by simp⟩
  by_cases h2 : b < 0 ∨ a < 0
  · simp only [h, not_true_eq_false, if_false, h1, h2, if_true]
    exact ⟨by simp; intros; omega, by simp⟩
  simp only [h, not_true_eq_false, if_false, h1, h2, sub]
  by_cases h3 : b.toNat ≤ d.data.length
  · rw [if_pos ⟨by omega, h3⟩]
    have hl : ((d.data.take b.toNat).drop a.toNat).length = b.toNat - a.toNat := by
      rw [List.length_drop, List.length_take]; omega
    refine ⟨by simp [h']; omega, fun e he => ?_⟩
    obtain rfl := Option.some.inj he
    refine ⟨rfl, by simp [WF, column], ?_, fun i hi => ?_⟩
    · simp only [column, hl]; omega
    · simp only [column, List.getElem?_drop]
      rw [List.getElem?_take_of_lt (by omega)]
  · rw [if_neg (fun h => h3 h.2)]
    exact ⟨by simp; intros; omega, by simp⟩

/-- The models with spare capacity extend those without. -/
theorem rangeCap_nil (d : Dense R) (a b : Int) : d.rangeCap [] a b = d.range a b := by
  simp only [rangeCap, range, subCap_nil]

theorem splitLoopCap_nil (data : List R) (offset : Nat) (sizes : List Int) :
    splitLoopCap data [] offset sizes = splitLoop data offset sizes := by
  induction sizes generalizing offset with
  | nil => rfl
  | cons s sizes ih => simp only [splitLoopCap, splitLoop, subCap_nil, ih]

theorem splitVCap_nil (d : Dense R) (sizes : List Int) : d.splitVCap [] sizes = d.splitV sizes := by
  simp only [splitVCap, splitV, splitLoopCap_nil]

/-- **C74, violation.** For a vector whose backing slice has spare capacity, `Range` does not panic at an end beyond the
size: it returns elements which are not part of the vector. -/
theorem range_beyond {d : Dense R} (hv : d.rows = 1 ∨ d.cols = 1) {spare : List R} {n : Nat} (hn : n ≤ spare.length) :
    d.rangeCap spare 0 (d.data.length + n) = some (column (d.data ++ spare.take n)) := by
  have hv' : d.isVector = true := by simpa [isVector] using hv
  have h1 : ((d.data.length : Int) + n).toNat = d.data.length + n := by omega
  simp only [rangeCap, hv', not_true_eq_false, if_false]
  rw [if_neg (by omega), if_neg (by omega)]
  simp only [Int.toNat_zero, h1, subCap]
  rw [if_pos (by omega), List.drop_zero, List.take_length_add_append]
  rfl

/-- **C15, violation.** Likewise `SplitV` does not fail for sizes which add up to more than the size of the vector. -/
theorem splitV_beyond {d : Dense R} (hv : d.rows = 1 ∨ d.cols = 1) (h0 : d.data ≠ []) {spare : List R} {n : Nat}
    (hn : n ≤ spare.length) :
    d.splitVCap spare [(d.data.length + n : Nat)] = some [column (d.data ++ spare.take n)] := by
  have hv' : d.isVector = true := by simpa [isVector] using hv
  have hl : 0 < d.data.length := List.length_pos_iff.mpr h0
  simp only [splitVCap, hv', not_true_eq_false, if_false, splitLoopCap]
  rw [if_neg (by omega), if_neg (by omega)]
  simp only [Int.toNat_natCast, subCap, Nat.zero_add]
  rw [if_pos (by omega), List.drop_zero, List.take_length_add_append]
  rfl

/-! ## Special matrices -/

theorem setAll_get (l : List Nat) (v : R) : ∀ (out res : List R),
    l.foldlM (fun out i => GoSlice.set out i v) out = some res →
    res.length = out.length ∧ ∀ k < out.length, res[k]? = if k ∈ l then some v else out[k]? := by
  induction l with
  | nil => rintro out res h; obtain rfl := Option.some.inj h; simp
  | cons i l ih =>
    intro out res h
    rw [List.foldlM_cons] at h
    obtain ⟨o, h1, h2⟩ := Option.bind_eq_some_iff.mp h
    unfold GoSlice.set at h1
    split at h1
    · rename_i hi
      obtain rfl := Option.some.inj h1
      obtain ⟨h3, h4⟩ := ih _ _ h2
      refine ⟨by simpa using h3, fun k hk => ?_⟩
      rw [h4 k (by simpa using hk)]
      by_cases hkl : k ∈ l
      · simp [hkl]
      · by_cases hki : k = i
        · subst hki
          simp [hkl, hi]
        · simp [hkl, hki, List.getElem?_set, Ne.symm hki]
    · simp at h1

theorem setAll_some (l : List Nat) (v : R) : ∀ (out : List R), (∀ i ∈ l, i < out.length) →
    ∃ res, l.foldlM (fun out i => GoSlice.set out i v) out = some res := by
  induction l with
  | nil => intro out _; exact ⟨out, rfl⟩
  | cons i l ih =>
    intro out h
    have hi := h i List.mem_cons_self
    obtain ⟨res, hr⟩ := ih (out.set i v) fun k hk => by simpa using h k (List.mem_cons_of_mem _ hk)
    refine ⟨res, ?_⟩
    rw [List.foldlM_cons, GoSlice.set, if_pos hi]
    exact hr

theorem idx_lt {n i j : Nat} (hi : i < n) (hj : j < n) : i * n + j < n * n := by
  calc i * n + j < i * n + n := by omega
    _ = (i + 1) * n := by ring
    _ ≤ n * n := Nat.mul_le_mul_right _ hi

/-- A position of a square matrix is a multiple of `n + 1` exactly on the diagonal. -/
theorem diag_iff {n i j : Nat} (hi : i < n) (hj : j < n) : (n + 1) ∣ i * n + j ↔ i = j := by
  constructor
  · rintro ⟨k, hk⟩
    have e1 : ((i : Int) * n + j) = (n + 1) * k := by exact_mod_cast hk
    have e2 : ((n : Int) + 1) * (k - i) = j - i := by linarith
    have h3 : ((k : Int) - i) = 0 := by
      by_contra h0
      rcases lt_or_gt_of_ne h0 with h | h
      · have : ((n : Int) + 1) * (k - i) ≤ (n + 1) * (-1) := mul_le_mul_of_nonneg_left (by omega) (by omega)
        omega
      · have : ((n : Int) + 1) * 1 ≤ (n + 1) * (k - i) := mul_le_mul_of_nonneg_left (by omega) (by omega)
        omega
    rw [h3, mul_zero] at e2
    omega
  · rintro rfl
    exact ⟨i, by ring⟩

/-- **C74.** `CreateIdentityMatrix` always succeeds and gives the square matrix with 1 on the diagonal and 0
elsewhere. -/
theorem identity_spec [Zero R] [One R] (n : Nat) : ∃ d : Dense R, identity n = some d ∧ d.WF ∧ d.rows = n ∧ d.cols = n ∧
    ∀ i j : Nat, i < n → j < n → d.at2 i j = some (if i = j then 1 else 0) := by
  obtain ⟨res, hres⟩ := setAll_some ((List.range (n * n)).filter (fun i => (n + 1) ∣ i)) (1 : R)
    (List.replicate (n * n) 0) (fun i hi => by
      simpa using (List.mem_range.mp (List.mem_filter.mp hi).1))
  obtain ⟨h1, h2⟩ := setAll_get _ _ _ _ hres
  refine ⟨⟨n, n, res⟩, by rw [identity, hres]; rfl, by simpa [WF] using h1, rfl, rfl, fun i j hi hj => ?_⟩
  have hlt := idx_lt hi hj
  rw [at2_some _ hi hj]
  change res[i * n + j]? = _
  rw [h2 _ (by simpa using hlt)]
  have : i * n + j ∈ (List.range (n * n)).filter (fun i => (n + 1) ∣ i) ↔ i = j := by
    rw [List.mem_filter, List.mem_range]
    simp [hlt, diag_iff hi hj]
  by_cases hij : i = j
  · rw [if_pos (this.mpr hij), if_pos hij]
  · rw [if_neg (fun h => hij (this.mp h)), if_neg hij, List.getElem?_replicate, if_pos hlt]

/-- **C74.** `CreateOneHotVector` panics exactly when the index is outside; otherwise the vector is 1 there and 0
elsewhere. -/
theorem oneHot_spec [Zero R] [One R] (n : Nat) (i : Int) :
    ((oneHot n i : Option (Dense R)).isSome ↔ 0 ≤ i ∧ i < n) ∧
    ∀ d : Dense R, oneHot n i = some d → d.WF ∧ d.rows = n ∧ d.cols = 1 ∧
      ∀ k : Nat, k < n → d.data[k]? = some (if (k : Int) = i then 1 else 0) := by
  unfold oneHot GoSlice.set
  by_cases h0 : i < 0
  · simp only [h0, if_true]
    exact ⟨by simp; omega, by simp⟩
  simp only [h0, if_false, List.length_replicate]
  by_cases h1 : i.toNat < n
  · rw [if_pos h1]
    refine ⟨by simp; omega, fun d hd => ?_⟩
    obtain rfl := Option.some.inj hd
    refine ⟨by simp [WF], rfl, rfl, fun k hk => ?_⟩
    by_cases hki : (k : Int) = i
    · subst hki
      simp [hk]
    · rw [if_neg hki]
      have : i.toNat ≠ k := by omega
      simp only []
      rw [List.getElem?_set_ne this, List.getElem?_replicate, if_pos hk]
  · rw [if_neg h1]
    exact ⟨by simp; omega, by simp⟩

/-- **C74.** `Equal`: same shape and same elements. -/
theorem equal_spec [DecidableEq R] (a b : Dense R) : a.equal b = true ↔ a = b := by
  cases a; cases b
  simp [equal, sameDims, and_assoc]

section Examples

example : (⟨2, 2, [3, 1, 4, 1]⟩ : Dense Int).max = some 4 ∧ (⟨2, 2, [3, 1, 4, 1]⟩ : Dense Int).min = some 1 := by decide
example : (⟨1, 3, [3, 1, 4]⟩ : Dense Int).cumSum = some ⟨3, 1, [3, 4, 8]⟩ := by decide
example : (⟨1, 3, [3, 1, 4]⟩ : Dense Int).range 1 3 = some ⟨2, 1, [1, 4]⟩ := by decide
example : (⟨1, 3, [3, 1, 4]⟩ : Dense Int).range 1 4 = none := by decide
/-- a vector over `buf[:2]` where `buf` has five elements -/
example : (⟨2, 1, [3, 1]⟩ : Dense Int).rangeCap [4, 1, 5] 0 3 = some ⟨3, 1, [3, 1, 4]⟩ :=
  range_beyond (n := 1) (.inr rfl) (by decide)
example : (⟨2, 1, [3, 1]⟩ : Dense Int).splitVCap [4, 1, 5] [4] = some [⟨4, 1, [3, 1, 4, 1]⟩] :=
  splitV_beyond (n := 2) (.inr rfl) (by decide) (by decide)
example : (identity 2 : Option (Dense Int)) = some ⟨2, 2, [1, 0, 0, 1]⟩ := by decide
example : (oneHot 3 1 : Option (Dense Int)) = some ⟨3, 1, [0, 1, 0]⟩ := by decide
example : (⟨1, 3, [-5, 1, 4]⟩ : Dense Int).clip 0 3 = some ⟨1, 3, [0, 1, 3]⟩ := by decide

end Examples

end Verif.Dense
