import Verif.Lemmas.Dense

set_option autoImplicit false
set_option linter.unusedSimpArgs false

/-!
# C14: element access and sub-matrices
-/

namespace Verif.Dense
open GoSlice
variable {R : Type}

/-- The position `(r, c)` lies in the matrix. -/
def Inside (d : Dense R) (r c : Int) : Prop := 0 ≤ r ∧ r < d.rows ∧ 0 ≤ c ∧ c < d.cols

instance (d : Dense R) (r c : Int) : Decidable (d.Inside r c) := by unfold Inside; infer_instance

theorem getElem?_sub {l : List R} {a b i : Nat} :
    ((l.take b).drop a)[i]? = if a + i < b then l[a + i]? else none := by
  rw [List.getElem?_drop]
  split
  · rw [List.getElem?_take_of_lt ‹_›]
  · rw [List.getElem?_take_eq_none (by omega)]

theorem length_sub {l : List R} {a b : Nat} (h : b ≤ l.length) :
    ((l.take b).drop a).length = b - a := by
  simp only [List.length_drop, List.length_take]; omega

/-- **C14.** Access with two indices succeeds exactly inside the matrix … -/
theorem at2_isSome_iff {d : Dense R} (h : d.WF) (r c : Int) :
    (d.at2 r c).isSome ↔ d.Inside r c := by
  unfold Inside
  rcases lt_or_ge r 0 with hr | hr
  · rw [at2_neg_left d c hr]; simp; omega
  · rcases lt_or_ge c 0 with hc | hc
    · rw [at2_neg_right d r hc]; simp; omega
    · obtain ⟨r, rfl⟩ := Int.eq_ofNat_of_zero_le hr
      obtain ⟨c, rfl⟩ := Int.eq_ofNat_of_zero_le hc
      rw [at2_isSome h]; omega

/-- … and with one index exactly for the positions of a vector, where it is access with two
indices to the only row or column. -/
theorem at1_spec {d : Dense R} (h : d.WF) (i : Int) :
    (d.rows = 1 → d.at1 i = d.at2 0 i) ∧ (d.cols = 1 → d.at1 i = d.at2 i 0) ∧
    (d.rows ≠ 1 → d.cols ≠ 1 → d.at1 i = none) := by
  have hh : d.data.length = d.rows * d.cols := h
  refine ⟨?_, ?_, ?_⟩
  · intro hr
    rw [hr, Nat.one_mul] at hh
    unfold at1 at2
    rw [if_neg (by tauto), hh]
    rw [if_neg (by omega : ¬ ((0 : Int) < 0 ∨ (0 : Int) ≥ d.rows))]
    split
    · rfl
    · simp
  · intro hc
    rw [hc, Nat.mul_one] at hh
    unfold at1 at2
    rw [if_neg (by tauto), hh]
    split
    · rfl
    · rw [if_neg (by omega : ¬ ((0 : Int) < 0 ∨ (0 : Int) ≥ d.cols))]; simp [hc]
  · intro hr hc
    simp [at1, hr, hc]

/-- **C14.** Writing with two indices succeeds exactly inside the matrix; afterwards the addressed
element has the new value and every other access gives what it gave before. -/
theorem set2_spec {d : Dense R} (h : d.WF) (v : R) (r c : Int) :
    ((d.set2 v r c).isSome ↔ d.Inside r c) ∧
    ∀ d', d.set2 v r c = some d' → d'.WF ∧ d'.rows = d.rows ∧ d'.cols = d.cols ∧
      ∀ r' c', d'.at2 r' c' = if r' = r ∧ c' = c then some v else d.at2 r' c' := by
  have hh : d.data.length = d.rows * d.cols := h
  by_cases hin : d.Inside r c
  · obtain ⟨h1, h2, h3, h4⟩ := hin
    obtain ⟨r, rfl⟩ := Int.eq_ofNat_of_zero_le h1
    obtain ⟨c, rfl⟩ := Int.eq_ofNat_of_zero_le h3
    have hr : r < d.rows := by omega
    have hc : c < d.cols := by omega
    have hk : r * d.cols + c < d.data.length := by rw [hh]; exact idx_lt hr hc
    have hset : d.set2 v r c = some { d with data := d.data.set (r * d.cols + c) v } := by
      unfold set2
      rw [if_neg (by omega), if_neg (by omega)]
      simp only [Int.toNat_natCast, GoSlice.set, if_pos hk, Option.bind_eq_bind, Option.bind_some]
    rw [hset]
    refine ⟨by simpa using ⟨h1, h2, h3, h4⟩, ?_⟩
    intro d' hd'
    cases hd'
    refine ⟨by simpa [WF] using hh, rfl, rfl, ?_⟩
    intro r' c'
    refine at2_ext (P := fun r' c' => if r' = (r : Int) ∧ c' = (c : Int) then some v
      else d.at2 r' c') ?_ ?_ ?_ r' c'
    · intro i j
      simp only [Int.natCast_inj]
      rw [at2_nat, at2_nat]
      simp only
      by_cases hij : i < d.rows ∧ j < d.cols
      · rw [if_pos hij, if_pos hij]
        by_cases he : i = r ∧ j = c
        · obtain ⟨rfl, rfl⟩ := he
          simp [hk]
        · rw [if_neg he, List.getElem?_set_ne]
          intro hx
          obtain ⟨e1, e2⟩ := idx_inj hc hij.2 hx
          exact he ⟨e1.symm, e2.symm⟩
      · rw [if_neg hij, if_neg hij, if_neg]
        rintro ⟨rfl, rfl⟩; exact hij ⟨hr, hc⟩
    · intro i j hi
      rw [if_neg (by omega), at2_neg_left d j hi]
    · intro i j hj
      rw [if_neg (by omega), at2_neg_right d i hj]
  · have hnone : d.set2 v r c = none := by
      unfold set2
      split
      · rfl
      · split
        · rfl
        · exfalso; apply hin; unfold Inside; omega
    rw [hnone]
    exact ⟨by simpa using hin, by intro d' hd'; cases hd'⟩

/-- **C14.** Writing with one index is writing with two indices to the only row or column of a
vector, and fails on every other matrix. -/
theorem set1_spec {d : Dense R} (h : d.WF) (v : R) (i : Int) :
    (d.rows = 1 → d.set1 v i = d.set2 v 0 i) ∧ (d.cols = 1 → d.set1 v i = d.set2 v i 0) ∧
    (d.rows ≠ 1 → d.cols ≠ 1 → d.set1 v i = none) := by
  have hh : d.data.length = d.rows * d.cols := h
  refine ⟨?_, ?_, ?_⟩
  · intro hr
    rw [hr, Nat.one_mul] at hh
    unfold set1 set2
    rw [if_neg (by tauto), hh]
    rw [if_neg (by omega : ¬ ((0 : Int) < 0 ∨ (0 : Int) ≥ d.rows))]
    split
    · rfl
    · simp
  · intro hc
    rw [hc, Nat.mul_one] at hh
    unfold set1 set2
    rw [if_neg (by tauto), hh]
    split
    · rfl
    · rw [if_neg (by omega : ¬ ((0 : Int) < 0 ∨ (0 : Int) ≥ d.cols))]; simp [hc]
  · intro hr hc
    simp [set1, hr, hc]

/-- **C14.** `ExtractRow(i)` succeeds exactly for the rows of the matrix and has their elements. -/
theorem extractRow_spec {d : Dense R} (h : d.WF) (i : Int) :
    ((d.extractRow i).isSome ↔ 0 ≤ i ∧ i < d.rows) ∧
    ∀ y, d.extractRow i = some y → y.WF ∧ y.rows = 1 ∧ y.cols = d.cols ∧
      ∀ j, y.at2 0 j = d.at2 i j := by
  have hh : d.data.length = d.rows * d.cols := h
  by_cases hin : 0 ≤ i ∧ i < d.rows
  · obtain ⟨i, rfl⟩ := Int.eq_ofNat_of_zero_le hin.1
    have hi : i < d.rows := by omega
    have hle : i * d.cols + d.cols ≤ d.data.length := by
      rw [hh, show i * d.cols + d.cols = (i + 1) * d.cols by ring]
      exact Nat.mul_le_mul_right _ hi
    have hlen : ((d.data.take (i * d.cols + d.cols)).drop (i * d.cols)).length = 1 * d.cols := by
      rw [length_sub hle]; omega
    have hrow : d.extractRow i =
        some ⟨1, d.cols, (d.data.take (i * d.cols + d.cols)).drop (i * d.cols)⟩ := by
      unfold extractRow
      rw [if_neg (by omega)]
      simp only [Int.toNat_natCast, Option.bind_eq_bind]
      rw [sub_eq_some (by omega) hle]
      simp only [Option.bind_some]
      exact make_eq hlen
    rw [hrow]
    refine ⟨by simpa using hi, ?_⟩
    intro y hy
    cases hy
    refine ⟨hlen, rfl, rfl, ?_⟩
    intro j
    rcases lt_or_ge j 0 with hj | hj
    · rw [at2_neg_right _ _ hj, at2_neg_right _ _ hj]
    · obtain ⟨j, rfl⟩ := Int.eq_ofNat_of_zero_le hj
      have := at2_nat (⟨1, d.cols, (d.data.take (i * d.cols + d.cols)).drop (i * d.cols)⟩ : Dense R) 0 j
      simp only [Nat.cast_zero] at this
      rw [this, at2_nat, getElem?_sub]
      by_cases hj : j < d.cols <;> simp [hj, hi]
  · have hnone : d.extractRow i = none := by
      unfold extractRow; rw [if_pos (by omega)]
    rw [hnone]
    exact ⟨by simp; omega, by intro y hy; cases hy⟩

theorem columnLoop_eq {d : Dense R} (h : d.WF) {i : Nat} (hi : i < d.cols) (ks : List Nat)
    (hks : ∀ k ∈ ks, k < d.rows) :
    ∃ l, columnLoop d i ks = some l ∧ l.length = ks.length ∧
      ∀ (n : Nat), l[n]? = ks[n]?.bind fun k => d.data[k * d.cols + i]? := by
  induction ks with
  | nil => exact ⟨[], rfl, rfl, by simp⟩
  | cons k ks ih =>
    obtain ⟨l, h1, h2, h3⟩ := ih (fun k hk => hks k (by simp [hk]))
    have hlt : k * d.cols + i < d.data.length := by
      rw [h]; exact idx_lt (hks k (by simp)) hi
    refine ⟨d.data[k * d.cols + i] :: l, ?_, by simp [h2], ?_⟩
    · simp [columnLoop, h1, hlt]
    · intro n
      cases n with
      | zero => simp [hlt]
      | succ n => simpa using h3 n

/-- **C14.** `ExtractColumn(i)` succeeds exactly for the columns of the matrix and has their
elements. -/
theorem extractColumn_spec {d : Dense R} (h : d.WF) (i : Int) :
    ((d.extractColumn i).isSome ↔ 0 ≤ i ∧ i < d.cols) ∧
    ∀ y, d.extractColumn i = some y → y.WF ∧ y.rows = d.rows ∧ y.cols = 1 ∧
      ∀ j, y.at2 j 0 = d.at2 j i := by
  by_cases hin : 0 ≤ i ∧ i < d.cols
  · obtain ⟨i, rfl⟩ := Int.eq_ofNat_of_zero_le hin.1
    have hi : i < d.cols := by omega
    obtain ⟨l, h1, h2, h3⟩ := columnLoop_eq h hi (List.range d.rows) (by simp)
    rw [List.length_range] at h2
    have hcol : d.extractColumn i = some ⟨d.rows, 1, l⟩ := by
      unfold extractColumn
      rw [if_neg (by omega)]
      simp only [Int.toNat_natCast, Option.bind_eq_bind, h1, Option.bind_some]
      exact make_eq (by omega)
    rw [hcol]
    refine ⟨by simpa using hi, ?_⟩
    intro y hy
    cases hy
    refine ⟨by simp [WF, h2], rfl, rfl, ?_⟩
    intro j
    rcases lt_or_ge j 0 with hj | hj
    · rw [at2_neg_left _ _ hj, at2_neg_left _ _ hj]
    · obtain ⟨j, rfl⟩ := Int.eq_ofNat_of_zero_le hj
      have := at2_nat (⟨d.rows, 1, l⟩ : Dense R) j 0
      simp only [Nat.cast_zero] at this
      rw [this, at2_nat]
      simp only [Nat.mul_one, Nat.add_zero, h3]
      by_cases hj : j < d.rows <;> simp [hj, hi]
  · have hnone : d.extractColumn i = none := by
      unfold extractColumn; rw [if_pos (by omega)]
    rw [hnone]
    exact ⟨by simp; omega, by intro y hy; cases hy⟩

theorem sliceLoop_eq {d : Dense R} (h : d.WF) {a b : Nat} (hab : a ≤ b) (hb : b ≤ d.cols)
    (n s : Nat) (hs : s + n ≤ d.rows) :
    ∃ l, sliceLoop d a b ((List.range' s n)) = some l ∧ l.length = n * (b - a) ∧
      ∀ i j : Nat, i < n → j < b - a → l[i * (b - a) + j]? = d.data[(s + i) * d.cols + (a + j)]? := by
  induction n generalizing s with
  | zero => exact ⟨[], rfl, by simp, by intro i j hi; omega⟩
  | succ n ih =>
    obtain ⟨l, h1, h2, h3⟩ := ih (s + 1) (by omega)
    have hle : s * d.cols + b ≤ d.data.length := by
      have e : (s + 1) * d.cols = s * d.cols + d.cols := by ring
      have := Nat.mul_le_mul_right d.cols (show s + 1 ≤ d.rows by omega)
      rw [h]; omega
    have hlen : ((d.data.take (s * d.cols + b)).drop (s * d.cols + a)).length = b - a := by
      rw [length_sub hle]; omega
    refine ⟨(d.data.take (s * d.cols + b)).drop (s * d.cols + a) ++ l, ?_, ?_, ?_⟩
    · rw [List.range'_succ]
      simp only [sliceLoop, Option.bind_eq_bind, h1, Option.bind_some]
      rw [sub_eq_some (by omega) hle]
      rfl
    · rw [List.length_append, hlen, h2]; ring
    · intro i j hi hj
      rw [List.getElem?_append, hlen]
      cases i with
      | zero =>
        rw [if_pos (by omega), getElem?_sub, if_pos (by omega)]
        congr 1; ring
      | succ i =>
        have e : (i + 1) * (b - a) = i * (b - a) + (b - a) := by ring
        rw [if_neg (by omega), show (i + 1) * (b - a) + j - (b - a) = i * (b - a) + j by omega,
          h3 i j (by omega) hj]
        congr 1; ring

/-- **C14.** `Slice(fromRow, fromCol, toRow, toCol)` succeeds exactly when the starting position
lies in the matrix and the end positions neither precede it nor exceed the matrix; its element
`(i, j)` is element `(fromRow+i, fromCol+j)`. -/
theorem slice_spec {d : Dense R} (h : d.WF) (fr fc tr tc : Int) :
    ((d.slice fr fc tr tc).isSome ↔
      d.Inside fr fc ∧ fr ≤ tr ∧ tr ≤ d.rows ∧ fc ≤ tc ∧ tc ≤ d.cols) ∧
    ∀ y, d.slice fr fc tr tc = some y → y.WF ∧ (y.rows : Int) = tr - fr ∧ (y.cols : Int) = tc - fc ∧
      ∀ i j : Int, y.at2 i j =
        if 0 ≤ i ∧ i < tr - fr ∧ 0 ≤ j ∧ j < tc - fc then d.at2 (fr + i) (fc + j) else none := by
  have hh : d.data.length = d.rows * d.cols := h
  by_cases hin : d.Inside fr fc ∧ fr ≤ tr ∧ tr ≤ d.rows ∧ fc ≤ tc ∧ tc ≤ d.cols
  · obtain ⟨⟨h1, h2, h3, h4⟩, h5, h6, h7, h8⟩ := hin
    obtain ⟨fr, rfl⟩ := Int.eq_ofNat_of_zero_le h1
    obtain ⟨fc, rfl⟩ := Int.eq_ofNat_of_zero_le h3
    obtain ⟨tr, rfl⟩ := Int.eq_ofNat_of_zero_le (h1.trans h5)
    obtain ⟨tc, rfl⟩ := Int.eq_ofNat_of_zero_le (h3.trans h7)
    obtain ⟨n, rfl⟩ : ∃ n, tr = fr + n := ⟨tr - fr, by omega⟩
    obtain ⟨m, rfl⟩ : ∃ m, tc = fc + m := ⟨tc - fc, by omega⟩
    have hres : ∃ l, d.slice fr fc (fr + n : Nat) (fc + m : Nat) = some ⟨n, m, l⟩ ∧ l.length = n * m ∧
        ∀ i j : Nat, i < n → j < m → l[i * m + j]? = d.data[(fr + i) * d.cols + (fc + j)]? := by
      unfold slice
      rw [if_neg (by omega)]
      have e1 : (((fr + n : Nat) : Int) - fr).toNat = n := by omega
      have e2 : (((fc + m : Nat) : Int) - fc).toNat = m := by omega
      simp only [e1, e2, Int.toNat_natCast]
      by_cases hfull : (fc : Int) = 0 ∧ ((fc + m : Nat) : Int) = d.cols
      · rw [if_pos hfull]
        have hfc : fc = 0 := by omega
        have hm : m = d.cols := by omega
        subst hfc hm
        have hle : (fr + n) * d.cols ≤ d.data.length := by
          rw [hh]; exact Nat.mul_le_mul_right _ (by omega)
        have e : (fr + n) * d.cols = fr * d.cols + n * d.cols := by ring
        have hlen : ((d.data.take ((fr + n) * d.cols)).drop (fr * d.cols)).length = n * d.cols := by
          rw [length_sub hle]; omega
        refine ⟨(d.data.take ((fr + n) * d.cols)).drop (fr * d.cols), ?_, hlen, ?_⟩
        · rw [sub_eq_some (by omega) hle]
          simp only [Option.bind_eq_bind, Option.bind_some]
          exact make_eq hlen
        · intro i j hi hj
          have := idx_lt hi hj
          rw [getElem?_sub, if_pos (by omega)]
          congr 1; ring
      · rw [if_neg hfull]
        obtain ⟨l, g1, g2, g3⟩ := sliceLoop_eq h (a := fc) (b := fc + m) (by omega) (by omega) n fr
          (by omega)
        have er : (List.range n).map (fr + ·) = List.range' fr n := by
          rw [List.range'_eq_map_range]
        rw [er, g1]
        simp only [Nat.add_sub_cancel_left] at g2 g3
        exact ⟨l, by simp only [Option.bind_eq_bind, Option.bind_some]; exact make_eq g2, g2, g3⟩
    obtain ⟨l, g1, g2, g3⟩ := hres
    rw [g1]
    refine ⟨?_, ?_⟩
    · simp only [Option.isSome_some, true_iff, Inside]; omega
    · intro y hy
      cases hy
      refine ⟨g2, by simp only; omega, by simp only; omega, ?_⟩
      intro i j
      refine at2_ext (P := fun i j => if 0 ≤ i ∧ i < ((fr + n : Nat) : Int) - fr ∧ 0 ≤ j ∧
        j < ((fc + m : Nat) : Int) - fc then d.at2 (fr + i) (fc + j) else none) ?_
        (fun i j hi => by rw [if_neg (by omega)])
        (fun i j hi => by rw [if_neg (by omega)]) i j
      intro i j
      rw [at2_nat]
      simp only
      by_cases hij : i < n ∧ j < m
      · rw [if_pos hij, if_pos (by omega), g3 i j hij.1 hij.2]
        have e1 : (fr : Int) + i = ((fr + i : Nat) : Int) := by omega
        have e2 : (fc : Int) + j = ((fc + j : Nat) : Int) := by omega
        rw [e1, e2, at2_some d (by omega) (by omega)]
      · rw [if_neg hij, if_neg (by omega)]
  · have hnone : d.slice fr fc tr tc = none := by
      unfold slice; rw [if_pos]; unfold Inside at hin; omega
    rw [hnone]
    exact ⟨by simpa using hin, by intro y hy; cases hy⟩

section Examples

/-- a 2×3 matrix -/
def exA : Dense Int := ⟨2, 3, [1, 2, 3, 4, 5, 6]⟩

example : exA.WF ∧ exA.at2 1 2 = some 6 ∧ exA.at2 2 0 = none ∧ exA.at1 0 = none ∧
    exA.set2 9 0 1 = some ⟨2, 3, [1, 9, 3, 4, 5, 6]⟩ ∧
    exA.extractRow 1 = some ⟨1, 3, [4, 5, 6]⟩ ∧ exA.extractColumn 1 = some ⟨2, 1, [2, 5]⟩ ∧
    exA.slice 0 1 2 3 = some ⟨2, 2, [2, 3, 5, 6]⟩ ∧ exA.slice 0 0 3 3 = none := by decide

end Examples

end Verif.Dense
