import Verif.Model.Dense
import Verif.Lemmas.GoSlice

set_option autoImplicit false
set_option linter.unusedSimpArgs false

namespace Verif.Dense
open GoSlice
variable {R : Type}

theorem at2_nat (d : Dense R) (i j : Nat) :
    d.at2 i j = if i < d.rows ∧ j < d.cols then d.data[i * d.cols + j]? else none := by
  unfold at2
  by_cases hi : i < d.rows
  · by_cases hj : j < d.cols
    · rw [if_neg (by omega), if_neg (by omega), if_pos ⟨hi, hj⟩]; rfl
    · rw [if_neg (by omega), if_pos (by omega), if_neg (by tauto)]
  · rw [if_pos (by omega), if_neg (by tauto)]

theorem at2_some (d : Dense R) {i j : Nat} (hi : i < d.rows) (hj : j < d.cols) :
    d.at2 i j = d.data[i * d.cols + j]? := by
  rw [at2_nat, if_pos ⟨hi, hj⟩]

theorem at2_neg_left (d : Dense R) {i : Int} (j : Int) (h : i < 0) : d.at2 i j = none := by
  simp [at2, h]

theorem at2_neg_right (d : Dense R) (i : Int) {j : Int} (h : j < 0) : d.at2 i j = none := by
  unfold at2; simp [h]

/-- To compare element access on all integers it suffices to compare it on naturals. -/
theorem at2_ext {P : Int → Int → Option R} {d : Dense R}
    (h : ∀ i j : Nat, d.at2 i j = P i j)
    (hl : ∀ i j : Int, i < 0 → P i j = none) (hr : ∀ i j : Int, j < 0 → P i j = none) (i j : Int) :
    d.at2 i j = P i j := by
  rcases lt_or_ge i 0 with hi | hi
  · rw [at2_neg_left d j hi, hl i j hi]
  · rcases lt_or_ge j 0 with hj | hj
    · rw [at2_neg_right d i hj, hr i j hj]
    · obtain ⟨i, rfl⟩ := Int.eq_ofNat_of_zero_le hi
      obtain ⟨j, rfl⟩ := Int.eq_ofNat_of_zero_le hj
      exact h i j

theorem at2_isSome {d : Dense R} (h : d.WF) (i j : Nat) :
    (d.at2 i j).isSome ↔ i < d.rows ∧ j < d.cols := by
  rw [at2_nat]
  split
  · rename_i hij
    rw [List.getElem?_eq_getElem (by rw [h]; exact idx_lt hij.1 hij.2)]
    simpa using hij
  · rename_i hij; simpa using hij

/-- Matrices with equal dimensions and elements are equal. -/
theorem ext_at {a b : Dense R} (ha : a.WF) (hb : b.WF) (hr : a.rows = b.rows)
    (hc : a.cols = b.cols) (h : ∀ i j : Nat, i < a.rows → j < a.cols → a.at2 i j = b.at2 i j) :
    a = b := by
  have : a.data = b.data := by
    apply List.ext_getElem?
    intro k
    by_cases hk : k < a.rows * a.cols
    · obtain ⟨i, j, hi, hj, rfl⟩ := idx_split hk
      have := h i j hi hj
      rwa [at2_some a hi hj, at2_some b (hr ▸ hi) (hc ▸ hj), ← hc] at this
    · rw [List.getElem?_eq_none (by rw [ha]; omega),
        List.getElem?_eq_none (by rw [hb, ← hr, ← hc]; omega)]
  cases a; cases b; simp_all

theorem make_eq {data : List R} {r c : Nat} (h : data.length = r * c) :
    make data r c = some ⟨r, c, data⟩ := by
  simp [make, h]

theorem zeros_WF [Zero R] (r c : Nat) : (zeros r c : Dense R).WF := by simp [zeros, WF]

/-! ### the index map of transposition -/

theorem cycleNext_idx {rows cols i j : Nat} (hj : j < cols) :
    cycleNext rows cols (i * cols + j) = j * rows + i := by
  have := divmod i hj
  rw [cycleNext, this.1, this.2]

theorem cycleNext_lt {rows cols k : Nat} (h : k < rows * cols) :
    cycleNext rows cols k < rows * cols := by
  obtain ⟨i, j, hi, hj, rfl⟩ := idx_split h
  rw [cycleNext_idx hj, Nat.mul_comm rows]
  exact idx_lt hj hi

theorem cycleNext_inj {rows cols k l : Nat} (hk : k < rows * cols) (hl : l < rows * cols)
    (h : cycleNext rows cols k = cycleNext rows cols l) : k = l := by
  obtain ⟨i, j, hi, hj, rfl⟩ := idx_split hk
  obtain ⟨i', j', hi', hj', rfl⟩ := idx_split hl
  rw [cycleNext_idx hj, cycleNext_idx hj'] at h
  obtain ⟨rfl, rfl⟩ := idx_inj hi hi' h
  rfl

theorem cycleNext_succ {rows cols k : Nat} (h : k + 1 < rows * cols) :
    cycleNext rows cols (k + 1) =
      if cycleNext rows cols k + rows ≥ rows * cols
      then cycleNext rows cols k + rows - (rows * cols - 1) else cycleNext rows cols k + rows := by
  obtain ⟨i, j, hi, hj, rfl⟩ := idx_split (show k < rows * cols by omega)
  rw [cycleNext_idx hj]
  by_cases hj' : j + 1 < cols
  · rw [show i * cols + j + 1 = i * cols + (j + 1) by ring, cycleNext_idx hj', if_neg]
    · ring
    · have := idx_lt hj' hi
      rw [Nat.mul_comm rows cols]
      have e : (j + 1) * rows = j * rows + rows := by ring
      omega
  · have hj2 : cols = j + 1 := by omega
    subst hj2
    rw [show i * (j + 1) + j + 1 = (i + 1) * (j + 1) + 0 by ring, cycleNext_idx (by omega)]
    have e : rows * (j + 1) = j * rows + rows := by ring
    rw [if_pos (by omega), e]
    have : 0 < rows := by omega
    omega

theorem tLoop_eq {rows cols : Nat} (vs : List R) (k : Nat) (m : List R)
    (h : k + vs.length ≤ rows * cols) :
    tLoop rows (rows * cols) vs (cycleNext rows cols k) m =
      ((vs.zipIdx k).map fun p => (cycleNext rows cols p.2, p.1)).foldlM
        (fun o w => GoSlice.set o w.1 w.2) m := by
  induction vs generalizing k m with
  | nil => rfl
  | cons v vs ih =>
    simp only [tLoop, List.zipIdx_cons, List.map_cons, List.foldlM_cons]
    cases hs : GoSlice.set m (cycleNext rows cols k) v with
    | none => rfl
    | some m' =>
      simp only [Option.bind_eq_bind, Option.bind_some]
      cases vs with
      | nil => rfl
      | cons w ws =>
        simp only [List.length_cons] at h
        rw [← cycleNext_succ (by omega)]
        exact ih (k + 1) m' (by simp only [List.length_cons]; omega)

end Verif.Dense
