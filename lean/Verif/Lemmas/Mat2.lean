import Verif.Lemmas.Grid
import Verif.Props.GradSelect
import Verif.Props.GradBinary

set_option autoImplicit false
set_option linter.unusedSimpArgs false

/-!
# Matrices written as functions of row and column
-/

namespace Verif
open GradFn Dense
open scoped BigOperators

/-- The `r × c` matrix with element `f i j` at row `i` and column `j`. -/
def mat2 (r c : Nat) (f : Nat → Nat → ℝ) : Dense ℝ := grid r c fun k => f (k / c) (k % c)

@[simp] theorem mat2_rows (r c : Nat) (f : Nat → Nat → ℝ) : (mat2 r c f).rows = r := rfl
@[simp] theorem mat2_cols (r c : Nat) (f : Nat → Nat → ℝ) : (mat2 r c f).cols = c := rfl
@[simp] theorem mat2_length (r c : Nat) (f : Nat → Nat → ℝ) : (mat2 r c f).data.length = r * c := grid_length ..
theorem mat2_WF (r c : Nat) (f : Nat → Nat → ℝ) : (mat2 r c f).WF := grid_WF ..

theorem divmod_pos {c i j : Nat} (hj : j < c) : (i * c + j) / c = i ∧ (i * c + j) % c = j := by
  constructor
  · rw [Nat.mul_comm, Nat.mul_add_div (by omega), Nat.div_eq_of_lt hj, Nat.add_zero]
  · rw [Nat.mul_comm, Nat.mul_add_mod, Nat.mod_eq_of_lt hj]

theorem pos_lt {r c i j : Nat} (hi : i < r) (hj : j < c) : i * c + j < r * c :=
  calc i * c + j < i * c + c := by omega
    _ = (i + 1) * c := by ring
    _ ≤ r * c := Nat.mul_le_mul_right c hi

theorem mat2_el {r c i j : Nat} (f : Nat → Nat → ℝ) (hi : i < r) (hj : j < c) : (mat2 r c f).el i j = f i j := by
  rw [el_val _ (by simpa using hi) (by simpa using hj), mat2_cols, mat2, grid_val _ (pos_lt hi hj), (divmod_pos hj).1,
    (divmod_pos hj).2]

theorem mat2_congr {r c : Nat} {f g : Nat → Nat → ℝ} (h : ∀ i < r, ∀ j < c, f i j = g i j) : mat2 r c f = mat2 r c g := by
  apply grid_congr
  intro k hk
  have hc : 0 < c := by
    rcases Nat.eq_zero_or_pos c with h | h
    · rw [h, Nat.mul_zero] at hk; omega
    · exact h
  exact h _ (Nat.div_lt_of_lt_mul (by rwa [Nat.mul_comm])) _ (Nat.mod_lt _ hc)

theorem eq_mat2 {d : Dense ℝ} (h : d.WF) {r c : Nat} (hr : d.rows = r) (hc : d.cols = c) {f : Nat → Nat → ℝ}
    (he : ∀ i < r, ∀ j < c, d.el i j = f i j) : d = mat2 r c f := by
  subst hr hc
  conv_lhs => rw [eq_grid h]
  apply grid_congr
  intro k hk
  have hk' : k < d.data.length := by rw [h]; exact hk
  obtain ⟨h1, h2, h3⟩ := val_el h hk'
  rw [h1, he _ h2 _ h3]

theorem eq_mat2_self {d : Dense ℝ} (h : d.WF) : d = mat2 d.rows d.cols d.el := eq_mat2 h rfl rfl fun _ _ _ _ => rfl

theorem mat2_map (r c : Nat) (f : Nat → Nat → ℝ) (g : ℝ → ℝ) : (mat2 r c f).map g = mat2 r c fun i j => g (f i j) :=
  grid_map ..

theorem mat2_zipOp (r c : Nat) (o : ℝ → ℝ → ℝ) (f g : Nat → Nat → ℝ) :
    zipOp o (mat2 r c f) (mat2 r c g) = some (mat2 r c fun i j => o (f i j) (g i j)) := grid_zipOp ..

theorem mat2_zeros (r c : Nat) : (zeros r c : Dense ℝ) = mat2 r c fun _ _ => 0 := grid_zeros ..

theorem mat2_slice {r c : Nat} (f : Nat → Nat → ℝ) {i j a b : Nat} (hi : i < r) (hj : j < c) (ha : i + a ≤ r)
    (hb : j + b ≤ c) {tr tc : Int} (htr : tr = i + a) (htc : tc = j + b) :
    (mat2 r c f).slice i j tr tc = some (mat2 a b fun p q => f (i + p) (j + q)) := by
  subst htr htc
  obtain ⟨s1, s2⟩ := slice_spec (mat2_WF r c f) (i : Int) j (i + a) (j + b)
  obtain ⟨y, hy⟩ := Option.isSome_iff_exists.mp (s1.mpr (by
    refine ⟨⟨?_, ?_, ?_, ?_⟩, ?_, ?_, ?_, ?_⟩ <;> (try simp only [mat2_rows, mat2_cols]) <;> omega))
  obtain ⟨w1, w2, w3, w4⟩ := s2 y hy
  rw [hy]
  congr 1
  apply eq_mat2 w1 (by omega) (by omega)
  intro p hp q hq
  rw [← mat2_el (r := r) (c := c) f (by omega) (by omega)]
  apply el_of_at2
  rw [w4, if_pos (by omega)]
  push_cast
  rfl

theorem sum_mat2 {r c : Nat} (F : ℝ → ℝ → ℝ) (f g : Nat → Nat → ℝ) :
    ∑ k ∈ Finset.range (r * c), F (f (k / c) (k % c)) (g (k / c) (k % c))
      = ∑ i ∈ Finset.range r, ∑ j ∈ Finset.range c, F (f i j) (g i j) := by
  rw [sum_range_mul]
  refine Finset.sum_congr rfl fun i _ => Finset.sum_congr rfl fun j hj => ?_
  rw [(divmod_pos (Finset.mem_range.1 hj)).1, (divmod_pos (Finset.mem_range.1 hj)).2]

theorem mat2_sum (r c : Nat) (f : Nat → Nat → ℝ) :
    (mat2 r c f).sum = ∑ i ∈ Finset.range r, ∑ j ∈ Finset.range c, f i j := by
  rw [mat2, grid_sum]
  exact sum_mat2 (fun a _ => a) f f

theorem mat2_dot (r c : Nat) (f g : Nat → Nat → ℝ) : dot.forward [mat2 r c f, mat2 r c g]
    = some (scalar (∑ i ∈ Finset.range r, ∑ j ∈ Finset.range c, f i j * g i j)) := by
  have hd : (mat2 r c f).sameDims (mat2 r c g) := by simp [sameDims]
  simp only [dot]
  rw [if_neg (by simp [hd])]
  split
  · rw [dotUnitary_spec (mat2_WF ..) (mat2_WF ..), if_pos ⟨rfl, rfl⟩]
    simp only [Option.bind_eq_bind, Option.bind_some, mat2_rows, mat2_cols]
    congr 2
    exact Finset.sum_congr rfl fun i hi => Finset.sum_congr rfl fun j hj => by
      rw [mat2_el _ (Finset.mem_range.1 hi) (Finset.mem_range.1 hj), mat2_el _ (Finset.mem_range.1 hi) (Finset.mem_range.1 hj)]
  · rw [mat2_zipOp]
    simp only [Option.bind_eq_bind, Option.bind_some, mat2_sum]

/-- The backward pass of `Slice`: the gradient is put where the slice was taken. -/
theorem mat2_slice_backward {r c : Nat} (f h : Nat → Nat → ℝ) {i j a b : Nat} (ha : i + a ≤ r) (hb : j + b ≤ c)
    {tr tc : Int} (htr : tr = i + a) (htc : tc = j + b) :
    (GradFn.slice (i : Int) j tr tc).backward [mat2 r c f] (mat2 a b h)
      = some [some (mat2 r c fun p q => if i ≤ p ∧ p < i + a ∧ j ≤ q ∧ q < j + b then h (p - i) (q - j) else 0)] := by
  subst htr htc
  have er : ((i : Int) + a - i).toNat = a := by omega
  have ec : ((j : Int) + b - j).toNat = b := by omega
  have hF := foldBlock (x := mat2 r c f) (fun p q => h (p - i) (q - j))
    (fun (k : Nat) p q => p = i + k ∧ j ≤ q ∧ q < j + b) (fun gx (k : Nat) =>
      (List.range b).foldlM (fun gx (l : Nat) => do
        let v ← (mat2 a b h).at2 k l
        gx.set2 v (k + (i : Int)) (l + (j : Int))) gx) (List.range a)
  specialize hF ?_ _ zeros_like
  swap
  · obtain ⟨gx, f1, f2, f3⟩ := hF
    simp only [GradFn.slice, sliceBack, er, ec]
    rw [if_neg (by simp only [mat2_rows, mat2_cols]; omega), f1]
    simp only [Option.bind_eq_bind, Option.bind_some]
    congr 3
    apply eq_mat2 f2.wf f2.rows f2.cols
    intro p hp q hq
    by_cases hin : i ≤ p ∧ p < i + a ∧ j ≤ q ∧ q < j + b
    · rw [if_pos hin, (f3 p hp q hq).1 ⟨p - i, List.mem_range.mpr (by omega), by omega, by omega, by omega⟩]
    · rw [if_neg hin, (f3 p hp q hq).2, zeros_el hp hq]
      rintro k hk ⟨rfl, h1, h2⟩
      have := List.mem_range.mp hk
      exact hin ⟨by omega, by omega, h1, h2⟩
  · intro gx hgx k hk
    have hk := List.mem_range.mp hk
    have hF := foldBlock (x := mat2 r c f) (fun p q => h (p - i) (q - j))
      (fun (l : Nat) p q => p = i + k ∧ q = j + l) (fun gx (l : Nat) => do
        let v ← (mat2 a b h).at2 k l
        gx.set2 v (k + (i : Int)) (l + (j : Int))) (List.range b)
    specialize hF ?_ gx hgx
    swap
    · obtain ⟨g, d1, d2, d3⟩ := hF
      refine ⟨g, d1, d2, fun p hp q hq => ⟨?_, ?_⟩⟩
      · rintro ⟨rfl, h1, h2⟩
        exact (d3 _ hp q hq).1 ⟨q - j, List.mem_range.mpr (by omega), rfl, by omega⟩
      · intro hn
        refine (d3 p hp q hq).2 ?_
        rintro l hl ⟨rfl, rfl⟩
        have := List.mem_range.mp hl
        exact hn ⟨rfl, by omega, by omega⟩
    · intro g hg' l hl
      have hl := List.mem_range.mp hl
      have := set2_block hg' (V := fun p q => h (p - i) (q - j)) (v := h k l) (i := i + k) (j := j + l)
        (by simp only [mat2_rows]; omega) (by simp only [mat2_cols]; omega) (by simp only [Nat.add_sub_cancel_left])
      rw [at2_el (mat2_WF a b h) (by simpa using hk) (by simpa using hl), mat2_el _ hk hl, Option.bind_eq_bind,
        Option.bind_some]
      have e1 : (k : Int) + i = ((i + k : Nat) : Int) := by omega
      have e2 : (l : Int) + j = ((j + l : Nat) : Int) := by omega
      rw [e1, e2]
      exact this

end Verif
