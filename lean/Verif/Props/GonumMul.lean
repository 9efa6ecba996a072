/-
`MatrixMul` and `MulT` over the assembly kernels (C64): the memory of the result holds the product
of the matrices, and nothing else changes.
-/
import Verif.Props.Gonum
import Mathlib.Algebra.BigOperators.Intervals
set_option autoImplicit false
set_option linter.unusedSimpArgs false

namespace Verif.Gonum

open Verif.Spec.Kernels
open Verif.Asm (Arith Alu W keep lanesOf Done SameOrApart Sl Sz poke poke_done elems_zip Exact)

variable {R : Type} [CommSemiring R]

/-- The addresses of `n` elements at `p` and of `k` elements at `q` are different. -/
def Separate (es p n q k : Nat) : Prop := ∀ i j, i < n → j < k → p + es * i ≠ q + es * j

theorem AxpyOn.done {sz : Sz} {alu : Alu R} (hex : Exact alu) {v : R} {x y n : Nat} {m m' : Nat → R}
    (hal : y % sz.bytes = 0) (ov : Separate sz.bytes x n y n)
    (h : AxpyOn sz alu v ⟨x, n⟩ ⟨y, n⟩ m m') :
    Done sz.bytes y (fun j => m (y + sz.bytes * j) + v * m (x + sz.bytes * j)) m n m' := by
  obtain ⟨s, t, rfl, hf, hc, rfl⟩ := h
  obtain ⟨s', h1, h2⟩ := axpy_done sz alu v hf hal (by rw [Nat.min_self]; exact .inr ov)
  obtain rfl := (h1 t).1 hc
  rw [Nat.min_self] at h2
  convert h2 using 1
  funext j
  simp only [axT, axpyEnv, hex.add, hex.mul]
  ring

theorem AxpyOn.total (sz : Sz) (alu : Alu R) (v : R) {x y n : Nat} (m : Nat → R)
    (hal : y % sz.bytes = 0) (ov : Separate sz.bytes x n y n) :
    ∃ m', AxpyOn sz alu v ⟨x, n⟩ ⟨y, n⟩ m m' := by
  obtain ⟨s', h1, -⟩ := axpy_done sz alu v (x := ⟨x, n⟩) (y := ⟨y, n⟩)
    (s := ⟨fun _ => 0, fun _ _ => 0, m, axpyFrame ⟨x, n⟩ ⟨y, n⟩, false, false⟩) rfl hal
    (by rw [Nat.min_self]; exact .inr ov)
  exact ⟨_, _, _, rfl, rfl, (h1 s').2 rfl, rfl⟩

theorem AxpyToOn.done {sz : Sz} {alu : Alu R} (hex : Exact alu) {v : R} {x y n : Nat}
    {m m' : Nat → R} (hal : y % sz.bytes = 0) (ov : Separate sz.bytes x n y n)
    (h : AxpyToOn sz alu v ⟨y, n⟩ ⟨x, n⟩ ⟨y, n⟩ m m') :
    Done sz.bytes y (fun j => m (y + sz.bytes * j) + v * m (x + sz.bytes * j)) m n m' := by
  obtain ⟨s, t, rfl, hf, hc, rfl⟩ := h
  obtain ⟨s', h1, h2⟩ := axpyTo_done sz alu v hf hal (by simp only [Nat.min_self]; exact .inr ov)
    (.inl rfl)
  obtain rfl := (h1 t).1 hc
  simp only [Nat.min_self] at h2
  convert h2 using 1
  funext j
  simp only [axT, axpyToEnv, hex.add, hex.mul]
  ring

theorem AxpyToOn.total (sz : Sz) (alu : Alu R) (v : R) {x y n : Nat} (m : Nat → R)
    (hal : y % sz.bytes = 0) (ov : Separate sz.bytes x n y n) :
    ∃ m', AxpyToOn sz alu v ⟨y, n⟩ ⟨x, n⟩ ⟨y, n⟩ m m' := by
  obtain ⟨s', h1, -⟩ := axpyTo_done sz alu v (dst := ⟨y, n⟩) (x := ⟨x, n⟩) (y := ⟨y, n⟩)
    (s := ⟨fun _ => 0, fun _ _ => 0, m, axpyToFrame ⟨y, n⟩ ⟨x, n⟩ ⟨y, n⟩, false, false⟩) rfl hal
    (by simp only [Nat.min_self]; exact .inr ov) (.inl rfl)
  exact ⟨_, _, _, rfl, rfl, (h1 s').2 rfl, rfl⟩

/-- Adding one more term to a row that is a partial sum. -/
theorem Done.add_term {es y n : Nat} {S T : Nat → R} {v : R} {x : Nat} {m0 m m' : Nat → R}
    (h : Done es y (fun j => m0 (y + es * j) + S j) m0 n m)
    (hx : ∀ j, j < n → m (x + es * j) = T j)
    (h' : Done es y (fun j => m (y + es * j) + v * m (x + es * j)) m n m') :
    Done es y (fun j => m0 (y + es * j) + (S j + v * T j)) m0 n m' := by
  refine ⟨fun j hj => ?_, fun q hq => ?_⟩
  · rw [h'.1 j hj]
    simp only []
    rw [h.1 j hj, hx j hj, add_assoc]
  · rw [h'.2 q hq, h.2 q hq]

/-- Entry `(i, j)` of the product of the matrices at `a` and `b`. -/
def prodAt (es : Nat) (m : Nat → R) (aCols bCols a b i j : Nat) : R :=
  (Finset.range aCols).sum fun l => m (a + es * (i * aCols + l)) * m (b + es * (l * bCols + j))

section
variable {sz : Sz} {alu : Alu R} {isZero : R → Bool} {aRows aCols bCols a b c : Nat}

/-- The memory layout of a product. -/
structure Lay (sz : Sz) (aRows aCols bCols a b c : Nat) : Prop where
  hal : c % sz.bytes = 0
  ac : Separate sz.bytes a (aRows * aCols) c (aRows * bCols)
  bc : Separate sz.bytes b (aCols * bCols) c (aRows * bCols)

theorem lt_grid {i j r k : Nat} (hi : i < r) (hj : j < k) : i * k + j < r * k := by
  calc i * k + j < i * k + k := by omega
    _ = (i + 1) * k := by ring
    _ ≤ r * k := Nat.mul_le_mul_right _ hi

theorem Lay.bsep (L : Lay sz aRows aCols bCols a b c) {i l : Nat} (hi : i < aRows) (hl : l < aCols) :
    Separate sz.bytes (b + sz.bytes * (l * bCols)) bCols (c + sz.bytes * (i * bCols)) bCols := by
  intro p q hp hq h
  have := L.bc (l * bCols + p) (i * bCols + q) (lt_grid hl hp) (lt_grid hi hq)
  rw [Nat.mul_add, Nat.mul_add] at this
  omega

theorem Lay.row_al (L : Lay sz aRows aCols bCols a b c) (i : Nat) :
    (c + sz.bytes * (i * bCols)) % sz.bytes = 0 := by
  rw [Nat.add_mul_mod_self_left]; exact L.hal

theorem MulRow.sum (L : Lay sz aRows aCols bCols a b c) (hex : Exact alu)
    (hz : ∀ v, isZero v = true → v = 0) {i : Nat} (hi : i < aRows) {m0 : Nat → R} {l : Nat}
    {m m' : Nat → R} (h : MulRow sz alu isZero aCols bCols a b c i l m m') (hl : l ≤ aCols)
    (hd : Done sz.bytes (c + sz.bytes * (i * bCols)) (fun j => m0 (c + sz.bytes * (i * bCols) +
      sz.bytes * j) + (Finset.range l).sum fun l => m0 (a + sz.bytes * (i * aCols + l)) *
        m0 (b + sz.bytes * (l * bCols + j))) m0 bCols m) :
    Done sz.bytes (c + sz.bytes * (i * bCols)) (fun j => m0 (c + sz.bytes * (i * bCols) +
      sz.bytes * j) + prodAt sz.bytes m0 aCols bCols a b i j) m0 bCols m' := by
  have ra : ∀ l (m : Nat → R), l < aCols → (∀ q, (∀ j, j < bCols → q ≠ c + sz.bytes * (i * bCols) +
      sz.bytes * j) → m q = m0 q) → m (a + sz.bytes * (i * aCols + l)) =
        m0 (a + sz.bytes * (i * aCols + l)) := by
    intro l m hl h
    refine h _ fun j hj he => ?_
    have := L.ac (i * aCols + l) (i * bCols + j) (lt_grid hi hl) (lt_grid hi hj)
    rw [Nat.mul_add sz.bytes (i * bCols)] at this
    omega
  have rb : ∀ l j (m : Nat → R), l < aCols → j < bCols → (∀ q, (∀ j, j < bCols → q ≠ c +
      sz.bytes * (i * bCols) + sz.bytes * j) → m q = m0 q) → m (b + sz.bytes * (l * bCols) +
        sz.bytes * j) = m0 (b + sz.bytes * (l * bCols + j)) := by
    intro l j m hl hj h
    rw [Nat.add_assoc, ← Nat.mul_add]
    refine h _ fun j' hj' he => ?_
    have := L.bc (l * bCols + j) (i * bCols + j') (lt_grid hl hj) (lt_grid hi hj')
    rw [Nat.mul_add sz.bytes (i * bCols)] at this
    omega
  induction h with
  | done => exact hd
  | skip hl' hv _ ih =>
    refine ih (by omega) ⟨fun j hj => ?_, hd.2⟩
    rw [hd.1 j hj]
    simp only [Finset.sum_range_succ]
    have := hz _ hv
    rw [ra _ _ hl' hd.2] at this
    rw [this, zero_mul, add_zero]
  | @axpy l m m1 m' hl' hv ho _ ih =>
    refine ih (by omega) ?_
    have h2 := AxpyOn.done hex (L.row_al i) (L.bsep hi hl') ho
    have h3 := Done.add_term hd (T := fun j => m0 (b + sz.bytes * (l * bCols + j)))
      (fun j hj => rb _ j _ hl' hj hd.2) h2
    rw [ra _ _ hl' hd.2] at h3
    simpa only [Finset.sum_range_succ] using h3

theorem MulRow.total (L : Lay sz aRows aCols bCols a b c) (alu : Alu R) (isZero : R → Bool) {i : Nat}
    (hi : i < aRows) :
    ∀ k l (m : Nat → R), l + k = aCols → ∃ m', MulRow sz alu isZero aCols bCols a b c i l m m' := by
  intro k
  induction k with
  | zero => intro l m h; simp at h; subst h; exact ⟨m, .done⟩
  | succ k ih =>
    intro l m h
    cases hv : isZero (m (a + sz.bytes * (i * aCols + l)))
    · obtain ⟨m1, h1⟩ := AxpyOn.total sz alu (m (a + sz.bytes * (i * aCols + l))) m (L.row_al i)
        (L.bsep hi (show l < aCols by omega))
      obtain ⟨m', h'⟩ := ih (l + 1) m1 (by omega)
      exact ⟨m', .axpy (by omega) hv h1 h'⟩
    · obtain ⟨m', h'⟩ := ih (l + 1) m (by omega)
      exact ⟨m', .skip (by omega) hv h'⟩

theorem MulRows.sum (L : Lay sz aRows aCols bCols a b c) (hex : Exact alu)
    (hz : ∀ v, isZero v = true → v = 0) {m0 : Nat → R} {i : Nat}
    {m m' : Nat → R} (h : MulRows sz alu isZero aRows aCols bCols a b c i m m') (hi : i ≤ aRows)
    (hd : Done sz.bytes c (fun k => m0 (c + sz.bytes * k) +
      prodAt sz.bytes m0 aCols bCols a b (k / bCols) (k % bCols)) m0 (i * bCols) m) :
    Done sz.bytes c (fun k => m0 (c + sz.bytes * k) +
      prodAt sz.bytes m0 aCols bCols a b (k / bCols) (k % bCols)) m0 (aRows * bCols) m' := by
  induction h with
  | done => exact hd
  | @row i m m1 m' hi' hr _ ih =>
    refine ih (by omega) ?_
    have h0 := MulRow.sum L hex hz hi' (m0 := m) hr (by omega)
      ⟨fun j hj => by simp, fun q hq => rfl⟩
    have e : (i + 1) * bCols = i * bCols + bCols := by ring
    rw [e]
    have out : ∀ q, (∀ k, k < aRows * bCols → q ≠ c + sz.bytes * k) → m q = m0 q := fun q hq =>
      hd.2 q fun k hk => hq k (lt_of_lt_of_le hk (Nat.mul_le_mul_right _ (by omega)))
    refine Done.write sz.bytes_pos hd ?_ h0.2
    intro j hj
    have hpos : 0 < bCols := by omega
    rw [h0.1 j hj]
    have e1 : (i * bCols + j) / bCols = i := by
      rw [Nat.add_comm, Nat.add_mul_div_right _ _ hpos, Nat.div_eq_of_lt hj]; omega
    have e2 : (i * bCols + j) % bCols = j := by
      rw [Nat.add_comm, Nat.add_mul_mod_self_right, Nat.mod_eq_of_lt hj]
    simp only [e1, e2]
    have e3 : c + sz.bytes * (i * bCols) + sz.bytes * j = c + sz.bytes * (i * bCols + j) := by ring
    rw [e3]
    congr 1
    · refine hd.2 _ fun k hk he => ?_
      have := Nat.eq_of_mul_eq_mul_left sz.bytes_pos (Nat.add_left_cancel he)
      omega
    · refine Finset.sum_congr rfl fun l hl => ?_
      rw [Finset.mem_range] at hl
      rw [out _ fun k hk => L.ac _ _ (lt_grid hi' hl) hk, out _ fun k hk => L.bc _ _ (lt_grid hl hj) hk]

theorem MulRows.total (L : Lay sz aRows aCols bCols a b c) (alu : Alu R) (isZero : R → Bool) :
    ∀ k i (m : Nat → R), i + k = aRows →
      ∃ m', MulRows sz alu isZero aRows aCols bCols a b c i m m' := by
  intro k
  induction k with
  | zero => intro i m h; simp at h; subst h; exact ⟨m, .done⟩
  | succ k ih =>
    intro i m h
    obtain ⟨m1, h1⟩ := MulRow.total L alu isZero (show i < aRows by omega) aCols 0 m (by omega)
    obtain ⟨m', h'⟩ := ih (i + 1) m1 (by omega)
    exact ⟨m', .row (by omega) h1 h'⟩

/-- `MatrixMul` on amd64: with the three slices of the sizes the shapes demand and the result apart
from the operands, it ends; then the entry `(i, j)` of `c` has grown by the entry of the product of
`a` and `b`, and no other memory has changed. -/
theorem matrixMul_kernel (hex : Exact alu) (hz : ∀ v, isZero v = true → v = 0)
    (hal : c % sz.bytes = 0) (ac : Separate sz.bytes a (aRows * aCols) c (aRows * bCols))
    (bc : Separate sz.bytes b (aCols * bCols) c (aRows * bCols)) (m : Nat → R) :
    (∃ m', MulRows sz alu isZero aRows aCols bCols a b c 0 m m') ∧
    ∀ m', MulRows sz alu isZero aRows aCols bCols a b c 0 m m' →
      (∀ i j, i < aRows → j < bCols → m' (c + sz.bytes * (i * bCols + j)) =
        m (c + sz.bytes * (i * bCols + j)) + (Finset.range aCols).sum fun l =>
          m (a + sz.bytes * (i * aCols + l)) * m (b + sz.bytes * (l * bCols + j))) ∧
      OnlyAt sz.bytes c (aRows * bCols) m m' := by
  have L : Lay sz aRows aCols bCols a b c := ⟨hal, ac, bc⟩
  refine ⟨MulRows.total L alu isZero aRows 0 m (by omega), fun m' h => ?_⟩
  have hd := MulRows.sum L hex hz h (by omega) (by rw [Nat.zero_mul]; exact Done.zero)
  refine ⟨fun i j hi hj => ?_, hd.2⟩
  have hpos : 0 < bCols := by omega
  have e1 : (i * bCols + j) / bCols = i := by
    rw [Nat.add_comm, Nat.add_mul_div_right _ _ hpos, Nat.div_eq_of_lt hj]; omega
  have e2 : (i * bCols + j) % bCols = j := by
    rw [Nat.add_comm, Nat.add_mul_mod_self_right, Nat.mod_eq_of_lt hj]
  rw [hd.1 _ (lt_grid hi hj)]
  simp only [e1, e2]
  rfl

end

section
variable {sz : Sz} {alu : Alu R} {rows cols d v out : Nat}

theorem MulTRun.sum (hex : Exact alu) (hal : out % sz.bytes = 0)
    (dout : Separate sz.bytes d (rows * cols) out cols) (vout : Separate sz.bytes v rows out cols)
    {m0 : Nat → R} {k : Nat} {m m' : Nat → R} (h : MulTRun sz alu rows cols d v out k m m')
    (hk : k ≤ rows)
    (hd : Done sz.bytes out (fun j => m0 (out + sz.bytes * j) + (Finset.range k).sum fun l =>
      m0 (v + sz.bytes * l) * m0 (d + sz.bytes * (l * cols + j))) m0 cols m) :
    Done sz.bytes out (fun j => m0 (out + sz.bytes * j) + (Finset.range rows).sum fun l =>
      m0 (v + sz.bytes * l) * m0 (d + sz.bytes * (l * cols + j))) m0 cols m' := by
  induction h with
  | done => exact hd
  | @step k m m1 m' hk' ho _ ih =>
    refine ih (by omega) ?_
    have sep : Separate sz.bytes (d + sz.bytes * (k * cols)) cols out cols := by
      intro p q hp hq he
      have := dout (k * cols + p) q (lt_grid hk' hp) hq
      rw [Nat.mul_add] at this
      omega
    have h2 := AxpyToOn.done hex hal sep ho
    have h3 := Done.add_term hd (T := fun j => m0 (d + sz.bytes * (k * cols + j)))
      (fun j hj => by
        rw [Nat.add_assoc, ← Nat.mul_add]
        exact hd.2 _ fun j' hj' => dout _ _ (lt_grid hk' hj) hj') h2
    rw [hd.2 _ fun j' hj' => vout _ _ hk' hj'] at h3
    simpa only [Finset.sum_range_succ] using h3

theorem MulTRun.total (alu : Alu R) (hal : out % sz.bytes = 0)
    (dout : Separate sz.bytes d (rows * cols) out cols) :
    ∀ i k (m : Nat → R), k + i = rows → ∃ m', MulTRun sz alu rows cols d v out k m m' := by
  intro i
  induction i with
  | zero => intro k m h; simp at h; subst h; exact ⟨m, .done⟩
  | succ i ih =>
    intro k m h
    have sep : Separate sz.bytes (d + sz.bytes * (k * cols)) cols out cols := by
      intro p q hp hq he
      have := dout (k * cols + p) q (lt_grid (by omega) hp) hq
      rw [Nat.mul_add] at this
      omega
    obtain ⟨m1, h1⟩ := AxpyToOn.total sz alu (m (v + sz.bytes * k)) m hal sep
    obtain ⟨m', h'⟩ := ih (k + 1) m1 (by omega)
    exact ⟨m', .step (by omega) h1 h'⟩

/-- `MulT` on amd64: the result grows by the transposed matrix times the column. -/
theorem mulT_kernel (hex : Exact alu) (hal : out % sz.bytes = 0)
    (dout : Separate sz.bytes d (rows * cols) out cols) (vout : Separate sz.bytes v rows out cols)
    (m : Nat → R) :
    (∃ m', MulTRun sz alu rows cols d v out 0 m m') ∧
    ∀ m', MulTRun sz alu rows cols d v out 0 m m' →
      (∀ j, j < cols → m' (out + sz.bytes * j) = m (out + sz.bytes * j) +
        (Finset.range rows).sum fun l => m (v + sz.bytes * l) * m (d + sz.bytes * (l * cols + j))) ∧
      OnlyAt sz.bytes out cols m m' := by
  refine ⟨MulTRun.total alu hal dout rows 0 m (by omega), fun m' h => ?_⟩
  have hd := MulTRun.sum hex hal dout vout h (by omega) (m0 := m) ⟨fun j hj => by simp, fun _ _ => rfl⟩
  exact ⟨fun j hj => hd.1 j hj, hd.2⟩

end

/-! ### Cases -/

open Verif.Asm (intAlu intAlu_exact)

/-- A product of a 2×3 matrix at 0 and a 3×2 matrix at 100, onto 1000, 1004, 1008, 1012. -/
example : ∃ m', MulRows .f32 intAlu (fun v => v == 0) 2 3 2 0 100 1000 0 (fun a => (a : Int)) m' ∧
    m' 1000 = 1000 + (0 * 100 + 4 * 108 + 8 * 116) ∧ m' 1012 = 1012 + (12 * 104 + 16 * 112 + 20 * 120) := by
  obtain ⟨⟨m', h⟩, h2⟩ := matrixMul_kernel (sz := .f32) (aRows := 2) (aCols := 3) (bCols := 2) (a := 0)
    (b := 100) (c := 1000) intAlu_exact (isZero := fun v => v == 0) (fun v hv => by simpa using hv)
    (by decide) (fun i j hi hj => by simp [Sz.bytes] at *; omega)
    (fun i j hi hj => by simp [Sz.bytes] at *; omega) (fun a => (a : Int))
  have h3 := (h2 m' h).1
  refine ⟨m', h, (h3 0 0 (by omega) (by omega)).trans ?_, (h3 1 1 (by omega) (by omega)).trans ?_⟩ <;>
    simp [Finset.sum_range_succ, Sz.bytes]

example : ∃ m', MulTRun .f64 intAlu 2 3 0 100 1000 0 (fun a => (a : Int)) m' ∧
    m' 1016 = 1016 + (100 * 16 + 108 * 40) := by
  obtain ⟨⟨m', h⟩, h2⟩ := mulT_kernel (sz := .f64) (rows := 2) (cols := 3) (d := 0) (v := 100)
    (out := 1000) intAlu_exact (by decide) (fun i j hi hj => by simp [Sz.bytes] at *; omega)
    (fun i j hi hj => by simp [Sz.bytes] at *; omega) (fun a => (a : Int))
  refine ⟨m', h, ((h2 m' h).1 2 (by omega)).trans ?_⟩
  simp [Finset.sum_range_succ, Sz.bytes]

end Verif.Gonum
