import Verif.Model.Init
import Verif.Props.Rand
import Verif.Lemmas.Grid
import Mathlib.Algebra.Order.Floor.Ring
import Mathlib.Algebra.BigOperators.Field

/-!
# C44: dropout; C45: initialisers

Everything is stated for an arbitrary source of random words; `unit next s k` is the `k`-th number in [0,1) made of it.
-/

set_option autoImplicit false
set_option linter.unusedSimpArgs false

namespace Verif.Init

open Rand Dense
open scoped BigOperators

variable {S : Type}

/-! ## Filling -/

/-- `n` samples, one after the other. -/
def samples (sample : S → Option (ℝ × S)) : Nat → S → Option (List ℝ × S)
  | 0, s => some ([], s)
  | n + 1, s => do
    let r ← sample s
    let l ← samples sample n r.2
    some (r.1 :: l.1, l.2)

theorem samples_length {sample : S → Option (ℝ × S)} {n : Nat} {s : S} {r : List ℝ × S}
    (h : samples sample n s = some r) : r.1.length = n := by
  induction n generalizing s r with
  | zero => obtain rfl := Option.some.inj h; rfl
  | succ n ih =>
    simp only [samples, Option.bind_eq_bind, Option.bind_eq_some_iff, Option.some.injEq] at h
    obtain ⟨a, _, l, hl, rfl⟩ := h
    simp [ih hl]

theorem samples_add (sample : S → Option (ℝ × S)) (m n : Nat) (s : S) :
    samples sample (m + n) s
      = (samples sample m s).bind fun a => (samples sample n a.2).map fun b => (a.1 ++ b.1, b.2) := by
  induction m generalizing s with
  | zero => 
    simp only [samples, Nat.zero_add, Option.bind_some, List.nil_append]
    cases samples sample n s <;> rfl
  | succ m ih =>
    rw [show m + 1 + n = (m + n) + 1 by omega, samples, samples]
    cases sample s with
    | none => rfl
    | some r =>
      simp only [Option.bind_eq_bind, Option.bind_some, ih]
      cases samples sample m r.2 with
      | none => rfl
      | some a =>
        simp only [Option.bind_some]
        cases samples sample n a.2 <;> rfl

theorem set2_append {rows cols i j : Nat} {A B : List ℝ} {x v : ℝ} (hi : i < rows) (hj : j < cols)
    (hA : A.length = i * cols + j) :
    Dense.set2 ⟨rows, cols, A ++ x :: B⟩ v i j = some ⟨rows, cols, A ++ v :: B⟩ := by
  unfold Dense.set2
  rw [if_neg (by simp; omega), if_neg (by simp; omega)]
  simp only [Int.toNat_natCast, GoSlice.set]
  rw [if_pos (by simp; omega)]
  simp only [Option.bind_eq_bind, Option.bind_some]
  rw [List.set_append_right _ _ (by omega), hA, Nat.sub_self, List.set_cons_zero]

theorem fillRow_spec (sample : S → Option (ℝ × S)) {rows cols i : Nat} (hi : i < rows) :
    ∀ (n j : Nat) (A B C : List ℝ) (s : S), A.length = i * cols + j → B.length = n → j + n = cols →
      fillRow sample i n j ⟨rows, cols, A ++ (B ++ C)⟩ s
        = (samples sample n s).map fun r => (⟨rows, cols, A ++ (r.1 ++ C)⟩, r.2)
  | 0, j, A, B, C, s, hA, hB, hn => by
    obtain rfl := List.length_eq_zero_iff.1 hB
    rfl
  | n + 1, j, A, b :: B, C, s, hA, hB, hn => by
    rw [fillRow, samples]
    cases sample s with
    | none => rfl
    | some r =>
      simp only [Option.bind_eq_bind, Option.bind_some, List.cons_append]
      rw [set2_append hi (by omega) hA, Option.bind_some]
      have := fillRow_spec sample (cols := cols) hi n (j + 1) (A ++ [r.1]) B C r.2 (by simp [hA]; omega) (by simpa using hB) (by omega)
      rw [List.append_assoc, List.singleton_append] at this
      rw [this]
      cases samples sample n r.2 with
      | none => rfl
      | some l => simp

theorem fillRows_spec (sample : S → Option (ℝ × S)) {rows cols : Nat} :
    ∀ (n i : Nat) (A B : List ℝ) (s : S), A.length = i * cols → B.length = n * cols → i + n = rows →
      fillRows sample n i ⟨rows, cols, A ++ B⟩ s
        = (samples sample (n * cols) s).map fun r => (⟨rows, cols, A ++ r.1⟩, r.2)
  | 0, i, A, B, s, hA, hB, hn => by
    obtain rfl := List.length_eq_zero_iff.1 (by simpa using hB)
    simp [fillRows, samples]
  | n + 1, i, A, B, s, hA, hB, hn => by
    have hsplit : B = B.take cols ++ B.drop cols := (List.take_append_drop _ _).symm
    have hBl : (n + 1) * cols = n * cols + cols := by ring
    have hrow := fillRow_spec sample (rows := rows) (cols := cols) (i := i) (by omega) cols 0 A (B.take cols) (B.drop cols)
      s (by simpa using hA) (by rw [List.length_take, hB]; omega) (by omega)
    rw [← hsplit] at hrow
    rw [fillRows, hrow, show (n + 1) * cols = cols + n * cols by ring, samples_add]
    cases hs : samples sample cols s with
    | none => rfl
    | some a =>
      simp only [Option.map_some, Option.bind_eq_bind, Option.bind_some]
      have := fillRows_spec sample (rows := rows) (cols := cols) n (i + 1) (A ++ a.1) (B.drop cols) a.2
        (by rw [List.length_append, hA, samples_length hs]; ring) (by rw [List.length_drop, hB]; omega) (by omega)
      rw [List.append_assoc] at this
      rw [this]
      cases samples sample (n * cols) a.2 with
      | none => rfl
      | some b => simp [List.append_assoc]

/-- **C45.** Every element is written exactly once, with the samples in row-major order. -/
theorem fill_spec (sample : S → Option (ℝ × S)) (m : Dense ℝ) (hm : m.WF) (s : S) :
    fill sample m s = (samples sample (m.rows * m.cols) s).map fun r => (⟨m.rows, m.cols, r.1⟩, r.2) := by
  have := fillRows_spec sample (rows := m.rows) (cols := m.cols) m.rows 0 [] m.data s (by simp) hm (by omega)
  simpa [fill] using this

/-! ## Numbers in the unit interval -/

variable (next : S → Word × S)

/-- The `k`-th number `Float64` makes of the source. -/
noncomputable def unit (s : S) (k : Nat) : ℝ := (((draw next s k).toNat % 2 ^ 53 : Nat) : ℝ) / 2 ^ 53

theorem unit_range (s : S) (k : Nat) : 0 ≤ unit next s k ∧ unit next s k < 1 := by
  unfold unit
  refine ⟨by positivity, ?_⟩
  rw [div_lt_one (by positivity)]
  have h1 : (draw next s k).toNat % 2 ^ 53 < 2 ^ 53 := Nat.mod_lt _ (by norm_num)
  exact_mod_cast h1

theorem unit_succ (s : S) (k : Nat) : unit next s (k + 1) = unit next (next s).2 k := rfl

theorem uniformNext_eq (min max : ℝ) (s : S) :
    uniformNext next min max s = some (unit next s 0 * (max - min) + min, (next s).2) := by
  unfold uniformNext
  rw [float64_eq]
  simp only [Option.bind_eq_bind, Option.bind_some, unit, draw, stateAt]
  norm_num

/-- Samples each made of one number of the unit interval. -/
theorem samples_unit {sample : S → Option (ℝ × S)} {f : ℝ → ℝ}
    (h : ∀ s, sample s = some (f (unit next s 0), (next s).2)) (n : Nat) (s : S) :
    samples sample n s = some ((List.range n).map fun k => f (unit next s k), stateAt next s n) := by
  induction n generalizing s with
  | zero => rfl
  | succ n ih =>
    rw [samples, h s]
    simp only [Option.bind_eq_bind, Option.bind_some, ih]
    rw [List.range_succ_eq_map, List.map_cons, List.map_map]
    rfl

/-- Filling with samples each made of one number of the unit interval. -/
theorem fill_unit {sample : S → Option (ℝ × S)} {f : ℝ → ℝ}
    (h : ∀ s, sample s = some (f (unit next s 0), (next s).2)) (m : Dense ℝ) (hm : m.WF) (s : S) :
    fill sample m s = some (grid m.rows m.cols fun k => f (unit next s k), stateAt next s (m.rows * m.cols)) := by
  rw [fill_spec sample m hm, samples_unit next h]
  rfl

/-! ## C45: the initialisers -/

/-- **C45.** `Uniform`: each element is made of the next number drawn. -/
theorem uniform_spec (m : Dense ℝ) (hm : m.WF) (min max : ℝ) (s : S) :
    uniform next m min max s = some (grid m.rows m.cols fun k => min + (max - min) * unit next s k,
      stateAt next s (m.rows * m.cols)) := by
  unfold uniform
  rw [fill_unit next (f := fun u => u * (max - min) + min) (uniformNext_eq next min max) m hm]
  congr 2
  apply grid_congr
  intro k _
  ring

/-- **C45.** `Uniform` stays in its range. -/
theorem uniform_range (m : Dense ℝ) (hm : m.WF) {min max : ℝ} (h : min < max) (s : S) :
    ∃ m' s', uniform next m min max s = some (m', s') ∧ m'.rows = m.rows ∧ m'.cols = m.cols ∧ m'.WF ∧
      ∀ x ∈ m'.data, min ≤ x ∧ x < max := by
  refine ⟨_, _, uniform_spec next m hm min max s, rfl, rfl, grid_WF _ _ _, ?_⟩
  intro x hx
  simp only [grid, List.mem_map] at hx
  obtain ⟨k, _, rfl⟩ := hx
  obtain ⟨h1, h2⟩ := unit_range next s k
  constructor
  · nlinarith
  · nlinarith

/-- **C45.** `XavierUniform` stays in the range given by Glorot and Bengio. -/
theorem xavierUniform_range (m : Dense ℝ) (hm : m.WF) {g : ℝ} (hg : 0 < g) (s : S) :
    ∃ m' s', xavierUniform next m g s = some (m', s') ∧ m'.rows = m.rows ∧ m'.cols = m.cols ∧ m'.WF ∧
      ∀ x ∈ m'.data, -(g * √(6 / ((m.rows : ℝ) + m.cols))) ≤ x ∧ x < g * √(6 / ((m.rows : ℝ) + m.cols)) := by
  refine ⟨_, _, uniform_spec next m hm _ _ s, rfl, rfl, grid_WF _ _ _, ?_⟩
  intro x hx
  simp only [grid, List.mem_map, List.mem_range] at hx
  obtain ⟨k, hk, rfl⟩ := hx
  obtain ⟨h1, h2⟩ := unit_range next s k
  have hpos : 0 < m.rows := by
    rcases Nat.eq_zero_or_pos m.rows with h | h
    · rw [h, Nat.zero_mul] at hk; omega
    · exact h
  have hr : 0 < √(6 / ((m.rows : ℝ) + m.cols)) := by
    apply Real.sqrt_pos.2
    have : (0 : ℝ) < m.rows := by exact_mod_cast hpos
    positivity
  push_cast
  have ha : 0 < g * √(6 / ((m.rows : ℝ) + m.cols)) := mul_pos hg hr
  constructor
  · nlinarith
  · nlinarith

/-- **C45.** The gains lie between 1 and 5/3, so they are fit for `XavierUniform`; only ReLU's squares to 2. -/
theorem gain_range (f : Activation) : 1 ≤ gain f ∧ gain f ≤ 5 / 3 ∧ (gain f ^ 2 = 2 ↔ f = .relu) := by
  have h2 : √2 ^ 2 = (2 : ℝ) := Real.sq_sqrt (by norm_num)
  have h0 : 0 ≤ √(2 : ℝ) := Real.sqrt_nonneg 2
  cases f
  · refine ⟨le_refl _, by norm_num [gain], ?_⟩
    simp only [reduceCtorEq, iff_false]
    norm_num [gain]
  · refine ⟨?_, ?_, ?_⟩
    · change 1 ≤ √2
      nlinarith
    · change √2 ≤ 5 / 3
      nlinarith
    · simp [gain, h2]
  · refine ⟨by norm_num [gain], le_refl _, ?_⟩
    simp only [reduceCtorEq, iff_false]
    norm_num [gain]
  · refine ⟨le_refl _, by norm_num [gain], ?_⟩
    simp only [reduceCtorEq, iff_false]
    norm_num [gain]

/-- **C45.** `Achlioptas`: only the three values, by the number drawn. -/
theorem achlioptas_spec (m : Dense ℝ) (hm : m.WF) (s : S) :
    achlioptas next m s = some (grid m.rows m.cols fun k =>
        if unit next s k < 1 / 6 then -√3 else if 5 / 6 < unit next s k then √3 else 0,
      stateAt next s (m.rows * m.cols)) := by
  apply fill_unit next (f := fun u => if u < 1 / 6 then -√3 else if 5 / 6 < u then √3 else 0) _ m hm
  intro s
  unfold achlioptasNext
  rw [uniformNext_eq]
  simp only [Option.bind_eq_bind, Option.bind_some, sub_zero, mul_one, add_zero]
  rw [show (1 : ℝ) - 1 / 6 = 5 / 6 by norm_num]
  simp only [gt_iff_lt]
  split
  · rfl
  · split <;> rfl

/-- **C45.** `Constant` fills every element. -/
theorem constant_spec (m : Dense ℝ) (hm : m.WF) (n : ℝ) :
    constant m n = some (grid m.rows m.cols fun _ => n) ∧ ones m = some (grid m.rows m.cols fun _ => 1) ∧
      zeros m = grid m.rows m.cols fun _ => 0 := by
  have key : ∀ n, constant m n = some (grid m.rows m.cols fun _ => n) := by
    intro n
    have hs : ∀ k, samples (fun s : Unit => some (n, s)) k () = some (List.replicate k n, ()) := by
      intro k
      induction k with
      | zero => rfl
      | succ k ih => simp [samples, ih, List.replicate_succ]
    unfold constant
    rw [fill_spec _ m hm, hs]
    simp [grid]
  refine ⟨key n, key 1, ?_⟩
  unfold zeros
  conv_lhs => rw [eq_grid hm, grid_map]

/-- **C45.** The normal initialisers scale and shift the numbers drawn, in row-major order. -/
theorem normal_spec (normFloat64 : S → Option (ℝ × S)) (m : Dense ℝ) (hm : m.WF) (mean std g : ℝ) (s : S) :
    normal normFloat64 m mean std s
      = (samples normFloat64 (m.rows * m.cols) s).map
          (fun r => (⟨m.rows, m.cols, r.1.map fun z => mean + std * z⟩, r.2)) ∧
    xavierNormal normFloat64 m g s
      = (samples normFloat64 (m.rows * m.cols) s).map
          (fun r => (⟨m.rows, m.cols, r.1.map fun z => g * √(2 / ((m.rows : ℝ) + m.cols)) * z⟩, r.2)) := by
  have key : ∀ (std mean : ℝ) (n : Nat) (s : S), samples (normalNext normFloat64 std mean) n s
      = (samples normFloat64 n s).map fun r => (r.1.map fun z => mean + std * z, r.2) := by
    intro std mean n
    induction n with
    | zero => intro s; rfl
    | succ n ih =>
      intro s
      simp only [samples, normalNext]
      cases normFloat64 s with
      | none => rfl
      | some r =>
        simp only [Option.bind_eq_bind, Option.bind_some]
        rw [ih r.2]
        cases samples normFloat64 n r.2 with
        | none => rfl
        | some l => simp [mul_comm, add_comm]
  constructor
  · unfold normal
    rw [fill_spec _ m hm, key]
    cases samples normFloat64 (m.rows * m.cols) s <;> rfl
  · unfold xavierNormal
    rw [fill_spec _ m hm, key]
    cases samples normFloat64 (m.rows * m.cols) s with
    | none => rfl
    | some l => simp

/-- A 2×3 matrix, filled from the library's generator. -/
example : ∃ m' s', uniform PCG.uint64 (Dense.zeros 2 3) (-1) 1 (PCG.seed 42) = some (m', s') ∧ m'.rows = 2 ∧ m'.cols = 3
    ∧ m'.WF ∧ ∀ x ∈ m'.data, -1 ≤ x ∧ x < 1 :=
  uniform_range PCG.uint64 _ (by simp [Dense.zeros, Dense.WF]) (by norm_num) _

/-! ## C44: dropout -/

/-- The Bernoulli distribution without rounding: 0 below `prob`, else 1. -/
theorem bernoulli_spec (r c : Nat) (prob : ℝ) (s : S) :
    bernoulli next id r c prob s = some (grid r c fun k => if unit next s k < prob then 0 else 1,
      stateAt next s (r * c)) := by
  have hz : (Dense.zeros r c : Dense ℝ).WF := by simp [Dense.zeros, Dense.WF]
  apply fill_unit next (f := fun u => if u < prob then 0 else 1) _ (Dense.zeros r c) hz
  intro s
  unfold bernoulliNext
  rw [uniformNext_eq]
  have hfl : ⌊unit next s 0⌋ = 0 := Int.floor_eq_zero_iff.2 ⟨(unit_range next s 0).1, (unit_range next s 0).2⟩
  simp only [Option.bind_eq_bind, Option.bind_some, sub_zero, mul_one, add_zero, id, hfl, Int.cast_zero, zero_add]
  split <;> rfl

/-- Where the conversion of the numbers rounds up to 1, as that to `float32` does, the "Bernoulli" value is 2. -/
theorem bernoulli_rounds (conv : ℝ → ℝ) {prob : ℝ} (hp : prob ≤ 1) (s : S) (h : conv (unit next s 0) = 1) :
    bernoulliNext next conv prob s = some (2, (next s).2) := by
  unfold bernoulliNext
  rw [uniformNext_eq]
  simp only [Option.bind_eq_bind, Option.bind_some, sub_zero, mul_one, add_zero, h, Int.floor_one, Int.cast_one]
  rw [if_neg (not_lt.2 hp)]
  norm_num

/-- **C44.** Dropout with probability `p`: each element becomes 0 or `x/(1-p)`, as the number drawn is below `p` or not,
and the same mask multiplies the gradient. -/
theorem dropout_spec {p : ℝ} (hp : p < 1) (r c : Nat) (x : Nat → ℝ) (s : S) :
    ∃ mask, dropoutForward next p (grid r c x) s
        = some (grid r c fun k => if unit next s k < p then 0 else x k / (1 - p), mask, stateAt next s (r * c)) ∧
      ∀ gy, dropoutBackward (grid r c x) mask (grid r c gy)
        = some (grid r c fun k => if unit next s k < p then 0 else gy k / (1 - p)) := by
  refine ⟨grid r c fun k => (if unit next s k < p then 0 else 1) * (1 / (1 - p)), ?_, ?_⟩
  · unfold dropoutForward
    rw [if_pos (by linarith)]
    simp only [grid_rows, grid_cols, bernoulli_spec, Option.bind_eq_bind, Option.bind_some, grid_map, grid_zipOp]
    congr 2
    apply grid_congr
    intro k _
    split <;> ring
  · intro gy
    unfold dropoutBackward
    rw [if_pos (by simp [Dense.sameDims]), grid_zipOp]
    congr 1
    apply grid_congr
    intro k _
    split <;> ring

/-- **C44.** Probability 1 (or more): zeros, and the gradient is zero. -/
theorem dropout_one {p : ℝ} (hp : 1 ≤ p) (r c : Nat) (x : Nat → ℝ) (s : S) :
    ∃ mask, dropoutForward next p (grid r c x) s = some (grid r c fun _ => 0, mask, s) ∧
      ∀ gy, dropoutBackward (grid r c x) mask (grid r c gy) = some (grid r c fun _ => 0) := by
  refine ⟨grid r c fun _ => 0, ?_, ?_⟩
  · unfold dropoutForward
    rw [if_neg (by linarith)]
    simp only [grid_rows, grid_cols, grid_zeros, Option.bind_eq_bind, Option.bind_some, grid_zipOp, mul_zero]
  · intro gy
    unfold dropoutBackward
    rw [if_pos (by simp [Dense.sameDims]), grid_zipOp]
    simp

/-- **C44.** Probability 0: the identity, both where the operator is left out (and nothing is drawn) and where it is
not. -/
theorem dropout_zero (r c : Nat) (x : Nat → ℝ) (s : S) :
    dropout next 0 (grid r c x) s = some (grid r c x, s) ∧
    ∃ mask s', dropoutForward next 0 (grid r c x) s = some (grid r c x, mask, s') ∧
      ∀ gy, dropoutBackward (grid r c x) mask (grid r c gy) = some (grid r c gy) := by
  refine ⟨by simp [dropout], ?_⟩
  obtain ⟨mask, h1, h2⟩ := dropout_spec next (p := 0) (by norm_num) r c x s
  have h0 : ∀ k, ¬ unit next s k < 0 := fun k => not_lt.2 (unit_range next s k).1
  simp only [h0, if_false, sub_zero, div_one] at h1 h2
  exact ⟨mask, _, h1, h2⟩

/-- **C44.** A gradient of another shape is refused. -/
theorem dropout_shape (x mask gy : Dense ℝ) (h : x.rows ≠ gy.rows ∨ x.cols ≠ gy.cols) :
    dropoutBackward x mask gy = none := by
  unfold dropoutBackward
  rw [if_neg]
  simp only [Dense.sameDims, Bool.and_eq_true, beq_iff_eq, not_and_or]
  exact h

/-- **C44.** For a probability which is a multiple of 2^-53 the mean of dropout over all numbers that can be drawn is the
element itself. -/
theorem dropout_unbiased {a : Nat} (ha : a < 2 ^ 53) (x : ℝ) :
    (∑ k ∈ Finset.range (2 ^ 53), if (k : ℝ) / 2 ^ 53 < (a : ℝ) / 2 ^ 53 then 0 else x / (1 - (a : ℝ) / 2 ^ 53)) / 2 ^ 53
      = x := by
  have gen : ∀ N : Nat, a < N → (∑ k ∈ Finset.range N,
      if (k : ℝ) / N < (a : ℝ) / N then 0 else x / (1 - (a : ℝ) / N)) / N = x := by
    intro N hN
    have hNr : (0 : ℝ) < N := by exact_mod_cast (by omega : 0 < N)
    have e : ∀ k ∈ Finset.range N, (if (k : ℝ) / N < (a : ℝ) / N then 0 else x / (1 - (a : ℝ) / N))
        = if k < a then 0 else x / (1 - (a : ℝ) / N) := by
      intro k _
      simp only [div_lt_div_iff_of_pos_right hNr, Nat.cast_lt]
    rw [Finset.sum_congr rfl e, ← Finset.sum_range_add_sum_Ico _ hN.le]
    rw [Finset.sum_congr rfl (g := fun _ => (0 : ℝ)) fun k hk => if_pos (Finset.mem_range.1 hk),
      Finset.sum_congr rfl (g := fun _ => x / (1 - (a : ℝ) / N))
        fun k hk => if_neg (not_lt.2 (Finset.mem_Ico.1 hk).1)]
    rw [Finset.sum_const_zero, zero_add, Finset.sum_const, Nat.card_Ico, nsmul_eq_mul, Nat.cast_sub hN.le]
    have h2 : (N : ℝ) - a ≠ 0 := by
      have : (a : ℝ) < N := by exact_mod_cast hN
      linarith
    field_simp
  have hc : (((2 ^ 53 : Nat) : ℝ)) = 2 ^ 53 := Nat.cast_pow 2 53
  rw [← hc]
  exact gen (2 ^ 53) ha

end Verif.Init
