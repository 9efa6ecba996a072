/-
C72: norms, visits of the non-zero elements and overwriting.
-/
import Verif.Model.DenseMisc
set_option autoImplicit false
set_option linter.unusedSimpArgs false

namespace Verif.DenseMisc
open Verif

variable {R : Type}

/-! ### Norms -/

/-- The `p`-norm of a vector. -/
noncomputable def pnorm (p : ℝ) (xs : List ℝ) : ℝ := ((xs.map fun x => |x| ^ p).sum) ^ (1 / p)

theorem goPow_nonneg {x y : ℝ} (hx : 0 ≤ x) (hy : 0 < y) : goPow x y = some (x ^ y) := by
  unfold goPow
  rw [if_neg (ne_of_gt hy)]
  rcases hx.eq_or_lt with rfl | hx
  · simp [hy, Real.zero_rpow (ne_of_gt hy)]
  · rw [if_neg (ne_of_gt hx), if_pos hx]

theorem goPow_nat (x : ℝ) {n : ℕ} (hn : 0 < n) : goPow x n = some (x ^ n) := by
  have hn' : (0 : ℝ) < n := by exact_mod_cast hn
  rcases le_or_gt 0 x with hx | hx
  · rw [goPow_nonneg hx hn', Real.rpow_natCast]
  · unfold goPow
    rw [if_neg (ne_of_gt hn'), if_neg (ne_of_lt hx), if_neg (not_lt.2 hx.le)]
    simp

theorem goPow_frac {x y : ℝ} (hx : x < 0) (hy : 0 < y) (h : y ≠ ⌊y⌋) : goPow x y = none := by
  unfold goPow
  rw [if_neg (ne_of_gt hy), if_neg (ne_of_lt hx), if_neg (not_lt.2 hx.le), if_neg h]

theorem powSum_none (p : ℝ) (xs : List ℝ) : powSum p xs none = none := by
  induction xs with
  | nil => rfl
  | cons x xs ih => simpa [powSum] using ih

theorem powSum_some {p : ℝ} {xs : List ℝ} {f : ℝ → ℝ} (h : ∀ x ∈ xs, goPow x p = some (f x)) (a : ℝ) :
    powSum p xs (some a) = some (a + (xs.map f).sum) := by
  induction xs generalizing a with
  | nil => simp [powSum]
  | cons x xs ih =>
    simp only [powSum, h x (List.mem_cons_self ..), Option.bind_eq_bind, Option.bind_some,
      Option.pure_def, List.map_cons, List.sum_cons]
    rw [ih fun y hy => h y (List.mem_cons_of_mem _ hy), add_assoc]

theorem powSum_nan {p : ℝ} {xs : List ℝ} {x : ℝ} (hx : x ∈ xs) (h : goPow x p = none)
    (s : Option ℝ) : powSum p xs s = none := by
  induction xs generalizing s with
  | nil => cases hx
  | cons y ys ih =>
    rcases List.mem_cons.1 hx with rfl | hx
    · simp only [powSum, h]
      cases s <;> simp [powSum_none]
    · exact ih hx _

theorem sum_abs_nonneg (p : ℝ) (xs : List ℝ) : 0 ≤ (xs.map fun x => |x| ^ p).sum := by
  apply List.sum_nonneg
  intro y hy
  obtain ⟨x, -, rfl⟩ := List.mem_map.1 hy
  exact Real.rpow_nonneg (abs_nonneg x) p

theorem norm_of {d : Dense ℝ} {p : ℝ} (hv : d.isVector = true) (hp : 0 < p)
    (h : ∀ x ∈ d.data, goPow x p = some (|x| ^ p)) : norm d p = some (some (pnorm p d.data)) := by
  unfold norm pnorm
  rw [hv]
  simp only [Bool.not_true, Bool.false_eq_true, if_false, powSum_some h, zero_add,
    Option.bind_eq_bind, Option.bind_some]
  rw [goPow_nonneg (sum_abs_nonneg _ _) (by positivity)]

/-- The sum of odd powers stays below the sum of the powers of the absolute values as soon as there
is a negative element. -/
theorem sum_odd_lt {n : ℕ} (hn : Odd n) {xs : List ℝ} {x : ℝ} (hx : x ∈ xs) (hneg : x < 0) :
    (xs.map fun x => x ^ n).sum < (xs.map fun x => |x| ^ n).sum := by
  have hle : ∀ y : ℝ, y ^ n ≤ |y| ^ n := fun y => by
    rw [← abs_pow]; exact le_abs_self _
  have hlt : x ^ n < |x| ^ n := lt_of_lt_of_le (hn.pow_neg hneg) (by positivity)
  induction xs with
  | nil => cases hx
  | cons y ys ih =>
    simp only [List.map_cons, List.sum_cons]
    rcases List.mem_cons.1 hx with rfl | hx
    · exact add_lt_add_of_lt_of_le hlt (List.sum_le_sum fun z _ => hle z)
    · exact add_lt_add_of_le_of_lt (hle y) (ih hx)

/-- **C72.** For a positive power `p`, `Norm(p)` of a vector is its `p`-norm exactly when no element
is negative or `p` is an even number.  (The property is claimed for every `p`; the code takes no
absolute values.) -/
theorem norm_right_iff {d : Dense ℝ} {p : ℝ} (hv : d.isVector = true) (hp : 0 < p) :
    norm d p = some (some (pnorm p d.data)) ↔
      (∀ x ∈ d.data, 0 ≤ x) ∨ ∃ k : ℕ, p = 2 * k := by
  constructor
  · intro h
    by_contra hcon
    push Not at hcon
    obtain ⟨⟨x, hx, hneg⟩, hk⟩ := hcon
    by_cases hint : p = ⌊p⌋
    · -- an odd number
      obtain ⟨n, hn⟩ : ∃ n : ℕ, p = n := by
        refine ⟨⌊p⌋.toNat, ?_⟩
        have h0 : 0 ≤ ⌊p⌋ := Int.floor_nonneg.2 hp.le
        have : ((⌊p⌋.toNat : ℤ) : ℝ) = ⌊p⌋ := by rw [Int.toNat_of_nonneg h0]
        rw [← Int.cast_natCast, this, ← hint]
      subst hn
      have hn0 : 0 < n := by exact_mod_cast hp
      have hodd : Odd n := by
        rcases Nat.even_or_odd n with ⟨k, hk'⟩ | h
        · exact absurd (by rw [hk']; push_cast; ring) (hk k)
        · exact h
      have hlt := sum_odd_lt hodd hx hneg
      have habs : (d.data.map fun x => |x| ^ (n : ℝ)).sum = (d.data.map fun x => |x| ^ n).sum := by
        simp only [Real.rpow_natCast]
      have hApos : 0 < (d.data.map fun x => |x| ^ n).sum := by
        refine lt_of_lt_of_le (pow_pos (abs_pos.2 (ne_of_lt hneg)) n)
          (List.single_le_sum ?_ _ (List.mem_map_of_mem hx))
        intro y hy
        obtain ⟨z, -, rfl⟩ := List.mem_map.1 hy
        positivity
      unfold norm pnorm at h
      rw [hv, habs] at h
      simp only [Bool.not_true, Bool.false_eq_true, if_false,
        powSum_some (fun y _ => goPow_nat y hn0), zero_add, Option.bind_eq_bind, Option.bind_some,
        Option.some.injEq] at h
      generalize (d.data.map fun x => x ^ n).sum = S at hlt h
      generalize (d.data.map fun x => |x| ^ n).sum = A at hlt hApos h
      have hinv : (0 : ℝ) < 1 / n := by positivity
      have hB : 0 < A ^ (1 / (n : ℝ)) := Real.rpow_pos_of_pos hApos _
      rcases le_or_gt 0 S with hS | hS
      · rw [goPow_nonneg hS hinv, Option.some.injEq] at h
        exact absurd h (ne_of_lt (Real.rpow_lt_rpow hS hlt hinv))
      · by_cases h1 : (1 / (n : ℝ)) = ⌊1 / (n : ℝ)⌋
        · have hn1 : n = 1 := by
            by_contra hne
            have h2 : (2 : ℝ) ≤ n := by exact_mod_cast (by omega : 2 ≤ n)
            have hlt1 : 1 / (n : ℝ) < 1 := by
              rw [div_lt_one (by linarith)]; linarith
            have : ⌊1 / (n : ℝ)⌋ = 0 := Int.floor_eq_zero_iff.2 ⟨hinv.le, hlt1⟩
            rw [this] at h1
            simp at h1
            omega
          subst hn1
          have := goPow_nat S (n := 1) one_pos
          rw [Nat.cast_one, div_one] at h
          rw [Nat.cast_one] at this
          rw [this, Option.some.injEq, pow_one, Real.rpow_one] at h
          linarith
        · rw [goPow_frac hS hinv h1] at h
          cases h
    · unfold norm at h
      rw [hv] at h
      simp [powSum_nan hx (goPow_frac hneg hp hint)] at h
  · rintro (h | ⟨k, rfl⟩)
    · exact norm_of hv hp fun x hx => by rw [goPow_nonneg (h x hx) hp, abs_of_nonneg (h x hx)]
    · refine norm_of hv hp fun x _ => ?_
      have hk : 0 < 2 * k := by
        have : (0 : ℝ) < ((2 * k : ℕ) : ℝ) := by push_cast; exact hp
        exact_mod_cast this
      have e : (2 * (k : ℝ)) = ((2 * k : ℕ) : ℝ) := by push_cast; ring
      rw [e, goPow_nat x hk, Real.rpow_natCast, Even.pow_abs ⟨k, by ring⟩]

/-- **C72 (partial).** The `p`-norm, where it is right. -/
theorem norm_pnorm_partial {d : Dense ℝ} {p : ℝ} (hv : d.isVector = true) (hp : 0 < p)
    (h : (∀ x ∈ d.data, 0 ≤ x) ∨ ∃ k : ℕ, p = 2 * k) :
    Norm d p = some (some (Dense.scalar (pnorm p d.data))) := by
  unfold Norm
  rw [(norm_right_iff hv hp).2 h]
  rfl

/-- **C72.** `Norm(1)` is the sum of the elements. -/
theorem norm_one {d : Dense ℝ} (hv : d.isVector = true) : norm d 1 = some (some d.data.sum) := by
  unfold norm
  have h1 : ∀ x : ℝ, goPow x 1 = some x := fun x => by
    have := goPow_nat x (n := 1) one_pos
    simpa using this
  rw [hv]
  simp only [Bool.not_true, Bool.false_eq_true, if_false, powSum_some (fun y _ => h1 y), zero_add,
    Option.bind_eq_bind, Option.bind_some, div_one, h1]
  simp

/-- The Euclidean length. -/
theorem norm_two {d : Dense ℝ} (hv : d.isVector = true) :
    norm d 2 = some (some (Real.sqrt (d.data.map fun x => x ^ 2).sum)) := by
  rw [(norm_right_iff hv two_pos).2 (.inr ⟨1, by norm_num⟩)]
  unfold pnorm
  have : ∀ x : ℝ, |x| ^ (2 : ℝ) = x ^ 2 := fun x => by
    rw [show (2 : ℝ) = ((2 : ℕ) : ℝ) by norm_num, Real.rpow_natCast, sq_abs]
  simp only [this, Real.sqrt_eq_rpow]

/-- **C72.** `Normalize2` gives a vector of the same shape and direction and of length one; the zero
vector stays. -/
theorem normalize2_spec {d : Dense ℝ} (hv : d.isVector = true) :
    ∃ y, normalize2 d = some (some y) ∧ y.rows = d.rows ∧ y.cols = d.cols ∧
      ((∀ x ∈ d.data, x = 0) → y = d) ∧
      ((∃ x ∈ d.data, x ≠ 0) →
        (y.data.map fun x => x ^ 2).sum = 1 ∧ ∃ a : ℝ, 0 < a ∧ y.data = d.data.map fun x => a * x) := by
  unfold normalize2
  rw [norm_two hv]
  simp only [Option.bind_eq_bind, Option.bind_some, Option.pure_def, Option.map_some]
  have hnn : 0 ≤ (d.data.map fun x => x ^ 2).sum := by
    apply List.sum_nonneg
    intro y hy
    obtain ⟨z, -, rfl⟩ := List.mem_map.1 hy
    positivity
  refine ⟨_, rfl, ?_, ?_, ?_, ?_⟩
  · split <;> rfl
  · split <;> rfl
  · intro h
    have : (d.data.map fun x => x ^ 2).sum = 0 := by
      apply List.sum_eq_zero
      intro y hy
      obtain ⟨z, hz, rfl⟩ := List.mem_map.1 hy
      rw [h z hz]; norm_num
    rw [this, Real.sqrt_zero, if_pos rfl]
  · rintro ⟨x, hx, hne⟩
    have hpos : 0 < (d.data.map fun x => x ^ 2).sum := by
      refine lt_of_lt_of_le (by positivity : 0 < x ^ 2)
        (List.single_le_sum ?_ _ (List.mem_map_of_mem (f := fun x : ℝ => x ^ 2) hx))
      intro y hy
      obtain ⟨z, -, rfl⟩ := List.mem_map.1 hy
      positivity
    have hs := Real.sqrt_pos.2 hpos
    rw [if_neg (ne_of_gt hs)]
    constructor
    · simp only [Dense.map, List.map_map]
      have : ((fun x : ℝ => x ^ 2) ∘ fun x => x * (1 / Real.sqrt (d.data.map fun x => x ^ 2).sum)) =
          fun x => (1 / (d.data.map fun x => x ^ 2).sum) * x ^ 2 := by
        funext z
        simp only [Function.comp_apply, mul_pow, div_pow, one_pow, Real.sq_sqrt hnn]
        ring
      rw [this, List.sum_map_mul_left]
      field_simp
    · refine ⟨1 / Real.sqrt (d.data.map fun x => x ^ 2).sum, by positivity, ?_⟩
      simp only [Dense.map]
      exact List.map_congr_left fun z _ => mul_comm _ _

/-! ### Visits -/

section visits
variable [Zero R] [DecidableEq R]

/-- The calls of one row. -/
def rowCalls (data : List R) (r di : Nat) (cs : List Nat) (off : Nat) : List (Nat × Nat × R) :=
  cs.filterMap fun c => match data[di + (c - off)]? with
    | some v => if v = 0 then none else some (r, c, v)
    | none => none

theorem visitCols_eq {data : List R} {r : Nat} (n off di : Nat) (calls : List (Nat × Nat × R))
    (h : di + n ≤ data.length) :
    visitCols data r (List.range' off n) di calls =
      some (di + n, calls ++ (List.range' off n).filterMap fun c : Nat =>
        match data[di + (c - off)]? with
        | some v => if v = 0 then none else some (r, c, v)
        | none => none) := by
  induction n generalizing off di calls with
  | zero => simp [visitCols]
  | succ n ih =>
    have hlt : di < data.length := by omega
    have hcongr : ∀ c ∈ List.range' (off + 1) n,
        (match data[(di + 1) + (c - (off + 1))]? with
          | some v => if v = 0 then none else some (r, c, v)
          | none => none) =
        (match data[di + (c - off)]? with
          | some v => if v = 0 then none else some (r, c, v)
          | none => none) := by
      intro c hc
      have : off + 1 ≤ c := (List.mem_range'_1.1 hc).1
      rw [show (di + 1) + (c - (off + 1)) = di + (c - off) by omega]
    rw [List.range'_succ, visitCols, List.getElem?_eq_getElem hlt]
    simp only [Option.bind_eq_bind, Option.bind_some]
    split
    · rename_i hz
      rw [ih (off + 1) (di + 1) calls (by omega), List.filterMap_congr hcongr]
      simp only [List.filterMap_cons, Nat.sub_self, Nat.add_zero, List.getElem?_eq_getElem hlt, hz,
        if_true, Option.some.injEq, Prod.mk.injEq, and_true]
      omega
    · rename_i hz
      rw [ih (off + 1) (di + 1) _ (by omega), List.filterMap_congr hcongr]
      simp only [List.filterMap_cons, Nat.sub_self, Nat.add_zero, List.getElem?_eq_getElem hlt, hz,
        if_false, Option.some.injEq, Prod.mk.injEq, List.append_assoc, List.cons_append,
        List.nil_append, and_true]
      omega

/-- The calls of a matrix: rows from top to bottom, in each row columns from left to right, only
elements that are not zero. -/
def visits (d : Dense R) : List (Nat × Nat × R) :=
  (List.range d.rows).flatMap fun r : Nat => (List.range d.cols).filterMap fun c : Nat =>
    match d.at2 r c with
    | some v => if v = 0 then none else some (r, c, v)
    | none => none

theorem at2_data {d : Dense R} {r c : Nat} (hr : r < d.rows) (hc : c < d.cols) :
    d.at2 r c = d.data[r * d.cols + c]? := by
  unfold Dense.at2
  rw [if_neg (by omega), if_neg (by omega)]
  congr 1

theorem visitRows_eq {d : Dense R} (hw : d.WF) (n off : Nat) (hle : off + n = d.rows)
    (calls : List (Nat × Nat × R)) :
    visitRows d.data d.cols (List.range' off n) (off * d.cols) calls =
      some (calls ++ (List.range' off n).flatMap fun r : Nat => (List.range d.cols).filterMap fun c : Nat =>
        match d.at2 r c with
        | some v => if v = 0 then none else some (r, c, v)
        | none => none) := by
  induction n generalizing off calls with
  | zero => simp [visitRows]
  | succ n ih =>
    have hb : off * d.cols + d.cols ≤ d.data.length := by
      have h1 : (off + 1) * d.cols ≤ d.rows * d.cols := Nat.mul_le_mul_right _ (by omega)
      unfold Dense.WF at hw
      rw [hw]
      calc off * d.cols + d.cols = (off + 1) * d.cols := by ring
        _ ≤ _ := h1
    rw [List.range'_succ, visitRows, List.range_eq_range', visitCols_eq d.cols 0 _ calls hb]
    simp only [Option.bind_eq_bind, Option.bind_some]
    rw [show off * d.cols + d.cols = (off + 1) * d.cols by ring, ← List.range_eq_range',
      ih (off + 1) (by omega)]
    simp only [List.flatMap_cons, List.append_assoc, Option.some.injEq]
    congr 2
    apply List.filterMap_congr
    intro c hc
    rw [at2_data (by omega) (List.mem_range.1 hc)]
    rfl

/-- **C72.** `DoNonZero` of a well-formed matrix calls the function for exactly the elements that
are not zero, in row-major order, with their indices and value. -/
theorem doNonZero_visits {d : Dense R} (hw : d.WF) : doNonZero d = some (visits d) := by
  unfold doNonZero
  have := visitRows_eq hw d.rows 0 (by omega) []
  rw [← List.range_eq_range', Nat.zero_mul] at this
  rw [this]
  rfl

theorem mem_visits {d : Dense R} (r c : Nat) (v : R) :
    (r, c, v) ∈ visits d ↔ r < d.rows ∧ c < d.cols ∧ d.at2 r c = some v ∧ v ≠ 0 := by
  unfold visits
  simp only [List.mem_flatMap, List.mem_range, List.mem_filterMap]
  constructor
  · rintro ⟨r', hr, c', hc, h⟩
    cases hv : d.at2 r' c' with
    | none => simp [hv] at h
    | some w =>
      simp only [hv] at h
      split at h
      · cases h
      · rename_i hne
        simp only [Option.some.injEq, Prod.mk.injEq] at h
        obtain ⟨rfl, rfl, rfl⟩ := h
        exact ⟨hr, hc, hv, hne⟩
  · rintro ⟨hr, hc, hv, hne⟩
    exact ⟨r, hr, c, hc, by simp [hv, hne]⟩

/-- Row-major order of the visits: rows increase, and in a row columns increase. -/
theorem visits_sorted (d : Dense R) :
    (visits d).Pairwise fun a b => a.1 < b.1 ∨ (a.1 = b.1 ∧ a.2.1 < b.2.1) := by
  unfold visits
  rw [List.pairwise_flatMap]
  constructor
  · intro r _
    rw [List.pairwise_filterMap]
    refine List.Pairwise.imp_of_mem ?_ (List.pairwise_lt_range (n := d.cols))
    intro c c' _ _ hlt a ha b hb
    have key : ∀ (c : Nat) (a : Nat × Nat × R), (match d.at2 r c with
        | some v => if v = 0 then none else some (r, c, v)
        | none => none) = some a → a.1 = r ∧ a.2.1 = c := by
      intro c a h
      cases hv : d.at2 r c with
      | none => simp [hv] at h
      | some w =>
        simp only [hv] at h
        split at h
        · cases h
        · simp only [Option.some.injEq] at h
          subst h; exact ⟨rfl, rfl⟩
    obtain ⟨a1, a2⟩ := key c a ha
    obtain ⟨b1, b2⟩ := key c' b hb
    exact .inr ⟨by rw [a1, b1], by rw [a2, b2]; exact hlt⟩
  · refine List.Pairwise.imp_of_mem ?_ (List.pairwise_lt_range (n := d.rows))
    intro r r' _ _ hlt a ha b hb
    have key : ∀ (r : Nat) (a : Nat × Nat × R), a ∈ ((List.range d.cols).filterMap fun c : Nat =>
        match d.at2 r c with
        | some v => if v = 0 then none else some (r, c, v)
        | none => none) → a.1 = r := by
      intro r a h
      obtain ⟨c, -, h⟩ := List.mem_filterMap.1 h
      cases hv : d.at2 r c with
      | none => simp [hv] at h
      | some w =>
        simp only [hv] at h
        split at h
        · cases h
        · simp only [Option.some.injEq] at h
          subst h; rfl
    exact .inl (by rw [key r a ha, key r' b hb]; exact hlt)

/-- **C72.** The calls of `DoNonZero`, said without a list: each element that is not zero, no other,
rows from top to bottom and columns from left to right (so none twice). -/
theorem doNonZero_spec {d : Dense R} (hw : d.WF) :
    ∃ calls, doNonZero d = some calls ∧
      (∀ r c v, (r, c, v) ∈ calls ↔ r < d.rows ∧ c < d.cols ∧ d.at2 r c = some v ∧ v ≠ 0) ∧
      calls.Pairwise fun a b => a.1 < b.1 ∨ (a.1 = b.1 ∧ a.2.1 < b.2.1) :=
  ⟨_, doNonZero_visits hw, mem_visits, visits_sorted d⟩

end visits

/-! ### Overwriting -/

/-- **C72.** `Copy` makes the receiver equal to the other matrix, and panics exactly when the
dimensions differ. -/
theorem copy_spec {d e : Dense R} (hd : d.WF) (he : e.WF) :
    (d.rows = e.rows ∧ d.cols = e.cols → copy d e = some e) ∧
    (¬ (d.rows = e.rows ∧ d.cols = e.cols) → copy d e = none) := by
  obtain ⟨r, c, xs⟩ := d
  obtain ⟨r', c', ys⟩ := e
  simp only [Dense.WF] at hd he
  constructor
  · rintro ⟨rfl, rfl⟩
    replace he : ys.length = r * c := he
    simp only [copy, Dense.sameDims, goCopy, beq_self_eq_true, Bool.and_self, if_true]
    rw [List.drop_of_length_le (by omega), List.take_of_length_le (by omega), List.append_nil]
  · intro h
    have : ¬ (r == r' && c == c') = true := by simpa using h
    simp [copy, Dense.sameDims, this]

/-- **C72.** `SetData` replaces all the elements and panics exactly when there are not as many as
before. -/
theorem setData_spec {d : Dense R} (xs : List R) :
    (xs.length = d.data.length → setData d xs = some ⟨d.rows, d.cols, xs⟩) ∧
    (xs.length ≠ d.data.length → setData d xs = none) := by
  constructor
  · intro h
    simp only [setData, h, ne_eq, not_true_eq_false, if_false, goCopy]
    rw [List.drop_of_length_le (by omega), List.take_of_length_le (by omega), List.append_nil]
  · intro h
    simp [setData, h]

/-- **C72.** `Zeros` leaves a matrix of the same shape in which every element is zero. -/
theorem zeros_spec [Zero R] {d : Dense R} (hd : d.WF) : zeros d = Dense.zeros d.rows d.cols := by
  unfold zeros Dense.zeros
  rw [List.map_const', hd]

/-! ### Concrete cases -/

example : norm ⟨3, 1, [1, -1, 2]⟩ 1 = some (some 2) := by
  rw [norm_one rfl]; norm_num

/-- The vector (1, -1) is not zero, but its 3-norm is not what `Norm(3)` gives. -/
example : norm ⟨2, 1, [1, -1]⟩ 3 ≠ some (some (pnorm 3 [1, -1])) := by
  intro h
  rcases (norm_right_iff (d := ⟨2, 1, [1, -1]⟩) rfl (by norm_num : (0 : ℝ) < 3)).1 h with h | ⟨k, hk⟩
  · have := h (-1) (by simp); norm_num at this
  · have : (3 : ℕ) = 2 * k := by exact_mod_cast hk
    omega

example : norm ⟨1, 2, [3, -4]⟩ 2 = some (some (pnorm 2 [3, -4])) :=
  (norm_right_iff (d := ⟨1, 2, [3, -4]⟩) rfl two_pos).2 (.inr ⟨1, by norm_num⟩)

example : doNonZero (⟨2, 3, [0, 5, 0, 7, 0, 9]⟩ : Dense Nat) = some [(0, 1, 5), (1, 0, 7), (1, 2, 9)] := by
  rw [doNonZero_visits (by decide)]; decide

example : copy (⟨1, 2, [1, 2]⟩ : Dense Nat) ⟨1, 2, [8, 9]⟩ = some ⟨1, 2, [8, 9]⟩ :=
  (copy_spec (by decide) (by decide)).1 ⟨rfl, rfl⟩

end Verif.DenseMisc
