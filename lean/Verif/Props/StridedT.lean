/-
`GemvT`, `Ger`, and the other functions of asm64/stubs_noasm.go.
-/
import Verif.Props.Strided
import Mathlib.Algebra.Order.Ring.Abs
set_option autoImplicit false
set_option linter.unusedSimpArgs false

namespace Verif.Strided

variable {R : Type}

theorem Upd.trans {y y1 y2 : List R} {n : Nat} {G : Nat → Nat} {v1 v2 : Nat → R}
    (h1 : Upd y y1 0 n G v1) (h2 : Upd y1 y2 0 n G v2) : Upd y y2 0 n G v2 :=
  ⟨by rw [h2.len, h1.len], h2.new, fun p hp => by rw [h2.old p hp, h1.old p hp]⟩

theorem Upd.refl {y : List R} {n : Nat} {G : Nat → Nat} {v : Nat → R}
    (h : ∀ j, j < n → y[G j]? = some (v j)) : Upd y y 0 n G v :=
  ⟨rfl, fun j _ hj => h j (by omega), fun _ _ => rfl⟩

theorem SameElsewhere.trans {y y1 y2 : List R} {n : Nat} {inc : Int}
    (h1 : SameElsewhere y y1 n inc) (h2 : SameElsewhere y1 y2 n inc) : SameElsewhere y y2 n inc :=
  ⟨by rw [h2.1, h1.1], fun p hp => by rw [h2.2 p hp, h1.2 p hp]⟩

section
variable [AddCommMagma R] [CommMagma R]

theorem gemvTRows_upd (n : Nat) (alpha : R) (a : List R) (lda : Nat) (x : List R) (m : Nat)
    (av : Nat → Nat → R) (xv : Nat → R) (ha : HoldsMatrix a m n lda av) (hsa : Small a)
    (hx : ∀ j, j < m → x[j]? = some (xv j)) :
    ∀ (k i : Nat) (y : List R) (s : Nat → R), i + k ≤ m →
      (∀ j, j < n → y[j]? = some (s j)) →
      ∃ y', gemvTRows n alpha a lda x k i y = some y' ∧
        Upd y y' 0 n id (fun j => sumFrom (s j) k fun l => alpha * xv (i + l) * av (i + l) j)
  | 0, i, y, s, _, hy => ⟨y, rfl, Upd.refl (G := id) hy⟩
  | k + 1, i, y, s, hi, hy => by
    obtain ⟨row, hr, hl, hv⟩ := slice_row ha hsa (show i < m by omega)
    obtain ⟨hw1, hw2⟩ := words_row ha hsa (show i < m by omega)
    obtain ⟨y1, he1, hu1⟩ := axpyUnitaryTo_upd (alpha * xv i) (fun j => av i j) s row 0 y
      (fun j hj => by rw [hv j (by omega)]; simp) (fun j _ hj => hy j (by omega))
    rw [hl] at hu1
    obtain ⟨y', he, hu⟩ := gemvTRows_upd n alpha a lda x m av xv ha hsa hx k (i + 1) y1
      (fun j => s j + alpha * xv i * av i j) (by omega)
      (fun j hj => by
        have := hu1.new j (by omega) (by omega)
        rw [add_comm (s j)]; exact this)
    refine ⟨y', ?_, (hu1.trans hu).congr fun j _ hj => ?_⟩
    · simp only [gemvTRows, hx i (by omega), hw1, hw2, hr, he1, Option.bind_eq_bind,
        Option.bind_some]
      exact he
    · rw [sumFrom_succ]
      simp only [Nat.add_zero, show ∀ j, i + 1 + j = i + (j + 1) by intro j; omega]

theorem gemvTRowsInc_upd (n : Nat) (alpha : R) (a : List R) (lda : Nat) (x : List R)
    (incX incY ky m : Nat) (av : Nat → Nat → R) (xv : Nat → R) (F G : Nat → Nat)
    (hF : ∀ j, add (F j) incX = F (j + 1)) (hG : ∀ j, add (G j) incY = G (j + 1))
    (ha : HoldsMatrix a m n lda av) (hsa : Small a) (hx : ∀ j, j < m → x[F j]? = some (xv j))
    (hn : n < 2 ^ 63) (hk : 0 < n → ky = G 0) (hd : ∀ j l, l < j → j < n → G j ≠ G l) :
    ∀ (k i : Nat) (y : List R) (s : Nat → R), i + k ≤ m →
      (∀ j, j < n → y[G j]? = some (s j)) →
      ∃ y', gemvTRowsInc n alpha a lda x incX incY ky k i (F i) y = some y' ∧
        Upd y y' 0 n G (fun j => sumFrom (s j) k fun l => alpha * xv (i + l) * av (i + l) j)
  | 0, i, y, s, _, hy => ⟨y, rfl, Upd.refl hy⟩
  | k + 1, i, y, s, hi, hy => by
    obtain ⟨row, hr, hl, hv⟩ := slice_row ha hsa (show i < m by omega)
    obtain ⟨hw1, hw2⟩ := words_row ha hsa (show i < m by omega)
    have h1 : ∃ y1, axpyInc (alpha * xv i) row 1 incY (rounds n) 0 ky y = some y1 ∧
        Upd y y1 0 n G (fun j => s j + alpha * xv i * av i j) := by
      rw [rounds_nat hn]
      rcases Nat.eq_zero_or_pos n with h0 | h0
      · subst h0; exact ⟨y, rfl, Upd.nil y 0 G _⟩
      · rw [hk h0]
        exact axpyInc_upd (alpha * xv i) row 1 incY (fun j => word (j : Int)) G
          (fun j => av i j) s word_step hG n 0 y
          (fun j _ hj => by rw [word_nat (by omega)]; exact hv j (by omega))
          (fun j _ hj => hy j (by omega)) (fun j l _ h2 h3 => hd j l h2 (by omega))
    obtain ⟨y1, he1, hu1⟩ := h1
    obtain ⟨y', he, hu⟩ := gemvTRowsInc_upd n alpha a lda x incX incY ky m av xv F G hF hG ha hsa hx
      hn hk hd k (i + 1) y1 (fun j => s j + alpha * xv i * av i j) (by omega)
      (fun j hj => hu1.new j (by omega) (by omega))
    refine ⟨y', ?_, (hu1.trans hu).congr fun j _ hj => ?_⟩
    · simp only [gemvTRowsInc, hx i (by omega), hw1, hw2, hr, he1, hF, Option.bind_eq_bind,
        Option.bind_some]
      exact he
    · rw [sumFrom_succ]
      simp only [Nat.add_zero, show ∀ j, i + 1 + j = i + (j + 1) by intro j; omega]

/-- The places of a vector are the same for both signs of the increment, in the other order. -/
theorem place_neg {n : Nat} {inc : Int} (h : inc < 0) {k : Nat} (hk : k < n) :
    place n (-inc) (n - 1 - k) = place n inc k := by
  unfold place
  rw [if_neg (by omega), if_pos h]
  congr 1; omega

theorem Holds.neg {x : List R} {n : Nat} {inc : Int} {v : Nat → R} (h : inc < 0)
    (hx : Holds x n inc v) : Holds x n (-inc) (fun k => v (n - 1 - k)) := by
  intro k hk
  have h1 := hx (n - 1 - k) (by omega)
  rw [← place_neg h (show n - 1 - k < n by omega), show n - 1 - (n - 1 - k) = k by omega] at h1
  exact h1

theorem Holds.of_neg {x : List R} {n : Nat} {inc : Int} {v : Nat → R} (h : inc < 0)
    (hx : Holds x n (-inc) (fun k => v (n - 1 - k))) : Holds x n inc v := by
  intro k hk
  have h1 := hx (n - 1 - k) (by omega)
  rw [place_neg h hk] at h1
  beta_reduce at h1
  rw [h1, show n - 1 - (n - 1 - k) = k by omega]

theorem SameElsewhere.of_neg {y y' : List R} {n : Nat} {inc : Int} (h : inc < 0)
    (hy : SameElsewhere y y' n (-inc)) : SameElsewhere y y' n inc := by
  refine ⟨hy.1, fun p hp => hy.2 p fun k hk e => hp (n - 1 - k) (by omega) ?_⟩
  rw [e, ← place_neg h (show n - 1 - k < n by omega), show n - 1 - (n - 1 - k) = k by omega]

/-- The first half of `GemvT`. -/
theorem gemvTScale_correct (zero : R) (isZero : R → Bool) (n : Nat) (beta : R) (y : List R)
    (incY : Int) (yv : Nat → R) (hy : Holds y n incY yv) (hsy : Small y) (hn : n < 2 ^ 63)
    (hY : IsInt incY) (hinc : incY ≠ 0 ∨ n ≤ 1) (hlen : incY = 1 → n ≤ y.length) :
    ∃ y1, gemvTScale zero isZero n beta y (word incY) = some y1 ∧
      Holds y1 n incY (fun j => if isZero beta then zero else yv j * beta) ∧
      y1.length = y.length ∧
      ((isZero beta = true → incY = 1 → n = y.length) → SameElsewhere y y1 n incY) ∧
      (isZero beta = true → incY = 1 → ∀ p, p < y.length → y1[p]? = some zero) := by
  unfold gemvTScale
  simp only [word_eq_one hY, int_word hY]
  by_cases hz : isZero beta = true
  · simp only [hz, if_true]
    by_cases h1 : incY = 1
    · subst h1
      rw [if_pos rfl]
      have hget : ∀ p, p < y.length → (y.map fun _ => zero)[p]? = some zero := by
        intro p hp
        rw [List.getElem?_map, List.getElem?_eq_getElem hp]; rfl
      refine ⟨_, rfl, fun k hk => ?_, by simp, fun he => ⟨by simp, fun p hp => ?_⟩,
        fun _ _ => hget⟩
      · rw [place_one]
        have := hy k hk
        rw [place_one] at this
        exact hget _ (List.getElem?_eq_some_iff.1 this).1
      · have hp' : y.length ≤ p := by
          by_contra hlt
          rw [← he (by simp) rfl] at hlt
          exact hp p (by omega) (by rw [place_one])
        rw [List.getElem?_eq_none (by simpa using hp'), List.getElem?_eq_none hp']
    · rw [if_neg h1]
      rcases Nat.eq_zero_or_pos n with h0 | h0
      · subst h0
        exact ⟨y, rfl, fun k hk => by omega, rfl, fun _ => ⟨rfl, fun _ _ => rfl⟩,
          fun _ h => absurd h h1⟩
      · obtain ⟨y', he, hu⟩ := clearInc_upd zero (word incY) (fun j => word (place n incY j)) yv
          (word_place_succ n incY) n 0 y (fun j _ hj => holds_word hy hsy (by omega))
          (fun j l _ h2 h3 => word_place_ne hy hsy hinc h2 (by omega))
        rw [rounds_nat hn, start_eq hY h0 hn]
        have := hu.holds hy hsy
        exact ⟨y', he, this.1, this.2.1, fun _ => this.2, fun _ h => absurd h h1⟩
  · simp only [hz, if_false, Bool.false_eq_true]
    by_cases h2 : incY < 0
    · rw [if_pos h2]
      obtain ⟨y', he, h3, h4⟩ := scalInc_correct beta y n (-incY) _ (hy.neg h2) hsy hn
        (Or.inl (by omega))
      exact ⟨y', he, Holds.of_neg h2 h3, h4.1, fun _ => h4.of_neg h2, fun h => by simp at h⟩
    · rw [if_neg h2]
      by_cases h1 : incY = 1
      · subst h1
        rw [if_pos rfl]
        have hl := hlen rfl
        have hs : slice y 0 n = some (y.take n) := by
          unfold slice; rw [if_pos ⟨by omega, hl⟩]; simp
        have hlen' : 0 + (scalUnitary beta (y.take n)).length = n := by
          unfold scalUnitary; simp; omega
        have hle : 0 + (scalUnitary beta (y.take n)).length ≤ y.length := by omega
        rw [hs]
        refine ⟨_, rfl, fun k hk => ?_, put_length _ _ _ hle,
          fun _ => ⟨put_length _ _ _ hle, fun p hp => ?_⟩, fun h => by simp at h⟩
        · rw [put_get _ _ _ hle, hlen', if_pos (by rw [place_one]; omega), place_one]
          have := hy k hk
          rw [place_one] at this
          unfold scalUnitary
          rw [List.getElem?_map, show ((k : Int)).toNat - 0 = k by omega,
            List.getElem?_take_of_lt hk]
          rw [show ((k : Int)).toNat = k by omega] at this
          rw [this]; rfl
        · rw [put_get _ _ _ hle, hlen', if_neg]
          rintro ⟨-, h⟩
          exact hp p h (by rw [place_one])
      · rw [if_neg h1]
        obtain ⟨y', he, h3, h4⟩ := scalInc_correct beta y n incY _ hy hsy hn (by omega)
        exact ⟨y', he, h3, h4.1, fun _ => h4, fun h => by simp at h⟩

theorem gemvT_all (zero : R) (isZero : R → Bool) (m n : Nat) (alpha beta : R) (a : List R)
    (lda : Nat) (x y : List R) (incX incY : Int) (av : Nat → Nat → R) (xv yv : Nat → R)
    (ha : HoldsMatrix a m n lda av) (hx : Holds x m incX xv) (hy : Holds y n incY yv)
    (hsa : Small a) (hsx : Small x) (hsy : Small y) (hm : m < 2 ^ 63) (hn : n < 2 ^ 63)
    (hX : IsInt incX) (hY : IsInt incY) (hinc : incY ≠ 0 ∨ n ≤ 1) :
    ∃ y', gemvT zero isZero m n alpha a lda x (word incX) beta y (word incY) = some y' ∧
      Holds y' n incY (fun j => sumFrom (if isZero beta then zero else yv j * beta) m
        fun i => alpha * xv i * av i j) ∧
      y'.length = y.length ∧
      ((isZero beta = true → incY = 1 → n = y.length) → SameElsewhere y y' n incY) ∧
      (isZero beta = true → incY = 1 → ∀ p, n ≤ p → p < y.length → y'[p]? = some zero) := by
  have hlen : incY = 1 → n ≤ y.length := by
    rintro rfl
    rcases Nat.eq_zero_or_pos n with h0 | h0
    · omega
    · have := (List.getElem?_eq_some_iff.1 (hy (n - 1) (by omega))).1
      rw [place_one] at this; omega
  obtain ⟨y1, he1, hv1, hl1, hs1, hc1⟩ :=
    gemvTScale_correct zero isZero n beta y incY yv hy hsy hn hY hinc hlen
  have hsy1 : Small y1 := by unfold Small; rw [hl1]; exact hsy
  unfold gemvT
  simp only [he1, Option.bind_eq_bind, Option.bind_some, word_eq_one hX, word_eq_one hY]
  have key : ∃ y', (if incX = 1 ∧ incY = 1 then gemvTRows n alpha a lda x m 0 y1
      else gemvTRowsInc n alpha a lda x (word incX) (word incY) (start n (word incY)) m 0
        (start m (word incX)) y1) = some y' ∧
      Upd y1 y' 0 n (fun j => word (place n incY j)) (fun j =>
        sumFrom (if isZero beta then zero else yv j * beta) m fun i => alpha * xv i * av i j) := by
    by_cases h1 : incX = 1 ∧ incY = 1
    · obtain ⟨rfl, rfl⟩ := h1
      rw [if_pos ⟨rfl, rfl⟩]
      obtain ⟨y', he, hu⟩ := gemvTRows_upd n alpha a lda x m av xv ha hsa
        (fun j hj => by simpa [place_one] using hx j hj) m 0 y1
        (fun j => if isZero beta then zero else yv j * beta) (by omega)
        (fun j hj => by simpa [place_one] using hv1 j hj)
      refine ⟨y', he, hu.len, fun j _ hj => ?_, fun p hp => hu.old p fun j _ hj => ?_⟩
      · beta_reduce
        rw [place_one, word_nat (by omega)]
        have := hu.new j (by omega) hj
        simpa using this
      · have := hp j (by omega) hj
        beta_reduce at this
        rw [place_one, word_nat (by omega)] at this
        exact this
    · rw [if_neg h1]
      rcases Nat.eq_zero_or_pos m with h0 | h0
      · subst h0
        exact ⟨y1, rfl, Upd.refl fun j hj => holds_word hv1 hsy1 hj⟩
      · obtain ⟨y', he, hu⟩ := gemvTRowsInc_upd n alpha a lda x (word incX) (word incY)
          (start n (word incY)) m av xv (fun j => word (place m incX j))
          (fun j => word (place n incY j)) (word_place_succ m incX) (word_place_succ n incY) ha hsa
          (fun j hj => holds_word hx hsx hj) hn (fun h => start_eq hY h hn)
          (fun j l h2 h3 => word_place_ne hy hsy hinc h2 h3) m 0 y1
          (fun j => if isZero beta then zero else yv j * beta) (by omega)
          (fun j hj => holds_word hv1 hsy1 hj)
        rw [start_eq hX h0 hm]
        refine ⟨y', he, hu.congr fun j _ _ => ?_⟩
        simp
  obtain ⟨y', he, hu⟩ := key
  have hh := hu.holds hv1 hsy1
  refine ⟨y', he, hh.1, by rw [hh.2.1, hl1], fun h => (hs1 h).trans hh.2, fun h1 h2 p hp hp' => ?_⟩
  rw [hh.2.2 p (fun k hk => by subst h2; rw [place_one]; omega)]
  exact hc1 h1 h2 p hp'

/-- `GemvT` leaves `alpha * Aᵀ * x + beta * y` in `y`, for every row stride and all increments.  It
touches no other element, unless `beta` is zero, the increment of `y` is 1 and `y` is longer than
`n` (`gemvT_clears`). -/
theorem gemvT_correct_partial (zero : R) (isZero : R → Bool) (m n : Nat) (alpha beta : R)
    (a : List R) (lda : Nat) (x y : List R) (incX incY : Int) (av : Nat → Nat → R) (xv yv : Nat → R)
    (ha : HoldsMatrix a m n lda av) (hx : Holds x m incX xv) (hy : Holds y n incY yv)
    (hsa : Small a) (hsx : Small x) (hsy : Small y) (hm : m < 2 ^ 63) (hn : n < 2 ^ 63)
    (hX : IsInt incX) (hY : IsInt incY) (hinc : incY ≠ 0 ∨ n ≤ 1) :
    ∃ y', gemvT zero isZero m n alpha a lda x (word incX) beta y (word incY) = some y' ∧
      Holds y' n incY (fun j => sumFrom (if isZero beta then zero else yv j * beta) m
        fun i => alpha * xv i * av i j) ∧
      y'.length = y.length ∧
      ((isZero beta = true → incY = 1 → n = y.length) → SameElsewhere y y' n incY) := by
  obtain ⟨y', h1, h2, h3, h4, -⟩ := gemvT_all zero isZero m n alpha beta a lda x y incX incY av xv yv
    ha hx hy hsa hsx hsy hm hn hX hY hinc
  exact ⟨y', h1, h2, h3, h4⟩

/-- `GemvT` with a zero `beta` and an increment of 1 also clears what lies behind the `n` elements of
`y` (asm64/ge_noasm.go:95-98); with another increment, or another `beta`, it does not. -/
theorem gemvT_clears (zero : R) (isZero : R → Bool) (m n : Nat) (alpha beta : R)
    (a : List R) (lda : Nat) (x y : List R) (incX : Int) (av : Nat → Nat → R) (xv yv : Nat → R)
    (ha : HoldsMatrix a m n lda av) (hx : Holds x m incX xv) (hy : Holds y n 1 yv)
    (hsa : Small a) (hsx : Small x) (hsy : Small y) (hm : m < 2 ^ 63) (hn : n < 2 ^ 63)
    (hX : IsInt incX) (hz : isZero beta = true) (p : Nat) (hp : n ≤ p) (hp' : p < y.length)
    (hne : y[p]? ≠ some zero) :
    ∃ y', gemvT zero isZero m n alpha a lda x (word incX) beta y 1 = some y' ∧
      y'[p]? = some zero ∧ ¬ SameElsewhere y y' n 1 := by
  obtain ⟨y', h1, -, -, -, h5⟩ := gemvT_all zero isZero m n alpha beta a lda x y incX 1 av xv yv
    ha hx hy hsa hsx hsy hm hn hX ⟨by norm_num, by norm_num⟩ (Or.inl one_ne_zero)
  rw [word_one] at h1
  have h6 := h5 hz rfl p hp hp'
  refine ⟨y', h1, h6, fun h => hne ?_⟩
  rw [← h.2 p (fun k hk => by rw [place_one]; omega), h6]

end

/-! ### Ger -/

section
variable [Add R] [Mul R]

/-- After the rows from `i` on have been treated. -/
structure RowsUpd (a a' : List R) (i k n lda : Nat) (v : Nat → Nat → R) : Prop where
  len : a'.length = a.length
  new : ∀ r j, i ≤ r → r < i + k → j < n → a'[lda * r + j]? = some (v r j)
  old : ∀ p, (∀ r j, i ≤ r → r < i + k → j < n → p ≠ lda * r + j) → a'[p]? = a[p]?

theorem rows_apart {n lda i r j l : Nat} (hlda : n ≤ lda) (hir : i < r) (hj : j < n) (hl : l < n) :
    lda * i + j ≠ lda * r + l := by
  have : lda * (i + 1) ≤ lda * r := Nat.mul_le_mul_left _ hir
  rw [Nat.mul_add] at this
  omega

theorem RowsUpd.cons {a a' row : List R} {i k n lda : Nat} {v : Nat → Nat → R}
    (hlda : n ≤ lda ∨ k = 0) (hl : lda * i + n ≤ a.length) (hr : row.length = n)
    (hv : ∀ j, j < n → row[j]? = some (v i j))
    (h : RowsUpd (put a (lda * i) row) a' (i + 1) k n lda v) : RowsUpd a a' i (k + 1) n lda v := by
  have hle : lda * i + row.length ≤ a.length := by omega
  refine ⟨by rw [h.len, put_length _ _ _ hle], fun r j h1 h2 hj => ?_, fun p hp => ?_⟩
  · by_cases e : r = i
    · subst e
      rw [h.old _ (fun r' j' h3 h4 hj' => by
        rcases hlda with hlda | hlda
        · exact rows_apart hlda (by omega) hj hj'
        · omega), put_get _ _ _ hle, if_pos (by omega),
        show lda * r + j - lda * r = j by omega]
      exact hv j hj
    · exact h.new r j (by omega) (by omega) hj
  · rw [h.old p (fun r j h1 h2 hj => hp r j (by omega) (by omega) hj), put_get _ _ _ hle, if_neg]
    rintro ⟨h1, h2⟩
    exact hp i (p - lda * i) le_rfl (by omega) (by omega) (by omega)

/-- What one row needs of the matrix, after the earlier rows have been treated. -/
theorem put_holds {a row : List R} {i k n lda : Nat} {av : Nat → Nat → R} (hlda : n ≤ lda ∨ k = 0)
    (hlen : ∀ r, i ≤ r → r < i + (k + 1) → lda * r + n ≤ a.length) (hr : row.length = n)
    (ha : ∀ r j, i ≤ r → r < i + (k + 1) → j < n → a[lda * r + j]? = some (av r j)) :
    (∀ r, i + 1 ≤ r → r < i + 1 + k → lda * r + n ≤ (put a (lda * i) row).length) ∧
    ∀ r j, i + 1 ≤ r → r < i + 1 + k → j < n → (put a (lda * i) row)[lda * r + j]? = some (av r j) := by
  have hle : lda * i + row.length ≤ a.length := by
    have := hlen i le_rfl (by omega); omega
  refine ⟨fun r h1 h2 => by rw [put_length _ _ _ hle]; exact hlen r (by omega) (by omega),
    fun r j h1 h2 hj => ?_⟩
  rw [put_get _ _ _ hle, if_neg, ha r j (by omega) (by omega) hj]
  rintro ⟨h3, h4⟩
  rcases hlda with hlda | hlda
  · exact rows_apart (j := lda * r + j - lda * i) hlda (show i < r by omega) (by omega) hj (by omega)
  · omega

theorem row_ok {a : List R} {i n lda : Nat} {av : Nat → R} (hs : Small a)
    (hlen : lda * i + n ≤ a.length) (ha : ∀ j, j < n → a[lda * i + j]? = some (av j)) :
    mul i lda = lda * i ∧ ∃ row, slice a (lda * i) (add (lda * i) n) = some row ∧ row.length = n ∧
      ∀ j, j < n → row[j]? = some (av j) := by
  unfold Small at hs
  refine ⟨by unfold mul; rw [Nat.mul_comm]; exact Nat.mod_eq_of_lt (by omega), ?_⟩
  rw [add_small (by omega)]
  refine ⟨(a.drop (lda * i)).take n, ?_, ?_, fun j hj => ?_⟩
  · unfold slice
    rw [if_pos ⟨by omega, hlen⟩, show lda * i + n - lda * i = n by omega]
  · simp; omega
  · rw [List.getElem?_take_of_lt hj, List.getElem?_drop]
    exact ha j hj

theorem gerRows_upd (n lda : Nat) (alpha : R) (y : List R) (xv yv : Nat → R) (hyl : y.length = n)
    (hy : ∀ j, j < n → y[j]? = some (yv j)) :
    ∀ (x : List R) (i : Nat) (a : List R) (av : Nat → Nat → R), Small a → (n ≤ lda ∨ x.length ≤ 1) →
      (∀ j, j < x.length → x[j]? = some (xv (i + j))) →
      (∀ r, i ≤ r → r < i + x.length → lda * r + n ≤ a.length) →
      (∀ r j, i ≤ r → r < i + x.length → j < n → a[lda * r + j]? = some (av r j)) →
      ∃ a', gerRows n lda alpha y x i a = some a' ∧
        RowsUpd a a' i x.length n lda (fun r j => av r j + alpha * xv r * yv j)
  | [], i, a, av, _, _, _, _, _ => ⟨a, rfl, rfl, fun r j h1 h2 => by simp at h2; omega, fun _ _ => rfl⟩
  | v :: x, i, a, av, hs, hlda, hx, hlen, ha => by
    have hv : v = xv i := by simpa using hx 0 (by simp)
    have hL := hlen i le_rfl (by simp)
    obtain ⟨hw, row, hr, hrl, hrv⟩ := row_ok (av := av i) hs hL
      (fun j hj => ha i j le_rfl (by simp) hj)
    obtain ⟨row', he, hu⟩ := axpyUnitary_upd (alpha * xv i) yv (av i) y 0 row
      (fun j hj => by rw [hy j (by omega)]; simp) (fun j _ hj => hrv j (by omega))
    have hrl' : row'.length = n := by rw [hu.len, hrl]
    have hlda' : n ≤ lda ∨ x.length = 0 := by simp only [List.length_cons] at hlda; omega
    obtain ⟨hp1, hp2⟩ := put_holds (k := x.length) hlda' (fun r h1 h2 => hlen r h1 (by simpa using h2))
      hrl' (fun r j h1 h2 hj => ha r j h1 (by simpa using h2) hj)
    obtain ⟨a', he', hu'⟩ := gerRows_upd n lda alpha y xv yv hyl hy x (i + 1) (put a (lda * i) row')
      av (by unfold Small; rw [put_length _ _ _ (by omega)]; exact hs) (by omega)
      (fun j hj => by
        have := hx (j + 1) (by simpa using hj)
        rw [show i + 1 + j = i + (j + 1) by omega]; simpa using this) hp1 hp2
    refine ⟨a', ?_, RowsUpd.cons hlda' hL hrl'
      (fun j hj => by have := hu.new j (by omega) (by omega); simpa using this) hu'⟩
    simp only [gerRows, hw, hr, hv, he, Option.bind_eq_bind, Option.bind_some]
    exact he'

theorem gerRowsInc_upd (n lda : Nat) (alpha : R) (x y : List R) (incX : Nat) (incY : Int) (ky : Nat)
    (xv yv : Nat → R) (F : Nat → Nat) (hF : ∀ j, add (F j) incX = F (j + 1))
    (hy : Holds y n incY yv) (hsy : Small y) (hn : n < 2 ^ 63)
    (hk : 0 < n → ky = word (place n incY 0)) :
    ∀ (k i : Nat) (a : List R) (av : Nat → Nat → R), Small a → (n ≤ lda ∨ k ≤ 1) →
      (∀ j, i ≤ j → j < i + k → x[F j]? = some (xv j)) →
      (∀ r, i ≤ r → r < i + k → lda * r + n ≤ a.length) →
      (∀ r j, i ≤ r → r < i + k → j < n → a[lda * r + j]? = some (av r j)) →
      ∃ a', gerRowsInc n lda alpha x y incX (word incY) ky k i (F i) a = some a' ∧
        RowsUpd a a' i k n lda (fun r j => av r j + alpha * xv r * yv j)
  | 0, i, a, av, _, _, _, _, _ => ⟨a, rfl, rfl, fun r j h1 h2 => by omega, fun _ _ => rfl⟩
  | k + 1, i, a, av, hs, hlda, hx, hlen, ha => by
    have hL := hlen i le_rfl (by omega)
    obtain ⟨hw, row, hr, hrl, hrv⟩ := row_ok (av := av i) hs hL
      (fun j hj => ha i j le_rfl (by omega) hj)
    have h1 : ∃ row', axpyInc (alpha * xv i) y (word incY) 1 (rounds n) ky 0 row = some row' ∧
        Upd row row' 0 n (fun j => word (j : Int)) (fun j => av i j + alpha * xv i * yv j) := by
      rw [rounds_nat hn]
      rcases Nat.eq_zero_or_pos n with h0 | h0
      · subst h0; exact ⟨row, rfl, Upd.nil row 0 _ _⟩
      · rw [hk h0]
        exact axpyInc_upd (alpha * xv i) y (word incY) 1 (fun j => word (place n incY j))
          (fun j => word (j : Int)) yv (av i) (word_place_succ n incY) word_step n 0 row
          (fun j _ hj => holds_word hy hsy (by omega))
          (fun j _ hj => by rw [word_nat (by omega)]; exact hrv j (by omega))
          (fun j l _ h2 h3 => by rw [word_nat (by omega), word_nat (by omega)]; omega)
    obtain ⟨row', he, hu⟩ := h1
    have hrl' : row'.length = n := by rw [hu.len, hrl]
    have hlda' : n ≤ lda ∨ k = 0 := by omega
    obtain ⟨hp1, hp2⟩ := put_holds (k := k) hlda' hlen hrl' ha
    obtain ⟨a', he', hu'⟩ := gerRowsInc_upd n lda alpha x y incX incY ky xv yv F hF hy hsy hn hk k
      (i + 1) (put a (lda * i) row')
      av (by unfold Small; rw [put_length _ _ _ (by omega)]; exact hs) (by omega)
      (fun j h1 h2 => hx j (by omega) (by omega)) hp1 hp2
    refine ⟨a', ?_, RowsUpd.cons hlda' hL hrl'
      (fun j hj => by
        have := hu.new j (by omega) (by omega)
        beta_reduce at this
        rw [word_nat (by omega)] at this
        exact this) hu'⟩
    simp only [gerRowsInc, hw, hr, hx i le_rfl (by omega), he, hF, Option.bind_eq_bind,
      Option.bind_some]
    exact he'

/-- `Ger` adds `alpha * x * yᵀ` to the matrix, for all increments and every row stride that keeps the
rows apart, and touches no element outside the matrix; whatever the arithmetic. -/
theorem ger_correct (m n : Nat) (alpha : R) (x y a : List R) (incX incY : Int) (lda : Nat)
    (xv yv : Nat → R) (av : Nat → Nat → R) (hx : Holds x m incX xv) (hy : Holds y n incY yv)
    (ha : HoldsMatrix a m n lda av) (hsx : Small x) (hsy : Small y) (hsa : Small a)
    (hm : m < 2 ^ 63) (hn : n < 2 ^ 63) (hX : IsInt incX) (hY : IsInt incY)
    (hlda : n ≤ lda ∨ m ≤ 1) :
    ∃ a', ger m n alpha x (word incX) y (word incY) a lda = some a' ∧
      HoldsMatrix a' m n lda (fun i j => av i j + alpha * xv i * yv j) ∧
      a'.length = a.length ∧
      ∀ p, (∀ i j, i < m → j < n → p ≠ lda * i + j) → a'[p]? = a[p]? := by
  have fin : ∀ a', RowsUpd a a' 0 m n lda (fun i j => av i j + alpha * xv i * yv j) →
      HoldsMatrix a' m n lda (fun i j => av i j + alpha * xv i * yv j) ∧
      a'.length = a.length ∧
      ∀ p, (∀ i j, i < m → j < n → p ≠ lda * i + j) → a'[p]? = a[p]? := by
    intro a' h
    exact ⟨⟨fun i hi => by rw [h.len]; exact ha.1 i hi,
      fun i j hi hj => h.new i j (by omega) (by omega) hj⟩, h.len,
      fun p hp => h.old p fun r j _ h2 hj => hp r j (by omega) hj⟩
  unfold ger
  simp only [word_eq_one hX, word_eq_one hY]
  by_cases h1 : incX = 1 ∧ incY = 1
  · obtain ⟨rfl, rfl⟩ := h1
    rw [if_pos ⟨rfl, rfl⟩]
    have sl : ∀ (z : List R) (k : Nat) (zv : Nat → R), Holds z k 1 zv →
        slice z 0 k = some (z.take k) ∧ (z.take k).length = k ∧
          ∀ j, j < k → (z.take k)[j]? = some (zv j) := by
      intro z k zv hz
      have hl : k ≤ z.length := by
        rcases Nat.eq_zero_or_pos k with h0 | h0
        · omega
        · have := (List.getElem?_eq_some_iff.1 (hz (k - 1) (by omega))).1
          rw [place_one] at this; omega
      refine ⟨by unfold slice; rw [if_pos ⟨by omega, hl⟩]; simp, by simp; omega, fun j hj => ?_⟩
      rw [List.getElem?_take_of_lt hj]
      simpa [place_one] using hz j hj
    obtain ⟨e1, l1, v1⟩ := sl x m xv hx
    obtain ⟨e2, l2, v2⟩ := sl y n yv hy
    obtain ⟨a', he, hu⟩ := gerRows_upd n lda alpha (y.take n) xv yv l2 v2 (x.take m) 0 a av hsa
      (by omega) (fun j hj => by rw [v1 j (by omega)]; simp)
      (fun r _ h2 => ha.1 r (by omega)) (fun r j _ h2 hj => ha.2 r j (by omega) hj)
    rw [l1] at hu
    refine ⟨a', ?_, fin a' hu⟩
    simp only [e1, e2, Option.bind_eq_bind, Option.bind_some]
    exact he
  · rw [if_neg h1]
    rcases Nat.eq_zero_or_pos m with h0 | h0
    · subst h0
      exact ⟨a, by rw [rounds_nat hm]; rfl, fin a ⟨rfl, fun r j h1 h2 => by omega, fun _ _ => rfl⟩⟩
    · obtain ⟨a', he, hu⟩ := gerRowsInc_upd n lda alpha x y (word incX) incY (start n (word incY))
        xv yv (fun j => word (place m incX j)) (word_place_succ m incX) hy hsy hn
        (fun h => start_eq hY h hn) m 0 a av hsa hlda
        (fun j _ hj => holds_word hx hsx (by omega))
        (fun r _ h2 => ha.1 r (by omega)) (fun r j _ h2 hj => ha.2 r j (by omega) hj)
      rw [rounds_nat hm, start_eq hX h0 hm]
      exact ⟨a', he, fin a' hu⟩

end

end Verif.Strided
