/-
The portable vector routines with increments.
-/
import Verif.Model.Strided
import Verif.Spec.Strided
import Mathlib.Algebra.Group.Defs
import Mathlib.Algebra.Order.Ring.Int
import Mathlib.Tactic.Ring
import Mathlib.Tactic.Linarith
import Mathlib.Tactic.Push
import Mathlib.Data.Int.ModEq
set_option autoImplicit false
set_option linter.unusedSimpArgs false

namespace Verif.Strided

variable {R : Type}

/-! ### Words -/

theorem word_add (p q : Int) : word (p + q) = add (word p) (word q) := by
  unfold word add
  have h1 : 0 ≤ p % 2 ^ 64 := Int.emod_nonneg _ (by norm_num)
  have h2 : 0 ≤ q % 2 ^ 64 := Int.emod_nonneg _ (by norm_num)
  have h3 : 0 ≤ (p + q) % 2 ^ 64 := Int.emod_nonneg _ (by norm_num)
  omega

theorem word_nat {p : Nat} (h : p < 2 ^ 64) : word (p : Int) = p := by
  unfold word; omega

theorem word_pos {p : Int} (h0 : 0 ≤ p) (h : p < 2 ^ 63) : word p = p.toNat := by
  unfold word; omega

theorem int_word {i : Int} (h : IsInt i) : int (word i) = i := by
  obtain ⟨h1, h2⟩ := h
  unfold int word
  have h3 : 0 ≤ i % 2 ^ 64 := Int.emod_nonneg _ (by norm_num)
  split <;> omega

theorem word_eq_one {i : Int} (h : IsInt i) : word i = 1 ↔ i = 1 := by
  obtain ⟨h1, h2⟩ := h
  unfold word
  have h3 : 0 ≤ i % 2 ^ 64 := Int.emod_nonneg _ (by norm_num)
  omega

theorem word_one : word 1 = 1 := by decide

theorem rounds_nat {n : Nat} (h : n < 2 ^ 63) : rounds n = n := by
  unfold rounds int; rw [if_pos h]; omega

theorem mul_small {a b : Nat} (h : a * b < 2 ^ 63) : mul a b = a * b := by
  unfold mul; exact Nat.mod_eq_of_lt (by omega)

theorem add_small {a b : Nat} (h : a + b < 2 ^ 64) : add a b = a + b := by
  unfold add; exact Nat.mod_eq_of_lt h

/-! ### Places -/

theorem place_eq (n : Nat) (inc : Int) (k : Nat) : place n inc k = place n inc 0 + k * inc := by
  unfold place; split <;> push_cast <;> ring

theorem place_succ (n : Nat) (inc : Int) (k : Nat) : place n inc (k + 1) = place n inc k + inc := by
  rw [place_eq n inc (k + 1), place_eq n inc k]; push_cast; ring

theorem place_nonneg {n : Nat} (inc : Int) {k : Nat} (h : k < n) : 0 ≤ place n inc k := by
  unfold place
  split
  · exact mul_nonneg (by omega) (by omega)
  · exact mul_nonneg (by omega) (by omega)

theorem place_one (n k : Nat) : place n 1 k = k := by unfold place; simp

theorem place_inj {n : Nat} {inc : Int} (h : inc ≠ 0 ∨ n ≤ 1) {k l : Nat} (hk : k < n) (hl : l < n)
    (e : place n inc k = place n inc l) : k = l := by
  rcases h with h | h
  · rw [place_eq n inc k, place_eq n inc l] at e
    have : ((k : Int) - l) * inc = 0 := by linarith
    rcases mul_eq_zero.1 this with h' | h'
    · omega
    · exact absurd h' h
  · omega

theorem start_eq {n : Nat} {inc : Int} (hi : IsInt inc) (hn : 0 < n) (hn' : n < 2 ^ 63) :
    start n (word inc) = word (place n inc 0) := by
  unfold start place
  rw [int_word hi]
  have h1 : add n (2 ^ 64 - 1) = n - 1 := by unfold add; omega
  have h2 : int (n - 1) = (n : Int) - 1 := by
    unfold int
    rw [if_pos (by omega)]
    omega
  rw [h1, h2]
  split
  · rw [show -((n : Int) - 1) * inc = ((n : Int) - 1 - (0 : Nat)) * (-inc) by push_cast; ring]
  · rw [show ((0 : Nat) : Int) * inc = ((0 : Nat) : Int) by push_cast; ring, word_nat (by norm_num)]

/-- The word that addresses element `k`. -/
theorem place_word {x : List R} {n : Nat} {inc : Int} {v : Nat → R} (hx : Holds x n inc v)
    (hs : Small x) {k : Nat} (hk : k < n) :
    word (place n inc k) = (place n inc k).toNat := by
  have h := hx k hk
  have := List.getElem?_eq_some_iff.1 h
  obtain ⟨h1, -⟩ := this
  unfold Small at hs
  exact word_pos (place_nonneg inc hk) (by omega)

theorem holds_word {x : List R} {n : Nat} {inc : Int} {v : Nat → R} (hx : Holds x n inc v)
    (hs : Small x) {k : Nat} (hk : k < n) : x[word (place n inc k)]? = some (v k) := by
  rw [place_word hx hs hk]; exact hx k hk

theorem word_place_succ (n : Nat) (inc : Int) (k : Nat) :
    add (word (place n inc k)) (word inc) = word (place n inc (k + 1)) := by
  rw [place_succ, word_add]

/-! ### Updates -/

/-- `y'` is `y` with the elements at `G i`, …, `G (i+k-1)` replaced by `v i`, …. -/
structure Upd (y y' : List R) (i k : Nat) (G : Nat → Nat) (v : Nat → R) : Prop where
  len : y'.length = y.length
  new : ∀ j, i ≤ j → j < i + k → y'[G j]? = some (v j)
  old : ∀ p, (∀ j, i ≤ j → j < i + k → p ≠ G j) → y'[p]? = y[p]?

theorem Upd.nil (y : List R) (i : Nat) (G : Nat → Nat) (v : Nat → R) : Upd y y i 0 G v :=
  ⟨rfl, fun j h1 h2 => by omega, fun _ _ => rfl⟩

theorem Upd.cons {y y' : List R} {i k : Nat} {G : Nat → Nat} {v : Nat → R} {w : R}
    (hw : y[G i]? = some w) (hG : ∀ j, i < j → j < i + (k + 1) → G j ≠ G i)
    (h : Upd (y.set (G i) (v i)) y' (i + 1) k G v) : Upd y y' i (k + 1) G v := by
  have hl : G i < y.length := (List.getElem?_eq_some_iff.1 hw).1
  refine ⟨by rw [h.len, List.length_set], fun j h1 h2 => ?_, fun p hp => ?_⟩
  · by_cases e : j = i
    · subst e
      rw [h.old (G j) (fun l h3 h4 => (hG l (by omega) (by omega)).symm), List.getElem?_set_self hl]
    · exact h.new j (by omega) (by omega)
  · rw [h.old p (fun j h1 h2 => hp j (by omega) (by omega)),
      List.getElem?_set_ne (hp i (by omega) (by omega)).symm]

theorem Upd.congr {y y' : List R} {i k : Nat} {G : Nat → Nat} {v v' : Nat → R}
    (h : Upd y y' i k G v) (e : ∀ j, i ≤ j → j < i + k → v j = v' j) : Upd y y' i k G v' :=
  ⟨h.len, fun j h1 h2 => by rw [h.new j h1 h2, e j h1 h2], h.old⟩

/-- The places of a vector as words, and an update of them. -/
theorem Upd.holds {y y' : List R} {n : Nat} {inc : Int} {v w : Nat → R} (hy : Holds y n inc v)
    (hs : Small y) (h : Upd y y' 0 n (fun k => word (place n inc k)) w) :
    Holds y' n inc w ∧ SameElsewhere y y' n inc := by
  refine ⟨fun k hk => ?_, h.len, fun p hp => ?_⟩
  · rw [← place_word hy hs hk]
    exact h.new k (by omega) (by omega)
  · refine h.old p fun j _ hj e => hp j (by omega) ?_
    rw [place_word hy hs (by omega)] at e
    have := place_nonneg inc (show j < n by omega)
    omega

theorem word_place_ne {y : List R} {n : Nat} {inc : Int} {v : Nat → R} (hy : Holds y n inc v)
    (hs : Small y) (hinc : inc ≠ 0 ∨ n ≤ 1) {j i : Nat} (hij : i < j) (hj : j < n) :
    word (place n inc j) ≠ word (place n inc i) := by
  rw [place_word hy hs hj, place_word hy hs (by omega)]
  intro e
  have h1 := place_nonneg inc hj
  have h2 := place_nonneg inc (show i < n by omega)
  have := place_inj hinc hj (show i < n by omega) (by omega)
  omega

/-! ### The loops -/

section
variable [Add R] [Mul R]

theorem axpyInc_upd (alpha : R) (x : List R) (incX incY : Nat) (F G : Nat → Nat) (xv yv : Nat → R)
    (hF : ∀ j, add (F j) incX = F (j + 1)) (hG : ∀ j, add (G j) incY = G (j + 1)) :
    ∀ (k i : Nat) (y : List R),
      (∀ j, i ≤ j → j < i + k → x[F j]? = some (xv j)) →
      (∀ j, i ≤ j → j < i + k → y[G j]? = some (yv j)) →
      (∀ j l, i ≤ l → l < j → j < i + k → G j ≠ G l) →
      ∃ y', axpyInc alpha x incX incY k (F i) (G i) y = some y' ∧
        Upd y y' i k G (fun j => yv j + alpha * xv j)
  | 0, i, y, _, _, _ => ⟨y, rfl, Upd.nil y i G _⟩
  | k + 1, i, y, hx, hy, hd => by
    have hxi := hx i le_rfl (by omega)
    have hyi := hy i le_rfl (by omega)
    obtain ⟨y', he, hu⟩ := axpyInc_upd alpha x incX incY F G xv yv hF hG k (i + 1)
      (y.set (G i) (yv i + alpha * xv i)) (fun j h1 h2 => hx j (by omega) (by omega))
      (fun j h1 h2 => by
        rw [List.getElem?_set_ne (hd j i le_rfl (by omega) (by omega)).symm]
        exact hy j (by omega) (by omega))
      (fun j l h1 h2 h3 => hd j l (by omega) h2 (by omega))
    refine ⟨y', ?_, Upd.cons hyi (fun j h1 h2 => hd j i le_rfl h1 (by omega)) hu⟩
    simp only [axpyInc, hxi, hyi, hF, hG, Option.bind_eq_bind, Option.bind_some]
    exact he

theorem axpyIncTo_upd (alpha : R) (x y : List R) (incX incY incD : Nat) (F G H : Nat → Nat)
    (xv yv dv : Nat → R) (hF : ∀ j, add (F j) incX = F (j + 1))
    (hG : ∀ j, add (G j) incY = G (j + 1)) (hH : ∀ j, add (H j) incD = H (j + 1)) :
    ∀ (k i : Nat) (d : List R),
      (∀ j, i ≤ j → j < i + k → x[F j]? = some (xv j)) →
      (∀ j, i ≤ j → j < i + k → y[G j]? = some (yv j)) →
      (∀ j, i ≤ j → j < i + k → d[H j]? = some (dv j)) →
      (∀ j l, i ≤ l → l < j → j < i + k → H j ≠ H l) →
      ∃ d', axpyIncTo alpha x y incX incY incD k (F i) (G i) (H i) d = some d' ∧
        Upd d d' i k H (fun j => alpha * xv j + yv j)
  | 0, i, d, _, _, _, _ => ⟨d, rfl, Upd.nil d i H _⟩
  | k + 1, i, d, hx, hy, hz, hd => by
    have hxi := hx i le_rfl (by omega)
    have hyi := hy i le_rfl (by omega)
    have hzi := hz i le_rfl (by omega)
    obtain ⟨d', he, hu⟩ := axpyIncTo_upd alpha x y incX incY incD F G H xv yv dv hF hG hH k (i + 1)
      (d.set (H i) (alpha * xv i + yv i)) (fun j h1 h2 => hx j (by omega) (by omega))
      (fun j h1 h2 => hy j (by omega) (by omega))
      (fun j h1 h2 => by
        rw [List.getElem?_set_ne (hd j i le_rfl (by omega) (by omega)).symm]
        exact hz j (by omega) (by omega))
      (fun j l h1 h2 h3 => hd j l (by omega) h2 (by omega))
    refine ⟨d', ?_, Upd.cons hzi (fun j h1 h2 => hd j i le_rfl h1 (by omega)) hu⟩
    simp only [axpyIncTo, hxi, hyi, hzi, hF, hG, hH, Option.bind_eq_bind, Option.bind_some]
    exact he

theorem scalInc_upd (alpha : R) (inc : Nat) (G : Nat → Nat) (yv : Nat → R)
    (hG : ∀ j, add (G j) inc = G (j + 1)) :
    ∀ (k i : Nat) (y : List R),
      (∀ j, i ≤ j → j < i + k → y[G j]? = some (yv j)) →
      (∀ j l, i ≤ l → l < j → j < i + k → G j ≠ G l) →
      ∃ y', scalInc alpha inc k (G i) y = some y' ∧ Upd y y' i k G (fun j => yv j * alpha)
  | 0, i, y, _, _ => ⟨y, rfl, Upd.nil y i G _⟩
  | k + 1, i, y, hy, hd => by
    have hyi := hy i le_rfl (by omega)
    obtain ⟨y', he, hu⟩ := scalInc_upd alpha inc G yv hG k (i + 1)
      (y.set (G i) (yv i * alpha))
      (fun j h1 h2 => by
        rw [List.getElem?_set_ne (hd j i le_rfl (by omega) (by omega)).symm]
        exact hy j (by omega) (by omega))
      (fun j l h1 h2 h3 => hd j l (by omega) h2 (by omega))
    refine ⟨y', ?_, Upd.cons hyi (fun j h1 h2 => hd j i le_rfl h1 (by omega)) hu⟩
    simp only [scalInc, hyi, hG, Option.bind_eq_bind, Option.bind_some]
    exact he

theorem scalIncTo_upd (alpha : R) (x : List R) (incX incD : Nat) (F H : Nat → Nat)
    (xv dv : Nat → R) (hF : ∀ j, add (F j) incX = F (j + 1))
    (hH : ∀ j, add (H j) incD = H (j + 1)) :
    ∀ (k i : Nat) (d : List R),
      (∀ j, i ≤ j → j < i + k → x[F j]? = some (xv j)) →
      (∀ j, i ≤ j → j < i + k → d[H j]? = some (dv j)) →
      (∀ j l, i ≤ l → l < j → j < i + k → H j ≠ H l) →
      ∃ d', scalIncTo alpha x incX incD k (F i) (H i) d = some d' ∧
        Upd d d' i k H (fun j => alpha * xv j)
  | 0, i, d, _, _, _ => ⟨d, rfl, Upd.nil d i H _⟩
  | k + 1, i, d, hx, hz, hd => by
    have hxi := hx i le_rfl (by omega)
    have hzi := hz i le_rfl (by omega)
    obtain ⟨d', he, hu⟩ := scalIncTo_upd alpha x incX incD F H xv dv hF hH k (i + 1)
      (d.set (H i) (alpha * xv i)) (fun j h1 h2 => hx j (by omega) (by omega))
      (fun j h1 h2 => by
        rw [List.getElem?_set_ne (hd j i le_rfl (by omega) (by omega)).symm]
        exact hz j (by omega) (by omega))
      (fun j l h1 h2 h3 => hd j l (by omega) h2 (by omega))
    refine ⟨d', ?_, Upd.cons hzi (fun j h1 h2 => hd j i le_rfl h1 (by omega)) hu⟩
    simp only [scalIncTo, hxi, hzi, hF, hH, Option.bind_eq_bind, Option.bind_some]
    exact he

theorem clearInc_upd (zero : R) (inc : Nat) (G : Nat → Nat) (yv : Nat → R)
    (hG : ∀ j, add (G j) inc = G (j + 1)) :
    ∀ (k i : Nat) (y : List R),
      (∀ j, i ≤ j → j < i + k → y[G j]? = some (yv j)) →
      (∀ j l, i ≤ l → l < j → j < i + k → G j ≠ G l) →
      ∃ y', clearInc zero inc k (G i) y = some y' ∧ Upd y y' i k G (fun _ => zero)
  | 0, i, y, _, _ => ⟨y, rfl, Upd.nil y i G _⟩
  | k + 1, i, y, hy, hd => by
    have hyi := hy i le_rfl (by omega)
    obtain ⟨y', he, hu⟩ := clearInc_upd zero inc G yv hG k (i + 1)
      (y.set (G i) zero)
      (fun j h1 h2 => by
        rw [List.getElem?_set_ne (hd j i le_rfl (by omega) (by omega)).symm]
        exact hy j (by omega) (by omega))
      (fun j l h1 h2 h3 => hd j l (by omega) h2 (by omega))
    refine ⟨y', ?_, Upd.cons hyi (fun j h1 h2 => hd j i le_rfl h1 (by omega)) hu⟩
    simp only [clearInc, hyi, hG, Option.bind_eq_bind, Option.bind_some]
    exact he

/-- The loops over the elements of a list. -/
theorem axpyUnitary_upd (alpha : R) (xv yv : Nat → R) :
    ∀ (x : List R) (i : Nat) (y : List R),
      (∀ j, j < x.length → x[j]? = some (xv (i + j))) →
      (∀ j, i ≤ j → j < i + x.length → y[j]? = some (yv j)) →
      ∃ y', axpyUnitary alpha x i y = some y' ∧
        Upd y y' i x.length id (fun j => yv j + alpha * xv j)
  | [], i, y, _, _ => ⟨y, rfl, Upd.nil y i id _⟩
  | v :: x, i, y, hx, hy => by
    have hv : v = xv i := by simpa using hx 0 (by simp)
    have hyi := hy i le_rfl (by simp)
    obtain ⟨y', he, hu⟩ := axpyUnitary_upd alpha xv yv x (i + 1) (y.set i (yv i + alpha * xv i))
      (fun j hj => by
        have := hx (j + 1) (by simpa using hj)
        rw [show i + 1 + j = i + (j + 1) by omega]; simpa using this)
      (fun j h1 h2 => by
        rw [List.getElem?_set_ne (by omega)]
        exact hy j (by omega) (by simp; omega))
    refine ⟨y', ?_, Upd.cons (G := id) hyi (fun j h1 h2 => by simp; omega) hu⟩
    simp only [axpyUnitary, hyi, hv, Option.bind_eq_bind, Option.bind_some]
    exact he

theorem axpyUnitaryTo_upd (alpha : R) (xv yv : Nat → R) :
    ∀ (x : List R) (i : Nat) (y : List R),
      (∀ j, j < x.length → x[j]? = some (xv (i + j))) →
      (∀ j, i ≤ j → j < i + x.length → y[j]? = some (yv j)) →
      ∃ y', axpyUnitaryTo alpha x i y = some y' ∧
        Upd y y' i x.length id (fun j => alpha * xv j + yv j)
  | [], i, y, _, _ => ⟨y, rfl, Upd.nil y i id _⟩
  | v :: x, i, y, hx, hy => by
    have hv : v = xv i := by simpa using hx 0 (by simp)
    have hyi := hy i le_rfl (by simp)
    obtain ⟨y', he, hu⟩ := axpyUnitaryTo_upd alpha xv yv x (i + 1) (y.set i (alpha * xv i + yv i))
      (fun j hj => by
        have := hx (j + 1) (by simpa using hj)
        rw [show i + 1 + j = i + (j + 1) by omega]; simpa using this)
      (fun j h1 h2 => by
        rw [List.getElem?_set_ne (by omega)]
        exact hy j (by omega) (by simp; omega))
    refine ⟨y', ?_, Upd.cons (G := id) hyi (fun j h1 h2 => by simp; omega) hu⟩
    simp only [axpyUnitaryTo, hyi, hv, Option.bind_eq_bind, Option.bind_some]
    exact he

theorem scalUnitaryTo_upd (alpha : R) (xv dv : Nat → R) :
    ∀ (x : List R) (i : Nat) (d : List R),
      (∀ j, j < x.length → x[j]? = some (xv (i + j))) →
      (∀ j, i ≤ j → j < i + x.length → d[j]? = some (dv j)) →
      ∃ d', scalUnitaryTo alpha x i d = some d' ∧ Upd d d' i x.length id (fun j => alpha * xv j)
  | [], i, d, _, _ => ⟨d, rfl, Upd.nil d i id _⟩
  | v :: x, i, d, hx, hy => by
    have hv : v = xv i := by simpa using hx 0 (by simp)
    have hyi := hy i le_rfl (by simp)
    obtain ⟨d', he, hu⟩ := scalUnitaryTo_upd alpha xv dv x (i + 1) (d.set i (alpha * xv i))
      (fun j hj => by
        have := hx (j + 1) (by simpa using hj)
        rw [show i + 1 + j = i + (j + 1) by omega]; simpa using this)
      (fun j h1 h2 => by
        rw [List.getElem?_set_ne (by omega)]
        exact hy j (by omega) (by simp; omega))
    refine ⟨d', ?_, Upd.cons (G := id) hyi (fun j h1 h2 => by simp; omega) hu⟩
    simp only [scalUnitaryTo, hyi, hv, Option.bind_eq_bind, Option.bind_some]
    exact he

/-- Sums from `i` on. -/
theorem sumFrom_succ (s : R) (n : Nat) (f : Nat → R) :
    sumFrom s (n + 1) f = sumFrom (s + f 0) n (fun k => f (k + 1)) := by
  unfold sumFrom
  rw [List.range_succ_eq_map, List.foldl_cons, List.foldl_map]

theorem dotInc_sum (x y : List R) (incX incY : Nat) (F G : Nat → Nat) (xv yv : Nat → R)
    (hF : ∀ j, add (F j) incX = F (j + 1)) (hG : ∀ j, add (G j) incY = G (j + 1)) :
    ∀ (k i : Nat) (s : R),
      (∀ j, i ≤ j → j < i + k → x[F j]? = some (xv j)) →
      (∀ j, i ≤ j → j < i + k → y[G j]? = some (yv j)) →
      dotInc x y incX incY k (F i) (G i) s = some (sumFrom s k fun j => yv (i + j) * xv (i + j))
  | 0, i, s, _, _ => rfl
  | k + 1, i, s, hx, hy => by
    have hxi := hx i le_rfl (by omega)
    have hyi := hy i le_rfl (by omega)
    simp only [dotInc, hxi, hyi, hF, hG, Option.bind_eq_bind, Option.bind_some]
    rw [dotInc_sum x y incX incY F G xv yv hF hG k (i + 1) _
      (fun j h1 h2 => hx j (by omega) (by omega)) (fun j h1 h2 => hy j (by omega) (by omega)),
      sumFrom_succ]
    simp only [Nat.add_zero, show ∀ j, i + 1 + j = i + (j + 1) by intro j; omega]

theorem dotUnitary_sum (y : List R) (xv yv : Nat → R) :
    ∀ (x : List R) (i : Nat) (s : R),
      (∀ j, j < x.length → x[j]? = some (xv (i + j))) →
      (∀ j, i ≤ j → j < i + x.length → y[j]? = some (yv j)) →
      dotUnitary y x i s = some (sumFrom s x.length fun j => yv (i + j) * xv (i + j))
  | [], i, s, _, _ => rfl
  | v :: x, i, s, hx, hy => by
    have hv : v = xv i := by simpa using hx 0 (by simp)
    have hyi := hy i le_rfl (by simp)
    simp only [dotUnitary, hyi, hv, Option.bind_eq_bind, Option.bind_some]
    rw [dotUnitary_sum y xv yv x (i + 1) _
      (fun j hj => by
        have := hx (j + 1) (by simpa using hj)
        rw [show i + 1 + j = i + (j + 1) by omega]; simpa using this)
      (fun j h1 h2 => hy j (by omega) (by simp; omega)), List.length_cons, sumFrom_succ]
    simp only [Nat.add_zero, show ∀ j, i + 1 + j = i + (j + 1) by intro j; omega]

end


/-! ### Rows of a matrix -/

theorem slice_row {a : List R} {m n lda : Nat} {av : Nat → Nat → R} (ha : HoldsMatrix a m n lda av)
    (hs : Small a) {i : Nat} (hi : i < m) :
    ∃ row, slice a (lda * i) (lda * i + n) = some row ∧ row.length = n ∧
      ∀ j, j < n → row[j]? = some (av i j) := by
  have h1 := ha.1 i hi
  refine ⟨(a.drop (lda * i)).take n, ?_, ?_, fun j hj => ?_⟩
  · unfold slice
    rw [if_pos ⟨by omega, h1⟩, show lda * i + n - lda * i = n by omega]
  · simp; omega
  · rw [List.getElem?_take_of_lt hj, List.getElem?_drop]
    exact ha.2 i j hi hj

theorem words_row {a : List R} {m n lda : Nat} {av : Nat → Nat → R} (ha : HoldsMatrix a m n lda av)
    (hs : Small a) {i : Nat} (hi : i < m) :
    mul lda i = lda * i ∧ add (lda * i) n = lda * i + n := by
  have h1 := ha.1 i hi
  unfold Small at hs
  exact ⟨mul_small (by omega), add_small (by omega)⟩

theorem put_get (a : List R) (lo : Nat) (row : List R) (h : lo + row.length ≤ a.length) (p : Nat) :
    (put a lo row)[p]? =
      if lo ≤ p ∧ p < lo + row.length then row[p - lo]? else a[p]? := by
  unfold put
  have hl : (a.take lo).length = lo := by simp; omega
  rw [List.append_assoc]
  by_cases h1 : p < lo
  · rw [List.getElem?_append_left (by omega), List.getElem?_take_of_lt h1, if_neg (by omega)]
  · rw [List.getElem?_append_right (by omega), hl]
    by_cases h2 : p < lo + row.length
    · rw [List.getElem?_append_left (by omega), if_pos (by omega)]
    · rw [List.getElem?_append_right (by omega), List.getElem?_drop, if_neg (by omega)]
      congr 1; omega

theorem put_length (a : List R) (lo : Nat) (row : List R) (h : lo + row.length ≤ a.length) :
    (put a lo row).length = a.length := by
  unfold put; simp; omega

/-- Steps of 1 through words. -/
theorem word_step (j : Nat) : add (word ((j : Nat) : Int)) 1 = word ((j + 1 : Nat) : Int) := by
  rw [← word_one, ← word_add]; push_cast; rfl

section
variable [Add R] [Mul R]

theorem gemvNRows_upd (zero : R) (isZero : R → Bool) (n : Nat) (alpha : R) (a : List R) (lda : Nat)
    (x : List R) (beta : R) (m : Nat) (av : Nat → Nat → R) (xv yv : Nat → R)
    (ha : HoldsMatrix a m n lda av) (hsa : Small a) (hx : ∀ j, j < n → x[j]? = some (xv j)) :
    ∀ (k i : Nat) (y : List R), i + k ≤ m →
      (∀ j, i ≤ j → j < i + k → y[j]? = some (yv j)) →
      ∃ y', gemvNRows zero isZero n alpha a lda x beta k i y = some y' ∧
        Upd y y' i k id (fun i => rowValue isZero alpha beta (yv i)
          (sumFrom zero n fun j => xv j * av i j))
  | 0, i, y, _, _ => ⟨y, rfl, Upd.nil y i id _⟩
  | k + 1, i, y, hi, hy => by
    have hyi := hy i le_rfl (by omega)
    obtain ⟨row, hr, hl, hv⟩ := slice_row ha hsa (show i < m by omega)
    obtain ⟨hw1, hw2⟩ := words_row ha hsa (show i < m by omega)
    have hd : dotUnitary x row 0 zero = some (sumFrom zero n fun j => xv j * av i j) := by
      have := dotUnitary_sum x (fun j => av i j) xv row 0 zero
        (fun j hj => by rw [hv j (by omega)]; simp) (fun j _ hj => hx j (by omega))
      rw [hl] at this
      simpa using this
    obtain ⟨y', he, hu⟩ := gemvNRows_upd zero isZero n alpha a lda x beta m av xv yv ha hsa hx k
      (i + 1) (y.set i (rowValue isZero alpha beta (yv i) (sumFrom zero n fun j => xv j * av i j)))
      (by omega) (fun j h1 h2 => by
        rw [List.getElem?_set_ne (by omega)]
        exact hy j (by omega) (by omega))
    refine ⟨y', ?_, Upd.cons (G := id) hyi (fun j h1 h2 => by simp; omega) hu⟩
    simp only [gemvNRows, hw1, hw2, hr, hd, hyi, Option.bind_eq_bind, Option.bind_some]
    exact he

theorem gemvNRowsInc_upd (zero : R) (isZero : R → Bool) (n : Nat) (alpha : R) (a : List R)
    (lda : Nat) (x : List R) (incX : Int) (beta : R) (incY kx m : Nat) (av : Nat → Nat → R)
    (xv yv : Nat → R) (G : Nat → Nat) (hG : ∀ j, add (G j) incY = G (j + 1))
    (ha : HoldsMatrix a m n lda av) (hsa : Small a) (hx : Holds x n incX xv) (hsx : Small x)
    (hn : n < 2 ^ 63) (hk : 0 < n → kx = word (place n incX 0)) :
    ∀ (k i : Nat) (y : List R), i + k ≤ m →
      (∀ j, i ≤ j → j < i + k → y[G j]? = some (yv j)) →
      (∀ j l, i ≤ l → l < j → j < i + k → G j ≠ G l) →
      ∃ y', gemvNRowsInc zero isZero n alpha a lda x (word incX) beta incY kx k i (G i) y = some y' ∧
        Upd y y' i k G (fun i => rowValue isZero alpha beta (yv i)
          (sumFrom zero n fun j => av i j * xv j))
  | 0, i, y, _, _, _ => ⟨y, rfl, Upd.nil y i G _⟩
  | k + 1, i, y, hi, hy, hd => by
    have hyi := hy i le_rfl (by omega)
    obtain ⟨row, hr, hl, hv⟩ := slice_row ha hsa (show i < m by omega)
    obtain ⟨hw1, hw2⟩ := words_row ha hsa (show i < m by omega)
    have hdot : dotInc x row (word incX) 1 (rounds n) kx 0 zero =
        some (sumFrom zero n fun j => av i j * xv j) := by
      rw [rounds_nat hn]
      rcases Nat.eq_zero_or_pos n with h0 | h0
      · subst h0; rfl
      · have := dotInc_sum x row (word incX) 1 (fun j => word (place n incX j))
          (fun j => word (j : Int)) xv (fun j => av i j) (word_place_succ n incX) word_step n 0 zero
          (fun j _ hj => holds_word hx hsx (by omega))
          (fun j _ hj => by rw [word_nat (by omega)]; exact hv j (by omega))
        rw [hk h0]
        simpa [word] using this
    obtain ⟨y', he, hu⟩ := gemvNRowsInc_upd zero isZero n alpha a lda x incX beta incY kx m av xv yv
      G hG ha hsa hx hsx hn hk k
      (i + 1) (y.set (G i) (rowValue isZero alpha beta (yv i) (sumFrom zero n fun j => av i j * xv j)))
      (by omega) (fun j h1 h2 => by
        rw [List.getElem?_set_ne (hd j i le_rfl (by omega) (by omega)).symm]
        exact hy j (by omega) (by omega))
      (fun j l h1 h2 h3 => hd j l (by omega) h2 (by omega))
    refine ⟨y', ?_, Upd.cons hyi (fun j h1 h2 => hd j i le_rfl h1 (by omega)) hu⟩
    simp only [gemvNRowsInc, hw1, hw2, hr, hdot, hyi, hG, Option.bind_eq_bind, Option.bind_some]
    exact he

/-! ### The vector routines -/

/-- `AxpyInc` adds `alpha * x` to `y`, each with its own increment, and touches no other element;
whatever the arithmetic. -/
theorem axpyInc_correct (alpha : R) (x y : List R) (n : Nat) (incX incY : Int) (xv yv : Nat → R)
    (hx : Holds x n incX xv) (hy : Holds y n incY yv) (hsx : Small x) (hsy : Small y)
    (hn : n < 2 ^ 63) (hinc : incY ≠ 0 ∨ n ≤ 1) :
    ∃ y', axpyInc alpha x (word incX) (word incY) (rounds n) (word (place n incX 0))
        (word (place n incY 0)) y = some y' ∧
      Holds y' n incY (fun k => yv k + alpha * xv k) ∧ SameElsewhere y y' n incY := by
  obtain ⟨y', he, hu⟩ := axpyInc_upd alpha x (word incX) (word incY)
    (fun j => word (place n incX j)) (fun j => word (place n incY j)) xv yv
    (word_place_succ n incX) (word_place_succ n incY) n 0 y
    (fun j _ hj => holds_word hx hsx (by omega)) (fun j _ hj => holds_word hy hsy (by omega))
    (fun j l _ h2 h3 => word_place_ne hy hsy hinc h2 (by omega))
  rw [rounds_nat hn]
  exact ⟨y', he, hu.holds hy hsy⟩

/-- `AxpyIncTo` leaves `alpha * x + y` in `dst`. -/
theorem axpyIncTo_correct (alpha : R) (dst x y : List R) (n : Nat) (incD incX incY : Int)
    (dv xv yv : Nat → R) (hd : Holds dst n incD dv) (hx : Holds x n incX xv)
    (hy : Holds y n incY yv) (hsd : Small dst) (hsx : Small x) (hsy : Small y) (hn : n < 2 ^ 63)
    (hinc : incD ≠ 0 ∨ n ≤ 1) :
    ∃ d', axpyIncTo alpha x y (word incX) (word incY) (word incD) (rounds n)
        (word (place n incX 0)) (word (place n incY 0)) (word (place n incD 0)) dst = some d' ∧
      Holds d' n incD (fun k => alpha * xv k + yv k) ∧ SameElsewhere dst d' n incD := by
  obtain ⟨y', he, hu⟩ := axpyIncTo_upd alpha x y (word incX) (word incY) (word incD)
    (fun j => word (place n incX j)) (fun j => word (place n incY j))
    (fun j => word (place n incD j)) xv yv dv
    (word_place_succ n incX) (word_place_succ n incY) (word_place_succ n incD) n 0 dst
    (fun j _ hj => holds_word hx hsx (by omega)) (fun j _ hj => holds_word hy hsy (by omega))
    (fun j _ hj => holds_word hd hsd (by omega))
    (fun j l _ h2 h3 => word_place_ne hd hsd hinc h2 (by omega))
  rw [rounds_nat hn]
  exact ⟨y', he, hu.holds hd hsd⟩

theorem place_zero {inc : Int} (h : 0 ≤ inc) (n : Nat) : place n inc 0 = 0 := by
  unfold place; rw [if_neg (by omega)]; simp

/-- `ScalInc` multiplies the elements of `x` by `alpha`; it is for increments that are not negative. -/
theorem scalInc_correct (alpha : R) (x : List R) (n : Nat) (inc : Int) (xv : Nat → R)
    (hx : Holds x n inc xv) (hsx : Small x) (hn : n < 2 ^ 63) (hinc : 0 < inc ∨ inc = 0 ∧ n ≤ 1) :
    ∃ x', scalInc alpha (word inc) (rounds n) 0 x = some x' ∧
      Holds x' n inc (fun k => xv k * alpha) ∧ SameElsewhere x x' n inc := by
  obtain ⟨y', he, hu⟩ := scalInc_upd alpha (word inc) (fun j => word (place n inc j)) xv
    (word_place_succ n inc) n 0 x (fun j _ hj => holds_word hx hsx (by omega))
    (fun j l _ h2 h3 => word_place_ne hx hsx (by omega) h2 (by omega))
  rw [rounds_nat hn]
  rw [place_zero (by omega)] at he
  exact ⟨y', he, hu.holds hx hsx⟩

/-- `ScalIncTo` leaves `alpha * x` in `dst`; it is for increments that are not negative. -/
theorem scalIncTo_correct (alpha : R) (dst x : List R) (n : Nat) (incD incX : Int)
    (dv xv : Nat → R) (hd : Holds dst n incD dv) (hx : Holds x n incX xv) (hsd : Small dst)
    (hsx : Small x) (hn : n < 2 ^ 63) (hX : 0 ≤ incX) (hD : 0 < incD ∨ incD = 0 ∧ n ≤ 1) :
    ∃ d', scalIncTo alpha x (word incX) (word incD) (rounds n) 0 0 dst = some d' ∧
      Holds d' n incD (fun k => alpha * xv k) ∧ SameElsewhere dst d' n incD := by
  obtain ⟨y', he, hu⟩ := scalIncTo_upd alpha x (word incX) (word incD)
    (fun j => word (place n incX j)) (fun j => word (place n incD j)) xv dv
    (word_place_succ n incX) (word_place_succ n incD) n 0 dst
    (fun j _ hj => holds_word hx hsx (by omega)) (fun j _ hj => holds_word hd hsd (by omega))
    (fun j l _ h2 h3 => word_place_ne hd hsd (by omega) h2 (by omega))
  rw [rounds_nat hn]
  rw [place_zero hX, place_zero (by omega)] at he
  exact ⟨y', he, hu.holds hd hsd⟩

/-- `DotInc` adds the products of the elements one after the other. -/
theorem dotInc_correct (zero : R) (x y : List R) (n : Nat) (incX incY : Int) (xv yv : Nat → R)
    (hx : Holds x n incX xv) (hy : Holds y n incY yv) (hsx : Small x) (hsy : Small y)
    (hn : n < 2 ^ 63) :
    dotInc x y (word incX) (word incY) (rounds n) (word (place n incX 0)) (word (place n incY 0))
      zero = some (sumFrom zero n fun k => yv k * xv k) := by
  have := dotInc_sum x y (word incX) (word incY) (fun j => word (place n incX j))
    (fun j => word (place n incY j)) xv yv (word_place_succ n incX) (word_place_succ n incY) n 0 zero
    (fun j _ hj => holds_word hx hsx (by omega)) (fun j _ hj => holds_word hy hsy (by omega))
  rw [rounds_nat hn]
  simpa using this

end

/-! ### Matrices and vectors -/

section
variable [AddCommMagma R] [CommMagma R]

/-- `GemvN` leaves `alpha * A * x + beta * y` in `y` (`alpha * A * x` if `beta` is zero), for every row
stride and all increments, and touches no other element. -/
theorem gemvN_correct (zero : R) (isZero : R → Bool) (m n : Nat) (alpha beta : R) (a : List R)
    (lda : Nat) (x y : List R) (incX incY : Int) (av : Nat → Nat → R) (xv yv : Nat → R)
    (ha : HoldsMatrix a m n lda av) (hx : Holds x n incX xv) (hy : Holds y m incY yv)
    (hsa : Small a) (hsx : Small x) (hsy : Small y) (hm : m < 2 ^ 63) (hn : n < 2 ^ 63)
    (hX : IsInt incX) (hY : IsInt incY) (hinc : incY ≠ 0 ∨ m ≤ 1) :
    ∃ y', gemvN zero isZero m n alpha a lda x (word incX) beta y (word incY) = some y' ∧
      Holds y' m incY (fun i =>
        if isZero beta then alpha * sumFrom zero n (fun j => av i j * xv j)
        else yv i * beta + alpha * sumFrom zero n (fun j => av i j * xv j)) ∧
      SameElsewhere y y' m incY := by
  unfold gemvN
  simp only [word_eq_one hX, word_eq_one hY]
  by_cases h1 : incX = 1 ∧ incY = 1
  · obtain ⟨rfl, rfl⟩ := h1
    rw [if_pos ⟨rfl, rfl⟩]
    obtain ⟨y', he, hu⟩ := gemvNRows_upd zero isZero n alpha a lda x beta m av xv yv ha hsa
      (fun j hj => by simpa [place_one] using hx j hj) m 0 y (by omega)
      (fun j _ hj => by simpa [place_one] using hy j (by omega))
    refine ⟨y', he, Upd.holds hy hsy ?_⟩
    unfold Small at hsy
    refine ⟨hu.len, fun j _ hj => ?_, fun p hp => hu.old p fun j _ hj => ?_⟩
    · beta_reduce
      rw [place_one, word_nat (by omega)]
      have := hu.new j (by omega) hj
      simp only [id, _root_.mul_comm (xv _)] at this
      exact this
    · have := hp j (by omega) hj
      beta_reduce at this
      rw [place_one, word_nat (by omega)] at this
      exact this
  · rw [if_neg h1]
    rcases Nat.eq_zero_or_pos m with h0 | h0
    · subst h0
      exact ⟨y, rfl, fun k hk => by omega, rfl, fun _ _ => rfl⟩
    · obtain ⟨y', he, hu⟩ := gemvNRowsInc_upd zero isZero n alpha a lda x incX beta (word incY)
        (start n (word incX)) m av xv yv (fun j => word (place m incY j)) (word_place_succ m incY)
        ha hsa hx hsx hn (fun h => start_eq hX h hn) m 0 y (by omega)
        (fun j _ hj => holds_word hy hsy (by omega))
        (fun j l _ h2 h3 => word_place_ne hy hsy hinc h2 (by omega))
      rw [start_eq hY h0 hm]
      exact ⟨y', he, Upd.holds hy hsy hu⟩

end

end Verif.Strided
