/-
The other functions of asm64/stubs_noasm.go, and examples.
-/
import Verif.Props.StridedT
import Mathlib.Algebra.BigOperators.Group.List.Basic
set_option autoImplicit false
set_option linter.unusedSimpArgs false

namespace Verif.Strided

variable {R : Type}

section
variable [Add R] [Sub R] [Mul R] [Div R]

theorem l1NormInc_from (abs : R → R) (x : List R) (n : Nat) (inc : Int) (xv : Nat → R)
    (hi : 0 < inc) (hx : Holds x n inc xv) :
    ∀ (k i f : Nat) (s : R), i + k = n →
      l1NormInc abs x n inc (k + 1 + f) (i * inc) s = some (sumFrom s k fun j => abs (xv (i + j)))
  | 0, i, f, s, hk => by
    rw [show 0 + 1 + f = f + 1 by omega]
    unfold l1NormInc
    rw [if_neg (by rw [← hk]; simp)]; rfl
  | k + 1, i, f, s, hk => by
    have h1 := hx i (by omega)
    unfold place at h1
    rw [if_neg (by omega)] at h1
    rw [show k + 1 + 1 + f = k + 1 + f + 1 by omega]
    unfold l1NormInc
    have hlt : (i : Int) * inc < n * inc := Int.mul_lt_mul_of_pos_right (by omega) hi
    have hnn : 0 ≤ (i : Int) * inc := mul_nonneg (by omega) (by omega)
    rw [if_pos hlt, if_neg (by omega), h1]
    simp only [Option.bind_eq_bind, Option.bind_some]
    have := l1NormInc_from abs x n inc xv hi hx k (i + 1) f (s + abs (xv i)) (by omega)
    rw [show (i : Int) * inc + inc = ((i + 1 : Nat) : Int) * inc by push_cast; ring, this,
      sumFrom_succ]
    simp only [Nat.add_zero, show ∀ j, i + 1 + j = i + (j + 1) by intro j; omega]

/-- `L1NormInc` with a positive increment adds the absolute values of the `n` elements, in at most
`n` rounds. -/
theorem l1NormInc_correct (zero : R) (abs : R → R) (x : List R) (n : Nat) (inc : Int) (xv : Nat → R)
    (hi : 0 < inc) (hx : Holds x n inc xv) (fuel : Nat) (hf : n < fuel) :
    l1NormInc abs x n inc fuel 0 zero = some (sumFrom zero n fun k => abs (xv k)) := by
  have := l1NormInc_from abs x n inc xv hi hx n 0 (fuel - (n + 1)) zero (by omega)
  rw [show n + 1 + (fuel - (n + 1)) = fuel by omega] at this
  simpa using this

/-- With any other increment it adds nothing, however many elements there are. -/
theorem l1NormInc_other (zero : R) (abs : R → R) (x : List R) (n : Nat) (inc : Int) (hi : inc ≤ 0)
    (fuel : Nat) : l1NormInc abs x n inc fuel 0 zero = some zero := by
  cases fuel with
  | zero => rfl
  | succ f =>
    unfold l1NormInc
    rw [if_neg]
    have := mul_nonneg (show (0 : Int) ≤ n by omega) (show 0 ≤ -inc by omega)
    linarith

theorem l1Dist_from (abs : R → R) (t : List R) (sv tv : Nat → R) :
    ∀ (s : List R) (i : Nat) (norm : R), (∀ j, j < s.length → s[j]? = some (sv (i + j))) →
      (∀ j, i ≤ j → j < i + s.length → t[j]? = some (tv j)) →
      l1Dist abs t s i norm = some (sumFrom norm s.length fun j => abs (tv (i + j) - sv (i + j)))
  | [], i, norm, _, _ => rfl
  | v :: s, i, norm, hs, ht => by
    have hv : v = sv i := by simpa using hs 0 (by simp)
    simp only [l1Dist, ht i le_rfl (by simp), hv, Option.bind_eq_bind, Option.bind_some]
    rw [l1Dist_from abs t sv tv s (i + 1) _
      (fun j hj => by
        have := hs (j + 1) (by simpa using hj)
        rw [show i + 1 + j = i + (j + 1) by omega]; simpa using this)
      (fun j h1 h2 => ht j (by omega) (by simp; omega)), List.length_cons, sumFrom_succ]
    simp only [Nat.add_zero, show ∀ j, i + 1 + j = i + (j + 1) by intro j; omega]

/-- `L1Dist` adds the absolute differences one after the other. -/
theorem l1Dist_correct (zero : R) (abs : R → R) (s t : List R) (sv tv : Nat → R)
    (hs : Holds s s.length 1 sv) (ht : Holds t s.length 1 tv) :
    l1Dist abs t s 0 zero = some (sumFrom zero s.length fun k => abs (tv k - sv k)) := by
  have := l1Dist_from abs t sv tv s 0 zero
    (fun j hj => by simpa [place_one] using hs j hj)
    (fun j _ hj => by simpa [place_one] using ht j (by omega))
  simpa using this

/-- `L1Norm` adds the absolute values one after the other. -/
theorem l1Norm_correct (zero : R) (abs : R → R) (x : List R) (xv : Nat → R)
    (hx : ∀ j, j < x.length → x[j]? = some (xv j)) :
    l1Norm zero abs x = sumFrom zero x.length fun k => abs (xv k) := by
  induction x generalizing zero xv with
  | nil => rfl
  | cons v x ih =>
    have hv : v = xv 0 := by simpa using hx 0 (by simp)
    rw [List.length_cons, sumFrom_succ, ← hv]
    exact ih (zero + abs v) (fun k => xv (k + 1)) fun j hj => by
      have := hx (j + 1) (by simpa using hj)
      simpa using this

/-- Products from `s` on. -/
theorem cumProd_from (sv : Nat → R) :
    ∀ (s : List R) (i : Nat) (dst : List R) (q : Nat → R), (∀ k, q (k + 1) = q k * sv (k + 1)) →
      (∀ j, j < s.length → s[j]? = some (sv (i + 1 + j))) → dst[i]? = some (q i) →
      i + s.length < dst.length →
      ∃ d', cumProdLoop s i dst = some d' ∧ Upd dst d' (i + 1) s.length id q
  | [], i, dst, q, _, _, _, _ => ⟨dst, rfl, Upd.nil dst _ id q⟩
  | v :: s, i, dst, q, hq, hs, hd, hl => by
    have hv : v = sv (i + 1) := by simpa using hs 0 (by simp)
    simp only [List.length_cons] at hl
    have h1 : dst[i + 1]? = some dst[i + 1] := List.getElem?_eq_getElem (by omega)
    obtain ⟨d', he, hu⟩ := cumProd_from sv s (i + 1) (dst.set (i + 1) (q i * sv (i + 1))) q hq
      (fun j hj => by
        have := hs (j + 1) (by simpa using hj)
        rw [show i + 1 + 1 + j = i + 1 + (j + 1) by omega]; simpa using this)
      (by rw [List.getElem?_set_self (by omega), hq]) (by simp; omega)
    refine ⟨d', ?_, ?_⟩
    · simp only [cumProdLoop, hd, h1, hv, Option.bind_eq_bind, Option.bind_some]
      exact he
    · rw [← hq i] at hu
      exact Upd.cons (G := id) h1 (fun j h1 h2 => by simp; omega) hu

/-- `CumProd` leaves the products of the first elements in `dst`: `s₀`, `s₀s₁`, `s₀s₁s₂`, …. -/
theorem cumProd_correct (dst s : List R) (sv q : Nat → R) (hs : Holds s s.length 1 sv)
    (hl : s.length ≤ dst.length) (h0 : q 0 = sv 0) (hq : ∀ k, q (k + 1) = q k * sv (k + 1)) :
    ∃ d', cumProd dst s = some d' ∧ Holds d' s.length 1 q ∧ SameElsewhere dst d' s.length 1 := by
  have key : ∃ d', cumProd dst s = some d' ∧ Upd dst d' 0 s.length id q := by
    cases s with
    | nil => exact ⟨dst, rfl, Upd.nil dst 0 id q⟩
    | cons v s =>
      simp only [List.length_cons] at hl
      have hv : v = q 0 := by
        have := hs 0 (by simp)
        rw [place_one] at this
        rw [h0]; simpa using this
      have hd0 : dst[0]? = some dst[0] := List.getElem?_eq_getElem (by omega)
      obtain ⟨d', he, hu⟩ := cumProd_from sv s 0 (dst.set 0 v) q hq
        (fun j hj => by
          have := hs (j + 1) (by simpa using hj)
          rw [place_one] at this
          rw [show 0 + 1 + j = j + 1 by omega]; simpa using this)
        (by rw [List.getElem?_set_self (by omega), hv]) (by simp; omega)
      refine ⟨d', ?_, ?_⟩
      · simp only [cumProd, hd0, Option.bind_eq_bind, Option.bind_some]
        exact he
      · rw [hv] at hu
        exact Upd.cons (G := id) hd0 (fun j h1 h2 => by simp; omega) hu
  obtain ⟨d', he, hu⟩ := key
  refine ⟨d', he, fun k hk => ?_, hu.len, fun p hp => hu.old p fun j _ hj e => ?_⟩
  · rw [place_one]; exact hu.new k (by omega) (by omega)
  · exact hp j (by omega) (by rw [place_one, e]; rfl)

theorem div_upd (sv dv : Nat → R) :
    ∀ (s : List R) (i : Nat) (d : List R), (∀ j, j < s.length → s[j]? = some (sv (i + j))) →
      (∀ j, i ≤ j → j < i + s.length → d[j]? = some (dv j)) →
      ∃ d', div s i d = some d' ∧ Upd d d' i s.length id (fun j => dv j / sv j)
  | [], i, d, _, _ => ⟨d, rfl, Upd.nil d i id _⟩
  | v :: x, i, d, hx, hy => by
    have hv : v = sv i := by simpa using hx 0 (by simp)
    have hyi := hy i le_rfl (by simp)
    obtain ⟨d', he, hu⟩ := div_upd sv dv x (i + 1) (d.set i (dv i / sv i))
      (fun j hj => by
        have := hx (j + 1) (by simpa using hj)
        rw [show i + 1 + j = i + (j + 1) by omega]; simpa using this)
      (fun j h1 h2 => by
        rw [List.getElem?_set_ne (by omega)]
        exact hy j (by omega) (by simp; omega))
    refine ⟨d', ?_, Upd.cons (G := id) hyi (fun j h1 h2 => by simp; omega) hu⟩
    simp only [div, hyi, hv, Option.bind_eq_bind, Option.bind_some]
    exact he

theorem addTo_upd (sv dv : Nat → R) :
    ∀ (s : List R) (i : Nat) (d : List R), (∀ j, j < s.length → s[j]? = some (sv (i + j))) →
      (∀ j, i ≤ j → j < i + s.length → d[j]? = some (dv j)) →
      ∃ d', addTo s i d = some d' ∧ Upd d d' i s.length id (fun j => dv j + sv j)
  | [], i, d, _, _ => ⟨d, rfl, Upd.nil d i id _⟩
  | v :: x, i, d, hx, hy => by
    have hv : v = sv i := by simpa using hx 0 (by simp)
    have hyi := hy i le_rfl (by simp)
    obtain ⟨d', he, hu⟩ := addTo_upd sv dv x (i + 1) (d.set i (dv i + sv i))
      (fun j hj => by
        have := hx (j + 1) (by simpa using hj)
        rw [show i + 1 + j = i + (j + 1) by omega]; simpa using this)
      (fun j h1 h2 => by
        rw [List.getElem?_set_ne (by omega)]
        exact hy j (by omega) (by simp; omega))
    refine ⟨d', ?_, Upd.cons (G := id) hyi (fun j h1 h2 => by simp; omega) hu⟩
    simp only [addTo, hyi, hv, Option.bind_eq_bind, Option.bind_some]
    exact he

theorem divTo_upd (t : List R) (sv tv dv : Nat → R) :
    ∀ (s : List R) (i : Nat) (d : List R), (∀ j, j < s.length → s[j]? = some (sv (i + j))) →
      (∀ j, i ≤ j → j < i + s.length → t[j]? = some (tv j)) →
      (∀ j, i ≤ j → j < i + s.length → d[j]? = some (dv j)) →
      ∃ d', divTo t s i d = some d' ∧ Upd d d' i s.length id (fun j => sv j / tv j)
  | [], i, d, _, _, _ => ⟨d, rfl, Upd.nil d i id _⟩
  | v :: x, i, d, hx, ht, hy => by
    have hv : v = sv i := by simpa using hx 0 (by simp)
    have hyi := hy i le_rfl (by simp)
    have hti := ht i le_rfl (by simp)
    obtain ⟨d', he, hu⟩ := divTo_upd t sv tv dv x (i + 1) (d.set i (sv i / tv i))
      (fun j hj => by
        have := hx (j + 1) (by simpa using hj)
        rw [show i + 1 + j = i + (j + 1) by omega]; simpa using this)
      (fun j h1 h2 => ht j (by omega) (by simp; omega))
      (fun j h1 h2 => by
        rw [List.getElem?_set_ne (by omega)]
        exact hy j (by omega) (by simp; omega))
    refine ⟨d', ?_, Upd.cons (G := id) hyi (fun j h1 h2 => by simp; omega) hu⟩
    simp only [divTo, hyi, hti, hv, Option.bind_eq_bind, Option.bind_some]
    exact he

theorem Upd.holds_one {y y' : List R} {n : Nat} {w : Nat → R} (h : Upd y y' 0 n id w) :
    Holds y' n 1 w ∧ SameElsewhere y y' n 1 := by
  refine ⟨fun k hk => ?_, h.len, fun p hp => h.old p fun j _ hj e => ?_⟩
  · rw [place_one]; exact h.new k (by omega) (by omega)
  · exact hp j (by omega) (by rw [place_one, e]; rfl)

theorem Holds.get_one {x : List R} {n : Nat} {v : Nat → R} (h : Holds x n 1 v) {j : Nat}
    (hj : j < n) : x[j]? = some (v j) := by
  simpa [place_one] using h j hj

/-- The routines over whole slices: `y + alpha * x`, `alpha * x`, `dst + s`, `dst / s`, `s / t`; each
changes as many elements of its destination as its first operand has, and no other. -/
theorem unitary_correct (alpha : R) (x t y : List R) (xv tv yv : Nat → R)
    (hx : Holds x x.length 1 xv) (ht : Holds t x.length 1 tv) (hy : Holds y x.length 1 yv) :
    (∃ y', axpyUnitary alpha x 0 y = some y' ∧
      Holds y' x.length 1 (fun k => yv k + alpha * xv k) ∧ SameElsewhere y y' x.length 1) ∧
    (∃ y', scalUnitaryTo alpha x 0 y = some y' ∧
      Holds y' x.length 1 (fun k => alpha * xv k) ∧ SameElsewhere y y' x.length 1) ∧
    (∃ y', addTo x 0 y = some y' ∧
      Holds y' x.length 1 (fun k => yv k + xv k) ∧ SameElsewhere y y' x.length 1) ∧
    (∃ y', div x 0 y = some y' ∧
      Holds y' x.length 1 (fun k => yv k / xv k) ∧ SameElsewhere y y' x.length 1) ∧
    (∃ y', divTo t x 0 y = some y' ∧
      Holds y' x.length 1 (fun k => xv k / tv k) ∧ SameElsewhere y y' x.length 1) ∧
    Holds (scalUnitary alpha x) x.length 1 (fun k => xv k * alpha) ∧
    (scalUnitary alpha x).length = x.length ∧
    Holds (addConst alpha x) x.length 1 (fun k => xv k + alpha) ∧
    (addConst alpha x).length = x.length := by
  have hx' : ∀ j, j < x.length → x[j]? = some (xv (0 + j)) := fun j hj => by
    rw [Nat.zero_add]; exact hx.get_one hj
  have hy' : ∀ j, 0 ≤ j → j < 0 + x.length → y[j]? = some (yv j) := fun j _ hj =>
    hy.get_one (by omega)
  have ht' : ∀ j, 0 ≤ j → j < 0 + x.length → t[j]? = some (tv j) := fun j _ hj =>
    ht.get_one (by omega)
  obtain ⟨y1, e1, u1⟩ := axpyUnitary_upd alpha xv yv x 0 y hx' hy'
  obtain ⟨y2, e2, u2⟩ := scalUnitaryTo_upd alpha xv yv x 0 y hx' hy'
  obtain ⟨y3, e3, u3⟩ := addTo_upd xv yv x 0 y hx' hy'
  obtain ⟨y4, e4, u4⟩ := div_upd xv yv x 0 y hx' hy'
  obtain ⟨y5, e5, u5⟩ := divTo_upd t xv tv yv x 0 y hx' ht' hy'
  refine ⟨⟨y1, e1, u1.holds_one⟩, ⟨y2, e2, u2.holds_one⟩, ⟨y3, e3, u3.holds_one⟩,
    ⟨y4, e4, u4.holds_one⟩, ⟨y5, e5, u5.holds_one⟩, fun k hk => ?_, by simp [scalUnitary],
    fun k hk => ?_, by simp [addConst]⟩
  · rw [place_one]; unfold scalUnitary
    rw [List.getElem?_map, Int.toNat_natCast, hx.get_one hk]; rfl
  · rw [place_one]; unfold addConst
    rw [List.getElem?_map, Int.toNat_natCast, hx.get_one hk]; rfl

/-! ### LinfDist and NaN -/

/-- What the loop of `LinfDist` keeps: the greatest difference seen that is not NaN, or NaN if
there has been none. -/
structure Greatest {K : Type} [LinearOrder K] (nan : R → Bool) (val : R → K) (ds : List R) (r : R) :
    Prop where
  mem : r ∈ ds
  nan_iff : nan r = true ↔ ∀ d ∈ ds, nan d = true
  le : nan r = false → ∀ d ∈ ds, nan d = false → val d ≤ val r

theorem linfLoop_from {K : Type} [LinearOrder K] (abs : R → R) (gt : R → R → Bool) (nan : R → Bool)
    (val : R → K)
    (hgt : ∀ a b, gt a b = true ↔ nan a = false ∧ nan b = false ∧ val b < val a)
    (t : List R) (sv tv : Nat → R) :
    ∀ (s : List R) (i : Nat) (r : R) (ds : List R), (∀ j, j < s.length → s[j]? = some (sv (i + j))) →
      (∀ j, i ≤ j → j < i + s.length → t[j]? = some (tv j)) → Greatest nan val ds r →
      ∃ r', linfLoop abs gt nan t s i r = some r' ∧
        Greatest nan val (ds ++ (List.range' i s.length).map fun k => abs (tv k - sv k)) r'
  | [], i, r, ds, _, _, h => ⟨r, rfl, by simpa using h⟩
  | v :: s, i, r, ds, hs, ht, h => by
    have hv : v = sv i := by simpa using hs 0 (by simp)
    set d := abs (tv i - sv i) with hd
    have step : Greatest nan val (ds ++ [d]) (if gt d r || nan r then d else r) := by
      by_cases hc : (gt d r || nan r) = true
      · rw [if_pos hc]
        rw [Bool.or_eq_true] at hc
        refine ⟨by simp, ⟨fun hn e he => ?_, fun hall => hall d (by simp)⟩, fun hn e he hen => ?_⟩
        · rcases List.mem_append.1 he with he | he
          · rcases hc with hc | hc
            · have := ((hgt d r).1 hc).1
              rw [hn] at this; simp at this
            · exact h.nan_iff.1 hc e he
          · simp at he; rw [he]; exact hn
        · rcases List.mem_append.1 he with he | he
          · rcases hc with hc | hc
            · obtain ⟨-, h2, h3⟩ := (hgt d r).1 hc
              exact (h.le h2 e he hen).trans h3.le
            · rw [h.nan_iff.1 hc e he] at hen; simp at hen
          · simp at he; rw [he]
      · rw [if_neg hc]
        rw [Bool.or_eq_true, not_or] at hc
        have hr : nan r = false := by simpa using hc.2
        refine ⟨by simp [h.mem], ⟨fun hn => by rw [hr] at hn; simp at hn,
          fun hall => hall r (by simp [h.mem])⟩, fun hn e he hen => ?_⟩
        rcases List.mem_append.1 he with he | he
        · exact h.le hr e he hen
        · simp at he
          rw [he] at hen ⊢
          by_contra hlt
          exact hc.1 ((hgt d r).2 ⟨hen, hr, not_le.1 hlt⟩)
    obtain ⟨r', he, hg⟩ := linfLoop_from abs gt nan val hgt t sv tv s (i + 1) _ (ds ++ [d])
      (fun j hj => by
        have := hs (j + 1) (by simpa using hj)
        rw [show i + 1 + j = i + (j + 1) by omega]; simpa using this)
      (fun j h1 h2 => ht j (by omega) (by simp; omega)) step
    refine ⟨r', ?_, ?_⟩
    · simp only [linfLoop, ht i le_rfl (by simp), hv, Option.bind_eq_bind, Option.bind_some]
      exact he
    · rw [List.length_cons, List.range'_succ, List.map_cons, ← hd]
      simpa using hg

/-- `LinfDist` gives the greatest absolute difference that is not NaN; it gives NaN only if all
differences are NaN, and zero only without elements (or if it is the greatest). -/
theorem linfDist_correct {K : Type} [LinearOrder K] (zero : R) (abs : R → R) (gt : R → R → Bool)
    (nan : R → Bool) (val : R → K)
    (hgt : ∀ a b, gt a b = true ↔ nan a = false ∧ nan b = false ∧ val b < val a)
    (s t : List R) (sv tv : Nat → R) (hs : Holds s s.length 1 sv) (ht : Holds t s.length 1 tv)
    (hne : s ≠ []) :
    ∃ r, linfDist zero abs gt nan s t = some r ∧
      (∃ k, k < s.length ∧ r = abs (tv k - sv k)) ∧
      (nan r = true ↔ ∀ k, k < s.length → nan (abs (tv k - sv k)) = true) ∧
      (nan r = false → ∀ k, k < s.length → nan (abs (tv k - sv k)) = false →
        val (abs (tv k - sv k)) ≤ val r) := by
  cases s with
  | nil => exact absurd rfl hne
  | cons v s =>
    have hv : v = sv 0 := by simpa using hs.get_one (j := 0) (by simp)
    have ht0 := ht.get_one (j := 0) (by simp)
    obtain ⟨r, he, hg⟩ := linfLoop_from abs gt nan val hgt t sv tv s 1 (abs (tv 0 - sv 0))
      [abs (tv 0 - sv 0)]
      (fun j hj => by
        have := hs.get_one (j := j + 1) (by simpa using hj)
        rw [Nat.add_comm 1 j]; simpa using this)
      (fun j h1 h2 => ht.get_one (by simp; omega))
      ⟨by simp, by simp, by simp⟩
    have hmem : ∀ d, d ∈ [abs (tv 0 - sv 0)] ++ (List.range' 1 s.length).map
        (fun k => abs (tv k - sv k)) ↔ ∃ k, k < (v :: s).length ∧ d = abs (tv k - sv k) := by
      intro d
      simp only [List.mem_append, List.mem_singleton, List.mem_map, List.mem_range',
        List.length_cons]
      constructor
      · rintro (h | ⟨k, ⟨j, hj, rfl⟩, rfl⟩)
        · exact ⟨0, by omega, h⟩
        · exact ⟨1 + 1 * j, by omega, rfl⟩
      · rintro ⟨k, hk, rfl⟩
        rcases Nat.eq_zero_or_pos k with h | h
        · left; rw [h]
        · exact Or.inr ⟨k, ⟨k - 1, by omega, by omega⟩, rfl⟩
    refine ⟨r, ?_, (hmem r).1 hg.mem, ?_, fun hn k hk => hg.le hn _ ((hmem _).2 ⟨k, hk, rfl⟩)⟩
    · simp only [linfDist, ht0, hv, Option.bind_eq_bind, Option.bind_some]
      exact he
    · rw [hg.nan_iff]
      constructor
      · intro h k hk; exact h _ ((hmem _).2 ⟨k, hk, rfl⟩)
      · intro h d hd
        obtain ⟨k, hk, rfl⟩ := (hmem d).1 hd
        exact h k hk

end

/-! ### Examples -/

/-- Increments 2 and -1: `y = (1 2 3)ᵀ` read backwards, `alpha = 10`. -/
example : axpyInc (10 : Int) [1, 0, 2, 0, 3] (word 2) (word (-1)) (rounds 3)
    (word (place 3 2 0)) (word (place 3 (-1) 0)) [7, 8, 9] = some [37, 28, 19] := by decide +kernel

/-- A 2 × 3 matrix with row stride 4, `x` backwards, `y` with increment 2. -/
example : gemvN (0 : Int) (· == 0) 2 3 1 [1, 2, 3, 99, 4, 5, 6] 4 [1, 10, 100] (word (-1)) 2
    [5, 0, 6] (word 2) = some [10 + 123, 0, 12 + 456] := by decide +kernel

/-- The transposed product. -/
example : gemvT (0 : Int) (· == 0) 2 3 1 [1, 2, 3, 99, 4, 5, 6] 4 [1, 10] (word 1) 2
    [5, 6, 7, 8] (word 1) = some [10 + 41, 12 + 52, 14 + 63, 8] := by decide +kernel

/-- The element behind the vector is lost when `beta` is zero, and kept when it is not. -/
example : gemvT (0 : Int) (· == 0) 1 1 1 [2] 1 [3] (word 1) 0 [5, 8] (word 1) = some [6, 0] ∧
    gemvT (0 : Int) (· == 0) 1 1 1 [2] 1 [3] (word 1) 1 [5, 8] (word 1) = some [11, 8] ∧
    gemvT (0 : Int) (· == 0) 1 1 1 [2] 1 [3] (word 1) 0 [5, 8] (word 2) = some [6, 8] := by
  decide +kernel

example : ger 2 2 (1 : Int) [1, 2] (word 1) [10, 20] (word (-1)) [0, 0, 7, 0, 0] 3 =
    some [20, 10, 7, 40, 20] := by decide +kernel

/-- The hypotheses of `gemvT_clears` can be met. -/
example : ∃ y', gemvT (0 : Int) (· == 0) 1 1 1 [2] 1 [3] (word 1) 0 [5, 8] 1 = some y' ∧
    y'[1]? = some 0 ∧ ¬ SameElsewhere [5, 8] y' 1 1 :=
  gemvT_clears (0 : Int) (· == 0) 1 1 1 0 [2] 1 [3] [5, 8] 1 (fun _ _ => 2) (fun _ => 3) (fun _ => 5)
    ⟨by decide, fun i j hi hj => by
      obtain rfl : i = 0 := by omega
      obtain rfl : j = 0 := by omega
      rfl⟩
    (fun k hk => by obtain rfl : k = 0 := by omega
                    rfl)
    (fun k hk => by obtain rfl : k = 0 := by omega
                    rfl)
    (by unfold Small; decide) (by unfold Small; decide) (by unfold Small; decide) (by norm_num)
    (by norm_num) ⟨by norm_num, by norm_num⟩ rfl 1 le_rfl (by decide) (by decide)

example : l1NormInc (fun v : Int => |v|) [1, 9, -2, 9, 3] 3 2 4 0 0 = some 6 := by decide +kernel

example : cumProd [0, 0, 0, 5] [2, 3, 4] = some [2, 6, 24, (5 : Int)] := by decide +kernel

/-- The greatest of 3, 5 and 0. -/
example : linfDist (R := Int) 0 (fun d => |d|) (fun a b => decide (b < a)) (fun _ => false)
    [1, 5, 2] [4, 0, 2] = some 5 := by decide +kernel

end Verif.Strided
