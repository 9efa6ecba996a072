/-
What it means that a slice holds a vector with an increment, or a matrix with a row stride.
-/
import Mathlib.Algebra.Ring.Int.Defs
set_option autoImplicit false

namespace Verif.Strided

variable {R : Type}

/-- Where element `k` of a vector of `n` elements with increment `inc` lies in its slice: `inc`
apart, the first one at index 0, or the last one if the increment is negative. -/
def place (n : Nat) (inc : Int) (k : Nat) : Int :=
  if inc < 0 then ((n : Int) - 1 - k) * (-inc) else k * inc

/-- The slice `x` holds the vector of `v 0`, …, `v (n-1)` with increment `inc`. -/
def Holds (x : List R) (n : Nat) (inc : Int) (v : Nat → R) : Prop :=
  ∀ k, k < n → x[(place n inc k).toNat]? = some (v k)

/-- The slice `a` holds the `m × n` matrix `v` with row stride `lda`. -/
def HoldsMatrix (a : List R) (m n lda : Nat) (v : Nat → Nat → R) : Prop :=
  (∀ i, i < m → lda * i + n ≤ a.length) ∧
    ∀ i j, i < m → j < n → a[lda * i + j]? = some (v i j)

/-- Sizes of the machine: a slice has fewer than 2^63 elements. -/
def Small (x : List R) : Prop := x.length < 2 ^ 63

/-- A number that is an `int`. -/
def IsInt (i : Int) : Prop := -2 ^ 63 ≤ i ∧ i < 2 ^ 63

/-- `y'` differs from `y` at most in the places of the vector of `n` elements. -/
def SameElsewhere (y y' : List R) (n : Nat) (inc : Int) : Prop :=
  y'.length = y.length ∧
    ∀ p : Nat, (∀ k, k < n → (p : Int) ≠ place n inc k) → y'[p]? = y[p]?

/-- The sum of `f 0`, …, `f (n-1)`, added to `s` one after the other. -/
def sumFrom [Add R] (s : R) (n : Nat) (f : Nat → R) : R :=
  (List.range n).foldl (fun s k => s + f k) s

end Verif.Strided
