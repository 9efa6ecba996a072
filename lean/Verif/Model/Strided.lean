/-
The portable vector routines of mat/internal/f64/asm64 and mat/internal/f32/asm32 with increments:
`axpy.go`, `scal.go`, `dot.go`, `stubs_noasm.go`, `ge_noasm.go`, `gemv.go`.  The two packages have
the same text for the two element types.

A slice is the list of its elements; its capacity is its length.  Slices do not overlap, except that
`GemvT` calls `AxpyUnitaryTo` with `y` for `dst`, which is modelled on the one list.  A `uintptr` is a
natural number below 2^64 with arithmetic modulo 2^64; an index outside its slice is a panic (`none`).
The arithmetic of the elements is left open: no law is assumed of it.
-/
import Mathlib.Data.List.Basic
import Mathlib.Algebra.Ring.Int.Defs
set_option autoImplicit false
set_option linter.unusedSimpArgs false

namespace Verif.Strided

variable {R : Type}

/-- `uintptr(i)` for an `int`. -/
def word (i : Int) : Nat := (i % 2 ^ 64).toNat

/-- `int(w)` for a `uintptr`. -/
def int (w : Nat) : Int := if w < 2 ^ 63 then w else w - 2 ^ 64

/-- `a + b` of `uintptr`s. -/
def add (a b : Nat) : Nat := (a + b) % 2 ^ 64

/-- `a * b` of `uintptr`s. -/
def mul (a b : Nat) : Nat := a * b % 2 ^ 64

/-- The rounds of `for i := 0; i < int(n); i++`. -/
def rounds (n : Nat) : Nat := (int n).toNat

/-- `-int(n-1) * int(inc)`: where a vector of `n` elements with a negative increment starts, and 0
for the others (ge_noasm.go:25-31, 46-52, 86-92; gemv.go:13-19, 53-59). -/
def start (n inc : Nat) : Nat :=
  if int inc < 0 then word (-(int (add n (2 ^ 64 - 1))) * int inc) else 0

/-- `a[lo:hi]`. -/
def slice (a : List R) (lo hi : Nat) : Option (List R) :=
  if lo ≤ hi ∧ hi ≤ a.length then some ((a.drop lo).take (hi - lo)) else none

/-- `a` after `row` has been written to its elements from index `lo` on. -/
def put (a : List R) (lo : Nat) (row : List R) : List R :=
  a.take lo ++ row ++ a.drop (lo + row.length)

section
variable [Add R] [Mul R]

/-- `AxpyUnitary` (asm64/axpy.go:15-19, asm32/stubs_noasm.go:15-19), from index `i` of `y` on. -/
def axpyUnitary (alpha : R) : List R → Nat → List R → Option (List R)
  | [], _, y => some y
  | v :: x, i, y => do
    let w ← y[i]?
    axpyUnitary alpha x (i + 1) (y.set i (w + alpha * v))

/-- `AxpyUnitaryTo(y, alpha, x, y)` (asm64/axpy.go:26-30, asm32/stubs_noasm.go:26-30), as `GemvT`
calls it: destination and second operand are one slice. -/
def axpyUnitaryTo (alpha : R) : List R → Nat → List R → Option (List R)
  | [], _, y => some y
  | v :: x, i, y => do
    let w ← y[i]?
    axpyUnitaryTo alpha x (i + 1) (y.set i (alpha * v + w))

/-- `AxpyInc` (asm64/axpy.go:39-45, asm32/stubs_noasm.go:39-45); the first number is that of the
rounds left. -/
def axpyInc (alpha : R) (x : List R) (incX incY : Nat) : Nat → Nat → Nat → List R → Option (List R)
  | 0, _, _, y => some y
  | k + 1, ix, iy, y => do
    let w ← y[iy]?
    let v ← x[ix]?
    axpyInc alpha x incX incY k (add ix incX) (add iy incY) (y.set iy (w + alpha * v))

/-- `AxpyIncTo` (asm64/axpy.go:55-62, asm32/stubs_noasm.go:55-62). -/
def axpyIncTo (alpha : R) (x y : List R) (incX incY incDst : Nat) :
    Nat → Nat → Nat → Nat → List R → Option (List R)
  | 0, _, _, _, dst => some dst
  | k + 1, ix, iy, id, dst => do
    let v ← x[ix]?
    let w ← y[iy]?
    let _ ← dst[id]?
    axpyIncTo alpha x y incX incY incDst k (add ix incX) (add iy incY) (add id incDst)
      (dst.set id (alpha * v + w))

/-- `ScalUnitary` (asm64/scal.go:15-19, asm32/scal.go:12-16). -/
def scalUnitary (alpha : R) (x : List R) : List R := x.map (· * alpha)

/-- `ScalUnitaryTo` (asm64/scal.go:26-30, asm32/scal.go:23-27), from index `i` of `dst` on. -/
def scalUnitaryTo (alpha : R) : List R → Nat → List R → Option (List R)
  | [], _, dst => some dst
  | v :: x, i, dst => do
    let _ ← dst[i]?
    scalUnitaryTo alpha x (i + 1) (dst.set i (alpha * v))

/-- `ScalInc` (asm64/scal.go:39-45, asm32/scal.go:36-42). -/
def scalInc (alpha : R) (incX : Nat) : Nat → Nat → List R → Option (List R)
  | 0, _, x => some x
  | k + 1, ix, x => do
    let v ← x[ix]?
    scalInc alpha incX k (add ix incX) (x.set ix (v * alpha))

/-- `ScalIncTo` (asm64/scal.go:55-62, asm32/scal.go:52-59). -/
def scalIncTo (alpha : R) (x : List R) (incX incDst : Nat) :
    Nat → Nat → Nat → List R → Option (List R)
  | 0, _, _, dst => some dst
  | k + 1, ix, id, dst => do
    let v ← x[ix]?
    let _ ← dst[id]?
    scalIncTo alpha x incX incDst k (add ix incX) (add id incDst) (dst.set id (alpha * v))

/-- `DotUnitary` (asm64/dot.go:16-21, asm32/stubs_noasm.go:70-75), from index `i` of `y` on. -/
def dotUnitary (y : List R) : List R → Nat → R → Option R
  | [], _, sum => some sum
  | v :: x, i, sum => do
    let w ← y[i]?
    dotUnitary y x (i + 1) (sum + w * v)

/-- `DotInc` (asm64/dot.go:31-38, asm32/stubs_noasm.go:85-92). -/
def dotInc (x y : List R) (incX incY : Nat) : Nat → Nat → Nat → R → Option R
  | 0, _, _, sum => some sum
  | k + 1, ix, iy, sum => do
    let w ← y[iy]?
    let v ← x[ix]?
    dotInc x y incX incY k (add ix incX) (add iy incY) (sum + w * v)

/-- The rows of `Ger` with unit increments (ge_noasm.go:19-21). -/
def gerRows (n lda : Nat) (alpha : R) (y : List R) : List R → Nat → List R → Option (List R)
  | [], _, a => some a
  | xv :: x, i, a => do
    let row ← slice a (mul i lda) (add (mul i lda) n)
    let row ← axpyUnitary (alpha * xv) y 0 row
    gerRows n lda alpha y x (i + 1) (put a (mul i lda) row)

/-- The rows of `Ger` with other increments (ge_noasm.go:33-37). -/
def gerRowsInc (n lda : Nat) (alpha : R) (x y : List R) (incX incY ky : Nat) :
    Nat → Nat → Nat → List R → Option (List R)
  | 0, _, _, a => some a
  | k + 1, i, ix, a => do
    let xv ← x[ix]?
    let row ← slice a (mul i lda) (add (mul i lda) n)
    let row ← axpyInc (alpha * xv) y incY 1 (rounds n) ky 0 row
    gerRowsInc n lda alpha x y incX incY ky k (i + 1) (add ix incX) (put a (mul i lda) row)

/-- `Ger` (asm64/ge_noasm.go:15-38, asm32/ge_noasm.go:15-39). -/
def ger (m n : Nat) (alpha : R) (x : List R) (incX : Nat) (y : List R) (incY : Nat) (a : List R)
    (lda : Nat) : Option (List R) :=
  if incX = 1 ∧ incY = 1 then do
    let x ← slice x 0 m
    let y ← slice y 0 n
    gerRows n lda alpha y x 0 a
  else
    gerRowsInc n lda alpha x y incX incY (start n incY) (rounds m) 0 (start m incX) a

/-- One row of `GemvN`: `alpha` times the product, added to `beta` times the old element unless
`beta` is zero. -/
def rowValue (isZero : R → Bool) (alpha beta : R) (w d : R) : R :=
  if isZero beta then alpha * d else w * beta + alpha * d

/-- The rows of `GemvN` with unit increments (asm64/ge_noasm.go:54-65, asm32/gemv.go:21-32): `k`
rounds from row `i` on. -/
def gemvNRows (zero : R) (isZero : R → Bool) (n : Nat) (alpha : R) (a : List R) (lda : Nat)
    (x : List R) (beta : R) : Nat → Nat → List R → Option (List R)
  | 0, _, y => some y
  | k + 1, i, y => do
    let row ← slice a (mul lda i) (add (mul lda i) n)
    let d ← dotUnitary x row 0 zero
    let w ← y[i]?
    gemvNRows zero isZero n alpha a lda x beta k (i + 1)
      (y.set i (rowValue isZero alpha beta w d))

/-- The rows of `GemvN` with other increments (asm64/ge_noasm.go:67-78, asm32/gemv.go:33-44). -/
def gemvNRowsInc (zero : R) (isZero : R → Bool) (n : Nat) (alpha : R) (a : List R) (lda : Nat)
    (x : List R) (incX : Nat) (beta : R) (incY kx : Nat) :
    Nat → Nat → Nat → List R → Option (List R)
  | 0, _, _, y => some y
  | k + 1, i, iy, y => do
    let row ← slice a (mul lda i) (add (mul lda i) n)
    let d ← dotInc x row incX 1 (rounds n) kx 0 zero
    let w ← y[iy]?
    gemvNRowsInc zero isZero n alpha a lda x incX beta incY kx k (i + 1) (add iy incY)
      (y.set iy (rowValue isZero alpha beta w d))

/-- `GemvN` (asm64/ge_noasm.go:45-79, asm32/gemv.go:12-45). -/
def gemvN (zero : R) (isZero : R → Bool) (m n : Nat) (alpha : R) (a : List R) (lda : Nat)
    (x : List R) (incX : Nat) (beta : R) (y : List R) (incY : Nat) : Option (List R) :=
  if incX = 1 ∧ incY = 1 then
    gemvNRows zero isZero n alpha a lda x beta m 0 y
  else
    gemvNRowsInc zero isZero n alpha a lda x incX beta incY (start n incX) m 0 (start m incY) y

/-- `for i := 0; i < int(n); i++ { y[iy] = 0; iy += incY }` (asm64/ge_noasm.go:100-104). -/
def clearInc (zero : R) (incY : Nat) : Nat → Nat → List R → Option (List R)
  | 0, _, y => some y
  | k + 1, iy, y => do
    let _ ← y[iy]?
    clearInc zero incY k (add iy incY) (y.set iy zero)

/-- The first half of `GemvT`: `y` times `beta` (asm64/ge_noasm.go:93-111, asm32/gemv.go:60-78). -/
def gemvTScale (zero : R) (isZero : R → Bool) (n : Nat) (beta : R) (y : List R) (incY : Nat) :
    Option (List R) :=
  if isZero beta then
    (if incY = 1 then some (y.map fun _ => zero)
    else clearInc zero incY (rounds n) (start n incY) y)
  else if int incY < 0 then scalInc beta (word (-(int incY))) (rounds n) 0 y
  else if incY = 1 then do
    let head ← slice y 0 n
    some (put y 0 (scalUnitary beta head))
  else scalInc beta incY (rounds n) 0 y

/-- The rows of `GemvT` with unit increments (asm64/ge_noasm.go:113-118, asm32/gemv.go:80-85). -/
def gemvTRows (n : Nat) (alpha : R) (a : List R) (lda : Nat) (x : List R) :
    Nat → Nat → List R → Option (List R)
  | 0, _, y => some y
  | k + 1, i, y => do
    let v ← x[i]?
    let row ← slice a (mul lda i) (add (mul lda i) n)
    let y ← axpyUnitaryTo (alpha * v) row 0 y
    gemvTRows n alpha a lda x k (i + 1) y

/-- The rows of `GemvT` with other increments (asm64/ge_noasm.go:119-124, asm32/gemv.go:86-91). -/
def gemvTRowsInc (n : Nat) (alpha : R) (a : List R) (lda : Nat) (x : List R) (incX incY ky : Nat) :
    Nat → Nat → Nat → List R → Option (List R)
  | 0, _, _, y => some y
  | k + 1, i, ix, y => do
    let v ← x[ix]?
    let row ← slice a (mul lda i) (add (mul lda i) n)
    let y ← axpyInc (alpha * v) row 1 incY (rounds n) 0 ky y
    gemvTRowsInc n alpha a lda x incX incY ky k (i + 1) (add ix incX) y

/-- `GemvT` (asm64/ge_noasm.go:85-125, asm32/gemv.go:52-92). -/
def gemvT (zero : R) (isZero : R → Bool) (m n : Nat) (alpha : R) (a : List R) (lda : Nat)
    (x : List R) (incX : Nat) (beta : R) (y : List R) (incY : Nat) : Option (List R) := do
  let y ← gemvTScale zero isZero n beta y incY
  if incX = 1 ∧ incY = 1 then gemvTRows n alpha a lda x m 0 y
  else gemvTRowsInc n alpha a lda x incX incY (start n incY) m 0 (start m incX) y

end

/-! ### The remaining functions of asm64/stubs_noasm.go -/

section
variable [Add R] [Sub R] [Mul R] [Div R]

/-- `L1Norm` (asm64/stubs_noasm.go:18-23). -/
def l1Norm (zero : R) (abs : R → R) (x : List R) : R := x.foldl (fun sum v => sum + abs v) zero

/-- `L1NormInc` (asm64/stubs_noasm.go:31-36) from index `i` on; `fuel` bounds the rounds: with a
positive increment there are at most `n`, and with any other none for `n ≥ 0`. -/
def l1NormInc (abs : R → R) (x : List R) (n : Nat) (incX : Int) : Nat → Int → R → Option R
  | 0, _, sum => some sum
  | fuel + 1, i, sum =>
    if i < n * incX then do
      let v ← (if i < 0 then none else x[i.toNat]?)
      l1NormInc abs x n incX fuel (i + incX) (sum + abs v)
    else some sum

/-- `L1Dist` (asm64/stubs_noasm.go:133-139), from index `i` of `t` on. -/
def l1Dist (abs : R → R) (t : List R) : List R → Nat → R → Option R
  | [], _, norm => some norm
  | v :: s, i, norm => do
    let w ← t[i]?
    l1Dist abs t s (i + 1) (norm + abs (w - v))

/-- The loop of `LinfDist` (asm64/stubs_noasm.go:161-166), from index `i` of `t` on. -/
def linfLoop (abs : R → R) (gt : R → R → Bool) (nan : R → Bool) (t : List R) :
    List R → Nat → R → Option R
  | [], _, norm => some norm
  | v :: s, i, norm => do
    let w ← t[i]?
    linfLoop abs gt nan t s (i + 1)
      (if gt (abs (w - v)) norm || nan norm then abs (w - v) else norm)

/-- `LinfDist` (asm64/stubs_noasm.go:155-168). -/
def linfDist (zero : R) (abs : R → R) (gt : R → R → Bool) (nan : R → Bool) (s t : List R) :
    Option R :=
  match s with
  | [] => some zero
  | v :: s => do
    let w ← t[0]?
    linfLoop abs gt nan t s 1 (abs (w - v))

/-- The loop of `CumProd` (asm64/stubs_noasm.go:96-98): `dst[i+1] = dst[i] * v`. -/
def cumProdLoop : List R → Nat → List R → Option (List R)
  | [], _, dst => some dst
  | v :: s, i, dst => do
    let w ← dst[i]?
    let _ ← dst[i + 1]?
    cumProdLoop s (i + 1) (dst.set (i + 1) (w * v))

/-- `CumProd` (asm64/stubs_noasm.go:91-100). -/
def cumProd (dst s : List R) : Option (List R) :=
  match s with
  | [] => some dst
  | v :: s => do
    let _ ← dst[0]?
    cumProdLoop s 0 (dst.set 0 v)

/-- `Div` (asm64/stubs_noasm.go:107-111), from index `i` of `dst` on. -/
def div : List R → Nat → List R → Option (List R)
  | [], _, dst => some dst
  | v :: s, i, dst => do
    let w ← dst[i]?
    div s (i + 1) (dst.set i (w / v))

/-- `DivTo` (asm64/stubs_noasm.go:119-124), from index `i` of `dst` on. -/
def divTo (t : List R) : List R → Nat → List R → Option (List R)
  | [], _, dst => some dst
  | v :: s, i, dst => do
    let w ← t[i]?
    let _ ← dst[i]?
    divTo t s (i + 1) (dst.set i (v / w))

/-- `Add` (asm64/stubs_noasm.go:43-47), from index `i` of `dst` on. -/
def addTo : List R → Nat → List R → Option (List R)
  | [], _, dst => some dst
  | v :: s, i, dst => do
    let w ← dst[i]?
    addTo s (i + 1) (dst.set i (w + v))

/-- `AddConst` (asm64/stubs_noasm.go:54-58). -/
def addConst (alpha : R) (x : List R) : List R := x.map (· + alpha)

end

end Verif.Strided
