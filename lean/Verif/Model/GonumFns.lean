/-
The functions of mat/internal/f32/asm32 and mat/internal/f64/asm64 that matrices call: the frames of
their calls on amd64 (files `stubs_amd64.go`, `ge_amd64.go`) and the portable loops (files
`stubs_noasm.go`, `axpy.go`, `ge_noasm.go`), over the same memory of cells, and the function
`MatrixMul` of mat/internal/f32 and mat/internal/f64, which calls `AxpyUnitary`.
-/
import Verif.Model.GonumCode
import Verif.Model.MatFuncs
set_option autoImplicit false
set_option linter.unusedSimpArgs false

namespace Verif.Gonum

open Verif.Asm (Arith Alu Sl Sz poke)

variable {R : Type}

/-- `AxpyUnitary` on amd64 (asm32/stubs_amd64.go:15, asm64/stubs_amd64.go:45). -/
def axpyUnitary : Sz → List Line
  | .f32 => axpyUnitary32
  | .f64 => axpyUnitary64

/-- `AxpyUnitaryTo` on amd64 (asm32/stubs_amd64.go:22, asm64/stubs_amd64.go:52). -/
def axpyUnitaryTo : Sz → List Line
  | .f32 => axpyUnitaryTo32
  | .f64 => axpyUnitaryTo64

/-- What a call of `AxpyUnitary(alpha, x, y)` may touch, and its element argument. -/
def axpyEnv (sz : Sz) (alu : Alu R) (alpha : R) (x y : Sl) : Env R where
  es := sz.bytes
  alu := alu
  eqf := fun _ _ => false
  rd := fun a => x.has sz.bytes a || y.has sz.bytes a
  wr := y.has sz.bytes
  argF := fun off => if off = 0 then alpha else alu.zero

/-- The words of the frame: alpha at 0 (padded to 8 bytes), then base, length and capacity. -/
def axpyFrame (x y : Sl) : Nat → Nat
  | 8 => x.base | 16 => x.len | 32 => y.base | 40 => y.len
  | _ => 0

/-- The same for `AxpyUnitaryTo(dst, alpha, x, y)`. -/
def axpyToEnv (sz : Sz) (alu : Alu R) (alpha : R) (dst x y : Sl) : Env R where
  es := sz.bytes
  alu := alu
  eqf := fun _ _ => false
  rd := fun a => x.has sz.bytes a || y.has sz.bytes a
  wr := dst.has sz.bytes
  argF := fun off => if off = 24 then alpha else alu.zero

def axpyToFrame (dst x y : Sl) : Nat → Nat
  | 0 => dst.base | 8 => dst.len | 32 => x.base | 40 => x.len | 56 => y.base | 64 => y.len
  | _ => 0

/-- The loop `for i, v := range x { dst[i] = alpha*v + y[i] }`, from index `i`, `k` rounds. -/
def axpyLoop (alu : Alu R) (alpha : R) (es dst x y : Nat) : Nat → Nat → (Nat → R) → (Nat → R)
  | 0, _, m => m
  | k + 1, i, m => axpyLoop alu alpha es dst x y k (i + 1)
      (poke m (dst + es * i) (alu.op .add (alu.op .mul alpha (m (x + es * i))) (m (y + es * i))))

/-- The portable `AxpyUnitaryTo` (asm32/stubs_noasm.go:26-30, asm64/axpy.go:26-30); it panics at the
first index that `y` or `dst` has not. -/
def puregoAxpyTo (sz : Sz) (alu : Alu R) (alpha : R) (dst x y : Sl) (m : Nat → R) :
    Option (Nat → R) :=
  if x.len ≤ y.len ∧ x.len ≤ dst.len then
    some (axpyLoop alu alpha sz.bytes dst.base x.base y.base x.len 0 m)
  else none

/-- The loop `for i, v := range x { y[i] += alpha*v }`. -/
def axpyLoop1 (alu : Alu R) (alpha : R) (es x y : Nat) : Nat → Nat → (Nat → R) → (Nat → R)
  | 0, _, m => m
  | k + 1, i, m => axpyLoop1 alu alpha es x y k (i + 1)
      (poke m (y + es * i) (alu.op .add (m (y + es * i)) (alu.op .mul alpha (m (x + es * i)))))

/-- The portable `AxpyUnitary` (asm32/stubs_noasm.go:15-19, asm64/axpy.go:15-19). -/
def puregoAxpy (sz : Sz) (alu : Alu R) (alpha : R) (x y : Sl) (m : Nat → R) : Option (Nat → R) :=
  if x.len ≤ y.len then some (axpyLoop1 alu alpha sz.bytes x.base y.base x.len 0 m) else none

/-- What a call of `CumSum(dst, s)` of 64 bits may touch (asm64/stubs_amd64.go:83). -/
def cumSumEnv (alu : Alu R) (dst x : Sl) : Env R where
  es := 8
  alu := alu
  eqf := fun _ _ => false
  rd := x.has 8
  wr := dst.has 8
  argF := fun _ => alu.zero

def cumSumFrame (dst x : Sl) (cap : Nat) : Nat → Nat
  | 0 => dst.base | 8 => dst.len | 16 => cap | 24 => x.base | 32 => x.len
  | _ => 0

/-- The loop `for i, v := range s[1:] { dst[i+1] = dst[i] + v }`, from index `i`, `k` rounds. -/
def cumSumLoop (alu : Alu R) (es dst x : Nat) : Nat → Nat → (Nat → R) → (Nat → R)
  | 0, _, m => m
  | k + 1, i, m => cumSumLoop alu es dst x k (i + 1)
      (poke m (dst + es * (i + 1)) (alu.op .add (m (dst + es * i)) (m (x + es * (i + 1)))))

/-- The portable `CumSum` (asm64/stubs_noasm.go:70-79, f32/gonum.go:57-66); it panics at the first
index that `dst` has not. -/
def puregoCumSum (alu : Alu R) (es : Nat) (dst x : Sl) (m : Nat → R) : Option (Nat → R) :=
  if x.len = 0 then some m
  else if x.len ≤ dst.len then
    some (cumSumLoop alu es dst.base x.base (x.len - 1) 0 (poke m dst.base (m x.base)))
  else none

/-- What a call of `GemvN(m, n, alpha, a, lda, x, incX, beta, y, incY)` of 64 bits may touch
(asm64/ge_amd64.go:22), and its element arguments; `eqf` is the comparison of `COMISD`. -/
def gemvEnv (alu : Alu R) (eqf : R → R → Bool) (alpha beta : R) (a x y : Sl) : Env R where
  es := 8
  alu := alu
  eqf := eqf
  rd := fun p => a.has 8 p || x.has 8 p || y.has 8 p
  wr := y.has 8
  argF := fun off => if off = 16 then alpha else if off = 88 then beta else alu.zero

/-- The words of its frame. -/
def gemvFrame (m n lda incX incY : Nat) (a x y : Sl) : Nat → Nat
  | 0 => m | 8 => n | 24 => a.base | 32 => a.len | 48 => lda | 56 => x.base | 64 => x.len
  | 80 => incX | 96 => y.base | 104 => y.len | 120 => incY
  | _ => 0

/-- The portable `DotUnitary` (asm64/dot.go:16-21): `for i, v := range x { sum += y[i] * v }` for the
`k` elements of `x` from index `i` on. -/
def dotLoop (alu : Alu R) (x y : Nat) (m : Nat → R) : Nat → Nat → R → R
  | 0, _, sum => sum
  | k + 1, i, sum =>
    dotLoop alu x y m k (i + 1) (alu.op .add sum (alu.op .mul (m (y + 8 * i)) (m (x + 8 * i))))

/-- The rows of the portable `GemvN` (asm64/ge_noasm.go:54-65), `k` of them from row `i` on. -/
def gemvLoop (alu : Alu R) (eqf : R → R → Bool) (alpha beta : R) (n lda a x y : Nat) :
    Nat → Nat → (Nat → R) → (Nat → R)
  | 0, _, m => m
  | k + 1, i, m =>
    gemvLoop alu eqf alpha beta n lda a x y k (i + 1) (poke m (y + 8 * i)
      (if eqf beta alu.zero then
        alu.op .mul alpha (dotLoop alu (a + 8 * (lda * i)) x m n 0 alu.zero)
      else alu.op .add (alu.op .mul (m (y + 8 * i)) beta)
        (alu.op .mul alpha (dotLoop alu (a + 8 * (lda * i)) x m n 0 alu.zero))))

/-- The portable `GemvN` (asm64/ge_noasm.go:45-66) for increments of one; it panics when a row of
`a` ends beyond the slice, or `x` or `y` is too short. -/
def puregoGemvN (alu : Alu R) (eqf : R → R → Bool) (alpha beta : R) (rows n lda : Nat) (a x y : Sl)
    (m : Nat → R) : Option (Nat → R) :=
  if rows = 0 ∨ lda * (rows - 1) + n ≤ a.len ∧ n ≤ x.len ∧ rows ≤ y.len then
    some (gemvLoop alu eqf alpha beta n lda a.base x.base y.base rows 0 m)
  else none

/-! ### The callers -/

/-- One call of the assembly `AxpyUnitary(v, x, y)`, from memory `m` to memory `m'`; what the
registers hold before the call is open. -/
def AxpyOn (sz : Sz) (alu : Alu R) (v : R) (x y : Sl) (m m' : Nat → R) : Prop :=
  ∃ s t : St R, s.mem = m ∧ s.frame = axpyFrame x y ∧
    Call (axpyEnv sz alu v x y) (axpyUnitary sz) s t ∧ t.mem = m'

def AxpyToOn (sz : Sz) (alu : Alu R) (v : R) (dst x y : Sl) (m m' : Nat → R) : Prop :=
  ∃ s t : St R, s.mem = m ∧ s.frame = axpyToFrame dst x y ∧
    Call (axpyToEnv sz alu v dst x y) (axpyUnitaryTo sz) s t ∧ t.mem = m'

/-- The inner loop of `MatrixMul` (f32/gonum.go:14-19, f64/gonum.go:14-19) for row `i`, from index
`l` on: `a`, `b`, `c` are the base addresses of the three slices. -/
inductive MulRow (sz : Sz) (alu : Alu R) (isZero : R → Bool) (aCols bCols a b c i : Nat) :
    Nat → (Nat → R) → (Nat → R) → Prop
  | done {m} : MulRow sz alu isZero aCols bCols a b c i aCols m m
  | skip {l m m'} : l < aCols → isZero (m (a + sz.bytes * (i * aCols + l))) = true →
      MulRow sz alu isZero aCols bCols a b c i (l + 1) m m' →
      MulRow sz alu isZero aCols bCols a b c i l m m'
  | axpy {l m m1 m'} : l < aCols → isZero (m (a + sz.bytes * (i * aCols + l))) = false →
      AxpyOn sz alu (m (a + sz.bytes * (i * aCols + l)))
        ⟨b + sz.bytes * (l * bCols), bCols⟩ ⟨c + sz.bytes * (i * bCols), bCols⟩ m m1 →
      MulRow sz alu isZero aCols bCols a b c i (l + 1) m1 m' →
      MulRow sz alu isZero aCols bCols a b c i l m m'

/-- The outer loop of `MatrixMul` (f32/gonum.go:12-20, f64/gonum.go:12-20), from row `i` on. -/
inductive MulRows (sz : Sz) (alu : Alu R) (isZero : R → Bool) (aRows aCols bCols a b c : Nat) :
    Nat → (Nat → R) → (Nat → R) → Prop
  | done {m} : MulRows sz alu isZero aRows aCols bCols a b c aRows m m
  | row {i m m1 m'} : i < aRows → MulRow sz alu isZero aCols bCols a b c i 0 m m1 →
      MulRows sz alu isZero aRows aCols bCols a b c (i + 1) m1 m' →
      MulRows sz alu isZero aRows aCols bCols a b c i m m'

/-- The loop of `MulT` (dense.go:777-782, 792-797), from index `k` on: `d` has `rows` rows of `cols`
elements, `v` is the other operand, `out` the result. -/
inductive MulTRun (sz : Sz) (alu : Alu R) (rows cols d v out : Nat) :
    Nat → (Nat → R) → (Nat → R) → Prop
  | done {m} : MulTRun sz alu rows cols d v out rows m m
  | step {k m m1 m'} : k < rows →
      AxpyToOn sz alu (m (v + sz.bytes * k)) ⟨out, cols⟩ ⟨d + sz.bytes * (k * cols), cols⟩ ⟨out, cols⟩
        m m1 →
      MulTRun sz alu rows cols d v out (k + 1) m1 m' →
      MulTRun sz alu rows cols d v out k m m'

/-- One call of the assembly `GemvN` by `Mul` (dense.go:735-746): `d` has `rows` rows of `cols`
elements, `v` is the other operand, `out` the result. -/
def MulVecOn (alu : Alu R) (eqf : R → R → Bool) (one : R) (rows cols d v out : Nat)
    (m m' : Nat → R) : Prop :=
  ∃ s t : St R, s.mem = m ∧
    s.frame = gemvFrame rows cols cols 1 1 ⟨d, rows * cols⟩ ⟨v, cols⟩ ⟨out, rows⟩ ∧
    Call (gemvEnv alu eqf one alu.zero ⟨d, rows * cols⟩ ⟨v, cols⟩ ⟨out, rows⟩) gemvN64 s t ∧
    t.mem = m'

end Verif.Gonum
