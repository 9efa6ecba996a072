/-
`Dense[float32].Softmax` (mat/dense.go:1080-1112) on amd64, from the bits of the elements to the bits of the result: the
sequence of the calls into mat/internal/matfuncs with the routines of `Model/Asm.lean`, `Model/ExpLog.lean`.
-/
import Verif.Model.MatFuncs
import Verif.Model.F32Fma
import Verif.Model.ExpLog
import Verif.Spec.Kernels
set_option autoImplicit false
set_option linter.unusedSimpArgs false

namespace Verif.F32

/-- `x / y` of two float32 (DIVSS), rounded to nearest even: 60 bits of the quotient below the point of the quotient of the
significands, and a bit that says whether anything is left; more than rounding to 24 bits needs. -/
def divIeee (x y : W) : W :=
  if isNaN x || isNaN y then qNaN
  else
    let (sx, mx, ex) := unpack x
    let (sy, my, ey) := unpack y
    let s := sx != sy
    if isInf x then (if isInf y then qNaN else if s then negInf else posInf)
    else if isInf y then (if s then 0x80000000 else 0)
    else if my = 0 then (if mx = 0 then qNaN else if s then negInf else posInf)
    else
      let q := mx * 2 ^ 60 / my
      let r := mx * 2 ^ 60 % my
      round s (2 * q + if r = 0 then 0 else 1) (ex - ey - 61)

/-- `for _, v := range d.data[1:] { if v > max { max = v } }` (mat/dense.go:1038-1042). -/
def maxLoop : W → List W → W
  | m, [] => m
  | m, v :: l => maxLoop (if lt m v then v else m) l

/-- `(*Dense[float32]).max` (mat/dense.go:1033-1044); `none` is the panic for an empty matrix. -/
def max32 : List W → Option W
  | [] => none
  | v :: l => some (maxLoop v l)

end Verif.F32

namespace Verif.Softmax32
open Verif.F32 Verif.Asm Verif.Spec.Kernels

/-- The memory with addresses that count float32 elements, as `Model/ExpLog.lean` has it. -/
def words (m : Nat → F32.W) : ExpLog.Mem := fun p => m (4 * p)

/-- The memory after a routine that works on elements. -/
def putWords (m : Nat → F32.W) (m' : ExpLog.Mem) : Nat → F32.W := fun a => if a % 4 = 0 then m' (a / 4) else m a

/-- `exp32` of mat/internal/matfuncs (exp_amd64.go:9-45): `ExpAVX32` with 8 elements or `ExpSSE32` with 4; `j` is what is left
in the registers. -/
def expKernel (cpu : Cpu) (j : ExpLog.Lane) : Nat × (F32.W → F32.W) :=
  if cpu.avx2 then (8, ExpLog.lane ieee ExpLog.expAVX j) else (4, ExpLog.lane ieee ExpLog.expSSE j)

/-- `Dense[float32].Softmax` of a vector with data `x` (mat/dense.go:1082-1112), where `out` is the data of the new matrix.
`SubScalar(max)` is `AddConst32(float32(-max), d.data, out.data)` (dense.go:519-531); transposing a vector in place changes the
shape only; `Exp32` works in place; `sum` is `Sum32`; `1 / sum` is a division of float32; `ProdScalarInPlace` is
`MulConst32(n, out.data, out.data)` (dense.go:606-618).  The conversions to float64 and back do not change a float32.
For an empty vector the code returns before all this. -/
def Runs (cpu : Cpu) (j : ExpLog.Lane) (scalar : F32.W → F32.W) (x out : Asm.Sl) (s t : St F32.W) : Prop :=
  ∃ m s₁ m₂ s₃ w,
    max32 (elems 4 s.mem x.base x.len) = some m ∧
    Call (frameC 4 (F32.alu divIeee) (flip m) x out) (addConstFn cpu .f32) s s₁ ∧
    ExpLog.exp32 (expKernel cpu j).1 (expKernel cpu j).2 scalar ⟨out.base / 4, out.len⟩ ⟨out.base / 4, out.len⟩
      (words s₁.mem) = some m₂ ∧
    Call (frame1 4 (F32.alu divIeee) out) (sumFn cpu .f32) { s₁ with mem := putWords s₁.mem m₂ } s₃ ∧
    s₃.out = some w ∧
    Call (frameC 4 (F32.alu divIeee) (divIeee 0x3f800000 w) out out) (mulConstFn cpu .f32) s₃ t

end Verif.Softmax32
