/-
`losses.CrossEntropy` of a vector of float32 (losses/losses.go:39-41) on amd64, from the bits of the scores to the bits of the
loss: `ag.LogSumExp` of one operand (ag/operators.go:510-516) and the operators it uses, with the routines of
`Model/Asm.lean`, `Model/ExpLog.lean`.
-/
import Verif.Model.Softmax32
set_option autoImplicit false
set_option linter.unusedSimpArgs false

namespace Verif.CrossEntropy32
open Verif.F32 Verif.Asm Verif.Spec.Kernels Verif.Softmax32

/-- The loop of `ArgMax` (mat/dense.go:1071-1076) from index `i` on; `k`, `m` are `maxIndex`, `maxValue`. -/
def argMaxLoop : Nat → Nat → F32.W → List F32.W → Nat
  | _, k, _, [] => k
  | i, k, m, v :: l => if lt m v then argMaxLoop (i + 1) i v l else argMaxLoop (i + 1) k m l

/-- `ArgMax` of a vector (mat/dense.go:1061-1078); `none` is the panic for an empty one. -/
def argMax32 : List F32.W → Option Nat
  | [] => none
  | v :: l => some (argMaxLoop 0 0 v (v :: l))

/-- `ReduceMax.Forward` (mat/gradfn/reducemax.go:33-37). -/
def reduceMax32 (l : List F32.W) : Option F32.W := do
  let k ← argMax32 l
  l[k]?

/-- `Log` of a scalar `w` (mat/gradfn/log.go:31-33, mat/dense.go:949-966): `Log32` of one element `w` at address 0, the result
`a` is found at address 1. -/
def Log1 (cpu : Cpu) (j : ExpLog.Lane) (scalar : F32.W → F32.W) (w a : F32.W) : Prop :=
  ∃ m : ExpLog.Mem, m 0 = w ∧ ∃ m', ExpLog.log32 (if cpu.avx2 then 8 else 4)
    (ExpLog.lane ieee (if cpu.avx2 then ExpLog.logAVX else ExpLog.logSSE) j) scalar ⟨0, 1⟩ ⟨1, 1⟩ m = some m' ∧ m' 1 = a

/-- `Add` of two scalars `a`, `b` (mat/gradfn/add.go:34-38, mat/dense.go:413-429): `Add32` with the operands at addresses 0 and
4 and the result `c` at 8. -/
def Add1 (cpu : Cpu) (a b c : F32.W) : Prop :=
  ∃ s t : St F32.W, s.mem 0 = a ∧ s.mem 4 = b ∧
    Call (frame3 4 (F32.alu divIeee) ⟨0, 1⟩ ⟨4, 1⟩ ⟨8, 1⟩) (addFn cpu .f32) s t ∧ t.mem 8 = c

/-- `LogSumExp(x)` of one operand (ag/operators.go:510-516) with the result `b`: `max = ReduceMax(x)`; `y = SubScalar(x, max)`
is `AddConst32(float32(-max), x, y)` (mat/dense.go:519-531); `e = Exp(y)` is `Exp32(y, e)` (mat/dense.go:969-986);
`sum = ReduceSum(e)` is `Sum32(e)`; then `Add(max, Log(sum))`.  The conversions to float64 and back do not change a float32. -/
def LogSumExp (cpu : Cpu) (j : ExpLog.Lane) (exp log : F32.W → F32.W) (x y e : Asm.Sl) (s t : St F32.W) (b : F32.W) : Prop :=
  ∃ m s₁ m₂ w a,
    reduceMax32 (elems 4 s.mem x.base x.len) = some m ∧
    Call (frameC 4 (F32.alu divIeee) (flip m) x y) (addConstFn cpu .f32) s s₁ ∧
    ExpLog.exp32 (expKernel cpu j).1 (expKernel cpu j).2 exp ⟨y.base / 4, y.len⟩ ⟨e.base / 4, e.len⟩
      (words s₁.mem) = some m₂ ∧
    Call (frame1 4 (F32.alu divIeee) e) (sumFn cpu .f32) { s₁ with mem := putWords s₁.mem m₂ } t ∧
    t.out = some w ∧
    Log1 cpu j log w a ∧
    Add1 cpu m a b

/-- `CrossEntropy(x, c)` (losses/losses.go:39-41) with the loss `l`: `Add(Neg(At(x, c)), LogSumExp(x))`, where `Neg`
(mat/gradfn/misc.go:146-154) changes the sign. -/
def Runs (cpu : Cpu) (j : ExpLog.Lane) (exp log : F32.W → F32.W) (x y e : Asm.Sl) (c : Nat) (s t : St F32.W) (l : F32.W) :
    Prop :=
  ∃ v b,
    (elems 4 s.mem x.base x.len)[c]? = some v ∧
    LogSumExp cpu j exp log x y e s t b ∧
    Add1 cpu (flip v) b l

end Verif.CrossEntropy32
