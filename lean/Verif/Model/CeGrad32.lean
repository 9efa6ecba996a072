/-
The backward pass of `losses.CrossEntropy` (losses/losses.go:39-41) for a vector of float32 on amd64, from the bits of the scores to the
bits of their gradient.  The forward pass is in `Model/CrossEntropy32.lean`; what is repeated here is what the backward pass uses of it.
An operation is a relation between the data of its operands and that of its result.

The scores have three users, so `AccGrad` (mat/dense_grad.go:21-29) copies the first contribution and adds the others to it with
`AddInPlace`.  The operators run their backward passes concurrently (ag/operator.go:272-300), so the model leaves the order open.
-/
import Verif.Model.Back32
import Verif.Model.CrossEntropy32
import Verif.Model.Norm32
set_option autoImplicit false

namespace Verif.CeGrad32
open Verif.F32 Verif.Asm Verif.Spec.Kernels Verif.Softmax32 Verif.CrossEntropy32 Verif.Net32 Verif.Rec32 Verif.Att32 Verif.Norm32 Verif.Back32

/-- 1 and -1. -/
def one : F32.W := 0x3f800000
def minusOne : F32.W := 0xbf800000

/-- `Exp` (mat/dense.go:969-986): `Exp32` into a new slice. -/
def ExpNew (cpu : Cpu) (j : ExpLog.Lane) (exp : F32.W → F32.W) (x z : List F32.W) : Prop :=
  ∃ (p q : Nat) (m : Nat → F32.W) (m₂ : ExpLog.Mem), p % 4 = 0 ∧ q % 4 = 0 ∧ Apart 4 x.length p q ∧ elems 4 m p x.length = x ∧
    ExpLog.exp32 (expKernel cpu j).1 (expKernel cpu j).2 exp ⟨p / 4, x.length⟩ ⟨q / 4, x.length⟩ (words m) = some m₂ ∧
    z = elems 4 (putWords m m₂) q x.length

/-- `safeLogDeriv` (mat/gradfn/log.go:48-56), rounded to float32; `inv v` is `float32(1 / float64(v))`, `none` is the panic.  The
derivative at 0 is taken to be `1 / 1e-8`. -/
def logSlope (inv : F32.W → F32.W) (v : F32.W) : Option F32.W :=
  if lt 0 v then some (inv v) else if eqZero v then some 0x4cbebc20 else none

/-- `ZerosLike` and `SetAt(v, k)` (mat/gradfn/at.go:35-43, mat/gradfn/reducemax.go:39-51). -/
def oneHot (n k : Nat) (v : F32.W) : List F32.W := (List.replicate n 0).set k v

/-- What the operators of `LogSumExp` (ag/operators.go:510-516) hand down when they get the gradient 1: `p` to the scores, from
`SubScalar`, and `ρ` to their maximum, which is at `k`.

* forward: `max = ReduceMax(y)`, `d = SubScalar(y, max)`, `e = Exp(d)`, `s = ReduceSum(e)`;
* `Add` (mat/gradfn/add.go:40-56) hands 1 to `max` and to the logarithm;
* `Log` (mat/gradfn/log.go:35-46) hands the slope, times 1, to the sum;
* `ReduceSum` (mat/gradfn/reducesum.go:35-46) hands that to every element;
* `Exp` (mat/gradfn/exp.go:35-46) computes the exponentials again, and multiplies by them;
* `SubScalar` (mat/gradfn/subscalar.go:37-51) hands that on to the scores, and `ProdScalar(-1).Sum()` to the maximum, which then has two
  contributions, in either order. -/
def LseGrad (cpu : Cpu) (j : ExpLog.Lane) (exp inv : F32.W → F32.W) (y : List F32.W) (k : Nat) (p : List F32.W) (ρ : F32.W) : Prop :=
  ∃ m d e s q₀ q e' np r,
    argMax32 y = some k ∧ y[k]? = some m ∧ SubConst cpu m y d ∧ ExpNew cpu j exp d e ∧ Sum1 cpu e s ∧
    logSlope inv s = some q₀ ∧ Prod [q₀] [one] [q] ∧
    ExpNew cpu j exp d e' ∧ Prod e' (List.replicate y.length q) p ∧
    Scale cpu minusOne p np ∧ Sum1 cpu np r ∧
    (AddIn cpu [one] [r] [ρ] ∨ AddIn cpu [r] [one] [ρ])

/-- Three gradients are accumulated, in any order. -/
def Acc3 (cpu : Cpu) (l : List (List F32.W)) (g : List F32.W) : Prop :=
  ∃ a b c h, List.Perm [a, b, c] l ∧ AddIn cpu a b h ∧ AddIn cpu h c g

/-- The gradient of `CrossEntropy(y, c)` with respect to `y`: `Add` hands 1 to `Neg(At(y, c))` and to `LogSumExp(y)`, `Neg` multiplies it
by -1 (mat/gradfn/unaryelementwise.go:31-41), `At` (mat/gradfn/at.go:35-43) puts that at `c`, and `ReduceMax` puts `ρ` at the maximum.  An
index out of range is a panic. -/
def CeGrad (cpu : Cpu) (j : ExpLog.Lane) (exp inv : F32.W → F32.W) (c : Nat) (y g : List F32.W) : Prop :=
  c < y.length ∧ ∃ ν k p ρ, Prod [minusOne] [one] [ν] ∧ LseGrad cpu j exp inv y k p ρ ∧
    Acc3 cpu [oneHot y.length c ν, p, oneHot y.length k ρ] g

end Verif.CeGrad32
