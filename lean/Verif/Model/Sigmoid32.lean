/-
`Dense[float32].Sigmoid` (mat/dense.go:989-1010) on amd64, from the bits of the elements to the bits of the result, with the
routines of `Model/Asm.lean`, `Model/ExpLog.lean`.
-/
import Verif.Model.Softmax32
set_option autoImplicit false

namespace Verif.Sigmoid32
open Verif.F32 Verif.Asm Verif.Spec.Kernels Verif.Softmax32

/-- `Sigmoid` of data `x` may give `z`: `ProdScalar(-1)` is `MulConst32(float32(-1), d.data, out.data)` into a new slice
(mat/dense.go:591-602), `Exp32` works in place, and then every element `v` becomes `1 / (1 + v)` in float32.  `j` is what is left
in the vector registers and `scalar` what `float32(math.Exp(float64(v)))` gives for the elements behind the last full vector.
For an empty matrix the code returns a copy, which is the same. -/
def Runs (cpu : Cpu) (j : ExpLog.Lane) (scalar : F32.W → F32.W) (x z : List F32.W) : Prop :=
  ∃ (p q : Nat) (s s₁ : St F32.W) (m₂ : ExpLog.Mem), q % 4 = 0 ∧ Apart 4 x.length p q ∧ elems 4 s.mem p x.length = x ∧
    Call (frameC 4 (F32.alu divIeee) 0xbf800000 ⟨p, x.length⟩ ⟨q, x.length⟩) (mulConstFn cpu .f32) s s₁ ∧
    ExpLog.exp32 (expKernel cpu j).1 (expKernel cpu j).2 scalar ⟨q / 4, x.length⟩ ⟨q / 4, x.length⟩ (words s₁.mem) = some m₂ ∧
    z = (elems 4 (putWords s₁.mem m₂) q x.length).map fun v => divIeee 0x3f800000 (addIeee 0x3f800000 v)

end Verif.Sigmoid32
