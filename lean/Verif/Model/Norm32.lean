/-
Normalisation layers of float32 on amd64 (nn/normalization/{layernorm,layernormsimple,rmsnorm,fixnorm,scalenorm}), from the bits of
input and parameters to the bits of the result, for one vector, with the operations of `Model/Adam32.lean`.  An operation is a
relation between the data of its operands and that of its result.
-/
import Verif.Model.Adam32
set_option autoImplicit false

namespace Verif.Norm32
open Verif.F32 Verif.Asm Verif.Spec.Kernels Verif.Net32 Verif.Rec32 Verif.Att32 Verif.Adam32

/-- `Sum` (mat/dense.go:1013-1026): `Sum32`. -/
def Sum1 (cpu : Cpu) (x : List F32.W) (w : F32.W) : Prop :=
  ∃ (p : Nat) (s t : St F32.W), p % 4 = 0 ∧ elems 4 s.mem p x.length = x ∧
    Call (frame1 4 (F32.alu divIeee) ⟨p, x.length⟩) (sumFn cpu .f32) s t ∧ t.out = some w

/-- `float32(1 / float64(n))`; for `n` up to 2^24 the two roundings are as good as one. -/
def invCount (n : Nat) : F32.W := divIeee 0x3f800000 (F32.round false n 0)

/-- `ReduceMean` (mat/gradfn/reducemean.go:31-34). -/
def Mean (cpu : Cpu) (x : List F32.W) (w : F32.W) : Prop :=
  ∃ s, Sum1 cpu x s ∧ ScaleIn cpu (invCount x.length) [s] [w]

/-- `AddScalar(c)` (mat/gradfn/addscalar.go:34-36, mat/dense.go:452-464): `AddConst32` into a new slice. -/
def AddConst (cpu : Cpu) (c : F32.W) (x z : List F32.W) : Prop :=
  ∃ (p q : Nat) (s t : St F32.W), Apart 4 x.length p q ∧ elems 4 s.mem p x.length = x ∧
    Call (frameC 4 (F32.alu divIeee) c ⟨p, x.length⟩ ⟨q, x.length⟩) (addConstFn cpu .f32) s t ∧ elems 4 t.mem q x.length = z

/-- `SubScalar(c)` (mat/gradfn/subscalar.go:33-35, mat/dense.go:519-531): `AddConst32` with `-c`. -/
def SubConst (cpu : Cpu) (c : F32.W) (x z : List F32.W) : Prop := AddConst cpu (F32.flip c) x z

/-- `DivScalar` (mat/gradfn/divscalar.go:31-33): `ProdScalar(1.0 / c)`; the reciprocal is of float64 and then rounded to float32, and
the two roundings are as good as one. -/
def DivConst (cpu : Cpu) (c : F32.W) (x z : List F32.W) : Prop := Scale cpu (divIeee 0x3f800000 c) x z

/-- `NewScalar(1e-10)` of float32. -/
def tiny10 : F32.W := 0x2edbe6ff

/-- `mean` and `dev` (layernorm.go:51-52, layernormsimple.go:40-41). -/
def Dev (cpu : Cpu) (x dev : List F32.W) : Prop := ∃ m, Mean cpu x m ∧ SubConst cpu m x dev

/-- `ag.ReduceMean(ag.Square(x))`; `Square` is `Prod(x, x)` (mat/gradfn/square.go). -/
def MeanSq (cpu : Cpu) (x : List F32.W) (v : F32.W) : Prop := ∃ sq, Prod x x sq ∧ Mean cpu sq v

/-- `layernorm.Model.Forward` (layernorm.go:45-57). -/
def LayerNorm (cpu : Cpu) (w b : List F32.W) (eps : F32.W) (x z : List F32.W) : Prop :=
  ∃ dev v ve y p, Dev cpu x dev ∧ MeanSq cpu dev v ∧ AddNew cpu [v] [eps] [ve] ∧ DivConst cpu (sqrtIeee ve) dev y ∧
    Prod y w p ∧ AddNew cpu p b z

/-- `layernormsimple.Model.Forward` (layernormsimple.go:36-46). -/
def LayerNormSimple (cpu : Cpu) (x z : List F32.W) : Prop :=
  ∃ dev v d, Dev cpu x dev ∧ MeanSq cpu dev v ∧ AddNew cpu [sqrtIeee v] [tiny10] [d] ∧ DivConst cpu d dev z

/-- `rmsnorm.Model.Forward` (rmsnorm.go:42-53). -/
def RMSNorm (cpu : Cpu) (w b : List F32.W) (x z : List F32.W) : Prop :=
  ∃ v d y p, MeanSq cpu x v ∧ AddConst cpu tiny10 [sqrtIeee v] [d] ∧ DivConst cpu d x y ∧ Prod y w p ∧ AddNew cpu p b z

/-- `fixnorm.Model.Forward` (fixnorm.go:36-47). -/
def FixNorm (cpu : Cpu) (x z : List F32.W) : Prop :=
  ∃ sq v d, Prod x x sq ∧ Sum1 cpu sq v ∧ AddConst cpu tiny10 [sqrtIeee v] [d] ∧ DivConst cpu d x z

/-- `scalenorm.Model.Forward` (scalenorm.go:36-44). -/
def ScaleNorm (cpu : Cpu) (gain : List F32.W) (x z : List F32.W) : Prop :=
  ∃ y, FixNorm cpu x y ∧ Prod y gain z

end Verif.Norm32
