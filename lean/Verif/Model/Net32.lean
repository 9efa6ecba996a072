/-
A feed-forward network of float32 on amd64, from the bits of the input to the bits of the output: `linear.Model`
(nn/linear/linear.go:43-49) and element-wise activations, one after the other (nn/model.go:112-117), with the routines of
`Model/Asm.lean`.  An operation is a relation between the data of its operands and that of its result; where these are in
memory, and what else is there and in the registers, is left open.
-/
import Verif.Model.Softmax32
set_option autoImplicit false
set_option linter.unusedSimpArgs false

namespace Verif.Net32
open Verif.F32 Verif.Asm Verif.Spec.Kernels Verif.Softmax32

/-- `matfuncs.DotProd32(l, k)` may return `w`. -/
def Dot1 (cpu : Cpu) (l k : List F32.W) (w : F32.W) : Prop :=
  ∃ (p q : Nat) (s t : St F32.W), q % 4 = 0 ∧ elems 4 s.mem p l.length = l ∧ elems 4 s.mem q k.length = k ∧
    Call (frame2 4 (F32.alu divIeee) ⟨p, l.length⟩ ⟨q, k.length⟩) (dotProdFn cpu .f32) s t ∧ t.out = some w

/-- The loop of `Mul` with a column vector `x` (mat/dense.go:711-719): `n` more elements, from `start` on in the data of the
matrix. -/
def MulVec (cpu : Cpu) (cols : Nat) (data x : List F32.W) : Nat → Nat → List F32.W → Prop
  | _, 0, out => out = []
  | start, n + 1, out => ∃ w ws, out = w :: ws ∧ start + cols ≤ data.length ∧
      Dot1 cpu ((data.drop start).take cols) x w ∧ MulVec cpu cols data x (start + cols) n ws

/-- `y.AddInPlace(b)` (mat/dense.go:432-449) may leave `z` in `y`; `y` is new, so `b` is apart from it. -/
def AddIn (cpu : Cpu) (y b z : List F32.W) : Prop :=
  y.length = b.length ∧ ∃ (p q : Nat) (s t : St F32.W), q % 4 = 0 ∧ Apart 4 y.length q p ∧
    elems 4 s.mem p y.length = y ∧ elems 4 s.mem q y.length = b ∧
    Call (frame3 4 (F32.alu divIeee) ⟨p, y.length⟩ ⟨q, y.length⟩ ⟨p, y.length⟩) (addFn cpu .f32) s t ∧
    elems 4 t.mem p y.length = z

/-- `Affine.Forward` (mat/gradfn/affine.go:70-79) without further pairs; the shapes must fit (mat/dense.go:685-687, 433-435). -/
def Affine (cpu : Cpu) (rows cols : Nat) (w b x z : List F32.W) : Prop :=
  x.length = cols ∧ ∃ y, MulVec cpu cols w x 0 rows y ∧ AddIn cpu y b z

/-- A layer; `α` names the activations, as nn/activation/types.go:16-43 does. -/
inductive Layer (α : Type) where
  | lin (rows cols : Nat) (w b : List F32.W)
  | act (a : α)

/-- One layer: `linear.Model.Forward` (nn/linear/linear.go:43-49) for one vector, or an activation: `F a x z` says that the
activation `a` of data `x` may give `z`. -/
def Step {α : Type} (cpu : Cpu) (F : α → List F32.W → List F32.W → Prop) : Layer α → List F32.W → List F32.W → Prop
  | .lin rows cols w b, x, z => Affine cpu rows cols w b x z
  | .act a, x, z => F a x z

/-- The layers one after the other (`Forward` of a `ModuleList`, nn/model.go:112-117). -/
def Runs {α : Type} (cpu : Cpu) (F : α → List F32.W → List F32.W → Prop) : List (Layer α) → List F32.W → List F32.W → Prop
  | [], x, y => y = x
  | l :: ls, x, y => ∃ z, Step cpu F l x z ∧ Runs cpu F ls z y

/-- `float32(math.Max(0, float64(v)))` (mat/gradfn/misc.go:293-295).  `math.Max(0, -0)` is 0. -/
def relu1 (v : F32.W) : F32.W := if isNaN v then v else if lt 0 v then v else 0

/-- `ReLU`: `Apply` (mat/dense.go:1312-1336) with a function of one element. -/
def relu32 (x z : List F32.W) : Prop := z = x.map relu1

end Verif.Net32
