/-
The backward pass through a feed-forward network of float32 on amd64 (`Model/Net32.lean`), from the bits of the input to the bits of
the gradients: the `Backward` functions of the layers and of the activations, and of the squared error (losses/losses.go:21-28).
An operation is a relation between the data of its operands and that of its result.

Every parameter starts without a gradient, so `AccGrad` (mat/dense_grad.go:21-29) copies what it is given.
-/
import Verif.Model.Acts32
import Verif.Model.Att32
import Verif.Model.Opt32
set_option autoImplicit false

namespace Verif.Back32
open Verif.F32 Verif.Asm Verif.Spec.Kernels Verif.Net32 Verif.Rec32 Verif.Att32

/-- `asm32.AxpyUnitary(a, row, out)`. -/
def Axpy1 (a : F32.W) (row out z : List F32.W) : Prop :=
  ∃ (p q : Nat) (s t : Gonum.St F32.W), q % 4 = 0 ∧ Apart 4 out.length p q ∧ elems 4 s.mem p row.length = row ∧
    elems 4 s.mem q out.length = out ∧ s.frame = Gonum.axpyFrame ⟨p, row.length⟩ ⟨q, out.length⟩ ∧
    Gonum.Call (Gonum.axpyEnv .f32 (F32.alu divIeee) a ⟨p, row.length⟩ ⟨q, out.length⟩) (Gonum.axpyUnitary .f32) s t ∧
    elems 4 t.mem q out.length = z

/-- `v == 0`. -/
def eqZero (v : F32.W) : Bool := !isNaN v && !lt v 0 && !lt 0 v

/-- `f32.MatrixMul` (mat/internal/f32/gonum.go:11-21) of a column `g` and a row `x` into a new matrix, row by row.  The rows of the
result are apart from each other; each is treated as a slice of its own. -/
def OuterRows (x : List F32.W) : List F32.W → List F32.W → Prop
  | [], z => z = []
  | v :: g, z => ∃ r rs, z = r ++ rs ∧ (if eqZero v then r = List.replicate x.length 0 else Axpy1 v x (List.replicate x.length 0) r) ∧
      OuterRows x g rs

/-- `gy.Mul(x.T())` (mat/dense.go:682-755, mat/gradfn/affine.go:104-105): `MatrixMul`, or a dot product for every row when `x` has one
element. -/
def Outer (cpu : Cpu) (g x z : List F32.W) : Prop :=
  if x.length = 1 then MulVec cpu 1 g x 0 g.length z else OuterRows x g z

/-- What a layer with parameters gets: the gradients of the weights and of the bias. -/
abbrev Par := Option (List F32.W × List F32.W)

/-- `Backward` of a layer (mat/gradfn/affine.go:83-131, mat/gradfn/unaryelementwise.go:31-41, mat/gradfn/sigmoid.go:37-50): `x` is its input,
`g` the gradient of its output, `z` that of its input.  `D a x d` says that the slopes of the activation `a` at `x` may be `d`;
`ProdInPlace` (mat/dense.go:574-588) is a loop over the elements. -/
def StepBack {α : Type} (D : α → List F32.W → List F32.W → Prop) (cpu : Cpu) : Layer α → List F32.W → List F32.W → List F32.W → Par → Prop
  | .lin rows cols w b, x, g, z, p => g.length = b.length ∧ ∃ gw, Outer cpu g x gw ∧ MulT rows cols w g z ∧ p = some (gw, g)
  | .act a, x, g, z, p => ∃ d, D a x d ∧ Prod d g z ∧ p = none

/-- The forward pass through the layers, the gradient `G` of the loss at the output, and the backward pass, from the last layer to the
first (the order in which `ag.Backward` gets to them): `z` is the gradient of the input `x`, `ps` those of the parameters. -/
def Back {α : Type} (cpu : Cpu) (F D : α → List F32.W → List F32.W → Prop) (G : List F32.W → List F32.W → Prop) :
    List (Layer α) → List F32.W → List F32.W → List Par → Prop
  | [], x, z, ps => G x z ∧ ps = []
  | l :: ls, x, z, ps => ∃ y g p qs, Step cpu F l x y ∧ Back cpu F D G ls y g qs ∧ StepBack D cpu l x g z p ∧ ps = p :: qs

/-- What the slopes take from the library: `float32(v * (1 - v))` (mat/gradfn/sigmoid.go:42-44) and
`float32(1 - math.Pow(math.Tanh(v), 2))` (mat/gradfn/misc.go:255-257), where `v` is a float32 and everything else is in float64. -/
structure Slopes where
  logistic : F32.W → F32.W
  tanh : F32.W → F32.W

/-- `reluDeriv` (mat/gradfn/misc.go:297-302): 1 from 0 on. -/
def reluSlope (v : F32.W) : F32.W := if !isNaN v && !lt v 0 then 0x3f800000 else 0

/-- The slopes of the activations. -/
def slopes (cpu : Cpu) (j : ExpLog.Lane) (lib : Lib) (sl : Slopes) : Act → List F32.W → List F32.W → Prop
  | .relu, x, d => d = x.map reluSlope
  | .sigmoid, x, d => ∃ y, Sigmoid32.Runs cpu j lib.exp x y ∧ d = y.map sl.logistic
  | .tanh, x, d => d = x.map sl.tanh

/-- `Sub` (mat/dense.go:482-498): `Sub32` into a new slice; the shapes must agree. -/
def SubNew (cpu : Cpu) (a b z : List F32.W) : Prop :=
  a.length = b.length ∧ ∃ (p q r : Nat) (s t : St F32.W), q % 4 = 0 ∧ Apart 4 a.length p r ∧ Apart 4 a.length q r ∧
    elems 4 s.mem p a.length = a ∧ elems 4 s.mem q a.length = b ∧
    Call (frame3 4 (F32.alu divIeee) ⟨p, a.length⟩ ⟨q, a.length⟩ ⟨r, a.length⟩) (subFn cpu .f32) s t ∧
    elems 4 t.mem r a.length = z

/-- 0.5. -/
def half : F32.W := 0x3f000000

/-- The gradient of `losses.MSE(y, t, reduceMean)` (losses/losses.go:21-28) with respect to `y`.  `ReduceSum` hands 1 to every element
(mat/gradfn/reducesum.go:36-46), `ReduceMean` hands it `float32(1 / n)` (reducemean.go:37-49): `r`.  `ProdScalar` multiplies it by 0.5
(prodscalar.go:38-52), `Square` multiplies it by `y - t` twice and adds that up (square.go:10-19, prod.go:38-54), and `Sub` passes the
sum on (sub.go:38-52). -/
def MseGrad (cpu : Cpu) (r : F32.W) (t y g : List F32.W) : Prop :=
  ∃ c d h, Scale cpu half (List.replicate y.length r) c ∧ SubNew cpu y t d ∧ Prod d c h ∧ AddIn cpu h h g

end Verif.Back32
