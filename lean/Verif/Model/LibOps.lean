import Verif.Model.Backward

/-!
# Which operands the library's functions call `AccGrad` on

For every function of mat/gradfn: its operand list is `Operands()`, and `delivers` tells for
which positions of that list `Backward` calls `AccGrad`. The numbers delivered are left open
(`val`); the table is about who gets a gradient at all. Functions that call `AccGrad` in
goroutines of their own wait for these before returning (affine.go:91-133, mul.go:39-70,
mult.go:38-66). Checks of the gradient's shape, which end the process when they fail, are not
part of this table.
-/

namespace Verif.Backward

/-- The functions of mat/gradfn. `scalarMax k` is a `ScalarMax` whose forward pass stored
`argmax = k` (scalarmax.go:46). `unary` is `UnaryElementwise`, the function behind Tanh, ReLU,
Abs, Cos, ... (unaryelementwise.go; `Square` is `Prod(x,x)`, square.go). -/
inductive LibOp
  | add | addScalar | affine | appendRows | at | celu | colView | concat | copy | div
  | divScalar | dot | dropout | elu | exp | flatten | leakyReLU | log | max | maxPooling | min
  | mul | mulT | pow | prod | prodScalar | reduceMax | reduceMean | reduceSum | reshape
  | reverseSubScalar | rotateR | rowView | scalarMax (argmax : Nat) | selu | sigmoid | slice
  | softmax | softPlus | softShrink | sparseMax | sparseMaxLoss | sqrt | stack | sub | subScalar
  | swish | swishB | threshold | transpose | unary

/-- Does `Backward` call `AccGrad` on the operand at position `i` (when that requires
gradients)? `ScalarMax` only on the maximum (scalarmax.go:54-57); the functions with
hyper-parameters list these as operands (celu.go:30, elu.go:30, leakyrelu.go:30, selu.go:31,
softplus.go:31, softshrink.go:29, threshold.go:31) but only serve `x` (celu.go:43-47,
elu.go:44-48, leakyrelu.go:43-47, selu.go:48-56, softplus.go:48-56, softshrink.go:42-46,
threshold.go:49-57). All others serve every operand; see the `Backward` of each file. -/
def LibOp.delivers : LibOp → Nat → Bool
  | .scalarMax k, i => i == k
  | .celu, i | .elu, i | .leakyReLU, i | .selu, i | .softPlus, i | .softShrink, i
  | .threshold, i => i == 0
  | _, _ => true

/-- Does `Backward` test `RequiresGrad` of the operand first? All but `Copy` do
(identity.go:37-43). -/
def LibOp.checks : LibOp → Bool
  | .copy => false
  | _ => true

/-- An assignment of library functions to the operators of a graph; `val c i g` is the gradient
that operator `c`, given gradient `g`, accumulates on its operand number `i`. -/
structure Lib (n : Nat) (M : Type) where
  op : Fin n → LibOp
  val : Fin n → Nat → M → M
  seed : Fin n → Option M

/-- The `AccGrad` calls made by the library's backward functions. -/
def Lib.fns {n : Nat} {M : Type} (G : Graph n) (L : Lib n M) : Fns n M where
  bw c g := ((G.operands c).zipIdx.filter fun p =>
      (L.op c).delivers p.2 && (G.requiresGrad p.1 || !(L.op c).checks)).map
    fun p => (p.1, L.val c p.2 g)
  seed := L.seed

end Verif.Backward
