import Verif.Model.Program

set_option autoImplicit false

/-!
# A program that uses the library

A user's computation is built while it runs: leaves are created, and every call of an operator of package
`ag` computes a value from tensors that exist already. The tensors are numbered in order of creation.
Asynchronous operators (`Run(true)`) compute the same value later; whoever reads it waits
(ag/operator.go:140-176), so the values are those of the synchronous run.
-/

namespace Verif.Tape
open GradFn Backward

/-- One line of the program: a leaf with or without gradients (`mat.NewDense` with `WithGrad`,
mat/dense_grad.go:39-51; `nn.Param`), a constant made by the code (such as `NewScalar(1)`, gru.go:90),
`ag.StopGrad` (ag/gradientblocker.go:20-24), or `NewOperator(f).Run()` on earlier tensors (ag/operator.go:118-122, 140-156). -/
inductive Instr
  | leaf (requiresGrad : Bool)
  | const (v : Dense ℝ)
  | stop (j : Nat)
  | call (f : GradFn ℝ) (args : List Nat)

/-- The value of the next tensor: of a leaf the given one, of a gradient blocker that of the wrapped tensor
(the embedded `mat.Tensor`, ag/gradientblocker.go:15-17), of an operator what `Forward` computes
(ag/operator.go:158-168); `none` if the process ends or the program names a tensor that does not exist. -/
def step (θ : Nat → Dense ℝ) (vals : List (Dense ℝ)) : Instr → Option (Dense ℝ)
  | .leaf _ => some (θ vals.length)
  | .const v => some v
  | .stop j => vals[j]?
  | .call f args => do
    let xs ← args.mapM (vals[·]?)
    f.forward xs

/-- The values of all tensors, in order of creation; `θ i` is the value of the leaf created as number `i`. -/
def run (θ : Nat → Dense ℝ) : List Instr → List (Dense ℝ) → Option (List (Dense ℝ))
  | [], vals => some vals
  | i :: is, vals => do
    let v ← step θ vals i
    run θ is (vals ++ [v])

/-- `RequiresGrad` of the tensors (ag/operator.go:198-209, mat/dense_grad.go:39-41,
ag/gradientblocker.go:41-43). -/
def needs : List Instr → List Bool → List Bool
  | [], acc => acc
  | .leaf b :: is, acc => needs is (acc ++ [b])
  | .const _ :: is, acc => needs is (acc ++ [false])
  | .stop _ :: is, acc => needs is (acc ++ [false])
  | .call _ args :: is, acc => needs is (acc ++ [args.any fun j => acc.getD j false])

/-- The tensor numbers as numbers below `n`. -/
def fins (n : Nat) (args : List Nat) : List (Fin n) :=
  args.filterMap fun j => if h : j < n then some ⟨j, h⟩ else none

/-- The graph that `Backward` sees. -/
def graph (P : List Instr) : Graph P.length where
  node i :=
    match P[i] with
    | .leaf b => .leaf b
    | .const _ => .leaf false
    | .stop j => if h : j < P.length then .blocker ⟨j, h⟩ else .leaf false
    | .call _ args => .op (fins P.length args)

/-- The functions of the operators (any function for the other tensors). -/
def fns (P : List Instr) (i : Fin P.length) : GradFn ℝ :=
  match P[i] with
  | .call f _ => f
  | _ => ⟨fun _ => none, fun _ _ => none⟩

/-- The values, by number. -/
def valOf {n : Nat} (vals : List (Dense ℝ)) (i : Fin n) : Dense ℝ := vals.getD i ⟨0, 0, []⟩

end Verif.Tape
