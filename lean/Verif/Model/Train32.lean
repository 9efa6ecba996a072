/-
One step of training a feed-forward network of float32 on amd64, from the bits of the parameters and of the examples to the bits of the next
parameters: the forward and backward passes of all examples of a batch (`Model/Back32.lean`), `AccGrad` on the shared parameters, and
`Optimize` with plain SGD (`Model/Opt32.lean`).

`ag.Backward(losses...)` (ag/backward.go:23-52) runs the backward passes concurrently, so the contributions to a parameter arrive in any
order; `ag.Backward` for one loss after the other gives one of these orders.  Before the step no parameter has a gradient
(`ZeroGrad` at the end of `OptimizeParams`, optimizers/sgd/sgd.go:122).
-/
import Verif.Model.Back32
import Verif.Model.Opt32
import Mathlib.Data.List.Forall2
set_option autoImplicit false

namespace Verif.Train32
open Verif.F32 Verif.Asm Verif.Spec.Kernels Verif.Net32 Verif.Rec32 Verif.Att32 Verif.Back32

/-- Further calls of `AccGrad` (mat/dense_grad.go:21-29) when there is a gradient `a`. -/
def AccFrom (cpu : Cpu) : List F32.W → List (List F32.W) → List F32.W → Prop
  | a, [], z => z = a
  | a, g :: l, z => ∃ h, AddIn cpu a g h ∧ AccFrom cpu h l z

/-- All calls of `AccGrad`, from no gradient on: the first one copies. -/
def Acc (cpu : Cpu) : List (List F32.W) → Option (List F32.W) → Prop
  | [], z => z = none
  | a :: l, z => ∃ g, AccFrom cpu a l g ∧ z = some g

/-- An example: the input, and what the loss may hand to the output. -/
structure Ex where
  x : List F32.W
  G : List F32.W → List F32.W → Prop

/-- The passes of all examples, with the gradients they give to the parameters. -/
def Passes {α : Type} (cpu : Cpu) (F D : α → List F32.W → List F32.W → Prop) (ls : List (Layer α)) (exs : List Ex) (pss : List (List Par)) : Prop :=
  List.Forall₂ (fun e ps => ∃ z, Back cpu F D e.G ls e.x z ps) exs pss

/-- The gradients that the passes give to the weights and to the bias of layer `k`. -/
def shares (pss : List (List Par)) (k : Nat) : List (List F32.W × List F32.W) := pss.filterMap fun ps => (ps[k]?).join

/-- What `Optimize` does with a parameter `w` (optimizers/optimizer.go:60-63, sgd.go:111-126): nothing without a gradient.  `v` is the state,
which plain SGD overwrites. -/
def Update (cpu : Cpu) (lr : F32.W) (w : List F32.W) : Option (List F32.W) → List F32.W → Prop
  | none, w' => w' = w
  | some g, w' => ∃ v v', Opt32.Sgd cpu .plain lr w g v w' v'

/-- A parameter, from the contributions `l` to its gradient, in any order. -/
def Learn (cpu : Cpu) (lr : F32.W) (w : List F32.W) (l : List (List F32.W)) (w' : List F32.W) : Prop :=
  ∃ o g, o.Perm l ∧ Acc cpu o g ∧ Update cpu lr w g w'

/-- Layer `k`. -/
def LearnLayer {α : Type} (cpu : Cpu) (lr : F32.W) (pss : List (List Par)) (k : Nat) : Layer α → Layer α → Prop
  | .lin rows cols w b, l' => ∃ w' b', Learn cpu lr w ((shares pss k).map (·.1)) w' ∧ Learn cpu lr b ((shares pss k).map (·.2)) b' ∧
      l' = .lin rows cols w' b'
  | .act a, l' => l' = .act a

/-- The layers from number `k` on. -/
def LearnFrom {α : Type} (cpu : Cpu) (lr : F32.W) (pss : List (List Par)) : Nat → List (Layer α) → List (Layer α) → Prop
  | _, [], ls' => ls' = []
  | k, l :: ls, ls' => ∃ l' r, LearnLayer cpu lr pss k l l' ∧ LearnFrom cpu lr pss (k + 1) ls r ∧ ls' = l' :: r

/-- One step of training. -/
def Step {α : Type} (cpu : Cpu) (F D : α → List F32.W → List F32.W → Prop) (lr : F32.W) (exs : List Ex) (ls ls' : List (Layer α)) : Prop :=
  ∃ pss, Passes cpu F D ls exs pss ∧ LearnFrom cpu lr pss 0 ls ls'

end Verif.Train32
