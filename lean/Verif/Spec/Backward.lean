import Verif.Model.Backward
import Mathlib.Algebra.BigOperators.Fin
import Mathlib.Algebra.Group.WithOne.Defs

/-!
# What back-propagation is supposed to do (independent of the machine)

Sums of gradients are taken in `WithZero M`: the type `M` of gradients with one additional
neutral element that stands for "no gradient". So one equation says both which tensors have a
gradient and what it is.
-/

namespace Verif.Backward
open scoped BigOperators
variable {n : Nat} {M : Type}

/-- The operators that back-propagation from `xs` concerns: operators requiring gradients among
`xs`, and operators requiring gradients among the operands of such operators. -/
inductive Reached (G : Graph n) (xs : List (Fin n)) : Fin n → Prop
  | out {x} : x ∈ xs → G.isOp x = true → G.requiresGrad x = true → Reached G xs x
  | operand {c x} : Reached G xs c → x ∈ G.operands c → G.isOp x = true →
      G.requiresGrad x = true → Reached G xs x

/-- The promise the backward functions make: every operand that is itself an operator
requiring gradients receives exactly one `AccGrad` per occurrence in the operand list. -/
def Contract (G : Graph n) (F : Fns n M) (xs : List (Fin n)) : Prop :=
  ∀ c, Reached G xs c → ∀ g x, G.isOp x = true → G.requiresGrad x = true →
    ((F.bw c g).map Prod.fst).count x = (G.operands c).count x

/-- The weaker promise that no operand occurrence receives more than one `AccGrad`. -/
def AtMost (G : Graph n) (F : Fns n M) (xs : List (Fin n)) : Prop :=
  ∀ c, Reached G xs c → ∀ g x, G.isOp x = true → G.requiresGrad x = true →
    ((F.bw c g).map Prod.fst).count x ≤ (G.operands c).count x

/-- No back-propagation is under way: what holds when the tensors have been built, and
between calls. -/
structure Clean (G : Graph n) (s : St n M) : Prop where
  idle : ∀ x, s.st x = .idle
  quiet : ∀ x, s.thr x = .none
  noPending : ∀ x, G.requiresGrad x = true → s.pend x = 0
  alive : s.panicked = false

/-- A possibly absent gradient as an amount. -/
def amount : Option M → WithZero M
  | none => 0
  | some g => (g : WithZero M)

/-- What operator `c`, given its own gradient, contributes to the gradient of `x`: the sum of
everything its backward function accumulates there. Without gradient it contributes nothing. -/
def contrib [AddCommSemigroup M] (F : Fns n M) (c : Fin n) (g : Option M) (x : Fin n) :
    WithZero M :=
  match g with
  | none => 0
  | some g => ((F.bw c g).map fun p => if p.1 = x then (p.2 : WithZero M) else 0).sum

/-- The gradients after seeding: an argument of `Backward` that is an operator without
gradient gets `seed`; all other gradients are as before. -/
def seeded (G : Graph n) (F : Fns n M) (xs : List (Fin n)) (g₀ : Fin n → Option M) (x : Fin n) :
    Option M :=
  if x ∈ xs ∧ G.isOp x = true ∧ g₀ x = none then F.seed x else g₀ x

open Classical in
/-- The chain rule: the gradients `g` are the seeded gradients `g₁` plus, for every operator
concerned, what it contributes when given its own gradient according to `g`. -/
def ChainRule [AddCommSemigroup M] (G : Graph n) (F : Fns n M) (xs : List (Fin n))
    (g₁ g : Fin n → Option M) : Prop :=
  ∀ x, G.isBlocker x = false →
    amount (g x) = amount (g₁ x) + ∑ c, if Reached G xs c then contrib F c (g c) x else 0

section
variable [Add M] (G : Graph n) (F : Fns n M) (xs : List (Fin n)) (s₀ : St n M)

/-- The call `Backward(xs…)` made in state `s₀` is over in bounded time under every schedule:
there is no infinite run, no state of any run has panicked, and a state in which nobody can
move is one in which the call has returned (`failed`: with an error). -/
structure Returns : Prop where
  finite : ∀ run : Nat → St n M, run 0 = call G xs s₀ →
    ¬ ∀ i, ∃ c, step G F (xs.filter G.isOp) (run i) c = some (run (i + 1))
  noPanic : ∀ s, Reach G F xs s₀ s → s.panicked = false
  done : ∀ s, Reach G F xs s₀ s → (∀ c, step G F (xs.filter G.isOp) s c = none) →
    s.main = .returned ∨ s.main = .failed

/-- The call never returns under any schedule, neither normally nor with an error. -/
def Hangs : Prop := ∀ s, Reach G F xs s₀ s → s.main ≠ .returned ∧ s.main ≠ .failed

end

/-- A chain of operands from `x` down to a leaf that requires gradients. A `StopGrad` node has
no operands, so no chain passes it. -/
inductive Trainable (G : Graph n) : Fin n → Prop
  | leaf {x} : G.node x = .leaf true → Trainable G x
  | op {x o} : o ∈ G.operands x → Trainable G o → Trainable G x

/-- Backward functions only call `AccGrad` on operands of their operator. -/
def Local (G : Graph n) (F : Fns n M) (xs : List (Fin n)) : Prop :=
  ∀ c, Reached G xs c → ∀ g, ∀ p ∈ F.bw c g, p.1 ∈ G.operands c

/-- Backward functions only call `AccGrad` on operands that require gradients. -/
def Respectful (G : Graph n) (F : Fns n M) (xs : List (Fin n)) : Prop :=
  ∀ c, Reached G xs c → ∀ g, ∀ p ∈ F.bw c g, p.1 ∈ G.operands c ∧ G.requiresGrad p.1 = true

/-- The graph in which every `StopGrad` node is replaced by a constant. -/
def Graph.freeze (G : Graph n) : Graph n where
  node x := match G.node x with
    | .blocker _ => .leaf false
    | nd => nd

end Verif.Backward
