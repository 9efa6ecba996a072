import Mathlib.Logic.Function.Basic

/-!
# `ag.Backward` as a small-step machine

The tensors of one computation are numbered `0 … n-1` (in any order; creation order makes
every operand smaller than the operator that uses it, see `Graph.Acyclic`).
Gradients live in an arbitrary type `M` with an addition; shapes and values are not needed
by the scheduling protocol and are not part of the state.

Simplifications: memory is sequentially consistent; `RequiresGrad` and `Operands` are
treated as already memoised pure functions of the graph (operator.go:198-217); the backward
function of an operator is a pure function from the output gradient to the multiset of
`AccGrad` calls it performs, and these calls may be interleaved in any order (this covers
both the sequential functions and those which start their own goroutines and wait for them).
-/

namespace Verif.Backward

/-- What a tensor handed to an operator can be: a leaf (`*mat.Dense`, `*nn.Param`; its flag
is mat/dense_grad.go:39), the result of `ag.StopGrad` (ag/gradientblocker.go:15-44) or an
operator with its operand list (ag/operator.go:90-116). -/
inductive Node (n : Nat)
  | leaf (requiresGrad : Bool)
  | blocker (wrapped : Fin n)
  | op (operands : List (Fin n))

/-- A computation graph: the tensors reachable from the arguments of `Backward`. -/
structure Graph (n : Nat) where
  node : Fin n → Node n

namespace Graph
variable {n : Nat} (G : Graph n)

/-- The type assertion `x.(*Operator)` (ag/operator.go:266,281, ag/backward.go:58-61). -/
def isOp (x : Fin n) : Bool :=
  match G.node x with
  | .op _ => true
  | _ => false

/-- Is `x` a `*GradientBlocker` (ag/gradientblocker.go:15-17)? -/
def isBlocker (x : Fin n) : Bool :=
  match G.node x with
  | .blocker _ => true
  | _ => false

/-- `Operator.Operands` (ag/operator.go:212-217); tensors that are no operators have none. -/
def operands (x : Fin n) : List (Fin n) :=
  match G.node x with
  | .op os => os
  | _ => []

/-- The operands visited by the two recursive traversals: those that are operators
(ag/operator.go:265-269 and 280-284). -/
def opOperands (x : Fin n) : List (Fin n) := (G.operands x).filter G.isOp

/-- `RequiresGrad` with a recursion budget: leaf flag (mat/dense_grad.go:39-41), `false` for a
blocker (ag/gradientblocker.go:41), first operand that requires gradients for an operator
(ag/operator.go:198-209). -/
def rgFuel : Nat → Fin n → Bool
  | 0, _ => false
  | k + 1, x =>
    match G.node x with
    | .leaf b => b
    | .blocker _ => false
    | .op os => os.any (rgFuel k)

/-- `RequiresGrad` (ag/operator.go:198-209). On an acyclic graph a budget of `n` is never
exhausted (proved as `Graph.requiresGrad_eq`), so the budget is not a simplification there. -/
def requiresGrad (x : Fin n) : Bool := G.rgFuel n x

/-- Operators can only be built from tensors that already exist. -/
def Acyclic : Prop := ∀ x, ∀ o ∈ G.operands x, o < x

instance : Decidable G.Acyclic := by unfold Acyclic; infer_instance

end Graph

/-- The numeric side of the graph. `bw c g` lists the `AccGrad` calls made by
`fn.Backward(g)` of operator `c` (ag/operator.go:296); `seed x` is the gradient
`NewScalar(1)` which `assignOutputGradient` gives to a result of size one, `none` for
results of any other size (ag/operator.go:244-249). -/
structure Fns (n : Nat) (M : Type) where
  bw : Fin n → M → List (Fin n × M)
  seed : Fin n → Option M

/-- `backwardState` (ag/operator.go:33-62). -/
inductive BState
  | idle | pending | ongoing
  deriving DecidableEq, Repr

/-- The `broadcastGrad` channel (ag/operator.go:106): never made, made, closed. -/
inductive Chan
  | unmade | open | closed
  deriving DecidableEq, Repr

/-- Remaining work of one `AccGrad` call on `target`: the accumulation into the value
(ag/operator.go:228), the load of the state (first operand of the condition in line 231), the
atomic decrement (second operand), and the `close` (line 232). -/
inductive Task (n : Nat) (M : Type)
  | add (target : Fin n) (g : M)
  | check (target : Fin n)
  | dec (target : Fin n)
  | close (target : Fin n)

/-- The goroutine `executeBackward` of an operator (ag/operator.go:287-299): not running,
about to evaluate the condition in `Grad` (line 184), waiting on the channel (line 188),
inside `fn.Backward` with the remaining work, after `setBackwardIdle` and before `wg.Done`. -/
inductive Thread (n : Nat) (M : Type)
  | none
  | start
  | blocked
  | running (todo : List (Task n M))
  | finishing

/-- Where the caller of `Backward` is (ag/backward.go:23-52). The two recursive traversals are
given by explicit stacks of operators still to be visited. -/
inductive Main (n : Nat)
  | prepare (stack : List (Fin n))
  | assign (rest : List (Fin n))
  | process (stack : List (Fin n))
  | wait
  | returned
  | failed

/-- The state shared by the goroutines. `log` is history: which backward function was invoked
with which gradient, in order. `panicked` records a Go run-time panic. -/
structure St (n : Nat) (M : Type) where
  grad : Fin n → Option M
  st : Fin n → BState
  pend : Fin n → Int
  chan : Fin n → Chan
  thr : Fin n → Thread n M
  wg : Int
  main : Main n
  panicked : Bool
  log : List (Fin n × M)

section Machine
open Function (update)
variable {n : Nat} {M : Type} [Add M] (G : Graph n) (F : Fns n M)

/-- `Dense.AccGrad` (mat/dense_grad.go:21-29): the first gradient is stored, later ones are
added. -/
def accOpt : Option M → M → Option M
  | none, g => some g
  | some h, g => some (h + g)

/-- `AccGrad` on the value held by a tensor; no effect on a blocker
(ag/gradientblocker.go:35). -/
def addGrad (grad : Fin n → Option M) (t : Fin n) (g : M) : Fin n → Option M :=
  if G.isBlocker t then grad else update grad t (accOpt (grad t) g)

/-- `close(ch)` (ag/operator.go:232): panics on a nil or closed channel. -/
def closeChan (s : St n M) (t : Fin n) : St n M :=
  match s.chan t with
  | .open => { s with chan := update s.chan t .closed }
  | _ => { s with panicked := true }

/-- One step of `prepareBackwardPass` on the top of the stack (ag/operator.go:252-270). -/
def prepareStep (s : St n M) (x : Fin n) (rest : List (Fin n)) : St n M :=
  if G.requiresGrad x then
    if s.st x = .idle then
      { s with
        pend := update s.pend x (s.pend x + 1)
        st := update s.st x .pending
        chan := update s.chan x .open
        main := .prepare (G.opOperands x ++ rest) }
    else
      { s with pend := update s.pend x (s.pend x + 1), main := .prepare rest }
  else { s with main := .prepare rest }

/-- `AccGrad` on an operator executed by the caller alone, before any goroutine exists
(ag/operator.go:227-234 called from line 245). -/
def accGradSeq (s : St n M) (x : Fin n) (g : M) : St n M :=
  let s := { s with grad := addGrad G s.grad x g }
  if s.st x = .idle then s
  else
    let s := { s with pend := update s.pend x (s.pend x - 1) }
    if s.pend x = 0 then closeChan s x else s

/-- `assignOutputGradient` (ag/operator.go:236-250) for the next argument of `Backward`. -/
def assignStep (s : St n M) (x : Fin n) (rest : List (Fin n)) : St n M :=
  match s.grad x with
  | some _ => { s with pend := update s.pend x (s.pend x - 1), main := .assign rest }
  | none =>
    match F.seed x with
    | some g => { accGradSeq G s x g with main := .assign rest }
    | none => { s with main := .failed }

/-- One step of `processBackwardPass` on the top of the stack (ag/operator.go:272-285). -/
def processStep (s : St n M) (x : Fin n) (rest : List (Fin n)) : St n M :=
  if G.requiresGrad x ∧ s.st x = .pending then
    { s with
      st := update s.st x .ongoing
      wg := s.wg + 1
      thr := update s.thr x .start
      main := .process (G.opOperands x ++ rest) }
  else { s with main := .process rest }

/-- One step of the caller (ag/backward.go:23-52); `xs` are its operator arguments
(`filterOperators`, lines 24 and 55-64). With no operator argument the phases are empty and
the call returns, as in lines 25-27. -/
def mainStep (xs : List (Fin n)) (s : St n M) : Option (St n M) :=
  match s.main with
  | .prepare [] => some { s with main := .assign xs }
  | .prepare (x :: rest) => some (prepareStep G s x rest)
  | .assign [] => some { s with main := .process xs }
  | .assign (x :: rest) => some (assignStep G F s x rest)
  | .process [] => some { s with main := .wait }
  | .process (x :: rest) => some (processStep G s x rest)
  | .wait => if s.wg = 0 then some { s with main := .returned } else none
  | .returned => none
  | .failed => none

/-- The `AccGrad` calls of `fn.Backward(g)` as outstanding work. -/
def tasksOf (l : List (Fin n × M)) : List (Task n M) := l.map fun p => .add p.1 p.2

/-- After `Grad` has returned: `fn.Backward(grad)` is entered (ag/operator.go:291-296). A
missing gradient arrives there as a typed nil that passes the check `grad == nil`
(line 292; `Dense.Grad` returns the `*Dense` field), hence a nil dereference. -/
def begin (s : St n M) (x : Fin n) : St n M :=
  match s.grad x with
  | some g => { s with thr := update s.thr x (.running (tasksOf (F.bw x g))),
                       log := s.log ++ [(x, g)] }
  | none => { s with panicked := true }

/-- One step of one outstanding `AccGrad` call: the new state and what remains of the call
(ag/operator.go:227-234; for leaves mat/dense_grad.go:21-29). -/
def taskStep (s : St n M) : Task n M → St n M × List (Task n M)
  | .add t g => ({ s with grad := addGrad G s.grad t g },
                 if G.isOp t then [.check t] else [])
  | .check t => (s, if s.st t = .idle then [] else [.dec t])
  | .dec t => ({ s with pend := update s.pend t (s.pend t - 1) },
               if s.pend t - 1 = 0 then [.close t] else [])
  | .close t => (closeChan s t, [])

/-- One step of the goroutine of operator `x` (ag/operator.go:287-299, with `Grad`
183-190); `k` selects which of the outstanding `AccGrad` calls moves. -/
def threadStep (s : St n M) (x : Fin n) (k : Nat) : Option (St n M) :=
  match s.thr x with
  | .none => none
  | .start =>
    if s.st x = .idle ∨ s.pend x = 0 then some (begin F s x)
    else some { s with thr := update s.thr x .blocked }
  | .blocked => if s.chan x = .closed then some (begin F s x) else none
  | .running [] => some { s with st := update s.st x .idle, thr := update s.thr x .finishing }
  | .running (t₀ :: ts) =>
    match (t₀ :: ts)[k]? with
    | none => none
    | some t =>
      let r := taskStep G s t
      some { r.1 with thr := update s.thr x
                        (.running ((t₀ :: ts).take k ++ r.2 ++ (t₀ :: ts).drop (k + 1))) }
  | .finishing => some { s with wg := s.wg - 1, thr := update s.thr x .none }

/-- Who moves next: the caller, or the goroutine of operator `x` on outstanding call `k`. -/
inductive Choice (n : Nat)
  | caller
  | thread (x : Fin n) (k : Nat)

/-- One step of the whole program; a panic in any goroutine ends the process. -/
def step (xs : List (Fin n)) (s : St n M) : Choice n → Option (St n M)
  | .caller => if s.panicked then none else mainStep G F xs s
  | .thread x k => if s.panicked then none else threadStep G F s x k

/-- A call `Backward(xs…)` begins: the caller is at the first loop, the `WaitGroup` is new
(ag/backward.go:45; created here rather than between the loops) and a new history starts;
`xs` is filtered to operators (ag/backward.go:24). -/
def call (xs : List (Fin n)) (s : St n M) : St n M :=
  { s with main := .prepare (xs.filter G.isOp), wg := 0, log := [] }

/-- The states a call `Backward(xs…)` made in state `s₀` can reach, under any scheduling. -/
inductive Reach (xs : List (Fin n)) (s₀ : St n M) : St n M → Prop
  | init : Reach xs s₀ (call G xs s₀)
  | step {s s' : St n M} (c : Choice n) :
      Reach xs s₀ s → step G F (xs.filter G.isOp) s c = some s' → Reach xs s₀ s'

/-- `ZeroGrad` called by the user (ag/operator.go:220-224, mat/dense_grad.go:49-53,
ag/gradientblocker.go:44): the gradient becomes absent. Only modelled outside of a running
back-propagation, where `HasGrad` does not wait. -/
def zeroGrad (s : St n M) (x : Fin n) : St n M :=
  if G.isBlocker x then s else { s with grad := update s.grad x none }

/-- What a program may do with the tensors between and including calls of `Backward`. -/
inductive UserOp (n : Nat) (M : Type)
  | backward (xs : List (Fin n))
  | accGrad (x : Fin n) (g : M)
  | zeroGrad (x : Fin n)

/-- Sequences of such actions, each `Backward` call running to its return under an arbitrary
schedule. `accGrad` is the sequential `AccGrad` (ag/operator.go:227-234). -/
inductive Session : List (UserOp n M) → St n M → St n M → Prop
  | nil (s : St n M) : Session [] s s
  | backward {xs : List (Fin n)} {l : List (UserOp n M)} {s s' s'' : St n M} :
      Reach G F xs s s' → s'.main = .returned → Session l s' s'' →
      Session (.backward xs :: l) s s''
  | accGrad {x : Fin n} {g : M} {l : List (UserOp n M)} {s s'' : St n M} :
      Session l (accGradSeq G s x g) s'' → Session (.accGrad x g :: l) s s''
  | zeroGrad {x : Fin n} {l : List (UserOp n M)} {s s'' : St n M} :
      Session l (zeroGrad G s x) s'' → Session (.zeroGrad x :: l) s s''

end Machine
end Verif.Backward
