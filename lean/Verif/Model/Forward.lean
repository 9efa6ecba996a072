import Mathlib.Logic.Function.Basic

/-!
# Running operators forward, asynchronously or not (ag/operator.go:70-176)

One client goroutine executes a straight-line program of two kinds of commands: create an
operator and `Run` it, or ask for an operator's `Value`. Operators are numbered in creation
order. The function of an operator is a pure function of the values of its operand operators
(leaves are part of the function); it is modelled as calling `Value` on each operand once, in
order, before computing. Memory is sequentially consistent.
-/

namespace Verif.Forward

/-- A command of the client: `NewOperator(fn).Run(async)` (ag/operator.go:118-155) with the
numbers of the operand operators, or `Value()` on operator `k` (171-176). -/
inductive Cmd (V : Type)
  | run (async : Bool) (args : List Nat) (f : List V → V)
  | value (k : Nat)

/-- Where the execution of `executeForward` (158-168) of one operator is: inside `fn.Forward()`
having obtained some operand values (159), about to assign `o.value` (163), about to close the
broadcast channel (165-167), about to release the slot of `forwardGuard` (150), finished. -/
inductive Phase (V : Type)
  | reading (got : List V)
  | store (v : V)
  | close
  | release
  | done

/-- An operator: `async` iff `broadcast != nil` (144, 165, 172). -/
structure Op (V : Type) where
  async : Bool
  args : List Nat
  f : List V → V
  phase : Phase V
  value : Option V
  closed : Bool

/-- The client is between commands, or inside a synchronous `Run` of operator `k` (153). -/
inductive Client
  | next
  | running (k : Nat)

/-- The state: the operators created so far, the number of elements in the channel
`forwardGuard` (80-88), the rest of the client's program, the values it has obtained. `bad`
records that an operator's value was used before it was assigned. -/
structure St (V : Type) where
  n : Nat
  op : Nat → Op V
  guard : Nat
  client : Client
  prog : List (Cmd V)
  out : List V
  bad : Bool

variable {V : Type}
open Function (update)

/-- `Value()` does not wait: the operator is not asynchronous or its channel is closed
(172-174). -/
def readable (o : Op V) : Bool := !o.async || o.closed

/-- Replace operator `k`. -/
def St.set (s : St V) (k : Nat) (o : Op V) : St V := { s with op := update s.op k o }

/-- One step of `executeForward` of operator `k`, followed for asynchronous operators by the
release of the slot (148-151, 158-168). `none`: it has to wait, or is finished. -/
def execStep (s : St V) (k : Nat) : Option (St V) :=
  let o := s.op k
  match o.phase with
  | .reading got =>
    match o.args[got.length]? with
    | some a =>
      if readable (s.op a) then
        match (s.op a).value with
        | some v => some (s.set k { o with phase := .reading (got ++ [v]) })
        | none => some { s with bad := true }
      else none
    | none => some (s.set k { o with phase := .store (o.f got) })
  | .store v => some (s.set k
      { o with value := some v, phase := if o.async then .close else .done })
  | .close => some (s.set k { o with closed := true, phase := .release })
  | .release => some { s.set k { o with phase := .done } with guard := s.guard - 1 }
  | .done => none

/-- One step of the client. An asynchronous `Run` waits for a free slot of `forwardGuard`, whose
capacity is `limit` (147), and starts the goroutine; a synchronous one executes the function
itself (153). -/
def clientStep (limit : Nat) (s : St V) : Option (St V) :=
  match s.client with
  | .running k =>
    match (s.op k).phase with
    | .done => some { s with client := .next }
    | _ => execStep s k
  | .next =>
    match s.prog with
    | [] => none
    | .value k :: rest =>
      if readable (s.op k) then
        match (s.op k).value with
        | some v => some { s with out := s.out ++ [v], prog := rest }
        | none => some { s with bad := true }
      else none
    | .run true args f :: rest =>
      if s.guard < limit then
        some { s with
          n := s.n + 1
          op := update s.op s.n ⟨true, args, f, .reading [], none, false⟩
          guard := s.guard + 1
          prog := rest }
      else none
    | .run false args f :: rest =>
      some { s with
        n := s.n + 1
        op := update s.op s.n ⟨false, args, f, .reading [], none, false⟩
        client := .running s.n
        prog := rest }

/-- Who moves next. -/
inductive Choice
  | client
  | goroutine (k : Nat)

/-- One step of the whole program; goroutines exist for the asynchronous operators (148). -/
def step (limit : Nat) (s : St V) : Choice → Option (St V)
  | .client => if s.bad then none else clientStep limit s
  | .goroutine k => if s.bad then none else
      if k < s.n ∧ (s.op k).async = true then execStep s k else none

/-- The initial state. The operators with numbers not below `n` do not exist yet; what `op`
holds there is irrelevant. -/
def init (blank : Op V) (prog : List (Cmd V)) : St V :=
  { n := 0, op := fun _ => blank, guard := 0, client := .next, prog := prog, out := [], bad := false }

/-- The states reachable under any scheduling. -/
inductive Reach (limit : Nat) (s₀ : St V) : St V → Prop
  | init : Reach limit s₀ s₀
  | step {s s' : St V} (c : Choice) : Reach limit s₀ s → step limit s c = some s' →
      Reach limit s₀ s'

end Verif.Forward
