import Mathlib.Logic.Function.Basic

set_option autoImplicit false

/-!
# `Optimizer.Optimize` and its goroutines (optimizers/optimizer.go:37-78)

The channel of parameters delivers `n` parameters, numbered from 0 (nn/model.go:31-72; the producing goroutine only
hands over the next parameter or closes the channel, so it is part of the receive step). For each of them `Optimize`
starts at most one goroutine, numbered like its parameter. `hasGrad j` says whether parameter `j` has a gradient,
`outcome j` is the error of `strategy.OptimizeParams` on it (`none`: success). `cap` is the capacity of `guard`
(twice the number of CPUs). Any enabled thread may run next; after `Optimize` has returned its goroutines run on.
-/

namespace Verif.Optimize
open Function (update)

/-- Where the call of `Optimize` is. -/
inductive MainPc (E : Type)
  /-- at the head of the loop, receiving (line 46) -/
  | recv
  /-- received parameter `j`, at the `select` (line 47) -/
  | sel (j : Nat)
  /-- after `wg.Add(1)` for parameter `j`, at `guard <- struct{}{}` (lines 54-55) -/
  | acquire (j : Nat)
  /-- in `wg.Wait` with an error (lines 49-50) -/
  | waiting (e : E)
  /-- after the loop, before `close(errCh)` (line 71) -/
  | closing
  /-- after `close(errCh)`, receiving from it (line 73) -/
  | reading
  /-- returned from inside the loop (line 51) -/
  | returnedErr (e : E)
  /-- returned after the loop (lines 74, 77) -/
  | returned (r : Option E)

/-- Where a goroutine is (lines 56-68). -/
inductive Worker (E : Type)
  /-- not started -/
  | idle
  /-- at `param.HasGrad()` (line 59) -/
  | start
  /-- at `OptimizeParams` (line 62) -/
  | optimize
  /-- at the `select` which sends the error (lines 63-66) -/
  | send (e : E)
  /-- at the deferred `<-guard` (line 58) -/
  | release
  /-- at the deferred `wg.Done()` (line 57) -/
  | finish
  | done

/-- The state of the machine. -/
structure State (E : Type) where
  pc : MainPc E
  /-- the parameters received so far -/
  next : Nat
  w : Nat → Worker E
  /-- the number of elements in `guard` -/
  guard : Nat
  /-- the counter of the wait group -/
  wg : Nat
  /-- the content of `errCh` (capacity 1) -/
  errCh : Option E
  closed : Bool
  /-- how often `OptimizeParams` has been called on each parameter -/
  calls : Nat → Nat
  /-- a send on the closed channel has panicked: the process is dead -/
  panicked : Bool

variable {E : Type}

/-- The beginning of `Optimize` (lines 38-46). -/
def init : State E := ⟨.recv, 0, fun _ => .idle, 0, 0, none, false, fun _ => 0, false⟩

/-- A step of the call of `Optimize`. -/
def stepMain (n cap : Nat) (st : State E) : Option (State E) :=
  match st.pc with
  | .recv =>
    if st.next < n then some { st with pc := .sel st.next, next := st.next + 1 }
    else some { st with pc := .closing }
  | .sel j =>
    match st.errCh with
    | some e => some { st with errCh := none, pc := .waiting e }
    | none => some { st with wg := st.wg + 1, pc := .acquire j }
  | .acquire j =>
    if st.guard < cap then some { st with guard := st.guard + 1, w := update st.w j .start, pc := .recv }
    else none
  | .waiting e => if st.wg = 0 then some { st with pc := .returnedErr e } else none
  | .closing => some { st with closed := true, pc := .reading }
  | .reading => some { st with errCh := none, pc := .returned st.errCh }
  | .returnedErr _ => none
  | .returned _ => none

/-- A step of goroutine `j`. -/
def stepWorker (hasGrad : Nat → Bool) (outcome : Nat → Option E) (j : Nat) (st : State E) : Option (State E) :=
  match st.w j with
  | .idle => none
  | .start => some { st with w := update st.w j (if hasGrad j then .optimize else .release) }
  | .optimize =>
    some { st with
      calls := update st.calls j (st.calls j + 1)
      w := update st.w j (match outcome j with | some e => .send e | none => .release) }
  | .send e =>
    if st.closed then some { st with panicked := true }
    else match st.errCh with
      | none => some { st with errCh := some e, w := update st.w j .release }
      | some _ => some { st with w := update st.w j .release }
  | .release => some { st with guard := st.guard - 1, w := update st.w j .finish }
  | .finish => some { st with wg := st.wg - 1, w := update st.w j .done }
  | .done => none

/-- The threads: the call itself, and the goroutines. -/
inductive Thread
  | main
  | worker (j : Nat)

/-- A step of a thread, if it is enabled and the process is alive. -/
def step (n cap : Nat) (hasGrad : Nat → Bool) (outcome : Nat → Option E) (st : State E) : Thread → Option (State E)
  | .main => if st.panicked then none else stepMain n cap st
  | .worker j => if st.panicked then none else stepWorker hasGrad outcome j st

/-- The states reached by any schedule. -/
inductive Reach (n cap : Nat) (hasGrad : Nat → Bool) (outcome : Nat → Option E) : State E → Prop
  | init : Reach n cap hasGrad outcome init
  | step {st st' : State E} (t : Thread) (h : Reach n cap hasGrad outcome st)
      (hs : step n cap hasGrad outcome st t = some st') : Reach n cap hasGrad outcome st'

end Verif.Optimize
