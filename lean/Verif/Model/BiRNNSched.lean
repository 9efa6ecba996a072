import Verif.Model.Recurrent

set_option autoImplicit false

/-!
# The goroutines of a bidirectional network (nn/birnn/birnn.go:56-75)

A machine with three threads: the goroutine of the positive direction, the goroutine of the negative direction, and
the calling goroutine waiting for both. The inputs `xs` are a slice shared by both goroutines; `reversed` makes a
second slice, copies and swaps in it. Each step reads one input, swaps one pair, writes a result variable, calls
`wg.Done`, or leaves `wg.Wait`. Any enabled thread may run next.
-/

namespace Verif.BiRNN
open Recurrent

/-- One direction: the state before the first input and one step (`none`: panic). The library's `Forward` loops have
this form. -/
structure Net (X Y : Type) where
  S : Type
  s₀ : S
  step : S → X → Option (S × Y)

/-- The two slices of inputs: `xs` and the one made by `reversed`. -/
inductive Slice
  | shared
  | copy
  deriving DecidableEq

/-- The goroutine of the positive direction (birnn.go:61-64): in the loop of `Forward`, after writing `pos`, after
`wg.Done`. -/
inductive ThreadA (X Y : Type) (n : Net X Y)
  | reading (s : n.S) (outs : List Y)
  | wrote
  | done

/-- The goroutine of the negative direction (birnn.go:65-68): before `reversed`, in its loop (birnn.go:80-83), in the
loop of `Forward`, after writing `neg`, after `wg.Done`. -/
inductive ThreadB (X Y : Type) (n : Net X Y)
  | start
  | swapping (r : Slice) (i : Nat)
  | reading (r : Slice) (s : n.S) (outs : List Y)
  | wrote
  | done

/-- The memory and the threads. -/
structure State (X Y : Type) (P N : Net X Y) where
  /-- the slice `xs` -/
  shared : List X
  /-- the slice made by `reversed` -/
  copy : List X
  pos : Option (List Y)
  neg : Option (List Y)
  /-- the WaitGroup -/
  wg : Nat
  a : ThreadA X Y P
  b : ThreadB X Y N
  /-- a goroutine has panicked: the process stops -/
  crashed : Bool
  /-- `pos` and `neg` as the caller reads them after `wg.Wait` -/
  result : Option (Option (List Y) × Option (List Y))

variable {X Y : Type} {P N : Net X Y}

/-- The elements of a slice. -/
def State.get (st : State X Y P N) : Slice → List X
  | .shared => st.shared
  | .copy => st.copy

/-- Overwrite the elements of a slice. -/
def State.put (st : State X Y P N) (r : Slice) (l : List X) : State X Y P N :=
  match r with
  | .shared => { st with shared := l }
  | .copy => { st with copy := l }

/-- After `wg.Add(2)` and the two go statements. -/
def init (P N : Net X Y) (xs : List X) : State X Y P N :=
  ⟨xs, [], none, none, 2, .reading P.s₀ [], .start, false, none⟩

/-- A step of the goroutine of the positive direction. -/
def stepA (st : State X Y P N) : Option (State X Y P N) :=
  match st.a with
  | .reading s outs =>
    match st.shared[outs.length]? with
    | some x =>
      match P.step s x with
      | some (s', y) => some { st with a := .reading s' (outs ++ [y]) }
      | none => some { st with crashed := true }
    | none => some { st with pos := some outs, a := .wrote }
  | .wrote => some { st with wg := st.wg - 1, a := .done }
  | .done => none

/-- `r[i], r[j] = r[j], r[i]` with `j = len(r) - i - 1` (birnn.go:81-82). -/
def swapAt (l : List X) (i : Nat) : Option (List X) :=
  match l[i]?, l[l.length - i - 1]? with
  | some x, some y => some ((l.set i y).set (l.length - i - 1) x)
  | _, _ => none

/-- A step of the goroutine of the negative direction. -/
def stepB (st : State X Y P N) : Option (State X Y P N) :=
  match st.b with
  | .start => some { st with copy := st.shared, b := .swapping .copy 0 }
  | .swapping r i =>
    if i < (st.get r).length / 2 then
      match swapAt (st.get r) i with
      | some l => some { (st.put r l) with b := .swapping r (i + 1) }
      | none => some { st with crashed := true }
    else some { st with b := .reading r N.s₀ [] }
  | .reading r s outs =>
    match (st.get r)[outs.length]? with
    | some x =>
      match N.step s x with
      | some (s', y) => some { st with b := .reading r s' (outs ++ [y]) }
      | none => some { st with crashed := true }
    | none => some { st with neg := some outs, b := .wrote }
  | .wrote => some { st with wg := st.wg - 1, b := .done }
  | .done => none

/-- The caller leaves `wg.Wait` when the counter is 0 and reads `pos` and `neg`. -/
def stepMain (st : State X Y P N) : Option (State X Y P N) :=
  match st.result with
  | none => if st.wg = 0 then some { st with result := some (st.pos, st.neg) } else none
  | some _ => none

/-- The threads. -/
inductive Thread
  | a
  | b
  | main

/-- A step of a thread, if it is enabled and the process has not crashed. -/
def step (st : State X Y P N) (t : Thread) : Option (State X Y P N) :=
  if st.crashed then none
  else match t with
    | .a => stepA st
    | .b => stepB st
    | .main => stepMain st

/-- States reached by any schedule. -/
inductive Reach (P N : Net X Y) (xs : List X) : State X Y P N → Prop
  | init : Reach P N xs (init P N xs)
  | step {st st' : State X Y P N} {t : Thread} : Reach P N xs st → step st t = some st' → Reach P N xs st'

/-- The network of a recurrent cell. -/
def netOf {S : Type} (next : Option S → X → Option S) (out : S → Y) : Net X Y :=
  ⟨Option S, none, fun s x => do
    let s' ← next s x
    some (some s', out s')⟩

end Verif.BiRNN
