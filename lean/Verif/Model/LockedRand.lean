import Verif.Model.Rand

set_option autoImplicit false

/-!
# The locked generator (mat/rand/lockedrand.go)

Any number of goroutines call the methods of one `LockedRand`. A method takes the mutex, runs the method of the
generator in steps of its own, and gives the mutex back. The first part holds for any generator and any size of the steps;
the second part gives the methods, one draw at a time.

A panic inside a method leaves the method without `Unlock` (there is no `defer`); it is recovered by the caller, who goes on
with the next call. (Unrecovered, it ends the program.)
-/

namespace Verif.LockedRand

section machine
variable {S L A : Type}

/-- What one step of a method does: go on, return, panic, or take the same mutex again. -/
inductive Out (L A : Type)
  | cont (l : L)
  | ret (a : A)
  | panic
  | relock

/-- A goroutine: the calls it has still to make, the point inside the method it is in (holding the mutex), and what its calls
gave; `none` is a recovered panic. -/
structure Thread (L A : Type) where
  todo : List L
  pc : Option L
  done : List (Option A)

/-- `LockedRand` (lockedrand.go:15-18) and the goroutines. -/
structure Sys (S L A : Type) where
  gen : S
  locked : Bool
  threads : List (Thread L A)

/-- One step of one goroutine. All methods have the form `lr.lk.Lock(); x = lr.r.Method(); lr.lk.Unlock()`
(lockedrand.go:30-174): `lock` waits for the mutex, `cont` runs inside, `ret` gives the mutex back, `panic` does not. A
step `relock` waits for a mutex that is held by the goroutine itself, so there is no rule for it. -/
inductive Step (next : L → S → Out L A × S) : Sys S L A → Sys S L A → Prop
  | lock {s : Sys S L A} {i : Nat} {t : Thread L A} {l : L} {ls : List L} : s.threads[i]? = some t → t.pc = none →
      t.todo = l :: ls → s.locked = false → Step next s ⟨s.gen, true, s.threads.set i ⟨ls, some l, t.done⟩⟩
  | cont {s : Sys S L A} {i : Nat} {t : Thread L A} {l l' : L} {g : S} : s.threads[i]? = some t → t.pc = some l →
      next l s.gen = (.cont l', g) → Step next s ⟨g, s.locked, s.threads.set i ⟨t.todo, some l', t.done⟩⟩
  | ret {s : Sys S L A} {i : Nat} {t : Thread L A} {l : L} {a : A} {g : S} : s.threads[i]? = some t → t.pc = some l →
      next l s.gen = (.ret a, g) → Step next s ⟨g, false, s.threads.set i ⟨t.todo, none, t.done ++ [some a]⟩⟩
  | panic {s : Sys S L A} {i : Nat} {t : Thread L A} {l : L} {g : S} : s.threads[i]? = some t → t.pc = some l →
      next l s.gen = (.panic, g) → Step next s ⟨g, s.locked, s.threads.set i ⟨t.todo, none, t.done ++ [none]⟩⟩

/-- Before the first call: the generator of `NewLockedRand` (lockedrand.go:22-26) and the calls of every goroutine. -/
def init (g : S) (progs : List (List L)) : Sys S L A := ⟨g, false, progs.map fun p => ⟨p, none, []⟩⟩

end machine

/-! ### The methods, one draw at a time -/

open Rand (Word PCG maxUint64)

/-- What `Uint64n` returns to: the caller, or the loop of `Perm` with its counter and list (rand.go:181-183). -/
inductive Cont
  | done
  | perm (n i : Nat) (m : List Nat)

/-- Where a method is. -/
inductive Pc
  /-- `Seed` -/
  | seed (w : Word)
  /-- `Uint64` -/
  | uint64
  /-- `Int63` -/
  | int63
  /-- `TwoInt63` before the first and the second draw -/
  | two
  | two' (n1 : Nat)
  /-- `Uint64n` at its beginning and in its loop -/
  | uint64n (n : Word) (k : Cont)
  | redraw (n ceiling v : Word) (k : Cont)
  /-- `Int63n`, `Intn` -/
  | intn (n : Int) (k : Cont)
  /-- `Perm` (for a negative size `make` panics, rand.go:174) and the head of its loop -/
  | perm (n : Int)
  | permLoop (n i : Nat) (m : List Nat)
  /-- `Shuffle` with a `swap` that draws from the same `LockedRand`, after its first own draw -/
  | nested

/-- `Uint64n` returns `v`. -/
def back (k : Cont) (v : Nat) : Out Pc (List Nat) :=
  match k with
  | .done => .ret [v]
  | .perm n i m => match Rand.permStep m i v with
    | some m' => .cont (.permLoop n (i + 1) m')
    | none => .panic

/-- The methods of `rand.Rand` (rand.go:56-186), one draw at a time. -/
def next (pc : Pc) (g : PCG) : Out Pc (List Nat) × PCG :=
  match pc with
  | .seed w => (.ret [], PCG.seed w)
  | .uint64 => (.ret [g.uint64.1.toNat], g.uint64.2)
  | .int63 => (.ret [(Rand.int63 PCG.uint64 g).1.toNat], g.uint64.2)
  | .two => (.cont (.two' (Rand.int63 PCG.uint64 g).1.toNat), g.uint64.2)
  | .two' n1 => (.ret [n1, (Rand.int63 PCG.uint64 g).1.toNat], g.uint64.2)
  | .uint64n n k =>
    if n &&& (n - 1) = 0 then
      if n = 0 then (.panic, g) else (back k (g.uint64.1 &&& (n - 1)).toNat, g.uint64.2)
    else if g.uint64.1 > maxUint64 - n then (.cont (.redraw n (maxUint64 - maxUint64 % n) g.uint64.1 k), g.uint64.2)
    else (back k (g.uint64.1 % n).toNat, g.uint64.2)
  | .redraw n c v k =>
    if v ≥ c then (.cont (.redraw n c g.uint64.1 k), g.uint64.2) else (back k (v % n).toNat, g)
  | .intn n k => if n ≤ 0 then (.panic, g) else (.cont (.uint64n (BitVec.ofInt 64 n) k), g)
  | .perm n => if n < 0 then (.panic, g) else (.cont (.permLoop n.toNat 0 (List.replicate n.toNat 0)), g)
  | .permLoop n i m => if i < n then (.cont (.intn ((i : Int) + 1) (.perm n i m)), g) else (.ret m, g)
  | .nested => (.relock, g)

end Verif.LockedRand
