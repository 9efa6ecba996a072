import Mathlib.Data.Rat.Defs
import Mathlib.Algebra.Order.Ring.Rat

/-!
# The random number generator

`mat/internal/rand/rng.go` (the congruential generator), `mat/internal/rand/rand.go` (what is derived from a source of
64-bit words) and `mat/rand/misc.go` (shuffling and choices).

* A `uint64` is a `BitVec 64`; all arithmetic wraps as in Go.
* `bits.Add64`, `bits.Mul64`, `bits.RotateLeft64` and `binary.BigEndian` belong to Go's standard library and are given
  by their documentation.
* A source is a type of states `S` with a function `next : S → Word × S`. Everything derived from a source is stated
  for an arbitrary one.
* The loops which draw until a value is accepted are partial functions: `none` stands for a panic or a loop that
  never ends. (Which of the two is clear from the arguments: only the argument checks panic.)
* `Float64` divides a 53-bit integer by 2^53, which is exact in `float64`; its values are rational numbers here. For
  `Float32` the conversion `float32(·)` is a parameter `rnd`.
* The mutexes (`LockedSource`, `LockedRand`) make every method atomic; a model of a single call needs no mention of
  them.
-/

set_option autoImplicit false
set_option linter.unusedSimpArgs false

namespace Verif.Rand

/-- Go's `uint64`. -/
abbrev Word := BitVec 64

/-! ## The generator (rng.go) -/

/-- `bits.Add64` (Go standard library): sum with carry. -/
def add64 (x y carry : Word) : Word × Word :=
  (x + y + carry, BitVec.ofNat 64 ((x.toNat + y.toNat + carry.toNat) / 2 ^ 64))

/-- `bits.Mul64` (Go standard library): the two words of the product, high word first. -/
def mul64 (x y : Word) : Word × Word :=
  (BitVec.ofNat 64 (x.toNat * y.toNat / 2 ^ 64), BitVec.ofNat 64 (x.toNat * y.toNat))

/-- `bits.RotateLeft64` (Go standard library): `s := uint(k) & 63; return x<<s | x>>(64-s)`. -/
def rotateLeft64 (x : Word) (k : Int) : Word :=
  x <<< (k % 64).toNat ||| x >>> (64 - (k % 64).toNat)

/-- `multiplier` (rng.go:31). -/
def multiplier : Nat := 47026247687942121848144207491837523525

/-- `increment` (rng.go:35). -/
def increment : Nat := 117397592171526113268558934119004209487

/-- `maxUint64` (rand.go:86). -/
def maxUint64 : Word := BitVec.ofNat 64 (2 ^ 64 - 1)

/-- `mulHigh` (rng.go:32). -/
def mulHigh : Word := BitVec.ofNat 64 (multiplier >>> 64)

/-- `mulLow` (rng.go:33). -/
def mulLow : Word := BitVec.ofNat 64 (multiplier &&& (2 ^ 64 - 1))

/-- `incHigh` (rng.go:36). -/
def incHigh : Word := BitVec.ofNat 64 (increment >>> 64)

/-- `incLow` (rng.go:37). -/
def incLow : Word := BitVec.ofNat 64 (increment &&& (2 ^ 64 - 1))

/-- `PCGSource` (rng.go:25-28). -/
@[ext] structure PCG where
  /-- `low` -/
  low : Word
  /-- `high` -/
  high : Word
  deriving DecidableEq

namespace PCG

/-- `Seed` (rng.go:46-49). -/
def seed (s : Word) : PCG := ⟨s, s⟩

/-- `add` (rng.go:59-63). -/
def add (p : PCG) : PCG :=
  let r := add64 p.low incLow 0
  ⟨r.1, (add64 p.high incHigh r.2).1⟩

/-- `multiply` (rng.go:65-71). -/
def multiply (p : PCG) : PCG :=
  let r := mul64 p.low mulLow
  let hi := r.1 + p.high * mulLow
  let hi := hi + p.low * mulHigh
  ⟨r.2, hi⟩

/-- The state after `Uint64` (rng.go:53-54). -/
def advance (p : PCG) : PCG := p.multiply.add

/-- The word `Uint64` makes of the new state (rng.go:56). -/
def output (p : PCG) : Word := rotateLeft64 (p.high ^^^ p.low) (-((p.high >>> 58).toNat : Int))

/-- `Uint64` (rng.go:52-57). -/
def uint64 (p : PCG) : Word × PCG := (p.advance.output, p.advance)

end PCG

/-- `binary.BigEndian.PutUint64` (Go standard library). -/
def putUint64 (v : Word) : List (BitVec 8) :=
  [56, 48, 40, 32, 24, 16, 8, 0].map fun k => (v >>> k).setWidth 8

/-- `binary.BigEndian.Uint64` (Go standard library); panics on fewer than eight bytes. -/
def getUint64 : List (BitVec 8) → Option Word
  | b0 :: b1 :: b2 :: b3 :: b4 :: b5 :: b6 :: b7 :: _ =>
    some (b7.setWidth 64 ||| b6.setWidth 64 <<< 8 ||| b5.setWidth 64 <<< 16 ||| b4.setWidth 64 <<< 24 |||
      b3.setWidth 64 <<< 32 ||| b2.setWidth 64 <<< 40 ||| b1.setWidth 64 <<< 48 ||| b0.setWidth 64 <<< 56)
  | _ => none

/-- `MarshalBinary` (rng.go:74-79). -/
def PCG.marshal (p : PCG) : List (BitVec 8) := putUint64 p.high ++ putUint64 p.low

/-- `UnmarshalBinary` (rng.go:82-89); `none` is the error `io.ErrUnexpectedEOF`. (The receiver's old state is
overwritten.) -/
def PCG.unmarshal (data : List (BitVec 8)) : Option PCG :=
  if data.length < 16 then none
  else do
    let low ← getUint64 (data.drop 8)
    let high ← getUint64 (data.take 8)
    some ⟨low, high⟩

/-! ## What is derived from a source (rand.go) -/

section source

variable {S : Type} (next : S → Word × S)

/-- The rejection loop of `Uint64n` (rand.go:104-106), entered with `v` already drawn. -/
def redraw (ceiling : Word) (v : Word) (s : S) : Option (Word × S) :=
  if v ≥ ceiling then redraw ceiling (next s).1 (next s).2
  else some (v, s)
partial_fixpoint

/-- `Uint64n` (rand.go:91-109). -/
def uint64n (n : Word) (s : S) : Option (Word × S) :=
  if n &&& (n - 1) = 0 then
    if n = 0 then none
    else some ((next s).1 &&& (n - 1), (next s).2)
  else do
    let v := (next s).1
    let r ← if v > maxUint64 - n then redraw next (maxUint64 - maxUint64 % n) v (next s).2
      else some (v, (next s).2)
    some (r.1 % n, r.2)

/-- `Int63` (rand.go:67). -/
def int63 (s : S) : Word × S := ((next s).1 &&& ~~~((1 : Word) <<< 63), (next s).2)

/-- `Uint32` (rand.go:70): the upper half. -/
def uint32 (s : S) : BitVec 32 × S := (((next s).1 >>> 32).setWidth 32, (next s).2)

/-- `Int31` (rand.go:73). -/
def int31 (s : S) : BitVec 32 × S := (((next s).1 >>> 33).setWidth 32, (next s).2)

/-- `Int` (rand.go:76-79), where `int` has 64 bits. -/
def int (s : S) : Word × S := ((next s).1 <<< 1 >>> 1, (next s).2)

/-- `Int63n` (rand.go:113-118) and `Intn` (rand.go:132-138), where `int` has 64 bits. -/
def intn (n : Int) (s : S) : Option (Nat × S) :=
  if n ≤ 0 then none
  else do
    let r ← uint64n next (BitVec.ofInt 64 n) s
    some (r.1.toNat, r.2)

/-- The conversion `int32(i)`: the lower 32 bits, signed. -/
def toInt32 (i : Int) : Int := (BitVec.ofInt 32 i).toInt

/-- `Int31n` (rand.go:122-128). The argument is an `int32`; the conversion of the result to `int32` keeps it, being
below `n`. -/
def int31n (n : Int) (s : S) : Option (Nat × S) :=
  if n ≤ 0 then none
  else do
    let r ← uint64n next (BitVec.ofInt 64 n) s
    some ((toInt32 r.1.toNat).toNat, r.2)

/-- `Float64` (rand.go:141-158). -/
def float64 (s : S) : Option (Rat × S) := do
  let r ← uint64n next ((1 : Word) <<< 53) s
  let f := (r.1.toNat : Rat) / 2 ^ 53
  if f = 1 then float64 r.2 else some (f, r.2)
partial_fixpoint

/-- `Float32` (rand.go:161-170), with the conversion to `float32` as a parameter. -/
def float32 (rnd : Rat → Rat) (s : S) : Option (Rat × S) := do
  let r ← float64 next s
  let f := rnd r.1
  if f = 1 then float32 rnd r.2 else some (f, r.2)
partial_fixpoint

/-- One round of the loop of `Perm` (rand.go:181-183); an index out of range panics. -/
def permStep (m : List Nat) (i j : Nat) : Option (List Nat) := do
  let x ← m[j]?
  if i < m.length then some ((m.set i x).set j i) else none

/-- `Perm` (rand.go:173-186). (A negative `n` makes `make` panic.) -/
def perm (n : Nat) (s : S) : Option (List Nat × S) :=
  (List.range n).foldlM (fun ms (i : Nat) => do
    let r ← intn next ((i : Int) + 1) ms.2
    let m ← permStep ms.1 i r.1
    some (m, r.2)) (List.replicate n 0, s)

/-- The loops of `Shuffle` (rand.go:202-210): `i` runs down to 1, in the first loop with `Int63n`, in the second with
`Int31n`. The argument of `swap` is threaded through as `x`. -/
def shuffleLoop {X : Type} (swap : Nat → Nat → X → Option X) : Nat → X → S → Option (X × S)
  | 0, x, s => some (x, s)
  | i + 1, x, s => do
    let r ← (if i + 1 > 2 ^ 31 - 1 - 1 then intn next ((i : Int) + 1 + 1) s
      else int31n next (toInt32 ((i : Int) + 1 + 1)) s)
    let x ← swap (i + 1) r.1 x
    shuffleLoop swap i x r.2

/-- `Shuffle` (rand.go:191-211). -/
def shuffle {X : Type} (swap : Nat → Nat → X → Option X) (n : Int) (x : X) (s : S) : Option (X × S) :=
  if n < 0 then none else shuffleLoop next swap (n - 1).toNat x s

/-! ## Reading bytes (rand.go:213-244) -/

/-- `Rand` (rand.go:37-48): the source, the word being read from and how many of its bytes are left. -/
structure State (S : Type) where
  /-- `src` -/
  src : S
  /-- `readVal` -/
  readVal : Word
  /-- `readPos` -/
  readPos : Nat

/-- `New` (rand.go:52-54). -/
def State.new {S : Type} (src : S) : State S := ⟨src, 0, 0⟩

/-- One round of the loop of `read` (rand.go:229-240). -/
def readByte (r : State S) : BitVec 8 × State S :=
  let r := if r.readPos = 0 then ⟨(next r.src).2, (next r.src).1, 8⟩ else r
  (r.readVal.setWidth 8, ⟨r.src, r.readVal >>> 8, r.readPos - 1⟩)

/-- `Read` (rand.go:217-244) of `n` bytes. -/
def read : Nat → State S → List (BitVec 8) × State S
  | 0, r => ([], r)
  | n + 1, r =>
    let b := readByte next r
    let rest := read n b.2
    (b.1 :: rest.1, rest.2)

/-- `Rand.Seed` (rand.go:58-66), given the source's `Seed`. -/
def State.seed (srcSeed : Word → S) (w : Word) (r : State S) : State S := ⟨srcSeed w, r.readVal, 0⟩

/-! ## mat/rand/misc.go -/

/-- The `swap` of `ShuffleInPlace` (misc.go:17); an index out of range panics. -/
def swapAt {A : Type} (i j : Nat) (xs : List A) : Option (List A) := do
  let a ← xs[i]?
  let b ← xs[j]?
  some ((xs.set i b).set j a)

/-- `ShuffleInPlace` (misc.go:16-24). (With `nil` for the generator the global one is used.) -/
def shuffleInPlace {A : Type} (xs : List A) (s : S) : Option (List A × S) :=
  shuffle next swapAt xs.length xs s

/-- The loop of `WeightedChoice` (misc.go:39-44). -/
def weightedLoop {F : Type} [Add F] [LT F] [DecidableLT F] (rnd : F) : List F → Nat → F → Nat
  | [], _, _ => 0
  | p :: dist, i, cum => if rnd < cum + p then i else weightedLoop rnd dist (i + 1) (cum + p)

/-- `WeightedChoice` (misc.go:28-46) given the random number drawn at its start. -/
def weightedChoice {F : Type} [Zero F] [Add F] [LT F] [DecidableLT F] (dist : List F) (rnd : F) : Nat :=
  weightedLoop rnd dist 0 0

/-- The loop `for !valid(r) || contains(a, r)` of `GetUniqueRandomInt` (misc.go:54-56), entered with `r` drawn. -/
def uniqueLoop (max : Int) (valid : Int → Bool) (a : List Int) (r : Int) (s : S) : Option (Int × S) :=
  if !valid r || a.contains r then do
    let d ← intn next max s
    uniqueLoop max valid a (d.1 : Int) d.2
  else some (r, s)
partial_fixpoint

/-- `GetUniqueRandomInt` (misc.go:50-60). (A negative `n` makes `make` panic.) -/
def getUniqueRandomInt (n : Nat) (max : Int) (valid : Int → Bool) (s : S) : Option (List Int × S) :=
  (List.range n).foldlM (fun as (i : Nat) => do
    let d ← intn next max as.2
    let r ← uniqueLoop next max valid as.1 (d.1 : Int) d.2
    some (as.1.set i r.1, r.2)) (List.replicate n (0 : Int), s)

/-- The loop `for !valid(r) || contains(a, r)` of `GetUniqueRandomIndices` (misc.go:71-73), entered with `r` drawn;
`indices` is shuffled in place. -/
def uniqueIdxLoop (valid : Int → Bool) (a : List Int) (r : Int) (indices : List Int) (s : S) :
    Option (Int × List Int × S) :=
  if !valid r || a.contains r then do
    let d ← shuffleInPlace next indices s
    let r ← d.1[0]?
    uniqueIdxLoop valid a r d.1 d.2
  else some (r, indices, s)
partial_fixpoint

/-- `GetUniqueRandomIndices` (misc.go:64-77). Also returned: what has become of `indices`. -/
def getUniqueRandomIndices (n : Nat) (indices : List Int) (valid : Int → Bool) (s : S) :
    Option (List Int × List Int × S) :=
  (List.range n).foldlM (fun as (i : Nat) => do
    let d ← shuffleInPlace next as.2.1 as.2.2
    let r ← d.1[0]?
    let r ← uniqueIdxLoop next valid as.1 r d.1 d.2
    some (as.1.set i r.1, r.2)) (List.replicate n (0 : Int), indices, s)

end source

end Verif.Rand
