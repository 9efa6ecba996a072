/-
The vector exponential and logarithm of mat/internal/matfuncs (exp_amd64.s, log_amd64.s), and the
functions `Exp32`, `Log32`, `exp`, `log` around them (exp_amd64.go, log_amd64.go, exp.go, log.go).

Every instruction of the four routines, except the load at the beginning and the store at the end,
works on each 32-bit lane alone, so a routine is a program over lanes.  The slices live in one
memory; an address counts elements.  `math.Exp`/`math.Log` with the conversions from and to float32
are a parameter (`scalar`).
-/
import Verif.Model.F32
set_option autoImplicit false
set_option linter.unusedSimpArgs false

namespace Verif.ExpLog
open Verif.F32

/-- Lane-wise operations of two operands. -/
inductive Op2 | add | sub | mul | min | max | and | or | padd | le | lt
  deriving DecidableEq, Repr

/-- Lane-wise operations of one operand. -/
inductive Op1 | ofInt | trunc | floor | srl (n : Nat) | sll (n : Nat)
  deriving DecidableEq, Repr

/-- A register, or a constant of the data section (the same in all lanes). -/
inductive Src | r (n : Nat) | c (w : W)
  deriving DecidableEq, Repr

/-- Instructions, operands in the order of the Go assembler. -/
inductive LIns
  /-- `VBROADCASTSS c, d`, `VPBROADCASTD c, d`, `MOVAPS c, d`, `MOVAPS s, d`, `XORPS d, d` -/
  | mov (s : Src) (d : Nat)
  /-- `VOP a, b, d`: `d := b op a`; for the comparisons the predicate is in `op` -/
  | v3 (op : Op2) (a b d : Nat)
  /-- `OP a, d`: `d := d op a` -/
  | v2 (op : Op2) (a : Src) (d : Nat)
  /-- `OP s, d`: `d := op s` -/
  | v1 (op : Op1) (s d : Nat)
  deriving DecidableEq, Repr

def Op2.eval (fp : Fp) : Op2 → W → W → W
  | .add, x, y => fp.add x y
  | .sub, x, y => fp.sub x y
  | .mul, x, y => fp.mul x y
  | .min, x, y => minps x y
  | .max, x, y => maxps x y
  | .and, x, y => x &&& y
  | .or, x, y => x ||| y
  | .padd, x, y => x + y
  | .le, x, y => mask (F32.le x y)
  | .lt, x, y => mask (F32.lt x y)

def Op1.eval (fp : Fp) : Op1 → W → W
  | .ofInt, x => fp.ofInt x
  | .trunc, x => fp.trunc x
  | .floor, x => fp.floor x
  | .srl n, x => x >>> n
  | .sll n, x => x <<< n

/-- One lane of the registers 0 … 6, the only ones the routines use. -/
structure Lane where
  r0 : W
  r1 : W
  r2 : W
  r3 : W
  r4 : W
  r5 : W
  r6 : W

def Lane.get (l : Lane) : Nat → W
  | 0 => l.r0 | 1 => l.r1 | 2 => l.r2 | 3 => l.r3 | 4 => l.r4 | 5 => l.r5 | _ => l.r6

def Lane.set (l : Lane) (d : Nat) (v : W) : Lane :=
  match d with
  | 0 => { l with r0 := v } | 1 => { l with r1 := v } | 2 => { l with r2 := v }
  | 3 => { l with r3 := v } | 4 => { l with r4 := v } | 5 => { l with r5 := v }
  | _ => { l with r6 := v }

def Src.get (l : Lane) : Src → W
  | .r n => l.get n
  | .c w => w

def step (fp : Fp) (l : Lane) : LIns → Lane
  | .mov s d => l.set d (s.get l)
  | .v3 op a b d => l.set d (op.eval fp (l.get b) (l.get a))
  | .v2 op a d => l.set d (op.eval fp (l.get d) (a.get l))
  | .v1 op s d => l.set d (op.eval fp (l.get s))

def exec (fp : Fp) (p : List LIns) (l : Lane) : Lane := p.foldl (step fp) l

open Op2 Op1 LIns in
/-- `ExpAVX32` between load and store (exp_amd64.s:45-88). -/
def expAVX : List LIns :=
  [ mov (.c 0x42b0c0a5) 1, v3 min 1 0 0,
    mov (.c 0xc2b0c0a5) 1, v3 max 1 0 0,
    mov (.c 0x3fb8aa3b) 1, v3 mul 1 0 1,
    mov (.c 0x3f000000) 2, v3 add 2 1 1,
    v1 floor 1 3,
    v3 lt 3 1 1,
    mov (.c 0x3f800000) 4, v3 and 4 1 1,
    v3 sub 1 3 1,
    mov (.c 0xbf318000) 3, v3 mul 3 1 3,
    mov (.c 0x395e8083) 5, v3 mul 5 1 5,
    v3 add 3 0 0, v3 add 5 0 0,
    v3 mul 0 0 3,
    mov (.c 0x39506967) 5, v3 mul 5 0 5,
    mov (.c 0x3ab743ce) 6, v3 add 6 5 5, v3 mul 5 0 5,
    mov (.c 0x3c088908) 6, v3 add 6 5 5, v3 mul 5 0 5,
    mov (.c 0x3d2aa9c1) 6, v3 add 6 5 5, v3 mul 5 0 5,
    mov (.c 0x3e2aaaaa) 6, v3 add 6 5 5, v3 mul 5 0 5,
    v3 add 2 5 2, v3 mul 2 3 2, v3 add 2 0 0, v3 add 4 0 0,
    v1 trunc 1 1, v1 (sll 0x17) 1 1,
    mov (.c 0x3f800000) 2, v3 padd 2 1 1,
    v3 mul 1 0 0 ]

open Op2 Op1 LIns in
/-- `ExpSSE32` between load and store (exp_amd64.s:172-209). -/
def expSSE : List LIns :=
  [ v2 min (.c 0x42b0c0a5) 0, v2 max (.c 0xc2b0c0a5) 0,
    mov (.c 0x3fb8aa3b) 4, v2 mul (.r 0) 4,
    mov (.c 0x3f000000) 2, v2 add (.r 2) 4,
    v1 trunc 4 1, v1 ofInt 1 1,
    v2 lt (.r 1) 4,
    mov (.c 0x3f800000) 3, v2 and (.r 3) 4,
    v2 sub (.r 4) 1,
    mov (.c 0xbf318000) 4, v2 mul (.r 1) 4,
    mov (.c 0x395e8083) 5, v2 mul (.r 1) 5,
    v2 add (.r 4) 0, v2 add (.r 5) 0,
    mov (.r 0) 4,
    mov (.c 0x39506967) 5, v2 mul (.r 0) 5,
    v2 add (.c 0x3ab743ce) 5,
    v2 mul (.r 0) 4,
    v2 mul (.r 0) 5, v2 add (.c 0x3c088908) 5,
    v2 mul (.r 0) 5, v2 add (.c 0x3d2aa9c1) 5,
    v2 mul (.r 0) 5, v2 add (.c 0x3e2aaaaa) 5,
    v2 mul (.r 0) 5,
    v2 add (.r 2) 5, v2 mul (.r 4) 5, v2 add (.r 5) 0, v2 add (.r 3) 0,
    v1 trunc 1 1, v1 (sll 0x17) 1 1,
    v2 padd (.c 0x3f800000) 1,
    v2 mul (.r 1) 0 ]

open Op2 Op1 LIns in
/-- `LogAVX32` between load and store (log_amd64.s:70-130). -/
def logAVX : List LIns :=
  [ mov (.c 0) 1, v3 le 1 0 1,
    mov (.c 0x00800000) 2, v3 max 2 0 0,
    v1 (srl 0x17) 0 2,
    mov (.c 0x807fffff) 3, v3 and 3 0 0,
    mov (.c 0x3f000000) 3, mov (.c 0xffffff81) 4,
    v3 or 3 0 0, v3 padd 4 2 2, v1 ofInt 2 2,
    mov (.c 0x3f800000) 3, v3 add 3 2 2,
    mov (.c 0x3f3504f3) 4, v3 lt 4 0 4,
    v3 and 0 4 5,
    mov (.c 0xbf800000) 6, v3 add 6 0 0, v3 add 5 0 0,
    v3 and 3 4 3, v3 sub 3 2 2,
    v3 mul 0 0 3,
    mov (.c 0x3d9021bb) 4, v3 mul 4 0 4,
    mov (.c 0xbdebd1b8) 5, v3 add 5 4 4, v3 mul 4 0 4,
    mov (.c 0x3def251a) 5, v3 add 5 4 4, v3 mul 4 0 4,
    mov (.c 0xbdfe5d4f) 5, v3 add 5 4 4, v3 mul 4 0 4,
    mov (.c 0x3e11e9bf) 5, v3 add 5 4 4, v3 mul 4 0 4,
    mov (.c 0xbe2aae50) 5, v3 add 5 4 4, v3 mul 4 0 4,
    mov (.c 0x3e4cceac) 5, v3 add 5 4 4, v3 mul 4 0 4,
    mov (.c 0xbe7ffffc) 5, v3 add 5 4 4, v3 mul 4 0 4,
    mov (.c 0x3eaaaaaa) 5, v3 add 5 4 4, v3 mul 4 0 4,
    v3 mul 4 3 4,
    mov (.c 0xb95e8083) 5, v3 mul 5 2 5, v3 add 5 4 4,
    mov (.c 0xbf000000) 5, v3 mul 5 3 3, v3 add 3 4 3,
    mov (.c 0x3f318000) 4, v3 mul 4 2 2,
    v3 add 3 0 0, v3 add 0 2 0,
    v3 or 0 1 0 ]

open Op2 Op1 LIns in
/-- `LogSSE32` between load and store (log_amd64.s:251-302). -/
def logSSE : List LIns :=
  [ mov (.c 0) 2, mov (.r 0) 1, v2 le (.r 2) 1,
    v2 max (.c 0x00800000) 0,
    mov (.r 0) 2, v1 (srl 0x17) 2 2,
    v2 and (.c 0x807fffff) 0, v2 or (.c 0x3f000000) 0,
    v2 padd (.c 0xffffff81) 2,
    mov (.r 0) 4, v2 lt (.c 0x3f3504f3) 4,
    mov (.r 4) 3, v2 and (.r 0) 3,
    v2 add (.c 0xbf800000) 0, v2 add (.r 3) 0,
    mov (.c 0x3d9021bb) 3, v2 mul (.r 0) 3, v2 add (.c 0xbdebd1b8) 3,
    v1 ofInt 2 2,
    v2 mul (.r 0) 3, v2 add (.c 0x3def251a) 3,
    mov (.c 0x3f800000) 5,
    v2 mul (.r 0) 3, v2 add (.c 0xbdfe5d4f) 3,
    v2 add (.r 5) 2,
    v2 mul (.r 0) 3, v2 add (.c 0x3e11e9bf) 3,
    v2 and (.r 5) 4,
    v2 mul (.r 0) 3, v2 add (.c 0xbe2aae50) 3,
    v2 sub (.r 4) 2,
    mov (.r 0) 4,
    v2 mul (.r 0) 3, v2 add (.c 0x3e4cceac) 3,
    v2 mul (.r 0) 4,
    v2 mul (.r 0) 3, v2 add (.c 0xbe7ffffc) 3,
    v2 mul (.r 0) 3, v2 add (.c 0x3eaaaaaa) 3,
    v2 mul (.r 0) 3,
    v2 mul (.r 4) 3,
    mov (.c 0xb95e8083) 5, v2 mul (.r 2) 5, v2 add (.r 3) 5,
    v2 mul (.c 0xbf000000) 4, v2 mul (.c 0x3f318000) 2,
    v2 add (.r 5) 4, v2 add (.r 4) 0, v2 add (.r 2) 0,
    v2 or (.r 1) 0 ]

/-- The value stored for a loaded `x`; the other registers hold `junk` at the start. -/
def lane (fp : Fp) (p : List LIns) (junk : Lane) (x : W) : W := (exec fp p (junk.set 0 x)).get 0

/-! ### The Go functions -/

abbrev Mem := Nat → W

/-- A slice: address of its first element and length. -/
structure Sl where
  base : Nat
  len : Nat
  deriving DecidableEq, Repr

/-- One call of a routine of width `w`: `w` elements are loaded from `a` on, then `w` elements are
stored from `b` on.  The routine looks at no length. -/
def block (w : Nat) (f : W → W) (a b : Nat) (m : Mem) : Mem :=
  fun p => if b ≤ p ∧ p < b + w then f (m (a + (p - b))) else m p

/-- `for i := 0; i <= max; i += w { f(x[i:], y[i:]) }` with `k` rounds left
(exp_amd64.go:18-20, log_amd64.go:19-21). -/
def blocks (w : Nat) (f : W → W) (a b : Nat) : Nat → Nat → Mem → Mem
  | 0, _, m => m
  | k + 1, i, m => blocks w f a b k (i + w) (block w f (a + i) (b + i) m)

/-- `for i, xv := range x { y[i] = scalar(xv) }` over `k` elements (exp.go:9-17, log.go:9-17).
The element is read when its turn comes. -/
def scalars (f : W → W) (a b : Nat) : Nat → Mem → Mem
  | 0, m => m
  | k + 1, m =>
    let m' := scalars f a b k m
    fun p => if p = b + k then f (m' (a + k)) else m' p

/-- `for i, v := range x[:k] { if v == 0 { y[i] = -Inf } }` (log_amd64.go:24-28). -/
def fixup (a b : Nat) : Nat → Mem → Mem
  | 0, m => m
  | k + 1, m =>
    let m' := fixup a b k m
    fun p => if p = b + k ∧ isZero (m' (a + k)) = true then negInf else m' p

/-- `exp`, `log` (exp.go:9-17, log.go:9-17): the whole of `Exp32`, `Log32` without assembly. -/
def pureFn (scalar : W → W) (x y : Sl) (m : Mem) : Option Mem :=
  if x.len = 0 then some m
  else if y.len < x.len then none
  else some (scalars scalar x.base y.base x.len m)

/-- `Exp32` (exp_amd64.go:10-38) with the routine `f` of width `w` (8 with AVX2, 4 without):
`max = len(x) - w`, so there are `len(x)/w` rounds. -/
def exp32 (w : Nat) (f scalar : W → W) (x y : Sl) (m : Mem) : Option Mem :=
  if x.len = 0 then some m
  else if y.len < x.len then none
  else
    let m := blocks w f x.base y.base (x.len / w) 0 m
    let mod := x.len % w
    if 0 < mod then
      let t := x.len - mod
      some (scalars scalar (x.base + t) (y.base + t) mod m)
    else some m

/-- `Log32` (log_amd64.go:12-58): like `Exp32`, with the correction of zeros in between, which is
made when `max = len(x) - w` is positive, for the elements `0 … max`. -/
def log32 (w : Nat) (f scalar : W → W) (x y : Sl) (m : Mem) : Option Mem :=
  if x.len = 0 then some m
  else if y.len < x.len then none
  else
    let m := blocks w f x.base y.base (x.len / w) 0 m
    let max : Int := (x.len : Int) - w
    let m := if 0 < max then fixup x.base y.base (max.toNat + 1) m else m
    let mod := x.len % w
    if 0 < mod then
      let t := x.len - mod
      some (scalars scalar (x.base + t) (y.base + t) mod m)
    else some m

end Verif.ExpLog
