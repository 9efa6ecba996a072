/-
Binary32 numbers as 32 bits, as far as the vector exponential and logarithm of
mat/internal/matfuncs need them.

Comparison is the one of IEEE 754 (a NaN is not below anything, the two zeros are equal).  The
arithmetic is a parameter (`Fp`); `ieee` is one instance, computed with integers and rounded to
nearest even, for concrete cases.
-/
import Mathlib.Data.Nat.Log
set_option autoImplicit false
set_option linter.unusedSimpArgs false

namespace Verif.F32

abbrev W := BitVec 32

/-- Exponent all ones and fraction not zero. -/
def isNaN (x : W) : Bool := 0x7f800000 < x.toNat % 0x80000000

/-- The sign-magnitude number as an integer: the order of the numbers that are not NaN. -/
def key (x : W) : Int :=
  if x.toNat < 0x80000000 then (x.toNat : Int) else -((x.toNat % 0x80000000 : Nat) : Int)

/-- `x < y` (CMPPS with predicate 1). -/
def lt (x y : W) : Bool := !isNaN x && !isNaN y && decide (key x < key y)

/-- `x ≤ y` (CMPPS with predicate 2). -/
def le (x y : W) : Bool := !isNaN x && !isNaN y && decide (key x ≤ key y)

/-- `v == 0.0` in Go. -/
def isZero (x : W) : Bool := x == 0 || x == 0x80000000

def posInf : W := 0x7f800000
def negInf : W := 0xff800000

/-- MINPS: the first operand (the destination) if it is below the second, else the second; so the
second when one of them is a NaN. -/
def minps (a b : W) : W := if lt a b then a else b

/-- MAXPS. -/
def maxps (a b : W) : W := if lt b a then a else b

/-- A mask of ones or zeros, the result of CMPPS. -/
def mask (b : Bool) : W := if b then 0xffffffff else 0

/-- The arithmetic of a processor. -/
structure Fp where
  add : W → W → W
  sub : W → W → W
  mul : W → W → W
  /-- CVTDQ2PS / CVTPL2PS: from a signed integer -/
  ofInt : W → W
  /-- CVTTPS2DQ / CVTTPS2PL: to a signed integer, towards zero -/
  trunc : W → W
  /-- ROUNDPS $1: to an integral number, downwards -/
  floor : W → W

/-! ### One concrete arithmetic -/

/-- `±m * 2^e` rounded to nearest, ties to even. -/
def round (neg : Bool) (m : Nat) (e : Int) : W :=
  let s : Nat := if neg then 0x80000000 else 0
  if m = 0 then BitVec.ofNat 32 s
  else
    let q := max ((Nat.log2 m : Int) + e - 23) (-149)
    let sh := q - e
    let m' := if sh ≤ 0 then m * 2 ^ (-sh).toNat
      else
        let d := 2 ^ sh.toNat
        let lo := m / d
        let r := m % d
        if 2 * r < d then lo else if 2 * r = d then lo + lo % 2 else lo + 1
    let bits := (q + 149).toNat * 0x800000 + m'
    BitVec.ofNat 32 (s + min bits 0x7f800000)

/-- Sign, and magnitude as `m * 2^e`, of a finite number. -/
def unpack (x : W) : Bool × Nat × Int :=
  let mag := x.toNat % 0x80000000
  let ex := mag / 0x800000
  let fr := mag % 0x800000
  (0x80000000 ≤ x.toNat, if ex = 0 then fr else fr + 0x800000, if ex = 0 then -149 else (ex : Int) - 150)

def isInf (x : W) : Bool := x.toNat % 0x80000000 == 0x7f800000
def qNaN : W := 0x7fc00000
def flip (x : W) : W := x ^^^ 0x80000000

def addIeee (x y : W) : W :=
  if isNaN x || isNaN y then qNaN
  else if isInf x then (if isInf y && x != y then qNaN else x)
  else if isInf y then y
  else
    let (sx, mx, ex) := unpack x
    let (sy, my, ey) := unpack y
    let e := min ex ey
    let ax : Int := (mx * 2 ^ (ex - e).toNat : Nat)
    let ay : Int := (my * 2 ^ (ey - e).toNat : Nat)
    let v := (if sx then -ax else ax) + (if sy then -ay else ay)
    if v = 0 then (if sx && sy then 0x80000000 else 0) else round (v < 0) v.natAbs e

def mulIeee (x y : W) : W :=
  if isNaN x || isNaN y then qNaN
  else
    let (sx, mx, ex) := unpack x
    let (sy, my, ey) := unpack y
    let s := sx != sy
    if isInf x || isInf y then
      (if isZero x || isZero y then qNaN else if s then negInf else posInf)
    else round s (mx * my) (ex + ey)

/-- The integer part, towards zero, of a finite number. -/
def truncInt (x : W) : Int :=
  let (s, m, e) := unpack x
  let a : Nat := if 0 ≤ e then m * 2 ^ e.toNat else m / 2 ^ (-e).toNat
  if s then -(a : Int) else a

def floorInt (x : W) : Int :=
  let t := truncInt x
  let (s, m, e) := unpack x
  if s && e < 0 && m % 2 ^ (-e).toNat != 0 then t - 1 else t

def ieee : Fp where
  add := addIeee
  sub := fun x y => addIeee x (flip y)
  mul := mulIeee
  ofInt := fun i => round (i.toInt < 0) i.toInt.natAbs 0
  trunc := fun x =>
    if isNaN x || isInf x then 0x80000000
    else
      let t := truncInt x
      if t < -0x80000000 ∨ 0x7fffffff < t then 0x80000000 else BitVec.ofInt 32 t
  floor := fun x =>
    if isNaN x then qNaN else if isInf x then x
    else
      let t := floorInt x
      if t = 0 then (if 0x80000000 ≤ x.toNat then 0x80000000 else 0) else round (t < 0) t.natAbs 0

end Verif.F32
