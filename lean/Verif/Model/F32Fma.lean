import Verif.Model.F32
import Verif.Model.Asm

set_option autoImplicit false

/-!
# The fused multiply-add of binary32 and the arithmetic of the vector routines

VFMADD231PS and VFMADD231SS of dotprod_amd64.s, MULPS and ADDPS: IEEE 754 operations, rounded to nearest even.  The
machine of `Model/Asm.lean` takes its arithmetic as a parameter; this is the real one for 32 bits.
-/

namespace Verif.F32

/-- `x*y + z`, rounded once (VFMADD231PS, VFMADD231SS). -/
def fmaIeee (x y z : W) : W :=
  if isNaN x || isNaN y || isNaN z then qNaN
  else
    let (sx, mx, ex) := unpack x
    let (sy, my, ey) := unpack y
    let (sz, mz, ez) := unpack z
    let s := sx != sy
    if isInf x || isInf y then
      (if isZero x || isZero y then qNaN
       else if isInf z && sz != s then qNaN
       else if s then negInf else posInf)
    else if isInf z then z
    else
      let e := min (ex + ey) ez
      let ap : Int := (mx * my * 2 ^ (ex + ey - e).toNat : Nat)
      let az : Int := (mz * 2 ^ (ez - e).toNat : Nat)
      let v := (if s then -ap else ap) + (if sz then -az else az)
      if v = 0 then (if s && sz then 0x80000000 else 0) else round (v < 0) v.natAbs e

/-- The arithmetic of the routines for float32: MULPS, ADDPS, SUBPS, the fused operation, and any division. -/
def alu (div : W → W → W) : Asm.Alu W where
  zero := 0
  op
    | .add, x, y => addIeee x y
    | .sub, x, y => addIeee x (flip y)
    | .mul, x, y => mulIeee x y
    | .div, x, y => div x y
  fma := fmaIeee

end Verif.F32
