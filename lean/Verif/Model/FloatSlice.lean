/-
Slices of floats of either size (mat/float/floatslice.go) and the comparison of matrices
(mat/matrix.go:322-335), which the test helpers of mat/mat_test_utils.go use.

The two float types are parameters with their comparison and arithmetic; `F64.gt`, `F64.eq` are the
operators of Go, which are false on a NaN.
-/
set_option autoImplicit false
set_option linter.unusedSimpArgs false

namespace Verif.FloatSlice

/-- The two float types. -/
structure Floats where
  F32 : Type
  F64 : Type
  /-- `float64(x)` -/
  up : F32 → F64
  /-- `float32(y)` -/
  down : F64 → F32
  eq32 : F32 → F32 → Bool
  eq64 : F64 → F64 → Bool
  sub32 : F32 → F32 → F32
  sub64 : F64 → F64 → F64
  abs64 : F64 → F64
  gt64 : F64 → F64 → Bool

variable (K : Floats)

/-- `float.Slice` (floatslice.go:14-21), as built by `Make` (26-28). -/
inductive Slice
  | s32 (l : List K.F32)
  | s64 (l : List K.F64)

variable {K}

/-- `Len` (floatslice.go:67-69). -/
def Slice.len : Slice K → Nat
  | .s32 l => l.length
  | .s64 l => l.length

/-- `BitSize` (floatslice.go:55-64). -/
def Slice.bitSize : Slice K → Nat
  | .s32 _ => 32
  | .s64 _ => 64

/-- `F32`, `convertFloatSlice` (floatslice.go:45-47, 118-131). -/
def Slice.f32 : Slice K → List K.F32
  | .s32 l => l
  | .s64 l => l.map K.down

/-- `F64` (floatslice.go:50-52). -/
def Slice.f64 : Slice K → List K.F64
  | .s32 l => l.map K.up
  | .s64 l => l

/-- The loop of `Equals` (floatslice.go:84-88), `o` being at least as long. -/
def eqLoop {F : Type} (eq : F → F → Bool) : List F → List F → Bool
  | v :: fs, w :: o => if !eq v w then false else eqLoop eq fs o
  | _, _ => true

/-- `Equals` (floatslice.go:75-91): the other slice is converted to the type of the receiver. -/
def Slice.equals (a b : Slice K) : Bool :=
  if a.len != b.len then false
  else if b.len == 0 then true
  else match a with
    | .s32 l => eqLoop K.eq32 l b.f32
    | .s64 l => eqLoop K.eq64 l b.f64

/-- The loop of `InDelta` (floatslice.go:107-111); `d v w` is `math.Abs(float64(v-w))`. -/
def deltaLoop {F : Type} (K : Floats) (d : F → F → K.F64) (delta : K.F64) : List F → List F → Bool
  | v :: fs, w :: o => if K.gt64 (d v w) delta then false else deltaLoop K d delta fs o
  | _, _ => true

def dist32 (K : Floats) (v w : K.F32) : K.F64 := K.abs64 (K.up (K.sub32 v w))
def dist64 (K : Floats) (v w : K.F64) : K.F64 := K.abs64 (K.sub64 v w)

/-- `InDelta` (floatslice.go:97-113). -/
def Slice.inDelta (a b : Slice K) (delta : K.F64) : Bool :=
  if a.len != b.len then false
  else if b.len == 0 then true
  else match a with
    | .s32 l => deltaLoop K (dist32 K) delta l b.f32
    | .s64 l => deltaLoop K (dist64 K) delta l b.f64

/-- A matrix as far as `Equal` and `InDelta` look at it. -/
structure Mat (K : Floats) where
  shape : List Nat
  data : Slice K

/-- `Equal` (matrix.go:327-329). -/
def Mat.equal (a b : Mat K) : Bool := a.shape == b.shape && a.data.equals b.data

/-- `InDelta` (matrix.go:333-335). -/
def Mat.inDelta (a b : Mat K) (delta : K.F64) : Bool :=
  a.shape == b.shape && a.data.inDelta b.data delta

end Verif.FloatSlice
