import Mathlib.Data.Nat.Notation
import Mathlib.Data.List.Basic

/-!
# Serialisation of matrices

`mat/dense_marshaling.go` and the generated accessors of `mat/fbs/dense`. The FlatBuffers library is not part of the
repository; of it we assume that a finished table gives back the slots it was given: a slot whose value equals the
default is left out, and vectors are kept as their length and their bytes in little-endian order. Elements are their IEEE
bit patterns (`math.Float32bits`, `math.Float64bits`), of `k` bytes; `k = 4` is `float32` and `k = 8` is `float64`.

Not modelled: the position of the vectors in the buffer, the library's limit on the size of a buffer, and that the new
matrix shares its elements with the buffer it was read from (line 135).
-/

set_option autoImplicit false
set_option linter.unusedSimpArgs false

namespace Verif.Marshal

/-- A byte. -/
abbrev Byte := Fin 256

/-- The `k` low bytes of a number, the least significant one first (flatbuffers `WriteUint32`, `WriteUint64`). -/
def toBytes : Nat → Nat → List Byte
  | 0, _ => []
  | k + 1, n => ⟨n % 256, Nat.mod_lt _ (by decide)⟩ :: toBytes k (n / 256)

/-- The number with the given bytes, the least significant one first. -/
def ofBytes : List Byte → Nat
  | [] => 0
  | b :: bs => b.val + 256 * ofBytes bs

/-- What a slot of a table holds. -/
inductive Field where
  | int32 (v : BitVec 32)
  | bool (v : Bool)
  | vector (len : Nat) (bytes : List Byte)

/-- A table: its slots, the last one added first. -/
abbrev Table := List (Nat × Field)

/-- `Table.Offset` on the entry `vo` of the vtable: slot `s` has entry `2 s + 4`; `none` is the offset 0. -/
def Table.field (t : Table) (vo : Nat) : Option Field := t.lookup ((vo - 4) / 2)

/-- The types of elements (mat/fbs/dense/DenseFloatDataBytes.go:5-8). -/
inductive DType where
  | float32 | float64
  deriving DecidableEq

/-- `DTypeFloat32`, `DTypeFloat64` (DenseFloatDataBytes.go:6-7). -/
def DType.code : DType → BitVec 32
  | .float32 => 0
  | .float64 => 1

/-- The size of an element in bytes (`StartDataVector`: DenseFloat32.go:138-140, DenseFloat64.go:138-140). -/
def DType.size : DType → Nat
  | .float32 => 4
  | .float64 => 8

/-- `Dense` (mat/dense.go:22-28): its elements as bit patterns; the gradient's contents do not matter here. -/
structure Mat (k : Nat) where
  shape : List Int
  data : List (BitVec (8 * k))
  requiresGrad : Bool
  grad : Option (List (BitVec (8 * k)))

/-- `DenseFloat64AddDtype` (DenseFloat64.go:123-125): the default 0 is left out. -/
def addDtype (t : Table) (v : BitVec 32) : Table := if v = 0 then t else (0, .int32 v) :: t

/-- `DenseFloat64AddRequiresGrad` (DenseFloat64.go:126-128): the default `false` is left out. -/
def addRequiresGrad (t : Table) (v : Bool) : Table := if v = false then t else (1, .bool v) :: t

/-- The bytes of the shape vector (dense_marshaling.go:48-52, 91-95): elements are prepended from the last to the first,
each converted to `int32`. -/
def shapeBytes (shape : List Int) : List Byte :=
  shape.foldr (fun n acc => toBytes 4 (BitVec.ofInt 32 n).toNat ++ acc) []

/-- The bytes of the data vector (dense_marshaling.go:54-58, 97-101). -/
def dataBytes {k : Nat} (data : List (BitVec (8 * k))) : List Byte :=
  data.foldr (fun v acc => toBytes k v.toNat ++ acc) []

/-- `marshalBinaryFloat32` and `marshalBinaryFloat64` (dense_marshaling.go:45-68, 88-111). -/
def marshal (τ : DType) (d : Mat τ.size) : Table :=
  let shape : Field := .vector d.shape.length (shapeBytes d.shape)
  let data : Field := .vector d.data.length (dataBytes d.data)
  let t := addDtype [] τ.code
  let t := addRequiresGrad t d.requiresGrad
  let t := (2, shape) :: t
  (3, data) :: t

/-- `Dtype` (DenseFloat64.go:44-50). -/
def dtype (t : Table) : BitVec 32 :=
  match t.field 4 with
  | some (.int32 v) => v
  | _ => 0

/-- `RequiresGrad` (DenseFloat64.go:56-62). -/
def requiresGrad (t : Table) : Bool :=
  match t.field 6 with
  | some (.bool v) => v
  | _ => false

/-- `ShapeLength` (DenseFloat64.go:77-83). -/
def shapeLength (t : Table) : Nat :=
  match t.field 8 with
  | some (.vector n _) => n
  | _ => 0

/-- `Shape(j)` (DenseFloat64.go:68-75): four bytes at `4 j`. -/
def shapeAt (t : Table) (j : Nat) : BitVec 32 :=
  match t.field 8 with
  | some (.vector _ b) => BitVec.ofNat 32 (ofBytes ((b.drop (j * 4)).take 4))
  | _ => 0

/-- `DataLength` (DenseFloat64.go:103-109). -/
def dataLength (t : Table) : Nat :=
  match t.field 10 with
  | some (.vector n _) => n
  | _ => 0

/-- `DataBytes` (DenseFloatDataBytes.go:10-26): the first `len * k` bytes of the vector. -/
def rawBytes (k : Nat) (t : Table) : List Byte :=
  match t.field 10 with
  | some (.vector n b) => b.take (n * k)
  | _ => []

/-- How the machine orders the bytes of a number in memory. -/
inductive Endian where
  | little | big
  deriving DecidableEq

/-- A number of the machine's memory. -/
def load (e : Endian) (b : List Byte) : Nat :=
  match e with
  | .little => ofBytes b
  | .big => ofBytes b.reverse

/-- `bytesToSlice` (dense_marshaling.go:131-136): the bytes are taken as elements in the machine's own order. -/
def bytesToSlice (k : Nat) (e : Endian) (b : List Byte) (length : Nat) : List (BitVec (8 * k)) :=
  if b.length = 0 then []
  else (List.range length).map fun i => BitVec.ofNat (8 * k) (load e ((b.drop (i * k)).take k))

/-- `unmarshalBinaryFloat32` and `unmarshalBinaryFloat64` (dense_marshaling.go:70-86, 113-129), on the matrix `d`; `none`
is the error (which leaves `d` as it was). -/
def unmarshal (τ : DType) (e : Endian) (d : Mat τ.size) (t : Table) : Option (Mat τ.size) :=
  if dtype t ≠ τ.code then none
  else
    let d := { d with requiresGrad := requiresGrad t }
    let d := { d with shape := (List.range (shapeLength t)).map fun i => (shapeAt t i).toInt }
    some { d with data := bytesToSlice τ.size e (rawBytes τ.size t) (dataLength t) }

end Verif.Marshal
