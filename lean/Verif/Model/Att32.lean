/-
`attention.ScaledDotProductAttention` (nn/attention/attention.go:18-47) of float32 on amd64, from the bits of queries, keys and
values to the bits of the result, with the operations of `Model/Net32.lean`, `Model/Softmax32.lean` and `Model/GonumFns.lean`.
An operation is a relation between the data of its operands and that of its result.
-/
import Verif.Model.Rec32
import Verif.Model.GonumFns
set_option autoImplicit false

namespace Verif.Att32
open Verif.F32 Verif.Asm Verif.Spec.Kernels Verif.Net32 Verif.Rec32

/-- `ProdScalar(c)` (mat/gradfn/prodscalar.go:33-35, mat/dense.go:591-602): `MulConst32` into a new slice; the scalar is a float32,
which the conversions to float64 and back leave as it is. -/
def Scale (cpu : Cpu) (c : F32.W) (x z : List F32.W) : Prop :=
  ∃ (p q : Nat) (s t : St F32.W), Apart 4 x.length p q ∧ elems 4 s.mem p x.length = x ∧
    Call (frameC 4 (F32.alu divIeee) c ⟨p, x.length⟩ ⟨q, x.length⟩) (mulConstFn cpu .f32) s t ∧ elems 4 t.mem q x.length = z

/-- `makeCausalMask(i, n)` (nn/attention/attention.go:51-58), converted to float32. -/
def mask (i n : Nat) : List F32.W := (List.range n).map fun k => if i + 1 ≤ k then negInf else 0

/-- `Softmax` of a vector (mat/dense.go:1080-1112) into a new matrix; an empty vector gives an empty one. -/
def Soft (M : Machine) (x z : List F32.W) : Prop :=
  (x = [] ∧ z = []) ∨ (x ≠ [] ∧ ∃ (p q : Nat) (s t : St F32.W), q % 4 = 0 ∧ Apart 4 x.length p q ∧ elems 4 s.mem p x.length = x ∧
    Softmax32.Runs M.cpu M.lane M.lib.exp ⟨p, x.length⟩ ⟨q, x.length⟩ s t ∧ elems 4 t.mem q x.length = z)

/-- `asm32.AxpyUnitaryTo(out, a, row, out)`. -/
def Axpy (a : F32.W) (row out z : List F32.W) : Prop :=
  ∃ (p q : Nat) (s t : Gonum.St F32.W), q % 4 = 0 ∧ Apart 4 out.length p q ∧ elems 4 s.mem p row.length = row ∧
    elems 4 s.mem q out.length = out ∧ s.frame = Gonum.axpyToFrame ⟨q, out.length⟩ ⟨p, row.length⟩ ⟨q, out.length⟩ ∧
    Gonum.Call (Gonum.axpyToEnv .f32 (F32.alu divIeee) a ⟨q, out.length⟩ ⟨p, row.length⟩ ⟨q, out.length⟩) (Gonum.axpyUnitaryTo .f32) s t ∧
    elems 4 t.mem q out.length = z

/-- The loop of `MulT` (mat/dense.go:777-782): one row of the matrix for every element of the vector. -/
def MulTLoop (cols : Nat) (data : List F32.W) : Nat → List F32.W → List F32.W → List F32.W → Prop
  | _, [], out, z => z = out
  | start, w :: ws, out, z => start + cols ≤ data.length ∧
      ∃ o, Axpy w ((data.drop start).take cols) out o ∧ MulTLoop cols data (start + cols) ws o z

/-- `MulT` (mat/dense.go:757-783) with a column vector: the new matrix is zero. -/
def MulT (rows cols : Nat) (data x z : List F32.W) : Prop :=
  x.length = rows ∧ MulTLoop cols data 0 x (List.replicate cols 0) z

/-- Keys, values and the scale factor: `n` rows of `d` and of `vd` elements. -/
structure Mem where
  n : Nat
  d : Nat
  vd : Nat
  k : List F32.W
  v : List F32.W
  c : F32.W

/-- `if causalMaskEnabled { scores = ag.Add(scores, causalMask) }` (attention.go:34-37). -/
def AddMask (cpu : Cpu) (n : Nat) : Option Nat → List F32.W → List F32.W → Prop
  | none, s, x => x = s
  | some i, s, x => AddNew cpu s (mask i n) x

/-- One query `q` (nn/attention/attention.go:27-44), whose causal mask ends at the given index if there is one: the weights `w` and
the result `z`. -/
def One (M : Machine) (A : Mem) (upTo : Option Nat) (q w z : List F32.W) : Prop :=
  q.length = A.d ∧ ∃ kq s s', MulVec M.cpu A.d A.k q 0 A.n kq ∧ Scale M.cpu A.c kq s ∧
    AddMask M.cpu A.n upTo s s' ∧ Soft M s' w ∧ MulT A.n A.vd A.v w z

/-- All the queries; `i` counts them.  The code does the steps of all queries one after the other, which makes no difference to any of
them. -/
def Queries (M : Machine) (A : Mem) (masked : Bool) : Nat → List (List F32.W) → List (List F32.W × List F32.W) → Prop
  | _, [], out => out = []
  | i, q :: qs, out => ∃ w z rest, One M A (if masked then some i else none) q w z ∧ Queries M A masked (i + 1) qs rest ∧
      out = (w, z) :: rest

/-- `ScaledDotProductAttention(q, k, v, scaleFactor, useCausalMask)`: pairs of weights and results.  A single query is not masked
(attention.go:23). -/
def Attention (M : Machine) (A : Mem) (useCausalMask : Bool) (qs : List (List F32.W)) (out : List (List F32.W × List F32.W)) : Prop :=
  Queries M A (useCausalMask && decide (1 < qs.length)) 0 qs out

end Verif.Att32
