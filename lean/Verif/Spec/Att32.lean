import Verif.Model.Att32
import Verif.Spec.Rec32
import Verif.Spec.Softmax32

set_option autoImplicit false

/-!
# Attention of real numbers, and how far that of float32 may be from it
-/

namespace Verif.Spec.Att32
open Verif.F32 Verif.Net32 Verif.Att32 Verif.Spec.Net32

/-- The softmax over the positions that may be seen. -/
noncomputable def share (n : Nat) (ok : Nat → Prop) [DecidablePred ok] (s : Nat → ℝ) (j : Nat) : ℝ :=
  (if ok j then Real.exp (s j) else 0) / ∑ k ∈ Finset.range n, if ok k then Real.exp (s k) else 0

/-- The score of position `j`: `c` times the product of its key and the query. -/
noncomputable def score (d : Nat) (c : ℝ) (key : Nat → Nat → ℝ) (q : Nat → ℝ) (j : Nat) : ℝ :=
  c * ∑ k ∈ Finset.range d, key j k * q k

/-- The values, weighted by the shares. -/
noncomputable def attend (n d : Nat) (ok : Nat → Prop) [DecidablePred ok] (c : ℝ) (key value : Nat → Nat → ℝ) (q : Nat → ℝ) (l : Nat) : ℝ :=
  ∑ j ∈ Finset.range n, share n ok (score d c key q) j * value j l

/-- Query `i` sees position `j`: all of them, or with a mask those up to its own. -/
def sees (masked : Bool) (i j : Nat) : Prop := masked = true → j ≤ i

instance (masked : Bool) (i : Nat) : DecidablePred (sees masked i) := fun j => by unfold sees; infer_instance

/-- How large the products of keys and query may get, for keys whose elements add up to `Λ` and queries up to `Q`. -/
noncomputable def dotTop (d : Nat) (Λ Q : ℝ) : ℝ := Λ * Q + dotErr d Λ Q

/-- Keys, values and scale factor fit: the shapes agree, all are finite, the absolute values of a key add up to at most `Λ`, the values are up to
`B`, the queries up to `Q`, and the scores stay in the range. -/
structure Fits (A : Mem) (Λ Q B : ℝ) : Prop where
  k : A.k.length = A.n * A.d
  v : A.v.length = A.n * A.vd
  kv : ∀ x ∈ A.k, F32.Finite x ∧ |val x| ≤ 2 ^ 50
  row : ∀ j < A.n, ∑ k ∈ Finset.range A.d, |at2 A.d A.k j k| ≤ Λ
  vv : ∀ x ∈ A.v, F32.Finite x ∧ |val x| ≤ B
  b0 : 0 ≤ B
  b120 : B ≤ 2 ^ 120
  cv : F32.Finite A.c
  pos : 0 < A.n
  n20 : A.n ≤ 2 ^ 20
  d20 : A.d ≤ 2 ^ 20
  q0 : 0 ≤ Q
  q50 : Q ≤ 2 ^ 50
  top : |val A.c| * dotTop A.d Λ Q ≤ maxFin

/-- The error of the scores, for a scale factor `c`. -/
noncomputable def scoreErr (d : Nat) (c Λ Q : ℝ) : ℝ := |c| * dotErr d Λ Q + (|c| * dotTop d Λ Q + (2 : ℝ) ^ (-126 : Int)) / 2 ^ 24

/-- The error of the weights, summed, for `n` positions. -/
noncomputable def weightErr (n d : Nat) (c Λ Q : ℝ) : ℝ :=
  (Real.exp (2 * scoreErr d c Λ Q) - 1) + Softmax32.tol n + n * (2 : ℝ) ^ (-124 : Int)

/-- The error of the result. -/
noncomputable def attErr (n d : Nat) (c Λ Q B : ℝ) : ℝ :=
  B * weightErr n d c Λ Q + n * (5 * (B + (2 : ℝ) ^ (-126 : Int)) / 2 ^ 24)

end Verif.Spec.Att32
