import Verif.Model.Dense
import Mathlib.Algebra.Field.Basic
import Mathlib.Order.WithBot
import Mathlib.Algebra.Order.Monoid.Unbundled.WithTop

set_option autoImplicit false

/-!
# Attention (nn/attention) and the linear layer (nn/linear)

Values only. The causal mask contains -inf: masked scores are elements of `WithBot R`, `⊥` being -inf,
and `exp(-inf) = 0`.
-/

namespace Verif.Attention
variable {R : Type} [Field R] [LinearOrder R]

/-- `exp(v - m)` for a finite `m`; `exp(-inf) = 0`. -/
def expBot (exp : R → R) (m : R) : WithBot R → R
  | none => 0
  | some r => exp (r - m)

/-- `Softmax` (mat/dense.go:1082-1113) on a vector that may contain -inf. `none` also when all entries
are -inf (the code then computes NaN). -/
def softmaxBot (exp : R → R) (d : Dense (WithBot R)) : Option (Dense R) :=
  if ¬ d.isVector then none
  else if d.data.length = 0 then some (Dense.zeros 0 1)
  else do
    let m ← d.max
    let m ← (m : Option R)
    let out ← (if d.cols ≠ 1 then d.transposeInPlace d.data.length else some d)
    let e : Dense R := ⟨out.rows, out.cols, out.data.map (expBot exp m)⟩
    some (e.map (· * (1 / e.sum)))

/-- `makeCausalMask` (nn/attention/attention.go:51-58): 0 up to `curIndex`, -inf after it. -/
def makeCausalMask (R : Type) [Zero R] (curIndex seqLength : Nat) : List (WithBot R) :=
  (List.range seqLength).map fun k => if curIndex + 1 ≤ k then ⊥ else ((0 : R) : WithBot R)

/-- One iteration of the loops of `ScaledDotProductAttention` (nn/attention/attention.go:26-46): the
output and the weights of query `i`. -/
def attendOne (exp : R → R) (scale : R) (k v : Dense R) (mask : Bool) (i : Nat) (qi : Dense R) :
    Option (Dense R × Dense R) := do
  let kq ← k.mul qi
  let scores := kq.map (· * scale)
  let scores : Dense (WithBot R) := ⟨scores.rows, scores.cols, scores.data.map fun (r : R) => (r : WithBot R)⟩
  let scores ← (if mask then
      Dense.zipOp (· + ·) scores (Dense.column (makeCausalMask R i k.rows))
    else some scores)
  let w ← softmaxBot exp scores
  let a ← v.mulT w
  some (a, w)

/-- The loop over the queries. -/
def attendLoop (exp : R → R) (scale : R) (k v : Dense R) (mask : Bool) :
    Nat → List (Dense R) → Option (List (Dense R × Dense R))
  | _, [] => some []
  | i, qi :: qs => do
    let r ← attendOne exp scale k v mask i qi
    let rs ← attendLoop exp scale k v mask (i + 1) qs
    some (r :: rs)

/-- `ScaledDotProductAttention` (nn/attention/attention.go:18-49): outputs paired with weights. The
mask is used only for more than one query. -/
def sdpa (exp : R → R) (q : List (Dense R)) (k v : Dense R) (scale : R) (useCausalMask : Bool) :
    Option (List (Dense R × Dense R)) :=
  attendLoop exp scale k v (useCausalMask && decide (q.length > 1)) 0 q

/-- `linear.Model.Forward` for one input (nn/linear/linear.go:44-50, mat/gradfn/affine.go:71-80):
`W x + b`. -/
def linear (w b x : Dense R) : Option (Dense R) := do
  let y ← w.mul x
  Dense.zipOp (· + ·) y b

/-- `selfattention.Model` (nn/attention/selfattention/model.go:34-53). -/
structure SelfAtt (R : Type) where
  wq : Dense R
  bq : Dense R
  wk : Dense R
  bk : Dense R
  wv : Dense R
  bv : Dense R
  scale : R
  useCausalMask : Bool
  isCrossAttention : Bool

/-- The keys and values used by `Forward` (nn/attention/selfattention/model.go:81-96). -/
def SelfAtt.keysValues (m : SelfAtt R) (cache : Option (Dense R × Dense R)) (x : List (Dense R)) :
    Option (Dense R × Dense R) :=
  match cache, m.isCrossAttention with
  | some c, true => some c
  | cache, _ => do
    let k ← x.mapM (linear m.wk m.bk)
    let v ← x.mapM (linear m.wv m.bv)
    match cache with
    | some c => do
      let pk ← c.1.appendRows k
      let pv ← c.2.appendRows v
      some (pk, pv)
    | none => do
      let pk ← Dense.stack k
      let pv ← Dense.stack v
      some (pk, pv)

/-- `selfattention.Model.Forward` (nn/attention/selfattention/model.go:76-101): outputs paired with
weights, and the next cache. `none` as cache is a cache without values. -/
def SelfAtt.forward (exp : R → R) (m : SelfAtt R) (cache : Option (Dense R × Dense R))
    (q x : List (Dense R)) : Option (List (Dense R × Dense R) × (Dense R × Dense R)) := do
  let pq ← q.mapM (linear m.wq m.bq)
  let kv ← m.keysValues cache x
  let r ← sdpa exp pq kv.1 kv.2 m.scale m.useCausalMask
  some (r, kv)

/-- A caller that feeds the tokens one by one, each with the cache returned by the previous call. -/
def SelfAtt.decode (exp : R → R) (m : SelfAtt R) :
    Option (Dense R × Dense R) → List (Dense R) →
      Option (List (Dense R × Dense R) × Option (Dense R × Dense R))
  | cache, [] => some ([], cache)
  | cache, x :: xs => do
    let r ← m.forward exp cache [x] [x]
    let rs ← m.decode exp (some r.2) xs
    some (r.1 ++ rs.1, rs.2)

end Verif.Attention
