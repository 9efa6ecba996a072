import Verif.Model.Head32
import Verif.Spec.Att32

set_option autoImplicit false

/-!
# An attention head of real numbers, and how far that of float32 may be from it
-/

namespace Verif.Spec.Head32
open Verif.F32 Verif.Net32 Verif.Att32 Verif.Head32 Verif.Spec.Net32 Verif.Spec.Rec32 Verif.Spec.Att32

/-- `W u + b`. -/
noncomputable def lin (L : Lin) (u : Nat → ℝ) (i : Nat) : ℝ := (∑ k ∈ Finset.range L.cols, at2 L.cols L.w i k * u k) + val (L.b.getD i 0)

/-- How large it gets, for inputs up to `X`. -/
noncomputable def mag (L : Lin) (X : ℝ) : ℝ := Net32.norm L.rows L.cols L.w * X + bias L.rows L.b

/-- How far float32 is from it. -/
noncomputable def linErr (L : Lin) (X : ℝ) : ℝ :=
  dotErr L.cols (Net32.norm L.rows L.cols L.w) X + (top L.rows L.cols L.w L.b X + (2 : ℝ) ^ (-126 : Int)) / 2 ^ 24

/-- The shapes agree, all is finite and stays in the range. -/
structure LinFits (L : Lin) (X : ℝ) : Prop where
  w : L.w.length = L.rows * L.cols
  b : L.b.length = L.rows
  wv : ∀ v ∈ L.w, F32.Finite v ∧ |val v| ≤ 2 ^ 50
  bv : ∀ v ∈ L.b, F32.Finite v
  c20 : L.cols ≤ 2 ^ 20
  x50 : X ≤ 2 ^ 50
  top : top L.rows L.cols L.w L.b X ≤ maxFin

/-- The exact result of a head for the query `q` when the positions hold the vectors `ts`, of which `q` sees those that are `ok`. -/
noncomputable def head (H : Head) (ts : List (List F32.W)) (ok : Nat → Prop) [DecidablePred ok] (q : List F32.W) : Nat → ℝ :=
  attend ts.length H.key.rows ok (val H.c) (fun j => lin H.key (vals (ts.getD j []))) (fun j => lin H.value (vals (ts.getD j [])))
    (lin H.query (vals q))

/-- How large the words of a key, a query and a value may be. -/
noncomputable def keyTop (H : Head) (X : ℝ) : ℝ := mag H.key X + linErr H.key X
noncomputable def queryTop (H : Head) (X : ℝ) : ℝ := mag H.query X + linErr H.query X
noncomputable def valueTop (H : Head) (X : ℝ) : ℝ := mag H.value X + linErr H.value X

/-- The head fits, for up to `N` positions and inputs up to `X`. -/
structure Fits (H : Head) (N : Nat) (X : ℝ) : Prop where
  x0 : 0 ≤ X
  query : LinFits H.query X
  key : LinFits H.key X
  value : LinFits H.value X
  same : H.query.rows = H.key.rows
  cols : H.value.cols = H.key.cols
  n20 : N ≤ 2 ^ 20
  d20 : H.key.rows ≤ 2 ^ 20
  k50 : keyTop H X ≤ 2 ^ 50
  q50 : queryTop H X ≤ 2 ^ 50
  v120 : valueTop H X ≤ 2 ^ 120
  c : F32.Finite H.c
  top : |val H.c| * dotTop H.key.rows (H.key.rows * keyTop H X) (queryTop H X) ≤ maxFin

/-- How far the errors of keys and queries move the scores. -/
noncomputable def scoreMove (H : Head) (X : ℝ) : ℝ :=
  |val H.c| * (H.key.rows * keyTop H X * linErr H.query X + H.key.rows * linErr H.key X * mag H.query X)

/-- The error of a result, for up to `N` positions. -/
noncomputable def headErr (H : Head) (N : Nat) (X : ℝ) : ℝ :=
  attErr N H.key.rows (val H.c) (H.key.rows * keyTop H X) (queryTop H X) (valueTop H X) +
    (Real.exp (2 * scoreMove H X) - 1) * mag H.value X + linErr H.value X

/-- The vectors behind the cache after a call: a head for cross-attention keeps those of its first call. -/
def grow (cross : Bool) : Option (List (List F32.W)) → List (List F32.W) → List (List F32.W)
  | none, xs => xs
  | some ts, xs => if cross then ts else ts ++ xs

/-- The results of a call: weights that are 0 where the mask hides a position, and vectors within `headErr` of the exact ones. -/
def OutClose (H : Head) (N : Nat) (X : ℝ) (ts qs : List (List F32.W)) (out : List (List F32.W × List F32.W)) : Prop :=
  out.length = qs.length ∧ ∀ i q w z, qs[i]? = some q → out[i]? = some (w, z) →
    let masked := H.causal && decide (1 < qs.length)
    w.length = ts.length ∧ (∀ j < ts.length, F32.Finite (w.getD j 0) ∧ 0 ≤ val (w.getD j 0) ∧ (¬ sees masked i j → val (w.getD j 0) = 0)) ∧
    z.length = H.value.rows ∧ ∀ l < H.value.rows, F32.Finite (z.getD l 0) ∧
      |val (z.getD l 0) - head H ts (sees masked i) q l| ≤ headErr H N X

/-- The results of calls, one after the other. -/
def SessionClose (H : Head) (N : Nat) (X : ℝ) : Option (List (List F32.W)) → List (List (List F32.W) × List (List F32.W)) →
    List (List (List F32.W × List F32.W)) → Prop
  | _, [], outs => outs = []
  | o, (qs, xs) :: calls, outs => ∃ out rest, outs = out :: rest ∧ OutClose H N X (grow H.cross o xs) qs out ∧
      SessionClose H N X (some (grow H.cross o xs)) calls rest

/-! ### Several heads -/

/-- The results of the heads one after the other. -/
noncomputable def side (ts : List (List F32.W)) (ok : Nat → Prop) [DecidablePred ok] (q : List F32.W) : List Head → Nat → ℝ
  | [], _ => 0
  | H :: Hs, k => if k < H.value.rows then head H ts ok q k else side ts ok q Hs (k - H.value.rows)

/-- The exact result of all heads. -/
noncomputable def multi (A : Multi) (ts : List (List F32.W)) (ok : Nat → Prop) [DecidablePred ok] (q : List F32.W) : Nat → ℝ :=
  lin A.merge (side ts ok q A.heads)

/-- All heads fit, with an error up to `E` and values up to `V`; they are of one kind; and the merging layer fits. -/
structure MultiFits (A : Multi) (cross causal : Bool) (N : Nat) (X V E : ℝ) : Prop where
  some : A.heads ≠ []
  fits : ∀ H ∈ A.heads, Fits H N X
  kind : ∀ H ∈ A.heads, H.cross = cross ∧ H.causal = causal
  err : ∀ H ∈ A.heads, headErr H N X ≤ E
  mag : ∀ H ∈ A.heads, mag H.value X ≤ V
  width : (A.heads.map fun H => H.value.rows).sum = A.merge.cols
  merge : LinFits A.merge (V + E)

/-- The error of a result. -/
noncomputable def multiErr (A : Multi) (V E : ℝ) : ℝ := Net32.norm A.merge.rows A.merge.cols A.merge.w * E + linErr A.merge (V + E)

/-- The results of a call. -/
def MultiClose (A : Multi) (causal : Bool) (V E : ℝ) (ts qs ys : List (List F32.W)) : Prop :=
  ys.length = qs.length ∧ ∀ (i : Nat) q y, qs[i]? = some q → ys[i]? = some y → y.length = A.merge.rows ∧
    ∀ l < A.merge.rows, F32.Finite (y.getD l 0) ∧ |val (y.getD l 0) - multi A ts (sees (causal && decide (1 < qs.length)) i) q l| ≤ multiErr A V E

/-- The results of calls, one after the other. -/
def MultiSessionClose (A : Multi) (cross causal : Bool) (V E : ℝ) : Option (List (List F32.W)) →
    List (List (List F32.W) × List (List F32.W)) → List (List (List F32.W)) → Prop
  | _, [], yss => yss = []
  | o, (qs, xs) :: calls, yss => ∃ ys rest, yss = ys :: rest ∧ MultiClose A causal V E (grow cross o xs) qs ys ∧
      MultiSessionClose A cross causal V E (some (grow cross o xs)) calls rest

end Verif.Spec.Head32
