import Verif.Model.Dense
import Verif.Model.Loop
import Mathlib.Order.WithBot
import Mathlib.Algebra.Order.Monoid.Unbundled.WithTop

set_option autoImplicit false

/-!
# Conditional random field (nn/crf)

The transition matrix has the start/end state at index 0. Only the computed values are modelled here
(the gradients of the operators are the subject of the backward model). Emission scores are matrices;
`none` is a panic.
-/

namespace Verif.Crf
open Loop
variable {R : Type}

/-- `ag.Add` whose first argument may be nil (ag/operators.go:20-28), on scalars. -/
def addNil [Add R] : Option R → R → R
  | none, v => v
  | some s, v => s + v

/-- The loop of `goldScore` (nn/crf/crf.go:53-57). -/
def goldLoop [Add R] (tr : Dense R) : List (Dense R) → List Nat → Nat → R → Option (Nat × R)
  | _, [], prev, s => some (prev, s)
  | [], _ :: _, _, _ => none
  | x :: xs, y :: ys, prev, s => do
    let e ← x.at1 y
    let t ← tr.at2 prev (y + 1 : Nat)
    goldLoop tr xs ys (y + 1) (s + e + t)

/-- `goldScore` (nn/crf/crf.go:49-60). -/
def goldScore [Add R] (tr : Dense R) (xs : List (Dense R)) (target : List Nat) : Option R :=
  match xs, target with
  | x :: xs, y :: ys => do
    let e ← x.at2 y 0
    let t ← tr.at2 0 (y + 1 : Nat)
    let r ← goldLoop tr xs ys (y + 1) (e + t)
    let u ← tr.at2 r.1 0
    some (r.2 + u)
  | _, _ => none

/-- `totalScoreStart` (nn/crf/crf.go:71-77). -/
def totalScoreStart [Add R] (size : Nat) (tr x : Dense R) : Option (List R) :=
  (List.range size).mapM fun (i : Nat) => do
    let e ← x.at1 i
    let t ← tr.at2 0 (i + 1 : Nat)
    some (e + t)

/-- `totalScoreEnd` (nn/crf/crf.go:79-86). The scores start as nil. -/
def totalScoreEnd [Add R] (exp : R → R) (size : Nat) (tr : Dense R) (tot : List R) : Option (List R) :=
  (List.range size).mapM fun (i : Nat) => do
    let s ← tot[i]?
    let t ← tr.at2 (i + 1 : Nat) 0
    some (addNil none (exp (s + t)))

/-- `totalScoreStep` (nn/crf/crf.go:88-102). The scores start as nil. -/
def totalScoreStep [Add R] (exp log : R → R) (size : Nat) (tr : Dense R) (tot step : List R) :
    Option (List R) := do
  let scores ← (List.range size).foldlM (fun (scores : List (Option R)) (i : Nat) => do
    let nodei ← tot[i]?
    forUpd (fun j s => do
      let e ← step[j]?
      let t ← tr.at2 (i + 1 : Nat) (j + 1 : Nat)
      some (some (addNil s (exp (nodei + e + t))))) (List.range size) scores)
    (List.replicate size none)
  scores.mapM fun s => s.map log

/-- `ag.SeparateVec` (ag/operators.go:424-431). -/
def separateVec (x : Dense R) : Option (List R) :=
  (List.range x.data.length).mapM fun (i : Nat) => x.at1 i

/-- The loop of `totalScore` (nn/crf/crf.go:64-66). -/
def totalLoop [Add R] (exp log : R → R) (size : Nat) (tr : Dense R) :
    List (Dense R) → List R → Option (List R)
  | [], tot => some tot
  | x :: xs, tot => do
    let step ← separateVec x
    let tot ← totalScoreStep exp log size tr tot step
    totalLoop exp log size tr xs tot

/-- `totalScore` (nn/crf/crf.go:62-69). -/
def totalScore [Add R] [Zero R] (exp log : R → R) (size : Nat) (tr : Dense R) (xs : List (Dense R)) :
    Option R :=
  match xs with
  | [] => none
  | x :: xs => do
    let tot ← totalScoreStart size tr x
    let tot ← totalLoop exp log size tr xs tot
    let tot ← totalScoreEnd exp size tr tot
    some (log (tot.foldl (· + ·) 0))

/-- `NegativeLogLoss` (nn/crf/crf.go:43-47). -/
def negativeLogLoss [Add R] [Sub R] [Zero R] (exp log : R → R) (size : Nat) (tr : Dense R)
    (xs : List (Dense R)) (target : List Nat) : Option R := do
  let gold ← goldScore tr xs target
  let total ← totalScore exp log size tr xs
  some (total - gold)

section viterbi
variable [Add R] [LinearOrder R]

/-- A `ViterbiStructure` (nn/crf/viterbi.go:17-28): for each label its score, initially -inf, and its
back-pointer, initially 0. The column vector `scores` and the slice `backpointers` are one list. -/
abbrev Table (R : Type) := List (WithBot R × Nat)

/-- `NewViterbiStructure` (nn/crf/viterbi.go:23-28). -/
def newTable (R : Type) (n : Nat) : Table R := List.replicate n (⊥, 0)

/-- The common `if score > yv { ... }` (nn/crf/viterbi.go:54-57, 69-72, 86-89). -/
def relax (e : WithBot R × Nat) (score : WithBot R) (bp : Nat) : WithBot R × Nat :=
  if e.1 < score then (score, bp) else e

/-- `viterbiStepStart` (nn/crf/viterbi.go:47-60). -/
def viterbiStepStart (tr x : Dense R) : Option (Table R) :=
  forUpd (fun (i : Nat) e => do
    let mv ← x.at2 i 0
    let tv ← tr.at2 0 (i + 1 : Nat)
    some (relax e ((mv + tv : R) : WithBot R) i))
    (List.range (tr.rows - 1)) (newTable R (tr.rows - 1))

/-- `viterbiStepEnd` (nn/crf/viterbi.go:62-75). -/
def viterbiStepEnd (tr : Dense R) (prev : Table R) : Option (Table R) :=
  forUpd (fun (i : Nat) e => do
    let mv ← prev[i]?
    let tv ← tr.at2 (i + 1 : Nat) 0
    some (relax e (mv.1 + (tv : WithBot R)) i))
    (List.range (tr.rows - 1)) (newTable R (tr.rows - 1))

/-- `viterbiStep` (nn/crf/viterbi.go:77-93). -/
def viterbiStep (tr : Dense R) (prev : Table R) (x : Dense R) : Option (Table R) :=
  (List.range (tr.rows - 1)).foldlM (fun (y : Table R) (i : Nat) =>
    forUpd (fun (j : Nat) e => do
      let mv ← prev[i]?
      let sv ← x.at2 j 0
      let tv ← tr.at2 (i + 1 : Nat) (j + 1 : Nat)
      some (relax e (mv.1 + (sv : WithBot R) + (tv : WithBot R)) i))
      (List.range (tr.cols - 1)) y)
    (newTable R (tr.rows - 1))

/-- The loop of `Viterbi` that fills `alpha[1..]` (nn/crf/viterbi.go:34-36); the tables computed so
far are `last`, the latest, and `acc`, the earlier ones, latest first. -/
def viterbiLoop (tr : Dense R) : List (Dense R) → Table R → List (Table R) →
    Option (Table R × List (Table R))
  | [], last, acc => some (last, acc)
  | x :: xs, last, acc => do
    let t ← viterbiStep tr last x
    viterbiLoop tr xs t (last :: acc)

/-- The loop that follows the back-pointers (nn/crf/viterbi.go:41-43); `t` is `alpha[i+1]`, `ts` are
the earlier tables, latest first, `y` is `ys[i+1]`, `ys` the labels after it. -/
def backtrack : Table R → List (Table R) → Nat → List Nat → Option (List Nat)
  | _, [], y, ys => some (y :: ys)
  | t, t' :: ts, y, ys => do
    let e ← t[y]?
    backtrack t' ts e.2 (y :: ys)

/-- `Viterbi` (nn/crf/viterbi.go:31-45), which is `Decode` (nn/crf/crf.go:38-40). -/
def viterbi (tr : Dense R) (xs : List (Dense R)) : Option (List Nat) :=
  match xs with
  | [] => none
  | x :: xs => do
    let a0 ← viterbiStepStart tr x
    let r ← viterbiLoop tr xs a0 []
    let fin ← viterbiStepEnd tr r.1
    let y ← (Dense.column (fin.map (·.1))).argMax
    backtrack r.1 r.2 y []

end viterbi
end Verif.Crf
