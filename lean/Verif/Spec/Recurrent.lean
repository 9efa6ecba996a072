import Verif.Model.Recurrent
import Verif.Props.DenseMul
import Verif.Spec.GradFn

set_option autoImplicit false

/-!
# Recurrent networks as sequences of real vectors

Vectors are functions `Nat → ℝ`; the recurrences are those of the papers and of the comments in the code, started
from zero vectors.
-/

namespace Verif.Recurrent
open Dense
open scoped BigOperators
noncomputable section

/-- The shapes made by the constructors (gru.go:53-58, lstm.go:64-88, srn.go:36-42). -/
structure GateOK (i o : Nat) (g : Gate) : Prop where
  w : g.w.WF ∧ g.w.rows = o ∧ g.w.cols = i
  wRec : g.wRec.WF ∧ g.wRec.rows = o ∧ g.wRec.cols = o
  b : g.b.WF ∧ g.b.rows = o ∧ g.b.cols = 1

/-- `(W x + b + V y)_j` for an `o × i` matrix `W`. -/
def pre (i o : Nat) (g : Gate) (x y : Nat → ℝ) (j : Nat) : ℝ :=
  ∑ k ∈ Finset.range i, g.w.el j k * x k + g.b.val j + ∑ k ∈ Finset.range o, g.wRec.el j k * y k

/-- The logistic function. -/
def logistic (a : ℝ) : ℝ := 1 / (1 + Real.exp (-a))

/-- `y' = tanh (W x + b + V y)` -/
def srnStep (i o : Nat) (m : Gate) (y x : Nat → ℝ) (j : Nat) : ℝ := Real.tanh (pre i o m x y j)

/-- The values of a GRU step. -/
structure GRUVals where
  r : Nat → ℝ
  p : Nat → ℝ
  c : Nat → ℝ
  y : Nat → ℝ

/-- `r = σ(Wr x + br + Vr y)`, `p = σ(Wp x + bp + Vp y)`, `c = tanh(Wc x + bc + Vc (y * r))`,
`y' = p * c + (1 - p) * y`. -/
def gruStep (i o : Nat) (m : GRU) (s : GRUVals) (x : Nat → ℝ) : GRUVals :=
  let r := fun j => logistic (pre i o m.res x s.y j)
  let p := fun j => logistic (pre i o m.part x s.y j)
  let c := fun j => Real.tanh (pre i o m.cand x (fun k => s.y k * r k) j)
  ⟨r, p, c, fun j => p j * c j + (1 - p j) * s.y j⟩

/-- The state of zeros. -/
def gruZero : GRUVals := ⟨0, 0, 0, 0⟩

/-- The values of an LSTM step. -/
structure LSTMVals where
  inG : Nat → ℝ
  outG : Nat → ℝ
  forG : Nat → ℝ
  cand : Nat → ℝ
  cell : Nat → ℝ
  y : Nat → ℝ

/-- `in = σ(…)`, `out = σ(…)`, `for = σ(…)`, `cand = tanh(…)`, `cell' = in * cand + for * cell`,
`y' = out * tanh cell'`; with refined gates `in` and `out` are multiplied by `x`. -/
def lstmStep (i o : Nat) (m : LSTM) (s : LSTMVals) (x : Nat → ℝ) : LSTMVals :=
  let gate := fun j => if m.refined then x j else 1
  let inG := fun j => logistic (pre i o m.inp x s.y j) * gate j
  let outG := fun j => logistic (pre i o m.outp x s.y j) * gate j
  let forG := fun j => logistic (pre i o m.forg x s.y j)
  let cand := fun j => Real.tanh (pre i o m.cand x s.y j)
  let cell := fun j => inG j * cand j + forG j * s.cell j
  ⟨inG, outG, forG, cand, cell, fun j => outG j * Real.tanh (cell j)⟩

/-- The state of zeros. -/
def lstmZero : LSTMVals := ⟨0, 0, 0, 0, 0, 0⟩

/-- The state after the inputs `0, …, t` of a sequence. -/
def stateAt {S X : Type} (step : S → X → S) (s₀ : S) (xs : List X) (t : Nat) : S := (xs.take (t + 1)).foldl step s₀

end
end Verif.Recurrent
