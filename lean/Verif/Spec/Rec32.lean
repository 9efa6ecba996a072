import Verif.Model.Rec32
import Verif.Spec.Acts32

set_option autoImplicit false

/-!
# Recurrent networks of real numbers, and how far those of float32 may be from them

A vector is given by its elements.  The state before the first input is zero.
-/

namespace Verif.Spec.Rec32
open Verif.F32 Verif.Net32 Verif.Rec32 Verif.Spec.Net32 Verif.Spec.Sigmoid32

/-- The numbers that the words stand for. -/
noncomputable def vals (x : List W) : Nat → ℝ := fun i => val (x.getD i 0)

/-- `x` has `n` elements, finite and up to `B`. -/
def Within (n : Nat) (x : List W) (B : ℝ) : Prop := x.length = n ∧ ∀ i < n, F32.Finite (x.getD i 0) ∧ |val (x.getD i 0)| ≤ B

/-- `W x + b + W' y`. -/
noncomputable def pre (n m : Nat) (g : Gate) (x y : Nat → ℝ) (i : Nat) : ℝ :=
  ∑ k ∈ Finset.range m, at2 m g.w i k * x k + val (g.b.getD i 0) + ∑ k ∈ Finset.range n, at2 n g.wRec i k * y k

/-- One step of a simple recurrent network. -/
noncomputable def srn (n m : Nat) (g : Gate) (x y : Nat → ℝ) (i : Nat) : ℝ := Real.tanh (pre n m g x y i)

/-- One step of a GRU: the share `p` of the candidate, and the rest of the previous output. -/
noncomputable def gru (n m : Nat) (g : Gru) (x y : Nat → ℝ) (i : Nat) : ℝ :=
  let r := fun k => sigmoid (pre n m g.res x y k)
  let p := sigmoid (pre n m g.part x y i)
  let c := Real.tanh (pre n m g.cand x (fun k => y k * r k) i)
  p * c + (1 - p) * y i

/-- One step of an LSTM: the cell, and the output. -/
noncomputable def lstmCell (n m : Nat) (g : Lstm) (x c y : Nat → ℝ) (i : Nat) : ℝ :=
  sigmoid (pre n m g.inp x y i) * Real.tanh (pre n m g.cand x y i) + sigmoid (pre n m g.forget x y i) * c i

noncomputable def lstmOut (n m : Nat) (g : Lstm) (x c y : Nat → ℝ) (i : Nat) : ℝ :=
  sigmoid (pre n m g.out x y i) * Real.tanh (lstmCell n m g x c y i)

/-- Both, from both. -/
noncomputable def lstm (n m : Nat) (g : Lstm) (x : Nat → ℝ) (s : (Nat → ℝ) × (Nat → ℝ)) : (Nat → ℝ) × (Nat → ℝ) :=
  (lstmCell n m g x s.1 s.2, lstmOut n m g x s.1 s.2)

/-- The state after the inputs. -/
def after {S X : Type} (step : X → S → S) (s : S) (xs : List X) : S := xs.foldl (fun s x => step x s) s

/-- How large the sums of a gate may get, for inputs up to `X` and a previous output up to 1. -/
noncomputable def preTop (n m : Nat) (g : Gate) (X : ℝ) : ℝ :=
  top n m g.w g.b X + (top n m g.w g.b X + (2 : ℝ) ^ (-126 : Int)) / 2 ^ 24 +
    (Net32.norm n n g.wRec + dotErr n (Net32.norm n n g.wRec) 1)

/-- The error of the affine function of a gate. -/
noncomputable def preErr (n m : Nat) (g : Gate) (X : ℝ) : ℝ :=
  dotErr m (Net32.norm n m g.w) X + (top n m g.w g.b X + (2 : ℝ) ^ (-126 : Int)) / 2 ^ 24 + dotErr n (Net32.norm n n g.wRec) 1 +
    (preTop n m g X + (2 : ℝ) ^ (-126 : Int)) / 2 ^ 24

/-- A gate fits: the shapes agree, the weights are finite and up to `2^50`, and the sums stay in the range of float32. -/
structure Fits (n m : Nat) (g : Gate) (X : ℝ) : Prop where
  w : g.w.length = n * m
  wRec : g.wRec.length = n * n
  b : g.b.length = n
  wv : ∀ v ∈ g.w, F32.Finite v ∧ |val v| ≤ 2 ^ 50
  wRecv : ∀ v ∈ g.wRec, F32.Finite v ∧ |val v| ≤ 2 ^ 50
  bv : ∀ v ∈ g.b, F32.Finite v
  m20 : m ≤ 2 ^ 20
  n20 : n ≤ 2 ^ 20
  x0 : 0 ≤ X
  x50 : X ≤ 2 ^ 50
  top : preTop n m g X ≤ maxFin

/-- The error of a gate after `Sigmoid`, and after `Tanh`. -/
noncomputable def sigErr (n m : Nat) (g : Gate) (X : ℝ) : ℝ := 1 / 2 ^ 20 + preErr n m g X / 4
noncomputable def tanhErr (n m : Nat) (g : Gate) (X : ℝ) : ℝ := 1 / 2 ^ 23 + preErr n m g X

/-- The error of one step of a GRU. -/
noncomputable def gruErr (n m : Nat) (g : Gru) (X : ℝ) : ℝ :=
  tanhErr n m g.cand X + Net32.norm n n g.cand.wRec * (sigErr n m g.res X + 1 / 2 ^ 24) + 2 * sigErr n m g.part X + 4 / 2 ^ 24

/-- The error of the cell after one step of an LSTM, for a cell up to `C` before it, and the error of the output. -/
noncomputable def cellErr (n m : Nat) (g : Lstm) (X C : ℝ) : ℝ :=
  sigErr n m g.inp X + tanhErr n m g.cand X + C * sigErr n m g.forget X + (2 * C + 3) / 2 ^ 24
noncomputable def outErr (n m : Nat) (g : Lstm) (X C : ℝ) : ℝ :=
  cellErr n m g X C + sigErr n m g.out X + 3 / 2 ^ 24

/-- The errors after `t` inputs: what a step adds, and what the recurrent weights make of the error before it. -/
noncomputable def srnBound (n m : Nat) (g : Gate) (X : ℝ) : Nat → ℝ
  | 0 => 0
  | t + 1 => tanhErr n m g X + Net32.norm n n g.wRec * srnBound n m g X t

noncomputable def gruBound (n m : Nat) (g : Gru) (X : ℝ) : Nat → ℝ
  | 0 => 0
  | t + 1 => gruErr n m g X + (1 + Net32.norm n n g.cand.wRec * (1 + Net32.norm n n g.res.wRec / 4) + Net32.norm n n g.part.wRec / 2) *
      gruBound n m g X t

/-- How far the cell is moved by errors `c` and `y` of the state, for an exact cell up to `t`. -/
noncomputable def cellMove (n : Nat) (g : Lstm) (t c y : ℝ) : ℝ :=
  (Net32.norm n n g.inp.wRec / 4 + Net32.norm n n g.cand.wRec + t * (Net32.norm n n g.forget.wRec / 4)) * y + c

/-- The errors of the cell and of the output of an LSTM; after `t` inputs the exact cell is up to `t`. -/
noncomputable def lstmBound (n m : Nat) (g : Lstm) (X : ℝ) : Nat → ℝ × ℝ
  | 0 => (0, 0)
  | t + 1 =>
    let b := lstmBound n m g X t
    let C := t + b.1 + 1
    (cellErr n m g X C + cellMove n g t b.1 b.2,
      outErr n m g X C + Net32.norm n n g.out.wRec / 4 * b.2 + cellMove n g t b.1 b.2)

end Verif.Spec.Rec32
