import Verif.Spec.Lstm32
import Verif.Spec.SrnTrain32
import Verif.Model.LstmTrain32

set_option autoImplicit false

/-!
# How far a step of training of an LSTM of float32 may be from a step of gradient descent
-/

namespace Verif.Spec.Lstm32
open Verif.F32 Verif.Net32 Verif.Rec32 Verif.Lstm32 Verif.Spec.Net32 Verif.Spec.Rec32 Verif.Spec.Back32 Verif.Spec.Train32 Verif.Spec.Srn32

/-- The loss of all sequences. -/
noncomputable def batchL (n m : Nat) (Θ : Thetas) (ess : List (List SStep)) : ℝ := (ess.map fun es => lossL n m Θ (fun _ => 0) (fun _ => 0) es).sum

/-- What is asked of a batch of sequences of at most `T` steps: as in `Sound`, parameters up to `W`, and a rate that does not overflow. -/
structure SoundBatch (n m : Nat) (g : Lstm) (X Ec Ey P H W lr : ℝ) (T : Nat) (ess : List (List SStep)) : Prop where
  gate : ∀ q, Fits n m (gateOf g q) X
  params : ∀ q v, v ∈ (gateOf g q).w ∨ v ∈ (gateOf g q).wRec ∨ v ∈ (gateOf g q).b → |val v| ≤ W
  w120 : W ≤ 2 ^ 120
  input : ∀ es ∈ ess, ∀ e ∈ es, Within m e.x X
  losses : ∀ es ∈ ess, GoodL n m (thetas n m g) Ey P H (fun _ => 0) (fun _ => 0) es
  last : ∀ es ∈ ess, EndsWithLoss es
  length : ∀ es ∈ ess, es.length ≤ T
  steps : T ≤ 2 ^ 20
  count : stepCount ess ≤ 2 ^ 20
  out : ∀ t ≤ T, (lstmBound n m g X t).1 ≤ Ec ∧ (lstmBound n m g X t).2 ≤ Ey
  e50 : 1 + Ey ≤ 2 ^ 50
  p0 : 0 ≤ P
  h0 : 0 ≤ H
  gates : ∀ q, (tol n m g X Ec Ey T).ev q ≤ 1 ∧ (tol n m g X Ec Ey T).ka q ≤ 1
  cells : slopeErr .tanh Ec ≤ 1
  time : FitsL n g (tol n m g X Ec Ey T) P H T
  sumW : ∀ q, max 1 lr * total (stepCount ess) (conTop (tops n g (tol n m g X Ec Ey T) P H q) (offs n g (tol n m g X Ec Ey T) P H q) X 0 T) ≤ 2 ^ 120
  sumU : ∀ q, max 1 lr * total (stepCount ess) (conTop (tops n g (tol n m g X Ec Ey T) P H q) (offs n g (tol n m g X Ec Ey T) P H q) 1 Ey T) ≤ 2 ^ 120
  sumB : ∀ q, max 1 lr * total (stepCount ess) (biasTop (tops n g (tol n m g X Ec Ey T) P H q) (offs n g (tol n m g X Ec Ey T) P H q) T) ≤ 2 ^ 120

end Verif.Spec.Lstm32
