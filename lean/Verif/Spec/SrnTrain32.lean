import Verif.Spec.Srn32
import Verif.Model.SrnTrain32

set_option autoImplicit false

/-!
# How far a step of training of a simple recurrent network of float32 may be from a step of gradient descent
-/

namespace Verif.Spec.Srn32
open Verif.F32 Verif.Net32 Verif.Rec32 Verif.Spec.Net32 Verif.Spec.Rec32 Verif.Spec.Back32 Verif.Spec.Train32

/-- The loss of all sequences. -/
noncomputable def batchOf (n m : Nat) (θ : Theta) (ess : List (List SStep)) : ℝ := (ess.map fun es => lossOf n m θ (fun _ => 0) es).sum

/-- The number of all steps. -/
def stepCount (ess : List (List SStep)) : Nat := (ess.map List.length).sum

/-- The error of a parameter up to `W` after the step, for `N` contributions up to `Y`, each with an error of `β`, and the rate `lr`. -/
noncomputable def stepOff (N : Nat) (lr W Y β : ℝ) : ℝ :=
  lr * (N * β + N * N * Y / 2 ^ 24) + (W + 3 * (lr * total N Y + 1 / 2 ^ 126)) / 2 ^ 24

/-- What is asked of a batch of sequences of at most `T` steps: as in `Sound`, parameters up to `W`, and a rate that does not overflow. -/
structure SoundBatch (n m : Nat) (g : Gate) (X E P H W lr : ℝ) (T : Nat) (ess : List (List SStep)) : Prop where
  gate : Fits n m g X
  params : ∀ v, v ∈ g.w ∨ v ∈ g.wRec ∨ v ∈ g.b → |val v| ≤ W
  w120 : W ≤ 2 ^ 120
  input : ∀ es ∈ ess, ∀ e ∈ es, Within m e.x X
  losses : ∀ es ∈ ess, GoodSteps n m (theta n m g) E P H (fun _ => 0) es
  last : ∀ es ∈ ess, EndsWithLoss es
  length : ∀ es ∈ ess, es.length ≤ T
  count : stepCount ess ≤ 2 ^ 20
  out : ∀ t ≤ T, srnBound n m g X t ≤ E
  e50 : 1 + E ≤ 2 ^ 50
  p0 : 0 ≤ P
  h0 : 0 ≤ H
  time : FitsTime n m g (slopeOff n m g X E) P H T
  sumW : max 1 lr * total (stepCount ess) (conSize n g.wRec (slopeOff n m g X E) P H X 0 T) ≤ 2 ^ 120
  sumU : max 1 lr * total (stepCount ess) (conSize n g.wRec (slopeOff n m g X E) P H 1 E T) ≤ 2 ^ 120
  sumB : max 1 lr * total (stepCount ess) (biasSize n g.wRec (slopeOff n m g X E) P H T) ≤ 2 ^ 120

end Verif.Spec.Srn32
