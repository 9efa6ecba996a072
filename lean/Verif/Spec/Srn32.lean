import Verif.Spec.Train32
import Verif.Spec.Rec32
import Verif.Model.Srn32

set_option autoImplicit false

/-!
# The loss of a simple recurrent network of real numbers, and how far the gradients of float32 may be from its derivatives
-/

namespace Verif.Spec.Srn32
open Verif.F32 Verif.Net32 Verif.Rec32 Verif.Spec.Net32 Verif.Spec.Rec32 Verif.Spec.Back32 Verif.Spec.Train32

/-- Parameters of real numbers. -/
structure Theta where
  w : Nat → Nat → ℝ
  u : Nat → Nat → ℝ
  b : Nat → ℝ

/-- Those that the words stand for. -/
noncomputable def theta (n m : Nat) (g : Gate) : Theta := ⟨at2 m g.w, at2 n g.wRec, fun i => val (g.b.getD i 0)⟩

/-- One of them larger by `t`. -/
noncomputable def Theta.addW (θ : Theta) (i j : Nat) (t : ℝ) : Theta := { θ with w := fun r k => θ.w r k + if r = i ∧ k = j then t else 0 }
noncomputable def Theta.addU (θ : Theta) (i j : Nat) (t : ℝ) : Theta := { θ with u := fun r k => θ.u r k + if r = i ∧ k = j then t else 0 }
noncomputable def Theta.addB (θ : Theta) (i : Nat) (t : ℝ) : Theta := { θ with b := fun r => θ.b r + if r = i then t else 0 }

/-- A step of the network. -/
noncomputable def arg (n m : Nat) (θ : Theta) (x y : Nat → ℝ) (i : Nat) : ℝ :=
  ∑ k ∈ Finset.range m, θ.w i k * x k + θ.b i + ∑ k ∈ Finset.range n, θ.u i k * y k
noncomputable def out (n m : Nat) (θ : Theta) (x y : Nat → ℝ) (i : Nat) : ℝ := Real.tanh (arg n m θ x y i)

/-- The loss of one output: what it hands to it, the loss as a function of the output, and its gradient at the exact output. -/
structure Loss where
  G : List F32.W → List F32.W → Prop
  J : (Nat → ℝ) → ℝ
  γ : Nat → ℝ

/-- One step: the input, and the loss of the output if there is one. -/
structure SStep where
  x : List F32.W
  loss : Option Loss

/-- The gradient of the loss of one output. -/
noncomputable def SStep.γ (e : SStep) : Nat → ℝ := match e.loss with | none => fun _ => 0 | some l => l.γ
noncomputable def SStep.J (e : SStep) (y : Nat → ℝ) : ℝ := match e.loss with | none => 0 | some l => l.J y

/-- The losses of all outputs, from the previous output `y` on. -/
noncomputable def lossOf (n m : Nat) (θ : Theta) : (Nat → ℝ) → List SStep → ℝ
  | _, [] => 0
  | y, e :: es => e.J (out n m θ (vals e.x) y) + lossOf n m θ (out n m θ (vals e.x) y) es

/-- The losses when the input of step `p` is `x`. -/
noncomputable def lossIn (n m : Nat) (θ : Theta) : (Nat → ℝ) → List SStep → Nat → (Nat → ℝ) → ℝ
  | _, [], _, _ => 0
  | y, e :: es, 0, x => e.J (out n m θ x y) + lossOf n m θ (out n m θ x y) es
  | y, e :: es, p + 1, x => e.J (out n m θ (vals e.x) y) + lossIn n m θ (out n m θ (vals e.x) y) es p x

/-- An element of an input larger by `t`. -/
noncomputable def addX (x : List F32.W) (j : Nat) (t : ℝ) : Nat → ℝ := fun k => vals x k + if k = j then t else 0

/-- What is asked of the losses, at the exact outputs `v` and close to them: see `GoodLoss` and `IsGrad`. -/
def GoodSteps (n m : Nat) (θ : Theta) (E P H : ℝ) : (Nat → ℝ) → List SStep → Prop
  | _, [] => True
  | y, e :: es => (∀ l, e.loss = some l → GoodLoss l.G n (out n m θ (vals e.x) y) l.γ 1 E P H ∧ IsGrad n l.J (out n m θ (vals e.x) y) l.γ) ∧
      GoodSteps n m θ E P H (out n m θ (vals e.x) y) es

/-- The last output has a loss. -/
def EndsWithLoss : List SStep → Prop
  | [] => True
  | [e] => e.loss.isSome = true
  | _ :: e :: es => EndsWithLoss (e :: es)

/-- The chain rule, from the last step to the first: the gradient of the previous output `y`. -/
noncomputable def back (n m : Nat) (θ : Theta) : (Nat → ℝ) → List SStep → Nat → ℝ
  | _, [] => fun _ => 0
  | y, e :: es => fun k => ∑ i ∈ Finset.range n,
      (1 - Real.tanh (arg n m θ (vals e.x) y i) ^ 2) * (e.γ i + back n m θ (out n m θ (vals e.x) y) es i) * θ.u i k

/-- The gradients behind `Tanh`, with the input and the previous output. -/
structure Delta where
  δ : Nat → ℝ
  x : Nat → ℝ
  y : Nat → ℝ
noncomputable def deltas (n m : Nat) (θ : Theta) : (Nat → ℝ) → List SStep → List Delta
  | _, [] => []
  | y, e :: es =>
      ⟨fun i => (1 - Real.tanh (arg n m θ (vals e.x) y i) ^ 2) * (e.γ i + back n m θ (out n m θ (vals e.x) y) es i), vals e.x, y⟩ ::
        deltas n m θ (out n m θ (vals e.x) y) es

/-- The error of the slopes of `Tanh` when the outputs have an error of `E`. -/
noncomputable def slopeOff (n m : Nat) (g : Gate) (X E : ℝ) : ℝ := slopeErr .tanh (preErr n m g X + Net32.norm n n g.wRec * E)

/-- The error of the gradient of an output, for a loss up to `P` with an error of `H`, and `p` the size and the error of what comes from later. -/
noncomputable def outOff (P H : ℝ) (p : ℝ × ℝ) : ℝ := H + p.2 + (P + H + p.1 + p.2) / 2 ^ 24

/-- The error of the gradient behind `Tanh`. -/
noncomputable def argOff (κ P H : ℝ) (p : ℝ × ℝ) : ℝ :=
  1 * outOff P H p + κ * (P + p.1 + outOff P H p) + ((1 + κ) * (P + p.1 + outOff P H p) + (2 : ℝ) ^ (-126 : Int)) / 2 ^ 24

/-- The size and the error of what an output gets from the `r` steps after it. -/
noncomputable def later (n : Nat) (u : List F32.W) (κ P H : ℝ) : Nat → ℝ × ℝ
  | 0 => (0, 0)
  | r + 1 =>
    let p := later n u κ P H r
    (colNorm n n u * (P + p.1), colNorm n n u * argOff κ P H p + n * (5 * reach n u (P + p.1 + argOff κ P H p) / 2 ^ 24))

/-- The gradients stay away from overflow, with up to `T` steps to come. -/
def FitsTime (n m : Nat) (g : Gate) (κ P H : ℝ) (T : Nat) : Prop :=
  ∀ r < T, let p := later n g.wRec κ P H r
    P + H + p.1 + p.2 ≤ 2 ^ 120 ∧ (1 + κ) * (P + p.1 + outOff P H p) ≤ 2 ^ 121 ∧ P + p.1 + argOff κ P H p ≤ 2 ^ 50 ∧
    reach n g.w (P + p.1 + argOff κ P H p) ≤ 2 ^ 121 ∧ reach n g.wRec (P + p.1 + argOff κ P H p) ≤ 2 ^ 121

/-- The largest size and the largest error of a contribution to a parameter whose factor in the product is up to `M` with an error of `E`;
for the bias the factor is 1, without an error. -/
noncomputable def conSize (n : Nat) (u : List F32.W) (κ P H M E : ℝ) (T : Nat) : ℝ :=
  largest T fun r => (P + (later n u κ P H r).1) * M + weightErr M E (P + (later n u κ P H r).1) (argOff κ P H (later n u κ P H r))
noncomputable def conOff (n : Nat) (u : List F32.W) (κ P H M E : ℝ) (T : Nat) : ℝ :=
  largest T fun r => weightErr M E (P + (later n u κ P H r).1) (argOff κ P H (later n u κ P H r))
noncomputable def biasSize (n : Nat) (u : List F32.W) (κ P H : ℝ) (T : Nat) : ℝ :=
  largest T fun r => P + (later n u κ P H r).1 + argOff κ P H (later n u κ P H r)
noncomputable def biasOffT (n : Nat) (u : List F32.W) (κ P H : ℝ) (T : Nat) : ℝ := largest T fun r => argOff κ P H (later n u κ P H r)

/-- The largest error of the gradient of an input. -/
noncomputable def inOff (n m : Nat) (g : Gate) (κ P H : ℝ) (T : Nat) : ℝ :=
  largest T fun r => colNorm n m g.w * argOff κ P H (later n g.wRec κ P H r) +
    n * (5 * reach n g.w (P + (later n g.wRec κ P H r).1 + argOff κ P H (later n g.wRec κ P H r)) / 2 ^ 24)

/-- The error of the sum of `T` contributions up to `X`, each with an error of `β`. -/
noncomputable def sumOff (T : Nat) (X β : ℝ) : ℝ := T * β + T * T * X / 2 ^ 24

/-- What is asked of the parameters, the inputs and the losses: inputs up to `X`, outputs with an error of at most `E`, gradients of the
losses up to `P` with an error of at most `H`. -/
structure Sound (n m : Nat) (g : Gate) (X E P H : ℝ) (es : List SStep) : Prop where
  gate : Fits n m g X
  input : ∀ e ∈ es, Within m e.x X
  losses : GoodSteps n m (theta n m g) E P H (fun _ => 0) es
  last : EndsWithLoss es
  steps : es ≠ [] ∧ es.length ≤ 2 ^ 20
  out : ∀ t ≤ es.length, srnBound n m g X t ≤ E
  e50 : 1 + E ≤ 2 ^ 50
  p0 : 0 ≤ P
  h0 : 0 ≤ H
  time : FitsTime n m g (slopeOff n m g X E) P H es.length
  sumW : total es.length (conSize n g.wRec (slopeOff n m g X E) P H X 0 es.length) ≤ 2 ^ 120
  sumU : total es.length (conSize n g.wRec (slopeOff n m g X E) P H 1 E es.length) ≤ 2 ^ 120
  sumB : total es.length (biasSize n g.wRec (slopeOff n m g X E) P H es.length) ≤ 2 ^ 120

end Verif.Spec.Srn32
