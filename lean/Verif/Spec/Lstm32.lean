import Verif.Spec.Srn32
import Verif.Model.Lstm32

set_option autoImplicit false

/-!
# The loss of an LSTM of real numbers, and how far the gradients of float32 may be from its derivatives
-/

namespace Verif.Spec.Lstm32
open Verif.F32 Verif.Net32 Verif.Rec32 Verif.Lstm32 Verif.Spec.Net32 Verif.Spec.Rec32 Verif.Spec.Back32 Verif.Spec.Train32 Verif.Spec.Srn32

/-- Parameters of real numbers, and those that the words stand for. -/
abbrev Thetas := Gt → Theta
noncomputable def thetas (n m : Nat) (g : Lstm) : Thetas := fun q => theta n m (gateOf g q)

/-- One of the gates with other parameters. -/
def Thetas.set (Θ : Thetas) (q : Gt) (θ : Theta) : Thetas := fun p => if p = q then θ else Θ p

/-- The sum over the gates. -/
def sumG (f : Gt → ℝ) : ℝ := f .inp + f .out + f .forget + f .cand

/-- The value of a gate and the derivative of its activation. -/
noncomputable def gateV (n m : Nat) (Θ : Thetas) (x y : Nat → ℝ) (q : Gt) (i : Nat) : ℝ := real (actOf q) (arg n m (Θ q) x y i)
noncomputable def gateS (n m : Nat) (Θ : Thetas) (x y : Nat → ℝ) (q : Gt) (i : Nat) : ℝ := slope (actOf q) (arg n m (Θ q) x y i)

/-- A step of the network: the cell and the output. -/
noncomputable def cellL (n m : Nat) (Θ : Thetas) (x c y : Nat → ℝ) (i : Nat) : ℝ :=
  gateV n m Θ x y .inp i * gateV n m Θ x y .cand i + gateV n m Θ x y .forget i * c i
noncomputable def outL (n m : Nat) (Θ : Thetas) (x c y : Nat → ℝ) (i : Nat) : ℝ :=
  gateV n m Θ x y .out i * Real.tanh (cellL n m Θ x c y i)

/-- The losses of all outputs, from the previous cell `c` and output `y` on. -/
noncomputable def lossL (n m : Nat) (Θ : Thetas) : (Nat → ℝ) → (Nat → ℝ) → List SStep → ℝ
  | _, _, [] => 0
  | c, y, e :: es => e.J (outL n m Θ (vals e.x) c y) + lossL n m Θ (cellL n m Θ (vals e.x) c y) (outL n m Θ (vals e.x) c y) es

/-- The losses when the input of step `p` is `x`. -/
noncomputable def lossInL (n m : Nat) (Θ : Thetas) : (Nat → ℝ) → (Nat → ℝ) → List SStep → Nat → (Nat → ℝ) → ℝ
  | _, _, [], _, _ => 0
  | c, y, e :: es, 0, x => e.J (outL n m Θ x c y) + lossL n m Θ (cellL n m Θ x c y) (outL n m Θ x c y) es
  | c, y, e :: es, p + 1, x =>
      e.J (outL n m Θ (vals e.x) c y) + lossInL n m Θ (cellL n m Θ (vals e.x) c y) (outL n m Θ (vals e.x) c y) es p x

/-- What is asked of the losses, at the exact outputs and close to them: see `GoodLoss` and `IsGrad`. -/
def GoodL (n m : Nat) (Θ : Thetas) (E P H : ℝ) : (Nat → ℝ) → (Nat → ℝ) → List SStep → Prop
  | _, _, [] => True
  | c, y, e :: es =>
      (∀ l, e.loss = some l → GoodLoss l.G n (outL n m Θ (vals e.x) c y) l.γ 1 E P H ∧ IsGrad n l.J (outL n m Θ (vals e.x) c y) l.γ) ∧
      GoodL n m Θ E P H (cellL n m Θ (vals e.x) c y) (outL n m Θ (vals e.x) c y) es

/-! ## The chain rule, from the last step to the first

`b` holds the gradients of the cell and of the output of a step by way of the later steps. -/

/-- The gradient of the cell. -/
noncomputable def cellGrad (n m : Nat) (Θ : Thetas) (c y : Nat → ℝ) (e : SStep) (b : (Nat → ℝ) × (Nat → ℝ)) (i : Nat) : ℝ :=
  (1 - Real.tanh (cellL n m Θ (vals e.x) c y i) ^ 2) * (gateV n m Θ (vals e.x) y .out i * (e.γ i + b.2 i)) + b.1 i

/-- The gradients of the values of the gates. -/
noncomputable def valGrad (n m : Nat) (Θ : Thetas) (c y : Nat → ℝ) (e : SStep) (b : (Nat → ℝ) × (Nat → ℝ)) (q : Gt) (i : Nat) : ℝ :=
  match q with
  | .inp => gateV n m Θ (vals e.x) y .cand i * cellGrad n m Θ c y e b i
  | .out => Real.tanh (cellL n m Θ (vals e.x) c y i) * (e.γ i + b.2 i)
  | .forget => c i * cellGrad n m Θ c y e b i
  | .cand => gateV n m Θ (vals e.x) y .inp i * cellGrad n m Θ c y e b i

/-- The gradients in front of the activations. -/
noncomputable def argGrad (n m : Nat) (Θ : Thetas) (c y : Nat → ℝ) (e : SStep) (b : (Nat → ℝ) × (Nat → ℝ)) (q : Gt) (i : Nat) : ℝ :=
  gateS n m Θ (vals e.x) y q i * valGrad n m Θ c y e b q i

/-- The gradients of the previous cell and output. -/
noncomputable def backL (n m : Nat) (Θ : Thetas) : (Nat → ℝ) → (Nat → ℝ) → List SStep → (Nat → ℝ) × (Nat → ℝ)
  | _, _, [] => (fun _ => 0, fun _ => 0)
  | c, y, e :: es =>
    let b := backL n m Θ (cellL n m Θ (vals e.x) c y) (outL n m Θ (vals e.x) c y) es
    (fun k => gateV n m Θ (vals e.x) y .forget k * cellGrad n m Θ c y e b k,
      fun k => sumG fun q => ∑ i ∈ Finset.range n, argGrad n m Θ c y e b q i * (Θ q).u i k)

/-- The gradients in front of the activations of all steps, with the inputs and the previous outputs. -/
noncomputable def deltasL (n m : Nat) (Θ : Thetas) : (Nat → ℝ) → (Nat → ℝ) → List SStep → List (Gt → Delta)
  | _, _, [] => []
  | c, y, e :: es =>
    (fun q => ⟨argGrad n m Θ c y e (backL n m Θ (cellL n m Θ (vals e.x) c y) (outL n m Θ (vals e.x) c y) es) q, vals e.x, y⟩) ::
      deltasL n m Θ (cellL n m Θ (vals e.x) c y) (outL n m Θ (vals e.x) c y) es

/-! ## Sizes and errors -/

/-- How far the values of the forward pass are off: those of the gates, their slopes, the cells; and how large the cells are. -/
structure Tol where
  ev : Gt → ℝ
  ka : Gt → ℝ
  ec : ℝ
  C : ℝ

/-- For inputs up to `X`, cells with an error of `Ec`, outputs with an error of `Ey`, and `T` steps. -/
noncomputable def sumErr (n m : Nat) (g : Lstm) (X Ey : ℝ) (q : Gt) : ℝ :=
  preErr n m (gateOf g q) X + Net32.norm n n (gateOf g q).wRec * Ey
noncomputable def tol (n m : Nat) (g : Lstm) (X Ec Ey : ℝ) (T : Nat) : Tol where
  ev q := actErr (actOf q) + lipOf (actOf q) * sumErr n m g X Ey q
  ka q := slopeErr (actOf q) (sumErr n m g X Ey q)
  ec := Ec
  C := T

/-- The error of a product: one factor up to `M` with an error of `E`, the other up to `P` with an error of `H`. -/
noncomputable def mulOff (M E P H : ℝ) : ℝ := M * H + E * (P + H) + ((M + E) * (P + H) + (2 : ℝ) ^ (-126 : Int)) / 2 ^ 24

/-- The sizes and the errors of what an output gets from the gates of the next step, and of what a cell gets from the next cell. -/
structure Later where
  y : Gt → ℝ × ℝ
  c : ℝ × ℝ

variable (τ : Tol) (P H : ℝ) (p : Later)

/-- The size and the error of the gradient of an output. -/
noncomputable def yTop : ℝ := P + sumG fun q => (p.y q).1
noncomputable def yOff : ℝ := H + sumG (fun q => (p.y q).2) + 25 * (P + H + sumG fun q => (p.y q).1 + (p.y q).2) / 2 ^ 24

/-- The error of the gradient of the hyperbolic tangent of a cell, and of what the cell gets from it. -/
noncomputable def thruOff : ℝ := mulOff 1 (τ.ev .out) (yTop P p) (yOff P H p)
noncomputable def tOff : ℝ := mulOff 1 (slopeErr .tanh τ.ec) (yTop P p) (thruOff τ P H p)

/-- The size and the error of the gradient of a cell. -/
noncomputable def cellTop : ℝ := yTop P p + p.c.1
noncomputable def cellOff : ℝ := tOff τ P H p + p.c.2 + 4 * (yTop P p + tOff τ P H p + (p.c.1 + p.c.2)) / 2 ^ 24

/-- Those of the gradients of the values of the gates. -/
noncomputable def valTop : Gt → ℝ
  | .out => yTop P p
  | .forget => τ.C * cellTop P p
  | _ => cellTop P p
noncomputable def valOff : Gt → ℝ
  | .inp => mulOff 1 (τ.ev .cand) (cellTop P p) (cellOff τ P H p)
  | .out => mulOff 1 (1 / 2 ^ 23 + τ.ec) (yTop P p) (yOff P H p)
  | .forget => mulOff τ.C τ.ec (cellTop P p) (cellOff τ P H p)
  | .cand => mulOff 1 (τ.ev .inp) (cellTop P p) (cellOff τ P H p)

/-- Those of the gradients in front of the activations. -/
noncomputable def argTop (q : Gt) : ℝ := steepest (actOf q) * valTop τ P p q
noncomputable def argOffL (q : Gt) : ℝ := mulOff (steepest (actOf q)) (τ.ka q) (valTop τ P p q) (valOff τ P H p q)

/-- The error of what `MulT` by a matrix with `n` rows makes of a gradient up to `S` with an error of `D`. -/
noncomputable def mulTOff (n cols : Nat) (w : List F32.W) (S D : ℝ) : ℝ := colNorm n cols w * D + n * (5 * reach n w (S + D) / 2 ^ 24)

/-- After `r` steps, from the last one on. -/
noncomputable def laterL (n : Nat) (g : Lstm) (τ : Tol) (P H : ℝ) : Nat → Later
  | 0 => ⟨fun _ => (0, 0), (0, 0)⟩
  | r + 1 =>
    let p := laterL n g τ P H r
    ⟨fun q => (colNorm n n (gateOf g q).wRec * argTop τ P p q, mulTOff n n (gateOf g q).wRec (argTop τ P p q) (argOffL τ P H p q)),
      (cellTop P p, mulOff 1 (τ.ev .forget) (cellTop P p) (cellOff τ P H p))⟩

/-- The gradients stay away from overflow, with up to `T` steps to come. -/
def FitsL (n : Nat) (g : Lstm) (τ : Tol) (P H : ℝ) (T : Nat) : Prop :=
  ∀ r < T, let p := laterL n g τ P H r
    yTop P p + yOff P H p ≤ 2 ^ 50 ∧ cellTop P p + cellOff τ P H p ≤ 2 ^ 50 ∧
    ∀ q, valTop τ P p q + valOff τ P H p q ≤ 2 ^ 100 ∧ argTop τ P p q + argOffL τ P H p q ≤ 2 ^ 50 ∧
      reach n (gateOf g q).w (argTop τ P p q + argOffL τ P H p q) ≤ 2 ^ 121 ∧ reach n (gateOf g q).wRec (argTop τ P p q + argOffL τ P H p q) ≤ 2 ^ 121

/-- The largest size and the largest error of a contribution to the parameters of a gate, for gradients up to `S r` with an error of `D r`;
the factor in the product is up to `M` with an error of `E`, and is 1 for the bias. -/
noncomputable def conTop (S D : Nat → ℝ) (M E : ℝ) (T : Nat) : ℝ := largest T fun r => S r * M + weightErr M E (S r) (D r)
noncomputable def conErr (S D : Nat → ℝ) (M E : ℝ) (T : Nat) : ℝ := largest T fun r => weightErr M E (S r) (D r)
noncomputable def biasTop (S D : Nat → ℝ) (T : Nat) : ℝ := largest T fun r => S r + D r
noncomputable def biasErr (D : Nat → ℝ) (T : Nat) : ℝ := largest T D

/-- The same for the input. -/
noncomputable def inTop (n m : Nat) (w : List F32.W) (S : Nat → ℝ) (T : Nat) : ℝ := largest T fun r => colNorm n m w * S r
noncomputable def inErr (n m : Nat) (w : List F32.W) (S D : Nat → ℝ) (T : Nat) : ℝ := largest T fun r => mulTOff n m w (S r) (D r)

/-- The sizes and the errors in front of the activations, `r` steps before the last. -/
noncomputable def tops (n : Nat) (g : Lstm) (τ : Tol) (P H : ℝ) (q : Gt) (r : Nat) : ℝ := argTop τ P (laterL n g τ P H r) q
noncomputable def offs (n : Nat) (g : Lstm) (τ : Tol) (P H : ℝ) (q : Gt) (r : Nat) : ℝ := argOffL τ P H (laterL n g τ P H r) q

/-- The error of the gradient of an input, and what its contributions may add up to. -/
noncomputable def xSum (n m : Nat) (g : Lstm) (τ : Tol) (P H : ℝ) (T : Nat) : ℝ :=
  sumG fun q => inTop n m (gateOf g q).w (tops n g τ P H q) T + inErr n m (gateOf g q).w (tops n g τ P H q) (offs n g τ P H q) T
noncomputable def xOff (n m : Nat) (g : Lstm) (τ : Tol) (P H : ℝ) (T : Nat) : ℝ :=
  sumG (fun q => inErr n m (gateOf g q).w (tops n g τ P H q) (offs n g τ P H q) T) + 16 * xSum n m g τ P H T / 2 ^ 24

/-- What is asked of the parameters, the inputs and the losses: inputs up to `X`, cells with an error of at most `Ec`, outputs with an error
of at most `Ey`, gradients of the losses up to `P` with an error of at most `H`. -/
structure Sound (n m : Nat) (g : Lstm) (X Ec Ey P H : ℝ) (es : List SStep) : Prop where
  gate : ∀ q, Fits n m (gateOf g q) X
  input : ∀ e ∈ es, Within m e.x X
  losses : GoodL n m (thetas n m g) Ey P H (fun _ => 0) (fun _ => 0) es
  last : EndsWithLoss es
  steps : es ≠ [] ∧ es.length ≤ 2 ^ 20
  out : ∀ t ≤ es.length, (lstmBound n m g X t).1 ≤ Ec ∧ (lstmBound n m g X t).2 ≤ Ey
  e50 : 1 + Ey ≤ 2 ^ 50
  p0 : 0 ≤ P
  h0 : 0 ≤ H
  gates : ∀ q, (tol n m g X Ec Ey es.length).ev q ≤ 1 ∧ (tol n m g X Ec Ey es.length).ka q ≤ 1
  cells : slopeErr .tanh Ec ≤ 1
  time : FitsL n g (tol n m g X Ec Ey es.length) P H es.length
  sumW : ∀ q, total es.length (conTop (tops n g (tol n m g X Ec Ey es.length) P H q) (offs n g (tol n m g X Ec Ey es.length) P H q) X 0 es.length) ≤ 2 ^ 120
  sumU : ∀ q, total es.length (conTop (tops n g (tol n m g X Ec Ey es.length) P H q) (offs n g (tol n m g X Ec Ey es.length) P H q) 1 Ey es.length) ≤ 2 ^ 120
  sumB : ∀ q, total es.length (biasTop (tops n g (tol n m g X Ec Ey es.length) P H q) (offs n g (tol n m g X Ec Ey es.length) P H q) es.length) ≤ 2 ^ 120
  sumX : xSum n m g (tol n m g X Ec Ey es.length) P H es.length ≤ 2 ^ 115

end Verif.Spec.Lstm32
