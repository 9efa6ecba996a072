import Verif.Spec.LstmTrain32
import Verif.Model.Tagger32

set_option autoImplicit false

/-!
# How far a step of training of an LSTM with a head may be from a step of gradient descent
-/

namespace Verif.Spec.Tagger32
open Verif.F32 Verif.Net32 Verif.Rec32 Verif.Lstm32 Verif.Spec.Net32 Verif.Spec.Rec32 Verif.Spec.Back32 Verif.Spec.Train32 Verif.Spec.Srn32 Verif.Spec.Lstm32

variable {α : Type}

/-- The losses of one sequence, for an LSTM of real numbers with the parameters `Θ` and the head `N`. -/
noncomputable def lossT (n m : Nat) (Θ : Thetas) (N : (Nat → ℝ) → Nat → ℝ) : (Nat → ℝ) → (Nat → ℝ) → List SStep → ℝ
  | _, _, [] => 0
  | c, y, e :: es => e.J (N (outL n m Θ (vals e.x) c y)) + lossT n m Θ N (cellL n m Θ (vals e.x) c y) (outL n m Θ (vals e.x) c y) es

/-- The loss of all sequences. -/
noncomputable def batchT (n m : Nat) (Θ : Thetas) (N : (Nat → ℝ) → Nat → ℝ) (ess : List (List SStep)) : ℝ :=
  (ess.map fun es => lossT n m Θ N (fun _ => 0) (fun _ => 0) es).sum

/-- The number of outputs with a loss. -/
def lossCount (ess : List (List SStep)) : Nat := (ess.map fun es => (es.filter (·.loss.isSome)).length).sum

/-- What is asked of the losses, at the exact outputs of the head and close to them, and of the head at the exact outputs of the LSTM. -/
def GoodT (φ : α → ℝ → ℝ) (L ε S : α → ℝ) (κ : α → ℝ → ℝ) (safe : α → ℝ → ℝ → Prop) (n m : Nat) (Θ : Thetas) (ls : List (Layer α)) (E P H : ℝ) :
    (Nat → ℝ) → (Nat → ℝ) → List SStep → Prop
  | _, _, [] => True
  | c, y, e :: es =>
      (∀ l, e.loss = some l → FitsBack φ L ε S κ safe P H ls n (outL n m Θ (vals e.x) c y) 1 E ∧
        GoodLoss l.G (width ls n) (network φ ls (outL n m Θ (vals e.x) c y)) l.γ (ranges φ L ls 1) (errors φ L ε ls 1 E) P H ∧
        IsGrad (width ls n) l.J (network φ ls (outL n m Θ (vals e.x) c y)) l.γ) ∧
      GoodT φ L ε S κ safe n m Θ ls E P H (cellL n m Θ (vals e.x) c y) (outL n m Θ (vals e.x) c y) es

/-- What is asked of a batch of sequences of at most `T` steps: as in `SoundBatch` of `Spec/LstmTrain32.lean` for the LSTM, which gets gradients up to
`P'` with errors up to `H'` from the head; and as in `FitsStep` of `Spec/Train32.lean` for the head, which gets gradients up to `P` with errors up to `H`
from the losses. -/
structure Sound (φ : α → ℝ → ℝ) (L ε S : α → ℝ) (κ : α → ℝ → ℝ) (safe : α → ℝ → ℝ → Prop) (n m : Nat) (g : Lstm) (ls : List (Layer α))
    (X Ec Ey P H P' H' W lr : ℝ) (T : Nat) (ess : List (List SStep)) : Prop where
  gate : ∀ q, Rec32.Fits n m (gateOf g q) X
  params : ∀ q v, v ∈ (gateOf g q).w ∨ v ∈ (gateOf g q).wRec ∨ v ∈ (gateOf g q).b → |val v| ≤ W
  w120 : W ≤ 2 ^ 120
  input : ∀ es ∈ ess, ∀ e ∈ es, Within m e.x X
  last : ∀ es ∈ ess, EndsWithLoss es
  length : ∀ es ∈ ess, es.length ≤ T
  steps : T ≤ 2 ^ 20
  count : stepCount ess ≤ 2 ^ 20
  out : ∀ t ≤ T, (lstmBound n m g X t).1 ≤ Ec ∧ (lstmBound n m g X t).2 ≤ Ey
  e50 : 1 + Ey ≤ 2 ^ 50
  gates : ∀ q, (tol n m g X Ec Ey T).ev q ≤ 1 ∧ (tol n m g X Ec Ey T).ka q ≤ 1
  cells : slopeErr .tanh Ec ≤ 1
  time : FitsL n g (tol n m g X Ec Ey T) P' H' T
  sumW : ∀ q, max 1 lr * total (stepCount ess) (conTop (tops n g (tol n m g X Ec Ey T) P' H' q) (offs n g (tol n m g X Ec Ey T) P' H' q) X 0 T) ≤ 2 ^ 120
  sumU : ∀ q, max 1 lr * total (stepCount ess) (conTop (tops n g (tol n m g X Ec Ey T) P' H' q) (offs n g (tol n m g X Ec Ey T) P' H' q) 1 Ey T) ≤ 2 ^ 120
  sumB : ∀ q, max 1 lr * total (stepCount ess) (biasTop (tops n g (tol n m g X Ec Ey T) P' H' q) (offs n g (tol n m g X Ec Ey T) P' H' q) T) ≤ 2 ^ 120
  p0 : 0 ≤ P
  h0 : 0 ≤ H
  head : Net32.Fits φ L ε ls n 1 Ey
  losses : ∀ es ∈ ess, GoodT φ L ε S κ safe n m (thetas n m g) ls Ey P H (fun _ => 0) (fun _ => 0) es
  size : Back32.size S P ls ≤ P'
  off : Back32.off φ L ε S κ P H ls 1 Ey ≤ H'
  step : FitsStep φ L ε S κ P H 1 Ey W lr (lossCount ess) ls

/-- The gates `g'` are close to those after a step of gradient descent: the shapes stay, and every parameter is finite and close to `w - lr * Δ`,
where `Δ` is the derivative of the loss of all sequences with respect to this parameter. -/
def GatesClose (n m : Nat) (g g' : Lstm) (N : (Nat → ℝ) → Nat → ℝ) (X Ec Ey P' H' W : ℝ) (lr : F32.W) (T : Nat) (ess : List (List SStep)) : Prop := ∀ q,
  (gateOf g' q).w.length = n * m ∧ (gateOf g' q).wRec.length = n * n ∧ (gateOf g' q).b.length = n ∧
  (∀ i < n, ∀ j < m, F32.Finite ((gateOf g' q).w.getD (i * m + j) 0) ∧
    ∃ Δ, HasDerivAt (fun t => batchT n m ((thetas n m g).set q ((thetas n m g q).addW i j t)) N ess) Δ 0 ∧
    |val ((gateOf g' q).w.getD (i * m + j) 0) - (val ((gateOf g q).w.getD (i * m + j) 0) - val lr * Δ)| ≤
      stepOff (stepCount ess) |val lr| W (conTop (tops n g (tol n m g X Ec Ey T) P' H' q) (offs n g (tol n m g X Ec Ey T) P' H' q) X 0 T)
        (conErr (tops n g (tol n m g X Ec Ey T) P' H' q) (offs n g (tol n m g X Ec Ey T) P' H' q) X 0 T)) ∧
  (∀ i < n, ∀ j < n, F32.Finite ((gateOf g' q).wRec.getD (i * n + j) 0) ∧
    ∃ Δ, HasDerivAt (fun t => batchT n m ((thetas n m g).set q ((thetas n m g q).addU i j t)) N ess) Δ 0 ∧
    |val ((gateOf g' q).wRec.getD (i * n + j) 0) - (val ((gateOf g q).wRec.getD (i * n + j) 0) - val lr * Δ)| ≤
      stepOff (stepCount ess) |val lr| W (conTop (tops n g (tol n m g X Ec Ey T) P' H' q) (offs n g (tol n m g X Ec Ey T) P' H' q) 1 Ey T)
        (conErr (tops n g (tol n m g X Ec Ey T) P' H' q) (offs n g (tol n m g X Ec Ey T) P' H' q) 1 Ey T)) ∧
  ∀ i < n, F32.Finite ((gateOf g' q).b.getD i 0) ∧
    ∃ Δ, HasDerivAt (fun t => batchT n m ((thetas n m g).set q ((thetas n m g q).addB i t)) N ess) Δ 0 ∧
    |val ((gateOf g' q).b.getD i 0) - (val ((gateOf g q).b.getD i 0) - val lr * Δ)| ≤
      stepOff (stepCount ess) |val lr| W (biasTop (tops n g (tol n m g X Ec Ey T) P' H' q) (offs n g (tol n m g X Ec Ey T) P' H' q) T)
        (biasErr (offs n g (tol n m g X Ec Ey T) P' H' q) T)

/-- The head `ls'` is close to that after a step of gradient descent: there are as many layers, the activations are unchanged, and every weight and
every bias is finite and close to `w - lr * Δ`, where `Δ` is the derivative of the loss of all sequences with respect to this parameter. -/
def HeadClose (φ : α → ℝ → ℝ) (L ε S : α → ℝ) (κ : α → ℝ → ℝ) (n m : Nat) (g : Lstm) (Ey P H W : ℝ) (lr : F32.W) (ess : List (List SStep))
    (ls ls' : List (Layer α)) : Prop :=
  ls'.length = ls.length ∧
  (∀ pre a post, ls = pre ++ .act a :: post → ls'[pre.length]? = some (.act a)) ∧
  ∀ pre rows cols w b post, ls = pre ++ .lin rows cols w b :: post → ∃ w' b', ls'[pre.length]? = some (.lin rows cols w' b') ∧
    w'.length = rows * cols ∧ b'.length = rows ∧
    (∀ i < rows, ∀ j < cols, F32.Finite (w'.getD (i * cols + j) 0) ∧
      ∃ Δ, HasDerivAt (fun t => batchT n m (thetas n m g) (fun v => network φ post (nudged rows cols w b i j (network φ pre v) t)) ess) Δ 0 ∧
        |val (w'.getD (i * cols + j) 0) - (val (w.getD (i * cols + j) 0) - val lr * Δ)| ≤
          stepErr (lossCount ess) |val lr| W (size S P post * ranges φ L pre 1) (weightOff φ L ε S κ P H 1 Ey pre (.lin rows cols w b) post)) ∧
    ∀ i < rows, F32.Finite (b'.getD i 0) ∧
      ∃ Δ, HasDerivAt (fun t => batchT n m (thetas n m g) (fun v => network φ post (shifted rows cols w b i (network φ pre v) t)) ess) Δ 0 ∧
        |val (b'.getD i 0) - (val (b.getD i 0) - val lr * Δ)| ≤
          stepErr (lossCount ess) |val lr| W (size S P post) (biasOff φ L ε S κ P H 1 Ey pre (.lin rows cols w b) post)

end Verif.Spec.Tagger32
