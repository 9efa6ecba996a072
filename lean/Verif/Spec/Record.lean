import Verif.Model.Record
import Verif.Spec.Tape
import Verif.Spec.Recurrent

set_option autoImplicit false

/-!
# Training

What it means that a program trains a model: the program computes the loss, `Backward` returns and leaves the
partial derivatives of the loss, and a step of gradient descent reduces the loss. The loss is a plain function
of parameters and inputs, given independently of the program.
-/

namespace Verif.Record
open GradFn Backward Tape

/-- The number in a loss; 0 if there is none. -/
noncomputable def number : Option (Dense ℝ) → ℝ
  | some d => d.val 0
  | none => 0

/-- The parameters and inputs with element `i` of tensor `l` moved by `t`. -/
noncomputable def moved (θ : Nat → Dense ℝ) (l i : Nat) (t : ℝ) (x : Nat) : Dense ℝ :=
  if x = l then bump (θ x) i t else θ x

/-- The parameters `τ`, and the inputs as they are. -/
def withParams (k : Nat) (τ θ : Nat → Dense ℝ) (x : Nat) : Dense ℝ := if x < k then τ x else θ x

/-- The gradient of tensor `x`. -/
def gradOf {n : Nat} (s : St n (Nat → ℝ)) (x : Nat) : Option (Nat → ℝ) := if h : x < n then s.grad ⟨x, h⟩ else none

open scoped BigOperators Topology

/-- Program `P` with result `y` trains its `k` first tensors on the loss `loss`, at the values `θ`. -/
def Trains (k : Nat) (P : List Instr) (y : Nat) (loss : (Nat → Dense ℝ) → Option (Dense ℝ)) (θ : Nat → Dense ℝ) : Prop :=
  ∃ (vals : List (Dense ℝ)) (L : Dense ℝ) (hlt : y < P.length),
    -- the program runs and computes the loss
    run θ P [] = some vals ∧ vals[y]? = some L ∧ loss θ = some L ∧
    -- the parameters may hold gradients from before
    ∀ s₀ : St P.length (Nat → ℝ), Clean (graph P) s₀ → (∀ x : Fin P.length, k ≤ x.val → s₀.grad x = none) →
      -- Backward of the loss returns under every schedule, without an error
      Returns (graph P) (progFns (graph P) (fns P) (valOf vals)) [⟨y, hlt⟩] s₀ ∧
      (∀ s, Reach (graph P) (progFns (graph P) (fns P) (valOf vals)) [⟨y, hlt⟩] s₀ s → s.main ≠ .failed) ∧
      ∀ s, Reach (graph P) (progFns (graph P) (fns P) (valOf vals)) [⟨y, hlt⟩] s₀ s → s.main = .returned →
        -- however the parameters move, the loss moves with their velocities weighted with what is added to the gradients
        (∀ (Θ : Nat → ℝ → Dense ℝ) (v : Nat → Nat → ℝ), (∀ l < k, Curve (θ l) (Θ l) (v l)) →
          (∀ᶠ t in 𝓝 0, (loss (withParams k (Θ · t) θ)).isSome) ∧
          HasDerivAt (fun t => number (loss (withParams k (Θ · t) θ)))
            (∑ l ∈ Finset.range k, ∑ i ∈ Finset.range (θ l).data.length,
              (gnum (gradOf s l) i - gnum (gradOf s₀ l) i) * v l i) 0) ∧
        -- what is added to every element of every gradient is a partial derivative
        (∀ l : Fin P.length, l.val < k → ∀ i < (θ l).data.length,
          HasDerivAt (fun t => number (loss (moved θ l i t))) (gnum (s.grad l) i - gnum (s₀.grad l) i) 0) ∧
        -- every parameter that had a gradient or is used for the loss has a gradient
        (∀ l : Fin P.length, l.val < k → s₀.grad l ≠ none ∨ Feeds P y l.val → s.grad l ≠ none) ∧
        -- and if there were no gradients before and they are now not all zero, a step of gradient descent at a small
        -- rate reduces the loss
        ((∀ x, s₀.grad x = none) → (∃ l : Fin P.length, l.val < k ∧ ∃ i < (θ l).data.length, gnum (s.grad l) i ≠ 0) →
          ∃ ε > 0, ∀ α, 0 < α → α < ε → ∀ τ : Nat → Dense ℝ,
            (∀ x : Fin P.length, x.val < k → SgdStep α (θ x) (s.grad x) (τ x)) → (∀ x, k ≤ x → τ x = θ x) →
            ∃ L', loss τ = some L' ∧ L'.val 0 < L.val 0)

/-! ## The losses of sequence models, as formulas -/

/-- Half the squared distance of `n` outputs of `o` elements from their targets, summed or averaged over the
sequence. -/
noncomputable def squaredError (o n : Nat) (mean : Bool) (y z : Nat → Nat → ℝ) : ℝ :=
  (∑ t ∈ Finset.range n, ∑ j ∈ Finset.range o, (y t j - z t j) ^ 2 / 2) / if mean then (n : ℝ) else 1

/-- The gate whose parameters are the tensors `k`, `k + 1`, `k + 2`. -/
def gateOf (τ : Nat → Dense ℝ) (k : Nat) : Recurrent.Gate := ⟨τ k, τ (k + 1), τ (k + 2)⟩

/-- Dimensions of the parameters of a gate. -/
structure GateDims (i o : Nat) (θ : Nat → Dense ℝ) (k : Nat) : Prop where
  w : (θ k).rows = o ∧ (θ k).cols = i
  wRec : (θ (k + 1)).rows = o ∧ (θ (k + 1)).cols = o
  b : (θ (k + 2)).rows = o ∧ (θ (k + 2)).cols = 1

/-- The vectors in the tensors `k`, ..., `k + n - 1`. -/
noncomputable def vectors (τ : Nat → Dense ℝ) (k n : Nat) : List (Nat → ℝ) := (List.range n).map fun t => (τ (k + t)).val

/-- The error of a simple recurrent network: parameters are the tensors 0, 1, 2; the next `n` are the inputs, and the
next `n` the targets. -/
noncomputable def srnError (i o n : Nat) (mean : Bool) (τ : Nat → Dense ℝ) : ℝ :=
  squaredError o n mean (Recurrent.stateAt (Recurrent.srnStep i o (gateOf τ 0)) 0 (vectors τ 3 n))
    fun t => (τ (3 + n + t)).val

/-- The error of a GRU with the parameters 0, ..., 8. -/
noncomputable def gruError (i o n : Nat) (mean : Bool) (τ : Nat → Dense ℝ) : ℝ :=
  squaredError o n mean
    (fun t => (Recurrent.stateAt (Recurrent.gruStep i o ⟨gateOf τ 0, gateOf τ 3, gateOf τ 6⟩) Recurrent.gruZero
      (vectors τ 9 n) t).y)
    fun t => (τ (9 + n + t)).val

/-- The error of an LSTM with the parameters 0, ..., 11. -/
noncomputable def lstmError (refined : Bool) (i o n : Nat) (mean : Bool) (τ : Nat → Dense ℝ) : ℝ :=
  squaredError o n mean
    (fun t => (Recurrent.stateAt (Recurrent.lstmStep i o ⟨refined, gateOf τ 0, gateOf τ 3, gateOf τ 6, gateOf τ 9⟩)
      Recurrent.lstmZero (vectors τ 12 n) t).y)
    fun t => (τ (12 + n + t)).val

end Verif.Record
