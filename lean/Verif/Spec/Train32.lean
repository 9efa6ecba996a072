import Verif.Spec.Back32
import Verif.Model.Train32

set_option autoImplicit false

/-!
# How far a step of training of float32 may be from a step of gradient descent
-/

namespace Verif.Spec.Train32
open Verif.F32 Verif.Net32 Verif.Spec.Net32 Verif.Spec.Back32

variable {α : Type}

/-- How large the sum of `n` gradients up to `X` may get. -/
noncomputable def total (n : Nat) (X : ℝ) : ℝ := n * X + n * n * X / 2 ^ 24

/-- The error of a parameter up to `W` after the step, for `n` examples, gradients up to `Q` with an error of `β`, and the rate `lr`: that of
the sum times the rate, and the roundings of the product and of the difference. -/
noncomputable def stepErr (n : Nat) (lr W Q β : ℝ) : ℝ :=
  lr * (n * β + n * n * (Q + β) / 2 ^ 24) + (W + 3 * (lr * total n (Q + β) + 1 / 2 ^ 126)) / 2 ^ 24

/-- An example: the words, the exact input, its loss as a function of the output, and the gradient of the loss at the exact output. -/
structure Target where
  ex : Verif.Train32.Ex
  u : Nat → ℝ
  J : (Nat → ℝ) → ℝ
  γ : Nat → ℝ

/-- The loss of a batch, as a function of the outputs of its examples. -/
noncomputable def batchLoss (Ts : List Target) (out : Target → Nat → ℝ) : ℝ := (Ts.map fun T => T.J (out T)).sum

/-- How far the gradients of the bias and of the weights of a linear layer with `pre` in front and `post` behind it are off. -/
noncomputable def biasOff (φ : α → ℝ → ℝ) (L ε S : α → ℝ) (κ : α → ℝ → ℝ) (P H M E : ℝ) (pre : List (Layer α)) (l : Layer α) (post : List (Layer α)) : ℝ :=
  off φ L ε S κ P H post (range φ L l (ranges φ L pre M)) (error L ε l (ranges φ L pre M) (errors φ L ε pre M E))
noncomputable def weightOff (φ : α → ℝ → ℝ) (L ε S : α → ℝ) (κ : α → ℝ → ℝ) (P H M E : ℝ) (pre : List (Layer α)) (l : Layer α) (post : List (Layer α)) : ℝ :=
  weightErr (ranges φ L pre M) (errors φ L ε pre M E) (size S P post) (biasOff φ L ε S κ P H M E pre l post)

/-- What is asked of an example of `d` inputs. -/
structure GoodEx (φ : α → ℝ → ℝ) (L ε S : α → ℝ) (κ : α → ℝ → ℝ) (safe : α → ℝ → ℝ → Prop) (P H M E : ℝ) (ls : List (Layer α)) (d : Nat) (T : Target) : Prop where
  len : T.ex.x.length = d
  input : ∀ i < d, F32.Finite (T.ex.x.getD i 0) ∧ |val (T.ex.x.getD i 0) - T.u i| ≤ E ∧ |T.u i| ≤ M
  fits : FitsBack φ L ε S κ safe P H ls d T.u M E
  loss : GoodLoss T.ex.G (width ls d) (network φ ls T.u) T.γ (ranges φ L ls M) (errors φ L ε ls M E) P H
  grad : IsGrad (width ls d) T.J (network φ ls T.u) T.γ

/-- What is asked of the parameters and the rate: the parameters are up to `W`, and for a batch of `n` the steps stay away from overflow. -/
def FitsStep (φ : α → ℝ → ℝ) (L ε S : α → ℝ) (κ : α → ℝ → ℝ) (P H M E W lr : ℝ) (n : Nat) (ls : List (Layer α)) : Prop :=
  ∀ pre rows cols w b post, ls = pre ++ .lin rows cols w b :: post → (∀ v ∈ w, |val v| ≤ W) ∧ (∀ v ∈ b, |val v| ≤ W) ∧
    total n (size S P post * ranges φ L pre M + weightOff φ L ε S κ P H M E pre (.lin rows cols w b) post) ≤ 2 ^ 120 ∧
    lr * total n (size S P post * ranges φ L pre M + weightOff φ L ε S κ P H M E pre (.lin rows cols w b) post) ≤ 2 ^ 120 ∧
    total n (size S P post + biasOff φ L ε S κ P H M E pre (.lin rows cols w b) post) ≤ 2 ^ 120 ∧
    lr * total n (size S P post + biasOff φ L ε S κ P H M E pre (.lin rows cols w b) post) ≤ 2 ^ 120

/-- The layers `ls'` are close to those after a step of gradient descent from `ls`: there are as many, the activations are unchanged, and every
weight and every bias is finite and close to `w - lr * Δ`, where `Δ` is the derivative of the loss of the batch with respect to this
parameter. -/
def CloseStep (φ : α → ℝ → ℝ) (L ε S : α → ℝ) (κ : α → ℝ → ℝ) (P H M E W : ℝ) (lr : F32.W) (Ts : List Target) (ls ls' : List (Layer α)) : Prop :=
  ls'.length = ls.length ∧
  (∀ pre a post, ls = pre ++ .act a :: post → ls'[pre.length]? = some (.act a)) ∧
  ∀ pre rows cols w b post, ls = pre ++ .lin rows cols w b :: post → ∃ w' b', ls'[pre.length]? = some (.lin rows cols w' b') ∧
    w'.length = rows * cols ∧ b'.length = rows ∧
    (∀ i < rows, ∀ j < cols, F32.Finite (w'.getD (i * cols + j) 0) ∧
      ∃ Δ, HasDerivAt (fun t => batchLoss Ts fun T => network φ post (nudged rows cols w b i j (network φ pre T.u) t)) Δ 0 ∧
        |val (w'.getD (i * cols + j) 0) - (val (w.getD (i * cols + j) 0) - val lr * Δ)| ≤
          stepErr Ts.length |val lr| W (size S P post * ranges φ L pre M) (weightOff φ L ε S κ P H M E pre (.lin rows cols w b) post)) ∧
    ∀ i < rows, F32.Finite (b'.getD i 0) ∧
      ∃ Δ, HasDerivAt (fun t => batchLoss Ts fun T => network φ post (shifted rows cols w b i (network φ pre T.u) t)) Δ 0 ∧
        |val (b'.getD i 0) - (val (b.getD i 0) - val lr * Δ)| ≤
          stepErr Ts.length |val lr| W (size S P post) (biasOff φ L ε S κ P H M E pre (.lin rows cols w b) post)

end Verif.Spec.Train32
