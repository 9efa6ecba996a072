import Verif.Model.Net32
import Verif.Lemmas.F32Round
import Mathlib.Analysis.SpecialFunctions.Log.Basic

set_option autoImplicit false

/-!
# The network of real numbers, and how far the network of float32 may be from it

A vector is given by its elements `x 0`, `x 1`, ….
-/

namespace Verif.Spec.Net32
open Verif.F32 Verif.Net32

variable {α : Type}

/-- The element in row `i`, column `k` of a matrix with `cols` columns. -/
noncomputable def at2 (cols : Nat) (w : List W) (i k : Nat) : ℝ := val (w.getD (i * cols + k) 0)

/-- What a layer computes: `W x + b`, or a function of every element. -/
noncomputable def layer (φ : α → ℝ → ℝ) : Layer α → (Nat → ℝ) → Nat → ℝ
  | .lin _ cols w b, x, i => (∑ k ∈ Finset.range cols, at2 cols w i k * x k) + val (b.getD i 0)
  | .act a, x, i => φ a (x i)

/-- What the network computes. -/
noncomputable def network (φ : α → ℝ → ℝ) : List (Layer α) → (Nat → ℝ) → Nat → ℝ
  | [], x => x
  | l :: ls, x => network φ ls (layer φ l x)

/-- The number of outputs for `n` inputs. -/
def width : List (Layer α) → Nat → Nat
  | [], n => n
  | .lin rows _ _ _ :: ls, _ => width ls rows
  | .act _ :: ls, n => width ls n

/-- The largest of the numbers `f 0`, …, `f (n - 1)` and 0. -/
noncomputable def largest (n : Nat) (f : Nat → ℝ) : ℝ := ((List.range n).map f).foldr max 0

/-- The norm of a matrix: the largest sum of the absolute values in a row. -/
noncomputable def norm (rows cols : Nat) (w : List W) : ℝ := largest rows fun i => ∑ k ∈ Finset.range cols, |at2 cols w i k|

/-- The largest absolute value of the bias. -/
noncomputable def bias (rows : Nat) (b : List W) : ℝ := largest rows fun i => |val (b.getD i 0)|

/-- What is known of the activations: on finite numbers `F a` ends, and whatever it ends with is finite and, element by element,
within `ε a` of `φ a`; and this has the Lipschitz constant `L a`. -/
structure Good (F : α → List W → List W → Prop) (φ : α → ℝ → ℝ) (L ε : α → ℝ) : Prop where
  ends : ∀ a x, (∀ v ∈ x, F32.Finite v) → ∃ z, F a x z
  near : ∀ a x z, (∀ v ∈ x, F32.Finite v) → F a x z → z.length = x.length ∧
    ∀ i < x.length, F32.Finite (z.getD i 0) ∧ |val (z.getD i 0) - φ a (val (x.getD i 0))| ≤ ε a
  lip : ∀ a x y, |φ a x - φ a y| ≤ L a * |x - y|
  pos : ∀ a, 0 ≤ L a ∧ 0 ≤ ε a

/-- The error of one dot product of `n` elements with norm `Λ` and a vector up to `X`. -/
noncomputable def dotErr (n : Nat) (Λ X : ℝ) : ℝ := n / 2 ^ 23 * ((Λ + n / 2 ^ 63) * (X + 1 / 2 ^ 63))

/-- How large the exact values are after a layer, from how large they are before it. -/
noncomputable def range (φ : α → ℝ → ℝ) (L : α → ℝ) : Layer α → ℝ → ℝ
  | .lin rows cols w b, M => norm rows cols w * M + bias rows b
  | .act a, M => L a * M + |φ a 0|

/-- How large the sum of a dot product and the bias may get. -/
noncomputable def top (rows cols : Nat) (w b : List W) (X : ℝ) : ℝ :=
  norm rows cols w * X + dotErr cols (norm rows cols w) X + bias rows b

/-- How far the values are from the exact ones after a layer, for exact values up to `M` with an error of `E` before it. -/
noncomputable def error (L ε : α → ℝ) : Layer α → ℝ → ℝ → ℝ
  | .lin rows cols w b, M, E => norm rows cols w * E + dotErr cols (norm rows cols w) (M + E) +
      (top rows cols w b (M + E) + (2 : ℝ) ^ (-126 : Int)) / 2 ^ 24
  | .act a, _, E => L a * E + ε a

/-- The range and the error after all the layers. -/
noncomputable def ranges (φ : α → ℝ → ℝ) (L : α → ℝ) : List (Layer α) → ℝ → ℝ
  | [], M => M
  | l :: ls, M => ranges φ L ls (range φ L l M)

noncomputable def errors (φ : α → ℝ → ℝ) (L ε : α → ℝ) : List (Layer α) → ℝ → ℝ → ℝ
  | [], _, E => E
  | l :: ls, M, E => errors φ L ε ls (range φ L l M) (error L ε l M E)

/-- The network fits `n` inputs: the shapes agree, all weights are finite and up to 2^50, and the values stay far enough from
overflow. -/
def Fits (φ : α → ℝ → ℝ) (L ε : α → ℝ) : List (Layer α) → Nat → ℝ → ℝ → Prop
  | [], _, _, _ => True
  | .lin rows cols w b :: ls, n, M, E =>
      (n = cols ∧ cols ≤ 2 ^ 20 ∧ w.length = rows * cols ∧ b.length = rows ∧
        (∀ v ∈ w, F32.Finite v ∧ |val v| ≤ 2 ^ 50) ∧ (∀ v ∈ b, F32.Finite v) ∧
        M + E ≤ 2 ^ 50 ∧ top rows cols w b (M + E) ≤ maxFin) ∧
      Fits φ L ε ls rows (range φ L (.lin rows cols w b) M) (error L ε (.lin rows cols w b) M E)
  | .act a :: ls, n, M, E => Fits φ L ε ls n (range φ L (.act a) M) (error L ε (.act a : Layer α) M E)

/-- The negative logarithm of the probability that the softmax of `f 0`, …, `f (n - 1)` gives to the class `c`. -/
noncomputable def crossEntropyOf (n : Nat) (f : Nat → ℝ) (c : Nat) : ℝ :=
  -Real.log (Real.exp (f c) / ∑ j ∈ Finset.range n, Real.exp (f j))

end Verif.Spec.Net32
