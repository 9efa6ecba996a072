import Verif.Model.Back32
import Verif.Spec.Acts32
import Mathlib.Analysis.Calculus.Deriv.Basic

set_option autoImplicit false

/-!
# The derivatives of the network of real numbers, and how far the gradients of float32 may be from them
-/

namespace Verif.Spec.Back32
open Verif.F32 Verif.Net32 Verif.Back32 Verif.Spec.Net32

variable {α : Type}

/-- The derivative of `J` at `v`, along any curve through `v` whose first `n` coordinates have derivatives. -/
def IsGrad (n : Nat) (J : (Nat → ℝ) → ℝ) (v γ : Nat → ℝ) : Prop :=
  ∀ (c : ℝ → Nat → ℝ) (c' : Nat → ℝ) (s : ℝ), c s = v → (∀ i < n, HasDerivAt (fun t => c t i) (c' i) s) →
    HasDerivAt (fun t => J (c t)) (∑ i ∈ Finset.range n, γ i * c' i) s

/-- The chain rule, from the last layer to the first: from the gradient `γ` of the output to that of the input `u`. -/
noncomputable def adj (φ φ' : α → ℝ → ℝ) (γ : Nat → ℝ) : List (Layer α) → (Nat → ℝ) → Nat → ℝ
  | [], _ => γ
  | .lin rows cols w b :: ls, u => fun j => ∑ i ∈ Finset.range rows, adj φ φ' γ ls (layer φ (.lin rows cols w b) u) i * at2 cols w i j
  | .act a :: ls, u => fun i => φ' a (u i) * adj φ φ' γ ls (layer φ (.act a) u) i

/-- The output of a linear layer when the weight in row `i` and column `j` is larger by `t`. -/
noncomputable def nudged (rows cols : Nat) (w b : List W) (i j : Nat) (v : Nat → ℝ) (t : ℝ) : Nat → ℝ := fun r =>
  (∑ k ∈ Finset.range cols, (at2 cols w r k + if r = i ∧ k = j then t else 0) * v k) + val (b.getD r 0)

/-- The output when the bias `i` is larger by `t`. -/
noncomputable def shifted (rows cols : Nat) (w b : List W) (i : Nat) (v : Nat → ℝ) (t : ℝ) : Nat → ℝ := fun r =>
  (∑ k ∈ Finset.range cols, at2 cols w r k * v k) + (val (b.getD r 0) + if r = i then t else 0)

/-- What is known of the slopes: at a number within `E` of `u`, where this is safe, the word is finite and within `κ a E` of the
derivative `φ' a u`, which is at most `S a`. -/
structure GoodSlopes (D : α → List W → List W → Prop) (φ φ' : α → ℝ → ℝ) (S : α → ℝ) (κ : α → ℝ → ℝ) (safe : α → ℝ → ℝ → Prop) : Prop where
  ends : ∀ a x, (∀ v ∈ x, F32.Finite v) → ∃ d, D a x d
  near : ∀ a x d, (∀ v ∈ x, F32.Finite v) → D a x d → d.length = x.length ∧ ∀ i < x.length, F32.Finite (d.getD i 0) ∧
    ∀ E u, |val (x.getD i 0) - u| ≤ E → safe a E u → |val (d.getD i 0) - φ' a u| ≤ κ a E
  der : ∀ a E u, 0 ≤ E → safe a E u → HasDerivAt (φ a) (φ' a u) u
  size : ∀ a u, |φ' a u| ≤ S a
  pos : ∀ a E, 0 ≤ E → 0 ≤ S a ∧ 0 ≤ κ a E

/-- The largest sum of the absolute values in a column, and the largest absolute value. -/
noncomputable def colNorm (rows cols : Nat) (w : List W) : ℝ := largest cols fun j => ∑ i ∈ Finset.range rows, |at2 cols w i j|
noncomputable def most (w : List W) : ℝ := largest w.length fun k => |val (w.getD k 0)|

/-- How large a sum of `MulT` may get, for gradients up to `Q`. -/
noncomputable def reach (rows : Nat) (w : List W) (Q : ℝ) : ℝ := rows * (most w * Q) + (2 : ℝ) ^ (-126 : Int)

/-- How large the exact gradients are before the layers, from how large they are behind them. -/
noncomputable def size (S : α → ℝ) (P : ℝ) : List (Layer α) → ℝ
  | [] => P
  | .lin rows cols w _ :: ls => colNorm rows cols w * size S P ls
  | .act a :: ls => S a * size S P ls

/-- How far the gradients are from the exact ones before the layers, for inputs up to `M` with an error of `E`, and an error of `H`
behind them. -/
noncomputable def off (φ : α → ℝ → ℝ) (L ε S : α → ℝ) (κ : α → ℝ → ℝ) (P H : ℝ) : List (Layer α) → ℝ → ℝ → ℝ
  | [], _, _ => H
  | .lin rows cols w b :: ls, M, E =>
      let h := off φ L ε S κ P H ls (range φ L (.lin rows cols w b) M) (error L ε (.lin rows cols w b : Layer α) M E)
      colNorm rows cols w * h + rows * (5 * reach rows w (size S P ls + h) / 2 ^ 24)
  | .act a :: ls, M, E =>
      let h := off φ L ε S κ P H ls (range φ L (.act a) M) (error L ε (.act a : Layer α) M E)
      S a * h + κ a E * (size S P ls + h) + ((S a + κ a E) * (size S P ls + h) + (2 : ℝ) ^ (-126 : Int)) / 2 ^ 24

/-- The error of a weight's gradient, for inputs up to `M` with an error of `E` and gradients up to `P` with an error of `H`. -/
noncomputable def weightErr (M E P H : ℝ) : ℝ := M * H + E * (P + H) + dotErr 1 (P + H) (M + E)

/-- The network fits the gradients: the layers are not too wide, the gradients stay away from overflow, and the inputs of the activations
are safe. -/
def FitsBack (φ : α → ℝ → ℝ) (L ε S : α → ℝ) (κ : α → ℝ → ℝ) (safe : α → ℝ → ℝ → Prop) (P H : ℝ) :
    List (Layer α) → Nat → (Nat → ℝ) → ℝ → ℝ → Prop
  | [], _, _, _, _ => True
  | .lin rows cols w b :: ls, _, u, M, E =>
      let h := off φ L ε S κ P H ls (range φ L (.lin rows cols w b) M) (error L ε (.lin rows cols w b : Layer α) M E)
      (rows ≤ 2 ^ 20 ∧ size S P ls + h ≤ 2 ^ 50 ∧ reach rows w (size S P ls + h) ≤ 2 ^ 121) ∧
      FitsBack φ L ε S κ safe P H ls rows (layer φ (.lin rows cols w b) u) (range φ L (.lin rows cols w b) M)
        (error L ε (.lin rows cols w b : Layer α) M E)
  | .act a :: ls, n, u, M, E =>
      let h := off φ L ε S κ P H ls (range φ L (.act a) M) (error L ε (.act a : Layer α) M E)
      ((S a + κ a E) * (size S P ls + h) ≤ 2 ^ 121 ∧ ∀ i < n, safe a E (u i)) ∧
      FitsBack φ L ε S κ safe P H ls n (layer φ (.act a) u) (range φ L (.act a) M) (error L ε (.act a : Layer α) M E)

/-- What is known of the gradient of a loss, for outputs within `E` of `v`, which are up to `M`: it ends, and whatever it ends with is
finite and within `H` of `γ`, which is up to `P`. -/
def GoodLoss (G : List W → List W → Prop) (n : Nat) (v γ : Nat → ℝ) (M E P H : ℝ) : Prop :=
  ∀ y : List W, y.length = n → (∀ i < n, F32.Finite (y.getD i 0) ∧ |val (y.getD i 0) - v i| ≤ E ∧ |v i| ≤ M) →
    (∃ g, G y g) ∧ ∀ g, G y g → g.length = n ∧ ∀ i < n, F32.Finite (g.getD i 0) ∧ |val (g.getD i 0) - γ i| ≤ H ∧ |γ i| ≤ P

/-- The derivatives of the activations; that of ReLU is 1 from 0 on. -/
noncomputable def slope : Act → ℝ → ℝ
  | .relu, x => if 0 ≤ x then 1 else 0
  | .sigmoid, x => Sigmoid32.sigmoid x * (1 - Sigmoid32.sigmoid x)
  | .tanh, x => 1 - Real.tanh x ^ 2

/-- Their largest values. -/
noncomputable def steepest : Act → ℝ
  | .relu => 1
  | .sigmoid => 1 / 4
  | .tanh => 1

/-- How far the slopes are off, at an input that is off by `E`. -/
noncomputable def slopeErr : Act → ℝ → ℝ
  | .relu, _ => 0
  | .sigmoid, E => 1 / 4 * E + 1 / 2 ^ 19
  | .tanh, E => 2 * E + 1 / 2 ^ 23

/-- The input of a ReLU must be on the same side of 0 as the exact one. -/
def safeAt : Act → ℝ → ℝ → Prop
  | .relu, E, u => E < |u|
  | _, _, _ => True

/-- What is asked of the library: slopes off by at most `2^-23`. -/
structure GoodSlopeLib (sl : Slopes) : Prop where
  logistic : ∀ v, F32.Finite v → 0 ≤ val v → val v ≤ 1 → F32.Finite (sl.logistic v) ∧ |val (sl.logistic v) - val v * (1 - val v)| ≤ 1 / 2 ^ 23
  tanh : ∀ v, F32.Finite v → F32.Finite (sl.tanh v) ∧ |val (sl.tanh v) - (1 - Real.tanh (val v) ^ 2)| ≤ 1 / 2 ^ 23

/-- The squared error, with the factor `ρ`. -/
noncomputable def squared (n : Nat) (ρ : ℝ) (t v : Nat → ℝ) : ℝ := ρ * ∑ i ∈ Finset.range n, (v i - t i) ^ 2 / 2

/-- How far its gradient is off, for outputs with an error of `E`, and up to `X` together with the target. -/
noncomputable def mseErr (E X : ℝ) : ℝ := E + (X + (2 : ℝ) ^ (-126 : Int)) / 2 ^ 21

end Verif.Spec.Back32
