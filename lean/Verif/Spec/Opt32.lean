/-
SGD, AdaGrad and RMSProp on real numbers.  `F32.val` is the number a word stands for.
-/
import Verif.Model.Opt32
import Verif.Spec.Adam32
set_option autoImplicit false

namespace Verif.Spec.Opt32
open Verif.F32 Verif.Opt32

/-! ### SGD -/

/-- The momentum. -/
noncomputable def mu : Mode → ℝ
  | .plain => 0
  | .momentum m => val m
  | .nesterov m _ => val m

/-- What is subtracted, for the velocities `v` and `v'` before and after. -/
noncomputable def dir : Mode → ℝ → ℝ → ℝ
  | .plain, _, v' => v'
  | .momentum _, _, v' => v'
  | .nesterov m m1, v, v' => val m1 * v' - val m * v

/-- SGD: parameter and velocity after steps with rate and gradient. -/
noncomputable def sgd (o : Mode) : List (ℝ × ℝ) → ℝ × ℝ → ℝ × ℝ
  | [], p => p
  | (a, g) :: l, (w, v) => sgd o l (w - dir o v (mu o * v + a * g), mu o * v + a * g)

/-- The settings are numbers as one uses them. -/
def SaneMode : Mode → Prop
  | .plain => True
  | .momentum m => F32.Finite m ∧ 0 ≤ val m ∧ val m ≤ 1 - 1 / 2 ^ 12
  | .nesterov m m1 => F32.Finite m ∧ 0 ≤ val m ∧ val m ≤ 1 - 1 / 2 ^ 12 ∧ F32.Finite m1 ∧ 0 ≤ val m1 ∧ val m1 ≤ 2

/-- A step: rate and gradients are numbers, one gradient for each of the `n` elements, and the product is up to `U`. -/
def Pushes (n : Nat) (U : ℝ) (p : F32.W × List F32.W) : Prop :=
  F32.Finite p.1 ∧ p.2.length = n ∧ ∀ i < n, F32.Finite (p.2.getD i 0) ∧ |val p.1 * val (p.2.getD i 0)| ≤ U

/-- Rates and gradients of element `i`. -/
noncomputable def column (l : List (F32.W × List F32.W)) (i : Nat) : List (ℝ × ℝ) := l.map fun p => (val p.1, val (p.2.getD i 0))

/-- Parameter and velocity after the steps `l` from `w₀`. -/
def SgdClose (o : Mode) (B : ℝ) (P : Int) (n : Nat) (l : List (F32.W × List F32.W)) (w₀ w v : List F32.W) : Prop :=
  w.length = n ∧ v.length = n ∧ ∀ i < n, F32.Finite (w.getD i 0) ∧ F32.Finite (v.getD i 0) ∧ |val (w.getD i 0)| ≤ (2 : ℝ) ^ P ∧
    |val (v.getD i 0)| ≤ B ∧
    |val (v.getD i 0) - (sgd o (column l i) (val (w₀.getD i 0), 0)).2| ≤ 3 * B / 2 ^ 24 / (1 - mu o) ∧
    |val (w.getD i 0) - (sgd o (column l i) (val (w₀.getD i 0), 0)).1| ≤ l.length * (16 * B / 2 ^ 24 / (1 - mu o) + (2 : ℝ) ^ P / 2 ^ 23)

/-! ### AdaGrad and RMSProp -/

/-- Both rules. -/
noncomputable def update (eps lr w g m : ℝ) : ℝ := w - lr * (g / (Real.sqrt m + eps))

/-- The sum of the squares of the gradients of element `i`. -/
noncomputable def squares (l : List (F32.W × List F32.W)) (i : Nat) : ℝ := ((Adam32.grads l i).map (· ^ 2)).sum

/-- AdaGrad after the steps `l`: the parameter is at most `2 ^ P`, the sum of squares is the exact one but for one relative rounding in
each step, and never more than `2 ^ (2 q + 25)`, however many steps there are. -/
def AdaClose (q : Nat) (P : Int) (n : Nat) (l : List (F32.W × List F32.W)) (w m : List F32.W) : Prop :=
  w.length = n ∧ m.length = n ∧ ∀ i < n, F32.Finite (w.getD i 0) ∧ F32.Finite (m.getD i 0) ∧ |val (w.getD i 0)| ≤ (2 : ℝ) ^ P ∧
    0 ≤ val (m.getD i 0) ∧ val (m.getD i 0) ≤ 2 ^ (2 * q + 25) ∧
    squares l i * (1 - 1 / 2 ^ 24) ^ (l.length + 1) - l.length / 2 ^ 150 ≤ val (m.getD i 0) ∧
    val (m.getD i 0) ≤ (squares l i + l.length / 2 ^ 150) * (1 + 1 / 2 ^ 24) ^ (l.length + 1)

/-- The step from `w` to `w'` with the sum or average of squares `m'` is the rule but for rounding, and no gradient moves an element by
more than `K` times the rate. -/
def RuleClose (eps : F32.W) (K : ℝ) (n : Nat) (lr : F32.W) (g w w' m' : List F32.W) : Prop :=
  ∀ i < n,
    |val (w'.getD i 0) - update (val eps) (val lr) (val (w.getD i 0)) (val (g.getD i 0)) (val (m'.getD i 0))| ≤
      val lr * K / 2 ^ 17 + |val (w.getD i 0)| / 2 ^ 24 + (2 : ℝ) ^ (-148 : Int) ∧
    |val (g.getD i 0) / (Real.sqrt (val (m'.getD i 0)) + val eps)| ≤ K

/-- The bound `2 ^ P` of the parameters is large enough for steps with rates up to `A`: a step is less than the distance of the numbers
next to the bound. -/
def Roomy (A K : ℝ) (P : Int) : Prop := -50 ≤ P ∧ P ≤ 90 ∧ 0 ≤ A ∧ A * K * (1 + 1 / 2 ^ 10) ≤ (2 : ℝ) ^ (P - 25)

/-- An epsilon as one uses it. -/
def SaneEps (eps : F32.W) : Prop := F32.Finite eps ∧ 1 / 2 ^ 40 ≤ val eps ∧ val eps ≤ 1

/-- The settings of RMSProp are numbers as one uses them; `K` is a bound of `1/√(1-Decay)`. -/
structure SaneRms (decay rest eps : F32.W) (K : ℝ) : Prop where
  decay_fin : F32.Finite decay
  rest_fin : F32.Finite rest
  eps_fin : F32.Finite eps
  decay_pos : 0 < val decay
  decay_le : val decay ≤ 1 - 1 / 2 ^ 12
  rest_pos : 0 < val rest
  sum : val decay + val rest ≤ 1 + 1 / 2 ^ 20
  eps_ge : 1 / 2 ^ 40 ≤ val eps
  eps_le : val eps ≤ 1
  K_ge : 1 ≤ K
  K_le : K ≤ 2 ^ 9
  ratio : 1 / val rest ≤ K ^ 2 * (1 - 1 / 2 ^ 20)

/-- RMSProp after the steps `l`: the average of squares is within a fixed distance of the exact one. -/
def RmsClose (decay rest : F32.W) (G : ℝ) (P : Int) (n : Nat) (l : List (F32.W × List F32.W)) (w m : List F32.W) : Prop :=
  w.length = n ∧ m.length = n ∧ ∀ i < n, F32.Finite (w.getD i 0) ∧ F32.Finite (m.getD i 0) ∧ |val (w.getD i 0)| ≤ (2 : ℝ) ^ P ∧
    0 ≤ val (m.getD i 0) ∧
    |val (m.getD i 0) - Adam32.avg (val decay) (val rest) 0 ((Adam32.grads l i).map (· ^ 2))| ≤ 7 * G ^ 2 / 2 ^ 24 / (1 - val decay)

end Verif.Spec.Opt32
