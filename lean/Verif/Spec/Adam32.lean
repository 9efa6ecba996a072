/-
Adam on real numbers, and how far the float32 of the code may be from it.  `F32.val` is the number a word stands for.
-/
import Verif.Model.Adam32
import Verif.Lemmas.F32Round
import Mathlib.Analysis.Real.Sqrt
set_option autoImplicit false

namespace Verif.Spec.Adam32
open Verif.F32 Verif.Adam32

/-- `x ← b * x + c * g` for one `g` after the other: the exponentially weighted average. -/
noncomputable def avg (b c : ℝ) (x : ℝ) : List ℝ → ℝ
  | [] => x
  | g :: gs => avg b c (b * x + c * g) gs

/-- The settings are numbers as one uses them, and `K` is a bound of the ratio of the moments:
by the inequality of Cauchy and Schwarz `|v| ≤ K √m` for moments made of the same gradients. -/
structure Sane (o : Settings) (K : ℝ) : Prop where
  b1_fin : F32.Finite o.b1
  b1c_fin : F32.Finite o.b1c
  b2_fin : F32.Finite o.b2
  b2c_fin : F32.Finite o.b2c
  eps_fin : F32.Finite o.eps
  b1_nonneg : 0 ≤ val o.b1
  b1_le : val o.b1 ≤ 1 - 1 / 2 ^ 12
  b1c_nonneg : 0 ≤ val o.b1c
  b1_sum : val o.b1 + val o.b1c ≤ 1 + 1 / 2 ^ 20
  b2_pos : 0 < val o.b2
  b2_le : val o.b2 ≤ 1 - 1 / 2 ^ 12
  b2c_pos : 0 < val o.b2c
  b2_sum : val o.b2 + val o.b2c ≤ 1 + 1 / 2 ^ 20
  eps_ge : 1 / 2 ^ 40 ≤ val o.eps
  eps_le : val o.eps ≤ 1
  K_ge : 1 ≤ K
  K_le : K ≤ 2 ^ 9
  ratio : val o.b1 ^ 2 * K ^ 2 / val o.b2 + val o.b1c ^ 2 / val o.b2c ≤ K ^ 2 * (1 - 1 / 2 ^ 20)

/-- The coefficient of the weight decay. -/
noncomputable def decay (o : Settings) : ℝ :=
  match o.decay with
  | none => 0
  | some l => val l

/-- The bound `2 ^ P` of the parameters is large enough for steps with `Alpha` up to `A`: without weight decay a step is less than the
distance of the numbers next to the bound; with weight decay the bound is what the decay balances. -/
def Room (o : Settings) (A K : ℝ) (P : Int) : Prop :=
  -50 ≤ P ∧ P ≤ 90 ∧ 0 ≤ A ∧
    match o.decay with
    | none => A * K * (1 + 1 / 2 ^ 10) ≤ (2 : ℝ) ^ (P - 25)
    | some l => F32.Finite l ∧ 0 < val l ∧ val l ≤ 1 ∧ A * val l ≤ 1 ∧ K * (1 + 1 / 2 ^ 10) ≤ val l * (2 : ℝ) ^ P

/-- A step: its `Alpha` is from 0 to `A`, there is one gradient for each of the `n` elements, and none is larger than `G`. -/
def Feeds (n : Nat) (A G : ℝ) (p : F32.W × List F32.W) : Prop :=
  F32.Finite p.1 ∧ 0 ≤ val p.1 ∧ val p.1 ≤ A ∧ p.2.length = n ∧ ∀ i < n, F32.Finite (p.2.getD i 0) ∧ |val (p.2.getD i 0)| ≤ G

/-- The gradients of element `i`. -/
noncomputable def grads (l : List (F32.W × List F32.W)) (i : Nat) : List ℝ := l.map fun p => val (p.2.getD i 0)

/-- Parameter and moments after the steps `l`: all are numbers, the parameter is at most `2 ^ P`, the moments are the averages of
the gradients and of their squares but for rounding, and their ratio is bounded. -/
def Close (o : Settings) (K G : ℝ) (P : Int) (n : Nat) (l : List (F32.W × List F32.W)) (w : List F32.W) (s : State) : Prop :=
  w.length = n ∧ s.v.length = n ∧ s.m.length = n ∧ ∀ i < n,
    F32.Finite (w.getD i 0) ∧ F32.Finite (s.v.getD i 0) ∧ F32.Finite (s.m.getD i 0) ∧
    |val (w.getD i 0)| ≤ (2 : ℝ) ^ P ∧
    |val (s.v.getD i 0) - avg (val o.b1) (val o.b1c) 0 (grads l i)| ≤ 6 * G / 2 ^ 24 / (1 - val o.b1) ∧
    |val (s.m.getD i 0) - avg (val o.b2) (val o.b2c) 0 ((grads l i).map (· ^ 2))| ≤ 7 * G ^ 2 / 2 ^ 24 / (1 - val o.b2) ∧
    0 ≤ val (s.m.getD i 0) ∧
    |val (s.v.getD i 0)| ≤ K * Real.sqrt (val (s.m.getD i 0)) + 1 / 2 ^ 50

/-- The rule of Adam and AdamW. -/
noncomputable def update (o : Settings) (alpha w v m : ℝ) : ℝ := w - alpha * (v / (Real.sqrt m + val o.eps) + decay o * w)

/-- The step from `w` to `w'` with the moments `s'`: the rule but for rounding. -/
def StepClose (o : Settings) (K : ℝ) (n : Nat) (alpha : F32.W) (w w' : List F32.W) (s' : State) : Prop :=
  ∀ i < n,
    |val (w'.getD i 0) - update o (val alpha) (val (w.getD i 0)) (val (s'.v.getD i 0)) (val (s'.m.getD i 0))| ≤
      val alpha * (K + decay o * |val (w.getD i 0)|) / 2 ^ 17 + |val (w.getD i 0)| / 2 ^ 24 + (2 : ℝ) ^ (-148 : Int) ∧
    |val (s'.v.getD i 0) / (Real.sqrt (val (s'.m.getD i 0)) + val o.eps)| ≤ K

end Verif.Spec.Adam32
