import Verif.Model.Tape
import Verif.Model.Activation
import Verif.Model.MaskedSoftmax
import Verif.Spec.Program
import Verif.Model.Optim
import Verif.Props.GradPool
import Verif.Props.GradSparse

set_option autoImplicit false

/-!
# Which operators are right at which operands

`Safe act f xs`: at the operands `xs` the backward pass of `f` is right as far as the operands in `act` are
concerned, and serves them. It is a plain list of the library's operators with their side conditions; the
proofs are in Props/GradElem.lean, ... and Props/Safe.lean. Not in the list because they are wrong or do not
serve all operands: `GELU` (C47), `ScalarMax` (C05, C06), `Concat`, `ReduceSum` and `ReduceMean` of matrices that are
no columns (C05), `RotateR` by the whole length.
-/

namespace Verif.GradFn
open Dense

inductive Safe (act : Nat → Prop) : GradFn ℝ → List (Dense ℝ) → Prop
  -- smooth functions of each element
  | tanh {x} : Safe act tanh [x]
  | sigmoid {x} : Safe act sigmoid [x]
  | swish {x} : Safe act swish [x]
  | mish {x} : Safe act mish [x]
  | softsign {x} : Safe act softsign [x]
  | exp {x} : Safe act exp [x]
  | cos {x} : Safe act cos [x]
  | sin {x} : Safe act sin [x]
  | neg {x} : Safe act neg [x]
  -- functions of each element, away from kinks and poles
  | tan {x : Dense ℝ} : (∀ v ∈ x.data, DifferentiableAt ℝ tanF v) → Safe act tan [x]
  | hardSigmoid {x : Dense ℝ} : (∀ v ∈ x.data, DifferentiableAt ℝ hardSigmoidF v) → Safe act hardSigmoid [x]
  | hardTanh {x : Dense ℝ} : (∀ v ∈ x.data, DifferentiableAt ℝ hardTanhF v) → Safe act hardTanh [x]
  | relu {x : Dense ℝ} : (∀ v ∈ x.data, v ≠ 0) → Safe act relu [x]
  | abs {x : Dense ℝ} : (∀ v ∈ x.data, v ≠ 0) → Safe act abs [x]
  | reciprocal {x : Dense ℝ} : (∀ v ∈ x.data, v ≠ 0) → Safe act reciprocal [x]
  | sqrt {x : Dense ℝ} : (∀ v ∈ x.data, 0 < v) → Safe act sqrt [x]
  | pow {x : Dense ℝ} {p : ℝ} : (∀ v ∈ x.data, v ≠ 0 ∨ 1 ≤ p) → Safe act (pow p) [x]
  | log {x : Dense ℝ} : (∀ v ∈ x.data, 0 < v) → Safe act logR [x]
  -- the same with scalar parameters, which get no gradient
  | elu {x p : Dense ℝ} : (∀ k, act k → k = 0) → p.data.length = 1 →
      (∀ v ∈ x.data, DifferentiableAt ℝ (eluF [p.val 0]) v) → Safe act elu [x, p]
  | celu {x p : Dense ℝ} : (∀ k, act k → k = 0) → p.data.length = 1 → p.val 0 ≠ 0 → Safe act celu [x, p]
  | leakyRelu {x p : Dense ℝ} : (∀ k, act k → k = 0) → p.data.length = 1 →
      (∀ v ∈ x.data, DifferentiableAt ℝ (leakyReluF [p.val 0]) v) → Safe act leakyRelu [x, p]
  | selu {x p q : Dense ℝ} : (∀ k, act k → k = 0) → p.data.length = 1 → q.data.length = 1 →
      (∀ v ∈ x.data, DifferentiableAt ℝ (seluF [p.val 0, q.val 0]) v) → Safe act selu [x, p, q]
  | softPlus {x p q : Dense ℝ} : (∀ k, act k → k = 0) → p.data.length = 1 → q.data.length = 1 → p.val 0 ≠ 0 →
      (∀ v ∈ x.data, DifferentiableAt ℝ (softPlusF [p.val 0, q.val 0]) v) → Safe act softPlus [x, p, q]
  | threshold {x p q : Dense ℝ} : (∀ k, act k → k = 0) → p.data.length = 1 → q.data.length = 1 →
      (∀ v ∈ x.data, DifferentiableAt ℝ (thresholdF [p.val 0, q.val 0]) v) → Safe act threshold [x, p, q]
  | softShrink {x p : Dense ℝ} : (∀ k, act k → k = 0) → p.data.length = 1 → 0 < p.val 0 →
      (∀ v ∈ x.data, DifferentiableAt ℝ (softShrinkF [p.val 0]) v) → Safe act softShrink [x, p]
  | swishB {x p : Dense ℝ} : p.data.length = 1 → x.isVector → Safe act swishBR [x, p]
  -- arithmetic
  | add {x y} : Safe act add [x, y]
  | sub {x y} : Safe act sub [x, y]
  | prod {x y} : Safe act prod [x, y]
  | div {x y : Dense ℝ} : (∀ v ∈ y.data, v ≠ 0) → Safe act div [x, y]
  | addScalar {x y} : Safe act addScalar [x, y]
  | subScalar {x y} : Safe act subScalar [x, y]
  | reverseSubScalar {x y} : Safe act reverseSubScalar [x, y]
  | prodScalar {x y} : Safe act prodScalar [x, y]
  | divScalar {x y : Dense ℝ} : y.val 0 ≠ 0 → Safe act divScalar [x, y]
  | dot {x y} : Safe act dot [x, y]
  | mul {x y} : Safe act mul [x, y]
  | mulT {x y} : Safe act mulT [x, y]
  | affine {xs} : Safe act affine xs
  -- pieces and arrangements
  | concat {xs : List (Dense ℝ)} : (∀ x ∈ xs, x.cols = 1) → Safe act concat xs
  | stack {xs} : Safe act stack xs
  | appendRows {x : Dense ℝ} {vs : List (Dense ℝ)} : x.data ≠ [] → (∀ v ∈ vs, v.rows = 1) →
      Safe act appendRows (x :: vs)
  | slice {fr fc tr tc x} : Safe act (slice fr fc tr tc) [x]
  | transpose {x} : Safe act transpose [x]
  | rowView {k x} : Safe act (rowView k) [x]
  | colView {k x} : Safe act (colView k) [x]
  | atMat {i j x} : Safe act (atMat i j) [x]
  | atVec {i x} : Safe act (atVec i) [x]
  | reshape {r c x} : Safe act (reshape r c) [x]
  | flatten {x} : Safe act flatten [x]
  | copy {x} : Safe act copy [x]
  | dropout {mask x : Dense ℝ} : mask.WF → Safe act (dropout mask) [x]
  | rotateR {k : Int} {x : Dense ℝ} : k ≠ x.data.length → Safe act (rotateR k) [x]
  -- reductions and selections
  | reduceSum {x : Dense ℝ} : x.cols = 1 → Safe act reduceSum [x]
  | reduceMean {x : Dense ℝ} : x.cols = 1 → Safe act reduceMean [x]
  | reduceMax {x : Dense ℝ} {m : Nat} : m < x.data.length →
      (∀ i < x.data.length, i ≠ m → x.val i < x.val m) → Safe act reduceMax [x]
  | max {x y : Dense ℝ} : x.cols = 1 → (∀ i < x.data.length, x.val i ≠ y.val i) → Safe act max [x, y]
  | min {x y : Dense ℝ} : x.cols = 1 → (∀ i < x.data.length, x.val i ≠ y.val i) → Safe act min [x, y]
  | softmax {x : Dense ℝ} : x.cols = 1 → x.data ≠ [] → Safe act softmaxR [x]
  | softmaxMasked {i : Nat} {x : Dense ℝ} : x.cols = 1 → x.data ≠ [] → Safe act (softmaxMasked i) [x]
  | sparseMax {x : Dense ℝ} {tau : ℝ} : x.isVector → 0 < tau → IsTau x.data.length x.val tau →
      (∀ i < x.data.length, x.val i ≠ tau) → Safe act sparseMax [x]
  | sparseMaxLoss {x} : Safe act sparseMaxLoss [x]
  | maxPooling {x : Dense ℝ} {eps : ℝ} {r : Nat} (A B : Nat → Nat → Nat) : 0 < r →
      (∀ row < x.rows / r, ∀ col < x.cols / r, InWindow r r row col (A row col) (B row col) ∧
        eps < x.el (A row col) (B row col) ∧
        ∀ i j, InWindow r r row col i j → ¬ (i = A row col ∧ j = B row col) →
          x.el i j < x.el (A row col) (B row col)) →
      Safe act (maxPooling eps r r) [x]

end Verif.GradFn

namespace Verif.Tape
open GradFn Backward

/-- The program with the results of `StopGrad` as constants. -/
def held : Instr → Instr
  | .stop _ => .leaf false
  | i => i

/-- Do all operators that need gradients get operands at which they are right? -/
def AllSafe (P : List Instr) (vals : List (Dense ℝ)) : Prop :=
  ∀ (c : Nat) f args, P[c]? = some (.call f args) → (needs P []).getD c false = true →
    Safe (fun k => ∃ j, args[k]? = some j ∧ (needs P []).getD j false = true) f
      (args.map fun j => vals.getD j ⟨0, 0, []⟩)

/-- The values of the leaves and constants, and of the operators that need no gradients, are well-formed matrices. -/
structure DataWF (P : List Instr) (vals : List (Dense ℝ)) : Prop where
  leaf : ∀ (c : Nat) b, P[c]? = some (.leaf b) → (vals.getD c ⟨0, 0, []⟩).WF
  const : ∀ (c : Nat) v, P[c]? = some (.const v) → v.WF
  call : ∀ (c : Nat) f args, P[c]? = some (.call f args) → (needs P []).getD c false = false →
    (vals.getD c ⟨0, 0, []⟩).WF

/-- Tensor `x` is used, by way of operators, in the computation of tensor `y`. -/
inductive Feeds (P : List Instr) (y : Nat) : Nat → Prop
  | self : Feeds P y y
  | arg {c o : Nat} {f args} : Feeds P y c → P[c]? = some (.call f args) → o ∈ args → Feeds P y o

/-- Is tensor `i` a leaf with gradients? -/
def trainable (P : List Instr) (i : Nat) : Bool :=
  match P[i]? with
  | some (.leaf b) => b
  | _ => false

/-- The trainable leaves have the values `τ`; all others, as well as the results of `StopGrad`, keep those
they have in `vals`. -/
def leafVals (P : List Instr) (vals : List (Dense ℝ)) (τ : Nat → Dense ℝ) (i : Nat) : Dense ℝ :=
  if trainable P i then τ i else vals.getD i ⟨0, 0, []⟩

/-- The first element of tensor `y` as a function of the trainable leaves; 0 if the program fails. -/
def output (P : List Instr) (vals : List (Dense ℝ)) (y : Nat) (τ : Nat → Dense ℝ) : ℝ :=
  match run (leafVals P vals τ) (P.map held) [] with
  | some ys => (ys.getD y ⟨0, 0, []⟩).val 0
  | none => 0

/-- `w'` is the value of a parameter after `Optimize` with SGD without momentum at rate `α`
(optimizers/optimizer.go:60-63: nothing happens to a parameter without gradient). -/
def SgdStep (α : ℝ) (w : Dense ℝ) : Option (Nat → ℝ) → Dense ℝ → Prop
  | none, w' => w' = w
  | some g, w' => ∃ p, Optim.sgdOptimize ⟨α, 0, false⟩ ⟨w, some (ofVals w g), .nil⟩ = some (p, false) ∧ p.value = w'

end Verif.Tape
