import Verif.Model.Network
import Verif.Spec.Record

set_option autoImplicit false

/-!
# Networks as functions on sequences of real vectors
-/

namespace Verif.Record
open scoped BigOperators
noncomputable section

/-- The function of an activation. -/
def Point.fn : Point → ℝ → ℝ
  | .tanh, x => Real.tanh x
  | .sigmoid, x => 1 / (1 + Real.exp (-x))
  | .swish, x => x / (1 + Real.exp (-x))
  | .mish, x => x * Real.tanh (Real.log (1 + Real.exp x))
  | .softsign, x => x / (1 + |x|)
  | .relu, x => max 0 x
  | .tan, x => Real.tan x
  | .hardSigmoid, x => max 0 (min 1 (x / 5 + 1 / 2))
  | .hardTanh, x => max (-1) (min 1 x)

/-- Is the activation differentiable at `x`? -/
def Point.Smooth : Point → ℝ → Prop
  | .relu, x => x ≠ 0
  | .tan, x => Real.cos x ≠ 0
  | .hardSigmoid, x => |x| ≠ 5 / 2
  | .hardTanh, x => |x| ≠ 1
  | _, _ => True

/-- `W x + b` for a matrix with `i` columns. -/
def affineMap (i : Nat) (w b : Dense ℝ) (x : Nat → ℝ) (j : Nat) : ℝ := ∑ k ∈ Finset.range i, w.el j k * x k + b.val j

/-- The mean of the first `d` elements. -/
def average (d : Nat) (x : Nat → ℝ) : ℝ := (∑ i ∈ Finset.range d, x i) / d

/-- Their variance. -/
def variance (d : Nat) (x : Nat → ℝ) : ℝ := average d fun i => (x i - average d x) ^ 2

/-- A gated mixture of `f(W x + b)` and `x`. -/
def highwayMap (d : Nat) (p : Point) (wIn bIn wT bT : Dense ℝ) (x : Nat → ℝ) (j : Nat) : ℝ :=
  let t := 1 / (1 + Real.exp (-affineMap d wT bT x j))
  t * p.fn (affineMap d wIn bIn x j) + (1 - t) * x j

/-- The weight of position `t` of `n` for the query `q`: softmax of the scaled scalar products with the keys. -/
def weight (d n : Nat) (factor : ℝ) (key : Nat → Nat → ℝ) (q : Nat → ℝ) (t : Nat) : ℝ :=
  Real.exp ((∑ c ∈ Finset.range d, key t c * q c) * factor) /
    ∑ s ∈ Finset.range n, Real.exp ((∑ c ∈ Finset.range d, key s c * q c) * factor)

/-- The Euclidean norm of the first `d` elements. -/
def euclid (d : Nat) (x : Nat → ℝ) : ℝ := Real.sqrt (∑ c ∈ Finset.range d, x c ^ 2)

/-- The network as a function; its first parameter is tensor `k`. -/
def Net.apply {i o : Nat} (τ : Nat → Dense ℝ) : Net i o → Nat → List (Nat → ℝ) → List (Nat → ℝ)
  | .linear i _, k, xs => xs.map (affineMap i (τ k) (τ (k + 1)))
  | .act p _, _, xs => xs.map fun x j => p.fn (x j)
  | .softmax d, _, xs => xs.map fun x j => Real.exp (x j) / ∑ c ∈ Finset.range d, Real.exp (x c)
  | .layerNorm eps d, k, xs => xs.map fun x j =>
      (x j - average d x) / Real.sqrt (variance d x + eps) * (τ k).val j + (τ (k + 1)).val j
  | .rmsNorm d, k, xs => xs.map fun x j =>
      x j / (Real.sqrt (average d fun c => x c ^ 2) + 1e-10) * (τ k).val j + (τ (k + 1)).val j
  | .logSoftmax d, _, xs => xs.map fun x j => x j - Real.log (∑ c ∈ Finset.range d, Real.exp (x c))
  | .layerNormSimple d, _, xs => xs.map fun x j => (x j - average d x) / (Real.sqrt (variance d x) + 1e-10)
  | .fixNorm d, _, xs => xs.map fun x j => x j / (euclid d x + 1e-10)
  | .scaleNorm d, k, xs => xs.map fun x j => x j / (euclid d x + 1e-10) * (τ k).val j
  | .sqrDist i r, k, xs => xs.map fun x _ => ∑ j ∈ Finset.range r, (∑ c ∈ Finset.range i, (τ k).el j c * x c) ^ 2
  | .highway p d, k, xs => xs.map (highwayMap d p (τ k) (τ (k + 1)) (τ (k + 2)) (τ (k + 3)))
  | .srn i o, k, xs => (List.range xs.length).map (Recurrent.stateAt (Recurrent.srnStep i o (gateOf τ k)) 0 xs)
  | .gru i o, k, xs => (List.range xs.length).map fun t =>
      (Recurrent.stateAt (Recurrent.gruStep i o ⟨gateOf τ k, gateOf τ (k + 3), gateOf τ (k + 6)⟩) Recurrent.gruZero xs t).y
  | .lstm i o, k, xs => (List.range xs.length).map fun t =>
      (Recurrent.stateAt (Recurrent.lstmStep i o ⟨false, gateOf τ k, gateOf τ (k + 3), gateOf τ (k + 6), gateOf τ (k + 9)⟩)
        Recurrent.lstmZero xs t).y
  | .lstmRefined d, k, xs => (List.range xs.length).map fun t =>
      (Recurrent.stateAt (Recurrent.lstmStep d d ⟨true, gateOf τ k, gateOf τ (k + 3), gateOf τ (k + 6), gateOf τ (k + 9)⟩)
        Recurrent.lstmZero xs t).y
  | .attention f i d _, k, xs =>
      let query := affineMap i (τ k) (τ (k + 1))
      let key := fun t => affineMap i (τ (k + 2)) (τ (k + 3)) (xs.getD t 0)
      let value := fun t => affineMap i (τ (k + 4)) (τ (k + 5)) (xs.getD t 0)
      xs.map fun x j => ∑ t ∈ Finset.range xs.length, weight d xs.length f key (query x) t * value t j
  | .causal f i d _, k, xs =>
      let query := affineMap i (τ k) (τ (k + 1))
      let key := fun t => affineMap i (τ (k + 2)) (τ (k + 3)) (xs.getD t 0)
      let value := fun t => affineMap i (τ (k + 4)) (τ (k + 5)) (xs.getD t 0)
      (List.range xs.length).map fun t j =>
        ∑ u ∈ Finset.range (t + 1), weight d (t + 1) f key (query (xs.getD t 0)) u * value u j
  | .seq p q, k, xs => q.apply τ (k + p.size) (p.apply τ k xs)
  | .residual p, k, xs => List.zipWith (fun y x j => y j + x j) (p.apply τ k xs) xs
  | .sum p q, k, xs =>
      List.zipWith (fun a b j => a j + b j) (p.apply τ k xs) (q.apply τ (k + p.size) xs.reverse).reverse
  | .prod p q, k, xs =>
      List.zipWith (fun a b j => a j * b j) (p.apply τ k xs) (q.apply τ (k + p.size) xs.reverse).reverse
  | .avg p q, k, xs =>
      List.zipWith (fun a b j => (a j + b j) / 2) (p.apply τ k xs) (q.apply τ (k + p.size) xs.reverse).reverse
  | .concat (o := o) p q, k, xs =>
      List.zipWith (fun a b j => if j < o then a j else b (j - o)) (p.apply τ k xs) (q.apply τ (k + p.size) xs.reverse).reverse

/-- The dimensions of a matrix. -/
def Dims (w : Dense ℝ) (r c : Nat) : Prop := w.rows = r ∧ w.cols = c

/-- The dimensions of the parameters, as the constructors make them; vectors given to a softmax are not empty. -/
def Net.Fits {i o : Nat} (θ : Nat → Dense ℝ) : Net i o → Nat → Prop
  | .linear i o, k => Dims (θ k) o i ∧ Dims (θ (k + 1)) o 1
  | .act _ _, _ => True
  | .softmax d, _ => 0 < d
  | .layerNorm _ d, k => Dims (θ k) d 1 ∧ Dims (θ (k + 1)) d 1
  | .rmsNorm d, k => Dims (θ k) d 1 ∧ Dims (θ (k + 1)) d 1
  | .logSoftmax d, _ => 0 < d
  | .layerNormSimple _, _ => True
  | .fixNorm _, _ => True
  | .scaleNorm d, k => Dims (θ k) d 1
  | .sqrDist i r, k => Dims (θ k) r i
  | .highway _ d, k => Dims (θ k) d d ∧ Dims (θ (k + 1)) d 1 ∧ Dims (θ (k + 2)) d d ∧ Dims (θ (k + 3)) d 1
  | .srn i o, k => GateDims i o θ k
  | .gru i o, k => GateDims i o θ k ∧ GateDims i o θ (k + 3) ∧ GateDims i o θ (k + 6)
  | .lstm i o, k => GateDims i o θ k ∧ GateDims i o θ (k + 3) ∧ GateDims i o θ (k + 6) ∧ GateDims i o θ (k + 9)
  | .lstmRefined d, k => GateDims d d θ k ∧ GateDims d d θ (k + 3) ∧ GateDims d d θ (k + 6) ∧ GateDims d d θ (k + 9)
  | .attention _ i d e, k => Dims (θ k) d i ∧ Dims (θ (k + 1)) d 1 ∧ Dims (θ (k + 2)) d i ∧ Dims (θ (k + 3)) d 1 ∧
      Dims (θ (k + 4)) e i ∧ Dims (θ (k + 5)) e 1
  | .causal _ i d e, k => Dims (θ k) d i ∧ Dims (θ (k + 1)) d 1 ∧ Dims (θ (k + 2)) d i ∧ Dims (θ (k + 3)) d 1 ∧
      Dims (θ (k + 4)) e i ∧ Dims (θ (k + 5)) e 1
  | .seq p q, k => p.Fits θ k ∧ q.Fits θ (k + p.size)
  | .residual p, k => p.Fits θ k
  | .sum p q, k => p.Fits θ k ∧ q.Fits θ (k + p.size)
  | .prod p q, k => p.Fits θ k ∧ q.Fits θ (k + p.size)
  | .avg p q, k => p.Fits θ k ∧ q.Fits θ (k + p.size)
  | .concat p q, k => p.Fits θ k ∧ q.Fits θ (k + p.size)

/-- No root of the network is evaluated at 0, and no activation where it has no derivative. -/
def Net.Regular {i o : Nat} (τ : Nat → Dense ℝ) : Net i o → Nat → List (Nat → ℝ) → Prop
  | .act p d, _, xs => ∀ x ∈ xs, ∀ j < d, p.Smooth (x j)
  | .layerNorm eps d, _, xs => ∀ x ∈ xs, 0 < variance d x + eps
  | .rmsNorm d, _, xs => ∀ x ∈ xs, ∃ j < d, x j ≠ 0
  | .layerNormSimple d, _, xs => ∀ x ∈ xs, 0 < variance d x
  | .fixNorm d, _, xs => ∀ x ∈ xs, ∃ j < d, x j ≠ 0
  | .scaleNorm d, _, xs => ∀ x ∈ xs, ∃ j < d, x j ≠ 0
  | .highway p d, k, xs => ∀ x ∈ xs, ∀ j < d, p.Smooth (affineMap d (τ k) (τ (k + 1)) x j)
  | .seq p q, k, xs => p.Regular τ k xs ∧ q.Regular τ (k + p.size) (p.apply τ k xs)
  | .residual p, k, xs => p.Regular τ k xs
  | .sum p q, k, xs => p.Regular τ k xs ∧ q.Regular τ (k + p.size) xs.reverse
  | .prod p q, k, xs => p.Regular τ k xs ∧ q.Regular τ (k + p.size) xs.reverse
  | .avg p q, k, xs => p.Regular τ k xs ∧ q.Regular τ (k + p.size) xs.reverse
  | .concat p q, k, xs => p.Regular τ k xs ∧ q.Regular τ (k + p.size) xs.reverse
  | _, _, _ => True

/-- Every layer looks back only. -/
def Net.Causal {i o : Nat} : Net i o → Prop
  | .attention _ _ _ _ => False
  | .seq p q => p.Causal ∧ q.Causal
  | .residual p => p.Causal
  | .sum _ _ => False
  | .prod _ _ => False
  | .avg _ _ => False
  | .concat _ _ => False
  | _ => True

/-- The error of a network on `n` inputs, the tensors after its parameters, and `n` targets, the tensors after
them. -/
def Net.error {i o : Nat} (N : Net i o) (n : Nat) (mean : Bool) (τ : Nat → Dense ℝ) : ℝ :=
  squaredError o n mean (fun t => (N.apply τ 0 (vectors τ N.size n)).getD t 0) fun t => (τ (N.size + n + t)).val

end
end Verif.Record
