import Verif.Spec.Record

set_option autoImplicit false

/-!
# Training loops

The loops of the examples (examples/regression/main.go:54-85, examples/sinusoid, examples/addition): for every sample
the loss is computed and `ag.Backward(loss)` called; then `optimizer.Optimize()` updates the parameters and clears their
gradients. Between the samples gradients stay where they are, so they add up (mat/dense_grad.go:22-30).
-/

namespace Verif.Record
open GradFn Backward Tape
noncomputable section

/-- One sample: the code that computes its loss, and the number and values of its inputs (`data x` is the value of
tensor `x`; the parameters come first). -/
structure Sample where
  inputs : Nat
  code : B Nat
  data : Nat → Dense ℝ

/-- The program of a sample, on `k` parameters. -/
def Sample.program (e : Sample) (k : Nat) : List Instr := Record.program k e.inputs e.code

/-- The number of its result. -/
def Sample.result (e : Sample) (k : Nat) : Nat := Record.result k e.inputs e.code

/-- The loop over the samples, with parameters of the values `w`: `γ` are their gradients before and `γ'` after it. Each
sample makes its own graph; only the parameters are common. `Backward` runs under any schedule. -/
inductive Learn (k : Nat) (w : Nat → Dense ℝ) : List Sample → (Nat → Option (Nat → ℝ)) → (Nat → Option (Nat → ℝ)) → Prop
  | nil {γ} : Learn k w [] γ γ
  | cons {e : Sample} {es : List Sample} {γ γ' : Nat → Option (Nat → ℝ)} {vals : List (Dense ℝ)}
      {s₀ s : St (e.program k).length (Nat → ℝ)} (hlt : e.result k < (e.program k).length) :
      run (withParams k w e.data) (e.program k) [] = some vals →
      Clean (graph (e.program k)) s₀ → (∀ x, s₀.grad x = if x.val < k then γ x else none) →
      Reach (graph (e.program k)) (progFns (graph (e.program k)) (fns (e.program k)) (valOf vals)) [⟨e.result k, hlt⟩] s₀ s →
      s.main = .returned →
      Learn k w es (gradOf s) γ' → Learn k w (e :: es) γ γ'

/-- What `Optimize` does to one parameter with gradient `g` (optimizers/optimizer.go:60-63), when its goroutine is
finished: nothing without gradient. -/
def Updates (strategy : Optim.Param → Option (Optim.Param × Bool)) (p : Optim.Param) (g : Option (Nat → ℝ))
    (p' : Optim.Param) : Prop :=
  match g with
  | none => p' = p
  | some g => strategy { p with grad := some (ofVals p.value g) } = some (p', false)

/-- One epoch: all samples, then `Optimize` (main.go:71-85). Gradients are absent before: `OptimizeParams` clears them.
`Optimize` does not wait for its goroutines (C26); here they are finished before the next epoch begins. -/
def Epoch (strategy : Optim.Param → Option (Optim.Param × Bool)) (k : Nat) (samples : List Sample)
    (p p' : Nat → Optim.Param) : Prop :=
  ∃ γ, Learn k (fun x => (p x).value) samples (fun _ => none) γ ∧ ∀ x < k, Updates strategy (p x) (γ x) (p' x)

/-- `n` epochs. -/
inductive Epochs (strategy : Optim.Param → Option (Optim.Param × Bool)) (k : Nat) (samples : List Sample) :
    Nat → (Nat → Optim.Param) → (Nat → Optim.Param) → Prop
  | zero {p} : Epochs strategy k samples 0 p p
  | succ {n p q r} : Epochs strategy k samples n p q → Epoch strategy k samples q r →
      Epochs strategy k samples (n + 1) p r

end
end Verif.Record
