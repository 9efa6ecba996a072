import Verif.Model.Attention
import Verif.Model.Activation

set_option autoImplicit false

/-!
# The masked softmax of causal attention (nn/attention/attention.go:35-43)

`-inf` is no real number, so the two operators `ag.Add(scores, causalMask)` and `ag.Softmax` that follow each other in
`ScaledDotProductAttention` are one operator here, from scores to weights. The mask is a matrix without gradient; `Add` hands
its gradient on to `scores` unchanged (mat/gradfn/add.go).
-/

namespace Verif.GradFn
open Dense
noncomputable section

/-- `ag.Add(scores, causalMask)` for query `i` (attention.go:38-39); the mask has as many elements as there are rows. -/
def masked (i : Nat) (x : Dense ℝ) : Option (Dense (WithBot ℝ)) :=
  zipOp (· + ·) ⟨x.rows, x.cols, x.data.map fun (r : ℝ) => (r : WithBot ℝ)⟩ (column (Attention.makeCausalMask ℝ i x.rows))

/-- `ag.Softmax(ag.Add(scores, causalMask))` (attention.go:38-42, mat/gradfn/softmax.go:33-57). -/
def softmaxMasked (i : Nat) : GradFn ℝ where
  forward
    | [x] => do
      let m ← masked i x
      Attention.softmaxBot Real.exp m
    | _ => none
  backward
    | [x], gy =>
      if ¬ x.sameDims gy then none
      else do
        let m ← masked i x
        let y ← Attention.softmaxBot Real.exp m
        let n := y.data.length
        let jb := (zeros n n : Dense ℝ).apply fun row col _ =>
          let vRow := y.data.getD row 0
          if row = col then vRow * (1 - vRow) else -(vRow * y.data.getD col 0)
        let gx ← jb.mul gy
        some [some gx]
    | _, _ => none

end
end Verif.GradFn
