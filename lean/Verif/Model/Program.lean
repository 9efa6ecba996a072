import Verif.Model.Backward
import Verif.Model.GradFn
import Mathlib.Data.Real.Basic

set_option autoImplicit false

/-!
# A computation made of library operators

The graph of Model/Backward.lean with a function of Model/GradFn.lean at every operator. A gradient is the
list of its elements as a function of the index (0 outside); its dimensions are those of the tensor it
belongs to. That the gradients which are accumulated do have these dimensions is part of the theorems about
the functions (`GradShapes`); accumulating others would end the process (mat/dense_grad.go:25-28).
-/

namespace Verif.Backward
open GradFn
variable {n : Nat}

/-- The matrix of the dimensions of `d` with elements `g`. -/
def ofVals (d : Dense ℝ) (g : Nat → ℝ) : Dense ℝ := ⟨d.rows, d.cols, (List.range d.data.length).map g⟩

open Classical in
/-- The backward functions of the operators: each passes the gradient to its function together with the
values of the operands (ag/operator.go:291-296), and the function accumulates on the operands that require
gradients (the test at the beginning of each branch of the functions' `Backward`). A result of size one is
seeded with 1 (ag/operator.go:244-249). -/
noncomputable def progFns (G : Graph n) (op : Fin n → GradFn ℝ) (V : Fin n → Dense ℝ) : Fns n (Nat → ℝ) where
  bw c g :=
    match (op c).backward ((G.operands c).map V) (ofVals (V c) g) with
    | some gs => ((G.operands c).zip gs).filterMap fun p =>
        if G.requiresGrad p.1 then p.2.map fun d => (p.1, fun i => d.data.getD i 0) else none
    | none => []
  seed x := if (V x).data.length = 1 then some (fun i => if i = 0 then 1 else 0) else none

end Verif.Backward
