/-
Back-propagation through time of a simple recurrent network of float32 on amd64 (nn/recurrent/srn/srn.go), from the bits of the inputs and the
parameters to the bits of the gradients.  The forward step is that of `Model/Rec32.lean`, the operations of the backward step are those of
`Model/Back32.lean`, and the contributions to a gradient arrive in any order (`Model/Train32.lean`): the passes of `Affine` run in
goroutines (mat/gradfn/affine.go:102-121), and the outputs hand on their gradients concurrently (ag/backward.go:23-52).
-/
import Verif.Model.Rec32
import Verif.Model.Train32
set_option autoImplicit false

namespace Verif.Srn32
open Verif.F32 Verif.Asm Verif.Spec.Kernels Verif.Net32 Verif.Rec32 Verif.Att32 Verif.Back32

/-- The calls of `AccGrad` on a gradient, in any order. -/
def Gather (cpu : Cpu) (l : List (List F32.W)) (z : Option (List F32.W)) : Prop := ∃ o, o.Perm l ∧ Train32.Acc cpu o z

/-- What one step contributes to the gradients of `W`, of `B`, of `WRec` (unless it is the first step) and of its input. -/
structure Con where
  gw : List F32.W
  gb : List F32.W
  gu : Option (List F32.W)
  gx : List F32.W

/-- An input, and what the loss of the output may hand to it, if there is one. -/
abbrev In := List F32.W × Option (List F32.W → List F32.W → Prop)

/-- The contribution of the loss. -/
def Own (G : Option (List F32.W → List F32.W → Prop)) (y : List F32.W) (c : Option (List F32.W)) : Prop :=
  match G with
  | none => c = none
  | some G => ∃ q, G y q ∧ c = some q

/-- `Forward` from the previous output `prev` on (nn/recurrent/srn/srn.go:44-67), and the backward pass: `Backward` of `Tanh` at `a`
(mat/gradfn/unaryelementwise.go:31-41) and of `Affine` (mat/gradfn/affine.go:83-131).  `z` is what `prev` gets from the later steps.  An output
without a gradient is not visited. -/
def Bptt (M : Machine) (sl : Slopes) (n m : Nat) (g : Gate) : Option (List F32.W) → List In → Option (List F32.W) → List Con → Prop
  | _, [], z, cs => z = none ∧ cs = []
  | prev, e :: es, z, cs => ∃ a h qs c gy, Pre M.cpu n m g e.1 prev a ∧ Bptt M sl n m g (some (a.map M.lib.tanh)) es h qs ∧
      Own e.2 (a.map M.lib.tanh) c ∧ Gather M.cpu (c.toList ++ h.toList) gy ∧
      match gy with
      | none => z = none ∧ cs = qs
      | some gy => ∃ δ gw gx, Prod (a.map sl.tanh) gy δ ∧ δ.length = g.b.length ∧ Outer M.cpu δ e.1 gw ∧ MulT n m g.w δ gx ∧
          match prev with
          | none => z = none ∧ cs = ⟨gw, δ, none, gx⟩ :: qs
          | some y => ∃ gu zz, Outer M.cpu δ y gu ∧ MulT n n g.wRec δ zz ∧ z = some zz ∧ cs = ⟨gw, δ, some gu, gx⟩ :: qs

end Verif.Srn32
