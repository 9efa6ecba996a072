/-
One step of training of a simple recurrent network of float32: the passes of all sequences of a mini-batch (`Model/Srn32.lean`), whose
contributions are accumulated on the shared parameters in any order, and then `Optimize` with plain SGD (`Model/Train32.lean`;
optimizers/optimizer.go:60-63, optimizers/sgd/sgd.go:111-126).  Every parameter is updated on its own.
-/
import Verif.Model.Srn32
set_option autoImplicit false

namespace Verif.Srn32
open Verif.F32 Verif.Asm Verif.Rec32 Verif.Back32

/-- The passes of all sequences: the contributions of each. -/
def PassesS (M : Machine) (sl : Slopes) (n m : Nat) (g : Gate) (seqs : List (List In)) (css : List (List Con)) : Prop :=
  List.Forall₂ (fun s cs => ∃ z, Bptt M sl n m g none s z cs) seqs css

/-- One step of training. -/
def TrainStep (M : Machine) (sl : Slopes) (lr : F32.W) (n m : Nat) (seqs : List (List In)) (g g' : Gate) : Prop :=
  ∃ css, PassesS M sl n m g seqs css ∧ Train32.Learn M.cpu lr g.w (css.flatten.map (·.gw)) g'.w ∧
    Train32.Learn M.cpu lr g.wRec (css.flatten.filterMap (·.gu)) g'.wRec ∧ Train32.Learn M.cpu lr g.b (css.flatten.map (·.gb)) g'.b

end Verif.Srn32
