/-
One step of training of an LSTM of float32: the passes of all sequences of a mini-batch (`Model/Lstm32.lean`), whose contributions are
accumulated on the shared parameters in any order, and then `Optimize` with plain SGD (`Model/Train32.lean`;
optimizers/optimizer.go:60-63, optimizers/sgd/sgd.go:111-126).  Every parameter is updated on its own.
-/
import Verif.Model.Lstm32
set_option autoImplicit false

namespace Verif.Lstm32
open Verif.F32 Verif.Asm Verif.Rec32 Verif.Back32 Verif.Srn32

/-- The passes of all sequences: the contributions of each. -/
def PassesL (M : Machine) (sl : Slopes) (n m : Nat) (g : Lstm) (seqs : List (List In)) (css : List (List (Gt → Option Con))) : Prop :=
  List.Forall₂ (fun s cs => ∃ zy zc, Bptt M sl n m g none s zy zc cs) seqs css

/-- One step of training: a gradient that is nil leaves the parameter as it is. -/
def TrainStep (M : Machine) (sl : Slopes) (lr : F32.W) (n m : Nat) (seqs : List (List In)) (g g' : Lstm) : Prop :=
  ∃ css, PassesL M sl n m g seqs css ∧ ∀ q,
    Train32.Learn M.cpu lr (gateOf g q).w (css.flatten.filterMap fun k => (k q).map (·.gw)) (gateOf g' q).w ∧
    Train32.Learn M.cpu lr (gateOf g q).wRec (css.flatten.filterMap fun k => (k q).bind (·.gu)) (gateOf g' q).wRec ∧
    Train32.Learn M.cpu lr (gateOf g q).b (css.flatten.filterMap fun k => (k q).map (·.gb)) (gateOf g' q).b

end Verif.Lstm32
