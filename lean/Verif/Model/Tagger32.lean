/-
A tagger of float32: an LSTM (`Model/Lstm32.lean`; nn/recurrent/lstm/lstm.go:111-119) whose outputs go one by one through a feed-forward
network, the head (`Model/Back32.lean`; nn/linear/linear.go:44-50), and losses of some of the head's outputs.  One step of training: the passes of
all sequences, whose contributions to the gradients of the shared parameters of the LSTM and of the head arrive in any order, and then
`Optimize` with plain SGD (`Model/Train32.lean`; optimizers/optimizer.go:60-63, optimizers/sgd/sgd.go:111-126).
-/
import Verif.Model.LstmTrain32
set_option autoImplicit false

namespace Verif.Tagger32
open Verif.F32 Verif.Asm Verif.Net32 Verif.Rec32 Verif.Att32 Verif.Back32 Verif.Srn32 Verif.Lstm32

variable {α : Type}

/-- What the head's backward pass contributed to the gradients of its parameters, at a step whose output has a loss. -/
abbrev Rec := Option (List Par)

/-- What the head hands to the output of the LSTM: `Backward` from the loss through the layers (ag/backward.go:23-52).  Every output with a loss
has a record, and no other one. -/
def handed (cpu : Cpu) (F D : α → List F32.W → List F32.W → Prop) (ls : List (Layer α)) :
    Option (List F32.W → List F32.W → Prop) → Rec → Option (List F32.W → List F32.W → Prop)
  | none, none => none
  | some G, some ps => some fun y z => Back cpu F D G ls y z ps
  | _, _ => some fun _ _ => False

/-- The passes of one sequence, where the losses are those of the outputs of the head: the contributions `cs` to the gradients of the LSTM, and the
records `rs` of the head. -/
def Pass (M : Machine) (sl : Slopes) (F D : α → List F32.W → List F32.W → Prop) (n m : Nat) (g : Lstm) (ls : List (Layer α)) (s : List In)
    (p : List (Gt → Option Con) × List Rec) : Prop :=
  p.2.length = s.length ∧ ∃ zy zc, Bptt M sl n m g none (List.zipWith (fun e r => (e.1, handed M.cpu F D ls e.2 r)) s p.2) zy zc p.1

/-- One step of training of the LSTM and of the head: a gradient that is nil leaves the parameter as it is. -/
def TrainStep (M : Machine) (sl : Slopes) (F D : α → List F32.W → List F32.W → Prop) (lr : F32.W) (n m : Nat) (seqs : List (List In))
    (g : Lstm) (ls : List (Layer α)) (g' : Lstm) (ls' : List (Layer α)) : Prop :=
  ∃ ps, List.Forall₂ (Pass M sl F D n m g ls) seqs ps ∧
    (∀ q, Train32.Learn M.cpu lr (gateOf g q).w ((ps.map (·.1)).flatten.filterMap fun k => (k q).map (·.gw)) (gateOf g' q).w ∧
      Train32.Learn M.cpu lr (gateOf g q).wRec ((ps.map (·.1)).flatten.filterMap fun k => (k q).bind (·.gu)) (gateOf g' q).wRec ∧
      Train32.Learn M.cpu lr (gateOf g q).b ((ps.map (·.1)).flatten.filterMap fun k => (k q).map (·.gb)) (gateOf g' q).b) ∧
    Train32.LearnFrom M.cpu lr ((ps.map (·.2)).flatten.filterMap id) 0 ls ls'

end Verif.Tagger32
