/-
Recurrent networks of float32 on amd64 (nn/recurrent/srn, gru, lstm), from the bits of the inputs to the bits of the outputs, with
the operations of `Model/Net32.lean` and `Model/Sigmoid32.lean`.  An operation is a relation between the data of its operands and
that of its result.
-/
import Verif.Model.Acts32
set_option autoImplicit false

namespace Verif.Rec32
open Verif.F32 Verif.Asm Verif.Spec.Kernels Verif.Net32

/-- The parameters of one gate: a matrix for the input, one for the previous output, and a bias. -/
structure Gate where
  w : List F32.W
  wRec : List F32.W
  b : List F32.W

/-- `ag.Affine(b, w, x, wRec, yPrev)` (mat/gradfn/affine.go:41-61, 70-79) for `n` outputs and `m` inputs: a nil `yPrev` is left
out, otherwise `y.AddInPlace(wRec.Mul(yPrev))` follows. -/
def Pre (cpu : Cpu) (n m : Nat) (g : Gate) (x : List F32.W) : Option (List F32.W) → List F32.W → Prop
  | none, z => Affine cpu n m g.w g.b x z
  | some y, z => ∃ a v, Affine cpu n m g.w g.b x a ∧ y.length = n ∧ MulVec cpu n g.wRec y 0 n v ∧ AddIn cpu a v z

/-- `Prod` (mat/dense.go:549-571): a loop over the elements; the shapes must agree. -/
def Prod (a b z : List F32.W) : Prop := a.length = b.length ∧ z = List.zipWith mulIeee a b

/-- `Add` (mat/dense.go:413-429): `Add32` into a new slice. -/
def AddNew (cpu : Cpu) (a b z : List F32.W) : Prop :=
  a.length = b.length ∧ ∃ (p q r : Nat) (s t : St F32.W), q % 4 = 0 ∧ Apart 4 a.length p r ∧ Apart 4 a.length q r ∧
    elems 4 s.mem p a.length = a ∧ elems 4 s.mem q a.length = b ∧
    Call (frame3 4 (F32.alu divIeee) ⟨p, a.length⟩ ⟨q, a.length⟩ ⟨r, a.length⟩) (addFn cpu .f32) s t ∧
    elems 4 t.mem r a.length = z

/-- `ReverseSub(x, one)` (mat/gradfn/reversesubscalar.go:33-37): `ProdScalar(-1)` is `MulConst32` into a new slice, and
`AddScalarInPlace(1)` is `AddConst32` (mat/dense.go:467-479). -/
def RevSub (cpu : Cpu) (x z : List F32.W) : Prop :=
  ∃ (p q : Nat) (s s₁ t : St F32.W), Apart 4 x.length p q ∧ elems 4 s.mem p x.length = x ∧
    Call (frameC 4 (F32.alu divIeee) 0xbf800000 ⟨p, x.length⟩ ⟨q, x.length⟩) (mulConstFn cpu .f32) s s₁ ∧
    Call (frameC 4 (F32.alu divIeee) 0x3f800000 ⟨q, x.length⟩ ⟨q, x.length⟩) (addConstFn cpu .f32) s₁ t ∧
    elems 4 t.mem q x.length = z

/-- What a network takes from its surroundings: the processor, what is left in the vector registers, and the library. -/
structure Machine where
  cpu : Cpu
  lane : ExpLog.Lane
  lib : Lib

/-- `ag.Sigmoid` of an affine function. -/
def SigGate (M : Machine) (n m : Nat) (g : Gate) (x : List F32.W) (prev : Option (List F32.W)) (z : List F32.W) : Prop :=
  ∃ a, Pre M.cpu n m g x prev a ∧ Sigmoid32.Runs M.cpu M.lane M.lib.exp a z

/-- `ag.Tanh` of an affine function. -/
def TanhGate (M : Machine) (n m : Nat) (g : Gate) (x : List F32.W) (prev : Option (List F32.W)) (z : List F32.W) : Prop :=
  ∃ a, Pre M.cpu n m g x prev a ∧ z = a.map M.lib.tanh

/-- `srn.Model.Next` (nn/recurrent/srn/srn.go:57-67); the state is the output. -/
def srnNext (M : Machine) (n m : Nat) (g : Gate) (prev : Option (List F32.W)) (x y : List F32.W) : Prop :=
  TanhGate M n m g x prev y

/-- The parameters of a GRU (nn/recurrent/gru/gru.go:19-30). -/
structure Gru where
  res : Gate
  part : Gate
  cand : Gate

/-- `gru.Model.Next` (nn/recurrent/gru/gru.go:77-95) with `tryProd` (97-103); the state is the output. -/
def gruNext (M : Machine) (n m : Nat) (g : Gru) (prev : Option (List F32.W)) (x y : List F32.W) : Prop :=
  ∃ r p c h, SigGate M n m g.res x prev r ∧ SigGate M n m g.part x prev p ∧
    (match prev with
      | none => TanhGate M n m g.cand x none c
      | some yp => ∃ yr, Prod yp r yr ∧ TanhGate M n m g.cand x (some yr) c) ∧
    Prod p c h ∧
    (match prev with
      | none => y = h
      | some yp => ∃ q k, RevSub M.cpu p q ∧ Prod q yp k ∧ AddNew M.cpu h k y)

/-- The parameters of an LSTM (nn/recurrent/lstm/lstm.go:21-44). -/
structure Lstm where
  inp : Gate
  out : Gate
  forget : Gate
  cand : Gate

/-- The state of an LSTM, as far as the next step needs it: `Cell` and `Y`. -/
structure Cell where
  cell : List F32.W
  y : List F32.W

/-- `lstm.Model.Next` (nn/recurrent/lstm/lstm.go:130-158) without refined gates. -/
def lstmNext (M : Machine) (n m : Nat) (g : Lstm) (prev : Option Cell) (x : List F32.W) (s : Cell) : Prop :=
  ∃ i o f c a, SigGate M n m g.inp x (prev.map Cell.y) i ∧ SigGate M n m g.out x (prev.map Cell.y) o ∧
    SigGate M n m g.forget x (prev.map Cell.y) f ∧ TanhGate M n m g.cand x (prev.map Cell.y) c ∧ Prod i c a ∧
    (match prev with
      | none => s.cell = a
      | some sp => ∃ k, Prod f sp.cell k ∧ AddNew M.cpu a k s.cell) ∧
    Prod o (s.cell.map M.lib.tanh) s.y

/-- `Forward` (srn.go:44-52, gru.go:61-69, lstm.go:111-119): the states after every input. -/
def Forward {S : Type} (next : Option S → List F32.W → S → Prop) : Option S → List (List F32.W) → List S → Prop
  | _, [], out => out = []
  | prev, x :: xs, out => ∃ s ss, next prev x s ∧ Forward next (some s) xs ss ∧ out = s :: ss

end Verif.Rec32
