/-
Back-propagation through time of an LSTM of float32 on amd64 (nn/recurrent/lstm/lstm.go), from the bits of the inputs and the parameters to the
bits of the gradients.  The forward step is that of `Model/Rec32.lean`, the operations of the backward step are those of `Model/Back32.lean`,
and the contributions to a gradient arrive in any order (`Gather` of `Model/Srn32.lean`).  Refined gates (lstm.go:143-146) are left out.
-/
import Verif.Model.Srn32
set_option autoImplicit false

namespace Verif.Lstm32
open Verif.F32 Verif.Asm Verif.Spec.Kernels Verif.Net32 Verif.Rec32 Verif.Att32 Verif.Back32 Verif.Srn32

/-- The gates (nn/recurrent/lstm/lstm.go:21-44); the candidate is one of them here. -/
inductive Gt where
  | inp | out | forget | cand
deriving DecidableEq, Repr

/-- The gates in the order of `Next` (lstm.go:138-141). -/
def Gt.all : List Gt := [.inp, .out, .forget, .cand]

/-- The parameters of a gate. -/
def gateOf (g : Lstm) : Gt → Gate
  | .inp => g.inp
  | .out => g.out
  | .forget => g.forget
  | .cand => g.cand

/-- The activation of a gate (lstm.go:138-141). -/
def actOf : Gt → Act
  | .cand => .tanh
  | _ => .sigmoid

/-- `Next` (lstm.go:130-158), with the sums `a` and the values `v` of the gates. -/
def Step (M : Machine) (n m : Nat) (g : Lstm) (prev : Option Cell) (x : List F32.W) (a v : Gt → List F32.W) (s : Cell) : Prop :=
  (∀ q, Pre M.cpu n m (gateOf g q) x (prev.map Cell.y) (a q)) ∧ (∀ q, acts M.cpu M.lane M.lib (actOf q) (a q) (v q)) ∧
  ∃ p, Prod (v .inp) (v .cand) p ∧
    (match prev with
      | none => s.cell = p
      | some sp => ∃ k, Prod (v .forget) sp.cell k ∧ AddNew M.cpu p k s.cell) ∧
    Prod (v .out) (s.cell.map M.lib.tanh) s.y

/-- `Backward` of the activation of a gate (mat/gradfn/unaryelementwise.go:31-41) and of its `Affine` (mat/gradfn/affine.go:83-131), for the
gradient `gv` of its value: the contributions, and what the previous output gets. -/
def GateBack (M : Machine) (sl : Slopes) (n m : Nat) (g : Gate) (act : Act) (a gv x : List F32.W) (prev : Option (List F32.W)) (c : Con)
    (z : Option (List F32.W)) : Prop :=
  ∃ s, slopes M.cpu M.lane M.lib sl act a s ∧ Prod s gv c.gb ∧ c.gb.length = g.b.length ∧ Outer M.cpu c.gb x c.gw ∧ MulT n m g.w c.gb c.gx ∧
    match prev with
    | none => c.gu = none ∧ z = none
    | some y => ∃ gu zz, Outer M.cpu c.gb y gu ∧ MulT n n g.wRec c.gb zz ∧ c.gu = some gu ∧ z = some zz

/-- The gradients in front of the activations' outputs: `Backward` of `Prod` (mat/gradfn/prod.go:38-53), of `Tanh` and of `Add`
(mat/gradfn/add.go:41-57), from the gradient `gy` of the output and what the next cell hands on, `hc`.  `gc` is the gradient of the cell. -/
def CellBack (M : Machine) (sl : Slopes) (prev : Option Cell) (v : Gt → List F32.W) (s : Cell) (gy : List F32.W) (hc : Option (List F32.W))
    (gc : List F32.W) (d : Gt → List F32.W) (zc : Option (List F32.W)) : Prop :=
  ∃ gt gct, Prod (s.cell.map M.lib.tanh) gy (d .out) ∧ Prod (v .out) gy gt ∧ Prod (s.cell.map sl.tanh) gt gct ∧
    Gather M.cpu (gct :: hc.toList) (some gc) ∧ Prod (v .cand) gc (d .inp) ∧ Prod (v .inp) gc (d .cand) ∧
    match prev with
    | none => zc = none
    | some sp => Prod sp.cell gc (d .forget) ∧ ∃ w, Prod (v .forget) gc w ∧ zc = some w

/-- `Forward` from the previous state `prev` on (lstm.go:111-119), and the backward pass.  `zy` is what the output of `prev` gets from the gates
of the next step, `zc` what its cell gets.  Without a previous cell the forget gate has no part in the output, and gets no gradient.
An output without a gradient is not visited. -/
def Bptt (M : Machine) (sl : Slopes) (n m : Nat) (g : Lstm) : Option Cell → List In → List (List F32.W) → Option (List F32.W) →
    List (Gt → Option Con) → Prop
  | _, [], zy, zc, cs => zy = [] ∧ zc = none ∧ cs = []
  | prev, e :: es, zy, zc, cs => ∃ a v s hy hc qs c gy, Step M n m g prev e.1 a v s ∧ Bptt M sl n m g (some s) es hy hc qs ∧
      Own e.2 s.y c ∧ Gather M.cpu (c.toList ++ hy) gy ∧
      match gy with
      | none => zy = [] ∧ zc = none ∧ cs = qs
      | some gy => ∃ gc d k z, CellBack M sl prev v s gy hc gc d zc ∧
          (∀ q, if prev.isNone ∧ q = .forget then k q = none ∧ z q = none
            else ∃ c, k q = some c ∧ GateBack M sl n m (gateOf g q) (actOf q) (a q) (d q) e.1 (prev.map Cell.y) c (z q)) ∧
          zy = Gt.all.filterMap z ∧ cs = k :: qs

end Verif.Lstm32
