import Verif.Model.Crf
import Verif.Model.Softmax32

set_option autoImplicit false

/-!
# The CRF loss on float32 (nn/crf/crf.go)

The functions of `Model/Crf.lean` on words of 32 bits. All scores are tensors of one element, so `ag.Exp` and `ag.Log` go
through the scalar loop of `Exp32` and `Log32` (`math.Exp` and `math.Log` with conversions, parameters here), and the only
vector is the argument of the last `ag.ReduceSum`.
-/

namespace Verif.Crf32
open Verif.F32 Verif.Asm Verif.Spec.Kernels

/-- A float32. (A type of its own: words have the addition of integers.) -/
structure F where
  w : F32.W
deriving DecidableEq

instance : Add F := ⟨fun a b => ⟨addIeee a.w b.w⟩⟩
instance : Sub F := ⟨fun a b => ⟨addIeee a.w (flip b.w)⟩⟩
instance : Zero F := ⟨⟨0⟩⟩

/-- A function of float32 numbers. -/
def lift (f : F32.W → F32.W) (a : F) : F := ⟨f a.w⟩

/-- The vector `totalVector` before the last line of `totalScore` (nn/crf/crf.go:63-67). -/
def forward {R : Type} [Add R] (exp log : R → R) (size : Nat) (tr : Dense R) (xs : List (Dense R)) : Option (List R) :=
  match xs with
  | [] => none
  | x :: xs => do
    let tot ← Crf.totalScoreStart size tr x
    let tot ← Crf.totalLoop exp log size tr xs tot
    Crf.totalScoreEnd exp size tr tot

/-- `NegativeLogLoss` (nn/crf/crf.go:43-47): `ag.Concat` has put the numbers of `totalVector` into the slice `v`
(line 68), `Sum32` adds them. -/
def Runs (cpu : Cpu) (exp log : F32.W → F32.W) (size : Nat) (tr : Dense F) (xs : List (Dense F)) (target : List Nat)
    (v : Asm.Sl) (s t : St F32.W) (loss : F) : Prop :=
  ∃ gold ends w,
    Crf.goldScore tr xs target = some gold ∧
    forward (lift exp) (lift log) size tr xs = some ends ∧
    elems 4 s.mem v.base v.len = ends.map F.w ∧
    Call (frame1 4 (F32.alu divIeee) v) (sumFn cpu .f32) s t ∧
    t.out = some w ∧
    loss = ⟨log w⟩ - gold

end Verif.Crf32
