/-
The optimizer `Adam`, and `AdamW`, of float32 on amd64 (optimizers/adam/adam.go:90-185), from the bits of parameter, gradient and
moments to the bits of the next parameter and moments, with the operations of `Model/Net32.lean`, `Model/Rec32.lean` and
`Model/Att32.lean`.  An operation is a relation between the data of its operands and that of its result.

The settings are float64 and become float32 at each use (`float32(n)` in mat/dense.go:470, 595, 610, 629); the model takes the
words that result.  The buffers of the state are written in full before they are read, so they are left out.
-/
import Verif.Model.Att32
import Mathlib.Data.Nat.Sqrt
set_option autoImplicit false

namespace Verif.F32

/-- `Sqrt[float32]` (mat/mathfunctions.go:66-69), the rounded square root: `float32(math.Sqrt(float64(x)))`, for which two roundings
are as good as one.  30 bits or more of the root of the significand, and a bit that says whether anything is left. -/
def sqrtIeee (x : W) : W :=
  if isNaN x then qNaN
  else
    let (s, m, e) := unpack x
    if m = 0 then x
    else if s then qNaN
    else if isInf x then posInf
    else
      let k : Nat := if e % 2 = 0 then 60 else 61
      let r := Nat.sqrt (m * 2 ^ k)
      round false (2 * r + if r * r = m * 2 ^ k then 0 else 1) ((e - k) / 2 - 1)

end Verif.F32

namespace Verif.Adam32
open Verif.F32 Verif.Asm Verif.Spec.Kernels Verif.Net32 Verif.Rec32 Verif.Att32

/-- `ProdScalarInPlace(c)` (mat/dense.go:606-618): `MulConst32` with source and destination the same slice. -/
def ScaleIn (cpu : Cpu) (c : F32.W) (x z : List F32.W) : Prop :=
  ∃ (p : Nat) (s t : St F32.W), elems 4 s.mem p x.length = x ∧
    Call (frameC 4 (F32.alu divIeee) c ⟨p, x.length⟩ ⟨p, x.length⟩) (mulConstFn cpu .f32) s t ∧ elems 4 t.mem p x.length = z

/-- `AddScalarInPlace(c)` (mat/dense.go:467-479): `AddConst32` with source and destination the same slice. -/
def AddConstIn (cpu : Cpu) (c : F32.W) (x z : List F32.W) : Prop :=
  ∃ (p : Nat) (s t : St F32.W), elems 4 s.mem p x.length = x ∧
    Call (frameC 4 (F32.alu divIeee) c ⟨p, x.length⟩ ⟨p, x.length⟩) (addConstFn cpu .f32) s t ∧ elems 4 t.mem p x.length = z

/-- `y.SubInPlace(b)` (mat/dense.go:501-516) may leave `z` in `y`; the shapes must agree. -/
def SubIn (cpu : Cpu) (y b z : List F32.W) : Prop :=
  y.length = b.length ∧ ∃ (p q : Nat) (s t : St F32.W), q % 4 = 0 ∧ Apart 4 y.length q p ∧
    elems 4 s.mem p y.length = y ∧ elems 4 s.mem q y.length = b ∧
    Call (frame3 4 (F32.alu divIeee) ⟨p, y.length⟩ ⟨q, y.length⟩ ⟨p, y.length⟩) (subFn cpu .f32) s t ∧
    elems 4 t.mem p y.length = z

/-- `Div` (mat/dense.go:640-656): `Div32` into a new slice; the shapes must agree. -/
def DivNew (cpu : Cpu) (a b z : List F32.W) : Prop :=
  a.length = b.length ∧ ∃ (p q r : Nat) (s t : St F32.W), q % 4 = 0 ∧ Apart 4 a.length p r ∧ Apart 4 a.length q r ∧
    elems 4 s.mem p a.length = a ∧ elems 4 s.mem q a.length = b ∧
    Call (frame3 4 (F32.alu divIeee) ⟨p, a.length⟩ ⟨q, a.length⟩ ⟨r, a.length⟩) (divFn cpu .f32) s t ∧
    elems 4 t.mem r a.length = z

/-- The settings (adam.go:17-23) as float32: `Beta1`, `1.0-beta1`, `Beta2`, `1.0-beta2`, `Epsilon`, and `Lambda` unless it is zero
(`adamw`, adam.go:84). -/
structure Settings where
  b1 : F32.W
  b1c : F32.W
  b2 : F32.W
  b2c : F32.W
  eps : F32.W
  decay : Option F32.W

/-- The moments (adam.go:90-96). -/
structure State where
  v : List F32.W
  m : List F32.W

/-- `newStateFor` (adam.go:102-111). -/
def newState (n : Nat) : State := ⟨List.replicate n 0, List.replicate n 0⟩

/-- `updateV` (adam.go:150-155). -/
def UpdateV (cpu : Cpu) (o : Settings) (g v v' : List F32.W) : Prop :=
  ∃ a b, ScaleIn cpu o.b1 v a ∧ v.length = g.length ∧ Scale cpu o.b1c g b ∧ AddIn cpu a b v'

/-- `updateM` (adam.go:157-163). -/
def UpdateM (cpu : Cpu) (o : Settings) (g m m' : List F32.W) : Prop :=
  ∃ a sq b, ScaleIn cpu o.b2 m a ∧ Prod g g sq ∧ m.length = sq.length ∧ Scale cpu o.b2c sq b ∧ AddIn cpu a b m'

/-- `suppDiv` (adam.go:130-131), to which AdamW adds `weights.ProdScalar(o.Lambda)` (adam.go:144-145). -/
def Direction (cpu : Cpu) (o : Settings) (w v m z : List F32.W) : Prop :=
  ∃ den q, AddConstIn cpu o.eps (m.map sqrtIeee) den ∧ DivNew cpu v den q ∧
    (match o.decay with
      | none => z = q
      | some l => ∃ y, Scale cpu l w y ∧ AddIn cpu q y z)

/-- `OptimizeParams` (adam.go:165-185) with the current `Alpha` and a state, for a parameter `w` and its gradient `g`; the shape of
`Buf3` is that of the moments. -/
def Step (cpu : Cpu) (o : Settings) (alpha : F32.W) (w g : List F32.W) (s : State) (w' : List F32.W) (s' : State) : Prop :=
  UpdateV cpu o g s.v s'.v ∧ UpdateM cpu o g s.m s'.m ∧
    ∃ z d, Direction cpu o w s'.v s'.m z ∧ Scale cpu alpha z d ∧ SubIn cpu w d w'

/-- Steps with their `Alpha` and gradient, one after the other. -/
def Steps (cpu : Cpu) (o : Settings) : List (F32.W × List F32.W) → List F32.W → State → List F32.W → State → Prop
  | [], w, s, w', s' => w' = w ∧ s' = s
  | (alpha, g) :: l, w, s, w', s' => ∃ w₁ s₁, Step cpu o alpha w g s w₁ s₁ ∧ Steps cpu o l w₁ s₁ w' s'

/-- A parameter without a state gets one (adam.go:166-168), and the steps follow. -/
def Train (cpu : Cpu) (o : Settings) (l : List (F32.W × List F32.W)) (w w' : List F32.W) (s' : State) : Prop :=
  Steps cpu o l w (newState w.length) w' s'

end Verif.Adam32
