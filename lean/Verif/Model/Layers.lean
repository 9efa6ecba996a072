import Verif.Model.DerivedOps
import Verif.Model.Norm
import Verif.Model.Conv

set_option autoImplicit false

/-!
# Feed-forward layers: activation, highway, sqrdist, mlpmixer, sgu, gmlp

Values; a panic or a call of `log.Fatal` is `none`.
-/

namespace Verif.Layers
open GradFn Dense Losses DerivedOps
noncomputable section

/-! ### nn/activation -/

/-- `Activation` (nn/activation/types.go:15-43). Other integers are `other`. -/
inductive Act
  | identity | tan | tanh | sigmoid | hardSigmoid | hardTanh | softsign | relu | celu | gelu | elu | positiveELU
  | swishB | swish | silu | mish | leakyReLU | selu | softPlus | softShrink | threshold | softmax | logSoftmax
  | sparseMax | other
  deriving DecidableEq

/-- The constants in the order of the declaration (types.go:18-42). -/
def Act.all : List Act :=
  [.identity, .tan, .tanh, .sigmoid, .hardSigmoid, .hardTanh, .softsign, .relu, .celu, .gelu, .elu, .positiveELU,
   .swishB, .swish, .silu, .mish, .leakyReLU, .selu, .softPlus, .softShrink, .threshold, .softmax, .logSoftmax,
   .sparseMax]

/-- The entries of `activationsMap` (types.go:45-70). -/
def nameTable : List (Act × String) :=
  [(.identity, "Identity"), (.tan, "Tan"), (.tanh, "Tanh"), (.sigmoid, "Sigmoid"), (.hardSigmoid, "HardSigmoid"),
   (.hardTanh, "HardTanh"), (.softsign, "Softsign"), (.relu, "ReLU"), (.celu, "CELU"), (.gelu, "GELU"),
   (.elu, "ELU"), (.positiveELU, "PositiveELU"), (.swishB, "SwishB"), (.swish, "Swish"), (.silu, "SiLU"),
   (.mish, "Mish"), (.leakyReLU, "LeakyReLU"), (.selu, "SELU"), (.softPlus, "SoftPlus"), (.softShrink, "SoftShrink"),
   (.threshold, "Threshold"), (.softmax, "Softmax"), (.logSoftmax, "LogSoftmax"), (.sparseMax, "SparseMax")]

/-- The same with the names as lists of characters. -/
def names : List (Act × List Char) := nameTable.map fun e => (e.1, e.2.toList)

/-- `strings.ToLower` of ASCII letters. -/
def lower (s : List Char) : List Char := s.map Char.toLower

/-- Assignment to a Go map, a list of entries. -/
def assign {K V : Type} [DecidableEq K] (m : List (K × V)) (k : K) (v : V) : List (K × V) :=
  (k, v) :: m.filter fun e => e.1 ≠ k

/-- Reading a Go map. -/
def lookup {K V : Type} [DecidableEq K] (m : List (K × V)) (k : K) : Option V := (m.find? fun e => e.1 = k).map (·.2)

/-- `strToActivationMap` (types.go:94-101); `order` lists the entries of `activationsMap` in the order in which the
range loop visits them, which Go leaves open. -/
def strMap (order : List (Act × List Char)) : List (List Char × Act) :=
  order.foldl (fun m e => assign (assign m e.2 e.1) (lower e.2) e.1) []

/-- `ParseActivation` (types.go:105-110); `none` is the error. -/
def parse (order : List (Act × List Char)) (s : List Char) : Option Act := lookup (strMap order) s

/-- `activationFunctions` and `activationFunc` (types.go:72-89, activation.go:48-73): the function called for every
input; `none` is the error that makes `Forward` call `log.Fatal`. The parameters are read when the function is
called. -/
def Act.fn (ps : List (Dense ℝ)) : Act → Option (Dense ℝ → Option (Dense ℝ))
  | .identity => some fun x => some x
  | .tan => some fun x => GradFn.tan.forward [x]
  | .tanh => some fun x => GradFn.tanh.forward [x]
  | .sigmoid => some fun x => GradFn.sigmoid.forward [x]
  | .hardSigmoid => some fun x => GradFn.hardSigmoid.forward [x]
  | .hardTanh => some fun x => GradFn.hardTanh.forward [x]
  | .softsign => some fun x => GradFn.softsign.forward [x]
  | .relu => some fun x => GradFn.relu.forward [x]
  | .gelu => some fun x => GradFn.gelu.forward [x]
  | .positiveELU => some fun x => DerivedOps.positiveELU x
  | .swish => some fun x => GradFn.swish.forward [x]
  | .silu => some fun x => GradFn.swish.forward [x]
  | .mish => some fun x => GradFn.mish.forward [x]
  | .softmax => some fun x => softmaxR.forward [x]
  | .logSoftmax => some fun x => do
    let y ← softmaxR.forward [x]
    logR.forward [y]
  | .sparseMax => some fun x => GradFn.sparseMax.forward [x]
  | .celu => some fun x => do
    let a ← ps[0]?
    GradFn.celu.forward [x, a]
  | .elu => some fun x => do
    let a ← ps[0]?
    GradFn.elu.forward [x, a]
  | .swishB => some fun x => do
    let a ← ps[0]?
    swishBR.forward [x, a]
  | .leakyReLU => some fun x => do
    let a ← ps[0]?
    leakyRelu.forward [x, a]
  | .selu => some fun x => do
    let a ← ps[0]?
    let b ← ps[1]?
    GradFn.selu.forward [x, a, b]
  | .softPlus => some fun x => do
    let a ← ps[0]?
    let b ← ps[1]?
    GradFn.softPlus.forward [x, a, b]
  | .softShrink => some fun x => do
    let a ← ps[0]?
    GradFn.softShrink.forward [x, a]
  | .threshold => some fun x => do
    let a ← ps[0]?
    let b ← ps[1]?
    GradFn.threshold.forward [x, a, b]
  | .other => none

/-- `activation.Model.Forward` (activation.go:36-46). -/
def Act.forward (a : Act) (ps xs : List (Dense ℝ)) : Option (List (Dense ℝ)) := do
  let f ← a.fn ps
  xs.mapM f

/-! ### nn/highway, nn/sqrdist -/

/-- `highway.Model` (nn/highway/highway.go:19-26). -/
structure Highway where
  wIn : Dense ℝ
  bIn : Dense ℝ
  wT : Dense ℝ
  bT : Dense ℝ
  act : Act

/-- `highway.Model.forward` (highway.go:56-61). -/
def Highway.step (m : Highway) (x : Dense ℝ) : Option (Dense ℝ) := do
  let a ← affine.forward [m.bT, m.wT, x]
  let t ← GradFn.sigmoid.forward [a]
  let c ← affine.forward [m.bIn, m.wIn, x]
  let hs ← m.act.forward [] [c]
  let h ← hs[0]?
  let p ← prod.forward [t, h]
  let r ← reverseSubScalar.forward [t, scalar 1]
  let q ← prod.forward [r, x]
  GradFn.add.forward [p, q]

/-- `highway.Model.Forward` (highway.go:45-51). -/
def Highway.forward (m : Highway) (xs : List (Dense ℝ)) : Option (List (Dense ℝ)) := xs.mapM m.step

/-- `sqrdist.Model.Forward` (nn/sqrdist/sqrdist.go:36-47). -/
def sqrDist (b : Dense ℝ) (xs : List (Dense ℝ)) : Option (List (Dense ℝ)) := xs.mapM fun x => do
  let bh ← GradFn.mul.forward [b, x]
  let t ← transpose.forward [bh]
  GradFn.mul.forward [t, bh]

/-! ### nn/linear, layernorm, nn/mlpmixer -/

/-- `linear.Model.Forward` (nn/linear/linear.go:44-50). -/
def linears (w b : Dense ℝ) (xs : List (Dense ℝ)) : Option (List (Dense ℝ)) := xs.mapM fun x => affine.forward [b, w, x]

/-- `layernorm.Model` (nn/normalization/layernorm/layernorm.go:23-28). -/
structure LN where
  w : Dense ℝ
  b : Dense ℝ
  eps : ℝ

/-- `layernorm.Model.Forward` (layernorm.go:45-57). -/
def LN.forward (m : LN) (xs : List (Dense ℝ)) : Option (List (Dense ℝ)) := xs.mapM (Norm.layerNorm m.w m.b m.eps)

/-- `mlpmixer.FeedForward` (nn/mlpmixer/feedforward.go:16-31): linear, activation, linear. -/
structure FF where
  w1 : Dense ℝ
  b1 : Dense ℝ
  act : Act
  w2 : Dense ℝ
  b2 : Dense ℝ

/-- `FeedForward.Forward` (feedforward.go:33-35) with `ModuleList.Forward` (nn/model.go:112-117). -/
def FF.forward (m : FF) (xs : List (Dense ℝ)) : Option (List (Dense ℝ)) := do
  let a ← linears m.w1 m.b1 xs
  let h ← m.act.forward [] a
  linears m.w2 m.b2 h

/-- `mlpmixer.MixerBlock` (mixerblock.go:22-30). -/
structure Mixer where
  channels : Int
  tokenNorm : LN
  tokenFF : FF
  channelNorm : LN
  channelFF : FF

/-- `tokenMix` (mixerblock.go:70-75). -/
def Mixer.tokenMix (m : Mixer) (xs : List (Dense ℝ)) : Option (List (Dense ℝ)) := do
  let ns ← m.tokenNorm.forward xs
  let s ← GradFn.stack.forward ns
  let cs ← colViews s
  let ys ← m.tokenFF.forward cs
  let s' ← GradFn.stack.forward ys
  let t ← transpose.forward [s']
  let rs ← rowViews t
  rs.mapM fun r => transpose.forward [r]

/-- `channelMix` (mixerblock.go:77-80). -/
def Mixer.channelMix (m : Mixer) (xs : List (Dense ℝ)) : Option (List (Dense ℝ)) := do
  let ns ← m.channelNorm.forward xs
  m.channelFF.forward ns

/-- `residual` (mixerblock.go:82-84). -/
def residual (xs res : List (Dense ℝ)) : Option (List (Dense ℝ)) := map2 (fun a b => GradFn.add.forward [a, b]) xs res

/-- `MixerBlock.Forward` (mixerblock.go:59-68). -/
def Mixer.forward (m : Mixer) (xs : List (Dense ℝ)) : Option (List (Dense ℝ)) :=
  if (xs.length : Int) > m.channels then none
  else do
    let t ← m.tokenMix xs
    let us ← residual t xs
    let c ← m.channelMix us
    residual c us

/-! ### nn/sgu, nn/gmlp -/

/-- `sgu.Model` (nn/sgu/model.go:24-30); `act` is nil for the identity. -/
structure SGU where
  dimSeq : Nat
  norm : LN
  projW : Dense ℝ
  projB : Dense ℝ
  act : Option Act

/-- `m.Act.Forward` unless `m.Act` is nil (sgu/model.go:90-92). -/
def optAct (a : Option Act) (xs : List (Dense ℝ)) : Option (List (Dense ℝ)) :=
  match a with
  | some a => a.forward [] xs
  | none => some xs

/-- `sgu.Model.Forward` (sgu/model.go:76-99). -/
def SGU.forward (m : SGU) (xs : List (Dense ℝ)) : Option (List (Dense ℝ)) :=
  match xs with
  | [] => none
  | x0 :: _ => do
    let size := x0.data.length
    let half := size / 2
    let res ← xs.mapM fun x => (slice 0 0 (half : Nat) 1).forward [x]
    let gate ← xs.mapM fun x => (slice (half : Nat) 0 (size : Nat) 1).forward [x]
    let gate ← m.norm.forward gate
    let gate ← Conv.conv1x1 m.projW m.projB m.dimSeq gate
    let gate ← optAct m.act gate
    (List.range gate.length).mapM fun (i : Nat) => do
      let g ← gate[i]?
      let r ← res[i]?
      prod.forward [g, r]

/-- A layer of the gMLP: `Residual`, `PreNorm` and `Block` (nn/gmlp/residual.go:17-20, prenorm.go:18-22,
block.go:21-24, 39-53). -/
structure GLayer where
  norm : LN
  w1 : Dense ℝ
  b1 : Dense ℝ
  sgu : SGU
  w2 : Dense ℝ
  b2 : Dense ℝ

/-- `Block.Forward` (block.go:55-57). -/
def GLayer.block (m : GLayer) (xs : List (Dense ℝ)) : Option (List (Dense ℝ)) := do
  let a ← linears m.w1 m.b1 xs
  let h ← Act.gelu.forward [] a
  let s ← m.sgu.forward h
  linears m.w2 m.b2 s

/-- `Residual.Forward` over `PreNorm.Forward` (residual.go:35-42, prenorm.go:38-41). -/
def GLayer.forward (m : GLayer) (xs : List (Dense ℝ)) : Option (List (Dense ℝ)) := do
  let ns ← m.norm.forward xs
  let pns ← m.block ns
  (List.range pns.length).mapM fun (i : Nat) => do
    let pn ← pns[i]?
    let x ← xs[i]?
    GradFn.add.forward [pn, x]

/-- `gmlp.Model` (nn/gmlp/model.go:21-25). -/
structure GMLP where
  dim : Nat
  seqLen : Int
  layers : List GLayer

/-- `gmlp.Model.Forward` (model.go:65-76); the nil returned for no input is the empty list. -/
def GMLP.forward (m : GMLP) (xs : List (Dense ℝ)) : Option (List (Dense ℝ)) :=
  if (xs.length : Int) > m.seqLen then none
  else if xs.length = 0 then some []
  else do
    let padded ← pad xs m.seqLen fun _ => some (zeros m.dim 1)
    m.layers.foldlM (fun ys l => l.forward ys) padded

end
end Verif.Layers
