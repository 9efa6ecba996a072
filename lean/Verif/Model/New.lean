import Verif.Model.Layers
import Verif.Model.SLSTM
import Verif.Model.MultiHead
import Verif.Model.Recurrent

set_option autoImplicit false

/-!
# Constructors (mat/dense_new.go and the `New` functions of nn)

The functional options, the checks of `NewDense`, and the matrices every `New` of the layers allocates. Sizes are
integers, as in the code; a panic is `none`. `nn.NewParam` clones its value (nn/param.go:15-25) and `nn.Buf` wraps it
(nn/buffer.go:26-30), so both are the value here. The product of two sizes does not overflow.
-/

namespace Verif.New
open Dense
noncomputable section

/-! ### mat -/

/-- `Options` (dense_new.go:14-18); `none` is nil. -/
structure Options where
  requiresGrad : Bool := false
  shape : Option (List Int) := none
  slice : Option (List ℝ) := none

/-- The option functions (dense_new.go:22-38). -/
inductive Opt
  | grad (value : Bool)
  | shape (shape : List Int)
  | backing (data : List ℝ)

/-- Calling an option function. `WithShape` without arguments stores nil; the slice stored by `WithBacking` is an
interface value, never nil (mat/float/floatslice.go:25-27). -/
def Opt.apply (o : Options) : Opt → Options
  | .grad v => { o with requiresGrad := v }
  | .shape s => { o with shape := if s = [] then none else some s }
  | .backing d => { o with slice := some d }

/-- `checkShape` (dense_new.go:115-125). -/
def checkShape (shape : List Int) : Bool :=
  if shape.length < 1 ∨ shape.length > 2 then false else shape.all fun s => ¬ s < 0

/-- `adjustShape` (dense_new.go:127-132). -/
def adjustShape (shape : List Int) : List Int :=
  if shape.length = 1 then [shape.headD 0, 1] else shape

/-- `calculateSize` (dense_new.go:107-113). -/
def calculateSize (shape : List Int) : Int := shape.foldl (fun size dim => size * dim) 1

/-- The dimensions of a stored shape. -/
def dims (shape : List Int) : Nat × Nat := ((shape.getD 0 0).toNat, (shape.getD 1 0).toNat)

/-- `newDenseFromSlice` (dense_new.go:71-91). -/
def fromSlice (o : Options) (slice : List ℝ) : Option (Dense ℝ) :=
  let shape := match o.shape with
    | none => [(slice.length : Int), 1]
    | some s => s
  if checkShape shape = false then none
  else
    let shape := adjustShape shape
    if (slice.length : Int) ≠ calculateSize shape then none
    else some ⟨(dims shape).1, (dims shape).2, slice⟩

/-- `newDenseFromShape` (dense_new.go:93-105). -/
def fromShape (shape : List Int) : Option (Dense ℝ) :=
  if checkShape shape = false then none
  else
    let shape := adjustShape shape
    some ⟨(dims shape).1, (dims shape).2, List.replicate (calculateSize shape).toNat 0⟩

/-- `NewDense` (dense_new.go:40-46, 56-69). -/
def newDense (opts : List Opt) : Option (Dense ℝ) :=
  let o := opts.foldl Opt.apply {}
  match o.slice with
  | some s => fromSlice o s
  | none =>
    match o.shape with
    | some s => fromShape s
    | none => none

/-- `Scalar` (dense_new.go:48-54, 134-144); `WithShape` and `WithBacking` among the options end the program. -/
def newScalar (value : ℝ) (opts : List Opt) : Option (Dense ℝ) :=
  let o := opts.foldl Opt.apply {}
  if o.shape.isSome ∨ o.slice.isSome then none
  else newDense (opts ++ [.backing [value]])

/-- `CreateInitializedSlice` (dense_new.go:146-155). -/
def initializedSlice (size : Int) (v : ℝ) : Option (List ℝ) :=
  if size < 0 then none else some (List.replicate size.toNat v)

/-- `nn.NewParam(mat.NewDense[T](mat.WithShape(shape...)))`. -/
def param (shape : List Int) : Option (Dense ℝ) := newDense [.shape shape]

/-! ### the layers -/

/-- `linear.New` (nn/linear/linear.go:30-35): weights and bias. -/
def linear (inp out : Int) : Option (Dense ℝ × Dense ℝ) := do
  let w ← param [out, inp]
  let b ← param [out]
  some (w, b)

/-- One gate of the recurrent cells (gru.go:53-58; srn.go:36-42; lstm.go:69-71). -/
def gate (inp out : Int) : Option Recurrent.Gate := do
  let w ← param [out, inp]
  let wRec ← param [out, out]
  let b ← param [out]
  some ⟨w, wRec, b⟩

/-- `gru.New` (gru.go:45-51). -/
def gru (inp out : Int) : Option Recurrent.GRU := do
  let part ← gate inp out
  let res ← gate inp out
  let cand ← gate inp out
  some ⟨part, res, cand⟩

/-- `lstm.New` (lstm.go:64-88). -/
def lstm (inp out : Int) : Option Recurrent.LSTM := do
  let i ← gate inp out
  let o ← gate inp out
  let f ← gate inp out
  let c ← gate inp out
  some ⟨false, i, o, f, c⟩

/-- `WithRefinedGates` (lstm.go:95-98). -/
def withRefinedGates (m : Recurrent.LSTM) (value : Bool) : Recurrent.LSTM := { m with refined := value }

/-- `NewBiLSTM` (nn/birnn/builders.go:14-20): both directions. -/
def biLSTM (inp hidden : Int) : Option (Recurrent.LSTM × Recurrent.LSTM) := do
  let p ← lstm inp hidden
  let n ← lstm inp hidden
  some (p, n)

/-- `NewBiGRU` (builders.go:23-29). -/
def biGRU (inp hidden : Int) : Option (Recurrent.GRU × Recurrent.GRU) := do
  let p ← gru inp hidden
  let n ← gru inp hidden
  some (p, n)

/-- A BiLSTM with its merge mode. -/
structure BiLSTM where
  pos : Recurrent.LSTM
  neg : Recurrent.LSTM
  mode : Recurrent.Merge

/-- `birnn.Model.Forward` for it. -/
def BiLSTM.forward (m : BiLSTM) (xs : List (Dense ℝ)) : Option (List (Dense ℝ)) :=
  Recurrent.birnn (Recurrent.forward (Recurrent.lstmNext m.pos) Recurrent.LSTMState.y)
    (Recurrent.forward (Recurrent.lstmNext m.neg) Recurrent.LSTMState.y) m.mode xs

/-- `NewBiBiLSTM` (builders.go:32-37): two layers. -/
def biBiLSTM (inp hidden : Int) (mode : Recurrent.Merge) : Option (BiLSTM × BiLSTM) := do
  let a ← biLSTM inp hidden
  let b ← biLSTM (hidden * 2) hidden
  some (⟨a.1, a.2, .concat⟩, ⟨b.1, b.2, mode⟩)

/-- `highway.New` (nn/highway/highway.go:34-42). -/
def highway (inp : Int) (act : Layers.Act) : Option Layers.Highway := do
  let wIn ← param [inp, inp]
  let bIn ← param [inp]
  let wT ← param [inp, inp]
  let bT ← param [inp]
  some ⟨wIn, bIn, wT, bT, act⟩

/-- `sqrdist.New` (nn/sqrdist/sqrdist.go:29-33). -/
def sqrDist (inp rank : Int) : Option (Dense ℝ) := param [rank, inp]

/-- `crf.New` (nn/crf/crf.go:30-35): the transition scores. -/
def crf (size : Int) : Option (Dense ℝ) := param [size + 1, size + 1]

/-- `layernorm.New` (layernorm.go:35-41). -/
def layerNorm (size : Int) (eps : ℝ) : Option Layers.LN := do
  let w ← param [size]
  let b ← param [size]
  some ⟨w, b, eps⟩

/-- `rmsnorm.New` (rmsnorm.go:34-39): `W` and `B`. -/
def rmsNorm (size : Int) : Option (Dense ℝ × Dense ℝ) := do
  let w ← param [size]
  let b ← param [size]
  some (w, b)

/-- `scalenorm.New` (scalenorm.go:29-33): `Gain`. -/
def scaleNorm (size : Int) : Option (Dense ℝ) := param [size]

/-- `batchnorm.NewWithMomentum` (batchnorm.go:36-44). -/
def batchNorm (size : Int) (momentum : ℝ) : Option Norm.BatchNorm := do
  let s ← initializedSlice size Norm.bnEps
  let w ← newDense [.backing s]
  let b ← param [size]
  let mean ← param [size]
  let stdDev ← param [size]
  some ⟨w, b, mean, stdDev, momentum⟩

/-- `newFeedForward` (nn/mlpmixer/feedforward.go:22-32). -/
def feedForward (dim hidden : Int) (act : Layers.Act) : Option Layers.FF := do
  let l1 ← linear dim hidden
  let l2 ← linear hidden dim
  some ⟨l1.1, l1.2, act, l2.1, l2.2⟩

/-- `mlpmixer.Config` (mixerblock.go:33-41). -/
structure MixerConfig where
  inputSize : Int
  hiddenSizeTokenMixer : Int
  hiddenSizeChannelMixer : Int
  channels : Int
  actToken : Layers.Act
  actChannel : Layers.Act
  eps : ℝ

/-- `mlpmixer.New` (mixerblock.go:48-56). -/
def mixer (c : MixerConfig) : Option Layers.Mixer := do
  let tf ← feedForward c.channels c.hiddenSizeTokenMixer c.actToken
  let tn ← layerNorm c.inputSize c.eps
  let cf ← feedForward c.inputSize c.hiddenSizeChannelMixer c.actChannel
  let cn ← layerNorm c.inputSize c.eps
  some ⟨c.channels, tn, tf, cn, cf⟩

/-- `conv1x1.New` (nn/convolution/conv1x1/model.go:39-45). -/
def conv1x1 (inputChannels outputChannels : Int) : Option (Dense ℝ × Dense ℝ) := do
  let w ← param [outputChannels, inputChannels]
  let b ← param [outputChannels]
  some (w, b)

/-- `sgu.New` (nn/sgu/model.go:47-64). -/
def sgu (dim dimSeq : Int) (act : Layers.Act) : Option Layers.SGU := do
  let n ← layerNorm (dim.tdiv 2) 1e-12
  let p ← conv1x1 dimSeq dimSeq
  some ⟨dimSeq.toNat, n, p.1, p.2, if act ≠ .identity then some act else none⟩

/-- `NewBlock` inside `NewPreNorm` inside `NewResidual` (nn/gmlp/block.go:39-53, prenorm.go:30-35,
residual.go:28-32). -/
def gLayer (dim dimFF seqLen : Int) (act : Layers.Act) : Option Layers.GLayer := do
  let l1 ← linear dim dimFF
  let s ← sgu dimFF seqLen act
  let l2 ← linear (dimFF.tdiv 2) dim
  let n ← layerNorm dim 1e-12
  some ⟨n, l1.1, l1.2, s, l2.1, l2.2⟩

/-- `gmlp.New` (nn/gmlp/model.go:43-62); a negative depth panics in `make`. -/
def gmlp (dim depth seqLen ffMult : Int) (act : Layers.Act) : Option Layers.GMLP :=
  if depth < 0 then none
  else do
    let ls ← (List.range depth.toNat).mapM fun _ => gLayer dim (dim * ffMult) seqLen act
    some ⟨dim.toNat, seqLen, ls⟩

/-- `newGate4` (nn/gnn/slstm/slstm.go:114-121), `windowSize = 3` (slstm.go:51). -/
def gate4 (inp out : Int) : Option SLSTM.Lin4 := do
  let w ← param [out, out * 3]
  let u ← param [out, inp]
  let v ← param [out, out]
  let b ← param [out]
  some ⟨w, u, v, b⟩

/-- `newGate3` (slstm.go:123-129). -/
def gate3 (size : Int) : Option SLSTM.Lin3 := do
  let w ← param [size, size]
  let u ← param [size, size]
  let b ← param [size]
  some ⟨w, u, b⟩

/-- `slstm.New` (slstm.go:94-112). -/
def slstm (inp out steps : Int) : Option SLSTM.Model := do
  let inputGate ← gate4 inp out
  let leftCellGate ← gate4 inp out
  let rightCellGate ← gate4 inp out
  let cellGate ← gate4 inp out
  let sentCellGate ← gate4 inp out
  let outputGate ← gate4 inp out
  let inputActivation ← gate4 inp out
  let a ← gate3 out
  let b ← gate3 out
  let c ← gate3 out
  let startH ← param [out]
  let endH ← param [out]
  let initValue ← param [out]
  some ⟨steps, inputGate, leftCellGate, rightCellGate, cellGate, sentCellGate, outputGate, inputActivation, a, b, c,
    startH, endH, initValue⟩

/-- `selfattention.New` (nn/attention/selfattention/model.go:57-65). -/
def selfAttention (inputSize querySize keySize valueSize : Int) (scale : ℝ) (causal cross : Bool) :
    Option (Attention.SelfAtt ℝ) := do
  let q ← linear inputSize querySize
  let k ← linear inputSize keySize
  let v ← linear inputSize valueSize
  some ⟨q.1, q.2, k.1, k.2, v.1, v.2, scale, causal, cross⟩

/-- `multiheadattention.New` (nn/attention/multiheadattention/model.go:36-41, 52-69). A negative number of heads
panics in `make`, zero heads in the division. For `size < numOfHeads` the scale factor of the code is infinite, here 0. -/
def multiHead (size numOfHeads : Int) (causal cross : Bool) : Option (MultiHead.Model ℝ) :=
  if numOfHeads < 0 then none
  else if numOfHeads = 0 then none
  else do
    let dk := size.tdiv numOfHeads
    let heads ← (List.range numOfHeads.toNat).mapM fun _ =>
      selfAttention size dk dk dk (1 / Real.sqrt (dk : ℝ)) causal cross
    let l ← linear size size
    some ⟨heads, l.1, l.2⟩

/-- `convolution1d.New` and `convolution2d.New` (convolution2d/model.go:47-73, convolution1d/model.go:46-72): kernels
and biases; whether they require gradients is `Conv.newGrads`. -/
def conv (cfg : Conv.Config) (kx ky : Int) : Option (List (Dense ℝ) × List (Dense ℝ)) := do
  let grads ← Conv.newGrads cfg
  let ks ← grads.mapM fun _ => param [kx, ky]
  let bs ← grads.mapM fun _ => param [1]
  some (ks, bs)

/-- The loop of `embedding.New` (nn/embedding/model.go:39-41): weight `i` is the slice `data[i*dim : (i+1)*dim]`. -/
def embeddingLoop (dim : Nat) (data : List ℝ) : List Nat → Option (List (Dense ℝ))
  | [] => some []
  | i :: is => do
    let w ← newDense [.backing ((data.drop (i * dim)).take dim)]
    let ws ← embeddingLoop dim data is
    some (w :: ws)

/-- `embedding.New` (model.go:36-48): the weights. `make` panics for negative sizes (their product for two negative
ones is positive, then the second `make` panics); a negative `dim` with size 0 makes nothing. -/
def embedding (size dim : Int) : Option (List (Dense ℝ)) :=
  if size * dim < 0 ∨ size < 0 then none
  else embeddingLoop dim.toNat (List.replicate (size * dim).toNat 0) (List.range size.toNat)

end
end Verif.New
