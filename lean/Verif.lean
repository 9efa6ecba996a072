import Verif.Props.Backward
import Verif.Props.BackwardHang
import Verif.Props.Derivative
import Verif.Props.Forward
import Verif.Props.DenseAccess
import Verif.Props.DenseShape
import Verif.Props.DenseT
import Verif.Props.DenseMul
import Verif.Props.Heap
import Verif.Props.VecFn
import Verif.Props.Crf
import Verif.Props.Attention
import Verif.Props.GradActivation
import Verif.Props.GradMul
import Verif.Props.GradGather
import Verif.Props.GradMax
import Verif.Props.GradSparse
import Verif.Props.GradPool
import Verif.Model.Program
import Verif.Spec.Program
import Verif.Props.Program
import Verif.Props.ProgramExample
import Verif.Model.Losses
import Verif.Props.Losses
import Verif.Lemmas.Col
import Verif.Model.Recurrent
import Verif.Model.BiRNNSched
import Verif.Spec.Recurrent
import Verif.Props.Recurrent
import Verif.Props.BiRNN
import Verif.Model.Norm
import Verif.Props.Norm
import Verif.Model.Optim
import Verif.Model.Clip
import Verif.Model.Decay
import Verif.Model.Optimize
import Verif.Spec.Optim
import Verif.Lemmas.Grid
import Verif.Props.Optim
import Verif.Props.Clip
import Verif.Props.Decay
import Verif.Props.Optimize
import Verif.Model.Rand
import Verif.Props.PCG
import Verif.Props.Rand
import Verif.Props.RandPerm
import Verif.Props.RandMisc
import Verif.Model.Init
import Verif.Props.Init
import Verif.Model.Marshal
import Verif.Props.Marshal
import Verif.Model.Format
import Verif.Props.Format
import Verif.Lemmas.Mat2
import Verif.Model.Conv
import Verif.Props.Conv
import Verif.Model.Traversal
import Verif.Props.Traversal
import Verif.Model.Embedding
import Verif.Props.Embedding
import Verif.Model.MultiHead
import Verif.Props.MultiHead
import Verif.Props.OnceGraph
import Verif.Props.MultiHeadGraph
import Verif.Model.DerivedOps
import Verif.Lemmas.Mat2Ops
import Verif.Props.DerivedOps
import Verif.Props.LogSumExpGrad
import Verif.Model.Layers
import Verif.Props.Activations
import Verif.Props.Layers
import Verif.Model.SLSTM
import Verif.Props.SLSTM
import Verif.Model.LockedRand
import Verif.Props.LockedRand
import Verif.Model.Asm
import Verif.Model.AsmCode
import Verif.Model.MatFuncs
import Verif.Spec.Kernels
import Verif.Lemmas.Asm
import Verif.Lemmas.AsmBin
import Verif.Lemmas.AsmConst
import Verif.Lemmas.AsmRed
import Verif.Props.AsmKernels
import Verif.Props.AsmOverlap
import Verif.Model.F32
import Verif.Model.ExpLog
import Verif.Props.ExpLog
import Verif.Model.Zipf
import Verif.Spec.Zipf
import Verif.Props.Zipf
import Verif.Model.FloatSlice
import Verif.Props.FloatSlice
import Verif.Model.Gob
import Verif.Props.Gob
import Verif.Model.Gonum
import Verif.Model.GonumCode
import Verif.Model.GonumFns
import Verif.Lemmas.Gonum
import Verif.Lemmas.GonumAxpy
import Verif.Lemmas.GonumSym
import Verif.Lemmas.GonumCumSum
import Verif.Props.Gonum
import Verif.Props.GonumMul
import Verif.Props.GonumCumSum
import Verif.Lemmas.GonumGemv
import Verif.Lemmas.GonumGemvRun
import Verif.Props.GonumGemv
import Verif.Model.New
import Verif.Props.New
import Verif.Model.Tape
import Verif.Spec.Tape
import Verif.Props.Safe
import Verif.Props.Tape
import Verif.Props.TapeExample
import Verif.Model.Record
import Verif.Spec.Record
import Verif.Props.Record
import Verif.Props.RecordNets
import Verif.Props.TrainRecurrent
import Verif.Model.Network
import Verif.Spec.Network
import Verif.Props.RecordLayers
import Verif.Props.Network
import Verif.Model.Batch
import Verif.Model.Regression
import Verif.Props.Batch
import Verif.Props.Regression
import Verif.Props.NetBatch
import Verif.Lemmas.F32
import Verif.Lemmas.F32Int
import Verif.Lemmas.F32Approx
import Verif.Lemmas.LogPoly
import Verif.Props.ExpAccuracy
import Verif.Props.LogAccuracy
import Verif.Model.CpuX86
import Verif.Spec.CpuX86
import Verif.Props.CpuX86
import Verif.Model.DenseMisc
import Verif.Props.DenseMisc
import Verif.Model.Ziggurat
import Verif.Lemmas.Ziggurat
import Verif.Lemmas.ZigguratTab
import Verif.Props.Ziggurat
import Verif.Props.ZigguratDensity
import Verif.Model.Spare
import Verif.Props.DenseReduce
import Verif.Model.TrainLoop
import Verif.Props.TrainLoop
import Verif.Model.Examples
import Verif.Props.TapeSeed
import Verif.Props.Examples
import Verif.Props.Descent
import Verif.Spec.Rounding
import Verif.Lemmas.AsmRel
import Verif.Lemmas.Nearest
import Verif.Props.Rounding
import Verif.Props.RoundingDense
import Verif.Model.F32Fma
import Verif.Lemmas.F32Round
import Verif.Props.RoundingF32
import Verif.Model.RecordLosses
import Verif.Spec.NetworkLosses
import Verif.Props.Twin
import Verif.Props.NetworkLosses
import Verif.Model.Strided
import Verif.Spec.Strided
import Verif.Props.Strided
import Verif.Props.StridedT
import Verif.Props.StridedMisc
import Verif.Model.RecordCrf
import Verif.Spec.NetworkCrf
import Verif.Props.NetworkCrf
import Verif.Props.BatchOf
import Verif.Model.RecordTagger
import Verif.Spec.Tagger
import Verif.Props.Tagger
import Verif.Props.Unused
import Verif.Model.Softmax32
import Verif.Spec.Softmax32
import Verif.Lemmas.F32Div
import Verif.Lemmas.Softmax32
import Verif.Props.SumFinite
import Verif.Props.Softmax32
import Verif.Props.SoftmaxMasked
import Verif.Model.Crf32
import Verif.Spec.Crf32
import Verif.Lemmas.Crf32
import Verif.Props.SumPos
import Verif.Props.Crf32
import Verif.Props.Crf32Scalars
import Verif.Props.Crf32Overflow
import Verif.Model.MaskedSoftmax
import Verif.Props.GradMasked
import Verif.Props.Causal
import Verif.Lemmas.F32Mono
import Verif.Model.CrossEntropy32
import Verif.Spec.CrossEntropy32
import Verif.Lemmas.CrossEntropy32
import Verif.Props.CrossEntropy32
import Verif.Props.CrossEntropy32Example
import Verif.Model.Net32
import Verif.Spec.Net32
import Verif.Lemmas.DotFinite
import Verif.Lemmas.Net32
import Verif.Props.Net32
import Verif.Props.Net32Example
import Verif.Model.Sigmoid32
import Verif.Spec.Sigmoid32
import Verif.Lemmas.F32Recip
import Verif.Props.Sigmoid32
import Verif.Props.Sigmoid32Example
import Verif.Model.Acts32
import Verif.Spec.Acts32
import Verif.Props.Acts32
import Verif.Props.Acts32Example
import Verif.Model.Rec32
import Verif.Spec.Rec32
import Verif.Lemmas.F32Unit
import Verif.Lemmas.Rec32
import Verif.Props.Rec32
import Verif.Props.Rec32Forward
import Verif.Props.Rec32Example
import Verif.Model.Att32
import Verif.Spec.Att32
import Verif.Lemmas.Att32
import Verif.Props.Att32
import Verif.Props.Att32Example
import Verif.Model.Head32
import Verif.Spec.Head32
import Verif.Props.Head32
import Verif.Props.Head32Session
import Verif.Props.Multi32
import Verif.Props.Head32Example
import Verif.Model.Adam32
import Verif.Spec.Adam32
import Verif.Lemmas.F32Sqrt
import Verif.Lemmas.Adam32
import Verif.Lemmas.Adam32Cell
import Verif.Lemmas.Adam32Step
import Verif.Props.Adam32
import Verif.Props.Adam32Frozen
import Verif.Props.Adam32Example
import Verif.Model.Norm32
import Verif.Spec.Norm32
import Verif.Lemmas.Norm32Sum
import Verif.Lemmas.Norm32Cell
import Verif.Lemmas.Norm32Den
import Verif.Lemmas.Norm32Shift
import Verif.Props.Norm32
import Verif.Props.Norm32Overflow
import Verif.Props.Norm32Const
import Verif.Props.Norm32Example
import Verif.Model.Opt32
import Verif.Spec.Opt32
import Verif.Lemmas.Opt32
import Verif.Props.Opt32Sgd
import Verif.Props.Opt32Stall
import Verif.Props.Opt32Ada
import Verif.Props.Opt32Example
import Verif.Props.Back32
import Verif.Props.Back32Acts
import Verif.Props.Back32Example
import Verif.Model.CeGrad32
import Verif.Spec.CeGrad32
import Verif.Lemmas.CeGrad32
import Verif.Props.CeGrad32
import Verif.Props.CeGrad32Example
import Verif.Props.Train32
import Verif.Props.Train32Loss
import Verif.Props.Train32Example
import Verif.Props.Select32
import Verif.Model.Srn32
import Verif.Spec.Srn32
import Verif.Lemmas.Srn32Der
import Verif.Lemmas.Srn32
import Verif.Lemmas.Srn32Back
import Verif.Props.Srn32
import Verif.Props.Srn32Loss
import Verif.Model.SrnTrain32
import Verif.Spec.SrnTrain32
import Verif.Props.SrnTrain32
import Verif.Model.Lstm32
import Verif.Spec.Lstm32
import Verif.Lemmas.Lstm32Der
import Verif.Lemmas.Lstm32
import Verif.Lemmas.Lstm32Gate
import Verif.Lemmas.Lstm32Cell
import Verif.Lemmas.Lstm32Back
import Verif.Props.Lstm32
import Verif.Props.Lstm32Loss
import Verif.Model.LstmTrain32
import Verif.Spec.LstmTrain32
import Verif.Props.LstmTrain32
import Verif.Model.Tagger32
import Verif.Spec.Tagger32
import Verif.Props.Tagger32
import Verif.Props.Tagger32Loss
import Verif.Model.Clip32
import Verif.Spec.Clip32
import Verif.Props.Clip32
import Verif.Model.ClipTwo32
import Verif.Spec.ClipTwo32
import Verif.Props.ClipTwo32
import Verif.Model.ClipStep32
import Verif.Spec.ClipStep32
import Verif.Props.ClipStep32
