import Verif.Model.Record
import Verif.Model.Norm
import Verif.Model.MaskedSoftmax

set_option autoImplicit false

/-!
# Networks of layers, recorded

The `Forward` methods of the layers as programs of operators (see Model/Record.lean), and networks built from
them: stacked (`nn.ModuleList`), with residual connections and in both directions (`birnn`). Parameters are
numbered in the order in which the layers are composed; layer `k` means that its first parameter is tensor `k`.
-/

namespace Verif.Record
open GradFn Tape
noncomputable section

/-- `for i, x := range xs { ys[i] = f(x) }`. -/
def each (f : Nat → B Nat) : List Nat → B (List Nat)
  | [] => pure []
  | x :: xs => do
    let y ← f x
    let ys ← each f xs
    pure (y :: ys)

/-- `linear.Model.Forward` (nn/linear/linear.go:44-50). -/
def linear (w b : Nat) : List Nat → B (List Nat) := each fun x => call GradFn.affine [b, w, x]

/-- The activations of one operator and without parameters (nn/activation/types.go:15-43, activation.go:48-73). -/
inductive Point
  | tanh | sigmoid | swish | mish | softsign | relu | tan | hardSigmoid | hardTanh
  deriving DecidableEq

/-- The operator. -/
def Point.op : Point → GradFn ℝ
  | .tanh => GradFn.tanh
  | .sigmoid => GradFn.sigmoid
  | .swish => GradFn.swish
  | .mish => GradFn.mish
  | .softsign => GradFn.softsign
  | .relu => GradFn.relu
  | .tan => GradFn.tan
  | .hardSigmoid => GradFn.hardSigmoid
  | .hardTanh => GradFn.hardTanh

/-- `activation.Model.Forward` (activation.go:36-46). -/
def activate (p : Point) : List Nat → B (List Nat) := each fun x => call p.op [x]

/-- `activation.Model.Forward` with `Softmax`. -/
def softmaxes : List Nat → B (List Nat) := each fun x => call softmaxR [x]

/-- `activation.Model.Forward` with `LogSoftmax` (ag/operators.go:502-505). -/
def logSoftmaxes : List Nat → B (List Nat) := each fun x => do
  let y ← call softmaxR [x]
  call logR [y]

/-- `layernorm.Model.Forward`, loop body (nn/normalization/layernorm/layernorm.go:51-54); `Eps` is a buffer, a tensor
without gradient. -/
def layerNorm (w b : Nat) (eps : ℝ) (x : Nat) : B Nat := do
  let mean ← call GradFn.reduceMean [x]
  let dev ← call subScalar [x, mean]
  let q ← call prod [dev, dev]
  let v ← call GradFn.reduceMean [q]
  let e ← const eps
  let a ← call GradFn.add [v, e]
  let stdDev ← call GradFn.sqrt [a]
  let z ← call divScalar [dev, stdDev]
  let p ← call prod [z, w]
  call GradFn.add [p, b]

/-- `rmsnorm.Model.Forward`, loop body (nn/normalization/rmsnorm/rmsnorm.go:49-50). -/
def rmsNorm (w b x : Nat) : B Nat := do
  let q ← call prod [x, x]
  let v ← call GradFn.reduceMean [q]
  let rms ← call GradFn.sqrt [v]
  let e ← const Norm.tiny
  let d ← call addScalar [rms, e]
  let z ← call divScalar [x, d]
  let p ← call prod [z, w]
  call GradFn.add [p, b]

/-- `layernormsimple.Model.Forward`, loop body (nn/normalization/layernormsimple/layernormsimple.go:35-38). `eps` is one
tensor for all inputs; here each input has its own. -/
def layerNormSimple (x : Nat) : B Nat := do
  let mean ← call GradFn.reduceMean [x]
  let dev ← call subScalar [x, mean]
  let q ← call prod [dev, dev]
  let v ← call GradFn.reduceMean [q]
  let stdDev ← call GradFn.sqrt [v]
  let dev' ← call subScalar [x, mean]
  let e ← const Norm.tiny
  let d ← call GradFn.add [stdDev, e]
  call divScalar [dev', d]

/-- `fixnorm.Model.Forward`, loop body (nn/normalization/fixnorm/fixnorm.go:38-39). -/
def fixNorm (x : Nat) : B Nat := do
  let q ← call prod [x, x]
  let t ← call reduceSum [q]
  let norm ← call GradFn.sqrt [t]
  let e ← const Norm.tiny
  let d ← call addScalar [norm, e]
  call divScalar [x, d]

/-- `scalenorm.Model.Forward`, loop body (nn/normalization/scalenorm/scalenorm.go:40-41). -/
def scaleNorm (gain x : Nat) : B Nat := do
  let z ← fixNorm x
  call prod [z, gain]

/-- `sqrdist.Model.forward` (nn/sqrdist/sqrdist.go:44-47). -/
def sqrDist (b x : Nat) : B Nat := do
  let bh ← call GradFn.mul [b, x]
  let t ← call GradFn.transpose [bh]
  call GradFn.mul [t, bh]

/-- `highway.Model.forward` (nn/highway/highway.go:56-61). -/
def highway (wIn bIn wT bT : Nat) (f : Point) (x : Nat) : B Nat := do
  let a ← call GradFn.affine [bT, wT, x]
  let t ← call GradFn.sigmoid [a]
  let c ← call GradFn.affine [bIn, wIn, x]
  let h ← call f.op [c]
  let p ← call prod [t, h]
  let one ← const 1
  let r ← call reverseSubScalar [t, one]
  let q ← call prod [r, x]
  call GradFn.add [p, q]

/-- One query of `ScaledDotProductAttention` without the causal mask (nn/attention/attention.go:27-46). The code makes
three loops over the queries; here the operators of one query follow each other. -/
def attend (scale k v q : Nat) : B Nat := do
  let kq ← call GradFn.mul [k, q]
  let scores ← call prodScalar [kq, scale]
  let w ← call softmaxR [scores]
  call mulT [v, w]

/-- `selfattention.Model.Forward` without a cache, queries and keys from the same inputs
(nn/attention/selfattention/model.go:76-101). -/
def selfAttention (wq bq wk bk wv bv : Nat) (factor : ℝ) (xs : List Nat) : B (List Nat) := do
  let q ← linear wq bq xs
  let k ← linear wk bk xs
  let v ← linear wv bv xs
  let pk ← call GradFn.stack k
  let pv ← call GradFn.stack v
  let scale ← const factor
  each (attend scale pk pv) q

/-- One query of `ScaledDotProductAttention` with the causal mask (nn/attention/attention.go:27-46); `i` is the index of
the query. -/
def attendCausal (scale k v i q : Nat) : B Nat := do
  let kq ← call GradFn.mul [k, q]
  let scores ← call prodScalar [kq, scale]
  let w ← call (softmaxMasked i) [scores]
  call mulT [v, w]

/-- `for i, x := range xs { ys[i] = f(i, x) }`, from index `i` on. -/
def eachFrom (f : Nat → Nat → B Nat) : Nat → List Nat → B (List Nat)
  | _, [] => pure []
  | i, x :: xs => do
    let y ← f i x
    let ys ← eachFrom f (i + 1) xs
    pure (y :: ys)

/-- `selfattention.Model.Forward` with `UseCausalMask` and without a cache (nn/attention/selfattention/model.go:76-101);
there is a mask if there is more than one query (nn/attention/attention.go:22). -/
def causalAttention (wq bq wk bk wv bv : Nat) (factor : ℝ) (xs : List Nat) : B (List Nat) := do
  let q ← linear wq bq xs
  let k ← linear wk bk xs
  let v ← linear wv bv xs
  let pk ← call GradFn.stack k
  let pv ← call GradFn.stack v
  let scale ← const factor
  if 1 < q.length then eachFrom (attendCausal scale pk pv) 0 q else each (attend scale pk pv) q

/-- `merge` (nn/birnn/birnn.go:87-100). -/
def merge : Recurrent.Merge → Nat → Nat → B Nat
  | .concat, a, b => call GradFn.concat [a, b]
  | .sum, a, b => call GradFn.add [a, b]
  | .prod, a, b => call prod [a, b]
  | .avg, a, b => do
    let s ← call GradFn.add [a, b]
    let half ← const 0.5
    call prodScalar [s, half]

/-- The merging loop (birnn.go:71-74); an index out of range panics. -/
def mergeLoop (mode : Recurrent.Merge) (pos neg : List Nat) : List Nat → B (List Nat)
  | [] => pure []
  | i :: is =>
    match pos[i]?, neg[pos.length - 1 - i]? with
    | some a, some b => do
      let y ← merge mode a b
      let ys ← mergeLoop mode pos neg is
      pure (y :: ys)
    | _, _ => do
      let y ← fail
      pure [y]

/-- `birnn.Model.Forward` (birnn.go:56-75). The goroutines create the tensors of the two directions in some order;
here the positive direction is first. -/
def birnn (mode : Recurrent.Merge) (positive negative : List Nat → B (List Nat)) (xs : List Nat) : B (List Nat) := do
  let pos ← positive xs
  let neg ← negative (Recurrent.reversed xs)
  mergeLoop mode pos neg (List.range pos.length)

/-- The loop of `Residual.Forward` (nn/gmlp/residual.go:38-40). -/
def addLoop : List Nat → List Nat → B (List Nat)
  | [], _ => pure []
  | _ :: _, [] => do
    let y ← fail
    pure [y]
  | p :: ps, x :: xs => do
    let y ← call GradFn.add [p, x]
    let ys ← addLoop ps xs
    pure (y :: ys)

/-- A network with inputs of size `i` and outputs of size `o`. -/
inductive Net : Nat → Nat → Type
  /-- `linear.Model`: W, B -/
  | linear (i o : Nat) : Net i o
  /-- `activation.Model` -/
  | act (p : Point) (d : Nat) : Net d d
  | softmax (d : Nat) : Net d d
  /-- `layernorm.Model`: W, B -/
  | layerNorm (eps : ℝ) (d : Nat) : Net d d
  /-- `rmsnorm.Model`: W, B -/
  | rmsNorm (d : Nat) : Net d d
  | logSoftmax (d : Nat) : Net d d
  /-- `layernormsimple.Model` -/
  | layerNormSimple (d : Nat) : Net d d
  /-- `fixnorm.Model` -/
  | fixNorm (d : Nat) : Net d d
  /-- `scalenorm.Model`: Gain -/
  | scaleNorm (d : Nat) : Net d d
  /-- `sqrdist.Model`: B -/
  | sqrDist (i r : Nat) : Net i 1
  /-- `highway.Model`: WIn, BIn, WT, BT -/
  | highway (p : Point) (d : Nat) : Net d d
  /-- `srn.Model`: W, WRec, B -/
  | srn (i o : Nat) : Net i o
  /-- `gru.Model`: the parameters of the partition, reset and candidate gates -/
  | gru (i o : Nat) : Net i o
  /-- `lstm.Model`: the parameters of the input, output and forget gates and of the candidate -/
  | lstm (i o : Nat) : Net i o
  /-- `lstm.Model` with `UseRefinedGates` -/
  | lstmRefined (d : Nat) : Net d d
  /-- `selfattention.Model`: queries and keys of size `d`, values of size `e`; W, B of Query, Key, Value -/
  | attention (factor : ℝ) (i d e : Nat) : Net i e
  /-- `selfattention.Model` with `UseCausalMask` -/
  | causal (factor : ℝ) (i d e : Nat) : Net i e
  /-- `nn.ModuleList` -/
  | seq {i m o : Nat} (p : Net i m) (q : Net m o) : Net i o
  /-- `gmlp.Residual` -/
  | residual {d : Nat} (p : Net d d) : Net d d
  /-- `birnn.Model` -/
  | sum {i o : Nat} (p q : Net i o) : Net i o
  | prod {i o : Nat} (p q : Net i o) : Net i o
  | avg {i o : Nat} (p q : Net i o) : Net i o
  | concat {i o o' : Nat} (p : Net i o) (q : Net i o') : Net i (o + o')

/-- The number of parameters. -/
def Net.size {i o : Nat} : Net i o → Nat
  | .linear _ _ => 2
  | .act _ _ => 0
  | .softmax _ => 0
  | .layerNorm _ _ => 2
  | .rmsNorm _ => 2
  | .logSoftmax _ => 0
  | .layerNormSimple _ => 0
  | .fixNorm _ => 0
  | .scaleNorm _ => 1
  | .sqrDist _ _ => 1
  | .highway _ _ => 4
  | .srn _ _ => 3
  | .gru _ _ => 9
  | .lstm _ _ => 12
  | .lstmRefined _ => 12
  | .attention _ _ _ _ => 6
  | .causal _ _ _ _ => 6
  | .seq p q => p.size + q.size
  | .residual p => p.size
  | .sum p q => p.size + q.size
  | .prod p q => p.size + q.size
  | .avg p q => p.size + q.size
  | .concat p q => p.size + q.size

/-- `Forward` of a network whose first parameter is tensor `k`. `seq` is `ModuleList.Forward` (nn/model.go:108-117),
`residual` is `Residual.Forward` (nn/gmlp/residual.go:35-42). -/
def Net.code {i o : Nat} : Net i o → Nat → List Nat → B (List Nat)
  | .linear _ _, k, xs => Record.linear k (k + 1) xs
  | .act p _, _, xs => activate p xs
  | .softmax _, _, xs => softmaxes xs
  | .layerNorm eps _, k, xs => each (Record.layerNorm k (k + 1) eps) xs
  | .rmsNorm _, k, xs => each (Record.rmsNorm k (k + 1)) xs
  | .logSoftmax _, _, xs => logSoftmaxes xs
  | .layerNormSimple _, _, xs => each Record.layerNormSimple xs
  | .fixNorm _, _, xs => each Record.fixNorm xs
  | .scaleNorm _, k, xs => each (Record.scaleNorm k) xs
  | .sqrDist _ _, k, xs => each (Record.sqrDist k) xs
  | .highway p _, k, xs => each (Record.highway k (k + 1) (k + 2) (k + 3) p) xs
  | .srn _ _, k, xs => forward (srnNext (gateAt k)) id xs
  | .gru _ _, k, xs => forward (gruNext ⟨gateAt k, gateAt (k + 3), gateAt (k + 6)⟩) GRUState.y xs
  | .lstm _ _, k, xs =>
    forward (lstmNext ⟨false, gateAt k, gateAt (k + 3), gateAt (k + 6), gateAt (k + 9)⟩) LSTMState.y xs
  | .lstmRefined _, k, xs =>
    forward (lstmNext ⟨true, gateAt k, gateAt (k + 3), gateAt (k + 6), gateAt (k + 9)⟩) LSTMState.y xs
  | .attention f _ _ _, k, xs => selfAttention k (k + 1) (k + 2) (k + 3) (k + 4) (k + 5) f xs
  | .causal f _ _ _, k, xs => causalAttention k (k + 1) (k + 2) (k + 3) (k + 4) (k + 5) f xs
  | .seq p q, k, xs => do
    let ys ← p.code k xs
    q.code (k + p.size) ys
  | .residual p, k, xs => do
    let ys ← p.code k xs
    addLoop ys xs
  | .sum p q, k, xs => birnn .sum (p.code k) (q.code (k + p.size)) xs
  | .prod p q, k, xs => birnn .prod (p.code k) (q.code (k + p.size)) xs
  | .avg p q, k, xs => birnn .avg (p.code k) (q.code (k + p.size)) xs
  | .concat p q, k, xs => birnn .concat (p.code k) (q.code (k + p.size)) xs

end
end Verif.Record
