import Verif.Model.Losses

set_option autoImplicit false

/-!
# Normalisation layers (nn/normalization)

Values only, each layer for one input (the `Forward` methods loop over the inputs); `BatchNorm` for a whole batch.
-/

namespace Verif.Norm
open GradFn Dense Losses
noncomputable section

/-- The constant 1e-10 of RMSNorm, FixNorm, ScaleNorm, AdaNorm and LayerNormSimple. -/
def tiny : ℝ := 1e-10

/-- `layernorm.Model.Forward`, loop body (layernorm.go:51-54). -/
def layerNorm (w b : Dense ℝ) (eps : ℝ) (x : Dense ℝ) : Option (Dense ℝ) := do
  let mean ← GradFn.reduceMean.forward [x]
  let dev ← subScalar.forward [x, mean]
  let q ← square dev
  let v ← GradFn.reduceMean.forward [q]
  let a ← GradFn.add.forward [v, scalar eps]
  let stdDev ← GradFn.sqrt.forward [a]
  let z ← divScalar.forward [dev, stdDev]
  let p ← prod.forward [z, w]
  GradFn.add.forward [p, b]

/-- `layernormsimple.Model.Forward`, loop body (layernormsimple.go:40-43). -/
def layerNormSimple (x : Dense ℝ) : Option (Dense ℝ) := do
  let mean ← GradFn.reduceMean.forward [x]
  let dev ← subScalar.forward [x, mean]
  let q ← square dev
  let v ← GradFn.reduceMean.forward [q]
  let stdDev ← GradFn.sqrt.forward [v]
  let dev' ← subScalar.forward [x, mean]
  let d ← GradFn.add.forward [stdDev, scalar tiny]
  divScalar.forward [dev', d]

/-- `rmsnorm.Model.Forward`, loop body (rmsnorm.go:49-50). -/
def rmsNorm (w b : Dense ℝ) (x : Dense ℝ) : Option (Dense ℝ) := do
  let q ← square x
  let v ← GradFn.reduceMean.forward [q]
  let rms ← GradFn.sqrt.forward [v]
  let d ← addScalar.forward [rms, scalar tiny]
  let z ← divScalar.forward [x, d]
  let p ← prod.forward [z, w]
  GradFn.add.forward [p, b]

/-- `fixnorm.Model.Forward`, loop body (fixnorm.go:43-44). -/
def fixNorm (x : Dense ℝ) : Option (Dense ℝ) := do
  let q ← square x
  let s ← reduceSum.forward [q]
  let norm ← GradFn.sqrt.forward [s]
  let d ← addScalar.forward [norm, scalar tiny]
  divScalar.forward [x, d]

/-- `scalenorm.Model.Forward`, loop body (scalenorm.go:40-41). -/
def scaleNorm (gain : Dense ℝ) (x : Dense ℝ) : Option (Dense ℝ) := do
  let q ← square x
  let s ← reduceSum.forward [q]
  let norm ← GradFn.sqrt.forward [s]
  let d ← addScalar.forward [norm, scalar tiny]
  let z ← divScalar.forward [x, d]
  prod.forward [z, gain]

/-- `adanorm.Model.Forward`, one input (adanorm.go:41-77). -/
def adaNorm (scale : ℝ) (x : Dense ℝ) : Option (Dense ℝ) := do
  let mean ← GradFn.reduceMean.forward [x]
  let diff ← subScalar.forward [x, mean]
  let q ← square diff
  let v ← GradFn.reduceMean.forward [q]
  let dev ← GradFn.sqrt.forward [v]
  let c ← subScalar.forward [x, mean]
  let d ← GradFn.add.forward [dev, scalar tiny]
  let y ← divScalar.forward [c, d]
  let ky ← prodScalar.forward [y, scalar 0.1]
  let r ← reverseSubScalar.forward [ky, scalar 1]
  let fi ← prodScalar.forward [r, scalar scale]
  prod.forward [y, fi]

/-- `epsilon` of BatchNorm (batchnorm.go:28). -/
def bnEps : ℝ := 1e-5

/-- `batchnorm.Model` (batchnorm.go:19-26). -/
structure BatchNorm where
  w : Dense ℝ
  b : Dense ℝ
  mean : Dense ℝ
  stdDev : Dense ℝ
  momentum : ℝ

/-- The loop of `process` (batchnorm.go:69-71). -/
def processLoop (b mean dev : Dense ℝ) : List (Dense ℝ) → Option (List (Dense ℝ))
  | [] => some []
  | x :: xs => do
    let d ← GradFn.sub.forward [x, mean]
    let p ← prod.forward [d, dev]
    let y ← GradFn.add.forward [p, b]
    let ys ← processLoop b mean dev xs
    some (y :: ys)

/-- `process` (batchnorm.go:66-73). -/
def process (m : BatchNorm) (xs : List (Dense ℝ)) (dev mean : Dense ℝ) : Option (List (Dense ℝ)) := do
  let d ← addScalar.forward [dev, scalar bnEps]
  let dev ← GradFn.div.forward [m.w, d]
  processLoop m.b mean dev xs

/-- `batchnorm.Model.Forward` (batchnorm.go:52-56). -/
def bnForward (m : BatchNorm) (xs : List (Dense ℝ)) : Option (List (Dense ℝ)) := process m xs m.stdDev m.mean

/-- The loop of `mean` (batchnorm.go:84-86). -/
def sumLoop : List (Dense ℝ) → Dense ℝ → Option (Dense ℝ)
  | [], s => some s
  | x :: xs, s => do
    let s ← GradFn.add.forward [s, x]
    sumLoop xs s

/-- `mean` (batchnorm.go:82-89); panics for an empty batch. -/
def batchMean : List (Dense ℝ) → Option (Dense ℝ)
  | [] => none
  | x :: xs => do
    let s ← sumLoop xs x
    divScalar.forward [s, scalar (((x :: xs).length : ℝ) + bnEps)]

/-- The loop of `stdDev` (batchnorm.go:94-97). -/
def devLoop (mean : Dense ℝ) : List (Dense ℝ) → Dense ℝ → Option (Dense ℝ)
  | [], s => some s
  | x :: xs, s => do
    let d ← GradFn.sub.forward [mean, x]
    let q ← square d
    let s ← GradFn.add.forward [s, q]
    devLoop mean xs s

/-- `stdDev` (batchnorm.go:92-100). -/
def batchStdDev (mean : Dense ℝ) (xs : List (Dense ℝ)) : Option (Dense ℝ) := do
  let s ← devLoop mean xs (mean.map fun _ => 0)
  let v ← divScalar.forward [s, scalar ((xs.length : ℝ) + bnEps)]
  GradFn.sqrt.forward [v]

/-- `updateBatchNormParameters` (batchnorm.go:75-79). -/
def bnUpdate (m : BatchNorm) (mean dev : Dense ℝ) : Option BatchNorm := do
  let mean' ← zipOp (· + ·) (m.mean.map (· * m.momentum)) (mean.map (· * (1 - m.momentum)))
  let dev' ← zipOp (· + ·) (m.stdDev.map (· * m.momentum)) (dev.map (· * (1 - m.momentum)))
  some { m with mean := mean', stdDev := dev' }

/-- `batchnorm.Model.ForwardT` (batchnorm.go:59-64): the outputs and the updated model. -/
def bnForwardT (m : BatchNorm) (xs : List (Dense ℝ)) : Option (List (Dense ℝ) × BatchNorm) := do
  let mean ← batchMean xs
  let dev ← batchStdDev mean xs
  let m' ← bnUpdate m mean dev
  let ys ← process m' xs dev mean
  some (ys, m')

end
end Verif.Norm
