import Verif.Model.Losses

set_option autoImplicit false

/-!
# Convolution (nn/convolution)

Every definition composes the library operators the code composes. Go's integer `/` and `%` truncate towards
zero and fail on a zero divisor. The backward functions run the backward passes of the operators the forward
function created, from the output to the operands, and add up what each operator gives to the kernel and to the
input. The code adds to an initially absent gradient; here the sum starts from zero.
-/

namespace Verif.Conv
open GradFn Dense
noncomputable section

/-- The product of the kernel and one window: `ag.Dot(ag.Slice(...), w)` (convolution.go:27, 52-53). -/
def window (w x : Dense ℝ) (fromRow fromCol toRow toCol : Int) : Option (Dense ℝ) := do
  let view ← (GradFn.slice fromRow fromCol toRow toCol).forward [x]
  dot.forward [view, w]

/-- `Conv1D` (convolution.go:13-30): the results of the single windows. -/
def windows1 (w x : Dense ℝ) (stride : Int) : Option (List (Dense ℝ)) :=
  if stride = 0 then none
  else if ((x.cols : Int) - w.cols).tmod stride ≠ 0 then none
  else if x.rows ≠ w.rows then none
  else
    let dim := ((x.cols : Int) - w.cols).tdiv stride + 1
    if dim < 0 then none
    else (List.range dim.toNat).mapM fun (i : Nat) =>
      window w x 0 (i * stride) w.rows (i * stride + w.cols)

/-- `Conv1D` (convolution.go:13-30). -/
def conv1D (w x : Dense ℝ) (stride : Int) : Option (Dense ℝ) := do
  let ys ← windows1 w x stride
  concat.forward ys

/-- `dimx` and `dimy` of `Conv2D` (convolution.go:41-42). -/
def dim2 (x w stride : Int) : Int := (x - w).tdiv stride + 1

/-- The index pairs of the two loops of `Conv2D` (convolution.go:48-49). -/
def pairs (m n : Nat) : List (Nat × Nat) :=
  (List.range m).flatMap fun i => (List.range n).map fun j => (i, j)

/-- `Conv2D` (convolution.go:33-59): the results of the single windows. -/
def windows2 (w x : Dense ℝ) (xStride yStride : Int) : Option (List (Dense ℝ)) :=
  if xStride = 0 then none
  else if ((x.rows : Int) - w.rows).tmod xStride ≠ 0 then none
  else if yStride = 0 then none
  else if ((x.cols : Int) - w.cols).tmod yStride ≠ 0 then none
  else
    (pairs (dim2 x.rows w.rows xStride).toNat (dim2 x.cols w.cols yStride).toNat).mapM fun ij =>
      let fromRow := (ij.1 : Int) * xStride
      let fromCol := (ij.2 : Int) * yStride
      window w x fromRow fromCol (fromRow + w.rows) (fromCol + w.cols)

/-- `Conv2D` (convolution.go:33-59). -/
def conv2D (w x : Dense ℝ) (xStride yStride : Int) : Option (Dense ℝ) := do
  let outList ← windows2 w x xStride yStride
  let c ← concat.forward outList
  (GradFn.reshape (dim2 x.rows w.rows xStride) (dim2 x.cols w.cols yStride)).forward [c]

/-- The backward passes of the `Dot` and the `Slice` of one window: what they add to the gradients of the kernel
and of the input (gradients as in mat/gradfn/dot.go:46-62 and slice.go:43-60). -/
def windowBackward (w x : Dense ℝ) (fromRow fromCol toRow toCol : Int) (g : Dense ℝ) :
    Option (Dense ℝ × Dense ℝ) := do
  let view ← (GradFn.slice fromRow fromCol toRow toCol).forward [x]
  match ← dot.backward [view, w] g with
  | [some gview, some gw] =>
    match ← (GradFn.slice fromRow fromCol toRow toCol).backward [x] gview with
    | [some gx] => some (gw, gx)
    | _ => none
  | _ => none

/-- The windows' contributions added up; `AccGrad` (mat/dense_grad.go) adds in place. -/
def backLoop {α : Type} (back : α → Dense ℝ → Option (Dense ℝ × Dense ℝ)) :
    List α → List (Option (Dense ℝ)) → Dense ℝ × Dense ℝ → Option (Dense ℝ × Dense ℝ)
  | [], [], acc => some acc
  | p :: ps, some g :: gs, acc => do
    let c ← back p g
    let gw ← zipOp (· + ·) acc.1 c.1
    let gx ← zipOp (· + ·) acc.2 c.2
    backLoop back ps gs (gw, gx)
  | _, _, _ => none

/-- The gradients of the kernel and of the input after the backward pass of `Conv1D`. -/
def conv1DBackward (w x : Dense ℝ) (stride : Int) (gy : Dense ℝ) : Option (Dense ℝ × Dense ℝ) := do
  let ys ← windows1 w x stride
  let gs ← concat.backward ys gy
  backLoop (fun (i : Nat) g => windowBackward w x 0 (i * stride) w.rows (i * stride + w.cols) g)
    (List.range ys.length) gs (zeros w.rows w.cols, zeros x.rows x.cols)

/-- The gradients of the kernel and of the input after the backward pass of `Conv2D`. -/
def conv2DBackward (w x : Dense ℝ) (xStride yStride : Int) (gy : Dense ℝ) : Option (Dense ℝ × Dense ℝ) := do
  let outList ← windows2 w x xStride yStride
  let c ← concat.forward outList
  match ← (GradFn.reshape (dim2 x.rows w.rows xStride) (dim2 x.cols w.cols yStride)).backward [c] gy with
  | [some gc] =>
    let gs ← concat.backward outList gc
    backLoop (fun (ij : Nat × Nat) g =>
        let fromRow := (ij.1 : Int) * xStride
        let fromCol := (ij.2 : Int) * yStride
        windowBackward w x fromRow fromCol (fromRow + w.rows) (fromCol + w.cols) g)
      (pairs (dim2 x.rows w.rows xStride).toNat (dim2 x.cols w.cols yStride).toNat) gs
      (zeros w.rows w.cols, zeros x.rows x.cols)
  | _ => none

/-- `Config` of convolution1d and convolution2d (convolution2d/model.go:22-32), without the kernel sizes, the
strides and the activation. -/
structure Config where
  inputChannels : Nat
  outputChannels : Nat
  mask : Option (List Int)
  depthWise : Bool

/-- Is the channel masked in: `Mask == nil || Mask[i] == 1` (convolution2d/model.go:92)? A mask that is too short
is an index out of range. -/
def Config.masked (cfg : Config) (i : Nat) : Option Bool :=
  match cfg.mask with
  | none => some true
  | some l => l[i]?.map fun v => decide (v = 1)

/-- `New` (convolution2d/model.go:47-72, convolution1d/model.go:46-71): whether each kernel (and bias) requires
gradients. -/
def newGrads (cfg : Config) : Option (List Bool) :=
  let ok : Bool := match cfg.mask with
    | none => true
    | some l => decide (cfg.inputChannels = l.length)
  if ok = false then none
  else if cfg.depthWise ∧ cfg.outputChannels ≠ cfg.inputChannels then none
  else
    let size := if cfg.depthWise then cfg.outputChannels else cfg.inputChannels * cfg.outputChannels
    (List.range size).mapM fun (i : Nat) =>
      match cfg.mask with
      | none => some true
      | some l => l[i % l.length]?.map fun v => decide (v = 1)

/-- The loop over the input channels (convolution2d/model.go:91-96). -/
def channelLoop (conv : Dense ℝ → Dense ℝ → Option (Dense ℝ)) (cfg : Config) (K B : List (Dense ℝ))
    (offset : Nat) : List (Dense ℝ) → Nat → Option (Dense ℝ) → Option (Option (Dense ℝ))
  | [], _, out => some out
  | x :: xs, i, out => do
    if ← cfg.masked i then
      let k ← K[i + offset]?
      let y ← conv k x
      let s ← Losses.addNil out y
      let b ← B[i + offset]?
      let s ← addScalar.forward [s, b]
      channelLoop conv cfg K B offset xs (i + 1) (some s)
    else channelLoop conv cfg K B offset xs (i + 1) out

/-- `forward` of convolution1d and convolution2d (convolution2d/model.go:84-99, convolution1d/model.go:83-99)
with the convolution `conv` and the activation `act`. When no channel is masked in, the activation is applied to
nil and panics. -/
def channel (conv : Dense ℝ → Dense ℝ → Option (Dense ℝ)) (act : Dense ℝ → Option (Dense ℝ)) (cfg : Config)
    (K B xs : List (Dense ℝ)) (o : Nat) : Option (Dense ℝ) := do
  let offset := o * cfg.inputChannels
  if cfg.depthWise then
    let k ← K[o]?
    let x ← xs[o]?
    let y ← conv k x
    let b ← B[o]?
    let out ← addScalar.forward [y, b]
    act out
  else
    let out ← channelLoop conv cfg K B offset xs 0 none
    let out ← out
    act out

/-- `Forward` of convolution1d and convolution2d (convolution2d/model.go:76-82). -/
def layer (conv : Dense ℝ → Dense ℝ → Option (Dense ℝ)) (act : Dense ℝ → Option (Dense ℝ)) (cfg : Config)
    (K B xs : List (Dense ℝ)) : Option (List (Dense ℝ)) :=
  (List.range cfg.outputChannels).mapM fun o => channel conv act cfg K B xs o

/-- `Forward` of conv1x1 (conv1x1/model.go:48-59). -/
def conv1x1 (w b : Dense ℝ) (outputChannels : Nat) (xs : List (Dense ℝ)) : Option (List (Dense ℝ)) := do
  let xm ← GradFn.stack.forward xs
  let mm ← GradFn.mul.forward [w, xm]
  (List.range outputChannels).mapM fun (o : Nat) => do
    let row ← (rowView o).forward [mm]
    let val ← transpose.forward [row]
    let bias ← (atVec o).forward [b]
    addScalar.forward [val, bias]

end
end Verif.Conv
