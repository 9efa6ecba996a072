/-
The functions of mat/internal/matfuncs: the choice among the assembly routines of
`Verif/Model/AsmCode.lean` (files `*_amd64.go`) and the portable loops (files `*_purego.go`), both
over the same memory of cells.
-/
import Verif.Model.AsmCode
set_option autoImplicit false
set_option linter.unusedSimpArgs false

namespace Verif.Asm

/-- A slice: base address and length.  The capacity plays no role. -/
structure Sl where
  base : Nat
  len : Nat
  deriving DecidableEq, Repr

/-- Is there an element of the slice at this address? -/
def Sl.has (es : Nat) (x : Sl) (a : Nat) : Bool := (List.range x.len).any fun i => a == x.base + es * i

/-- The frame of a call `f(x1, x2, y)` with slices (add_amd64_stubs.go:10-25): base, length and
capacity of each slice in turn, 8 bytes each.  The routine may read the cells of `x1` and `x2` and
write the cells of `y`, nothing else. -/
def frame3 {R : Type} (es : Nat) (alu : Alu R) (x1 x2 y : Sl) : Env R where
  es := es
  alu := alu
  rd := fun a => x1.has es a || x2.has es a
  wr := y.has es
  argQ := fun off => match off with
    | 0 => x1.base | 8 => x1.len | 24 => x2.base | 32 => x2.len | 48 => y.base | 56 => y.len
    | _ => 0
  argF := alu.zero

/-- The frame of a call `f(c, x, y)` (addconst_amd64_stubs.go:10-25). -/
def frameC {R : Type} (es : Nat) (alu : Alu R) (c : R) (x y : Sl) : Env R where
  es := es
  alu := alu
  rd := x.has es
  wr := y.has es
  argQ := fun off => match off with
    | 8 => x.base | 16 => x.len | 32 => y.base | 40 => y.len
    | _ => 0
  argF := c

/-- The frame of a call `f(x1, x2)` (dotprod_amd64_stubs.go:10-25) or `f(x)`
(sum_amd64_stubs.go:10-25), which writes nothing. -/
def frame2 {R : Type} (es : Nat) (alu : Alu R) (x1 x2 : Sl) : Env R where
  es := es
  alu := alu
  rd := fun a => x1.has es a || x2.has es a
  wr := fun _ => false
  argQ := fun off => match off with
    | 0 => x1.base | 8 => x1.len | 24 => x2.base | 32 => x2.len
    | _ => 0
  argF := alu.zero

def frame1 {R : Type} (es : Nat) (alu : Alu R) (x : Sl) : Env R where
  es := es
  alu := alu
  rd := x.has es
  wr := fun _ => false
  argQ := fun off => match off with
    | 0 => x.base | 8 => x.len
    | _ => 0
  argF := alu.zero

/-- Features of the processor (matfuncs_amd64.go:11-15, cpu/cpu_x86.go), and SSE3, which the
package never asks for. -/
structure Cpu where
  avx : Bool
  avx2 : Bool
  fma : Bool
  sse3 : Bool
  deriving DecidableEq, Repr

/-- Element size. -/
inductive Sz | f32 | f64
  deriving DecidableEq, Repr

def Sz.bytes : Sz → Nat
  | .f32 => 4
  | .f64 => 8

/-- `add32`, `add64` after `init` (add_amd64.go:9-19). -/
def addFn (cpu : Cpu) : Sz → List Line
  | .f32 => if cpu.avx then addAVX32 else addSSE32
  | .f64 => if cpu.avx then addAVX64 else addSSE64

/-- `sub32`, `sub64` after `init` (sub_amd64.go:9-19). -/
def subFn (cpu : Cpu) : Sz → List Line
  | .f32 => if cpu.avx then subAVX32 else subSSE32
  | .f64 => if cpu.avx then subAVX64 else subSSE64

/-- `div32`, `div64` after `init` (div_amd64.go:9-19). -/
def divFn (cpu : Cpu) : Sz → List Line
  | .f32 => if cpu.avx then divAVX32 else divSSE32
  | .f64 => if cpu.avx then divAVX64 else divSSE64

/-- `addConst32`, `addConst64` after `init` (addconst_amd64.go:9-19). -/
def addConstFn (cpu : Cpu) : Sz → List Line
  | .f32 => if cpu.avx2 then addConstAVX32 else addConstSSE32
  | .f64 => if cpu.avx2 then addConstAVX64 else addConstSSE64

/-- `mulConst32`, `mulConst64` after `init` (mulconst_amd64.go:9-19). -/
def mulConstFn (cpu : Cpu) : Sz → List Line
  | .f32 => if cpu.avx2 then mulConstAVX32 else mulConstSSE32
  | .f64 => if cpu.avx2 then mulConstAVX64 else mulConstSSE64

/-- `dotProd32`, `dotProd64` after `init` (dotprod_amd64.go:9-19). -/
def dotProdFn (cpu : Cpu) : Sz → List Line
  | .f32 => if cpu.avx && cpu.fma then dotProdAVX32 else dotProdSSE32
  | .f64 => if cpu.avx && cpu.fma then dotProdAVX64 else dotProdSSE64

/-- `sum32`, `sum64` after `init` (sum_amd64.go:9-19). -/
def sumFn (cpu : Cpu) : Sz → List Line
  | .f32 => if cpu.avx then sumAVX32 else sumSSE32
  | .f64 => if cpu.avx then sumAVX64 else sumSSE64

/-- Can this processor execute the instruction?  SSE and SSE2 are part of every amd64; HADDPS and
HADDPD came with SSE3; VBROADCASTSS/SD from a register (not from memory) is AVX2; the fused
multiply-add is FMA; every other instruction with a V prefix is AVX. -/
def Cpu.can (cpu : Cpu) : Ins → Bool
  | .ld vex _ _ _ => !vex || cpu.avx
  | .st w _ _ => w != .y || cpu.avx
  | .op3 .. => cpu.avx
  | .zero3 _ => cpu.avx
  | .zeroAll => cpu.avx
  | .hadd3 .. => cpu.avx
  | .ext1 .. => cpu.avx
  | .fma .. => cpu.fma
  | .bcast .. => cpu.avx2
  | .hadd2 .. => cpu.sse3
  | _ => true

/-- The instructions of a routine. -/
def instrs : List Line → List Ins
  | [] => []
  | .i x :: rest => x :: instrs rest
  | _ :: rest => instrs rest

/-! ### The portable functions -/

section
variable {R : Type}

/-- Assignment to one cell. -/
def poke (m : Nat → R) (p : Nat) (v : R) : Nat → R := fun a => if a = p then v else m a

/-- The loop `for i, x1v := range x1 { y[i] = op(x1v, x2[i]) }`, from index `i`, `k` rounds. -/
def zipLoop (op : R → R → R) (es x1 x2 y : Nat) : Nat → Nat → (Nat → R) → (Nat → R)
  | 0, _, m => m
  | k + 1, i, m => zipLoop op es x1 x2 y k (i + 1)
      (poke m (y + es * i) (op (m (x1 + es * i)) (m (x2 + es * i))))

/-- `add`, `sub`, `div` (add_purego.go:19-28, sub_purego.go:19-28, div_purego.go:19-28), with the
operation as parameter.  The two bounds checks panic when `y` or `x2` is shorter than `x1`. -/
def puregoZip (op : R → R → R) (es : Nat) (x1 x2 y : Sl) (m : Nat → R) : Option (Nat → R) :=
  if x1.len = 0 then some m
  else if y.len < x1.len then none
  else if x2.len < x1.len then none
  else some (zipLoop op es x1.base x2.base y.base x1.len 0 m)

/-- The loop `for i, xv := range x { y[i] = op(xv, c) }`. -/
def constLoopGo (op : R → R → R) (c : R) (es x y : Nat) : Nat → Nat → (Nat → R) → (Nat → R)
  | 0, _, m => m
  | k + 1, i, m => constLoopGo op c es x y k (i + 1) (poke m (y + es * i) (op (m (x + es * i)) c))

/-- `addConst`, `mulConst` (addconst_purego.go:19-27, mulconst_purego.go:19-27). -/
def puregoConst (op : R → R → R) (c : R) (es : Nat) (x y : Sl) (m : Nat → R) : Option (Nat → R) :=
  if x.len = 0 then some m
  else if y.len < x.len then none
  else some (constLoopGo op c es x.base y.base x.len 0 m)

/-- The loop `for i, x1v := range x1 { y += x1v * x2[i] }`. -/
def dotLoop (alu : Alu R) (es x1 x2 : Nat) (m : Nat → R) : Nat → Nat → R → R
  | 0, _, y => y
  | k + 1, i, y =>
    dotLoop alu es x1 x2 m k (i + 1)
      (alu.op .add y (alu.op .mul (m (x1 + es * i)) (m (x2 + es * i))))

/-- `dotProd` (dotprod_purego.go:19-28). -/
def puregoDot (alu : Alu R) (es : Nat) (x1 x2 : Sl) (m : Nat → R) : Option R :=
  if x1.len = 0 then some alu.zero
  else if x2.len < x1.len then none
  else some (dotLoop alu es x1.base x2.base m x1.len 0 alu.zero)

/-- The loop `for _, v := range x { y += v }`. -/
def sumLoop (alu : Alu R) (es x : Nat) (m : Nat → R) : Nat → Nat → R → R
  | 0, _, y => y
  | k + 1, i, y => sumLoop alu es x m k (i + 1) (alu.op .add y (m (x + es * i)))

/-- `sum` (sum_purego.go:19-24). -/
def puregoSum (alu : Alu R) (es : Nat) (x : Sl) (m : Nat → R) : R :=
  sumLoop alu es x.base m x.len 0 alu.zero

end

end Verif.Asm
