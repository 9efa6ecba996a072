/-
The amd64 assembly kernels of mat/internal/f32/asm32 and mat/internal/f64/asm64 that matrices use:
the machine.  `Verif/Model/GonumCode.lean` is the text of the routines.

The machine is that of `Verif/Model/Asm.lean` (memory cells of one element, permissions, alignment
faults, no wrap-around) with the instructions of these routines: indexed addresses, LOOP, conditional
moves, the frame as operand, and a few more shuffles; only legacy SSE instructions occur.  The
numbers of elements and addresses are far below 2^63, so a signed comparison is that of natural
numbers; NEGQ is taken modulo 2^64.
-/
import Verif.Model.Asm
set_option autoImplicit false
set_option linter.unusedSimpArgs false

namespace Verif.Gonum

open Verif.Asm (Arith Alu W keep lanesOf)

/-- The integer registers. -/
inductive Reg | AX | BX | CX | DX | SI | DI | R8 | R9 | R10 | R11 | R12 | R13 | R14 | R15
  deriving DecidableEq, Repr

/-- A memory operand `off(base)` or `off(base)(idx*scale)`. -/
structure Addr where
  base : Reg
  idx : Option (Reg × Nat)
  off : Nat
  deriving DecidableEq, Repr

/-- Source operand of an arithmetic instruction: memory or vector register. -/
inductive Src
  | m (a : Addr)
  | v (x : Nat)
  deriving DecidableEq, Repr

/-- Instructions, operands in the order of the Go assembler (destination last). -/
inductive Ins
  /-- `MOVQ name+off(FP), dst` -/
  | argQ (off : Nat) (dst : Reg)
  /-- `MOVQ src, name+off(FP)` -/
  | setQ (src : Reg) (off : Nat)
  /-- `MOVSS/MOVSD name+off(FP), dst` -/
  | argF (off : Nat) (dst : Nat)
  /-- `MOVDDUP name+off(FP), dst` -/
  | argDup (off : Nat) (dst : Nat)
  /-- `MOVQ src, dst` -/
  | movQ (src dst : Reg)
  /-- `XORQ dst, dst` -/
  | clrQ (dst : Reg)
  /-- `ANDQ $imm, dst` -/
  | andQ (imm : Nat) (dst : Reg)
  /-- `XORQ $imm, dst` -/
  | xorQ (imm : Nat) (dst : Reg)
  /-- `SHRQ $imm, dst` -/
  | shrQ (imm : Nat) (dst : Reg)
  /-- `SHLQ $imm, dst` -/
  | shlQ (imm : Nat) (dst : Reg)
  /-- `ADDQ $imm, dst` -/
  | addQ (imm : Nat) (dst : Reg)
  /-- `ADDQ src, dst` -/
  | addR (src dst : Reg)
  /-- `SUBQ $imm, dst` -/
  | subQ (imm : Nat) (dst : Reg)
  /-- `INCQ dst` -/
  | incQ (dst : Reg)
  /-- `DECQ dst` -/
  | decQ (dst : Reg)
  /-- `IMULQ src, dst` -/
  | imulQ (src dst : Reg)
  /-- `NEGQ dst` -/
  | negQ (dst : Reg)
  /-- `LEAQ a, dst` -/
  | lea (a : Addr) (dst : Reg)
  /-- `CMPQ a, $imm` -/
  | cmpQ (a : Reg) (imm : Nat)
  /-- `CMPQ name+off(FP), b` -/
  | cmpArg (off : Nat) (b : Reg)
  /-- `CMPQ name+off(FP), $imm` -/
  | cmpArgI (off : Nat) (imm : Nat)
  /-- `TESTQ $imm, name+off(FP)` -/
  | testArg (imm off : Nat)
  /-- `CMOVQLE name+off(FP), dst` -/
  | cmovLeArg (off : Nat) (dst : Reg)
  /-- `CMOVQLT src, dst` -/
  | cmovLt (src dst : Reg)
  /-- `MOVUPS a, dst` (`w = x`), `MOVSS/MOVSD a, dst` (`w = s`) -/
  | ld (w : W) (a : Addr) (dst : Nat)
  /-- `MOVHPD a, dst`: the upper lane -/
  | ldHi (a : Addr) (dst : Nat)
  /-- `MOVDDUP a, dst`: both lanes -/
  | ldDup (a : Addr) (dst : Nat)
  /-- `MOVUPS src, a` (`w = x`), `MOVSS/MOVSD/MOVLPD src, a` (`w = s`) -/
  | st (w : W) (src : Nat) (a : Addr)
  /-- `MOVHPD src, a` -/
  | stHi (src : Nat) (a : Addr)
  /-- `MOVUPS/MOVAPS src, dst` between registers -/
  | movV (src dst : Nat)
  /-- `ADDPS src, dst` is `dst = dst + src`, and so on -/
  | op2 (o : Arith) (w : W) (src : Src) (dst : Nat)
  /-- `PXOR r, r`, `XORPS r, r`, `MOVSD $0.0, r` -/
  | zero (dst : Nat)
  /-- `SHUFPS $0, r, r` -/
  | shuf0 (dst : Nat)
  /-- `SHUFPD $imm, src, dst` -/
  | shufpd (imm src dst : Nat)
  /-- `HADDPD src, dst` -/
  | hadd (src dst : Nat)
  /-- `COMISD a, b`: the zero flag says equal or unordered -/
  | comi (a b : Nat)
  deriving DecidableEq, Repr

/-- Labels, those of the files. -/
inductive Lbl
  | axpy_align | axpy_no_trim | axpy_loop | axpy_tail4_start | axpy_tail4 | axpy_tail_start | axpy_tail
  | axpy_end
  | no_trim | loop | tail_start | tail_two | tail_one | end_
  | cs_loop | cs_tail_start | cs_tail | cs_end
  | gemv_clear | clear8 | clear4 | clear2 | clear1 | inc_clear | inc_clear4 | inc_clear2 | inc_clear1
  | prep_end | gemv_start
  | r4 | r4c4 | r4c2 | r4c1 | r4end | r4st_inc | r4inc
  | r2 | r2c4 | r2c2 | r2c1 | r2end | r2st_inc | r2inc
  | r1 | r1c4 | r1c2 | r1c1 | r1end
  | inc
  | inc_r4 | inc_r4c4 | inc_r4c2 | inc_r4c1 | inc_r4end | inc_r4st_inc | inc_r4inc
  | inc_r2 | inc_r2c4 | inc_r2c2 | inc_r2c1 | inc_r2end | inc_r2st_inc | inc_r2inc
  | inc_r1 | inc_r1c4 | inc_r1c2 | inc_r1c1 | inc_r1end | inc_end
  deriving DecidableEq, Repr

/-- One line of a routine. -/
inductive Line
  | label (l : Lbl)
  | i (x : Ins)
  | jmp (l : Lbl)
  /-- `JE`, `JZ` -/
  | jz (l : Lbl)
  /-- `JNE`, `JNZ` -/
  | jnz (l : Lbl)
  /-- `LOOP l`: decrement CX, jump unless it is 0 -/
  | loop (l : Lbl)
  | ret
  deriving DecidableEq, Repr

/-- What a run is given. -/
structure Env (R : Type) where
  es : Nat
  alu : Alu R
  /-- equal or unordered -/
  eqf : R → R → Bool
  rd : Nat → Bool
  wr : Nat → Bool
  /-- element arguments by frame offset -/
  argF : Nat → R

/-- Machine state; `frame` are the integer words of the frame by offset. -/
structure St (R : Type) where
  r : Reg → Nat
  v : Nat → Nat → R
  mem : Nat → R
  frame : Nat → Nat
  zf : Bool
  lt : Bool

variable {R : Type}

def Env.lanes (E : Env R) (w : W) : Nat := lanesOf E.es w

def St.setR (s : St R) (d : Reg) (a : Nat) : St R :=
  { s with r := fun q => if q = d then a else s.r q }

def St.setV (s : St R) (d : Nat) (f : Nat → R) : St R :=
  { s with v := fun q => if q = d then f else s.v q }

/-- Address of a memory operand. -/
def St.addr (s : St R) (a : Addr) : Nat :=
  (match a.idx with
    | none => s.r a.base
    | some (i, k) => s.r a.base + k * s.r i) + a.off

/-- May `n` lanes starting at address `p` be accessed? -/
def Env.ok (E : Env R) (perm : Nat → Bool) (p n : Nat) : Bool :=
  (List.range n).all fun l => perm (p + E.es * l)

/-- Writing `n` lanes to memory at address `p`. -/
def Env.write (E : Env R) (m : Nat → R) (p n : Nat) (f : Nat → R) : Nat → R := fun a =>
  if p ≤ a ∧ (a - p) % E.es = 0 ∧ (a - p) / E.es < n then f ((a - p) / E.es) else m a

/-- Lanes of a source operand; a packed instruction demands 16-byte alignment of a memory operand. -/
def Env.src (E : Env R) (s : St R) (w : W) : Src → Option (Nat → R)
  | .v x => some (s.v x)
  | .m a =>
    if E.ok E.rd (s.addr a) (E.lanes w) = true ∧ (w = .x → s.addr a % 16 = 0) then
      some fun l => s.mem (s.addr a + E.es * l)
    else none

/-- One instruction. -/
def exec (E : Env R) : Ins → St R → Option (St R)
  | .argQ off d, s => some (s.setR d (s.frame off))
  | .setQ a off, s => some { s with frame := fun q => if q = off then s.r a else s.frame q }
  | .argF off d, s =>
    some (s.setV d (keep (16 / E.es) (fun l => if l = 0 then E.argF off else E.alu.zero) (s.v d)))
  | .argDup off d, s => some (s.setV d (keep (16 / E.es) (fun _ => E.argF off) (s.v d)))
  | .movQ a d, s => some (s.setR d (s.r a))
  | .clrQ d, s => some { s.setR d 0 with zf := true, lt := false }
  | .andQ k d, s => some { s.setR d (s.r d &&& k) with zf := (s.r d &&& k) == 0, lt := false }
  | .xorQ k d, s => some { s.setR d (s.r d ^^^ k) with zf := (s.r d ^^^ k) == 0, lt := false }
  | .shrQ k d, s => some { s.setR d (s.r d >>> k) with zf := (s.r d >>> k) == 0, lt := false }
  | .shlQ k d, s => some { s.setR d (s.r d <<< k) with zf := (s.r d <<< k) == 0, lt := false }
  | .addQ k d, s => some { s.setR d (s.r d + k) with zf := (s.r d + k) == 0, lt := false }
  | .addR a d, s => some { s.setR d (s.r d + s.r a) with zf := (s.r d + s.r a) == 0, lt := false }
  | .subQ k d, s =>
    if k ≤ s.r d then some { s.setR d (s.r d - k) with zf := (s.r d - k) == 0, lt := false }
    else none
  | .incQ d, s => some { s.setR d (s.r d + 1) with zf := (s.r d + 1) == 0, lt := false }
  | .decQ d, s =>
    if 1 ≤ s.r d then some { s.setR d (s.r d - 1) with zf := (s.r d - 1) == 0, lt := false }
    else none
  | .imulQ a d, s => some (s.setR d (s.r d * s.r a))
  | .negQ d, s => some (s.setR d ((2 ^ 64 - s.r d % 2 ^ 64) % 2 ^ 64))
  | .lea a d, s => some (s.setR d (s.addr a))
  | .cmpQ a k, s => some { s with zf := s.r a == k, lt := decide (s.r a < k) }
  | .cmpArg off b, s => some { s with zf := s.frame off == s.r b, lt := decide (s.frame off < s.r b) }
  | .cmpArgI off k, s => some { s with zf := s.frame off == k, lt := decide (s.frame off < k) }
  | .testArg k off, s => some { s with zf := (s.frame off &&& k) == 0, lt := false }
  | .cmovLeArg off d, s => some (if s.zf || s.lt then s.setR d (s.frame off) else s)
  | .cmovLt a d, s => some (if s.lt then s.setR d (s.r a) else s)
  | .ld w a d, s =>
    if E.ok E.rd (s.addr a) (E.lanes w) = true then
      some (s.setV d (keep (16 / E.es)
        (fun l => if l < E.lanes w then s.mem (s.addr a + E.es * l) else E.alu.zero) (s.v d)))
    else none
  | .ldHi a d, s =>
    if E.ok E.rd (s.addr a) 1 = true then
      some (s.setV d fun l => if l = 1 then s.mem (s.addr a) else s.v d l)
    else none
  | .ldDup a d, s =>
    if E.ok E.rd (s.addr a) 1 = true then
      some (s.setV d (keep (16 / E.es) (fun _ => s.mem (s.addr a)) (s.v d)))
    else none
  | .st w x a, s =>
    if E.ok E.wr (s.addr a) (E.lanes w) = true then
      some { s with mem := E.write s.mem (s.addr a) (E.lanes w) (s.v x) }
    else none
  | .stHi x a, s =>
    if E.ok E.wr (s.addr a) 1 = true then
      some { s with mem := E.write s.mem (s.addr a) 1 (fun _ => s.v x 1) }
    else none
  | .movV a d, s => some (s.setV d (keep (16 / E.es) (s.v a) (s.v d)))
  | .op2 o w x d, s => do
    let f ← E.src s w x
    some (s.setV d (keep (E.lanes w) (fun l => E.alu.op o (s.v d l) (f l)) (s.v d)))
  | .zero d, s => some (s.setV d (keep (16 / E.es) (fun _ => E.alu.zero) (s.v d)))
  | .shuf0 d, s => some (s.setV d (keep (16 / E.es) (fun _ => s.v d 0) (s.v d)))
  | .shufpd k a d, s =>
    some (s.setV d (keep 2 (fun l => if l = 0 then s.v d (k % 2) else s.v a (k / 2 % 2)) (s.v d)))
  | .hadd x d, s =>
    some (s.setV d (keep 2 (fun l => if l = 0 then E.alu.op .add (s.v d 0) (s.v d 1)
      else E.alu.op .add (s.v x 0) (s.v x 1)) (s.v d)))
  | .comi a b, s => some { s with zf := E.eqf (s.v b 0) (s.v a 0), lt := false }

/-- The lines after a label: where a jump continues. -/
def after (l : Lbl) : List Line → List Line
  | [] => []
  | .label k :: rest => if k = l then rest else after l rest
  | _ :: rest => after l rest

/-- A run of the routine `code` from the line at the head of the second argument to a `RET`.
A state in which the next instruction is refused has no run; neither has an endless loop. -/
inductive Run (E : Env R) (code : List Line) : List Line → St R → St R → Prop
  | label {l rest s s'} : Run E code rest s s' → Run E code (.label l :: rest) s s'
  | ins {x rest s s1 s'} : exec E x s = some s1 → Run E code rest s1 s' →
      Run E code (.i x :: rest) s s'
  | jmp {l rest s s'} : Run E code (after l code) s s' → Run E code (.jmp l :: rest) s s'
  | jzT {l rest s s'} : s.zf = true → Run E code (after l code) s s' →
      Run E code (.jz l :: rest) s s'
  | jzF {l rest s s'} : s.zf = false → Run E code rest s s' → Run E code (.jz l :: rest) s s'
  | jnzT {l rest s s'} : s.zf = false → Run E code (after l code) s s' →
      Run E code (.jnz l :: rest) s s'
  | jnzF {l rest s s'} : s.zf = true → Run E code rest s s' → Run E code (.jnz l :: rest) s s'
  | loopT {l rest s s'} : 1 < s.r .CX → Run E code (after l code) (s.setR .CX (s.r .CX - 1)) s' →
      Run E code (.loop l :: rest) s s'
  | loopF {l rest s s'} : s.r .CX = 1 → Run E code rest (s.setR .CX 0) s' →
      Run E code (.loop l :: rest) s s'
  | ret {rest s} : Run E code (.ret :: rest) s s

/-- A call of the routine. -/
def Call (E : Env R) (code : List Line) (s s' : St R) : Prop := Run E code code s s'

end Verif.Gonum
