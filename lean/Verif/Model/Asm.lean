/-
The amd64 assembly kernels of mat/internal/matfuncs: the machine.

The seven files add, sub, div, addconst, mulconst, dotprod, sum (`*_amd64.s`) hold 28 routines.
`Verif/Model/AsmCode.lean` is their text, one element of a list for every line; this file gives the
lines a meaning.  The routines use five integer registers, sixteen vector registers, the memory,
and the flags, in a few dozen instruction forms.

A memory cell holds one element (4 or 8 bytes): cell addresses are byte addresses, and an array
with base `p` has its `i`-th element at `p + es * i`.  Two arrays of the same element type never
overlap by a part of an element, so this loses nothing.

What the machine refuses to do (`none`, the run is stuck):
* reading a cell that may not be read, writing a cell that may not be written (`rd`, `wr`);
* a packed legacy-SSE instruction with a memory operand that is not 16-byte aligned (the processor
  raises a general-protection fault there; MOVUPS/MOVUPD and all VEX instructions do not);
* a subtraction or decrement below zero (the real register would wrap around).

Simplified: integer registers hold natural numbers, so an address does not wrap around at 2^64;
the flags are only the two that the routines test, zero and signed-less, the second one being set
only by CMPQ (each JL of the code directly follows a CMPQ).

Element arithmetic is a parameter (`Alu`): nothing is assumed about it, so that a statement for all
`Alu` holds for IEEE floats, bit by bit.
-/
set_option autoImplicit false
set_option linter.unusedSimpArgs false

namespace Verif.Asm

/-- The integer registers used by the routines. -/
inductive Reg | AX | BX | CX | DX | SI
  deriving DecidableEq, Repr

/-- Element arithmetic instructions: ADDPS…, SUBPS…, MULPS…, DIVPS…. -/
inductive Arith | add | sub | mul | div
  deriving DecidableEq, Repr

/-- Width of a vector instruction: scalar (SS, SD), X register (16 bytes), Y register (32 bytes). -/
inductive W | s | x | y
  deriving DecidableEq, Repr

/-- A memory operand `off(base)`. -/
structure Addr where
  base : Reg
  off : Nat
  deriving DecidableEq, Repr

/-- Source operand of an arithmetic instruction: memory or vector register. -/
inductive Src
  | m (a : Addr)
  | v (x : Nat)
  deriving DecidableEq, Repr

/-- Instructions, operands in the order of the Go assembler (destination last). -/
inductive Ins
  /-- `MOVQ name+off(FP), dst`: an integer argument from the frame. -/
  | argQ (off : Nat) (dst : Reg)
  /-- `MOVSS/MOVSD c+off(FP), dst`: the element argument. -/
  | argF (off : Nat) (dst : Nat)
  /-- `MOVSS/MOVSD src, ret+off(FP)`: the result. -/
  | retF (src : Nat) (off : Nat)
  /-- `MOVQ src, dst`. -/
  | movQ (src dst : Reg)
  /-- `ANDQ $imm, dst`. -/
  | andQ (imm : Nat) (dst : Reg)
  /-- `XORQ $imm, dst`. -/
  | xorQ (imm : Nat) (dst : Reg)
  /-- `SHRQ $imm, dst`. -/
  | shrQ (imm : Nat) (dst : Reg)
  /-- `ADDQ $imm, dst`. -/
  | addQ (imm : Nat) (dst : Reg)
  /-- `SUBQ $imm, dst`. -/
  | subQ (imm : Nat) (dst : Reg)
  /-- `INCQ dst`. -/
  | incQ (dst : Reg)
  /-- `DECQ dst`. -/
  | decQ (dst : Reg)
  /-- `CMPQ a, $imm`. -/
  | cmpQ (a : Reg) (imm : Nat)
  /-- `MOVUPS/MOVSS…` (`vex = false`) or `VMOVUPS/VMOVSS…` from memory. -/
  | ld (vex : Bool) (w : W) (a : Addr) (dst : Nat)
  /-- `(V)MOVUPS/(V)MOVSS…` to memory. -/
  | st (w : W) (src : Nat) (a : Addr)
  /-- Legacy two-operand arithmetic: `ADDPS src, dst` is `dst = dst + src`. -/
  | op2 (o : Arith) (w : W) (src : Src) (dst : Nat)
  /-- VEX three-operand arithmetic: `VSUBPS src2, src1, dst` is `dst = src1 - src2`. -/
  | op3 (o : Arith) (w : W) (src2 : Src) (src1 dst : Nat)
  /-- `VFMADD231PS src3, src2, dst`: `dst = src2 * src3 + dst`. -/
  | fma (w : W) (src3 : Src) (src2 dst : Nat)
  /-- `XORPS r, r`: clears the low 16 bytes. -/
  | zero2 (dst : Nat)
  /-- `VXORPS r, r, r`: clears the whole register. -/
  | zero3 (dst : Nat)
  /-- `VZEROALL`. -/
  | zeroAll
  /-- `HADDPS src, dst`. -/
  | hadd2 (src dst : Nat)
  /-- `VHADDPS src2, src1, dst`. -/
  | hadd3 (src2 src1 dst : Nat)
  /-- `VEXTRACTF128 $1, src, dst`: the high half of a Y register. -/
  | ext1 (src dst : Nat)
  /-- `VBROADCASTSS src, dst`: lane 0 into all lanes of a Y register. -/
  | bcast (src dst : Nat)
  /-- `SHUFPS $0, r, r` / `SHUFPD $0, r, r`: lane 0 into all lanes of an X register. -/
  | shuf0 (dst : Nat)
  deriving DecidableEq, Repr

/-- Labels of the routines. -/
inductive Lbl
  | unrolledLoop | singleRegisterLoop | alignmentLoop | unrolledLoops
  | unrolledLoop14 | unrolledLoop8 | unrolledLoop4 | unrolledLoop1
  | tail | tailLoop | reduce | end_
  deriving DecidableEq, Repr

/-- Conditional jumps: `JL`, `JE` = `JZ`, `JNZ`. -/
inductive Cond | l | z | nz
  deriving DecidableEq, Repr

/-- One line of a routine. -/
inductive Line
  | label (l : Lbl)
  | i (x : Ins)
  | jmp (l : Lbl)
  | jcc (c : Cond) (l : Lbl)
  | ret
  deriving DecidableEq, Repr

/-- Element arithmetic. -/
structure Alu (R : Type) where
  zero : R
  op : Arith → R → R → R
  fma : R → R → R → R

/-- What a run is given: element size in bytes, arithmetic, permissions, and arguments. -/
structure Env (R : Type) where
  es : Nat
  alu : Alu R
  rd : Nat → Bool
  wr : Nat → Bool
  /-- integer arguments by frame offset (bases and lengths of the slices) -/
  argQ : Nat → Nat
  /-- the element argument -/
  argF : R

/-- Machine state.  `v x l` is lane `l` of vector register `x`. -/
structure St (R : Type) where
  r : Reg → Nat
  v : Nat → Nat → R
  mem : Nat → R
  zf : Bool
  lt : Bool
  out : Option R

variable {R : Type}

/-- Number of elements of `es` bytes an instruction works on: 1, 16 bytes, 32 bytes. -/
def lanesOf (es : Nat) : W → Nat
  | .s => 1
  | .x => 16 / es
  | .y => 32 / es

def Env.lanes (E : Env R) (w : W) : Nat := lanesOf E.es w

def St.setR (s : St R) (d : Reg) (a : Nat) : St R :=
  { s with r := fun q => if q = d then a else s.r q }

def St.setV (s : St R) (d : Nat) (f : Nat → R) : St R :=
  { s with v := fun q => if q = d then f else s.v q }

/-- Address of a memory operand. -/
def St.addr (s : St R) (a : Addr) : Nat := s.r a.base + a.off

/-- May `n` lanes starting at address `p` be accessed? -/
def Env.ok (E : Env R) (perm : Nat → Bool) (p n : Nat) : Bool :=
  (List.range n).all fun l => perm (p + E.es * l)

/-- Lanes of a source operand; `aligned` demands 16-byte alignment of a memory operand. -/
def Env.src (E : Env R) (s : St R) (w : W) (aligned : Bool) : Src → Option (Nat → R)
  | .v x => some (s.v x)
  | .m a =>
    if E.ok E.rd (s.addr a) (E.lanes w) = true ∧ (aligned = true → s.addr a % 16 = 0) then
      some fun l => s.mem (s.addr a + E.es * l)
    else none

/-- The lanes of a register after a legacy instruction of `n` lanes: the others stay. -/
def keep (n : Nat) (f old : Nat → R) : Nat → R := fun l => if l < n then f l else old l

/-- The lanes of a register after a VEX instruction of `n` lanes: up to 16 bytes they come from
the first source, beyond that they are cleared. -/
def Env.vex (E : Env R) (n : Nat) (f src1 : Nat → R) : Nat → R := fun l =>
  if l < n then f l else if l < 16 / E.es then src1 l else E.alu.zero

/-- Writing `n` lanes to memory at address `p`. -/
def Env.write (E : Env R) (m : Nat → R) (p n : Nat) (f : Nat → R) : Nat → R := fun a =>
  if p ≤ a ∧ (a - p) % E.es = 0 ∧ (a - p) / E.es < n then f ((a - p) / E.es) else m a

/-- Horizontal addition on `n` lanes. -/
def Env.hadd (E : Env R) (n : Nat) (src1 src2 : Nat → R) : Nat → R := fun l =>
  if l < n / 2 then E.alu.op .add (src1 (2 * l)) (src1 (2 * l + 1))
  else E.alu.op .add (src2 (2 * (l - n / 2))) (src2 (2 * (l - n / 2) + 1))

/-- One instruction. -/
def exec (E : Env R) : Ins → St R → Option (St R)
  | .argQ off d, s => some (s.setR d (E.argQ off))
  | .argF _ d, s =>
    some (s.setV d (keep (16 / E.es) (fun l => if l = 0 then E.argF else E.alu.zero) (s.v d)))
  | .retF x _, s => some { s with out := some (s.v x 0) }
  | .movQ a d, s => some (s.setR d (s.r a))
  | .andQ k d, s => some { s.setR d (s.r d &&& k) with zf := (s.r d &&& k) == 0 }
  | .xorQ k d, s => some { s.setR d (s.r d ^^^ k) with zf := (s.r d ^^^ k) == 0 }
  | .shrQ k d, s => some { s.setR d (s.r d >>> k) with zf := (s.r d >>> k) == 0 }
  | .addQ k d, s => some { s.setR d (s.r d + k) with zf := (s.r d + k) == 0 }
  | .subQ k d, s =>
    if k ≤ s.r d then some { s.setR d (s.r d - k) with zf := (s.r d - k) == 0 } else none
  | .incQ d, s => some { s.setR d (s.r d + 1) with zf := (s.r d + 1) == 0 }
  | .decQ d, s =>
    if 1 ≤ s.r d then some { s.setR d (s.r d - 1) with zf := (s.r d - 1) == 0 } else none
  | .cmpQ a k, s => some { s with zf := s.r a == k, lt := decide (s.r a < k) }
  | .ld vex w a d, s =>
    if E.ok E.rd (s.addr a) (E.lanes w) = true then
      let f := fun l => if l < E.lanes w then s.mem (s.addr a + E.es * l) else E.alu.zero
      some (s.setV d (if vex then f else keep (16 / E.es) f (s.v d)))
    else none
  | .st w x a, s =>
    if E.ok E.wr (s.addr a) (E.lanes w) = true then
      some { s with mem := E.write s.mem (s.addr a) (E.lanes w) (s.v x) }
    else none
  | .op2 o w x d, s => do
    let f ← E.src s w (decide (w = .x)) x
    some (s.setV d (keep (E.lanes w) (fun l => E.alu.op o (s.v d l) (f l)) (s.v d)))
  | .op3 o w x a d, s => do
    let f ← E.src s w false x
    some (s.setV d (E.vex (E.lanes w) (fun l => E.alu.op o (s.v a l) (f l)) (s.v a)))
  | .fma w x a d, s => do
    let f ← E.src s w false x
    some (s.setV d (E.vex (E.lanes w) (fun l => E.alu.fma (s.v a l) (f l) (s.v d l)) (s.v d)))
  | .zero2 d, s => some (s.setV d (keep (16 / E.es) (fun _ => E.alu.zero) (s.v d)))
  | .zero3 d, s => some (s.setV d fun _ => E.alu.zero)
  | .zeroAll, s => some { s with v := fun _ _ => E.alu.zero }
  | .hadd2 x d, s =>
    some (s.setV d (keep (16 / E.es) (E.hadd (16 / E.es) (s.v d) (s.v x)) (s.v d)))
  | .hadd3 x a d, s =>
    some (s.setV d (E.vex (16 / E.es) (E.hadd (16 / E.es) (s.v a) (s.v x)) (s.v a)))
  | .ext1 x d, s =>
    some (s.setV d (E.vex (16 / E.es) (fun l => s.v x (16 / E.es + l)) (s.v x)))
  | .bcast x d, s => some (s.setV d fun _ => s.v x 0)
  | .shuf0 d, s => some (s.setV d (keep (16 / E.es) (fun _ => s.v d 0) (s.v d)))

/-- Is the jump taken? -/
def Cond.holds (s : St R) : Cond → Bool
  | .l => s.lt
  | .z => s.zf
  | .nz => !s.zf

/-- The lines after a label: where a jump continues. -/
def after (l : Lbl) : List Line → List Line
  | [] => []
  | .label k :: rest => if k = l then rest else after l rest
  | _ :: rest => after l rest

/-- A run of the routine `code` from the line at the head of the second argument to a `RET`.
A state in which the next instruction is refused has no run; neither has an endless loop. -/
inductive Run (E : Env R) (code : List Line) : List Line → St R → St R → Prop
  | label {l rest s s'} : Run E code rest s s' → Run E code (.label l :: rest) s s'
  | ins {x rest s s1 s'} : exec E x s = some s1 → Run E code rest s1 s' →
      Run E code (.i x :: rest) s s'
  | jmp {l rest s s'} : Run E code (after l code) s s' → Run E code (.jmp l :: rest) s s'
  | taken {c l rest s s'} : c.holds s = true → Run E code (after l code) s s' →
      Run E code (.jcc c l :: rest) s s'
  | falls {c l rest s s'} : c.holds s = false → Run E code rest s s' →
      Run E code (.jcc c l :: rest) s s'
  | ret {rest s} : Run E code (.ret :: rest) s s

/-- A call of the routine. -/
def Call (E : Env R) (code : List Line) (s s' : St R) : Prop := Run E code code s s'

end Verif.Asm
