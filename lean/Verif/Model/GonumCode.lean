/-
The text of the assembly routines `AxpyUnitary`, `AxpyUnitaryTo` (32 and 64 bits), `CumSum` and `GemvN`
(64 bits) of mat/internal/f32/asm32 and mat/internal/f64/asm64, one list element for every label and
instruction, in the order of the file, macros expanded.  The comment of an element has the line
number and the line.  Labels, operands and constants are those of the file (constants in decimal);
`end` is written `end_`.  The element size is not part of an instruction here: `Env.es` is 4 for the
32-bit and 8 for the 64-bit routines.
-/
import Verif.Model.Gonum
set_option autoImplicit false
set_option maxRecDepth 4000

namespace Verif.Gonum

/-- `AxpyUnitary` of 32 bits, mat/internal/f32/asm32/axpyunitary_amd64.s from line 10. -/
def axpyUnitary32 : List Line := [
  .i (.argQ 8 .SI)  -- 11: MOVQ x_base+8(FP), SI
  , .i (.argQ 32 .DI)  -- 12: MOVQ y_base+32(FP), DI
  , .i (.argQ 16 .BX)  -- 13: MOVQ x_len+16(FP), BX
  , .i (.cmpArg 40 .BX)  -- 14: CMPQ y_len+40(FP), BX
  , .i (.cmovLeArg 40 .BX)  -- 15: CMOVQLE y_len+40(FP), BX
  , .i (.cmpQ .BX 0)  -- 16: CMPQ BX, $0
  , .jz .axpy_end  -- 17: JE axpy_end
  , .i (.argF 0 0)  -- 18: MOVSS alpha+0(FP), X0
  , .i (.shuf0 0)  -- 19: SHUFPS $0, X0, X0
  , .i (.clrQ .AX)  -- 20: XORQ AX, AX
  , .i (.zero 2)  -- 21: PXOR X2, X2
  , .i (.zero 3)  -- 22: PXOR X3, X3
  , .i (.movQ .DI .CX)  -- 23: MOVQ DI, CX
  , .i (.andQ 15 .CX)  -- 24: ANDQ $0xF, CX
  , .jz .axpy_no_trim  -- 25: JZ axpy_no_trim
  , .i (.xorQ 15 .CX)  -- 27: XORQ $0xF, CX
  , .i (.incQ .CX)  -- 28: INCQ CX
  , .i (.shrQ 2 .CX)  -- 29: SHRQ $2, CX
  , .label .axpy_align  -- 31: axpy_align:
  , .i (.ld .s ⟨.SI, some (.AX, 4), 0⟩ 2)  -- 32: MOVSS (SI)(AX*4), X2
  , .i (.op2 .mul .s (.v 0) 2)  -- 33: MULSS X0, X2
  , .i (.op2 .add .s (.m ⟨.DI, some (.AX, 4), 0⟩) 2)  -- 34: ADDSS (DI)(AX*4), X2
  , .i (.st .s 2 ⟨.DI, some (.AX, 4), 0⟩)  -- 35: MOVSS X2, (DI)(AX*4)
  , .i (.incQ .AX)  -- 36: INCQ AX
  , .i (.decQ .BX)  -- 37: DECQ BX
  , .jz .axpy_end  -- 38: JZ axpy_end
  , .loop .axpy_align  -- 39: LOOP axpy_align
  , .label .axpy_no_trim  -- 41: axpy_no_trim:
  , .i (.movV 0 1)  -- 42: MOVUPS X0, X1
  , .i (.movQ .BX .CX)  -- 43: MOVQ BX, CX
  , .i (.andQ 15 .BX)  -- 44: ANDQ $0xF, BX
  , .i (.shrQ 4 .CX)  -- 45: SHRQ $4, CX
  , .jz .axpy_tail4_start  -- 46: JZ axpy_tail4_start
  , .label .axpy_loop  -- 48: axpy_loop:
  , .i (.ld .x ⟨.SI, some (.AX, 4), 0⟩ 2)  -- 49: MOVUPS (SI)(AX*4), X2
  , .i (.ld .x ⟨.SI, some (.AX, 4), 16⟩ 3)  -- 50: MOVUPS 16(SI)(AX*4), X3
  , .i (.ld .x ⟨.SI, some (.AX, 4), 32⟩ 4)  -- 51: MOVUPS 32(SI)(AX*4), X4
  , .i (.ld .x ⟨.SI, some (.AX, 4), 48⟩ 5)  -- 52: MOVUPS 48(SI)(AX*4), X5
  , .i (.op2 .mul .x (.v 0) 2)  -- 53: MULPS X0, X2
  , .i (.op2 .mul .x (.v 1) 3)  -- 54: MULPS X1, X3
  , .i (.op2 .mul .x (.v 0) 4)  -- 55: MULPS X0, X4
  , .i (.op2 .mul .x (.v 1) 5)  -- 56: MULPS X1, X5
  , .i (.op2 .add .x (.m ⟨.DI, some (.AX, 4), 0⟩) 2)  -- 57: ADDPS (DI)(AX*4), X2
  , .i (.op2 .add .x (.m ⟨.DI, some (.AX, 4), 16⟩) 3)  -- 58: ADDPS 16(DI)(AX*4), X3
  , .i (.op2 .add .x (.m ⟨.DI, some (.AX, 4), 32⟩) 4)  -- 59: ADDPS 32(DI)(AX*4), X4
  , .i (.op2 .add .x (.m ⟨.DI, some (.AX, 4), 48⟩) 5)  -- 60: ADDPS 48(DI)(AX*4), X5
  , .i (.st .x 2 ⟨.DI, some (.AX, 4), 0⟩)  -- 61: MOVUPS X2, (DI)(AX*4)
  , .i (.st .x 3 ⟨.DI, some (.AX, 4), 16⟩)  -- 62: MOVUPS X3, 16(DI)(AX*4)
  , .i (.st .x 4 ⟨.DI, some (.AX, 4), 32⟩)  -- 63: MOVUPS X4, 32(DI)(AX*4)
  , .i (.st .x 5 ⟨.DI, some (.AX, 4), 48⟩)  -- 64: MOVUPS X5, 48(DI)(AX*4)
  , .i (.addQ 16 .AX)  -- 65: ADDQ $16, AX
  , .loop .axpy_loop  -- 66: LOOP axpy_loop
  , .i (.cmpQ .BX 0)  -- 67: CMPQ BX, $0
  , .jz .axpy_end  -- 68: JE axpy_end
  , .label .axpy_tail4_start  -- 70: axpy_tail4_start:
  , .i (.movQ .BX .CX)  -- 71: MOVQ BX, CX
  , .i (.shrQ 2 .CX)  -- 72: SHRQ $2, CX
  , .jz .axpy_tail_start  -- 73: JZ axpy_tail_start
  , .label .axpy_tail4  -- 75: axpy_tail4:
  , .i (.ld .x ⟨.SI, some (.AX, 4), 0⟩ 2)  -- 76: MOVUPS (SI)(AX*4), X2
  , .i (.op2 .mul .x (.v 0) 2)  -- 77: MULPS X0, X2
  , .i (.op2 .add .x (.m ⟨.DI, some (.AX, 4), 0⟩) 2)  -- 78: ADDPS (DI)(AX*4), X2
  , .i (.st .x 2 ⟨.DI, some (.AX, 4), 0⟩)  -- 79: MOVUPS X2, (DI)(AX*4)
  , .i (.addQ 4 .AX)  -- 80: ADDQ $4, AX
  , .loop .axpy_tail4  -- 81: LOOP axpy_tail4
  , .label .axpy_tail_start  -- 83: axpy_tail_start:
  , .i (.movQ .BX .CX)  -- 84: MOVQ BX, CX
  , .i (.andQ 3 .CX)  -- 85: ANDQ $3, CX
  , .jz .axpy_end  -- 86: JZ axpy_end
  , .label .axpy_tail  -- 88: axpy_tail:
  , .i (.ld .s ⟨.SI, some (.AX, 4), 0⟩ 1)  -- 89: MOVSS (SI)(AX*4), X1
  , .i (.op2 .mul .s (.v 0) 1)  -- 90: MULSS X0, X1
  , .i (.op2 .add .s (.m ⟨.DI, some (.AX, 4), 0⟩) 1)  -- 91: ADDSS (DI)(AX*4), X1
  , .i (.st .s 1 ⟨.DI, some (.AX, 4), 0⟩)  -- 92: MOVSS X1, (DI)(AX*4)
  , .i (.incQ .AX)  -- 93: INCQ AX
  , .loop .axpy_tail  -- 94: LOOP axpy_tail
  , .label .axpy_end  -- 96: axpy_end:
  , .ret  -- 97: RET
]

/-- `AxpyUnitaryTo` of 32 bits, mat/internal/f32/asm32/axpyunitaryto_amd64.s from line 10. -/
def axpyUnitaryTo32 : List Line := [
  .i (.argQ 0 .DI)  -- 11: MOVQ dst_base+0(FP), DI
  , .i (.argQ 32 .SI)  -- 12: MOVQ x_base+32(FP), SI
  , .i (.argQ 56 .DX)  -- 13: MOVQ y_base+56(FP), DX
  , .i (.argQ 40 .BX)  -- 14: MOVQ x_len+40(FP), BX
  , .i (.cmpArg 64 .BX)  -- 15: CMPQ y_len+64(FP), BX
  , .i (.cmovLeArg 64 .BX)  -- 16: CMOVQLE y_len+64(FP), BX
  , .i (.cmpArg 8 .BX)  -- 17: CMPQ dst_len+8(FP), BX
  , .i (.cmovLeArg 8 .BX)  -- 18: CMOVQLE dst_len+8(FP), BX
  , .i (.cmpQ .BX 0)  -- 19: CMPQ BX, $0
  , .jz .axpy_end  -- 20: JE axpy_end
  , .i (.argF 24 0)  -- 21: MOVSS alpha+24(FP), X0
  , .i (.shuf0 0)  -- 22: SHUFPS $0, X0, X0
  , .i (.clrQ .AX)  -- 23: XORQ AX, AX
  , .i (.movQ .DX .CX)  -- 24: MOVQ DX, CX
  , .i (.andQ 15 .CX)  -- 25: ANDQ $0xF, CX
  , .jz .axpy_no_trim  -- 26: JZ axpy_no_trim
  , .i (.xorQ 15 .CX)  -- 28: XORQ $0xF, CX
  , .i (.incQ .CX)  -- 29: INCQ CX
  , .i (.shrQ 2 .CX)  -- 30: SHRQ $2, CX
  , .label .axpy_align  -- 32: axpy_align:
  , .i (.ld .s ⟨.SI, some (.AX, 4), 0⟩ 2)  -- 33: MOVSS (SI)(AX*4), X2
  , .i (.op2 .mul .s (.v 0) 2)  -- 34: MULSS X0, X2
  , .i (.op2 .add .s (.m ⟨.DX, some (.AX, 4), 0⟩) 2)  -- 35: ADDSS (DX)(AX*4), X2
  , .i (.st .s 2 ⟨.DI, some (.AX, 4), 0⟩)  -- 36: MOVSS X2, (DI)(AX*4)
  , .i (.incQ .AX)  -- 37: INCQ AX
  , .i (.decQ .BX)  -- 38: DECQ BX
  , .jz .axpy_end  -- 39: JZ axpy_end
  , .loop .axpy_align  -- 40: LOOP axpy_align
  , .label .axpy_no_trim  -- 42: axpy_no_trim:
  , .i (.movV 0 1)  -- 43: MOVUPS X0, X1
  , .i (.movQ .BX .CX)  -- 44: MOVQ BX, CX
  , .i (.andQ 15 .BX)  -- 45: ANDQ $0xF, BX
  , .i (.shrQ 4 .CX)  -- 46: SHRQ $4, CX
  , .jz .axpy_tail4_start  -- 47: JZ axpy_tail4_start
  , .label .axpy_loop  -- 49: axpy_loop:
  , .i (.ld .x ⟨.SI, some (.AX, 4), 0⟩ 2)  -- 50: MOVUPS (SI)(AX*4), X2
  , .i (.ld .x ⟨.SI, some (.AX, 4), 16⟩ 3)  -- 51: MOVUPS 16(SI)(AX*4), X3
  , .i (.ld .x ⟨.SI, some (.AX, 4), 32⟩ 4)  -- 52: MOVUPS 32(SI)(AX*4), X4
  , .i (.ld .x ⟨.SI, some (.AX, 4), 48⟩ 5)  -- 53: MOVUPS 48(SI)(AX*4), X5
  , .i (.op2 .mul .x (.v 0) 2)  -- 54: MULPS X0, X2
  , .i (.op2 .mul .x (.v 1) 3)  -- 55: MULPS X1, X3
  , .i (.op2 .mul .x (.v 0) 4)  -- 56: MULPS X0, X4
  , .i (.op2 .mul .x (.v 1) 5)  -- 57: MULPS X1, X5
  , .i (.op2 .add .x (.m ⟨.DX, some (.AX, 4), 0⟩) 2)  -- 58: ADDPS (DX)(AX*4), X2
  , .i (.op2 .add .x (.m ⟨.DX, some (.AX, 4), 16⟩) 3)  -- 59: ADDPS 16(DX)(AX*4), X3
  , .i (.op2 .add .x (.m ⟨.DX, some (.AX, 4), 32⟩) 4)  -- 60: ADDPS 32(DX)(AX*4), X4
  , .i (.op2 .add .x (.m ⟨.DX, some (.AX, 4), 48⟩) 5)  -- 61: ADDPS 48(DX)(AX*4), X5
  , .i (.st .x 2 ⟨.DI, some (.AX, 4), 0⟩)  -- 62: MOVUPS X2, (DI)(AX*4)
  , .i (.st .x 3 ⟨.DI, some (.AX, 4), 16⟩)  -- 63: MOVUPS X3, 16(DI)(AX*4)
  , .i (.st .x 4 ⟨.DI, some (.AX, 4), 32⟩)  -- 64: MOVUPS X4, 32(DI)(AX*4)
  , .i (.st .x 5 ⟨.DI, some (.AX, 4), 48⟩)  -- 65: MOVUPS X5, 48(DI)(AX*4)
  , .i (.addQ 16 .AX)  -- 66: ADDQ $16, AX
  , .loop .axpy_loop  -- 67: LOOP axpy_loop
  , .i (.cmpQ .BX 0)  -- 68: CMPQ BX, $0
  , .jz .axpy_end  -- 69: JE axpy_end
  , .label .axpy_tail4_start  -- 71: axpy_tail4_start:
  , .i (.movQ .BX .CX)  -- 72: MOVQ BX, CX
  , .i (.shrQ 2 .CX)  -- 73: SHRQ $2, CX
  , .jz .axpy_tail_start  -- 74: JZ axpy_tail_start
  , .label .axpy_tail4  -- 76: axpy_tail4:
  , .i (.ld .x ⟨.SI, some (.AX, 4), 0⟩ 2)  -- 77: MOVUPS (SI)(AX*4), X2
  , .i (.op2 .mul .x (.v 0) 2)  -- 78: MULPS X0, X2
  , .i (.op2 .add .x (.m ⟨.DX, some (.AX, 4), 0⟩) 2)  -- 79: ADDPS (DX)(AX*4), X2
  , .i (.st .x 2 ⟨.DI, some (.AX, 4), 0⟩)  -- 80: MOVUPS X2, (DI)(AX*4)
  , .i (.addQ 4 .AX)  -- 81: ADDQ $4, AX
  , .loop .axpy_tail4  -- 82: LOOP axpy_tail4
  , .label .axpy_tail_start  -- 84: axpy_tail_start:
  , .i (.movQ .BX .CX)  -- 85: MOVQ BX, CX
  , .i (.andQ 3 .CX)  -- 86: ANDQ $3, CX
  , .jz .axpy_end  -- 87: JZ axpy_end
  , .label .axpy_tail  -- 89: axpy_tail:
  , .i (.ld .s ⟨.SI, some (.AX, 4), 0⟩ 1)  -- 90: MOVSS (SI)(AX*4), X1
  , .i (.op2 .mul .s (.v 0) 1)  -- 91: MULSS X0, X1
  , .i (.op2 .add .s (.m ⟨.DX, some (.AX, 4), 0⟩) 1)  -- 92: ADDSS (DX)(AX*4), X1
  , .i (.st .s 1 ⟨.DI, some (.AX, 4), 0⟩)  -- 93: MOVSS X1, (DI)(AX*4)
  , .i (.incQ .AX)  -- 94: INCQ AX
  , .loop .axpy_tail  -- 95: LOOP axpy_tail
  , .label .axpy_end  -- 97: axpy_end:
  , .ret  -- 98: RET
]

/-- `AxpyUnitary` of 64 bits, mat/internal/f64/asm64/axpyunitary_amd64.s from line 51. -/
def axpyUnitary64 : List Line := [
  .i (.argQ 8 .SI)  -- 52: MOVQ x_base+8(FP), X_PTR
  , .i (.argQ 32 .DI)  -- 53: MOVQ y_base+32(FP), Y_PTR
  , .i (.argQ 16 .CX)  -- 54: MOVQ x_len+16(FP), LEN
  , .i (.cmpArg 40 .CX)  -- 55: CMPQ y_len+40(FP), LEN
  , .i (.cmovLeArg 40 .CX)  -- 56: CMOVQLE y_len+40(FP), LEN
  , .i (.cmpQ .CX 0)  -- 57: CMPQ LEN, $0
  , .jz .end_  -- 58: JE end
  , .i (.clrQ .AX)  -- 59: XORQ IDX, IDX
  , .i (.argF 0 0)  -- 60: MOVSD alpha+0(FP), ALPHA
  , .i (.shufpd 0 0 0)  -- 61: SHUFPD $0, ALPHA, ALPHA
  , .i (.movV 0 1)  -- 62: MOVUPS ALPHA, ALPHA_2
  , .i (.movQ .DI .BX)  -- 63: MOVQ Y_PTR, TAIL
  , .i (.andQ 15 .BX)  -- 64: ANDQ $15, TAIL
  , .jz .no_trim  -- 65: JZ no_trim
  , .i (.ld .s ⟨.SI, none, 0⟩ 2)  -- 68: MOVSD (X_PTR), X2
  , .i (.op2 .mul .s (.v 0) 2)  -- 69: MULSD ALPHA, X2
  , .i (.op2 .add .s (.m ⟨.DI, none, 0⟩) 2)  -- 70: ADDSD (Y_PTR), X2
  , .i (.st .s 2 ⟨.DI, none, 0⟩)  -- 71: MOVSD X2, (DST_PTR)
  , .i (.incQ .AX)  -- 72: INCQ IDX
  , .i (.decQ .CX)  -- 73: DECQ LEN
  , .jz .end_  -- 74: JZ end
  , .label .no_trim  -- 76: no_trim:
  , .i (.movQ .CX .BX)  -- 77: MOVQ LEN, TAIL
  , .i (.andQ 7 .BX)  -- 78: ANDQ $7, TAIL
  , .i (.shrQ 3 .CX)  -- 79: SHRQ $3, LEN
  , .jz .tail_start  -- 80: JZ tail_start
  , .label .loop  -- 82: loop:
  , .i (.ld .x ⟨.SI, some (.AX, 8), 0⟩ 2)  -- 84: MOVUPS (X_PTR)(IDX*8), X2
  , .i (.ld .x ⟨.SI, some (.AX, 8), 16⟩ 3)  -- 85: MOVUPS 16(X_PTR)(IDX*8), X3
  , .i (.ld .x ⟨.SI, some (.AX, 8), 32⟩ 4)  -- 86: MOVUPS 32(X_PTR)(IDX*8), X4
  , .i (.ld .x ⟨.SI, some (.AX, 8), 48⟩ 5)  -- 87: MOVUPS 48(X_PTR)(IDX*8), X5
  , .i (.op2 .mul .x (.v 0) 2)  -- 89: MULPD ALPHA, X2
  , .i (.op2 .mul .x (.v 1) 3)  -- 90: MULPD ALPHA_2, X3
  , .i (.op2 .mul .x (.v 0) 4)  -- 91: MULPD ALPHA, X4
  , .i (.op2 .mul .x (.v 1) 5)  -- 92: MULPD ALPHA_2, X5
  , .i (.op2 .add .x (.m ⟨.DI, some (.AX, 8), 0⟩) 2)  -- 94: ADDPD (Y_PTR)(IDX*8), X2
  , .i (.op2 .add .x (.m ⟨.DI, some (.AX, 8), 16⟩) 3)  -- 95: ADDPD 16(Y_PTR)(IDX*8), X3
  , .i (.op2 .add .x (.m ⟨.DI, some (.AX, 8), 32⟩) 4)  -- 96: ADDPD 32(Y_PTR)(IDX*8), X4
  , .i (.op2 .add .x (.m ⟨.DI, some (.AX, 8), 48⟩) 5)  -- 97: ADDPD 48(Y_PTR)(IDX*8), X5
  , .i (.st .x 2 ⟨.DI, some (.AX, 8), 0⟩)  -- 99: MOVUPS X2, (DST_PTR)(IDX*8)
  , .i (.st .x 3 ⟨.DI, some (.AX, 8), 16⟩)  -- 100: MOVUPS X3, 16(DST_PTR)(IDX*8)
  , .i (.st .x 4 ⟨.DI, some (.AX, 8), 32⟩)  -- 101: MOVUPS X4, 32(DST_PTR)(IDX*8)
  , .i (.st .x 5 ⟨.DI, some (.AX, 8), 48⟩)  -- 102: MOVUPS X5, 48(DST_PTR)(IDX*8)
  , .i (.addQ 8 .AX)  -- 104: ADDQ $8, IDX
  , .i (.decQ .CX)  -- 105: DECQ LEN
  , .jnz .loop  -- 106: JNZ loop
  , .i (.cmpQ .BX 0)  -- 107: CMPQ TAIL, $0
  , .jz .end_  -- 108: JE end
  , .label .tail_start  -- 110: tail_start:
  , .i (.movQ .BX .CX)  -- 111: MOVQ TAIL, LEN
  , .i (.shrQ 1 .CX)  -- 112: SHRQ $1, LEN
  , .jz .tail_one  -- 113: JZ tail_one
  , .label .tail_two  -- 115: tail_two:
  , .i (.ld .x ⟨.SI, some (.AX, 8), 0⟩ 2)  -- 116: MOVUPS (X_PTR)(IDX*8), X2
  , .i (.op2 .mul .x (.v 0) 2)  -- 117: MULPD ALPHA, X2
  , .i (.op2 .add .x (.m ⟨.DI, some (.AX, 8), 0⟩) 2)  -- 118: ADDPD (Y_PTR)(IDX*8), X2
  , .i (.st .x 2 ⟨.DI, some (.AX, 8), 0⟩)  -- 119: MOVUPS X2, (DST_PTR)(IDX*8)
  , .i (.addQ 2 .AX)  -- 120: ADDQ $2, IDX
  , .i (.decQ .CX)  -- 121: DECQ LEN
  , .jnz .tail_two  -- 122: JNZ tail_two
  , .i (.andQ 1 .BX)  -- 124: ANDQ $1, TAIL
  , .jz .end_  -- 125: JZ end
  , .label .tail_one  -- 127: tail_one:
  , .i (.ld .s ⟨.SI, some (.AX, 8), 0⟩ 2)  -- 128: MOVSD (X_PTR)(IDX*8), X2
  , .i (.op2 .mul .s (.v 0) 2)  -- 129: MULSD ALPHA, X2
  , .i (.op2 .add .s (.m ⟨.DI, some (.AX, 8), 0⟩) 2)  -- 130: ADDSD (Y_PTR)(IDX*8), X2
  , .i (.st .s 2 ⟨.DI, some (.AX, 8), 0⟩)  -- 131: MOVSD X2, (DST_PTR)(IDX*8)
  , .label .end_  -- 133: end:
  , .ret  -- 134: RET
]

/-- `AxpyUnitaryTo` of 64 bits, mat/internal/f64/asm64/axpyunitaryto_amd64.s from line 51. -/
def axpyUnitaryTo64 : List Line := [
  .i (.argQ 0 .DI)  -- 52: MOVQ dst_base+0(FP), DST_PTR
  , .i (.argQ 32 .SI)  -- 53: MOVQ x_base+32(FP), X_PTR
  , .i (.argQ 56 .DX)  -- 54: MOVQ y_base+56(FP), Y_PTR
  , .i (.argQ 40 .CX)  -- 55: MOVQ x_len+40(FP), LEN
  , .i (.cmpArg 64 .CX)  -- 56: CMPQ y_len+64(FP), LEN
  , .i (.cmovLeArg 64 .CX)  -- 57: CMOVQLE y_len+64(FP), LEN
  , .i (.cmpArg 8 .CX)  -- 58: CMPQ dst_len+8(FP), LEN
  , .i (.cmovLeArg 8 .CX)  -- 59: CMOVQLE dst_len+8(FP), LEN
  , .i (.cmpQ .CX 0)  -- 61: CMPQ LEN, $0
  , .jz .end_  -- 62: JE end
  , .i (.clrQ .AX)  -- 64: XORQ IDX, IDX
  , .i (.argF 24 0)  -- 65: MOVSD alpha+24(FP), ALPHA
  , .i (.shufpd 0 0 0)  -- 66: SHUFPD $0, ALPHA, ALPHA
  , .i (.movQ .DX .BX)  -- 67: MOVQ Y_PTR, TAIL
  , .i (.andQ 15 .BX)  -- 68: ANDQ $15, TAIL
  , .jz .no_trim  -- 69: JZ no_trim
  , .i (.ld .s ⟨.SI, none, 0⟩ 2)  -- 72: MOVSD (X_PTR), X2
  , .i (.op2 .mul .s (.v 0) 2)  -- 73: MULSD ALPHA, X2
  , .i (.op2 .add .s (.m ⟨.DX, none, 0⟩) 2)  -- 74: ADDSD (Y_PTR), X2
  , .i (.st .s 2 ⟨.DI, none, 0⟩)  -- 75: MOVSD X2, (DST_PTR)
  , .i (.incQ .AX)  -- 76: INCQ IDX
  , .i (.decQ .CX)  -- 77: DECQ LEN
  , .jz .end_  -- 78: JZ end
  , .label .no_trim  -- 80: no_trim:
  , .i (.movQ .CX .BX)  -- 81: MOVQ LEN, TAIL
  , .i (.andQ 7 .BX)  -- 82: ANDQ $7, TAIL
  , .i (.shrQ 3 .CX)  -- 83: SHRQ $3, LEN
  , .jz .tail_start  -- 84: JZ tail_start
  , .i (.movV 0 1)  -- 86: MOVUPS ALPHA, ALPHA_2
  , .label .loop  -- 88: loop:
  , .i (.ld .x ⟨.SI, some (.AX, 8), 0⟩ 2)  -- 90: MOVUPS (X_PTR)(IDX*8), X2
  , .i (.ld .x ⟨.SI, some (.AX, 8), 16⟩ 3)  -- 91: MOVUPS 16(X_PTR)(IDX*8), X3
  , .i (.ld .x ⟨.SI, some (.AX, 8), 32⟩ 4)  -- 92: MOVUPS 32(X_PTR)(IDX*8), X4
  , .i (.ld .x ⟨.SI, some (.AX, 8), 48⟩ 5)  -- 93: MOVUPS 48(X_PTR)(IDX*8), X5
  , .i (.op2 .mul .x (.v 0) 2)  -- 95: MULPD ALPHA, X2
  , .i (.op2 .mul .x (.v 1) 3)  -- 96: MULPD ALPHA_2, X3
  , .i (.op2 .mul .x (.v 0) 4)  -- 97: MULPD ALPHA, X4
  , .i (.op2 .mul .x (.v 1) 5)  -- 98: MULPD ALPHA_2, X5
  , .i (.op2 .add .x (.m ⟨.DX, some (.AX, 8), 0⟩) 2)  -- 100: ADDPD (Y_PTR)(IDX*8), X2
  , .i (.op2 .add .x (.m ⟨.DX, some (.AX, 8), 16⟩) 3)  -- 101: ADDPD 16(Y_PTR)(IDX*8), X3
  , .i (.op2 .add .x (.m ⟨.DX, some (.AX, 8), 32⟩) 4)  -- 102: ADDPD 32(Y_PTR)(IDX*8), X4
  , .i (.op2 .add .x (.m ⟨.DX, some (.AX, 8), 48⟩) 5)  -- 103: ADDPD 48(Y_PTR)(IDX*8), X5
  , .i (.st .x 2 ⟨.DI, some (.AX, 8), 0⟩)  -- 105: MOVUPS X2, (DST_PTR)(IDX*8)
  , .i (.st .x 3 ⟨.DI, some (.AX, 8), 16⟩)  -- 106: MOVUPS X3, 16(DST_PTR)(IDX*8)
  , .i (.st .x 4 ⟨.DI, some (.AX, 8), 32⟩)  -- 107: MOVUPS X4, 32(DST_PTR)(IDX*8)
  , .i (.st .x 5 ⟨.DI, some (.AX, 8), 48⟩)  -- 108: MOVUPS X5, 48(DST_PTR)(IDX*8)
  , .i (.addQ 8 .AX)  -- 110: ADDQ $8, IDX
  , .i (.decQ .CX)  -- 111: DECQ LEN
  , .jnz .loop  -- 112: JNZ loop
  , .i (.cmpQ .BX 0)  -- 113: CMPQ TAIL, $0
  , .jz .end_  -- 114: JE end
  , .label .tail_start  -- 116: tail_start:
  , .i (.movQ .BX .CX)  -- 117: MOVQ TAIL, LEN
  , .i (.shrQ 1 .CX)  -- 118: SHRQ $1, LEN
  , .jz .tail_one  -- 119: JZ tail_one
  , .label .tail_two  -- 121: tail_two:
  , .i (.ld .x ⟨.SI, some (.AX, 8), 0⟩ 2)  -- 122: MOVUPS (X_PTR)(IDX*8), X2
  , .i (.op2 .mul .x (.v 0) 2)  -- 123: MULPD ALPHA, X2
  , .i (.op2 .add .x (.m ⟨.DX, some (.AX, 8), 0⟩) 2)  -- 124: ADDPD (Y_PTR)(IDX*8), X2
  , .i (.st .x 2 ⟨.DI, some (.AX, 8), 0⟩)  -- 125: MOVUPS X2, (DST_PTR)(IDX*8)
  , .i (.addQ 2 .AX)  -- 126: ADDQ $2, IDX
  , .i (.decQ .CX)  -- 127: DECQ LEN
  , .jnz .tail_two  -- 128: JNZ tail_two
  , .i (.andQ 1 .BX)  -- 130: ANDQ $1, TAIL
  , .jz .end_  -- 131: JZ end
  , .label .tail_one  -- 133: tail_one:
  , .i (.ld .s ⟨.SI, some (.AX, 8), 0⟩ 2)  -- 134: MOVSD (X_PTR)(IDX*8), X2
  , .i (.op2 .mul .s (.v 0) 2)  -- 135: MULSD ALPHA, X2
  , .i (.op2 .add .s (.m ⟨.DX, some (.AX, 8), 0⟩) 2)  -- 136: ADDSD (Y_PTR)(IDX*8), X2
  , .i (.st .s 2 ⟨.DI, some (.AX, 8), 0⟩)  -- 137: MOVSD X2, (DST_PTR)(IDX*8)
  , .label .end_  -- 139: end:
  , .ret  -- 140: RET
]

/-- `CumSum` of 64 bits, mat/internal/f64/asm64/cumsum_amd64.s from line 9. -/
def cumSum64 : List Line := [
  .i (.argQ 0 .DI)  -- 10: MOVQ dst_base+0(FP), DI
  , .i (.argQ 8 .CX)  -- 11: MOVQ dst_len+8(FP), CX
  , .i (.argQ 24 .SI)  -- 12: MOVQ s_base+24(FP), SI
  , .i (.cmpArg 32 .CX)  -- 13: CMPQ s_len+32(FP), CX
  , .i (.cmovLeArg 32 .CX)  -- 14: CMOVQLE s_len+32(FP), CX
  , .i (.setQ .CX 56)  -- 15: MOVQ CX, ret_len+56(FP)
  , .i (.cmpQ .CX 0)  -- 16: CMPQ CX, $0
  , .jz .cs_end  -- 17: JE cs_end
  , .i (.clrQ .AX)  -- 18: XORQ AX, AX
  , .i (.zero 5)  -- 19: PXOR X5, X5
  , .i (.movQ .CX .BX)  -- 20: MOVQ CX, BX
  , .i (.andQ 3 .BX)  -- 21: ANDQ $3, BX
  , .i (.shrQ 2 .CX)  -- 22: SHRQ $2, CX
  , .jz .cs_tail_start  -- 23: JZ cs_tail_start
  , .label .cs_loop  -- 25: cs_loop:
  , .i (.ld .x ⟨.SI, some (.AX, 8), 0⟩ 0)  -- 26: MOVUPS (SI)(AX*8), X0
  , .i (.ld .x ⟨.SI, some (.AX, 8), 16⟩ 2)  -- 27: MOVUPS 16(SI)(AX*8), X2
  , .i (.movV 0 1)  -- 28: MOVAPS X0, X1
  , .i (.movV 2 3)  -- 29: MOVAPS X2, X3
  , .i (.shufpd 1 1 1)  -- 30: SHUFPD $1, X1, X1
  , .i (.shufpd 1 3 3)  -- 31: SHUFPD $1, X3, X3
  , .i (.op2 .add .x (.v 0) 1)  -- 32: ADDPD X0, X1
  , .i (.op2 .add .x (.v 2) 3)  -- 33: ADDPD X2, X3
  , .i (.shufpd 2 1 0)  -- 34: SHUFPD $2, X1, X0
  , .i (.shufpd 3 1 1)  -- 35: SHUFPD $3, X1, X1
  , .i (.shufpd 2 3 2)  -- 36: SHUFPD $2, X3, X2
  , .i (.shufpd 3 3 3)  -- 37: SHUFPD $3, X3, X3
  , .i (.op2 .add .x (.v 5) 0)  -- 38: ADDPD X5, X0
  , .i (.op2 .add .x (.v 1) 5)  -- 39: ADDPD X1, X5
  , .i (.op2 .add .x (.v 5) 2)  -- 40: ADDPD X5, X2
  , .i (.st .x 0 ⟨.DI, some (.AX, 8), 0⟩)  -- 41: MOVUPS X0, (DI)(AX*8)
  , .i (.st .x 2 ⟨.DI, some (.AX, 8), 16⟩)  -- 42: MOVUPS X2, 16(DI)(AX*8)
  , .i (.op2 .add .x (.v 3) 5)  -- 43: ADDPD X3, X5
  , .i (.addQ 4 .AX)  -- 44: ADDQ $4, AX
  , .loop .cs_loop  -- 45: LOOP cs_loop
  , .i (.cmpQ .BX 0)  -- 48: CMPQ BX, $0
  , .jz .cs_end  -- 49: JE cs_end
  , .label .cs_tail_start  -- 51: cs_tail_start:
  , .i (.movQ .BX .CX)  -- 52: MOVQ BX, CX
  , .label .cs_tail  -- 54: cs_tail:
  , .i (.op2 .add .s (.m ⟨.SI, some (.AX, 8), 0⟩) 5)  -- 55: ADDSD (SI)(AX*8), X5
  , .i (.st .s 5 ⟨.DI, some (.AX, 8), 0⟩)  -- 56: MOVSD X5, (DI)(AX*8)
  , .i (.incQ .AX)  -- 57: INCQ AX
  , .loop .cs_tail  -- 58: LOOP cs_tail
  , .label .cs_end  -- 60: cs_end:
  , .i (.setQ .DI 48)  -- 61: MOVQ DI, ret_base+48(FP)
  , .i (.argQ 16 .SI)  -- 62: MOVQ dst_cap+16(FP), SI
  , .i (.setQ .SI 64)  -- 63: MOVQ SI, ret_cap+64(FP)
  , .ret  -- 64: RET
]

/-- `GemvN` of 64 bits, mat/internal/f64/asm64/gemvN_amd64.s from line 233. -/
def gemvN64 : List Line := [
  .i (.argQ 0 .CX)  -- 234: MOVQ M_DIM, M
  , .i (.argQ 8 .BX)  -- 235: MOVQ N_DIM, N
  , .i (.cmpQ .CX 0)  -- 236: CMPQ M, $0
  , .jz .end_  -- 237: JE end
  , .i (.cmpQ .BX 0)  -- 238: CMPQ N, $0
  , .jz .end_  -- 239: JE end
  , .i (.argDup 16 15)  -- 241: MOVDDUP alpha+16(FP), ALPHA
  , .i (.argDup 88 14)  -- 242: MOVDDUP beta+88(FP), BETA
  , .i (.argQ 56 .SI)  -- 244: MOVQ x_base+56(FP), X_PTR
  , .i (.argQ 96 .DX)  -- 245: MOVQ y_base+96(FP), Y_PTR
  , .i (.argQ 24 .AX)  -- 246: MOVQ a_base+24(FP), A_ROW
  , .i (.argQ 120 .R10)  -- 247: MOVQ incY+120(FP), INC_Y
  , .i (.argQ 48 .R12)  -- 248: MOVQ lda+48(FP), LDA
  , .i (.shlQ 3 .R12)  -- 249: SHLQ $3, LDA
  , .i (.lea ⟨.R12, some (.R12, 2), 0⟩ .R13)  -- 250: LEAQ (LDA)(LDA*2), LDA3
  , .i (.movQ .AX .DI)  -- 251: MOVQ A_ROW, A_PTR
  , .i (.clrQ .R15)  -- 253: XORQ TMP2, TMP2
  , .i (.movQ .CX .R14)  -- 254: MOVQ M, TMP1
  , .i (.subQ 1 .R14)  -- 255: SUBQ $1, TMP1
  , .i (.imulQ .R10 .R14)  -- 256: IMULQ INC_Y, TMP1
  , .i (.negQ .R14)  -- 257: NEGQ TMP1
  , .i (.cmpQ .R10 0)  -- 258: CMPQ INC_Y, $0
  , .i (.cmovLt .R14 .R15)  -- 259: CMOVQLT TMP1, TMP2
  , .i (.lea ⟨.DX, some (.R15, 8), 0⟩ .DX)  -- 260: LEAQ (Y_PTR)(TMP2*SIZE), Y_PTR
  , .i (.setQ .DX 96)  -- 261: MOVQ Y_PTR, Y
  , .i (.shlQ 3 .R10)  -- 263: SHLQ $3, INC_Y
  , .i (.lea ⟨.R10, some (.R10, 2), 0⟩ .R11)  -- 264: LEAQ (INC_Y)(INC_Y*2), INC3_Y
  , .i (.zero 0)  -- 266: MOVSD $0.0, X0
  , .i (.comi 14 0)  -- 267: COMISD BETA, X0
  , .jnz .gemv_start  -- 268: JNE gemv_start
  , .label .gemv_clear  -- 270: gemv_clear:
  , .i (.zero 0)  -- 271: XORPS X0, X0
  , .i (.zero 1)  -- 272: XORPS X1, X1
  , .i (.zero 2)  -- 273: XORPS X2, X2
  , .i (.zero 3)  -- 274: XORPS X3, X3
  , .i (.cmpArgI 120 1)  -- 276: CMPQ incY+120(FP), $1
  , .jnz .inc_clear  -- 277: JNE inc_clear
  , .i (.shrQ 3 .CX)  -- 279: SHRQ $3, M
  , .jz .clear4  -- 280: JZ clear4
  , .label .clear8  -- 282: clear8:
  , .i (.st .x 0 ⟨.DX, none, 0⟩)  -- 283: MOVUPS X0, (Y_PTR)
  , .i (.st .x 1 ⟨.DX, none, 16⟩)  -- 284: MOVUPS X1, 16(Y_PTR)
  , .i (.st .x 2 ⟨.DX, none, 32⟩)  -- 285: MOVUPS X2, 32(Y_PTR)
  , .i (.st .x 3 ⟨.DX, none, 48⟩)  -- 286: MOVUPS X3, 48(Y_PTR)
  , .i (.addQ 64 .DX)  -- 287: ADDQ $8*SIZE, Y_PTR
  , .i (.decQ .CX)  -- 288: DECQ M
  , .jnz .clear8  -- 289: JNZ clear8
  , .label .clear4  -- 291: clear4:
  , .i (.testArg 4 0)  -- 292: TESTQ $4, M_DIM
  , .jz .clear2  -- 293: JZ clear2
  , .i (.st .x 0 ⟨.DX, none, 0⟩)  -- 294: MOVUPS X0, (Y_PTR)
  , .i (.st .x 1 ⟨.DX, none, 16⟩)  -- 295: MOVUPS X1, 16(Y_PTR)
  , .i (.addQ 32 .DX)  -- 296: ADDQ $4*SIZE, Y_PTR
  , .label .clear2  -- 298: clear2:
  , .i (.testArg 2 0)  -- 299: TESTQ $2, M_DIM
  , .jz .clear1  -- 300: JZ clear1
  , .i (.st .x 0 ⟨.DX, none, 0⟩)  -- 301: MOVUPS X0, (Y_PTR)
  , .i (.addQ 16 .DX)  -- 302: ADDQ $2*SIZE, Y_PTR
  , .label .clear1  -- 304: clear1:
  , .i (.testArg 1 0)  -- 305: TESTQ $1, M_DIM
  , .jz .prep_end  -- 306: JZ prep_end
  , .i (.st .s 0 ⟨.DX, none, 0⟩)  -- 307: MOVSD X0, (Y_PTR)
  , .jmp .prep_end  -- 309: JMP prep_end
  , .label .inc_clear  -- 311: inc_clear:
  , .i (.shrQ 2 .CX)  -- 312: SHRQ $2, M
  , .jz .inc_clear2  -- 313: JZ inc_clear2
  , .label .inc_clear4  -- 315: inc_clear4:
  , .i (.st .s 0 ⟨.DX, none, 0⟩)  -- 316: MOVSD X0, (Y_PTR)
  , .i (.st .s 1 ⟨.DX, some (.R10, 1), 0⟩)  -- 317: MOVSD X1, (Y_PTR)(INC_Y*1)
  , .i (.st .s 2 ⟨.DX, some (.R10, 2), 0⟩)  -- 318: MOVSD X2, (Y_PTR)(INC_Y*2)
  , .i (.st .s 3 ⟨.DX, some (.R11, 1), 0⟩)  -- 319: MOVSD X3, (Y_PTR)(INC3_Y*1)
  , .i (.lea ⟨.DX, some (.R10, 4), 0⟩ .DX)  -- 320: LEAQ (Y_PTR)(INC_Y*4), Y_PTR
  , .i (.decQ .CX)  -- 321: DECQ M
  , .jnz .inc_clear4  -- 322: JNZ inc_clear4
  , .label .inc_clear2  -- 324: inc_clear2:
  , .i (.testArg 2 0)  -- 325: TESTQ $2, M_DIM
  , .jz .inc_clear1  -- 326: JZ inc_clear1
  , .i (.st .s 0 ⟨.DX, none, 0⟩)  -- 327: MOVSD X0, (Y_PTR)
  , .i (.st .s 1 ⟨.DX, some (.R10, 1), 0⟩)  -- 328: MOVSD X1, (Y_PTR)(INC_Y*1)
  , .i (.lea ⟨.DX, some (.R10, 2), 0⟩ .DX)  -- 329: LEAQ (Y_PTR)(INC_Y*2), Y_PTR
  , .label .inc_clear1  -- 331: inc_clear1:
  , .i (.testArg 1 0)  -- 332: TESTQ $1, M_DIM
  , .jz .prep_end  -- 333: JZ prep_end
  , .i (.st .s 0 ⟨.DX, none, 0⟩)  -- 334: MOVSD X0, (Y_PTR)
  , .label .prep_end  -- 336: prep_end:
  , .i (.argQ 96 .DX)  -- 337: MOVQ Y, Y_PTR
  , .i (.argQ 0 .CX)  -- 338: MOVQ M_DIM, M
  , .label .gemv_start  -- 340: gemv_start:
  , .i (.cmpArgI 80 1)  -- 341: CMPQ incX+80(FP), $1
  , .jnz .inc  -- 342: JNE inc
  , .i (.shrQ 2 .CX)  -- 344: SHRQ $2, M
  , .jz .r2  -- 345: JZ r2
  , .label .r4  -- 347: r4:
  , .i (.zero 0)  -- 349: INIT4: XORPS X0, X0
  , .i (.zero 1)  -- 349: INIT4: XORPS X1, X1
  , .i (.zero 2)  -- 349: INIT4: XORPS X2, X2
  , .i (.zero 3)  -- 349: INIT4: XORPS X3, X3
  , .i (.argQ 8 .BX)  -- 351: MOVQ N_DIM, N
  , .i (.shrQ 2 .BX)  -- 352: SHRQ $2, N
  , .jz .r4c2  -- 353: JZ r4c2
  , .label .r4c4  -- 355: r4c4:
  , .i (.ld .x ⟨.SI, none, 0⟩ 12)  -- 357: KERNEL_LOAD4: MOVUPS (X_PTR), X12
  , .i (.ld .x ⟨.SI, none, 16⟩ 13)  -- 357: KERNEL_LOAD4: MOVUPS 2*SIZE(X_PTR), X13
  , .i (.ld .x ⟨.DI, none, 0⟩ 4)  -- 358: KERNEL_4x4: MOVUPS (A_PTR), X4
  , .i (.ld .x ⟨.DI, none, 16⟩ 5)  -- 358: KERNEL_4x4: MOVUPS 2*SIZE(A_PTR), X5
  , .i (.ld .x ⟨.DI, some (.R12, 1), 0⟩ 6)  -- 358: KERNEL_4x4: MOVUPS (A_PTR)(LDA*1), X6
  , .i (.ld .x ⟨.DI, some (.R12, 1), 16⟩ 7)  -- 358: KERNEL_4x4: MOVUPS 2*SIZE(A_PTR)(LDA*1), X7
  , .i (.ld .x ⟨.DI, some (.R12, 2), 0⟩ 8)  -- 358: KERNEL_4x4: MOVUPS (A_PTR)(LDA*2), X8
  , .i (.ld .x ⟨.DI, some (.R12, 2), 16⟩ 9)  -- 358: KERNEL_4x4: MOVUPS 2*SIZE(A_PTR)(LDA*2), X9
  , .i (.ld .x ⟨.DI, some (.R13, 1), 0⟩ 10)  -- 358: KERNEL_4x4: MOVUPS (A_PTR)(LDA3*1), X10
  , .i (.ld .x ⟨.DI, some (.R13, 1), 16⟩ 11)  -- 358: KERNEL_4x4: MOVUPS 2*SIZE(A_PTR)(LDA3*1), X11
  , .i (.op2 .mul .x (.v 12) 4)  -- 358: KERNEL_4x4: MULPD X12, X4
  , .i (.op2 .mul .x (.v 13) 5)  -- 358: KERNEL_4x4: MULPD X13, X5
  , .i (.op2 .mul .x (.v 12) 6)  -- 358: KERNEL_4x4: MULPD X12, X6
  , .i (.op2 .mul .x (.v 13) 7)  -- 358: KERNEL_4x4: MULPD X13, X7
  , .i (.op2 .mul .x (.v 12) 8)  -- 358: KERNEL_4x4: MULPD X12, X8
  , .i (.op2 .mul .x (.v 13) 9)  -- 358: KERNEL_4x4: MULPD X13, X9
  , .i (.op2 .mul .x (.v 12) 10)  -- 358: KERNEL_4x4: MULPD X12, X10
  , .i (.op2 .mul .x (.v 13) 11)  -- 358: KERNEL_4x4: MULPD X13, X11
  , .i (.op2 .add .x (.v 4) 0)  -- 358: KERNEL_4x4: ADDPD X4, X0
  , .i (.op2 .add .x (.v 5) 0)  -- 358: KERNEL_4x4: ADDPD X5, X0
  , .i (.op2 .add .x (.v 6) 1)  -- 358: KERNEL_4x4: ADDPD X6, X1
  , .i (.op2 .add .x (.v 7) 1)  -- 358: KERNEL_4x4: ADDPD X7, X1
  , .i (.op2 .add .x (.v 8) 2)  -- 358: KERNEL_4x4: ADDPD X8, X2
  , .i (.op2 .add .x (.v 9) 2)  -- 358: KERNEL_4x4: ADDPD X9, X2
  , .i (.op2 .add .x (.v 10) 3)  -- 358: KERNEL_4x4: ADDPD X10, X3
  , .i (.op2 .add .x (.v 11) 3)  -- 358: KERNEL_4x4: ADDPD X11, X3
  , .i (.addQ 32 .DI)  -- 358: KERNEL_4x4: ADDQ $4*SIZE, A_PTR
  , .i (.addQ 32 .SI)  -- 360: ADDQ $4*SIZE, X_PTR
  , .i (.decQ .BX)  -- 362: DECQ N
  , .jnz .r4c4  -- 363: JNZ r4c4
  , .label .r4c2  -- 365: r4c2:
  , .i (.testArg 2 8)  -- 366: TESTQ $2, N_DIM
  , .jz .r4c1  -- 367: JZ r4c1
  , .i (.ld .x ⟨.SI, none, 0⟩ 12)  -- 370: KERNEL_LOAD2: MOVUPS (X_PTR), X12
  , .i (.ld .x ⟨.DI, none, 0⟩ 4)  -- 371: KERNEL_4x2: MOVUPS (A_PTR), X4
  , .i (.ld .x ⟨.DI, some (.R12, 1), 0⟩ 5)  -- 371: KERNEL_4x2: MOVUPS (A_PTR)(LDA*1), X5
  , .i (.ld .x ⟨.DI, some (.R12, 2), 0⟩ 6)  -- 371: KERNEL_4x2: MOVUPS (A_PTR)(LDA*2), X6
  , .i (.ld .x ⟨.DI, some (.R13, 1), 0⟩ 7)  -- 371: KERNEL_4x2: MOVUPS (A_PTR)(LDA3*1), X7
  , .i (.op2 .mul .x (.v 12) 4)  -- 371: KERNEL_4x2: MULPD X12, X4
  , .i (.op2 .mul .x (.v 12) 5)  -- 371: KERNEL_4x2: MULPD X12, X5
  , .i (.op2 .mul .x (.v 12) 6)  -- 371: KERNEL_4x2: MULPD X12, X6
  , .i (.op2 .mul .x (.v 12) 7)  -- 371: KERNEL_4x2: MULPD X12, X7
  , .i (.op2 .add .x (.v 4) 0)  -- 371: KERNEL_4x2: ADDPD X4, X0
  , .i (.op2 .add .x (.v 5) 1)  -- 371: KERNEL_4x2: ADDPD X5, X1
  , .i (.op2 .add .x (.v 6) 2)  -- 371: KERNEL_4x2: ADDPD X6, X2
  , .i (.op2 .add .x (.v 7) 3)  -- 371: KERNEL_4x2: ADDPD X7, X3
  , .i (.addQ 16 .DI)  -- 371: KERNEL_4x2: ADDQ $2*SIZE, A_PTR
  , .i (.addQ 16 .SI)  -- 373: ADDQ $2*SIZE, X_PTR
  , .label .r4c1  -- 375: r4c1:
  , .i (.hadd 1 0)  -- 376: HADDPD X1, X0
  , .i (.hadd 3 2)  -- 377: HADDPD X3, X2
  , .i (.testArg 1 8)  -- 378: TESTQ $1, N_DIM
  , .jz .r4end  -- 379: JZ r4end
  , .i (.ldDup ⟨.SI, none, 0⟩ 12)  -- 382: KERNEL_4x1: MOVDDUP (X_PTR), X12
  , .i (.ld .s ⟨.DI, none, 0⟩ 4)  -- 382: KERNEL_4x1: MOVSD (A_PTR), X4
  , .i (.ldHi ⟨.DI, some (.R12, 1), 0⟩ 4)  -- 382: KERNEL_4x1: MOVHPD (A_PTR)(LDA*1), X4
  , .i (.ld .s ⟨.DI, some (.R12, 2), 0⟩ 5)  -- 382: KERNEL_4x1: MOVSD (A_PTR)(LDA*2), X5
  , .i (.ldHi ⟨.DI, some (.R13, 1), 0⟩ 5)  -- 382: KERNEL_4x1: MOVHPD (A_PTR)(LDA3*1), X5
  , .i (.op2 .mul .x (.v 12) 4)  -- 382: KERNEL_4x1: MULPD X12, X4
  , .i (.op2 .mul .x (.v 12) 5)  -- 382: KERNEL_4x1: MULPD X12, X5
  , .i (.op2 .add .x (.v 4) 0)  -- 382: KERNEL_4x1: ADDPD X4, X0
  , .i (.op2 .add .x (.v 5) 2)  -- 382: KERNEL_4x1: ADDPD X5, X2
  , .i (.addQ 8 .DI)  -- 382: KERNEL_4x1: ADDQ $SIZE, A_PTR
  , .i (.addQ 8 .SI)  -- 384: ADDQ $SIZE, X_PTR
  , .label .r4end  -- 386: r4end:
  , .i (.cmpQ .R10 8)  -- 387: CMPQ INC_Y, $SIZE
  , .jnz .r4st_inc  -- 388: JNZ r4st_inc
  , .i (.ld .x ⟨.DX, none, 0⟩ 4)  -- 390: STORE4: MOVUPS (Y_PTR), X4
  , .i (.ld .x ⟨.DX, none, 16⟩ 5)  -- 390: STORE4: MOVUPS 2*SIZE(Y_PTR), X5
  , .i (.op2 .mul .x (.v 15) 0)  -- 390: STORE4: MULPD ALPHA, X0
  , .i (.op2 .mul .x (.v 15) 2)  -- 390: STORE4: MULPD ALPHA, X2
  , .i (.op2 .mul .x (.v 14) 4)  -- 390: STORE4: MULPD BETA, X4
  , .i (.op2 .mul .x (.v 14) 5)  -- 390: STORE4: MULPD BETA, X5
  , .i (.op2 .add .x (.v 0) 4)  -- 390: STORE4: ADDPD X0, X4
  , .i (.op2 .add .x (.v 2) 5)  -- 390: STORE4: ADDPD X2, X5
  , .i (.st .x 4 ⟨.DX, none, 0⟩)  -- 390: STORE4: MOVUPS X4, (Y_PTR)
  , .i (.st .x 5 ⟨.DX, none, 16⟩)  -- 390: STORE4: MOVUPS X5, 2*SIZE(Y_PTR)
  , .i (.addQ 32 .DX)  -- 391: ADDQ $4*SIZE, Y_PTR
  , .jmp .r4inc  -- 392: JMP r4inc
  , .label .r4st_inc  -- 394: r4st_inc:
  , .i (.ld .s ⟨.DX, none, 0⟩ 4)  -- 395: STORE4_INC: MOVSD (Y_PTR), X4
  , .i (.ldHi ⟨.DX, some (.R10, 1), 0⟩ 4)  -- 395: STORE4_INC: MOVHPD (Y_PTR)(INC_Y*1), X4
  , .i (.ld .s ⟨.DX, some (.R10, 2), 0⟩ 5)  -- 395: STORE4_INC: MOVSD (Y_PTR)(INC_Y*2), X5
  , .i (.ldHi ⟨.DX, some (.R11, 1), 0⟩ 5)  -- 395: STORE4_INC: MOVHPD (Y_PTR)(INC3_Y*1), X5
  , .i (.op2 .mul .x (.v 15) 0)  -- 395: STORE4_INC: MULPD ALPHA, X0
  , .i (.op2 .mul .x (.v 15) 2)  -- 395: STORE4_INC: MULPD ALPHA, X2
  , .i (.op2 .mul .x (.v 14) 4)  -- 395: STORE4_INC: MULPD BETA, X4
  , .i (.op2 .mul .x (.v 14) 5)  -- 395: STORE4_INC: MULPD BETA, X5
  , .i (.op2 .add .x (.v 0) 4)  -- 395: STORE4_INC: ADDPD X0, X4
  , .i (.op2 .add .x (.v 2) 5)  -- 395: STORE4_INC: ADDPD X2, X5
  , .i (.st .s 4 ⟨.DX, none, 0⟩)  -- 395: STORE4_INC: MOVLPD X4, (Y_PTR)
  , .i (.stHi 4 ⟨.DX, some (.R10, 1), 0⟩)  -- 395: STORE4_INC: MOVHPD X4, (Y_PTR)(INC_Y*1)
  , .i (.st .s 5 ⟨.DX, some (.R10, 2), 0⟩)  -- 395: STORE4_INC: MOVLPD X5, (Y_PTR)(INC_Y*2)
  , .i (.stHi 5 ⟨.DX, some (.R11, 1), 0⟩)  -- 395: STORE4_INC: MOVHPD X5, (Y_PTR)(INC3_Y*1)
  , .i (.lea ⟨.DX, some (.R10, 4), 0⟩ .DX)  -- 396: LEAQ (Y_PTR)(INC_Y*4), Y_PTR
  , .label .r4inc  -- 398: r4inc:
  , .i (.argQ 56 .SI)  -- 399: MOVQ X, X_PTR
  , .i (.lea ⟨.AX, some (.R12, 4), 0⟩ .AX)  -- 400: LEAQ (A_ROW)(LDA*4), A_ROW
  , .i (.movQ .AX .DI)  -- 401: MOVQ A_ROW, A_PTR
  , .i (.decQ .CX)  -- 403: DECQ M
  , .jnz .r4  -- 404: JNZ r4
  , .label .r2  -- 406: r2:
  , .i (.testArg 2 0)  -- 407: TESTQ $2, M_DIM
  , .jz .r1  -- 408: JZ r1
  , .i (.zero 0)  -- 411: INIT2: XORPS X0, X0
  , .i (.zero 1)  -- 411: INIT2: XORPS X1, X1
  , .i (.argQ 8 .BX)  -- 413: MOVQ N_DIM, N
  , .i (.shrQ 2 .BX)  -- 414: SHRQ $2, N
  , .jz .r2c2  -- 415: JZ r2c2
  , .label .r2c4  -- 417: r2c4:
  , .i (.ld .x ⟨.SI, none, 0⟩ 12)  -- 419: KERNEL_LOAD4: MOVUPS (X_PTR), X12
  , .i (.ld .x ⟨.SI, none, 16⟩ 13)  -- 419: KERNEL_LOAD4: MOVUPS 2*SIZE(X_PTR), X13
  , .i (.ld .x ⟨.DI, none, 0⟩ 8)  -- 420: KERNEL_2x4: MOVUPS (A_PTR), X8
  , .i (.ld .x ⟨.DI, none, 16⟩ 9)  -- 420: KERNEL_2x4: MOVUPS 2*SIZE(A_PTR), X9
  , .i (.ld .x ⟨.DI, some (.R12, 1), 0⟩ 10)  -- 420: KERNEL_2x4: MOVUPS (A_PTR)(LDA*1), X10
  , .i (.ld .x ⟨.DI, some (.R12, 1), 16⟩ 11)  -- 420: KERNEL_2x4: MOVUPS 2*SIZE(A_PTR)(LDA*1), X11
  , .i (.op2 .mul .x (.v 12) 8)  -- 420: KERNEL_2x4: MULPD X12, X8
  , .i (.op2 .mul .x (.v 13) 9)  -- 420: KERNEL_2x4: MULPD X13, X9
  , .i (.op2 .mul .x (.v 12) 10)  -- 420: KERNEL_2x4: MULPD X12, X10
  , .i (.op2 .mul .x (.v 13) 11)  -- 420: KERNEL_2x4: MULPD X13, X11
  , .i (.op2 .add .x (.v 8) 0)  -- 420: KERNEL_2x4: ADDPD X8, X0
  , .i (.op2 .add .x (.v 10) 1)  -- 420: KERNEL_2x4: ADDPD X10, X1
  , .i (.op2 .add .x (.v 9) 0)  -- 420: KERNEL_2x4: ADDPD X9, X0
  , .i (.op2 .add .x (.v 11) 1)  -- 420: KERNEL_2x4: ADDPD X11, X1
  , .i (.addQ 32 .DI)  -- 420: KERNEL_2x4: ADDQ $4*SIZE, A_PTR
  , .i (.addQ 32 .SI)  -- 422: ADDQ $4*SIZE, X_PTR
  , .i (.decQ .BX)  -- 424: DECQ N
  , .jnz .r2c4  -- 425: JNZ r2c4
  , .label .r2c2  -- 427: r2c2:
  , .i (.testArg 2 8)  -- 428: TESTQ $2, N_DIM
  , .jz .r2c1  -- 429: JZ r2c1
  , .i (.ld .x ⟨.SI, none, 0⟩ 12)  -- 432: KERNEL_LOAD2: MOVUPS (X_PTR), X12
  , .i (.ld .x ⟨.DI, none, 0⟩ 8)  -- 433: KERNEL_2x2: MOVUPS (A_PTR), X8
  , .i (.ld .x ⟨.DI, some (.R12, 1), 0⟩ 9)  -- 433: KERNEL_2x2: MOVUPS (A_PTR)(LDA*1), X9
  , .i (.op2 .mul .x (.v 12) 8)  -- 433: KERNEL_2x2: MULPD X12, X8
  , .i (.op2 .mul .x (.v 12) 9)  -- 433: KERNEL_2x2: MULPD X12, X9
  , .i (.op2 .add .x (.v 8) 0)  -- 433: KERNEL_2x2: ADDPD X8, X0
  , .i (.op2 .add .x (.v 9) 1)  -- 433: KERNEL_2x2: ADDPD X9, X1
  , .i (.addQ 16 .DI)  -- 433: KERNEL_2x2: ADDQ $2*SIZE, A_PTR
  , .i (.addQ 16 .SI)  -- 435: ADDQ $2*SIZE, X_PTR
  , .label .r2c1  -- 437: r2c1:
  , .i (.hadd 1 0)  -- 438: HADDPD X1, X0
  , .i (.testArg 1 8)  -- 439: TESTQ $1, N_DIM
  , .jz .r2end  -- 440: JZ r2end
  , .i (.ldDup ⟨.SI, none, 0⟩ 12)  -- 443: KERNEL_2x1: MOVDDUP (X_PTR), X12
  , .i (.ld .s ⟨.DI, none, 0⟩ 8)  -- 443: KERNEL_2x1: MOVSD (A_PTR), X8
  , .i (.ldHi ⟨.DI, some (.R12, 1), 0⟩ 8)  -- 443: KERNEL_2x1: MOVHPD (A_PTR)(LDA*1), X8
  , .i (.op2 .mul .x (.v 12) 8)  -- 443: KERNEL_2x1: MULPD X12, X8
  , .i (.op2 .add .x (.v 8) 0)  -- 443: KERNEL_2x1: ADDPD X8, X0
  , .i (.addQ 8 .DI)  -- 443: KERNEL_2x1: ADDQ $SIZE, A_PTR
  , .i (.addQ 8 .SI)  -- 445: ADDQ $SIZE, X_PTR
  , .label .r2end  -- 447: r2end:
  , .i (.cmpQ .R10 8)  -- 448: CMPQ INC_Y, $SIZE
  , .jnz .r2st_inc  -- 449: JNE r2st_inc
  , .i (.ld .x ⟨.DX, none, 0⟩ 4)  -- 451: STORE2: MOVUPS (Y_PTR), X4
  , .i (.op2 .mul .x (.v 15) 0)  -- 451: STORE2: MULPD ALPHA, X0
  , .i (.op2 .mul .x (.v 14) 4)  -- 451: STORE2: MULPD BETA, X4
  , .i (.op2 .add .x (.v 0) 4)  -- 451: STORE2: ADDPD X0, X4
  , .i (.st .x 4 ⟨.DX, none, 0⟩)  -- 451: STORE2: MOVUPS X4, (Y_PTR)
  , .i (.addQ 16 .DX)  -- 452: ADDQ $2*SIZE, Y_PTR
  , .jmp .r2inc  -- 453: JMP r2inc
  , .label .r2st_inc  -- 455: r2st_inc:
  , .i (.ld .s ⟨.DX, none, 0⟩ 4)  -- 456: STORE2_INC: MOVSD (Y_PTR), X4
  , .i (.ldHi ⟨.DX, some (.R10, 1), 0⟩ 4)  -- 456: STORE2_INC: MOVHPD (Y_PTR)(INC_Y*1), X4
  , .i (.op2 .mul .x (.v 15) 0)  -- 456: STORE2_INC: MULPD ALPHA, X0
  , .i (.op2 .mul .x (.v 14) 4)  -- 456: STORE2_INC: MULPD BETA, X4
  , .i (.op2 .add .x (.v 0) 4)  -- 456: STORE2_INC: ADDPD X0, X4
  , .i (.st .s 4 ⟨.DX, none, 0⟩)  -- 456: STORE2_INC: MOVSD X4, (Y_PTR)
  , .i (.stHi 4 ⟨.DX, some (.R10, 1), 0⟩)  -- 456: STORE2_INC: MOVHPD X4, (Y_PTR)(INC_Y*1)
  , .i (.lea ⟨.DX, some (.R10, 2), 0⟩ .DX)  -- 457: LEAQ (Y_PTR)(INC_Y*2), Y_PTR
  , .label .r2inc  -- 459: r2inc:
  , .i (.argQ 56 .SI)  -- 460: MOVQ X, X_PTR
  , .i (.lea ⟨.AX, some (.R12, 2), 0⟩ .AX)  -- 461: LEAQ (A_ROW)(LDA*2), A_ROW
  , .i (.movQ .AX .DI)  -- 462: MOVQ A_ROW, A_PTR
  , .label .r1  -- 464: r1:
  , .i (.testArg 1 0)  -- 465: TESTQ $1, M_DIM
  , .jz .end_  -- 466: JZ end
  , .i (.zero 0)  -- 469: INIT1: XORPS X0, X0
  , .i (.argQ 8 .BX)  -- 471: MOVQ N_DIM, N
  , .i (.shrQ 2 .BX)  -- 472: SHRQ $2, N
  , .jz .r1c2  -- 473: JZ r1c2
  , .label .r1c4  -- 475: r1c4:
  , .i (.ld .x ⟨.SI, none, 0⟩ 12)  -- 477: KERNEL_LOAD4: MOVUPS (X_PTR), X12
  , .i (.ld .x ⟨.SI, none, 16⟩ 13)  -- 477: KERNEL_LOAD4: MOVUPS 2*SIZE(X_PTR), X13
  , .i (.ld .x ⟨.DI, none, 0⟩ 8)  -- 478: KERNEL_1x4: MOVUPS (A_PTR), X8
  , .i (.ld .x ⟨.DI, none, 16⟩ 9)  -- 478: KERNEL_1x4: MOVUPS 2*SIZE(A_PTR), X9
  , .i (.op2 .mul .x (.v 12) 8)  -- 478: KERNEL_1x4: MULPD X12, X8
  , .i (.op2 .mul .x (.v 13) 9)  -- 478: KERNEL_1x4: MULPD X13, X9
  , .i (.op2 .add .x (.v 8) 0)  -- 478: KERNEL_1x4: ADDPD X8, X0
  , .i (.op2 .add .x (.v 9) 0)  -- 478: KERNEL_1x4: ADDPD X9, X0
  , .i (.addQ 32 .DI)  -- 478: KERNEL_1x4: ADDQ $4*SIZE, A_PTR
  , .i (.addQ 32 .SI)  -- 480: ADDQ $4*SIZE, X_PTR
  , .i (.decQ .BX)  -- 482: DECQ N
  , .jnz .r1c4  -- 483: JNZ r1c4
  , .label .r1c2  -- 485: r1c2:
  , .i (.testArg 2 8)  -- 486: TESTQ $2, N_DIM
  , .jz .r1c1  -- 487: JZ r1c1
  , .i (.ld .x ⟨.SI, none, 0⟩ 12)  -- 490: KERNEL_LOAD2: MOVUPS (X_PTR), X12
  , .i (.ld .x ⟨.DI, none, 0⟩ 8)  -- 491: KERNEL_1x2: MOVUPS (A_PTR), X8
  , .i (.op2 .mul .x (.v 12) 8)  -- 491: KERNEL_1x2: MULPD X12, X8
  , .i (.op2 .add .x (.v 8) 0)  -- 491: KERNEL_1x2: ADDPD X8, X0
  , .i (.addQ 16 .DI)  -- 491: KERNEL_1x2: ADDQ $2*SIZE, A_PTR
  , .i (.addQ 16 .SI)  -- 493: ADDQ $2*SIZE, X_PTR
  , .label .r1c1  -- 495: r1c1:
  , .i (.testArg 1 8)  -- 497: TESTQ $1, N_DIM
  , .jz .r1end  -- 498: JZ r1end
  , .i (.ld .s ⟨.SI, none, 0⟩ 12)  -- 501: KERNEL_1x1: MOVSD (X_PTR), X12
  , .i (.ld .s ⟨.DI, none, 0⟩ 8)  -- 501: KERNEL_1x1: MOVSD (A_PTR), X8
  , .i (.op2 .mul .s (.v 12) 8)  -- 501: KERNEL_1x1: MULSD X12, X8
  , .i (.op2 .add .s (.v 8) 0)  -- 501: KERNEL_1x1: ADDSD X8, X0
  , .i (.addQ 8 .DI)  -- 501: KERNEL_1x1: ADDQ $SIZE, A_PTR
  , .label .r1end  -- 503: r1end:
  , .i (.hadd 0 0)  -- 504: STORE1: HADDPD X0, X0
  , .i (.ld .s ⟨.DX, none, 0⟩ 4)  -- 504: STORE1: MOVSD (Y_PTR), X4
  , .i (.op2 .mul .s (.v 15) 0)  -- 504: STORE1: MULSD ALPHA, X0
  , .i (.op2 .mul .s (.v 14) 4)  -- 504: STORE1: MULSD BETA, X4
  , .i (.op2 .add .s (.v 0) 4)  -- 504: STORE1: ADDSD X0, X4
  , .i (.st .s 4 ⟨.DX, none, 0⟩)  -- 504: STORE1: MOVSD X4, (Y_PTR)
  , .label .end_  -- 506: end:
  , .ret  -- 507: RET
  , .label .inc  -- 509: inc:
  , .i (.argQ 80 .R8)  -- 510: MOVQ incX+80(FP), INC_X
  , .i (.clrQ .R15)  -- 512: XORQ TMP2, TMP2
  , .i (.movQ .BX .R14)  -- 513: MOVQ N, TMP1
  , .i (.subQ 1 .R14)  -- 514: SUBQ $1, TMP1
  , .i (.negQ .R14)  -- 515: NEGQ TMP1
  , .i (.imulQ .R8 .R14)  -- 516: IMULQ INC_X, TMP1
  , .i (.cmpQ .R8 0)  -- 517: CMPQ INC_X, $0
  , .i (.cmovLt .R14 .R15)  -- 518: CMOVQLT TMP1, TMP2
  , .i (.lea ⟨.SI, some (.R15, 8), 0⟩ .SI)  -- 519: LEAQ (X_PTR)(TMP2*SIZE), X_PTR
  , .i (.setQ .SI 56)  -- 520: MOVQ X_PTR, X
  , .i (.shlQ 3 .R8)  -- 522: SHLQ $3, INC_X
  , .i (.lea ⟨.R8, some (.R8, 2), 0⟩ .R9)  -- 523: LEAQ (INC_X)(INC_X*2), INC3_X
  , .i (.shrQ 2 .CX)  -- 525: SHRQ $2, M
  , .jz .inc_r2  -- 526: JZ inc_r2
  , .label .inc_r4  -- 528: inc_r4:
  , .i (.zero 0)  -- 530: INIT4: XORPS X0, X0
  , .i (.zero 1)  -- 530: INIT4: XORPS X1, X1
  , .i (.zero 2)  -- 530: INIT4: XORPS X2, X2
  , .i (.zero 3)  -- 530: INIT4: XORPS X3, X3
  , .i (.argQ 8 .BX)  -- 532: MOVQ N_DIM, N
  , .i (.shrQ 2 .BX)  -- 533: SHRQ $2, N
  , .jz .inc_r4c2  -- 534: JZ inc_r4c2
  , .label .inc_r4c4  -- 536: inc_r4c4:
  , .i (.ld .s ⟨.SI, none, 0⟩ 12)  -- 538: KERNEL_LOAD4_INC: MOVSD (X_PTR), X12
  , .i (.ldHi ⟨.SI, some (.R8, 1), 0⟩ 12)  -- 538: KERNEL_LOAD4_INC: MOVHPD (X_PTR)(INC_X*1), X12
  , .i (.ld .s ⟨.SI, some (.R8, 2), 0⟩ 13)  -- 538: KERNEL_LOAD4_INC: MOVSD (X_PTR)(INC_X*2), X13
  , .i (.ldHi ⟨.SI, some (.R9, 1), 0⟩ 13)  -- 538: KERNEL_LOAD4_INC: MOVHPD (X_PTR)(INC3_X*1), X13
  , .i (.ld .x ⟨.DI, none, 0⟩ 4)  -- 539: KERNEL_4x4: MOVUPS (A_PTR), X4
  , .i (.ld .x ⟨.DI, none, 16⟩ 5)  -- 539: KERNEL_4x4: MOVUPS 2*SIZE(A_PTR), X5
  , .i (.ld .x ⟨.DI, some (.R12, 1), 0⟩ 6)  -- 539: KERNEL_4x4: MOVUPS (A_PTR)(LDA*1), X6
  , .i (.ld .x ⟨.DI, some (.R12, 1), 16⟩ 7)  -- 539: KERNEL_4x4: MOVUPS 2*SIZE(A_PTR)(LDA*1), X7
  , .i (.ld .x ⟨.DI, some (.R12, 2), 0⟩ 8)  -- 539: KERNEL_4x4: MOVUPS (A_PTR)(LDA*2), X8
  , .i (.ld .x ⟨.DI, some (.R12, 2), 16⟩ 9)  -- 539: KERNEL_4x4: MOVUPS 2*SIZE(A_PTR)(LDA*2), X9
  , .i (.ld .x ⟨.DI, some (.R13, 1), 0⟩ 10)  -- 539: KERNEL_4x4: MOVUPS (A_PTR)(LDA3*1), X10
  , .i (.ld .x ⟨.DI, some (.R13, 1), 16⟩ 11)  -- 539: KERNEL_4x4: MOVUPS 2*SIZE(A_PTR)(LDA3*1), X11
  , .i (.op2 .mul .x (.v 12) 4)  -- 539: KERNEL_4x4: MULPD X12, X4
  , .i (.op2 .mul .x (.v 13) 5)  -- 539: KERNEL_4x4: MULPD X13, X5
  , .i (.op2 .mul .x (.v 12) 6)  -- 539: KERNEL_4x4: MULPD X12, X6
  , .i (.op2 .mul .x (.v 13) 7)  -- 539: KERNEL_4x4: MULPD X13, X7
  , .i (.op2 .mul .x (.v 12) 8)  -- 539: KERNEL_4x4: MULPD X12, X8
  , .i (.op2 .mul .x (.v 13) 9)  -- 539: KERNEL_4x4: MULPD X13, X9
  , .i (.op2 .mul .x (.v 12) 10)  -- 539: KERNEL_4x4: MULPD X12, X10
  , .i (.op2 .mul .x (.v 13) 11)  -- 539: KERNEL_4x4: MULPD X13, X11
  , .i (.op2 .add .x (.v 4) 0)  -- 539: KERNEL_4x4: ADDPD X4, X0
  , .i (.op2 .add .x (.v 5) 0)  -- 539: KERNEL_4x4: ADDPD X5, X0
  , .i (.op2 .add .x (.v 6) 1)  -- 539: KERNEL_4x4: ADDPD X6, X1
  , .i (.op2 .add .x (.v 7) 1)  -- 539: KERNEL_4x4: ADDPD X7, X1
  , .i (.op2 .add .x (.v 8) 2)  -- 539: KERNEL_4x4: ADDPD X8, X2
  , .i (.op2 .add .x (.v 9) 2)  -- 539: KERNEL_4x4: ADDPD X9, X2
  , .i (.op2 .add .x (.v 10) 3)  -- 539: KERNEL_4x4: ADDPD X10, X3
  , .i (.op2 .add .x (.v 11) 3)  -- 539: KERNEL_4x4: ADDPD X11, X3
  , .i (.addQ 32 .DI)  -- 539: KERNEL_4x4: ADDQ $4*SIZE, A_PTR
  , .i (.lea ⟨.SI, some (.R8, 4), 0⟩ .SI)  -- 541: LEAQ (X_PTR)(INC_X*4), X_PTR
  , .i (.decQ .BX)  -- 543: DECQ N
  , .jnz .inc_r4c4  -- 544: JNZ inc_r4c4
  , .label .inc_r4c2  -- 546: inc_r4c2:
  , .i (.testArg 2 8)  -- 547: TESTQ $2, N_DIM
  , .jz .inc_r4c1  -- 548: JZ inc_r4c1
  , .i (.ld .s ⟨.SI, none, 0⟩ 12)  -- 551: KERNEL_LOAD2_INC: MOVSD (X_PTR), X12
  , .i (.ldHi ⟨.SI, some (.R8, 1), 0⟩ 12)  -- 551: KERNEL_LOAD2_INC: MOVHPD (X_PTR)(INC_X*1), X12
  , .i (.ld .x ⟨.DI, none, 0⟩ 4)  -- 552: KERNEL_4x2: MOVUPS (A_PTR), X4
  , .i (.ld .x ⟨.DI, some (.R12, 1), 0⟩ 5)  -- 552: KERNEL_4x2: MOVUPS (A_PTR)(LDA*1), X5
  , .i (.ld .x ⟨.DI, some (.R12, 2), 0⟩ 6)  -- 552: KERNEL_4x2: MOVUPS (A_PTR)(LDA*2), X6
  , .i (.ld .x ⟨.DI, some (.R13, 1), 0⟩ 7)  -- 552: KERNEL_4x2: MOVUPS (A_PTR)(LDA3*1), X7
  , .i (.op2 .mul .x (.v 12) 4)  -- 552: KERNEL_4x2: MULPD X12, X4
  , .i (.op2 .mul .x (.v 12) 5)  -- 552: KERNEL_4x2: MULPD X12, X5
  , .i (.op2 .mul .x (.v 12) 6)  -- 552: KERNEL_4x2: MULPD X12, X6
  , .i (.op2 .mul .x (.v 12) 7)  -- 552: KERNEL_4x2: MULPD X12, X7
  , .i (.op2 .add .x (.v 4) 0)  -- 552: KERNEL_4x2: ADDPD X4, X0
  , .i (.op2 .add .x (.v 5) 1)  -- 552: KERNEL_4x2: ADDPD X5, X1
  , .i (.op2 .add .x (.v 6) 2)  -- 552: KERNEL_4x2: ADDPD X6, X2
  , .i (.op2 .add .x (.v 7) 3)  -- 552: KERNEL_4x2: ADDPD X7, X3
  , .i (.addQ 16 .DI)  -- 552: KERNEL_4x2: ADDQ $2*SIZE, A_PTR
  , .i (.lea ⟨.SI, some (.R8, 2), 0⟩ .SI)  -- 554: LEAQ (X_PTR)(INC_X*2), X_PTR
  , .label .inc_r4c1  -- 556: inc_r4c1:
  , .i (.hadd 1 0)  -- 557: HADDPD X1, X0
  , .i (.hadd 3 2)  -- 558: HADDPD X3, X2
  , .i (.testArg 1 8)  -- 559: TESTQ $1, N_DIM
  , .jz .inc_r4end  -- 560: JZ inc_r4end
  , .i (.ldDup ⟨.SI, none, 0⟩ 12)  -- 563: KERNEL_4x1: MOVDDUP (X_PTR), X12
  , .i (.ld .s ⟨.DI, none, 0⟩ 4)  -- 563: KERNEL_4x1: MOVSD (A_PTR), X4
  , .i (.ldHi ⟨.DI, some (.R12, 1), 0⟩ 4)  -- 563: KERNEL_4x1: MOVHPD (A_PTR)(LDA*1), X4
  , .i (.ld .s ⟨.DI, some (.R12, 2), 0⟩ 5)  -- 563: KERNEL_4x1: MOVSD (A_PTR)(LDA*2), X5
  , .i (.ldHi ⟨.DI, some (.R13, 1), 0⟩ 5)  -- 563: KERNEL_4x1: MOVHPD (A_PTR)(LDA3*1), X5
  , .i (.op2 .mul .x (.v 12) 4)  -- 563: KERNEL_4x1: MULPD X12, X4
  , .i (.op2 .mul .x (.v 12) 5)  -- 563: KERNEL_4x1: MULPD X12, X5
  , .i (.op2 .add .x (.v 4) 0)  -- 563: KERNEL_4x1: ADDPD X4, X0
  , .i (.op2 .add .x (.v 5) 2)  -- 563: KERNEL_4x1: ADDPD X5, X2
  , .i (.addQ 8 .DI)  -- 563: KERNEL_4x1: ADDQ $SIZE, A_PTR
  , .i (.addR .R8 .SI)  -- 565: ADDQ INC_X, X_PTR
  , .label .inc_r4end  -- 567: inc_r4end:
  , .i (.cmpQ .R10 8)  -- 568: CMPQ INC_Y, $SIZE
  , .jnz .inc_r4st_inc  -- 569: JNE inc_r4st_inc
  , .i (.ld .x ⟨.DX, none, 0⟩ 4)  -- 571: STORE4: MOVUPS (Y_PTR), X4
  , .i (.ld .x ⟨.DX, none, 16⟩ 5)  -- 571: STORE4: MOVUPS 2*SIZE(Y_PTR), X5
  , .i (.op2 .mul .x (.v 15) 0)  -- 571: STORE4: MULPD ALPHA, X0
  , .i (.op2 .mul .x (.v 15) 2)  -- 571: STORE4: MULPD ALPHA, X2
  , .i (.op2 .mul .x (.v 14) 4)  -- 571: STORE4: MULPD BETA, X4
  , .i (.op2 .mul .x (.v 14) 5)  -- 571: STORE4: MULPD BETA, X5
  , .i (.op2 .add .x (.v 0) 4)  -- 571: STORE4: ADDPD X0, X4
  , .i (.op2 .add .x (.v 2) 5)  -- 571: STORE4: ADDPD X2, X5
  , .i (.st .x 4 ⟨.DX, none, 0⟩)  -- 571: STORE4: MOVUPS X4, (Y_PTR)
  , .i (.st .x 5 ⟨.DX, none, 16⟩)  -- 571: STORE4: MOVUPS X5, 2*SIZE(Y_PTR)
  , .i (.addQ 32 .DX)  -- 572: ADDQ $4*SIZE, Y_PTR
  , .jmp .inc_r4inc  -- 573: JMP inc_r4inc
  , .label .inc_r4st_inc  -- 575: inc_r4st_inc:
  , .i (.ld .s ⟨.DX, none, 0⟩ 4)  -- 576: STORE4_INC: MOVSD (Y_PTR), X4
  , .i (.ldHi ⟨.DX, some (.R10, 1), 0⟩ 4)  -- 576: STORE4_INC: MOVHPD (Y_PTR)(INC_Y*1), X4
  , .i (.ld .s ⟨.DX, some (.R10, 2), 0⟩ 5)  -- 576: STORE4_INC: MOVSD (Y_PTR)(INC_Y*2), X5
  , .i (.ldHi ⟨.DX, some (.R11, 1), 0⟩ 5)  -- 576: STORE4_INC: MOVHPD (Y_PTR)(INC3_Y*1), X5
  , .i (.op2 .mul .x (.v 15) 0)  -- 576: STORE4_INC: MULPD ALPHA, X0
  , .i (.op2 .mul .x (.v 15) 2)  -- 576: STORE4_INC: MULPD ALPHA, X2
  , .i (.op2 .mul .x (.v 14) 4)  -- 576: STORE4_INC: MULPD BETA, X4
  , .i (.op2 .mul .x (.v 14) 5)  -- 576: STORE4_INC: MULPD BETA, X5
  , .i (.op2 .add .x (.v 0) 4)  -- 576: STORE4_INC: ADDPD X0, X4
  , .i (.op2 .add .x (.v 2) 5)  -- 576: STORE4_INC: ADDPD X2, X5
  , .i (.st .s 4 ⟨.DX, none, 0⟩)  -- 576: STORE4_INC: MOVLPD X4, (Y_PTR)
  , .i (.stHi 4 ⟨.DX, some (.R10, 1), 0⟩)  -- 576: STORE4_INC: MOVHPD X4, (Y_PTR)(INC_Y*1)
  , .i (.st .s 5 ⟨.DX, some (.R10, 2), 0⟩)  -- 576: STORE4_INC: MOVLPD X5, (Y_PTR)(INC_Y*2)
  , .i (.stHi 5 ⟨.DX, some (.R11, 1), 0⟩)  -- 576: STORE4_INC: MOVHPD X5, (Y_PTR)(INC3_Y*1)
  , .i (.lea ⟨.DX, some (.R10, 4), 0⟩ .DX)  -- 577: LEAQ (Y_PTR)(INC_Y*4), Y_PTR
  , .label .inc_r4inc  -- 579: inc_r4inc:
  , .i (.argQ 56 .SI)  -- 580: MOVQ X, X_PTR
  , .i (.lea ⟨.AX, some (.R12, 4), 0⟩ .AX)  -- 581: LEAQ (A_ROW)(LDA*4), A_ROW
  , .i (.movQ .AX .DI)  -- 582: MOVQ A_ROW, A_PTR
  , .i (.decQ .CX)  -- 584: DECQ M
  , .jnz .inc_r4  -- 585: JNZ inc_r4
  , .label .inc_r2  -- 587: inc_r2:
  , .i (.testArg 2 0)  -- 588: TESTQ $2, M_DIM
  , .jz .inc_r1  -- 589: JZ inc_r1
  , .i (.zero 0)  -- 592: INIT2: XORPS X0, X0
  , .i (.zero 1)  -- 592: INIT2: XORPS X1, X1
  , .i (.argQ 8 .BX)  -- 594: MOVQ N_DIM, N
  , .i (.shrQ 2 .BX)  -- 595: SHRQ $2, N
  , .jz .inc_r2c2  -- 596: JZ inc_r2c2
  , .label .inc_r2c4  -- 598: inc_r2c4:
  , .i (.ld .s ⟨.SI, none, 0⟩ 12)  -- 600: KERNEL_LOAD4_INC: MOVSD (X_PTR), X12
  , .i (.ldHi ⟨.SI, some (.R8, 1), 0⟩ 12)  -- 600: KERNEL_LOAD4_INC: MOVHPD (X_PTR)(INC_X*1), X12
  , .i (.ld .s ⟨.SI, some (.R8, 2), 0⟩ 13)  -- 600: KERNEL_LOAD4_INC: MOVSD (X_PTR)(INC_X*2), X13
  , .i (.ldHi ⟨.SI, some (.R9, 1), 0⟩ 13)  -- 600: KERNEL_LOAD4_INC: MOVHPD (X_PTR)(INC3_X*1), X13
  , .i (.ld .x ⟨.DI, none, 0⟩ 8)  -- 601: KERNEL_2x4: MOVUPS (A_PTR), X8
  , .i (.ld .x ⟨.DI, none, 16⟩ 9)  -- 601: KERNEL_2x4: MOVUPS 2*SIZE(A_PTR), X9
  , .i (.ld .x ⟨.DI, some (.R12, 1), 0⟩ 10)  -- 601: KERNEL_2x4: MOVUPS (A_PTR)(LDA*1), X10
  , .i (.ld .x ⟨.DI, some (.R12, 1), 16⟩ 11)  -- 601: KERNEL_2x4: MOVUPS 2*SIZE(A_PTR)(LDA*1), X11
  , .i (.op2 .mul .x (.v 12) 8)  -- 601: KERNEL_2x4: MULPD X12, X8
  , .i (.op2 .mul .x (.v 13) 9)  -- 601: KERNEL_2x4: MULPD X13, X9
  , .i (.op2 .mul .x (.v 12) 10)  -- 601: KERNEL_2x4: MULPD X12, X10
  , .i (.op2 .mul .x (.v 13) 11)  -- 601: KERNEL_2x4: MULPD X13, X11
  , .i (.op2 .add .x (.v 8) 0)  -- 601: KERNEL_2x4: ADDPD X8, X0
  , .i (.op2 .add .x (.v 10) 1)  -- 601: KERNEL_2x4: ADDPD X10, X1
  , .i (.op2 .add .x (.v 9) 0)  -- 601: KERNEL_2x4: ADDPD X9, X0
  , .i (.op2 .add .x (.v 11) 1)  -- 601: KERNEL_2x4: ADDPD X11, X1
  , .i (.addQ 32 .DI)  -- 601: KERNEL_2x4: ADDQ $4*SIZE, A_PTR
  , .i (.lea ⟨.SI, some (.R8, 4), 0⟩ .SI)  -- 603: LEAQ (X_PTR)(INC_X*4), X_PTR
  , .i (.decQ .BX)  -- 604: DECQ N
  , .jnz .inc_r2c4  -- 605: JNZ inc_r2c4
  , .label .inc_r2c2  -- 607: inc_r2c2:
  , .i (.testArg 2 8)  -- 608: TESTQ $2, N_DIM
  , .jz .inc_r2c1  -- 609: JZ inc_r2c1
  , .i (.ld .s ⟨.SI, none, 0⟩ 12)  -- 612: KERNEL_LOAD2_INC: MOVSD (X_PTR), X12
  , .i (.ldHi ⟨.SI, some (.R8, 1), 0⟩ 12)  -- 612: KERNEL_LOAD2_INC: MOVHPD (X_PTR)(INC_X*1), X12
  , .i (.ld .x ⟨.DI, none, 0⟩ 8)  -- 613: KERNEL_2x2: MOVUPS (A_PTR), X8
  , .i (.ld .x ⟨.DI, some (.R12, 1), 0⟩ 9)  -- 613: KERNEL_2x2: MOVUPS (A_PTR)(LDA*1), X9
  , .i (.op2 .mul .x (.v 12) 8)  -- 613: KERNEL_2x2: MULPD X12, X8
  , .i (.op2 .mul .x (.v 12) 9)  -- 613: KERNEL_2x2: MULPD X12, X9
  , .i (.op2 .add .x (.v 8) 0)  -- 613: KERNEL_2x2: ADDPD X8, X0
  , .i (.op2 .add .x (.v 9) 1)  -- 613: KERNEL_2x2: ADDPD X9, X1
  , .i (.addQ 16 .DI)  -- 613: KERNEL_2x2: ADDQ $2*SIZE, A_PTR
  , .i (.lea ⟨.SI, some (.R8, 2), 0⟩ .SI)  -- 615: LEAQ (X_PTR)(INC_X*2), X_PTR
  , .label .inc_r2c1  -- 617: inc_r2c1:
  , .i (.hadd 1 0)  -- 618: HADDPD X1, X0
  , .i (.testArg 1 8)  -- 619: TESTQ $1, N_DIM
  , .jz .inc_r2end  -- 620: JZ inc_r2end
  , .i (.ldDup ⟨.SI, none, 0⟩ 12)  -- 623: KERNEL_2x1: MOVDDUP (X_PTR), X12
  , .i (.ld .s ⟨.DI, none, 0⟩ 8)  -- 623: KERNEL_2x1: MOVSD (A_PTR), X8
  , .i (.ldHi ⟨.DI, some (.R12, 1), 0⟩ 8)  -- 623: KERNEL_2x1: MOVHPD (A_PTR)(LDA*1), X8
  , .i (.op2 .mul .x (.v 12) 8)  -- 623: KERNEL_2x1: MULPD X12, X8
  , .i (.op2 .add .x (.v 8) 0)  -- 623: KERNEL_2x1: ADDPD X8, X0
  , .i (.addQ 8 .DI)  -- 623: KERNEL_2x1: ADDQ $SIZE, A_PTR
  , .i (.addR .R8 .SI)  -- 625: ADDQ INC_X, X_PTR
  , .label .inc_r2end  -- 627: inc_r2end:
  , .i (.cmpQ .R10 8)  -- 628: CMPQ INC_Y, $SIZE
  , .jnz .inc_r2st_inc  -- 629: JNE inc_r2st_inc
  , .i (.ld .x ⟨.DX, none, 0⟩ 4)  -- 631: STORE2: MOVUPS (Y_PTR), X4
  , .i (.op2 .mul .x (.v 15) 0)  -- 631: STORE2: MULPD ALPHA, X0
  , .i (.op2 .mul .x (.v 14) 4)  -- 631: STORE2: MULPD BETA, X4
  , .i (.op2 .add .x (.v 0) 4)  -- 631: STORE2: ADDPD X0, X4
  , .i (.st .x 4 ⟨.DX, none, 0⟩)  -- 631: STORE2: MOVUPS X4, (Y_PTR)
  , .i (.addQ 16 .DX)  -- 632: ADDQ $2*SIZE, Y_PTR
  , .jmp .inc_r2inc  -- 633: JMP inc_r2inc
  , .label .inc_r2st_inc  -- 635: inc_r2st_inc:
  , .i (.ld .s ⟨.DX, none, 0⟩ 4)  -- 636: STORE2_INC: MOVSD (Y_PTR), X4
  , .i (.ldHi ⟨.DX, some (.R10, 1), 0⟩ 4)  -- 636: STORE2_INC: MOVHPD (Y_PTR)(INC_Y*1), X4
  , .i (.op2 .mul .x (.v 15) 0)  -- 636: STORE2_INC: MULPD ALPHA, X0
  , .i (.op2 .mul .x (.v 14) 4)  -- 636: STORE2_INC: MULPD BETA, X4
  , .i (.op2 .add .x (.v 0) 4)  -- 636: STORE2_INC: ADDPD X0, X4
  , .i (.st .s 4 ⟨.DX, none, 0⟩)  -- 636: STORE2_INC: MOVSD X4, (Y_PTR)
  , .i (.stHi 4 ⟨.DX, some (.R10, 1), 0⟩)  -- 636: STORE2_INC: MOVHPD X4, (Y_PTR)(INC_Y*1)
  , .i (.lea ⟨.DX, some (.R10, 2), 0⟩ .DX)  -- 637: LEAQ (Y_PTR)(INC_Y*2), Y_PTR
  , .label .inc_r2inc  -- 639: inc_r2inc:
  , .i (.argQ 56 .SI)  -- 640: MOVQ X, X_PTR
  , .i (.lea ⟨.AX, some (.R12, 2), 0⟩ .AX)  -- 641: LEAQ (A_ROW)(LDA*2), A_ROW
  , .i (.movQ .AX .DI)  -- 642: MOVQ A_ROW, A_PTR
  , .label .inc_r1  -- 644: inc_r1:
  , .i (.testArg 1 0)  -- 645: TESTQ $1, M_DIM
  , .jz .inc_end  -- 646: JZ inc_end
  , .i (.zero 0)  -- 649: INIT1: XORPS X0, X0
  , .i (.argQ 8 .BX)  -- 651: MOVQ N_DIM, N
  , .i (.shrQ 2 .BX)  -- 652: SHRQ $2, N
  , .jz .inc_r1c2  -- 653: JZ inc_r1c2
  , .label .inc_r1c4  -- 655: inc_r1c4:
  , .i (.ld .s ⟨.SI, none, 0⟩ 12)  -- 657: KERNEL_LOAD4_INC: MOVSD (X_PTR), X12
  , .i (.ldHi ⟨.SI, some (.R8, 1), 0⟩ 12)  -- 657: KERNEL_LOAD4_INC: MOVHPD (X_PTR)(INC_X*1), X12
  , .i (.ld .s ⟨.SI, some (.R8, 2), 0⟩ 13)  -- 657: KERNEL_LOAD4_INC: MOVSD (X_PTR)(INC_X*2), X13
  , .i (.ldHi ⟨.SI, some (.R9, 1), 0⟩ 13)  -- 657: KERNEL_LOAD4_INC: MOVHPD (X_PTR)(INC3_X*1), X13
  , .i (.ld .x ⟨.DI, none, 0⟩ 8)  -- 658: KERNEL_1x4: MOVUPS (A_PTR), X8
  , .i (.ld .x ⟨.DI, none, 16⟩ 9)  -- 658: KERNEL_1x4: MOVUPS 2*SIZE(A_PTR), X9
  , .i (.op2 .mul .x (.v 12) 8)  -- 658: KERNEL_1x4: MULPD X12, X8
  , .i (.op2 .mul .x (.v 13) 9)  -- 658: KERNEL_1x4: MULPD X13, X9
  , .i (.op2 .add .x (.v 8) 0)  -- 658: KERNEL_1x4: ADDPD X8, X0
  , .i (.op2 .add .x (.v 9) 0)  -- 658: KERNEL_1x4: ADDPD X9, X0
  , .i (.addQ 32 .DI)  -- 658: KERNEL_1x4: ADDQ $4*SIZE, A_PTR
  , .i (.lea ⟨.SI, some (.R8, 4), 0⟩ .SI)  -- 660: LEAQ (X_PTR)(INC_X*4), X_PTR
  , .i (.decQ .BX)  -- 661: DECQ N
  , .jnz .inc_r1c4  -- 662: JNZ inc_r1c4
  , .label .inc_r1c2  -- 664: inc_r1c2:
  , .i (.testArg 2 8)  -- 665: TESTQ $2, N_DIM
  , .jz .inc_r1c1  -- 666: JZ inc_r1c1
  , .i (.ld .s ⟨.SI, none, 0⟩ 12)  -- 669: KERNEL_LOAD2_INC: MOVSD (X_PTR), X12
  , .i (.ldHi ⟨.SI, some (.R8, 1), 0⟩ 12)  -- 669: KERNEL_LOAD2_INC: MOVHPD (X_PTR)(INC_X*1), X12
  , .i (.ld .x ⟨.DI, none, 0⟩ 8)  -- 670: KERNEL_1x2: MOVUPS (A_PTR), X8
  , .i (.op2 .mul .x (.v 12) 8)  -- 670: KERNEL_1x2: MULPD X12, X8
  , .i (.op2 .add .x (.v 8) 0)  -- 670: KERNEL_1x2: ADDPD X8, X0
  , .i (.addQ 16 .DI)  -- 670: KERNEL_1x2: ADDQ $2*SIZE, A_PTR
  , .i (.lea ⟨.SI, some (.R8, 2), 0⟩ .SI)  -- 672: LEAQ (X_PTR)(INC_X*2), X_PTR
  , .label .inc_r1c1  -- 674: inc_r1c1:
  , .i (.testArg 1 8)  -- 675: TESTQ $1, N_DIM
  , .jz .inc_r1end  -- 676: JZ inc_r1end
  , .i (.ld .s ⟨.SI, none, 0⟩ 12)  -- 679: KERNEL_1x1: MOVSD (X_PTR), X12
  , .i (.ld .s ⟨.DI, none, 0⟩ 8)  -- 679: KERNEL_1x1: MOVSD (A_PTR), X8
  , .i (.op2 .mul .s (.v 12) 8)  -- 679: KERNEL_1x1: MULSD X12, X8
  , .i (.op2 .add .s (.v 8) 0)  -- 679: KERNEL_1x1: ADDSD X8, X0
  , .i (.addQ 8 .DI)  -- 679: KERNEL_1x1: ADDQ $SIZE, A_PTR
  , .label .inc_r1end  -- 681: inc_r1end:
  , .i (.hadd 0 0)  -- 682: STORE1: HADDPD X0, X0
  , .i (.ld .s ⟨.DX, none, 0⟩ 4)  -- 682: STORE1: MOVSD (Y_PTR), X4
  , .i (.op2 .mul .s (.v 15) 0)  -- 682: STORE1: MULSD ALPHA, X0
  , .i (.op2 .mul .s (.v 14) 4)  -- 682: STORE1: MULSD BETA, X4
  , .i (.op2 .add .s (.v 0) 4)  -- 682: STORE1: ADDSD X0, X4
  , .i (.st .s 4 ⟨.DX, none, 0⟩)  -- 682: STORE1: MOVSD X4, (Y_PTR)
  , .label .inc_end  -- 684: inc_end:
  , .ret  -- 685: RET
]

end Verif.Gonum
