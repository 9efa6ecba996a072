/-
The text of the 28 assembly routines of mat/internal/matfuncs (`*_amd64.s` of add, sub, div, addconst,
mulconst, dotprod, sum), one list element for every label and instruction, in the order of the file.
The comment of an element has the line number and the line.  Labels, operands and constants are
those of the file (constants in decimal); `end` is written `end_`.  The element size is not part of an
instruction here: every floating-point mnemonic of a routine has the suffix of its name (S for …32,
D for …64), and `Env.es` is 4 or 8 accordingly.
-/
import Verif.Model.Asm
set_option autoImplicit false
set_option maxRecDepth 4000

namespace Verif.Asm

/-- `AddAVX32`, mat/internal/matfuncs/add_amd64.s from line 9. -/
def addAVX32 : List Line := [
  .i (.argQ 0 .AX)  -- 10: MOVQ x1_base+0(FP), AX
  , .i (.argQ 24 .CX)  -- 11: MOVQ x2_base+24(FP), CX
  , .i (.argQ 48 .DX)  -- 12: MOVQ y_base+48(FP), DX
  , .i (.argQ 8 .BX)  -- 13: MOVQ x1_len+8(FP), BX
  , .label .unrolledLoop  -- 15: unrolledLoop:
  , .i (.cmpQ .BX 128)  -- 16: CMPQ BX, $0x00000080
  , .jcc .l .singleRegisterLoop  -- 17: JL singleRegisterLoop
  , .i (.ld true .y ⟨.AX, 0⟩ 0)  -- 18: VMOVUPS (AX), Y0
  , .i (.ld true .y ⟨.AX, 32⟩ 1)  -- 19: VMOVUPS 32(AX), Y1
  , .i (.ld true .y ⟨.AX, 64⟩ 2)  -- 20: VMOVUPS 64(AX), Y2
  , .i (.ld true .y ⟨.AX, 96⟩ 3)  -- 21: VMOVUPS 96(AX), Y3
  , .i (.ld true .y ⟨.AX, 128⟩ 4)  -- 22: VMOVUPS 128(AX), Y4
  , .i (.ld true .y ⟨.AX, 160⟩ 5)  -- 23: VMOVUPS 160(AX), Y5
  , .i (.ld true .y ⟨.AX, 192⟩ 6)  -- 24: VMOVUPS 192(AX), Y6
  , .i (.ld true .y ⟨.AX, 224⟩ 7)  -- 25: VMOVUPS 224(AX), Y7
  , .i (.ld true .y ⟨.AX, 256⟩ 8)  -- 26: VMOVUPS 256(AX), Y8
  , .i (.ld true .y ⟨.AX, 288⟩ 9)  -- 27: VMOVUPS 288(AX), Y9
  , .i (.ld true .y ⟨.AX, 320⟩ 10)  -- 28: VMOVUPS 320(AX), Y10
  , .i (.ld true .y ⟨.AX, 352⟩ 11)  -- 29: VMOVUPS 352(AX), Y11
  , .i (.ld true .y ⟨.AX, 384⟩ 12)  -- 30: VMOVUPS 384(AX), Y12
  , .i (.ld true .y ⟨.AX, 416⟩ 13)  -- 31: VMOVUPS 416(AX), Y13
  , .i (.ld true .y ⟨.AX, 448⟩ 14)  -- 32: VMOVUPS 448(AX), Y14
  , .i (.ld true .y ⟨.AX, 480⟩ 15)  -- 33: VMOVUPS 480(AX), Y15
  , .i (.op3 .add .y (.m ⟨.CX, 0⟩) 0 0)  -- 34: VADDPS (CX), Y0, Y0
  , .i (.op3 .add .y (.m ⟨.CX, 32⟩) 1 1)  -- 35: VADDPS 32(CX), Y1, Y1
  , .i (.op3 .add .y (.m ⟨.CX, 64⟩) 2 2)  -- 36: VADDPS 64(CX), Y2, Y2
  , .i (.op3 .add .y (.m ⟨.CX, 96⟩) 3 3)  -- 37: VADDPS 96(CX), Y3, Y3
  , .i (.op3 .add .y (.m ⟨.CX, 128⟩) 4 4)  -- 38: VADDPS 128(CX), Y4, Y4
  , .i (.op3 .add .y (.m ⟨.CX, 160⟩) 5 5)  -- 39: VADDPS 160(CX), Y5, Y5
  , .i (.op3 .add .y (.m ⟨.CX, 192⟩) 6 6)  -- 40: VADDPS 192(CX), Y6, Y6
  , .i (.op3 .add .y (.m ⟨.CX, 224⟩) 7 7)  -- 41: VADDPS 224(CX), Y7, Y7
  , .i (.op3 .add .y (.m ⟨.CX, 256⟩) 8 8)  -- 42: VADDPS 256(CX), Y8, Y8
  , .i (.op3 .add .y (.m ⟨.CX, 288⟩) 9 9)  -- 43: VADDPS 288(CX), Y9, Y9
  , .i (.op3 .add .y (.m ⟨.CX, 320⟩) 10 10)  -- 44: VADDPS 320(CX), Y10, Y10
  , .i (.op3 .add .y (.m ⟨.CX, 352⟩) 11 11)  -- 45: VADDPS 352(CX), Y11, Y11
  , .i (.op3 .add .y (.m ⟨.CX, 384⟩) 12 12)  -- 46: VADDPS 384(CX), Y12, Y12
  , .i (.op3 .add .y (.m ⟨.CX, 416⟩) 13 13)  -- 47: VADDPS 416(CX), Y13, Y13
  , .i (.op3 .add .y (.m ⟨.CX, 448⟩) 14 14)  -- 48: VADDPS 448(CX), Y14, Y14
  , .i (.op3 .add .y (.m ⟨.CX, 480⟩) 15 15)  -- 49: VADDPS 480(CX), Y15, Y15
  , .i (.st .y 0 ⟨.DX, 0⟩)  -- 50: VMOVUPS Y0, (DX)
  , .i (.st .y 1 ⟨.DX, 32⟩)  -- 51: VMOVUPS Y1, 32(DX)
  , .i (.st .y 2 ⟨.DX, 64⟩)  -- 52: VMOVUPS Y2, 64(DX)
  , .i (.st .y 3 ⟨.DX, 96⟩)  -- 53: VMOVUPS Y3, 96(DX)
  , .i (.st .y 4 ⟨.DX, 128⟩)  -- 54: VMOVUPS Y4, 128(DX)
  , .i (.st .y 5 ⟨.DX, 160⟩)  -- 55: VMOVUPS Y5, 160(DX)
  , .i (.st .y 6 ⟨.DX, 192⟩)  -- 56: VMOVUPS Y6, 192(DX)
  , .i (.st .y 7 ⟨.DX, 224⟩)  -- 57: VMOVUPS Y7, 224(DX)
  , .i (.st .y 8 ⟨.DX, 256⟩)  -- 58: VMOVUPS Y8, 256(DX)
  , .i (.st .y 9 ⟨.DX, 288⟩)  -- 59: VMOVUPS Y9, 288(DX)
  , .i (.st .y 10 ⟨.DX, 320⟩)  -- 60: VMOVUPS Y10, 320(DX)
  , .i (.st .y 11 ⟨.DX, 352⟩)  -- 61: VMOVUPS Y11, 352(DX)
  , .i (.st .y 12 ⟨.DX, 384⟩)  -- 62: VMOVUPS Y12, 384(DX)
  , .i (.st .y 13 ⟨.DX, 416⟩)  -- 63: VMOVUPS Y13, 416(DX)
  , .i (.st .y 14 ⟨.DX, 448⟩)  -- 64: VMOVUPS Y14, 448(DX)
  , .i (.st .y 15 ⟨.DX, 480⟩)  -- 65: VMOVUPS Y15, 480(DX)
  , .i (.addQ 512 .AX)  -- 66: ADDQ $0x00000200, AX
  , .i (.addQ 512 .CX)  -- 67: ADDQ $0x00000200, CX
  , .i (.addQ 512 .DX)  -- 68: ADDQ $0x00000200, DX
  , .i (.subQ 128 .BX)  -- 69: SUBQ $0x00000080, BX
  , .jmp .unrolledLoop  -- 70: JMP unrolledLoop
  , .label .singleRegisterLoop  -- 72: singleRegisterLoop:
  , .i (.cmpQ .BX 8)  -- 73: CMPQ BX, $0x00000008
  , .jcc .l .tailLoop  -- 74: JL tailLoop
  , .i (.ld true .y ⟨.AX, 0⟩ 0)  -- 75: VMOVUPS (AX), Y0
  , .i (.op3 .add .y (.m ⟨.CX, 0⟩) 0 0)  -- 76: VADDPS (CX), Y0, Y0
  , .i (.st .y 0 ⟨.DX, 0⟩)  -- 77: VMOVUPS Y0, (DX)
  , .i (.addQ 32 .AX)  -- 78: ADDQ $0x00000020, AX
  , .i (.addQ 32 .CX)  -- 79: ADDQ $0x00000020, CX
  , .i (.addQ 32 .DX)  -- 80: ADDQ $0x00000020, DX
  , .i (.subQ 8 .BX)  -- 81: SUBQ $0x00000008, BX
  , .jmp .singleRegisterLoop  -- 82: JMP singleRegisterLoop
  , .label .tailLoop  -- 84: tailLoop:
  , .i (.cmpQ .BX 0)  -- 85: CMPQ BX, $0x00000000
  , .jcc .z .end_  -- 86: JE end
  , .i (.ld true .s ⟨.AX, 0⟩ 0)  -- 87: VMOVSS (AX), X0
  , .i (.op3 .add .s (.m ⟨.CX, 0⟩) 0 0)  -- 88: VADDSS (CX), X0, X0
  , .i (.st .s 0 ⟨.DX, 0⟩)  -- 89: VMOVSS X0, (DX)
  , .i (.addQ 4 .AX)  -- 90: ADDQ $0x00000004, AX
  , .i (.addQ 4 .CX)  -- 91: ADDQ $0x00000004, CX
  , .i (.addQ 4 .DX)  -- 92: ADDQ $0x00000004, DX
  , .i (.decQ .BX)  -- 93: DECQ BX
  , .jmp .tailLoop  -- 94: JMP tailLoop
  , .label .end_  -- 96: end:
  , .ret  -- 97: RET
]

/-- `AddAVX64`, mat/internal/matfuncs/add_amd64.s from line 101. -/
def addAVX64 : List Line := [
  .i (.argQ 0 .AX)  -- 102: MOVQ x1_base+0(FP), AX
  , .i (.argQ 24 .CX)  -- 103: MOVQ x2_base+24(FP), CX
  , .i (.argQ 48 .DX)  -- 104: MOVQ y_base+48(FP), DX
  , .i (.argQ 8 .BX)  -- 105: MOVQ x1_len+8(FP), BX
  , .label .unrolledLoop  -- 107: unrolledLoop:
  , .i (.cmpQ .BX 64)  -- 108: CMPQ BX, $0x00000040
  , .jcc .l .singleRegisterLoop  -- 109: JL singleRegisterLoop
  , .i (.ld true .y ⟨.AX, 0⟩ 0)  -- 110: VMOVUPD (AX), Y0
  , .i (.ld true .y ⟨.AX, 32⟩ 1)  -- 111: VMOVUPD 32(AX), Y1
  , .i (.ld true .y ⟨.AX, 64⟩ 2)  -- 112: VMOVUPD 64(AX), Y2
  , .i (.ld true .y ⟨.AX, 96⟩ 3)  -- 113: VMOVUPD 96(AX), Y3
  , .i (.ld true .y ⟨.AX, 128⟩ 4)  -- 114: VMOVUPD 128(AX), Y4
  , .i (.ld true .y ⟨.AX, 160⟩ 5)  -- 115: VMOVUPD 160(AX), Y5
  , .i (.ld true .y ⟨.AX, 192⟩ 6)  -- 116: VMOVUPD 192(AX), Y6
  , .i (.ld true .y ⟨.AX, 224⟩ 7)  -- 117: VMOVUPD 224(AX), Y7
  , .i (.ld true .y ⟨.AX, 256⟩ 8)  -- 118: VMOVUPD 256(AX), Y8
  , .i (.ld true .y ⟨.AX, 288⟩ 9)  -- 119: VMOVUPD 288(AX), Y9
  , .i (.ld true .y ⟨.AX, 320⟩ 10)  -- 120: VMOVUPD 320(AX), Y10
  , .i (.ld true .y ⟨.AX, 352⟩ 11)  -- 121: VMOVUPD 352(AX), Y11
  , .i (.ld true .y ⟨.AX, 384⟩ 12)  -- 122: VMOVUPD 384(AX), Y12
  , .i (.ld true .y ⟨.AX, 416⟩ 13)  -- 123: VMOVUPD 416(AX), Y13
  , .i (.ld true .y ⟨.AX, 448⟩ 14)  -- 124: VMOVUPD 448(AX), Y14
  , .i (.ld true .y ⟨.AX, 480⟩ 15)  -- 125: VMOVUPD 480(AX), Y15
  , .i (.op3 .add .y (.m ⟨.CX, 0⟩) 0 0)  -- 126: VADDPD (CX), Y0, Y0
  , .i (.op3 .add .y (.m ⟨.CX, 32⟩) 1 1)  -- 127: VADDPD 32(CX), Y1, Y1
  , .i (.op3 .add .y (.m ⟨.CX, 64⟩) 2 2)  -- 128: VADDPD 64(CX), Y2, Y2
  , .i (.op3 .add .y (.m ⟨.CX, 96⟩) 3 3)  -- 129: VADDPD 96(CX), Y3, Y3
  , .i (.op3 .add .y (.m ⟨.CX, 128⟩) 4 4)  -- 130: VADDPD 128(CX), Y4, Y4
  , .i (.op3 .add .y (.m ⟨.CX, 160⟩) 5 5)  -- 131: VADDPD 160(CX), Y5, Y5
  , .i (.op3 .add .y (.m ⟨.CX, 192⟩) 6 6)  -- 132: VADDPD 192(CX), Y6, Y6
  , .i (.op3 .add .y (.m ⟨.CX, 224⟩) 7 7)  -- 133: VADDPD 224(CX), Y7, Y7
  , .i (.op3 .add .y (.m ⟨.CX, 256⟩) 8 8)  -- 134: VADDPD 256(CX), Y8, Y8
  , .i (.op3 .add .y (.m ⟨.CX, 288⟩) 9 9)  -- 135: VADDPD 288(CX), Y9, Y9
  , .i (.op3 .add .y (.m ⟨.CX, 320⟩) 10 10)  -- 136: VADDPD 320(CX), Y10, Y10
  , .i (.op3 .add .y (.m ⟨.CX, 352⟩) 11 11)  -- 137: VADDPD 352(CX), Y11, Y11
  , .i (.op3 .add .y (.m ⟨.CX, 384⟩) 12 12)  -- 138: VADDPD 384(CX), Y12, Y12
  , .i (.op3 .add .y (.m ⟨.CX, 416⟩) 13 13)  -- 139: VADDPD 416(CX), Y13, Y13
  , .i (.op3 .add .y (.m ⟨.CX, 448⟩) 14 14)  -- 140: VADDPD 448(CX), Y14, Y14
  , .i (.op3 .add .y (.m ⟨.CX, 480⟩) 15 15)  -- 141: VADDPD 480(CX), Y15, Y15
  , .i (.st .y 0 ⟨.DX, 0⟩)  -- 142: VMOVUPD Y0, (DX)
  , .i (.st .y 1 ⟨.DX, 32⟩)  -- 143: VMOVUPD Y1, 32(DX)
  , .i (.st .y 2 ⟨.DX, 64⟩)  -- 144: VMOVUPD Y2, 64(DX)
  , .i (.st .y 3 ⟨.DX, 96⟩)  -- 145: VMOVUPD Y3, 96(DX)
  , .i (.st .y 4 ⟨.DX, 128⟩)  -- 146: VMOVUPD Y4, 128(DX)
  , .i (.st .y 5 ⟨.DX, 160⟩)  -- 147: VMOVUPD Y5, 160(DX)
  , .i (.st .y 6 ⟨.DX, 192⟩)  -- 148: VMOVUPD Y6, 192(DX)
  , .i (.st .y 7 ⟨.DX, 224⟩)  -- 149: VMOVUPD Y7, 224(DX)
  , .i (.st .y 8 ⟨.DX, 256⟩)  -- 150: VMOVUPD Y8, 256(DX)
  , .i (.st .y 9 ⟨.DX, 288⟩)  -- 151: VMOVUPD Y9, 288(DX)
  , .i (.st .y 10 ⟨.DX, 320⟩)  -- 152: VMOVUPD Y10, 320(DX)
  , .i (.st .y 11 ⟨.DX, 352⟩)  -- 153: VMOVUPD Y11, 352(DX)
  , .i (.st .y 12 ⟨.DX, 384⟩)  -- 154: VMOVUPD Y12, 384(DX)
  , .i (.st .y 13 ⟨.DX, 416⟩)  -- 155: VMOVUPD Y13, 416(DX)
  , .i (.st .y 14 ⟨.DX, 448⟩)  -- 156: VMOVUPD Y14, 448(DX)
  , .i (.st .y 15 ⟨.DX, 480⟩)  -- 157: VMOVUPD Y15, 480(DX)
  , .i (.addQ 512 .AX)  -- 158: ADDQ $0x00000200, AX
  , .i (.addQ 512 .CX)  -- 159: ADDQ $0x00000200, CX
  , .i (.addQ 512 .DX)  -- 160: ADDQ $0x00000200, DX
  , .i (.subQ 64 .BX)  -- 161: SUBQ $0x00000040, BX
  , .jmp .unrolledLoop  -- 162: JMP unrolledLoop
  , .label .singleRegisterLoop  -- 164: singleRegisterLoop:
  , .i (.cmpQ .BX 4)  -- 165: CMPQ BX, $0x00000004
  , .jcc .l .tailLoop  -- 166: JL tailLoop
  , .i (.ld true .y ⟨.AX, 0⟩ 0)  -- 167: VMOVUPD (AX), Y0
  , .i (.op3 .add .y (.m ⟨.CX, 0⟩) 0 0)  -- 168: VADDPD (CX), Y0, Y0
  , .i (.st .y 0 ⟨.DX, 0⟩)  -- 169: VMOVUPD Y0, (DX)
  , .i (.addQ 32 .AX)  -- 170: ADDQ $0x00000020, AX
  , .i (.addQ 32 .CX)  -- 171: ADDQ $0x00000020, CX
  , .i (.addQ 32 .DX)  -- 172: ADDQ $0x00000020, DX
  , .i (.subQ 4 .BX)  -- 173: SUBQ $0x00000004, BX
  , .jmp .singleRegisterLoop  -- 174: JMP singleRegisterLoop
  , .label .tailLoop  -- 176: tailLoop:
  , .i (.cmpQ .BX 0)  -- 177: CMPQ BX, $0x00000000
  , .jcc .z .end_  -- 178: JE end
  , .i (.ld true .s ⟨.AX, 0⟩ 0)  -- 179: VMOVSD (AX), X0
  , .i (.op3 .add .s (.m ⟨.CX, 0⟩) 0 0)  -- 180: VADDSD (CX), X0, X0
  , .i (.st .s 0 ⟨.DX, 0⟩)  -- 181: VMOVSD X0, (DX)
  , .i (.addQ 8 .AX)  -- 182: ADDQ $0x00000008, AX
  , .i (.addQ 8 .CX)  -- 183: ADDQ $0x00000008, CX
  , .i (.addQ 8 .DX)  -- 184: ADDQ $0x00000008, DX
  , .i (.decQ .BX)  -- 185: DECQ BX
  , .jmp .tailLoop  -- 186: JMP tailLoop
  , .label .end_  -- 188: end:
  , .ret  -- 189: RET
]

/-- `AddSSE32`, mat/internal/matfuncs/add_amd64.s from line 193. -/
def addSSE32 : List Line := [
  .i (.argQ 0 .AX)  -- 194: MOVQ x1_base+0(FP), AX
  , .i (.argQ 24 .CX)  -- 195: MOVQ x2_base+24(FP), CX
  , .i (.argQ 48 .DX)  -- 196: MOVQ y_base+48(FP), DX
  , .i (.argQ 8 .BX)  -- 197: MOVQ x1_len+8(FP), BX
  , .i (.cmpQ .BX 0)  -- 198: CMPQ BX, $0x00000000
  , .jcc .z .end_  -- 199: JE end
  , .i (.movQ .CX .SI)  -- 200: MOVQ CX, SI
  , .i (.andQ 15 .SI)  -- 201: ANDQ $0x0000000f, SI
  , .jcc .z .unrolledLoop  -- 202: JZ unrolledLoop
  , .i (.xorQ 15 .SI)  -- 203: XORQ $0x0000000f, SI
  , .i (.incQ .SI)  -- 204: INCQ SI
  , .i (.shrQ 2 .SI)  -- 205: SHRQ $0x02, SI
  , .label .alignmentLoop  -- 207: alignmentLoop:
  , .i (.ld false .s ⟨.AX, 0⟩ 0)  -- 208: MOVSS (AX), X0
  , .i (.op2 .add .s (.m ⟨.CX, 0⟩) 0)  -- 209: ADDSS (CX), X0
  , .i (.st .s 0 ⟨.DX, 0⟩)  -- 210: MOVSS X0, (DX)
  , .i (.addQ 4 .AX)  -- 211: ADDQ $0x00000004, AX
  , .i (.addQ 4 .CX)  -- 212: ADDQ $0x00000004, CX
  , .i (.addQ 4 .DX)  -- 213: ADDQ $0x00000004, DX
  , .i (.decQ .BX)  -- 214: DECQ BX
  , .jcc .z .end_  -- 215: JZ end
  , .i (.decQ .SI)  -- 216: DECQ SI
  , .jcc .nz .alignmentLoop  -- 217: JNZ alignmentLoop
  , .label .unrolledLoop  -- 219: unrolledLoop:
  , .i (.cmpQ .BX 64)  -- 220: CMPQ BX, $0x00000040
  , .jcc .l .singleRegisterLoop  -- 221: JL singleRegisterLoop
  , .i (.ld false .x ⟨.AX, 0⟩ 0)  -- 222: MOVUPS (AX), X0
  , .i (.ld false .x ⟨.AX, 16⟩ 1)  -- 223: MOVUPS 16(AX), X1
  , .i (.ld false .x ⟨.AX, 32⟩ 2)  -- 224: MOVUPS 32(AX), X2
  , .i (.ld false .x ⟨.AX, 48⟩ 3)  -- 225: MOVUPS 48(AX), X3
  , .i (.ld false .x ⟨.AX, 64⟩ 4)  -- 226: MOVUPS 64(AX), X4
  , .i (.ld false .x ⟨.AX, 80⟩ 5)  -- 227: MOVUPS 80(AX), X5
  , .i (.ld false .x ⟨.AX, 96⟩ 6)  -- 228: MOVUPS 96(AX), X6
  , .i (.ld false .x ⟨.AX, 112⟩ 7)  -- 229: MOVUPS 112(AX), X7
  , .i (.ld false .x ⟨.AX, 128⟩ 8)  -- 230: MOVUPS 128(AX), X8
  , .i (.ld false .x ⟨.AX, 144⟩ 9)  -- 231: MOVUPS 144(AX), X9
  , .i (.ld false .x ⟨.AX, 160⟩ 10)  -- 232: MOVUPS 160(AX), X10
  , .i (.ld false .x ⟨.AX, 176⟩ 11)  -- 233: MOVUPS 176(AX), X11
  , .i (.ld false .x ⟨.AX, 192⟩ 12)  -- 234: MOVUPS 192(AX), X12
  , .i (.ld false .x ⟨.AX, 208⟩ 13)  -- 235: MOVUPS 208(AX), X13
  , .i (.ld false .x ⟨.AX, 224⟩ 14)  -- 236: MOVUPS 224(AX), X14
  , .i (.ld false .x ⟨.AX, 240⟩ 15)  -- 237: MOVUPS 240(AX), X15
  , .i (.op2 .add .x (.m ⟨.CX, 0⟩) 0)  -- 238: ADDPS (CX), X0
  , .i (.op2 .add .x (.m ⟨.CX, 16⟩) 1)  -- 239: ADDPS 16(CX), X1
  , .i (.op2 .add .x (.m ⟨.CX, 32⟩) 2)  -- 240: ADDPS 32(CX), X2
  , .i (.op2 .add .x (.m ⟨.CX, 48⟩) 3)  -- 241: ADDPS 48(CX), X3
  , .i (.op2 .add .x (.m ⟨.CX, 64⟩) 4)  -- 242: ADDPS 64(CX), X4
  , .i (.op2 .add .x (.m ⟨.CX, 80⟩) 5)  -- 243: ADDPS 80(CX), X5
  , .i (.op2 .add .x (.m ⟨.CX, 96⟩) 6)  -- 244: ADDPS 96(CX), X6
  , .i (.op2 .add .x (.m ⟨.CX, 112⟩) 7)  -- 245: ADDPS 112(CX), X7
  , .i (.op2 .add .x (.m ⟨.CX, 128⟩) 8)  -- 246: ADDPS 128(CX), X8
  , .i (.op2 .add .x (.m ⟨.CX, 144⟩) 9)  -- 247: ADDPS 144(CX), X9
  , .i (.op2 .add .x (.m ⟨.CX, 160⟩) 10)  -- 248: ADDPS 160(CX), X10
  , .i (.op2 .add .x (.m ⟨.CX, 176⟩) 11)  -- 249: ADDPS 176(CX), X11
  , .i (.op2 .add .x (.m ⟨.CX, 192⟩) 12)  -- 250: ADDPS 192(CX), X12
  , .i (.op2 .add .x (.m ⟨.CX, 208⟩) 13)  -- 251: ADDPS 208(CX), X13
  , .i (.op2 .add .x (.m ⟨.CX, 224⟩) 14)  -- 252: ADDPS 224(CX), X14
  , .i (.op2 .add .x (.m ⟨.CX, 240⟩) 15)  -- 253: ADDPS 240(CX), X15
  , .i (.st .x 0 ⟨.DX, 0⟩)  -- 254: MOVUPS X0, (DX)
  , .i (.st .x 1 ⟨.DX, 16⟩)  -- 255: MOVUPS X1, 16(DX)
  , .i (.st .x 2 ⟨.DX, 32⟩)  -- 256: MOVUPS X2, 32(DX)
  , .i (.st .x 3 ⟨.DX, 48⟩)  -- 257: MOVUPS X3, 48(DX)
  , .i (.st .x 4 ⟨.DX, 64⟩)  -- 258: MOVUPS X4, 64(DX)
  , .i (.st .x 5 ⟨.DX, 80⟩)  -- 259: MOVUPS X5, 80(DX)
  , .i (.st .x 6 ⟨.DX, 96⟩)  -- 260: MOVUPS X6, 96(DX)
  , .i (.st .x 7 ⟨.DX, 112⟩)  -- 261: MOVUPS X7, 112(DX)
  , .i (.st .x 8 ⟨.DX, 128⟩)  -- 262: MOVUPS X8, 128(DX)
  , .i (.st .x 9 ⟨.DX, 144⟩)  -- 263: MOVUPS X9, 144(DX)
  , .i (.st .x 10 ⟨.DX, 160⟩)  -- 264: MOVUPS X10, 160(DX)
  , .i (.st .x 11 ⟨.DX, 176⟩)  -- 265: MOVUPS X11, 176(DX)
  , .i (.st .x 12 ⟨.DX, 192⟩)  -- 266: MOVUPS X12, 192(DX)
  , .i (.st .x 13 ⟨.DX, 208⟩)  -- 267: MOVUPS X13, 208(DX)
  , .i (.st .x 14 ⟨.DX, 224⟩)  -- 268: MOVUPS X14, 224(DX)
  , .i (.st .x 15 ⟨.DX, 240⟩)  -- 269: MOVUPS X15, 240(DX)
  , .i (.addQ 256 .AX)  -- 270: ADDQ $0x00000100, AX
  , .i (.addQ 256 .CX)  -- 271: ADDQ $0x00000100, CX
  , .i (.addQ 256 .DX)  -- 272: ADDQ $0x00000100, DX
  , .i (.subQ 64 .BX)  -- 273: SUBQ $0x00000040, BX
  , .jmp .unrolledLoop  -- 274: JMP unrolledLoop
  , .label .singleRegisterLoop  -- 276: singleRegisterLoop:
  , .i (.cmpQ .BX 4)  -- 277: CMPQ BX, $0x00000004
  , .jcc .l .tailLoop  -- 278: JL tailLoop
  , .i (.ld false .x ⟨.AX, 0⟩ 0)  -- 279: MOVUPS (AX), X0
  , .i (.op2 .add .x (.m ⟨.CX, 0⟩) 0)  -- 280: ADDPS (CX), X0
  , .i (.st .x 0 ⟨.DX, 0⟩)  -- 281: MOVUPS X0, (DX)
  , .i (.addQ 16 .AX)  -- 282: ADDQ $0x00000010, AX
  , .i (.addQ 16 .CX)  -- 283: ADDQ $0x00000010, CX
  , .i (.addQ 16 .DX)  -- 284: ADDQ $0x00000010, DX
  , .i (.subQ 4 .BX)  -- 285: SUBQ $0x00000004, BX
  , .jmp .singleRegisterLoop  -- 286: JMP singleRegisterLoop
  , .label .tailLoop  -- 288: tailLoop:
  , .i (.cmpQ .BX 0)  -- 289: CMPQ BX, $0x00000000
  , .jcc .z .end_  -- 290: JE end
  , .i (.ld false .s ⟨.AX, 0⟩ 0)  -- 291: MOVSS (AX), X0
  , .i (.op2 .add .s (.m ⟨.CX, 0⟩) 0)  -- 292: ADDSS (CX), X0
  , .i (.st .s 0 ⟨.DX, 0⟩)  -- 293: MOVSS X0, (DX)
  , .i (.addQ 4 .AX)  -- 294: ADDQ $0x00000004, AX
  , .i (.addQ 4 .CX)  -- 295: ADDQ $0x00000004, CX
  , .i (.addQ 4 .DX)  -- 296: ADDQ $0x00000004, DX
  , .i (.decQ .BX)  -- 297: DECQ BX
  , .jmp .tailLoop  -- 298: JMP tailLoop
  , .label .end_  -- 300: end:
  , .ret  -- 301: RET
]

/-- `AddSSE64`, mat/internal/matfuncs/add_amd64.s from line 305. -/
def addSSE64 : List Line := [
  .i (.argQ 0 .AX)  -- 306: MOVQ x1_base+0(FP), AX
  , .i (.argQ 24 .CX)  -- 307: MOVQ x2_base+24(FP), CX
  , .i (.argQ 48 .DX)  -- 308: MOVQ y_base+48(FP), DX
  , .i (.argQ 8 .BX)  -- 309: MOVQ x1_len+8(FP), BX
  , .i (.cmpQ .BX 0)  -- 310: CMPQ BX, $0x00000000
  , .jcc .z .end_  -- 311: JE end
  , .i (.movQ .CX .SI)  -- 312: MOVQ CX, SI
  , .i (.andQ 15 .SI)  -- 313: ANDQ $0x0000000f, SI
  , .jcc .z .unrolledLoop  -- 314: JZ unrolledLoop
  , .i (.ld false .s ⟨.AX, 0⟩ 0)  -- 315: MOVSD (AX), X0
  , .i (.op2 .add .s (.m ⟨.CX, 0⟩) 0)  -- 316: ADDSD (CX), X0
  , .i (.st .s 0 ⟨.DX, 0⟩)  -- 317: MOVSD X0, (DX)
  , .i (.addQ 8 .AX)  -- 318: ADDQ $0x00000008, AX
  , .i (.addQ 8 .CX)  -- 319: ADDQ $0x00000008, CX
  , .i (.addQ 8 .DX)  -- 320: ADDQ $0x00000008, DX
  , .i (.decQ .BX)  -- 321: DECQ BX
  , .label .unrolledLoop  -- 323: unrolledLoop:
  , .i (.cmpQ .BX 32)  -- 324: CMPQ BX, $0x00000020
  , .jcc .l .singleRegisterLoop  -- 325: JL singleRegisterLoop
  , .i (.ld false .x ⟨.AX, 0⟩ 0)  -- 326: MOVUPD (AX), X0
  , .i (.ld false .x ⟨.AX, 16⟩ 1)  -- 327: MOVUPD 16(AX), X1
  , .i (.ld false .x ⟨.AX, 32⟩ 2)  -- 328: MOVUPD 32(AX), X2
  , .i (.ld false .x ⟨.AX, 48⟩ 3)  -- 329: MOVUPD 48(AX), X3
  , .i (.ld false .x ⟨.AX, 64⟩ 4)  -- 330: MOVUPD 64(AX), X4
  , .i (.ld false .x ⟨.AX, 80⟩ 5)  -- 331: MOVUPD 80(AX), X5
  , .i (.ld false .x ⟨.AX, 96⟩ 6)  -- 332: MOVUPD 96(AX), X6
  , .i (.ld false .x ⟨.AX, 112⟩ 7)  -- 333: MOVUPD 112(AX), X7
  , .i (.ld false .x ⟨.AX, 128⟩ 8)  -- 334: MOVUPD 128(AX), X8
  , .i (.ld false .x ⟨.AX, 144⟩ 9)  -- 335: MOVUPD 144(AX), X9
  , .i (.ld false .x ⟨.AX, 160⟩ 10)  -- 336: MOVUPD 160(AX), X10
  , .i (.ld false .x ⟨.AX, 176⟩ 11)  -- 337: MOVUPD 176(AX), X11
  , .i (.ld false .x ⟨.AX, 192⟩ 12)  -- 338: MOVUPD 192(AX), X12
  , .i (.ld false .x ⟨.AX, 208⟩ 13)  -- 339: MOVUPD 208(AX), X13
  , .i (.ld false .x ⟨.AX, 224⟩ 14)  -- 340: MOVUPD 224(AX), X14
  , .i (.ld false .x ⟨.AX, 240⟩ 15)  -- 341: MOVUPD 240(AX), X15
  , .i (.op2 .add .x (.m ⟨.CX, 0⟩) 0)  -- 342: ADDPD (CX), X0
  , .i (.op2 .add .x (.m ⟨.CX, 16⟩) 1)  -- 343: ADDPD 16(CX), X1
  , .i (.op2 .add .x (.m ⟨.CX, 32⟩) 2)  -- 344: ADDPD 32(CX), X2
  , .i (.op2 .add .x (.m ⟨.CX, 48⟩) 3)  -- 345: ADDPD 48(CX), X3
  , .i (.op2 .add .x (.m ⟨.CX, 64⟩) 4)  -- 346: ADDPD 64(CX), X4
  , .i (.op2 .add .x (.m ⟨.CX, 80⟩) 5)  -- 347: ADDPD 80(CX), X5
  , .i (.op2 .add .x (.m ⟨.CX, 96⟩) 6)  -- 348: ADDPD 96(CX), X6
  , .i (.op2 .add .x (.m ⟨.CX, 112⟩) 7)  -- 349: ADDPD 112(CX), X7
  , .i (.op2 .add .x (.m ⟨.CX, 128⟩) 8)  -- 350: ADDPD 128(CX), X8
  , .i (.op2 .add .x (.m ⟨.CX, 144⟩) 9)  -- 351: ADDPD 144(CX), X9
  , .i (.op2 .add .x (.m ⟨.CX, 160⟩) 10)  -- 352: ADDPD 160(CX), X10
  , .i (.op2 .add .x (.m ⟨.CX, 176⟩) 11)  -- 353: ADDPD 176(CX), X11
  , .i (.op2 .add .x (.m ⟨.CX, 192⟩) 12)  -- 354: ADDPD 192(CX), X12
  , .i (.op2 .add .x (.m ⟨.CX, 208⟩) 13)  -- 355: ADDPD 208(CX), X13
  , .i (.op2 .add .x (.m ⟨.CX, 224⟩) 14)  -- 356: ADDPD 224(CX), X14
  , .i (.op2 .add .x (.m ⟨.CX, 240⟩) 15)  -- 357: ADDPD 240(CX), X15
  , .i (.st .x 0 ⟨.DX, 0⟩)  -- 358: MOVUPD X0, (DX)
  , .i (.st .x 1 ⟨.DX, 16⟩)  -- 359: MOVUPD X1, 16(DX)
  , .i (.st .x 2 ⟨.DX, 32⟩)  -- 360: MOVUPD X2, 32(DX)
  , .i (.st .x 3 ⟨.DX, 48⟩)  -- 361: MOVUPD X3, 48(DX)
  , .i (.st .x 4 ⟨.DX, 64⟩)  -- 362: MOVUPD X4, 64(DX)
  , .i (.st .x 5 ⟨.DX, 80⟩)  -- 363: MOVUPD X5, 80(DX)
  , .i (.st .x 6 ⟨.DX, 96⟩)  -- 364: MOVUPD X6, 96(DX)
  , .i (.st .x 7 ⟨.DX, 112⟩)  -- 365: MOVUPD X7, 112(DX)
  , .i (.st .x 8 ⟨.DX, 128⟩)  -- 366: MOVUPD X8, 128(DX)
  , .i (.st .x 9 ⟨.DX, 144⟩)  -- 367: MOVUPD X9, 144(DX)
  , .i (.st .x 10 ⟨.DX, 160⟩)  -- 368: MOVUPD X10, 160(DX)
  , .i (.st .x 11 ⟨.DX, 176⟩)  -- 369: MOVUPD X11, 176(DX)
  , .i (.st .x 12 ⟨.DX, 192⟩)  -- 370: MOVUPD X12, 192(DX)
  , .i (.st .x 13 ⟨.DX, 208⟩)  -- 371: MOVUPD X13, 208(DX)
  , .i (.st .x 14 ⟨.DX, 224⟩)  -- 372: MOVUPD X14, 224(DX)
  , .i (.st .x 15 ⟨.DX, 240⟩)  -- 373: MOVUPD X15, 240(DX)
  , .i (.addQ 256 .AX)  -- 374: ADDQ $0x00000100, AX
  , .i (.addQ 256 .CX)  -- 375: ADDQ $0x00000100, CX
  , .i (.addQ 256 .DX)  -- 376: ADDQ $0x00000100, DX
  , .i (.subQ 32 .BX)  -- 377: SUBQ $0x00000020, BX
  , .jmp .unrolledLoop  -- 378: JMP unrolledLoop
  , .label .singleRegisterLoop  -- 380: singleRegisterLoop:
  , .i (.cmpQ .BX 2)  -- 381: CMPQ BX, $0x00000002
  , .jcc .l .tailLoop  -- 382: JL tailLoop
  , .i (.ld false .x ⟨.AX, 0⟩ 0)  -- 383: MOVUPD (AX), X0
  , .i (.op2 .add .x (.m ⟨.CX, 0⟩) 0)  -- 384: ADDPD (CX), X0
  , .i (.st .x 0 ⟨.DX, 0⟩)  -- 385: MOVUPD X0, (DX)
  , .i (.addQ 16 .AX)  -- 386: ADDQ $0x00000010, AX
  , .i (.addQ 16 .CX)  -- 387: ADDQ $0x00000010, CX
  , .i (.addQ 16 .DX)  -- 388: ADDQ $0x00000010, DX
  , .i (.subQ 2 .BX)  -- 389: SUBQ $0x00000002, BX
  , .jmp .singleRegisterLoop  -- 390: JMP singleRegisterLoop
  , .label .tailLoop  -- 392: tailLoop:
  , .i (.cmpQ .BX 0)  -- 393: CMPQ BX, $0x00000000
  , .jcc .z .end_  -- 394: JE end
  , .i (.ld false .s ⟨.AX, 0⟩ 0)  -- 395: MOVSD (AX), X0
  , .i (.op2 .add .s (.m ⟨.CX, 0⟩) 0)  -- 396: ADDSD (CX), X0
  , .i (.st .s 0 ⟨.DX, 0⟩)  -- 397: MOVSD X0, (DX)
  , .i (.addQ 8 .AX)  -- 398: ADDQ $0x00000008, AX
  , .i (.addQ 8 .CX)  -- 399: ADDQ $0x00000008, CX
  , .i (.addQ 8 .DX)  -- 400: ADDQ $0x00000008, DX
  , .i (.decQ .BX)  -- 401: DECQ BX
  , .jmp .tailLoop  -- 402: JMP tailLoop
  , .label .end_  -- 404: end:
  , .ret  -- 405: RET
]

/-- `SubAVX32`, mat/internal/matfuncs/sub_amd64.s from line 9. -/
def subAVX32 : List Line := [
  .i (.argQ 0 .AX)  -- 10: MOVQ x1_base+0(FP), AX
  , .i (.argQ 24 .CX)  -- 11: MOVQ x2_base+24(FP), CX
  , .i (.argQ 48 .DX)  -- 12: MOVQ y_base+48(FP), DX
  , .i (.argQ 8 .BX)  -- 13: MOVQ x1_len+8(FP), BX
  , .label .unrolledLoop  -- 15: unrolledLoop:
  , .i (.cmpQ .BX 128)  -- 16: CMPQ BX, $0x00000080
  , .jcc .l .singleRegisterLoop  -- 17: JL singleRegisterLoop
  , .i (.ld true .y ⟨.AX, 0⟩ 0)  -- 18: VMOVUPS (AX), Y0
  , .i (.ld true .y ⟨.AX, 32⟩ 1)  -- 19: VMOVUPS 32(AX), Y1
  , .i (.ld true .y ⟨.AX, 64⟩ 2)  -- 20: VMOVUPS 64(AX), Y2
  , .i (.ld true .y ⟨.AX, 96⟩ 3)  -- 21: VMOVUPS 96(AX), Y3
  , .i (.ld true .y ⟨.AX, 128⟩ 4)  -- 22: VMOVUPS 128(AX), Y4
  , .i (.ld true .y ⟨.AX, 160⟩ 5)  -- 23: VMOVUPS 160(AX), Y5
  , .i (.ld true .y ⟨.AX, 192⟩ 6)  -- 24: VMOVUPS 192(AX), Y6
  , .i (.ld true .y ⟨.AX, 224⟩ 7)  -- 25: VMOVUPS 224(AX), Y7
  , .i (.ld true .y ⟨.AX, 256⟩ 8)  -- 26: VMOVUPS 256(AX), Y8
  , .i (.ld true .y ⟨.AX, 288⟩ 9)  -- 27: VMOVUPS 288(AX), Y9
  , .i (.ld true .y ⟨.AX, 320⟩ 10)  -- 28: VMOVUPS 320(AX), Y10
  , .i (.ld true .y ⟨.AX, 352⟩ 11)  -- 29: VMOVUPS 352(AX), Y11
  , .i (.ld true .y ⟨.AX, 384⟩ 12)  -- 30: VMOVUPS 384(AX), Y12
  , .i (.ld true .y ⟨.AX, 416⟩ 13)  -- 31: VMOVUPS 416(AX), Y13
  , .i (.ld true .y ⟨.AX, 448⟩ 14)  -- 32: VMOVUPS 448(AX), Y14
  , .i (.ld true .y ⟨.AX, 480⟩ 15)  -- 33: VMOVUPS 480(AX), Y15
  , .i (.op3 .sub .y (.m ⟨.CX, 0⟩) 0 0)  -- 34: VSUBPS (CX), Y0, Y0
  , .i (.op3 .sub .y (.m ⟨.CX, 32⟩) 1 1)  -- 35: VSUBPS 32(CX), Y1, Y1
  , .i (.op3 .sub .y (.m ⟨.CX, 64⟩) 2 2)  -- 36: VSUBPS 64(CX), Y2, Y2
  , .i (.op3 .sub .y (.m ⟨.CX, 96⟩) 3 3)  -- 37: VSUBPS 96(CX), Y3, Y3
  , .i (.op3 .sub .y (.m ⟨.CX, 128⟩) 4 4)  -- 38: VSUBPS 128(CX), Y4, Y4
  , .i (.op3 .sub .y (.m ⟨.CX, 160⟩) 5 5)  -- 39: VSUBPS 160(CX), Y5, Y5
  , .i (.op3 .sub .y (.m ⟨.CX, 192⟩) 6 6)  -- 40: VSUBPS 192(CX), Y6, Y6
  , .i (.op3 .sub .y (.m ⟨.CX, 224⟩) 7 7)  -- 41: VSUBPS 224(CX), Y7, Y7
  , .i (.op3 .sub .y (.m ⟨.CX, 256⟩) 8 8)  -- 42: VSUBPS 256(CX), Y8, Y8
  , .i (.op3 .sub .y (.m ⟨.CX, 288⟩) 9 9)  -- 43: VSUBPS 288(CX), Y9, Y9
  , .i (.op3 .sub .y (.m ⟨.CX, 320⟩) 10 10)  -- 44: VSUBPS 320(CX), Y10, Y10
  , .i (.op3 .sub .y (.m ⟨.CX, 352⟩) 11 11)  -- 45: VSUBPS 352(CX), Y11, Y11
  , .i (.op3 .sub .y (.m ⟨.CX, 384⟩) 12 12)  -- 46: VSUBPS 384(CX), Y12, Y12
  , .i (.op3 .sub .y (.m ⟨.CX, 416⟩) 13 13)  -- 47: VSUBPS 416(CX), Y13, Y13
  , .i (.op3 .sub .y (.m ⟨.CX, 448⟩) 14 14)  -- 48: VSUBPS 448(CX), Y14, Y14
  , .i (.op3 .sub .y (.m ⟨.CX, 480⟩) 15 15)  -- 49: VSUBPS 480(CX), Y15, Y15
  , .i (.st .y 0 ⟨.DX, 0⟩)  -- 50: VMOVUPS Y0, (DX)
  , .i (.st .y 1 ⟨.DX, 32⟩)  -- 51: VMOVUPS Y1, 32(DX)
  , .i (.st .y 2 ⟨.DX, 64⟩)  -- 52: VMOVUPS Y2, 64(DX)
  , .i (.st .y 3 ⟨.DX, 96⟩)  -- 53: VMOVUPS Y3, 96(DX)
  , .i (.st .y 4 ⟨.DX, 128⟩)  -- 54: VMOVUPS Y4, 128(DX)
  , .i (.st .y 5 ⟨.DX, 160⟩)  -- 55: VMOVUPS Y5, 160(DX)
  , .i (.st .y 6 ⟨.DX, 192⟩)  -- 56: VMOVUPS Y6, 192(DX)
  , .i (.st .y 7 ⟨.DX, 224⟩)  -- 57: VMOVUPS Y7, 224(DX)
  , .i (.st .y 8 ⟨.DX, 256⟩)  -- 58: VMOVUPS Y8, 256(DX)
  , .i (.st .y 9 ⟨.DX, 288⟩)  -- 59: VMOVUPS Y9, 288(DX)
  , .i (.st .y 10 ⟨.DX, 320⟩)  -- 60: VMOVUPS Y10, 320(DX)
  , .i (.st .y 11 ⟨.DX, 352⟩)  -- 61: VMOVUPS Y11, 352(DX)
  , .i (.st .y 12 ⟨.DX, 384⟩)  -- 62: VMOVUPS Y12, 384(DX)
  , .i (.st .y 13 ⟨.DX, 416⟩)  -- 63: VMOVUPS Y13, 416(DX)
  , .i (.st .y 14 ⟨.DX, 448⟩)  -- 64: VMOVUPS Y14, 448(DX)
  , .i (.st .y 15 ⟨.DX, 480⟩)  -- 65: VMOVUPS Y15, 480(DX)
  , .i (.addQ 512 .AX)  -- 66: ADDQ $0x00000200, AX
  , .i (.addQ 512 .CX)  -- 67: ADDQ $0x00000200, CX
  , .i (.addQ 512 .DX)  -- 68: ADDQ $0x00000200, DX
  , .i (.subQ 128 .BX)  -- 69: SUBQ $0x00000080, BX
  , .jmp .unrolledLoop  -- 70: JMP unrolledLoop
  , .label .singleRegisterLoop  -- 72: singleRegisterLoop:
  , .i (.cmpQ .BX 8)  -- 73: CMPQ BX, $0x00000008
  , .jcc .l .tailLoop  -- 74: JL tailLoop
  , .i (.ld true .y ⟨.AX, 0⟩ 0)  -- 75: VMOVUPS (AX), Y0
  , .i (.op3 .sub .y (.m ⟨.CX, 0⟩) 0 0)  -- 76: VSUBPS (CX), Y0, Y0
  , .i (.st .y 0 ⟨.DX, 0⟩)  -- 77: VMOVUPS Y0, (DX)
  , .i (.addQ 32 .AX)  -- 78: ADDQ $0x00000020, AX
  , .i (.addQ 32 .CX)  -- 79: ADDQ $0x00000020, CX
  , .i (.addQ 32 .DX)  -- 80: ADDQ $0x00000020, DX
  , .i (.subQ 8 .BX)  -- 81: SUBQ $0x00000008, BX
  , .jmp .singleRegisterLoop  -- 82: JMP singleRegisterLoop
  , .label .tailLoop  -- 84: tailLoop:
  , .i (.cmpQ .BX 0)  -- 85: CMPQ BX, $0x00000000
  , .jcc .z .end_  -- 86: JE end
  , .i (.ld false .s ⟨.AX, 0⟩ 0)  -- 87: MOVSS (AX), X0
  , .i (.op2 .sub .s (.m ⟨.CX, 0⟩) 0)  -- 88: SUBSS (CX), X0
  , .i (.st .s 0 ⟨.DX, 0⟩)  -- 89: MOVSS X0, (DX)
  , .i (.addQ 4 .AX)  -- 90: ADDQ $0x00000004, AX
  , .i (.addQ 4 .CX)  -- 91: ADDQ $0x00000004, CX
  , .i (.addQ 4 .DX)  -- 92: ADDQ $0x00000004, DX
  , .i (.decQ .BX)  -- 93: DECQ BX
  , .jmp .tailLoop  -- 94: JMP tailLoop
  , .label .end_  -- 96: end:
  , .ret  -- 97: RET
]

/-- `SubAVX64`, mat/internal/matfuncs/sub_amd64.s from line 101. -/
def subAVX64 : List Line := [
  .i (.argQ 0 .AX)  -- 102: MOVQ x1_base+0(FP), AX
  , .i (.argQ 24 .CX)  -- 103: MOVQ x2_base+24(FP), CX
  , .i (.argQ 48 .DX)  -- 104: MOVQ y_base+48(FP), DX
  , .i (.argQ 8 .BX)  -- 105: MOVQ x1_len+8(FP), BX
  , .label .unrolledLoop  -- 107: unrolledLoop:
  , .i (.cmpQ .BX 64)  -- 108: CMPQ BX, $0x00000040
  , .jcc .l .singleRegisterLoop  -- 109: JL singleRegisterLoop
  , .i (.ld true .y ⟨.AX, 0⟩ 0)  -- 110: VMOVUPD (AX), Y0
  , .i (.ld true .y ⟨.AX, 32⟩ 1)  -- 111: VMOVUPD 32(AX), Y1
  , .i (.ld true .y ⟨.AX, 64⟩ 2)  -- 112: VMOVUPD 64(AX), Y2
  , .i (.ld true .y ⟨.AX, 96⟩ 3)  -- 113: VMOVUPD 96(AX), Y3
  , .i (.ld true .y ⟨.AX, 128⟩ 4)  -- 114: VMOVUPD 128(AX), Y4
  , .i (.ld true .y ⟨.AX, 160⟩ 5)  -- 115: VMOVUPD 160(AX), Y5
  , .i (.ld true .y ⟨.AX, 192⟩ 6)  -- 116: VMOVUPD 192(AX), Y6
  , .i (.ld true .y ⟨.AX, 224⟩ 7)  -- 117: VMOVUPD 224(AX), Y7
  , .i (.ld true .y ⟨.AX, 256⟩ 8)  -- 118: VMOVUPD 256(AX), Y8
  , .i (.ld true .y ⟨.AX, 288⟩ 9)  -- 119: VMOVUPD 288(AX), Y9
  , .i (.ld true .y ⟨.AX, 320⟩ 10)  -- 120: VMOVUPD 320(AX), Y10
  , .i (.ld true .y ⟨.AX, 352⟩ 11)  -- 121: VMOVUPD 352(AX), Y11
  , .i (.ld true .y ⟨.AX, 384⟩ 12)  -- 122: VMOVUPD 384(AX), Y12
  , .i (.ld true .y ⟨.AX, 416⟩ 13)  -- 123: VMOVUPD 416(AX), Y13
  , .i (.ld true .y ⟨.AX, 448⟩ 14)  -- 124: VMOVUPD 448(AX), Y14
  , .i (.ld true .y ⟨.AX, 480⟩ 15)  -- 125: VMOVUPD 480(AX), Y15
  , .i (.op3 .sub .y (.m ⟨.CX, 0⟩) 0 0)  -- 126: VSUBPD (CX), Y0, Y0
  , .i (.op3 .sub .y (.m ⟨.CX, 32⟩) 1 1)  -- 127: VSUBPD 32(CX), Y1, Y1
  , .i (.op3 .sub .y (.m ⟨.CX, 64⟩) 2 2)  -- 128: VSUBPD 64(CX), Y2, Y2
  , .i (.op3 .sub .y (.m ⟨.CX, 96⟩) 3 3)  -- 129: VSUBPD 96(CX), Y3, Y3
  , .i (.op3 .sub .y (.m ⟨.CX, 128⟩) 4 4)  -- 130: VSUBPD 128(CX), Y4, Y4
  , .i (.op3 .sub .y (.m ⟨.CX, 160⟩) 5 5)  -- 131: VSUBPD 160(CX), Y5, Y5
  , .i (.op3 .sub .y (.m ⟨.CX, 192⟩) 6 6)  -- 132: VSUBPD 192(CX), Y6, Y6
  , .i (.op3 .sub .y (.m ⟨.CX, 224⟩) 7 7)  -- 133: VSUBPD 224(CX), Y7, Y7
  , .i (.op3 .sub .y (.m ⟨.CX, 256⟩) 8 8)  -- 134: VSUBPD 256(CX), Y8, Y8
  , .i (.op3 .sub .y (.m ⟨.CX, 288⟩) 9 9)  -- 135: VSUBPD 288(CX), Y9, Y9
  , .i (.op3 .sub .y (.m ⟨.CX, 320⟩) 10 10)  -- 136: VSUBPD 320(CX), Y10, Y10
  , .i (.op3 .sub .y (.m ⟨.CX, 352⟩) 11 11)  -- 137: VSUBPD 352(CX), Y11, Y11
  , .i (.op3 .sub .y (.m ⟨.CX, 384⟩) 12 12)  -- 138: VSUBPD 384(CX), Y12, Y12
  , .i (.op3 .sub .y (.m ⟨.CX, 416⟩) 13 13)  -- 139: VSUBPD 416(CX), Y13, Y13
  , .i (.op3 .sub .y (.m ⟨.CX, 448⟩) 14 14)  -- 140: VSUBPD 448(CX), Y14, Y14
  , .i (.op3 .sub .y (.m ⟨.CX, 480⟩) 15 15)  -- 141: VSUBPD 480(CX), Y15, Y15
  , .i (.st .y 0 ⟨.DX, 0⟩)  -- 142: VMOVUPD Y0, (DX)
  , .i (.st .y 1 ⟨.DX, 32⟩)  -- 143: VMOVUPD Y1, 32(DX)
  , .i (.st .y 2 ⟨.DX, 64⟩)  -- 144: VMOVUPD Y2, 64(DX)
  , .i (.st .y 3 ⟨.DX, 96⟩)  -- 145: VMOVUPD Y3, 96(DX)
  , .i (.st .y 4 ⟨.DX, 128⟩)  -- 146: VMOVUPD Y4, 128(DX)
  , .i (.st .y 5 ⟨.DX, 160⟩)  -- 147: VMOVUPD Y5, 160(DX)
  , .i (.st .y 6 ⟨.DX, 192⟩)  -- 148: VMOVUPD Y6, 192(DX)
  , .i (.st .y 7 ⟨.DX, 224⟩)  -- 149: VMOVUPD Y7, 224(DX)
  , .i (.st .y 8 ⟨.DX, 256⟩)  -- 150: VMOVUPD Y8, 256(DX)
  , .i (.st .y 9 ⟨.DX, 288⟩)  -- 151: VMOVUPD Y9, 288(DX)
  , .i (.st .y 10 ⟨.DX, 320⟩)  -- 152: VMOVUPD Y10, 320(DX)
  , .i (.st .y 11 ⟨.DX, 352⟩)  -- 153: VMOVUPD Y11, 352(DX)
  , .i (.st .y 12 ⟨.DX, 384⟩)  -- 154: VMOVUPD Y12, 384(DX)
  , .i (.st .y 13 ⟨.DX, 416⟩)  -- 155: VMOVUPD Y13, 416(DX)
  , .i (.st .y 14 ⟨.DX, 448⟩)  -- 156: VMOVUPD Y14, 448(DX)
  , .i (.st .y 15 ⟨.DX, 480⟩)  -- 157: VMOVUPD Y15, 480(DX)
  , .i (.addQ 512 .AX)  -- 158: ADDQ $0x00000200, AX
  , .i (.addQ 512 .CX)  -- 159: ADDQ $0x00000200, CX
  , .i (.addQ 512 .DX)  -- 160: ADDQ $0x00000200, DX
  , .i (.subQ 64 .BX)  -- 161: SUBQ $0x00000040, BX
  , .jmp .unrolledLoop  -- 162: JMP unrolledLoop
  , .label .singleRegisterLoop  -- 164: singleRegisterLoop:
  , .i (.cmpQ .BX 4)  -- 165: CMPQ BX, $0x00000004
  , .jcc .l .tailLoop  -- 166: JL tailLoop
  , .i (.ld true .y ⟨.AX, 0⟩ 0)  -- 167: VMOVUPD (AX), Y0
  , .i (.op3 .sub .y (.m ⟨.CX, 0⟩) 0 0)  -- 168: VSUBPD (CX), Y0, Y0
  , .i (.st .y 0 ⟨.DX, 0⟩)  -- 169: VMOVUPD Y0, (DX)
  , .i (.addQ 32 .AX)  -- 170: ADDQ $0x00000020, AX
  , .i (.addQ 32 .CX)  -- 171: ADDQ $0x00000020, CX
  , .i (.addQ 32 .DX)  -- 172: ADDQ $0x00000020, DX
  , .i (.subQ 4 .BX)  -- 173: SUBQ $0x00000004, BX
  , .jmp .singleRegisterLoop  -- 174: JMP singleRegisterLoop
  , .label .tailLoop  -- 176: tailLoop:
  , .i (.cmpQ .BX 0)  -- 177: CMPQ BX, $0x00000000
  , .jcc .z .end_  -- 178: JE end
  , .i (.ld false .s ⟨.AX, 0⟩ 0)  -- 179: MOVSD (AX), X0
  , .i (.op2 .sub .s (.m ⟨.CX, 0⟩) 0)  -- 180: SUBSD (CX), X0
  , .i (.st .s 0 ⟨.DX, 0⟩)  -- 181: MOVSD X0, (DX)
  , .i (.addQ 8 .AX)  -- 182: ADDQ $0x00000008, AX
  , .i (.addQ 8 .CX)  -- 183: ADDQ $0x00000008, CX
  , .i (.addQ 8 .DX)  -- 184: ADDQ $0x00000008, DX
  , .i (.decQ .BX)  -- 185: DECQ BX
  , .jmp .tailLoop  -- 186: JMP tailLoop
  , .label .end_  -- 188: end:
  , .ret  -- 189: RET
]

/-- `SubSSE32`, mat/internal/matfuncs/sub_amd64.s from line 193. -/
def subSSE32 : List Line := [
  .i (.argQ 0 .AX)  -- 194: MOVQ x1_base+0(FP), AX
  , .i (.argQ 24 .CX)  -- 195: MOVQ x2_base+24(FP), CX
  , .i (.argQ 48 .DX)  -- 196: MOVQ y_base+48(FP), DX
  , .i (.argQ 8 .BX)  -- 197: MOVQ x1_len+8(FP), BX
  , .i (.cmpQ .BX 0)  -- 198: CMPQ BX, $0x00000000
  , .jcc .z .end_  -- 199: JE end
  , .i (.movQ .CX .SI)  -- 200: MOVQ CX, SI
  , .i (.andQ 15 .SI)  -- 201: ANDQ $0x0000000f, SI
  , .jcc .z .unrolledLoop  -- 202: JZ unrolledLoop
  , .i (.xorQ 15 .SI)  -- 203: XORQ $0x0000000f, SI
  , .i (.incQ .SI)  -- 204: INCQ SI
  , .i (.shrQ 2 .SI)  -- 205: SHRQ $0x02, SI
  , .label .alignmentLoop  -- 207: alignmentLoop:
  , .i (.ld false .s ⟨.AX, 0⟩ 0)  -- 208: MOVSS (AX), X0
  , .i (.op2 .sub .s (.m ⟨.CX, 0⟩) 0)  -- 209: SUBSS (CX), X0
  , .i (.st .s 0 ⟨.DX, 0⟩)  -- 210: MOVSS X0, (DX)
  , .i (.addQ 4 .AX)  -- 211: ADDQ $0x00000004, AX
  , .i (.addQ 4 .CX)  -- 212: ADDQ $0x00000004, CX
  , .i (.addQ 4 .DX)  -- 213: ADDQ $0x00000004, DX
  , .i (.decQ .BX)  -- 214: DECQ BX
  , .jcc .z .end_  -- 215: JZ end
  , .i (.decQ .SI)  -- 216: DECQ SI
  , .jcc .nz .alignmentLoop  -- 217: JNZ alignmentLoop
  , .label .unrolledLoop  -- 219: unrolledLoop:
  , .i (.cmpQ .BX 64)  -- 220: CMPQ BX, $0x00000040
  , .jcc .l .singleRegisterLoop  -- 221: JL singleRegisterLoop
  , .i (.ld false .x ⟨.AX, 0⟩ 0)  -- 222: MOVUPS (AX), X0
  , .i (.ld false .x ⟨.AX, 16⟩ 1)  -- 223: MOVUPS 16(AX), X1
  , .i (.ld false .x ⟨.AX, 32⟩ 2)  -- 224: MOVUPS 32(AX), X2
  , .i (.ld false .x ⟨.AX, 48⟩ 3)  -- 225: MOVUPS 48(AX), X3
  , .i (.ld false .x ⟨.AX, 64⟩ 4)  -- 226: MOVUPS 64(AX), X4
  , .i (.ld false .x ⟨.AX, 80⟩ 5)  -- 227: MOVUPS 80(AX), X5
  , .i (.ld false .x ⟨.AX, 96⟩ 6)  -- 228: MOVUPS 96(AX), X6
  , .i (.ld false .x ⟨.AX, 112⟩ 7)  -- 229: MOVUPS 112(AX), X7
  , .i (.ld false .x ⟨.AX, 128⟩ 8)  -- 230: MOVUPS 128(AX), X8
  , .i (.ld false .x ⟨.AX, 144⟩ 9)  -- 231: MOVUPS 144(AX), X9
  , .i (.ld false .x ⟨.AX, 160⟩ 10)  -- 232: MOVUPS 160(AX), X10
  , .i (.ld false .x ⟨.AX, 176⟩ 11)  -- 233: MOVUPS 176(AX), X11
  , .i (.ld false .x ⟨.AX, 192⟩ 12)  -- 234: MOVUPS 192(AX), X12
  , .i (.ld false .x ⟨.AX, 208⟩ 13)  -- 235: MOVUPS 208(AX), X13
  , .i (.ld false .x ⟨.AX, 224⟩ 14)  -- 236: MOVUPS 224(AX), X14
  , .i (.ld false .x ⟨.AX, 240⟩ 15)  -- 237: MOVUPS 240(AX), X15
  , .i (.op2 .sub .x (.m ⟨.CX, 0⟩) 0)  -- 238: SUBPS (CX), X0
  , .i (.op2 .sub .x (.m ⟨.CX, 16⟩) 1)  -- 239: SUBPS 16(CX), X1
  , .i (.op2 .sub .x (.m ⟨.CX, 32⟩) 2)  -- 240: SUBPS 32(CX), X2
  , .i (.op2 .sub .x (.m ⟨.CX, 48⟩) 3)  -- 241: SUBPS 48(CX), X3
  , .i (.op2 .sub .x (.m ⟨.CX, 64⟩) 4)  -- 242: SUBPS 64(CX), X4
  , .i (.op2 .sub .x (.m ⟨.CX, 80⟩) 5)  -- 243: SUBPS 80(CX), X5
  , .i (.op2 .sub .x (.m ⟨.CX, 96⟩) 6)  -- 244: SUBPS 96(CX), X6
  , .i (.op2 .sub .x (.m ⟨.CX, 112⟩) 7)  -- 245: SUBPS 112(CX), X7
  , .i (.op2 .sub .x (.m ⟨.CX, 128⟩) 8)  -- 246: SUBPS 128(CX), X8
  , .i (.op2 .sub .x (.m ⟨.CX, 144⟩) 9)  -- 247: SUBPS 144(CX), X9
  , .i (.op2 .sub .x (.m ⟨.CX, 160⟩) 10)  -- 248: SUBPS 160(CX), X10
  , .i (.op2 .sub .x (.m ⟨.CX, 176⟩) 11)  -- 249: SUBPS 176(CX), X11
  , .i (.op2 .sub .x (.m ⟨.CX, 192⟩) 12)  -- 250: SUBPS 192(CX), X12
  , .i (.op2 .sub .x (.m ⟨.CX, 208⟩) 13)  -- 251: SUBPS 208(CX), X13
  , .i (.op2 .sub .x (.m ⟨.CX, 224⟩) 14)  -- 252: SUBPS 224(CX), X14
  , .i (.op2 .sub .x (.m ⟨.CX, 240⟩) 15)  -- 253: SUBPS 240(CX), X15
  , .i (.st .x 0 ⟨.DX, 0⟩)  -- 254: MOVUPS X0, (DX)
  , .i (.st .x 1 ⟨.DX, 16⟩)  -- 255: MOVUPS X1, 16(DX)
  , .i (.st .x 2 ⟨.DX, 32⟩)  -- 256: MOVUPS X2, 32(DX)
  , .i (.st .x 3 ⟨.DX, 48⟩)  -- 257: MOVUPS X3, 48(DX)
  , .i (.st .x 4 ⟨.DX, 64⟩)  -- 258: MOVUPS X4, 64(DX)
  , .i (.st .x 5 ⟨.DX, 80⟩)  -- 259: MOVUPS X5, 80(DX)
  , .i (.st .x 6 ⟨.DX, 96⟩)  -- 260: MOVUPS X6, 96(DX)
  , .i (.st .x 7 ⟨.DX, 112⟩)  -- 261: MOVUPS X7, 112(DX)
  , .i (.st .x 8 ⟨.DX, 128⟩)  -- 262: MOVUPS X8, 128(DX)
  , .i (.st .x 9 ⟨.DX, 144⟩)  -- 263: MOVUPS X9, 144(DX)
  , .i (.st .x 10 ⟨.DX, 160⟩)  -- 264: MOVUPS X10, 160(DX)
  , .i (.st .x 11 ⟨.DX, 176⟩)  -- 265: MOVUPS X11, 176(DX)
  , .i (.st .x 12 ⟨.DX, 192⟩)  -- 266: MOVUPS X12, 192(DX)
  , .i (.st .x 13 ⟨.DX, 208⟩)  -- 267: MOVUPS X13, 208(DX)
  , .i (.st .x 14 ⟨.DX, 224⟩)  -- 268: MOVUPS X14, 224(DX)
  , .i (.st .x 15 ⟨.DX, 240⟩)  -- 269: MOVUPS X15, 240(DX)
  , .i (.addQ 256 .AX)  -- 270: ADDQ $0x00000100, AX
  , .i (.addQ 256 .CX)  -- 271: ADDQ $0x00000100, CX
  , .i (.addQ 256 .DX)  -- 272: ADDQ $0x00000100, DX
  , .i (.subQ 64 .BX)  -- 273: SUBQ $0x00000040, BX
  , .jmp .unrolledLoop  -- 274: JMP unrolledLoop
  , .label .singleRegisterLoop  -- 276: singleRegisterLoop:
  , .i (.cmpQ .BX 4)  -- 277: CMPQ BX, $0x00000004
  , .jcc .l .tailLoop  -- 278: JL tailLoop
  , .i (.ld false .x ⟨.AX, 0⟩ 0)  -- 279: MOVUPS (AX), X0
  , .i (.op2 .sub .x (.m ⟨.CX, 0⟩) 0)  -- 280: SUBPS (CX), X0
  , .i (.st .x 0 ⟨.DX, 0⟩)  -- 281: MOVUPS X0, (DX)
  , .i (.addQ 16 .AX)  -- 282: ADDQ $0x00000010, AX
  , .i (.addQ 16 .CX)  -- 283: ADDQ $0x00000010, CX
  , .i (.addQ 16 .DX)  -- 284: ADDQ $0x00000010, DX
  , .i (.subQ 4 .BX)  -- 285: SUBQ $0x00000004, BX
  , .jmp .singleRegisterLoop  -- 286: JMP singleRegisterLoop
  , .label .tailLoop  -- 288: tailLoop:
  , .i (.cmpQ .BX 0)  -- 289: CMPQ BX, $0x00000000
  , .jcc .z .end_  -- 290: JE end
  , .i (.ld false .s ⟨.AX, 0⟩ 0)  -- 291: MOVSS (AX), X0
  , .i (.op2 .sub .s (.m ⟨.CX, 0⟩) 0)  -- 292: SUBSS (CX), X0
  , .i (.st .s 0 ⟨.DX, 0⟩)  -- 293: MOVSS X0, (DX)
  , .i (.addQ 4 .AX)  -- 294: ADDQ $0x00000004, AX
  , .i (.addQ 4 .CX)  -- 295: ADDQ $0x00000004, CX
  , .i (.addQ 4 .DX)  -- 296: ADDQ $0x00000004, DX
  , .i (.decQ .BX)  -- 297: DECQ BX
  , .jmp .tailLoop  -- 298: JMP tailLoop
  , .label .end_  -- 300: end:
  , .ret  -- 301: RET
]

/-- `SubSSE64`, mat/internal/matfuncs/sub_amd64.s from line 305. -/
def subSSE64 : List Line := [
  .i (.argQ 0 .AX)  -- 306: MOVQ x1_base+0(FP), AX
  , .i (.argQ 24 .CX)  -- 307: MOVQ x2_base+24(FP), CX
  , .i (.argQ 48 .DX)  -- 308: MOVQ y_base+48(FP), DX
  , .i (.argQ 8 .BX)  -- 309: MOVQ x1_len+8(FP), BX
  , .i (.cmpQ .BX 0)  -- 310: CMPQ BX, $0x00000000
  , .jcc .z .end_  -- 311: JE end
  , .i (.movQ .CX .SI)  -- 312: MOVQ CX, SI
  , .i (.andQ 15 .SI)  -- 313: ANDQ $0x0000000f, SI
  , .jcc .z .unrolledLoop  -- 314: JZ unrolledLoop
  , .i (.ld false .s ⟨.AX, 0⟩ 0)  -- 315: MOVSD (AX), X0
  , .i (.op2 .sub .s (.m ⟨.CX, 0⟩) 0)  -- 316: SUBSD (CX), X0
  , .i (.st .s 0 ⟨.DX, 0⟩)  -- 317: MOVSD X0, (DX)
  , .i (.addQ 8 .AX)  -- 318: ADDQ $0x00000008, AX
  , .i (.addQ 8 .CX)  -- 319: ADDQ $0x00000008, CX
  , .i (.addQ 8 .DX)  -- 320: ADDQ $0x00000008, DX
  , .i (.decQ .BX)  -- 321: DECQ BX
  , .label .unrolledLoop  -- 323: unrolledLoop:
  , .i (.cmpQ .BX 32)  -- 324: CMPQ BX, $0x00000020
  , .jcc .l .singleRegisterLoop  -- 325: JL singleRegisterLoop
  , .i (.ld false .x ⟨.AX, 0⟩ 0)  -- 326: MOVUPD (AX), X0
  , .i (.ld false .x ⟨.AX, 16⟩ 1)  -- 327: MOVUPD 16(AX), X1
  , .i (.ld false .x ⟨.AX, 32⟩ 2)  -- 328: MOVUPD 32(AX), X2
  , .i (.ld false .x ⟨.AX, 48⟩ 3)  -- 329: MOVUPD 48(AX), X3
  , .i (.ld false .x ⟨.AX, 64⟩ 4)  -- 330: MOVUPD 64(AX), X4
  , .i (.ld false .x ⟨.AX, 80⟩ 5)  -- 331: MOVUPD 80(AX), X5
  , .i (.ld false .x ⟨.AX, 96⟩ 6)  -- 332: MOVUPD 96(AX), X6
  , .i (.ld false .x ⟨.AX, 112⟩ 7)  -- 333: MOVUPD 112(AX), X7
  , .i (.ld false .x ⟨.AX, 128⟩ 8)  -- 334: MOVUPD 128(AX), X8
  , .i (.ld false .x ⟨.AX, 144⟩ 9)  -- 335: MOVUPD 144(AX), X9
  , .i (.ld false .x ⟨.AX, 160⟩ 10)  -- 336: MOVUPD 160(AX), X10
  , .i (.ld false .x ⟨.AX, 176⟩ 11)  -- 337: MOVUPD 176(AX), X11
  , .i (.ld false .x ⟨.AX, 192⟩ 12)  -- 338: MOVUPD 192(AX), X12
  , .i (.ld false .x ⟨.AX, 208⟩ 13)  -- 339: MOVUPD 208(AX), X13
  , .i (.ld false .x ⟨.AX, 224⟩ 14)  -- 340: MOVUPD 224(AX), X14
  , .i (.ld false .x ⟨.AX, 240⟩ 15)  -- 341: MOVUPD 240(AX), X15
  , .i (.op2 .sub .x (.m ⟨.CX, 0⟩) 0)  -- 342: SUBPD (CX), X0
  , .i (.op2 .sub .x (.m ⟨.CX, 16⟩) 1)  -- 343: SUBPD 16(CX), X1
  , .i (.op2 .sub .x (.m ⟨.CX, 32⟩) 2)  -- 344: SUBPD 32(CX), X2
  , .i (.op2 .sub .x (.m ⟨.CX, 48⟩) 3)  -- 345: SUBPD 48(CX), X3
  , .i (.op2 .sub .x (.m ⟨.CX, 64⟩) 4)  -- 346: SUBPD 64(CX), X4
  , .i (.op2 .sub .x (.m ⟨.CX, 80⟩) 5)  -- 347: SUBPD 80(CX), X5
  , .i (.op2 .sub .x (.m ⟨.CX, 96⟩) 6)  -- 348: SUBPD 96(CX), X6
  , .i (.op2 .sub .x (.m ⟨.CX, 112⟩) 7)  -- 349: SUBPD 112(CX), X7
  , .i (.op2 .sub .x (.m ⟨.CX, 128⟩) 8)  -- 350: SUBPD 128(CX), X8
  , .i (.op2 .sub .x (.m ⟨.CX, 144⟩) 9)  -- 351: SUBPD 144(CX), X9
  , .i (.op2 .sub .x (.m ⟨.CX, 160⟩) 10)  -- 352: SUBPD 160(CX), X10
  , .i (.op2 .sub .x (.m ⟨.CX, 176⟩) 11)  -- 353: SUBPD 176(CX), X11
  , .i (.op2 .sub .x (.m ⟨.CX, 192⟩) 12)  -- 354: SUBPD 192(CX), X12
  , .i (.op2 .sub .x (.m ⟨.CX, 208⟩) 13)  -- 355: SUBPD 208(CX), X13
  , .i (.op2 .sub .x (.m ⟨.CX, 224⟩) 14)  -- 356: SUBPD 224(CX), X14
  , .i (.op2 .sub .x (.m ⟨.CX, 240⟩) 15)  -- 357: SUBPD 240(CX), X15
  , .i (.st .x 0 ⟨.DX, 0⟩)  -- 358: MOVUPD X0, (DX)
  , .i (.st .x 1 ⟨.DX, 16⟩)  -- 359: MOVUPD X1, 16(DX)
  , .i (.st .x 2 ⟨.DX, 32⟩)  -- 360: MOVUPD X2, 32(DX)
  , .i (.st .x 3 ⟨.DX, 48⟩)  -- 361: MOVUPD X3, 48(DX)
  , .i (.st .x 4 ⟨.DX, 64⟩)  -- 362: MOVUPD X4, 64(DX)
  , .i (.st .x 5 ⟨.DX, 80⟩)  -- 363: MOVUPD X5, 80(DX)
  , .i (.st .x 6 ⟨.DX, 96⟩)  -- 364: MOVUPD X6, 96(DX)
  , .i (.st .x 7 ⟨.DX, 112⟩)  -- 365: MOVUPD X7, 112(DX)
  , .i (.st .x 8 ⟨.DX, 128⟩)  -- 366: MOVUPD X8, 128(DX)
  , .i (.st .x 9 ⟨.DX, 144⟩)  -- 367: MOVUPD X9, 144(DX)
  , .i (.st .x 10 ⟨.DX, 160⟩)  -- 368: MOVUPD X10, 160(DX)
  , .i (.st .x 11 ⟨.DX, 176⟩)  -- 369: MOVUPD X11, 176(DX)
  , .i (.st .x 12 ⟨.DX, 192⟩)  -- 370: MOVUPD X12, 192(DX)
  , .i (.st .x 13 ⟨.DX, 208⟩)  -- 371: MOVUPD X13, 208(DX)
  , .i (.st .x 14 ⟨.DX, 224⟩)  -- 372: MOVUPD X14, 224(DX)
  , .i (.st .x 15 ⟨.DX, 240⟩)  -- 373: MOVUPD X15, 240(DX)
  , .i (.addQ 256 .AX)  -- 374: ADDQ $0x00000100, AX
  , .i (.addQ 256 .CX)  -- 375: ADDQ $0x00000100, CX
  , .i (.addQ 256 .DX)  -- 376: ADDQ $0x00000100, DX
  , .i (.subQ 32 .BX)  -- 377: SUBQ $0x00000020, BX
  , .jmp .unrolledLoop  -- 378: JMP unrolledLoop
  , .label .singleRegisterLoop  -- 380: singleRegisterLoop:
  , .i (.cmpQ .BX 2)  -- 381: CMPQ BX, $0x00000002
  , .jcc .l .tailLoop  -- 382: JL tailLoop
  , .i (.ld false .x ⟨.AX, 0⟩ 0)  -- 383: MOVUPD (AX), X0
  , .i (.op2 .sub .x (.m ⟨.CX, 0⟩) 0)  -- 384: SUBPD (CX), X0
  , .i (.st .x 0 ⟨.DX, 0⟩)  -- 385: MOVUPD X0, (DX)
  , .i (.addQ 16 .AX)  -- 386: ADDQ $0x00000010, AX
  , .i (.addQ 16 .CX)  -- 387: ADDQ $0x00000010, CX
  , .i (.addQ 16 .DX)  -- 388: ADDQ $0x00000010, DX
  , .i (.subQ 2 .BX)  -- 389: SUBQ $0x00000002, BX
  , .jmp .singleRegisterLoop  -- 390: JMP singleRegisterLoop
  , .label .tailLoop  -- 392: tailLoop:
  , .i (.cmpQ .BX 0)  -- 393: CMPQ BX, $0x00000000
  , .jcc .z .end_  -- 394: JE end
  , .i (.ld false .s ⟨.AX, 0⟩ 0)  -- 395: MOVSD (AX), X0
  , .i (.op2 .sub .s (.m ⟨.CX, 0⟩) 0)  -- 396: SUBSD (CX), X0
  , .i (.st .s 0 ⟨.DX, 0⟩)  -- 397: MOVSD X0, (DX)
  , .i (.addQ 8 .AX)  -- 398: ADDQ $0x00000008, AX
  , .i (.addQ 8 .CX)  -- 399: ADDQ $0x00000008, CX
  , .i (.addQ 8 .DX)  -- 400: ADDQ $0x00000008, DX
  , .i (.decQ .BX)  -- 401: DECQ BX
  , .jmp .tailLoop  -- 402: JMP tailLoop
  , .label .end_  -- 404: end:
  , .ret  -- 405: RET
]

/-- `DivAVX32`, mat/internal/matfuncs/div_amd64.s from line 9. -/
def divAVX32 : List Line := [
  .i (.argQ 0 .AX)  -- 10: MOVQ x1_base+0(FP), AX
  , .i (.argQ 24 .CX)  -- 11: MOVQ x2_base+24(FP), CX
  , .i (.argQ 48 .DX)  -- 12: MOVQ y_base+48(FP), DX
  , .i (.argQ 8 .BX)  -- 13: MOVQ x1_len+8(FP), BX
  , .label .unrolledLoop  -- 15: unrolledLoop:
  , .i (.cmpQ .BX 128)  -- 16: CMPQ BX, $0x00000080
  , .jcc .l .singleRegisterLoop  -- 17: JL singleRegisterLoop
  , .i (.ld true .y ⟨.AX, 0⟩ 0)  -- 18: VMOVUPS (AX), Y0
  , .i (.ld true .y ⟨.AX, 32⟩ 1)  -- 19: VMOVUPS 32(AX), Y1
  , .i (.ld true .y ⟨.AX, 64⟩ 2)  -- 20: VMOVUPS 64(AX), Y2
  , .i (.ld true .y ⟨.AX, 96⟩ 3)  -- 21: VMOVUPS 96(AX), Y3
  , .i (.ld true .y ⟨.AX, 128⟩ 4)  -- 22: VMOVUPS 128(AX), Y4
  , .i (.ld true .y ⟨.AX, 160⟩ 5)  -- 23: VMOVUPS 160(AX), Y5
  , .i (.ld true .y ⟨.AX, 192⟩ 6)  -- 24: VMOVUPS 192(AX), Y6
  , .i (.ld true .y ⟨.AX, 224⟩ 7)  -- 25: VMOVUPS 224(AX), Y7
  , .i (.ld true .y ⟨.AX, 256⟩ 8)  -- 26: VMOVUPS 256(AX), Y8
  , .i (.ld true .y ⟨.AX, 288⟩ 9)  -- 27: VMOVUPS 288(AX), Y9
  , .i (.ld true .y ⟨.AX, 320⟩ 10)  -- 28: VMOVUPS 320(AX), Y10
  , .i (.ld true .y ⟨.AX, 352⟩ 11)  -- 29: VMOVUPS 352(AX), Y11
  , .i (.ld true .y ⟨.AX, 384⟩ 12)  -- 30: VMOVUPS 384(AX), Y12
  , .i (.ld true .y ⟨.AX, 416⟩ 13)  -- 31: VMOVUPS 416(AX), Y13
  , .i (.ld true .y ⟨.AX, 448⟩ 14)  -- 32: VMOVUPS 448(AX), Y14
  , .i (.ld true .y ⟨.AX, 480⟩ 15)  -- 33: VMOVUPS 480(AX), Y15
  , .i (.op3 .div .y (.m ⟨.CX, 0⟩) 0 0)  -- 34: VDIVPS (CX), Y0, Y0
  , .i (.op3 .div .y (.m ⟨.CX, 32⟩) 1 1)  -- 35: VDIVPS 32(CX), Y1, Y1
  , .i (.op3 .div .y (.m ⟨.CX, 64⟩) 2 2)  -- 36: VDIVPS 64(CX), Y2, Y2
  , .i (.op3 .div .y (.m ⟨.CX, 96⟩) 3 3)  -- 37: VDIVPS 96(CX), Y3, Y3
  , .i (.op3 .div .y (.m ⟨.CX, 128⟩) 4 4)  -- 38: VDIVPS 128(CX), Y4, Y4
  , .i (.op3 .div .y (.m ⟨.CX, 160⟩) 5 5)  -- 39: VDIVPS 160(CX), Y5, Y5
  , .i (.op3 .div .y (.m ⟨.CX, 192⟩) 6 6)  -- 40: VDIVPS 192(CX), Y6, Y6
  , .i (.op3 .div .y (.m ⟨.CX, 224⟩) 7 7)  -- 41: VDIVPS 224(CX), Y7, Y7
  , .i (.op3 .div .y (.m ⟨.CX, 256⟩) 8 8)  -- 42: VDIVPS 256(CX), Y8, Y8
  , .i (.op3 .div .y (.m ⟨.CX, 288⟩) 9 9)  -- 43: VDIVPS 288(CX), Y9, Y9
  , .i (.op3 .div .y (.m ⟨.CX, 320⟩) 10 10)  -- 44: VDIVPS 320(CX), Y10, Y10
  , .i (.op3 .div .y (.m ⟨.CX, 352⟩) 11 11)  -- 45: VDIVPS 352(CX), Y11, Y11
  , .i (.op3 .div .y (.m ⟨.CX, 384⟩) 12 12)  -- 46: VDIVPS 384(CX), Y12, Y12
  , .i (.op3 .div .y (.m ⟨.CX, 416⟩) 13 13)  -- 47: VDIVPS 416(CX), Y13, Y13
  , .i (.op3 .div .y (.m ⟨.CX, 448⟩) 14 14)  -- 48: VDIVPS 448(CX), Y14, Y14
  , .i (.op3 .div .y (.m ⟨.CX, 480⟩) 15 15)  -- 49: VDIVPS 480(CX), Y15, Y15
  , .i (.st .y 0 ⟨.DX, 0⟩)  -- 50: VMOVUPS Y0, (DX)
  , .i (.st .y 1 ⟨.DX, 32⟩)  -- 51: VMOVUPS Y1, 32(DX)
  , .i (.st .y 2 ⟨.DX, 64⟩)  -- 52: VMOVUPS Y2, 64(DX)
  , .i (.st .y 3 ⟨.DX, 96⟩)  -- 53: VMOVUPS Y3, 96(DX)
  , .i (.st .y 4 ⟨.DX, 128⟩)  -- 54: VMOVUPS Y4, 128(DX)
  , .i (.st .y 5 ⟨.DX, 160⟩)  -- 55: VMOVUPS Y5, 160(DX)
  , .i (.st .y 6 ⟨.DX, 192⟩)  -- 56: VMOVUPS Y6, 192(DX)
  , .i (.st .y 7 ⟨.DX, 224⟩)  -- 57: VMOVUPS Y7, 224(DX)
  , .i (.st .y 8 ⟨.DX, 256⟩)  -- 58: VMOVUPS Y8, 256(DX)
  , .i (.st .y 9 ⟨.DX, 288⟩)  -- 59: VMOVUPS Y9, 288(DX)
  , .i (.st .y 10 ⟨.DX, 320⟩)  -- 60: VMOVUPS Y10, 320(DX)
  , .i (.st .y 11 ⟨.DX, 352⟩)  -- 61: VMOVUPS Y11, 352(DX)
  , .i (.st .y 12 ⟨.DX, 384⟩)  -- 62: VMOVUPS Y12, 384(DX)
  , .i (.st .y 13 ⟨.DX, 416⟩)  -- 63: VMOVUPS Y13, 416(DX)
  , .i (.st .y 14 ⟨.DX, 448⟩)  -- 64: VMOVUPS Y14, 448(DX)
  , .i (.st .y 15 ⟨.DX, 480⟩)  -- 65: VMOVUPS Y15, 480(DX)
  , .i (.addQ 512 .AX)  -- 66: ADDQ $0x00000200, AX
  , .i (.addQ 512 .CX)  -- 67: ADDQ $0x00000200, CX
  , .i (.addQ 512 .DX)  -- 68: ADDQ $0x00000200, DX
  , .i (.subQ 128 .BX)  -- 69: SUBQ $0x00000080, BX
  , .jmp .unrolledLoop  -- 70: JMP unrolledLoop
  , .label .singleRegisterLoop  -- 72: singleRegisterLoop:
  , .i (.cmpQ .BX 8)  -- 73: CMPQ BX, $0x00000008
  , .jcc .l .tailLoop  -- 74: JL tailLoop
  , .i (.ld true .y ⟨.AX, 0⟩ 0)  -- 75: VMOVUPS (AX), Y0
  , .i (.op3 .div .y (.m ⟨.CX, 0⟩) 0 0)  -- 76: VDIVPS (CX), Y0, Y0
  , .i (.st .y 0 ⟨.DX, 0⟩)  -- 77: VMOVUPS Y0, (DX)
  , .i (.addQ 32 .AX)  -- 78: ADDQ $0x00000020, AX
  , .i (.addQ 32 .CX)  -- 79: ADDQ $0x00000020, CX
  , .i (.addQ 32 .DX)  -- 80: ADDQ $0x00000020, DX
  , .i (.subQ 8 .BX)  -- 81: SUBQ $0x00000008, BX
  , .jmp .singleRegisterLoop  -- 82: JMP singleRegisterLoop
  , .label .tailLoop  -- 84: tailLoop:
  , .i (.cmpQ .BX 0)  -- 85: CMPQ BX, $0x00000000
  , .jcc .z .end_  -- 86: JE end
  , .i (.ld false .s ⟨.AX, 0⟩ 0)  -- 87: MOVSS (AX), X0
  , .i (.op2 .div .s (.m ⟨.CX, 0⟩) 0)  -- 88: DIVSS (CX), X0
  , .i (.st .s 0 ⟨.DX, 0⟩)  -- 89: MOVSS X0, (DX)
  , .i (.addQ 4 .AX)  -- 90: ADDQ $0x00000004, AX
  , .i (.addQ 4 .CX)  -- 91: ADDQ $0x00000004, CX
  , .i (.addQ 4 .DX)  -- 92: ADDQ $0x00000004, DX
  , .i (.decQ .BX)  -- 93: DECQ BX
  , .jmp .tailLoop  -- 94: JMP tailLoop
  , .label .end_  -- 96: end:
  , .ret  -- 97: RET
]

/-- `DivAVX64`, mat/internal/matfuncs/div_amd64.s from line 101. -/
def divAVX64 : List Line := [
  .i (.argQ 0 .AX)  -- 102: MOVQ x1_base+0(FP), AX
  , .i (.argQ 24 .CX)  -- 103: MOVQ x2_base+24(FP), CX
  , .i (.argQ 48 .DX)  -- 104: MOVQ y_base+48(FP), DX
  , .i (.argQ 8 .BX)  -- 105: MOVQ x1_len+8(FP), BX
  , .label .unrolledLoop  -- 107: unrolledLoop:
  , .i (.cmpQ .BX 64)  -- 108: CMPQ BX, $0x00000040
  , .jcc .l .singleRegisterLoop  -- 109: JL singleRegisterLoop
  , .i (.ld true .y ⟨.AX, 0⟩ 0)  -- 110: VMOVUPD (AX), Y0
  , .i (.ld true .y ⟨.AX, 32⟩ 1)  -- 111: VMOVUPD 32(AX), Y1
  , .i (.ld true .y ⟨.AX, 64⟩ 2)  -- 112: VMOVUPD 64(AX), Y2
  , .i (.ld true .y ⟨.AX, 96⟩ 3)  -- 113: VMOVUPD 96(AX), Y3
  , .i (.ld true .y ⟨.AX, 128⟩ 4)  -- 114: VMOVUPD 128(AX), Y4
  , .i (.ld true .y ⟨.AX, 160⟩ 5)  -- 115: VMOVUPD 160(AX), Y5
  , .i (.ld true .y ⟨.AX, 192⟩ 6)  -- 116: VMOVUPD 192(AX), Y6
  , .i (.ld true .y ⟨.AX, 224⟩ 7)  -- 117: VMOVUPD 224(AX), Y7
  , .i (.ld true .y ⟨.AX, 256⟩ 8)  -- 118: VMOVUPD 256(AX), Y8
  , .i (.ld true .y ⟨.AX, 288⟩ 9)  -- 119: VMOVUPD 288(AX), Y9
  , .i (.ld true .y ⟨.AX, 320⟩ 10)  -- 120: VMOVUPD 320(AX), Y10
  , .i (.ld true .y ⟨.AX, 352⟩ 11)  -- 121: VMOVUPD 352(AX), Y11
  , .i (.ld true .y ⟨.AX, 384⟩ 12)  -- 122: VMOVUPD 384(AX), Y12
  , .i (.ld true .y ⟨.AX, 416⟩ 13)  -- 123: VMOVUPD 416(AX), Y13
  , .i (.ld true .y ⟨.AX, 448⟩ 14)  -- 124: VMOVUPD 448(AX), Y14
  , .i (.ld true .y ⟨.AX, 480⟩ 15)  -- 125: VMOVUPD 480(AX), Y15
  , .i (.op3 .div .y (.m ⟨.CX, 0⟩) 0 0)  -- 126: VDIVPD (CX), Y0, Y0
  , .i (.op3 .div .y (.m ⟨.CX, 32⟩) 1 1)  -- 127: VDIVPD 32(CX), Y1, Y1
  , .i (.op3 .div .y (.m ⟨.CX, 64⟩) 2 2)  -- 128: VDIVPD 64(CX), Y2, Y2
  , .i (.op3 .div .y (.m ⟨.CX, 96⟩) 3 3)  -- 129: VDIVPD 96(CX), Y3, Y3
  , .i (.op3 .div .y (.m ⟨.CX, 128⟩) 4 4)  -- 130: VDIVPD 128(CX), Y4, Y4
  , .i (.op3 .div .y (.m ⟨.CX, 160⟩) 5 5)  -- 131: VDIVPD 160(CX), Y5, Y5
  , .i (.op3 .div .y (.m ⟨.CX, 192⟩) 6 6)  -- 132: VDIVPD 192(CX), Y6, Y6
  , .i (.op3 .div .y (.m ⟨.CX, 224⟩) 7 7)  -- 133: VDIVPD 224(CX), Y7, Y7
  , .i (.op3 .div .y (.m ⟨.CX, 256⟩) 8 8)  -- 134: VDIVPD 256(CX), Y8, Y8
  , .i (.op3 .div .y (.m ⟨.CX, 288⟩) 9 9)  -- 135: VDIVPD 288(CX), Y9, Y9
  , .i (.op3 .div .y (.m ⟨.CX, 320⟩) 10 10)  -- 136: VDIVPD 320(CX), Y10, Y10
  , .i (.op3 .div .y (.m ⟨.CX, 352⟩) 11 11)  -- 137: VDIVPD 352(CX), Y11, Y11
  , .i (.op3 .div .y (.m ⟨.CX, 384⟩) 12 12)  -- 138: VDIVPD 384(CX), Y12, Y12
  , .i (.op3 .div .y (.m ⟨.CX, 416⟩) 13 13)  -- 139: VDIVPD 416(CX), Y13, Y13
  , .i (.op3 .div .y (.m ⟨.CX, 448⟩) 14 14)  -- 140: VDIVPD 448(CX), Y14, Y14
  , .i (.op3 .div .y (.m ⟨.CX, 480⟩) 15 15)  -- 141: VDIVPD 480(CX), Y15, Y15
  , .i (.st .y 0 ⟨.DX, 0⟩)  -- 142: VMOVUPD Y0, (DX)
  , .i (.st .y 1 ⟨.DX, 32⟩)  -- 143: VMOVUPD Y1, 32(DX)
  , .i (.st .y 2 ⟨.DX, 64⟩)  -- 144: VMOVUPD Y2, 64(DX)
  , .i (.st .y 3 ⟨.DX, 96⟩)  -- 145: VMOVUPD Y3, 96(DX)
  , .i (.st .y 4 ⟨.DX, 128⟩)  -- 146: VMOVUPD Y4, 128(DX)
  , .i (.st .y 5 ⟨.DX, 160⟩)  -- 147: VMOVUPD Y5, 160(DX)
  , .i (.st .y 6 ⟨.DX, 192⟩)  -- 148: VMOVUPD Y6, 192(DX)
  , .i (.st .y 7 ⟨.DX, 224⟩)  -- 149: VMOVUPD Y7, 224(DX)
  , .i (.st .y 8 ⟨.DX, 256⟩)  -- 150: VMOVUPD Y8, 256(DX)
  , .i (.st .y 9 ⟨.DX, 288⟩)  -- 151: VMOVUPD Y9, 288(DX)
  , .i (.st .y 10 ⟨.DX, 320⟩)  -- 152: VMOVUPD Y10, 320(DX)
  , .i (.st .y 11 ⟨.DX, 352⟩)  -- 153: VMOVUPD Y11, 352(DX)
  , .i (.st .y 12 ⟨.DX, 384⟩)  -- 154: VMOVUPD Y12, 384(DX)
  , .i (.st .y 13 ⟨.DX, 416⟩)  -- 155: VMOVUPD Y13, 416(DX)
  , .i (.st .y 14 ⟨.DX, 448⟩)  -- 156: VMOVUPD Y14, 448(DX)
  , .i (.st .y 15 ⟨.DX, 480⟩)  -- 157: VMOVUPD Y15, 480(DX)
  , .i (.addQ 512 .AX)  -- 158: ADDQ $0x00000200, AX
  , .i (.addQ 512 .CX)  -- 159: ADDQ $0x00000200, CX
  , .i (.addQ 512 .DX)  -- 160: ADDQ $0x00000200, DX
  , .i (.subQ 64 .BX)  -- 161: SUBQ $0x00000040, BX
  , .jmp .unrolledLoop  -- 162: JMP unrolledLoop
  , .label .singleRegisterLoop  -- 164: singleRegisterLoop:
  , .i (.cmpQ .BX 4)  -- 165: CMPQ BX, $0x00000004
  , .jcc .l .tailLoop  -- 166: JL tailLoop
  , .i (.ld true .y ⟨.AX, 0⟩ 0)  -- 167: VMOVUPD (AX), Y0
  , .i (.op3 .div .y (.m ⟨.CX, 0⟩) 0 0)  -- 168: VDIVPD (CX), Y0, Y0
  , .i (.st .y 0 ⟨.DX, 0⟩)  -- 169: VMOVUPD Y0, (DX)
  , .i (.addQ 32 .AX)  -- 170: ADDQ $0x00000020, AX
  , .i (.addQ 32 .CX)  -- 171: ADDQ $0x00000020, CX
  , .i (.addQ 32 .DX)  -- 172: ADDQ $0x00000020, DX
  , .i (.subQ 4 .BX)  -- 173: SUBQ $0x00000004, BX
  , .jmp .singleRegisterLoop  -- 174: JMP singleRegisterLoop
  , .label .tailLoop  -- 176: tailLoop:
  , .i (.cmpQ .BX 0)  -- 177: CMPQ BX, $0x00000000
  , .jcc .z .end_  -- 178: JE end
  , .i (.ld false .s ⟨.AX, 0⟩ 0)  -- 179: MOVSD (AX), X0
  , .i (.op2 .div .s (.m ⟨.CX, 0⟩) 0)  -- 180: DIVSD (CX), X0
  , .i (.st .s 0 ⟨.DX, 0⟩)  -- 181: MOVSD X0, (DX)
  , .i (.addQ 8 .AX)  -- 182: ADDQ $0x00000008, AX
  , .i (.addQ 8 .CX)  -- 183: ADDQ $0x00000008, CX
  , .i (.addQ 8 .DX)  -- 184: ADDQ $0x00000008, DX
  , .i (.decQ .BX)  -- 185: DECQ BX
  , .jmp .tailLoop  -- 186: JMP tailLoop
  , .label .end_  -- 188: end:
  , .ret  -- 189: RET
]

/-- `DivSSE32`, mat/internal/matfuncs/div_amd64.s from line 193. -/
def divSSE32 : List Line := [
  .i (.argQ 0 .AX)  -- 194: MOVQ x1_base+0(FP), AX
  , .i (.argQ 24 .CX)  -- 195: MOVQ x2_base+24(FP), CX
  , .i (.argQ 48 .DX)  -- 196: MOVQ y_base+48(FP), DX
  , .i (.argQ 8 .BX)  -- 197: MOVQ x1_len+8(FP), BX
  , .i (.cmpQ .BX 0)  -- 198: CMPQ BX, $0x00000000
  , .jcc .z .end_  -- 199: JE end
  , .i (.movQ .CX .SI)  -- 200: MOVQ CX, SI
  , .i (.andQ 15 .SI)  -- 201: ANDQ $0x0000000f, SI
  , .jcc .z .unrolledLoop  -- 202: JZ unrolledLoop
  , .i (.xorQ 15 .SI)  -- 203: XORQ $0x0000000f, SI
  , .i (.incQ .SI)  -- 204: INCQ SI
  , .i (.shrQ 2 .SI)  -- 205: SHRQ $0x02, SI
  , .label .alignmentLoop  -- 207: alignmentLoop:
  , .i (.ld false .s ⟨.AX, 0⟩ 0)  -- 208: MOVSS (AX), X0
  , .i (.op2 .div .s (.m ⟨.CX, 0⟩) 0)  -- 209: DIVSS (CX), X0
  , .i (.st .s 0 ⟨.DX, 0⟩)  -- 210: MOVSS X0, (DX)
  , .i (.addQ 4 .AX)  -- 211: ADDQ $0x00000004, AX
  , .i (.addQ 4 .CX)  -- 212: ADDQ $0x00000004, CX
  , .i (.addQ 4 .DX)  -- 213: ADDQ $0x00000004, DX
  , .i (.decQ .BX)  -- 214: DECQ BX
  , .jcc .z .end_  -- 215: JZ end
  , .i (.decQ .SI)  -- 216: DECQ SI
  , .jcc .nz .alignmentLoop  -- 217: JNZ alignmentLoop
  , .label .unrolledLoop  -- 219: unrolledLoop:
  , .i (.cmpQ .BX 64)  -- 220: CMPQ BX, $0x00000040
  , .jcc .l .singleRegisterLoop  -- 221: JL singleRegisterLoop
  , .i (.ld false .x ⟨.AX, 0⟩ 0)  -- 222: MOVUPS (AX), X0
  , .i (.ld false .x ⟨.AX, 16⟩ 1)  -- 223: MOVUPS 16(AX), X1
  , .i (.ld false .x ⟨.AX, 32⟩ 2)  -- 224: MOVUPS 32(AX), X2
  , .i (.ld false .x ⟨.AX, 48⟩ 3)  -- 225: MOVUPS 48(AX), X3
  , .i (.ld false .x ⟨.AX, 64⟩ 4)  -- 226: MOVUPS 64(AX), X4
  , .i (.ld false .x ⟨.AX, 80⟩ 5)  -- 227: MOVUPS 80(AX), X5
  , .i (.ld false .x ⟨.AX, 96⟩ 6)  -- 228: MOVUPS 96(AX), X6
  , .i (.ld false .x ⟨.AX, 112⟩ 7)  -- 229: MOVUPS 112(AX), X7
  , .i (.ld false .x ⟨.AX, 128⟩ 8)  -- 230: MOVUPS 128(AX), X8
  , .i (.ld false .x ⟨.AX, 144⟩ 9)  -- 231: MOVUPS 144(AX), X9
  , .i (.ld false .x ⟨.AX, 160⟩ 10)  -- 232: MOVUPS 160(AX), X10
  , .i (.ld false .x ⟨.AX, 176⟩ 11)  -- 233: MOVUPS 176(AX), X11
  , .i (.ld false .x ⟨.AX, 192⟩ 12)  -- 234: MOVUPS 192(AX), X12
  , .i (.ld false .x ⟨.AX, 208⟩ 13)  -- 235: MOVUPS 208(AX), X13
  , .i (.ld false .x ⟨.AX, 224⟩ 14)  -- 236: MOVUPS 224(AX), X14
  , .i (.ld false .x ⟨.AX, 240⟩ 15)  -- 237: MOVUPS 240(AX), X15
  , .i (.op2 .div .x (.m ⟨.CX, 0⟩) 0)  -- 238: DIVPS (CX), X0
  , .i (.op2 .div .x (.m ⟨.CX, 16⟩) 1)  -- 239: DIVPS 16(CX), X1
  , .i (.op2 .div .x (.m ⟨.CX, 32⟩) 2)  -- 240: DIVPS 32(CX), X2
  , .i (.op2 .div .x (.m ⟨.CX, 48⟩) 3)  -- 241: DIVPS 48(CX), X3
  , .i (.op2 .div .x (.m ⟨.CX, 64⟩) 4)  -- 242: DIVPS 64(CX), X4
  , .i (.op2 .div .x (.m ⟨.CX, 80⟩) 5)  -- 243: DIVPS 80(CX), X5
  , .i (.op2 .div .x (.m ⟨.CX, 96⟩) 6)  -- 244: DIVPS 96(CX), X6
  , .i (.op2 .div .x (.m ⟨.CX, 112⟩) 7)  -- 245: DIVPS 112(CX), X7
  , .i (.op2 .div .x (.m ⟨.CX, 128⟩) 8)  -- 246: DIVPS 128(CX), X8
  , .i (.op2 .div .x (.m ⟨.CX, 144⟩) 9)  -- 247: DIVPS 144(CX), X9
  , .i (.op2 .div .x (.m ⟨.CX, 160⟩) 10)  -- 248: DIVPS 160(CX), X10
  , .i (.op2 .div .x (.m ⟨.CX, 176⟩) 11)  -- 249: DIVPS 176(CX), X11
  , .i (.op2 .div .x (.m ⟨.CX, 192⟩) 12)  -- 250: DIVPS 192(CX), X12
  , .i (.op2 .div .x (.m ⟨.CX, 208⟩) 13)  -- 251: DIVPS 208(CX), X13
  , .i (.op2 .div .x (.m ⟨.CX, 224⟩) 14)  -- 252: DIVPS 224(CX), X14
  , .i (.op2 .div .x (.m ⟨.CX, 240⟩) 15)  -- 253: DIVPS 240(CX), X15
  , .i (.st .x 0 ⟨.DX, 0⟩)  -- 254: MOVUPS X0, (DX)
  , .i (.st .x 1 ⟨.DX, 16⟩)  -- 255: MOVUPS X1, 16(DX)
  , .i (.st .x 2 ⟨.DX, 32⟩)  -- 256: MOVUPS X2, 32(DX)
  , .i (.st .x 3 ⟨.DX, 48⟩)  -- 257: MOVUPS X3, 48(DX)
  , .i (.st .x 4 ⟨.DX, 64⟩)  -- 258: MOVUPS X4, 64(DX)
  , .i (.st .x 5 ⟨.DX, 80⟩)  -- 259: MOVUPS X5, 80(DX)
  , .i (.st .x 6 ⟨.DX, 96⟩)  -- 260: MOVUPS X6, 96(DX)
  , .i (.st .x 7 ⟨.DX, 112⟩)  -- 261: MOVUPS X7, 112(DX)
  , .i (.st .x 8 ⟨.DX, 128⟩)  -- 262: MOVUPS X8, 128(DX)
  , .i (.st .x 9 ⟨.DX, 144⟩)  -- 263: MOVUPS X9, 144(DX)
  , .i (.st .x 10 ⟨.DX, 160⟩)  -- 264: MOVUPS X10, 160(DX)
  , .i (.st .x 11 ⟨.DX, 176⟩)  -- 265: MOVUPS X11, 176(DX)
  , .i (.st .x 12 ⟨.DX, 192⟩)  -- 266: MOVUPS X12, 192(DX)
  , .i (.st .x 13 ⟨.DX, 208⟩)  -- 267: MOVUPS X13, 208(DX)
  , .i (.st .x 14 ⟨.DX, 224⟩)  -- 268: MOVUPS X14, 224(DX)
  , .i (.st .x 15 ⟨.DX, 240⟩)  -- 269: MOVUPS X15, 240(DX)
  , .i (.addQ 256 .AX)  -- 270: ADDQ $0x00000100, AX
  , .i (.addQ 256 .CX)  -- 271: ADDQ $0x00000100, CX
  , .i (.addQ 256 .DX)  -- 272: ADDQ $0x00000100, DX
  , .i (.subQ 64 .BX)  -- 273: SUBQ $0x00000040, BX
  , .jmp .unrolledLoop  -- 274: JMP unrolledLoop
  , .label .singleRegisterLoop  -- 276: singleRegisterLoop:
  , .i (.cmpQ .BX 4)  -- 277: CMPQ BX, $0x00000004
  , .jcc .l .tailLoop  -- 278: JL tailLoop
  , .i (.ld false .x ⟨.AX, 0⟩ 0)  -- 279: MOVUPS (AX), X0
  , .i (.op2 .div .x (.m ⟨.CX, 0⟩) 0)  -- 280: DIVPS (CX), X0
  , .i (.st .x 0 ⟨.DX, 0⟩)  -- 281: MOVUPS X0, (DX)
  , .i (.addQ 16 .AX)  -- 282: ADDQ $0x00000010, AX
  , .i (.addQ 16 .CX)  -- 283: ADDQ $0x00000010, CX
  , .i (.addQ 16 .DX)  -- 284: ADDQ $0x00000010, DX
  , .i (.subQ 4 .BX)  -- 285: SUBQ $0x00000004, BX
  , .jmp .singleRegisterLoop  -- 286: JMP singleRegisterLoop
  , .label .tailLoop  -- 288: tailLoop:
  , .i (.cmpQ .BX 0)  -- 289: CMPQ BX, $0x00000000
  , .jcc .z .end_  -- 290: JE end
  , .i (.ld false .s ⟨.AX, 0⟩ 0)  -- 291: MOVSS (AX), X0
  , .i (.op2 .div .s (.m ⟨.CX, 0⟩) 0)  -- 292: DIVSS (CX), X0
  , .i (.st .s 0 ⟨.DX, 0⟩)  -- 293: MOVSS X0, (DX)
  , .i (.addQ 4 .AX)  -- 294: ADDQ $0x00000004, AX
  , .i (.addQ 4 .CX)  -- 295: ADDQ $0x00000004, CX
  , .i (.addQ 4 .DX)  -- 296: ADDQ $0x00000004, DX
  , .i (.decQ .BX)  -- 297: DECQ BX
  , .jmp .tailLoop  -- 298: JMP tailLoop
  , .label .end_  -- 300: end:
  , .ret  -- 301: RET
]

/-- `DivSSE64`, mat/internal/matfuncs/div_amd64.s from line 305. -/
def divSSE64 : List Line := [
  .i (.argQ 0 .AX)  -- 306: MOVQ x1_base+0(FP), AX
  , .i (.argQ 24 .CX)  -- 307: MOVQ x2_base+24(FP), CX
  , .i (.argQ 48 .DX)  -- 308: MOVQ y_base+48(FP), DX
  , .i (.argQ 8 .BX)  -- 309: MOVQ x1_len+8(FP), BX
  , .i (.cmpQ .BX 0)  -- 310: CMPQ BX, $0x00000000
  , .jcc .z .end_  -- 311: JE end
  , .i (.movQ .CX .SI)  -- 312: MOVQ CX, SI
  , .i (.andQ 15 .SI)  -- 313: ANDQ $0x0000000f, SI
  , .jcc .z .unrolledLoop  -- 314: JZ unrolledLoop
  , .i (.ld false .s ⟨.AX, 0⟩ 0)  -- 315: MOVSD (AX), X0
  , .i (.op2 .div .s (.m ⟨.CX, 0⟩) 0)  -- 316: DIVSD (CX), X0
  , .i (.st .s 0 ⟨.DX, 0⟩)  -- 317: MOVSD X0, (DX)
  , .i (.addQ 8 .AX)  -- 318: ADDQ $0x00000008, AX
  , .i (.addQ 8 .CX)  -- 319: ADDQ $0x00000008, CX
  , .i (.addQ 8 .DX)  -- 320: ADDQ $0x00000008, DX
  , .i (.decQ .BX)  -- 321: DECQ BX
  , .label .unrolledLoop  -- 323: unrolledLoop:
  , .i (.cmpQ .BX 32)  -- 324: CMPQ BX, $0x00000020
  , .jcc .l .singleRegisterLoop  -- 325: JL singleRegisterLoop
  , .i (.ld false .x ⟨.AX, 0⟩ 0)  -- 326: MOVUPD (AX), X0
  , .i (.ld false .x ⟨.AX, 16⟩ 1)  -- 327: MOVUPD 16(AX), X1
  , .i (.ld false .x ⟨.AX, 32⟩ 2)  -- 328: MOVUPD 32(AX), X2
  , .i (.ld false .x ⟨.AX, 48⟩ 3)  -- 329: MOVUPD 48(AX), X3
  , .i (.ld false .x ⟨.AX, 64⟩ 4)  -- 330: MOVUPD 64(AX), X4
  , .i (.ld false .x ⟨.AX, 80⟩ 5)  -- 331: MOVUPD 80(AX), X5
  , .i (.ld false .x ⟨.AX, 96⟩ 6)  -- 332: MOVUPD 96(AX), X6
  , .i (.ld false .x ⟨.AX, 112⟩ 7)  -- 333: MOVUPD 112(AX), X7
  , .i (.ld false .x ⟨.AX, 128⟩ 8)  -- 334: MOVUPD 128(AX), X8
  , .i (.ld false .x ⟨.AX, 144⟩ 9)  -- 335: MOVUPD 144(AX), X9
  , .i (.ld false .x ⟨.AX, 160⟩ 10)  -- 336: MOVUPD 160(AX), X10
  , .i (.ld false .x ⟨.AX, 176⟩ 11)  -- 337: MOVUPD 176(AX), X11
  , .i (.ld false .x ⟨.AX, 192⟩ 12)  -- 338: MOVUPD 192(AX), X12
  , .i (.ld false .x ⟨.AX, 208⟩ 13)  -- 339: MOVUPD 208(AX), X13
  , .i (.ld false .x ⟨.AX, 224⟩ 14)  -- 340: MOVUPD 224(AX), X14
  , .i (.ld false .x ⟨.AX, 240⟩ 15)  -- 341: MOVUPD 240(AX), X15
  , .i (.op2 .div .x (.m ⟨.CX, 0⟩) 0)  -- 342: DIVPD (CX), X0
  , .i (.op2 .div .x (.m ⟨.CX, 16⟩) 1)  -- 343: DIVPD 16(CX), X1
  , .i (.op2 .div .x (.m ⟨.CX, 32⟩) 2)  -- 344: DIVPD 32(CX), X2
  , .i (.op2 .div .x (.m ⟨.CX, 48⟩) 3)  -- 345: DIVPD 48(CX), X3
  , .i (.op2 .div .x (.m ⟨.CX, 64⟩) 4)  -- 346: DIVPD 64(CX), X4
  , .i (.op2 .div .x (.m ⟨.CX, 80⟩) 5)  -- 347: DIVPD 80(CX), X5
  , .i (.op2 .div .x (.m ⟨.CX, 96⟩) 6)  -- 348: DIVPD 96(CX), X6
  , .i (.op2 .div .x (.m ⟨.CX, 112⟩) 7)  -- 349: DIVPD 112(CX), X7
  , .i (.op2 .div .x (.m ⟨.CX, 128⟩) 8)  -- 350: DIVPD 128(CX), X8
  , .i (.op2 .div .x (.m ⟨.CX, 144⟩) 9)  -- 351: DIVPD 144(CX), X9
  , .i (.op2 .div .x (.m ⟨.CX, 160⟩) 10)  -- 352: DIVPD 160(CX), X10
  , .i (.op2 .div .x (.m ⟨.CX, 176⟩) 11)  -- 353: DIVPD 176(CX), X11
  , .i (.op2 .div .x (.m ⟨.CX, 192⟩) 12)  -- 354: DIVPD 192(CX), X12
  , .i (.op2 .div .x (.m ⟨.CX, 208⟩) 13)  -- 355: DIVPD 208(CX), X13
  , .i (.op2 .div .x (.m ⟨.CX, 224⟩) 14)  -- 356: DIVPD 224(CX), X14
  , .i (.op2 .div .x (.m ⟨.CX, 240⟩) 15)  -- 357: DIVPD 240(CX), X15
  , .i (.st .x 0 ⟨.DX, 0⟩)  -- 358: MOVUPD X0, (DX)
  , .i (.st .x 1 ⟨.DX, 16⟩)  -- 359: MOVUPD X1, 16(DX)
  , .i (.st .x 2 ⟨.DX, 32⟩)  -- 360: MOVUPD X2, 32(DX)
  , .i (.st .x 3 ⟨.DX, 48⟩)  -- 361: MOVUPD X3, 48(DX)
  , .i (.st .x 4 ⟨.DX, 64⟩)  -- 362: MOVUPD X4, 64(DX)
  , .i (.st .x 5 ⟨.DX, 80⟩)  -- 363: MOVUPD X5, 80(DX)
  , .i (.st .x 6 ⟨.DX, 96⟩)  -- 364: MOVUPD X6, 96(DX)
  , .i (.st .x 7 ⟨.DX, 112⟩)  -- 365: MOVUPD X7, 112(DX)
  , .i (.st .x 8 ⟨.DX, 128⟩)  -- 366: MOVUPD X8, 128(DX)
  , .i (.st .x 9 ⟨.DX, 144⟩)  -- 367: MOVUPD X9, 144(DX)
  , .i (.st .x 10 ⟨.DX, 160⟩)  -- 368: MOVUPD X10, 160(DX)
  , .i (.st .x 11 ⟨.DX, 176⟩)  -- 369: MOVUPD X11, 176(DX)
  , .i (.st .x 12 ⟨.DX, 192⟩)  -- 370: MOVUPD X12, 192(DX)
  , .i (.st .x 13 ⟨.DX, 208⟩)  -- 371: MOVUPD X13, 208(DX)
  , .i (.st .x 14 ⟨.DX, 224⟩)  -- 372: MOVUPD X14, 224(DX)
  , .i (.st .x 15 ⟨.DX, 240⟩)  -- 373: MOVUPD X15, 240(DX)
  , .i (.addQ 256 .AX)  -- 374: ADDQ $0x00000100, AX
  , .i (.addQ 256 .CX)  -- 375: ADDQ $0x00000100, CX
  , .i (.addQ 256 .DX)  -- 376: ADDQ $0x00000100, DX
  , .i (.subQ 32 .BX)  -- 377: SUBQ $0x00000020, BX
  , .jmp .unrolledLoop  -- 378: JMP unrolledLoop
  , .label .singleRegisterLoop  -- 380: singleRegisterLoop:
  , .i (.cmpQ .BX 2)  -- 381: CMPQ BX, $0x00000002
  , .jcc .l .tailLoop  -- 382: JL tailLoop
  , .i (.ld false .x ⟨.AX, 0⟩ 0)  -- 383: MOVUPD (AX), X0
  , .i (.op2 .div .x (.m ⟨.CX, 0⟩) 0)  -- 384: DIVPD (CX), X0
  , .i (.st .x 0 ⟨.DX, 0⟩)  -- 385: MOVUPD X0, (DX)
  , .i (.addQ 16 .AX)  -- 386: ADDQ $0x00000010, AX
  , .i (.addQ 16 .CX)  -- 387: ADDQ $0x00000010, CX
  , .i (.addQ 16 .DX)  -- 388: ADDQ $0x00000010, DX
  , .i (.subQ 2 .BX)  -- 389: SUBQ $0x00000002, BX
  , .jmp .singleRegisterLoop  -- 390: JMP singleRegisterLoop
  , .label .tailLoop  -- 392: tailLoop:
  , .i (.cmpQ .BX 0)  -- 393: CMPQ BX, $0x00000000
  , .jcc .z .end_  -- 394: JE end
  , .i (.ld false .s ⟨.AX, 0⟩ 0)  -- 395: MOVSD (AX), X0
  , .i (.op2 .div .s (.m ⟨.CX, 0⟩) 0)  -- 396: DIVSD (CX), X0
  , .i (.st .s 0 ⟨.DX, 0⟩)  -- 397: MOVSD X0, (DX)
  , .i (.addQ 8 .AX)  -- 398: ADDQ $0x00000008, AX
  , .i (.addQ 8 .CX)  -- 399: ADDQ $0x00000008, CX
  , .i (.addQ 8 .DX)  -- 400: ADDQ $0x00000008, DX
  , .i (.decQ .BX)  -- 401: DECQ BX
  , .jmp .tailLoop  -- 402: JMP tailLoop
  , .label .end_  -- 404: end:
  , .ret  -- 405: RET
]

/-- `AddConstAVX32`, mat/internal/matfuncs/addconst_amd64.s from line 9. -/
def addConstAVX32 : List Line := [
  .i (.argF 0 0)  -- 10: MOVSS c+0(FP), X0
  , .i (.argQ 8 .AX)  -- 11: MOVQ x_base+8(FP), AX
  , .i (.argQ 32 .CX)  -- 12: MOVQ y_base+32(FP), CX
  , .i (.argQ 16 .DX)  -- 13: MOVQ x_len+16(FP), DX
  , .i (.bcast 0 1)  -- 14: VBROADCASTSS X0, Y1
  , .label .unrolledLoop14  -- 16: unrolledLoop14:
  , .i (.cmpQ .DX 112)  -- 17: CMPQ DX, $0x00000070
  , .jcc .l .unrolledLoop8  -- 18: JL unrolledLoop8
  , .i (.op3 .add .y (.m ⟨.AX, 0⟩) 1 2)  -- 19: VADDPS (AX), Y1, Y2
  , .i (.op3 .add .y (.m ⟨.AX, 32⟩) 1 3)  -- 20: VADDPS 32(AX), Y1, Y3
  , .i (.op3 .add .y (.m ⟨.AX, 64⟩) 1 4)  -- 21: VADDPS 64(AX), Y1, Y4
  , .i (.op3 .add .y (.m ⟨.AX, 96⟩) 1 5)  -- 22: VADDPS 96(AX), Y1, Y5
  , .i (.op3 .add .y (.m ⟨.AX, 128⟩) 1 6)  -- 23: VADDPS 128(AX), Y1, Y6
  , .i (.op3 .add .y (.m ⟨.AX, 160⟩) 1 7)  -- 24: VADDPS 160(AX), Y1, Y7
  , .i (.op3 .add .y (.m ⟨.AX, 192⟩) 1 8)  -- 25: VADDPS 192(AX), Y1, Y8
  , .i (.op3 .add .y (.m ⟨.AX, 224⟩) 1 9)  -- 26: VADDPS 224(AX), Y1, Y9
  , .i (.op3 .add .y (.m ⟨.AX, 256⟩) 1 10)  -- 27: VADDPS 256(AX), Y1, Y10
  , .i (.op3 .add .y (.m ⟨.AX, 288⟩) 1 11)  -- 28: VADDPS 288(AX), Y1, Y11
  , .i (.op3 .add .y (.m ⟨.AX, 320⟩) 1 12)  -- 29: VADDPS 320(AX), Y1, Y12
  , .i (.op3 .add .y (.m ⟨.AX, 352⟩) 1 13)  -- 30: VADDPS 352(AX), Y1, Y13
  , .i (.op3 .add .y (.m ⟨.AX, 384⟩) 1 14)  -- 31: VADDPS 384(AX), Y1, Y14
  , .i (.op3 .add .y (.m ⟨.AX, 416⟩) 1 15)  -- 32: VADDPS 416(AX), Y1, Y15
  , .i (.st .y 2 ⟨.CX, 0⟩)  -- 33: VMOVUPS Y2, (CX)
  , .i (.st .y 3 ⟨.CX, 32⟩)  -- 34: VMOVUPS Y3, 32(CX)
  , .i (.st .y 4 ⟨.CX, 64⟩)  -- 35: VMOVUPS Y4, 64(CX)
  , .i (.st .y 5 ⟨.CX, 96⟩)  -- 36: VMOVUPS Y5, 96(CX)
  , .i (.st .y 6 ⟨.CX, 128⟩)  -- 37: VMOVUPS Y6, 128(CX)
  , .i (.st .y 7 ⟨.CX, 160⟩)  -- 38: VMOVUPS Y7, 160(CX)
  , .i (.st .y 8 ⟨.CX, 192⟩)  -- 39: VMOVUPS Y8, 192(CX)
  , .i (.st .y 9 ⟨.CX, 224⟩)  -- 40: VMOVUPS Y9, 224(CX)
  , .i (.st .y 10 ⟨.CX, 256⟩)  -- 41: VMOVUPS Y10, 256(CX)
  , .i (.st .y 11 ⟨.CX, 288⟩)  -- 42: VMOVUPS Y11, 288(CX)
  , .i (.st .y 12 ⟨.CX, 320⟩)  -- 43: VMOVUPS Y12, 320(CX)
  , .i (.st .y 13 ⟨.CX, 352⟩)  -- 44: VMOVUPS Y13, 352(CX)
  , .i (.st .y 14 ⟨.CX, 384⟩)  -- 45: VMOVUPS Y14, 384(CX)
  , .i (.st .y 15 ⟨.CX, 416⟩)  -- 46: VMOVUPS Y15, 416(CX)
  , .i (.addQ 448 .AX)  -- 47: ADDQ $0x000001c0, AX
  , .i (.addQ 448 .CX)  -- 48: ADDQ $0x000001c0, CX
  , .i (.subQ 112 .DX)  -- 49: SUBQ $0x00000070, DX
  , .jmp .unrolledLoop14  -- 50: JMP unrolledLoop14
  , .label .unrolledLoop8  -- 52: unrolledLoop8:
  , .i (.cmpQ .DX 64)  -- 53: CMPQ DX, $0x00000040
  , .jcc .l .unrolledLoop4  -- 54: JL unrolledLoop4
  , .i (.op3 .add .y (.m ⟨.AX, 0⟩) 1 2)  -- 55: VADDPS (AX), Y1, Y2
  , .i (.op3 .add .y (.m ⟨.AX, 32⟩) 1 3)  -- 56: VADDPS 32(AX), Y1, Y3
  , .i (.op3 .add .y (.m ⟨.AX, 64⟩) 1 4)  -- 57: VADDPS 64(AX), Y1, Y4
  , .i (.op3 .add .y (.m ⟨.AX, 96⟩) 1 5)  -- 58: VADDPS 96(AX), Y1, Y5
  , .i (.op3 .add .y (.m ⟨.AX, 128⟩) 1 6)  -- 59: VADDPS 128(AX), Y1, Y6
  , .i (.op3 .add .y (.m ⟨.AX, 160⟩) 1 7)  -- 60: VADDPS 160(AX), Y1, Y7
  , .i (.op3 .add .y (.m ⟨.AX, 192⟩) 1 8)  -- 61: VADDPS 192(AX), Y1, Y8
  , .i (.op3 .add .y (.m ⟨.AX, 224⟩) 1 9)  -- 62: VADDPS 224(AX), Y1, Y9
  , .i (.st .y 2 ⟨.CX, 0⟩)  -- 63: VMOVUPS Y2, (CX)
  , .i (.st .y 3 ⟨.CX, 32⟩)  -- 64: VMOVUPS Y3, 32(CX)
  , .i (.st .y 4 ⟨.CX, 64⟩)  -- 65: VMOVUPS Y4, 64(CX)
  , .i (.st .y 5 ⟨.CX, 96⟩)  -- 66: VMOVUPS Y5, 96(CX)
  , .i (.st .y 6 ⟨.CX, 128⟩)  -- 67: VMOVUPS Y6, 128(CX)
  , .i (.st .y 7 ⟨.CX, 160⟩)  -- 68: VMOVUPS Y7, 160(CX)
  , .i (.st .y 8 ⟨.CX, 192⟩)  -- 69: VMOVUPS Y8, 192(CX)
  , .i (.st .y 9 ⟨.CX, 224⟩)  -- 70: VMOVUPS Y9, 224(CX)
  , .i (.addQ 256 .AX)  -- 71: ADDQ $0x00000100, AX
  , .i (.addQ 256 .CX)  -- 72: ADDQ $0x00000100, CX
  , .i (.subQ 64 .DX)  -- 73: SUBQ $0x00000040, DX
  , .jmp .unrolledLoop8  -- 74: JMP unrolledLoop8
  , .label .unrolledLoop4  -- 76: unrolledLoop4:
  , .i (.cmpQ .DX 32)  -- 77: CMPQ DX, $0x00000020
  , .jcc .l .unrolledLoop1  -- 78: JL unrolledLoop1
  , .i (.op3 .add .y (.m ⟨.AX, 0⟩) 1 2)  -- 79: VADDPS (AX), Y1, Y2
  , .i (.op3 .add .y (.m ⟨.AX, 32⟩) 1 3)  -- 80: VADDPS 32(AX), Y1, Y3
  , .i (.op3 .add .y (.m ⟨.AX, 64⟩) 1 4)  -- 81: VADDPS 64(AX), Y1, Y4
  , .i (.op3 .add .y (.m ⟨.AX, 96⟩) 1 5)  -- 82: VADDPS 96(AX), Y1, Y5
  , .i (.st .y 2 ⟨.CX, 0⟩)  -- 83: VMOVUPS Y2, (CX)
  , .i (.st .y 3 ⟨.CX, 32⟩)  -- 84: VMOVUPS Y3, 32(CX)
  , .i (.st .y 4 ⟨.CX, 64⟩)  -- 85: VMOVUPS Y4, 64(CX)
  , .i (.st .y 5 ⟨.CX, 96⟩)  -- 86: VMOVUPS Y5, 96(CX)
  , .i (.addQ 128 .AX)  -- 87: ADDQ $0x00000080, AX
  , .i (.addQ 128 .CX)  -- 88: ADDQ $0x00000080, CX
  , .i (.subQ 32 .DX)  -- 89: SUBQ $0x00000020, DX
  , .jmp .unrolledLoop4  -- 90: JMP unrolledLoop4
  , .label .unrolledLoop1  -- 92: unrolledLoop1:
  , .i (.cmpQ .DX 8)  -- 93: CMPQ DX, $0x00000008
  , .jcc .l .tailLoop  -- 94: JL tailLoop
  , .i (.op3 .add .y (.m ⟨.AX, 0⟩) 1 2)  -- 95: VADDPS (AX), Y1, Y2
  , .i (.st .y 2 ⟨.CX, 0⟩)  -- 96: VMOVUPS Y2, (CX)
  , .i (.addQ 32 .AX)  -- 97: ADDQ $0x00000020, AX
  , .i (.addQ 32 .CX)  -- 98: ADDQ $0x00000020, CX
  , .i (.subQ 8 .DX)  -- 99: SUBQ $0x00000008, DX
  , .jmp .unrolledLoop1  -- 100: JMP unrolledLoop1
  , .label .tailLoop  -- 102: tailLoop:
  , .i (.cmpQ .DX 0)  -- 103: CMPQ DX, $0x00000000
  , .jcc .z .end_  -- 104: JE end
  , .i (.ld false .s ⟨.AX, 0⟩ 1)  -- 105: MOVSS (AX), X1
  , .i (.op2 .add .s (.v 0) 1)  -- 106: ADDSS X0, X1
  , .i (.st .s 1 ⟨.CX, 0⟩)  -- 107: MOVSS X1, (CX)
  , .i (.addQ 4 .AX)  -- 108: ADDQ $0x00000004, AX
  , .i (.addQ 4 .CX)  -- 109: ADDQ $0x00000004, CX
  , .i (.decQ .DX)  -- 110: DECQ DX
  , .jmp .tailLoop  -- 111: JMP tailLoop
  , .label .end_  -- 113: end:
  , .ret  -- 114: RET
]

/-- `AddConstAVX64`, mat/internal/matfuncs/addconst_amd64.s from line 118. -/
def addConstAVX64 : List Line := [
  .i (.argF 0 0)  -- 119: MOVSD c+0(FP), X0
  , .i (.argQ 8 .AX)  -- 120: MOVQ x_base+8(FP), AX
  , .i (.argQ 32 .CX)  -- 121: MOVQ y_base+32(FP), CX
  , .i (.argQ 16 .DX)  -- 122: MOVQ x_len+16(FP), DX
  , .i (.bcast 0 1)  -- 123: VBROADCASTSD X0, Y1
  , .label .unrolledLoop14  -- 125: unrolledLoop14:
  , .i (.cmpQ .DX 56)  -- 126: CMPQ DX, $0x00000038
  , .jcc .l .unrolledLoop8  -- 127: JL unrolledLoop8
  , .i (.op3 .add .y (.m ⟨.AX, 0⟩) 1 2)  -- 128: VADDPD (AX), Y1, Y2
  , .i (.op3 .add .y (.m ⟨.AX, 32⟩) 1 3)  -- 129: VADDPD 32(AX), Y1, Y3
  , .i (.op3 .add .y (.m ⟨.AX, 64⟩) 1 4)  -- 130: VADDPD 64(AX), Y1, Y4
  , .i (.op3 .add .y (.m ⟨.AX, 96⟩) 1 5)  -- 131: VADDPD 96(AX), Y1, Y5
  , .i (.op3 .add .y (.m ⟨.AX, 128⟩) 1 6)  -- 132: VADDPD 128(AX), Y1, Y6
  , .i (.op3 .add .y (.m ⟨.AX, 160⟩) 1 7)  -- 133: VADDPD 160(AX), Y1, Y7
  , .i (.op3 .add .y (.m ⟨.AX, 192⟩) 1 8)  -- 134: VADDPD 192(AX), Y1, Y8
  , .i (.op3 .add .y (.m ⟨.AX, 224⟩) 1 9)  -- 135: VADDPD 224(AX), Y1, Y9
  , .i (.op3 .add .y (.m ⟨.AX, 256⟩) 1 10)  -- 136: VADDPD 256(AX), Y1, Y10
  , .i (.op3 .add .y (.m ⟨.AX, 288⟩) 1 11)  -- 137: VADDPD 288(AX), Y1, Y11
  , .i (.op3 .add .y (.m ⟨.AX, 320⟩) 1 12)  -- 138: VADDPD 320(AX), Y1, Y12
  , .i (.op3 .add .y (.m ⟨.AX, 352⟩) 1 13)  -- 139: VADDPD 352(AX), Y1, Y13
  , .i (.op3 .add .y (.m ⟨.AX, 384⟩) 1 14)  -- 140: VADDPD 384(AX), Y1, Y14
  , .i (.op3 .add .y (.m ⟨.AX, 416⟩) 1 15)  -- 141: VADDPD 416(AX), Y1, Y15
  , .i (.st .y 2 ⟨.CX, 0⟩)  -- 142: VMOVUPD Y2, (CX)
  , .i (.st .y 3 ⟨.CX, 32⟩)  -- 143: VMOVUPD Y3, 32(CX)
  , .i (.st .y 4 ⟨.CX, 64⟩)  -- 144: VMOVUPD Y4, 64(CX)
  , .i (.st .y 5 ⟨.CX, 96⟩)  -- 145: VMOVUPD Y5, 96(CX)
  , .i (.st .y 6 ⟨.CX, 128⟩)  -- 146: VMOVUPD Y6, 128(CX)
  , .i (.st .y 7 ⟨.CX, 160⟩)  -- 147: VMOVUPD Y7, 160(CX)
  , .i (.st .y 8 ⟨.CX, 192⟩)  -- 148: VMOVUPD Y8, 192(CX)
  , .i (.st .y 9 ⟨.CX, 224⟩)  -- 149: VMOVUPD Y9, 224(CX)
  , .i (.st .y 10 ⟨.CX, 256⟩)  -- 150: VMOVUPD Y10, 256(CX)
  , .i (.st .y 11 ⟨.CX, 288⟩)  -- 151: VMOVUPD Y11, 288(CX)
  , .i (.st .y 12 ⟨.CX, 320⟩)  -- 152: VMOVUPD Y12, 320(CX)
  , .i (.st .y 13 ⟨.CX, 352⟩)  -- 153: VMOVUPD Y13, 352(CX)
  , .i (.st .y 14 ⟨.CX, 384⟩)  -- 154: VMOVUPD Y14, 384(CX)
  , .i (.st .y 15 ⟨.CX, 416⟩)  -- 155: VMOVUPD Y15, 416(CX)
  , .i (.addQ 448 .AX)  -- 156: ADDQ $0x000001c0, AX
  , .i (.addQ 448 .CX)  -- 157: ADDQ $0x000001c0, CX
  , .i (.subQ 56 .DX)  -- 158: SUBQ $0x00000038, DX
  , .jmp .unrolledLoop14  -- 159: JMP unrolledLoop14
  , .label .unrolledLoop8  -- 161: unrolledLoop8:
  , .i (.cmpQ .DX 32)  -- 162: CMPQ DX, $0x00000020
  , .jcc .l .unrolledLoop4  -- 163: JL unrolledLoop4
  , .i (.op3 .add .y (.m ⟨.AX, 0⟩) 1 2)  -- 164: VADDPD (AX), Y1, Y2
  , .i (.op3 .add .y (.m ⟨.AX, 32⟩) 1 3)  -- 165: VADDPD 32(AX), Y1, Y3
  , .i (.op3 .add .y (.m ⟨.AX, 64⟩) 1 4)  -- 166: VADDPD 64(AX), Y1, Y4
  , .i (.op3 .add .y (.m ⟨.AX, 96⟩) 1 5)  -- 167: VADDPD 96(AX), Y1, Y5
  , .i (.op3 .add .y (.m ⟨.AX, 128⟩) 1 6)  -- 168: VADDPD 128(AX), Y1, Y6
  , .i (.op3 .add .y (.m ⟨.AX, 160⟩) 1 7)  -- 169: VADDPD 160(AX), Y1, Y7
  , .i (.op3 .add .y (.m ⟨.AX, 192⟩) 1 8)  -- 170: VADDPD 192(AX), Y1, Y8
  , .i (.op3 .add .y (.m ⟨.AX, 224⟩) 1 9)  -- 171: VADDPD 224(AX), Y1, Y9
  , .i (.st .y 2 ⟨.CX, 0⟩)  -- 172: VMOVUPD Y2, (CX)
  , .i (.st .y 3 ⟨.CX, 32⟩)  -- 173: VMOVUPD Y3, 32(CX)
  , .i (.st .y 4 ⟨.CX, 64⟩)  -- 174: VMOVUPD Y4, 64(CX)
  , .i (.st .y 5 ⟨.CX, 96⟩)  -- 175: VMOVUPD Y5, 96(CX)
  , .i (.st .y 6 ⟨.CX, 128⟩)  -- 176: VMOVUPD Y6, 128(CX)
  , .i (.st .y 7 ⟨.CX, 160⟩)  -- 177: VMOVUPD Y7, 160(CX)
  , .i (.st .y 8 ⟨.CX, 192⟩)  -- 178: VMOVUPD Y8, 192(CX)
  , .i (.st .y 9 ⟨.CX, 224⟩)  -- 179: VMOVUPD Y9, 224(CX)
  , .i (.addQ 256 .AX)  -- 180: ADDQ $0x00000100, AX
  , .i (.addQ 256 .CX)  -- 181: ADDQ $0x00000100, CX
  , .i (.subQ 32 .DX)  -- 182: SUBQ $0x00000020, DX
  , .jmp .unrolledLoop8  -- 183: JMP unrolledLoop8
  , .label .unrolledLoop4  -- 185: unrolledLoop4:
  , .i (.cmpQ .DX 16)  -- 186: CMPQ DX, $0x00000010
  , .jcc .l .unrolledLoop1  -- 187: JL unrolledLoop1
  , .i (.op3 .add .y (.m ⟨.AX, 0⟩) 1 2)  -- 188: VADDPD (AX), Y1, Y2
  , .i (.op3 .add .y (.m ⟨.AX, 32⟩) 1 3)  -- 189: VADDPD 32(AX), Y1, Y3
  , .i (.op3 .add .y (.m ⟨.AX, 64⟩) 1 4)  -- 190: VADDPD 64(AX), Y1, Y4
  , .i (.op3 .add .y (.m ⟨.AX, 96⟩) 1 5)  -- 191: VADDPD 96(AX), Y1, Y5
  , .i (.st .y 2 ⟨.CX, 0⟩)  -- 192: VMOVUPD Y2, (CX)
  , .i (.st .y 3 ⟨.CX, 32⟩)  -- 193: VMOVUPD Y3, 32(CX)
  , .i (.st .y 4 ⟨.CX, 64⟩)  -- 194: VMOVUPD Y4, 64(CX)
  , .i (.st .y 5 ⟨.CX, 96⟩)  -- 195: VMOVUPD Y5, 96(CX)
  , .i (.addQ 128 .AX)  -- 196: ADDQ $0x00000080, AX
  , .i (.addQ 128 .CX)  -- 197: ADDQ $0x00000080, CX
  , .i (.subQ 16 .DX)  -- 198: SUBQ $0x00000010, DX
  , .jmp .unrolledLoop4  -- 199: JMP unrolledLoop4
  , .label .unrolledLoop1  -- 201: unrolledLoop1:
  , .i (.cmpQ .DX 4)  -- 202: CMPQ DX, $0x00000004
  , .jcc .l .tailLoop  -- 203: JL tailLoop
  , .i (.op3 .add .y (.m ⟨.AX, 0⟩) 1 2)  -- 204: VADDPD (AX), Y1, Y2
  , .i (.st .y 2 ⟨.CX, 0⟩)  -- 205: VMOVUPD Y2, (CX)
  , .i (.addQ 32 .AX)  -- 206: ADDQ $0x00000020, AX
  , .i (.addQ 32 .CX)  -- 207: ADDQ $0x00000020, CX
  , .i (.subQ 4 .DX)  -- 208: SUBQ $0x00000004, DX
  , .jmp .unrolledLoop1  -- 209: JMP unrolledLoop1
  , .label .tailLoop  -- 211: tailLoop:
  , .i (.cmpQ .DX 0)  -- 212: CMPQ DX, $0x00000000
  , .jcc .z .end_  -- 213: JE end
  , .i (.ld false .s ⟨.AX, 0⟩ 1)  -- 214: MOVSD (AX), X1
  , .i (.op2 .add .s (.v 0) 1)  -- 215: ADDSD X0, X1
  , .i (.st .s 1 ⟨.CX, 0⟩)  -- 216: MOVSD X1, (CX)
  , .i (.addQ 8 .AX)  -- 217: ADDQ $0x00000008, AX
  , .i (.addQ 8 .CX)  -- 218: ADDQ $0x00000008, CX
  , .i (.decQ .DX)  -- 219: DECQ DX
  , .jmp .tailLoop  -- 220: JMP tailLoop
  , .label .end_  -- 222: end:
  , .ret  -- 223: RET
]

/-- `AddConstSSE32`, mat/internal/matfuncs/addconst_amd64.s from line 227. -/
def addConstSSE32 : List Line := [
  .i (.argF 0 0)  -- 228: MOVSS c+0(FP), X0
  , .i (.argQ 8 .AX)  -- 229: MOVQ x_base+8(FP), AX
  , .i (.argQ 32 .CX)  -- 230: MOVQ y_base+32(FP), CX
  , .i (.argQ 16 .DX)  -- 231: MOVQ x_len+16(FP), DX
  , .i (.shuf0 0)  -- 232: SHUFPS $0x00, X0, X0
  , .label .unrolledLoop14  -- 234: unrolledLoop14:
  , .i (.cmpQ .DX 56)  -- 235: CMPQ DX, $0x00000038
  , .jcc .l .unrolledLoop8  -- 236: JL unrolledLoop8
  , .i (.ld false .x ⟨.AX, 0⟩ 1)  -- 237: MOVUPS (AX), X1
  , .i (.ld false .x ⟨.AX, 16⟩ 2)  -- 238: MOVUPS 16(AX), X2
  , .i (.ld false .x ⟨.AX, 32⟩ 3)  -- 239: MOVUPS 32(AX), X3
  , .i (.ld false .x ⟨.AX, 48⟩ 4)  -- 240: MOVUPS 48(AX), X4
  , .i (.ld false .x ⟨.AX, 64⟩ 5)  -- 241: MOVUPS 64(AX), X5
  , .i (.ld false .x ⟨.AX, 80⟩ 6)  -- 242: MOVUPS 80(AX), X6
  , .i (.ld false .x ⟨.AX, 96⟩ 7)  -- 243: MOVUPS 96(AX), X7
  , .i (.ld false .x ⟨.AX, 112⟩ 8)  -- 244: MOVUPS 112(AX), X8
  , .i (.ld false .x ⟨.AX, 128⟩ 9)  -- 245: MOVUPS 128(AX), X9
  , .i (.ld false .x ⟨.AX, 144⟩ 10)  -- 246: MOVUPS 144(AX), X10
  , .i (.ld false .x ⟨.AX, 160⟩ 11)  -- 247: MOVUPS 160(AX), X11
  , .i (.ld false .x ⟨.AX, 176⟩ 12)  -- 248: MOVUPS 176(AX), X12
  , .i (.ld false .x ⟨.AX, 192⟩ 13)  -- 249: MOVUPS 192(AX), X13
  , .i (.ld false .x ⟨.AX, 208⟩ 14)  -- 250: MOVUPS 208(AX), X14
  , .i (.op2 .add .x (.v 0) 1)  -- 251: ADDPS X0, X1
  , .i (.op2 .add .x (.v 0) 2)  -- 252: ADDPS X0, X2
  , .i (.op2 .add .x (.v 0) 3)  -- 253: ADDPS X0, X3
  , .i (.op2 .add .x (.v 0) 4)  -- 254: ADDPS X0, X4
  , .i (.op2 .add .x (.v 0) 5)  -- 255: ADDPS X0, X5
  , .i (.op2 .add .x (.v 0) 6)  -- 256: ADDPS X0, X6
  , .i (.op2 .add .x (.v 0) 7)  -- 257: ADDPS X0, X7
  , .i (.op2 .add .x (.v 0) 8)  -- 258: ADDPS X0, X8
  , .i (.op2 .add .x (.v 0) 9)  -- 259: ADDPS X0, X9
  , .i (.op2 .add .x (.v 0) 10)  -- 260: ADDPS X0, X10
  , .i (.op2 .add .x (.v 0) 11)  -- 261: ADDPS X0, X11
  , .i (.op2 .add .x (.v 0) 12)  -- 262: ADDPS X0, X12
  , .i (.op2 .add .x (.v 0) 13)  -- 263: ADDPS X0, X13
  , .i (.op2 .add .x (.v 0) 14)  -- 264: ADDPS X0, X14
  , .i (.st .x 1 ⟨.CX, 0⟩)  -- 265: MOVUPS X1, (CX)
  , .i (.st .x 2 ⟨.CX, 16⟩)  -- 266: MOVUPS X2, 16(CX)
  , .i (.st .x 3 ⟨.CX, 32⟩)  -- 267: MOVUPS X3, 32(CX)
  , .i (.st .x 4 ⟨.CX, 48⟩)  -- 268: MOVUPS X4, 48(CX)
  , .i (.st .x 5 ⟨.CX, 64⟩)  -- 269: MOVUPS X5, 64(CX)
  , .i (.st .x 6 ⟨.CX, 80⟩)  -- 270: MOVUPS X6, 80(CX)
  , .i (.st .x 7 ⟨.CX, 96⟩)  -- 271: MOVUPS X7, 96(CX)
  , .i (.st .x 8 ⟨.CX, 112⟩)  -- 272: MOVUPS X8, 112(CX)
  , .i (.st .x 9 ⟨.CX, 128⟩)  -- 273: MOVUPS X9, 128(CX)
  , .i (.st .x 10 ⟨.CX, 144⟩)  -- 274: MOVUPS X10, 144(CX)
  , .i (.st .x 11 ⟨.CX, 160⟩)  -- 275: MOVUPS X11, 160(CX)
  , .i (.st .x 12 ⟨.CX, 176⟩)  -- 276: MOVUPS X12, 176(CX)
  , .i (.st .x 13 ⟨.CX, 192⟩)  -- 277: MOVUPS X13, 192(CX)
  , .i (.st .x 14 ⟨.CX, 208⟩)  -- 278: MOVUPS X14, 208(CX)
  , .i (.addQ 224 .AX)  -- 279: ADDQ $0x000000e0, AX
  , .i (.addQ 224 .CX)  -- 280: ADDQ $0x000000e0, CX
  , .i (.subQ 56 .DX)  -- 281: SUBQ $0x00000038, DX
  , .jmp .unrolledLoop14  -- 282: JMP unrolledLoop14
  , .label .unrolledLoop8  -- 284: unrolledLoop8:
  , .i (.cmpQ .DX 32)  -- 285: CMPQ DX, $0x00000020
  , .jcc .l .unrolledLoop4  -- 286: JL unrolledLoop4
  , .i (.ld false .x ⟨.AX, 0⟩ 1)  -- 287: MOVUPS (AX), X1
  , .i (.ld false .x ⟨.AX, 16⟩ 2)  -- 288: MOVUPS 16(AX), X2
  , .i (.ld false .x ⟨.AX, 32⟩ 3)  -- 289: MOVUPS 32(AX), X3
  , .i (.ld false .x ⟨.AX, 48⟩ 4)  -- 290: MOVUPS 48(AX), X4
  , .i (.ld false .x ⟨.AX, 64⟩ 5)  -- 291: MOVUPS 64(AX), X5
  , .i (.ld false .x ⟨.AX, 80⟩ 6)  -- 292: MOVUPS 80(AX), X6
  , .i (.ld false .x ⟨.AX, 96⟩ 7)  -- 293: MOVUPS 96(AX), X7
  , .i (.ld false .x ⟨.AX, 112⟩ 8)  -- 294: MOVUPS 112(AX), X8
  , .i (.op2 .add .x (.v 0) 1)  -- 295: ADDPS X0, X1
  , .i (.op2 .add .x (.v 0) 2)  -- 296: ADDPS X0, X2
  , .i (.op2 .add .x (.v 0) 3)  -- 297: ADDPS X0, X3
  , .i (.op2 .add .x (.v 0) 4)  -- 298: ADDPS X0, X4
  , .i (.op2 .add .x (.v 0) 5)  -- 299: ADDPS X0, X5
  , .i (.op2 .add .x (.v 0) 6)  -- 300: ADDPS X0, X6
  , .i (.op2 .add .x (.v 0) 7)  -- 301: ADDPS X0, X7
  , .i (.op2 .add .x (.v 0) 8)  -- 302: ADDPS X0, X8
  , .i (.st .x 1 ⟨.CX, 0⟩)  -- 303: MOVUPS X1, (CX)
  , .i (.st .x 2 ⟨.CX, 16⟩)  -- 304: MOVUPS X2, 16(CX)
  , .i (.st .x 3 ⟨.CX, 32⟩)  -- 305: MOVUPS X3, 32(CX)
  , .i (.st .x 4 ⟨.CX, 48⟩)  -- 306: MOVUPS X4, 48(CX)
  , .i (.st .x 5 ⟨.CX, 64⟩)  -- 307: MOVUPS X5, 64(CX)
  , .i (.st .x 6 ⟨.CX, 80⟩)  -- 308: MOVUPS X6, 80(CX)
  , .i (.st .x 7 ⟨.CX, 96⟩)  -- 309: MOVUPS X7, 96(CX)
  , .i (.st .x 8 ⟨.CX, 112⟩)  -- 310: MOVUPS X8, 112(CX)
  , .i (.addQ 128 .AX)  -- 311: ADDQ $0x00000080, AX
  , .i (.addQ 128 .CX)  -- 312: ADDQ $0x00000080, CX
  , .i (.subQ 32 .DX)  -- 313: SUBQ $0x00000020, DX
  , .jmp .unrolledLoop8  -- 314: JMP unrolledLoop8
  , .label .unrolledLoop4  -- 316: unrolledLoop4:
  , .i (.cmpQ .DX 16)  -- 317: CMPQ DX, $0x00000010
  , .jcc .l .unrolledLoop1  -- 318: JL unrolledLoop1
  , .i (.ld false .x ⟨.AX, 0⟩ 1)  -- 319: MOVUPS (AX), X1
  , .i (.ld false .x ⟨.AX, 16⟩ 2)  -- 320: MOVUPS 16(AX), X2
  , .i (.ld false .x ⟨.AX, 32⟩ 3)  -- 321: MOVUPS 32(AX), X3
  , .i (.ld false .x ⟨.AX, 48⟩ 4)  -- 322: MOVUPS 48(AX), X4
  , .i (.op2 .add .x (.v 0) 1)  -- 323: ADDPS X0, X1
  , .i (.op2 .add .x (.v 0) 2)  -- 324: ADDPS X0, X2
  , .i (.op2 .add .x (.v 0) 3)  -- 325: ADDPS X0, X3
  , .i (.op2 .add .x (.v 0) 4)  -- 326: ADDPS X0, X4
  , .i (.st .x 1 ⟨.CX, 0⟩)  -- 327: MOVUPS X1, (CX)
  , .i (.st .x 2 ⟨.CX, 16⟩)  -- 328: MOVUPS X2, 16(CX)
  , .i (.st .x 3 ⟨.CX, 32⟩)  -- 329: MOVUPS X3, 32(CX)
  , .i (.st .x 4 ⟨.CX, 48⟩)  -- 330: MOVUPS X4, 48(CX)
  , .i (.addQ 64 .AX)  -- 331: ADDQ $0x00000040, AX
  , .i (.addQ 64 .CX)  -- 332: ADDQ $0x00000040, CX
  , .i (.subQ 16 .DX)  -- 333: SUBQ $0x00000010, DX
  , .jmp .unrolledLoop4  -- 334: JMP unrolledLoop4
  , .label .unrolledLoop1  -- 336: unrolledLoop1:
  , .i (.cmpQ .DX 4)  -- 337: CMPQ DX, $0x00000004
  , .jcc .l .tailLoop  -- 338: JL tailLoop
  , .i (.ld false .x ⟨.AX, 0⟩ 1)  -- 339: MOVUPS (AX), X1
  , .i (.op2 .add .x (.v 0) 1)  -- 340: ADDPS X0, X1
  , .i (.st .x 1 ⟨.CX, 0⟩)  -- 341: MOVUPS X1, (CX)
  , .i (.addQ 16 .AX)  -- 342: ADDQ $0x00000010, AX
  , .i (.addQ 16 .CX)  -- 343: ADDQ $0x00000010, CX
  , .i (.subQ 4 .DX)  -- 344: SUBQ $0x00000004, DX
  , .jmp .unrolledLoop1  -- 345: JMP unrolledLoop1
  , .label .tailLoop  -- 347: tailLoop:
  , .i (.cmpQ .DX 0)  -- 348: CMPQ DX, $0x00000000
  , .jcc .z .end_  -- 349: JE end
  , .i (.ld false .s ⟨.AX, 0⟩ 1)  -- 350: MOVSS (AX), X1
  , .i (.op2 .add .s (.v 0) 1)  -- 351: ADDSS X0, X1
  , .i (.st .s 1 ⟨.CX, 0⟩)  -- 352: MOVSS X1, (CX)
  , .i (.addQ 4 .AX)  -- 353: ADDQ $0x00000004, AX
  , .i (.addQ 4 .CX)  -- 354: ADDQ $0x00000004, CX
  , .i (.decQ .DX)  -- 355: DECQ DX
  , .jmp .tailLoop  -- 356: JMP tailLoop
  , .label .end_  -- 358: end:
  , .ret  -- 359: RET
]

/-- `AddConstSSE64`, mat/internal/matfuncs/addconst_amd64.s from line 363. -/
def addConstSSE64 : List Line := [
  .i (.argF 0 0)  -- 364: MOVSD c+0(FP), X0
  , .i (.argQ 8 .AX)  -- 365: MOVQ x_base+8(FP), AX
  , .i (.argQ 32 .CX)  -- 366: MOVQ y_base+32(FP), CX
  , .i (.argQ 16 .DX)  -- 367: MOVQ x_len+16(FP), DX
  , .i (.shuf0 0)  -- 368: SHUFPD $0x00, X0, X0
  , .label .unrolledLoop14  -- 370: unrolledLoop14:
  , .i (.cmpQ .DX 28)  -- 371: CMPQ DX, $0x0000001c
  , .jcc .l .unrolledLoop8  -- 372: JL unrolledLoop8
  , .i (.ld false .x ⟨.AX, 0⟩ 1)  -- 373: MOVUPD (AX), X1
  , .i (.ld false .x ⟨.AX, 16⟩ 2)  -- 374: MOVUPD 16(AX), X2
  , .i (.ld false .x ⟨.AX, 32⟩ 3)  -- 375: MOVUPD 32(AX), X3
  , .i (.ld false .x ⟨.AX, 48⟩ 4)  -- 376: MOVUPD 48(AX), X4
  , .i (.ld false .x ⟨.AX, 64⟩ 5)  -- 377: MOVUPD 64(AX), X5
  , .i (.ld false .x ⟨.AX, 80⟩ 6)  -- 378: MOVUPD 80(AX), X6
  , .i (.ld false .x ⟨.AX, 96⟩ 7)  -- 379: MOVUPD 96(AX), X7
  , .i (.ld false .x ⟨.AX, 112⟩ 8)  -- 380: MOVUPD 112(AX), X8
  , .i (.ld false .x ⟨.AX, 128⟩ 9)  -- 381: MOVUPD 128(AX), X9
  , .i (.ld false .x ⟨.AX, 144⟩ 10)  -- 382: MOVUPD 144(AX), X10
  , .i (.ld false .x ⟨.AX, 160⟩ 11)  -- 383: MOVUPD 160(AX), X11
  , .i (.ld false .x ⟨.AX, 176⟩ 12)  -- 384: MOVUPD 176(AX), X12
  , .i (.ld false .x ⟨.AX, 192⟩ 13)  -- 385: MOVUPD 192(AX), X13
  , .i (.ld false .x ⟨.AX, 208⟩ 14)  -- 386: MOVUPD 208(AX), X14
  , .i (.op2 .add .x (.v 0) 1)  -- 387: ADDPD X0, X1
  , .i (.op2 .add .x (.v 0) 2)  -- 388: ADDPD X0, X2
  , .i (.op2 .add .x (.v 0) 3)  -- 389: ADDPD X0, X3
  , .i (.op2 .add .x (.v 0) 4)  -- 390: ADDPD X0, X4
  , .i (.op2 .add .x (.v 0) 5)  -- 391: ADDPD X0, X5
  , .i (.op2 .add .x (.v 0) 6)  -- 392: ADDPD X0, X6
  , .i (.op2 .add .x (.v 0) 7)  -- 393: ADDPD X0, X7
  , .i (.op2 .add .x (.v 0) 8)  -- 394: ADDPD X0, X8
  , .i (.op2 .add .x (.v 0) 9)  -- 395: ADDPD X0, X9
  , .i (.op2 .add .x (.v 0) 10)  -- 396: ADDPD X0, X10
  , .i (.op2 .add .x (.v 0) 11)  -- 397: ADDPD X0, X11
  , .i (.op2 .add .x (.v 0) 12)  -- 398: ADDPD X0, X12
  , .i (.op2 .add .x (.v 0) 13)  -- 399: ADDPD X0, X13
  , .i (.op2 .add .x (.v 0) 14)  -- 400: ADDPD X0, X14
  , .i (.st .x 1 ⟨.CX, 0⟩)  -- 401: MOVUPD X1, (CX)
  , .i (.st .x 2 ⟨.CX, 16⟩)  -- 402: MOVUPD X2, 16(CX)
  , .i (.st .x 3 ⟨.CX, 32⟩)  -- 403: MOVUPD X3, 32(CX)
  , .i (.st .x 4 ⟨.CX, 48⟩)  -- 404: MOVUPD X4, 48(CX)
  , .i (.st .x 5 ⟨.CX, 64⟩)  -- 405: MOVUPD X5, 64(CX)
  , .i (.st .x 6 ⟨.CX, 80⟩)  -- 406: MOVUPD X6, 80(CX)
  , .i (.st .x 7 ⟨.CX, 96⟩)  -- 407: MOVUPD X7, 96(CX)
  , .i (.st .x 8 ⟨.CX, 112⟩)  -- 408: MOVUPD X8, 112(CX)
  , .i (.st .x 9 ⟨.CX, 128⟩)  -- 409: MOVUPD X9, 128(CX)
  , .i (.st .x 10 ⟨.CX, 144⟩)  -- 410: MOVUPD X10, 144(CX)
  , .i (.st .x 11 ⟨.CX, 160⟩)  -- 411: MOVUPD X11, 160(CX)
  , .i (.st .x 12 ⟨.CX, 176⟩)  -- 412: MOVUPD X12, 176(CX)
  , .i (.st .x 13 ⟨.CX, 192⟩)  -- 413: MOVUPD X13, 192(CX)
  , .i (.st .x 14 ⟨.CX, 208⟩)  -- 414: MOVUPD X14, 208(CX)
  , .i (.addQ 224 .AX)  -- 415: ADDQ $0x000000e0, AX
  , .i (.addQ 224 .CX)  -- 416: ADDQ $0x000000e0, CX
  , .i (.subQ 28 .DX)  -- 417: SUBQ $0x0000001c, DX
  , .jmp .unrolledLoop14  -- 418: JMP unrolledLoop14
  , .label .unrolledLoop8  -- 420: unrolledLoop8:
  , .i (.cmpQ .DX 16)  -- 421: CMPQ DX, $0x00000010
  , .jcc .l .unrolledLoop4  -- 422: JL unrolledLoop4
  , .i (.ld false .x ⟨.AX, 0⟩ 1)  -- 423: MOVUPD (AX), X1
  , .i (.ld false .x ⟨.AX, 16⟩ 2)  -- 424: MOVUPD 16(AX), X2
  , .i (.ld false .x ⟨.AX, 32⟩ 3)  -- 425: MOVUPD 32(AX), X3
  , .i (.ld false .x ⟨.AX, 48⟩ 4)  -- 426: MOVUPD 48(AX), X4
  , .i (.ld false .x ⟨.AX, 64⟩ 5)  -- 427: MOVUPD 64(AX), X5
  , .i (.ld false .x ⟨.AX, 80⟩ 6)  -- 428: MOVUPD 80(AX), X6
  , .i (.ld false .x ⟨.AX, 96⟩ 7)  -- 429: MOVUPD 96(AX), X7
  , .i (.ld false .x ⟨.AX, 112⟩ 8)  -- 430: MOVUPD 112(AX), X8
  , .i (.op2 .add .x (.v 0) 1)  -- 431: ADDPD X0, X1
  , .i (.op2 .add .x (.v 0) 2)  -- 432: ADDPD X0, X2
  , .i (.op2 .add .x (.v 0) 3)  -- 433: ADDPD X0, X3
  , .i (.op2 .add .x (.v 0) 4)  -- 434: ADDPD X0, X4
  , .i (.op2 .add .x (.v 0) 5)  -- 435: ADDPD X0, X5
  , .i (.op2 .add .x (.v 0) 6)  -- 436: ADDPD X0, X6
  , .i (.op2 .add .x (.v 0) 7)  -- 437: ADDPD X0, X7
  , .i (.op2 .add .x (.v 0) 8)  -- 438: ADDPD X0, X8
  , .i (.st .x 1 ⟨.CX, 0⟩)  -- 439: MOVUPD X1, (CX)
  , .i (.st .x 2 ⟨.CX, 16⟩)  -- 440: MOVUPD X2, 16(CX)
  , .i (.st .x 3 ⟨.CX, 32⟩)  -- 441: MOVUPD X3, 32(CX)
  , .i (.st .x 4 ⟨.CX, 48⟩)  -- 442: MOVUPD X4, 48(CX)
  , .i (.st .x 5 ⟨.CX, 64⟩)  -- 443: MOVUPD X5, 64(CX)
  , .i (.st .x 6 ⟨.CX, 80⟩)  -- 444: MOVUPD X6, 80(CX)
  , .i (.st .x 7 ⟨.CX, 96⟩)  -- 445: MOVUPD X7, 96(CX)
  , .i (.st .x 8 ⟨.CX, 112⟩)  -- 446: MOVUPD X8, 112(CX)
  , .i (.addQ 128 .AX)  -- 447: ADDQ $0x00000080, AX
  , .i (.addQ 128 .CX)  -- 448: ADDQ $0x00000080, CX
  , .i (.subQ 16 .DX)  -- 449: SUBQ $0x00000010, DX
  , .jmp .unrolledLoop8  -- 450: JMP unrolledLoop8
  , .label .unrolledLoop4  -- 452: unrolledLoop4:
  , .i (.cmpQ .DX 8)  -- 453: CMPQ DX, $0x00000008
  , .jcc .l .unrolledLoop1  -- 454: JL unrolledLoop1
  , .i (.ld false .x ⟨.AX, 0⟩ 1)  -- 455: MOVUPD (AX), X1
  , .i (.ld false .x ⟨.AX, 16⟩ 2)  -- 456: MOVUPD 16(AX), X2
  , .i (.ld false .x ⟨.AX, 32⟩ 3)  -- 457: MOVUPD 32(AX), X3
  , .i (.ld false .x ⟨.AX, 48⟩ 4)  -- 458: MOVUPD 48(AX), X4
  , .i (.op2 .add .x (.v 0) 1)  -- 459: ADDPD X0, X1
  , .i (.op2 .add .x (.v 0) 2)  -- 460: ADDPD X0, X2
  , .i (.op2 .add .x (.v 0) 3)  -- 461: ADDPD X0, X3
  , .i (.op2 .add .x (.v 0) 4)  -- 462: ADDPD X0, X4
  , .i (.st .x 1 ⟨.CX, 0⟩)  -- 463: MOVUPD X1, (CX)
  , .i (.st .x 2 ⟨.CX, 16⟩)  -- 464: MOVUPD X2, 16(CX)
  , .i (.st .x 3 ⟨.CX, 32⟩)  -- 465: MOVUPD X3, 32(CX)
  , .i (.st .x 4 ⟨.CX, 48⟩)  -- 466: MOVUPD X4, 48(CX)
  , .i (.addQ 64 .AX)  -- 467: ADDQ $0x00000040, AX
  , .i (.addQ 64 .CX)  -- 468: ADDQ $0x00000040, CX
  , .i (.subQ 8 .DX)  -- 469: SUBQ $0x00000008, DX
  , .jmp .unrolledLoop4  -- 470: JMP unrolledLoop4
  , .label .unrolledLoop1  -- 472: unrolledLoop1:
  , .i (.cmpQ .DX 2)  -- 473: CMPQ DX, $0x00000002
  , .jcc .l .tailLoop  -- 474: JL tailLoop
  , .i (.ld false .x ⟨.AX, 0⟩ 1)  -- 475: MOVUPD (AX), X1
  , .i (.op2 .add .x (.v 0) 1)  -- 476: ADDPD X0, X1
  , .i (.st .x 1 ⟨.CX, 0⟩)  -- 477: MOVUPD X1, (CX)
  , .i (.addQ 16 .AX)  -- 478: ADDQ $0x00000010, AX
  , .i (.addQ 16 .CX)  -- 479: ADDQ $0x00000010, CX
  , .i (.subQ 2 .DX)  -- 480: SUBQ $0x00000002, DX
  , .jmp .unrolledLoop1  -- 481: JMP unrolledLoop1
  , .label .tailLoop  -- 483: tailLoop:
  , .i (.cmpQ .DX 0)  -- 484: CMPQ DX, $0x00000000
  , .jcc .z .end_  -- 485: JE end
  , .i (.ld false .s ⟨.AX, 0⟩ 1)  -- 486: MOVSD (AX), X1
  , .i (.op2 .add .s (.v 0) 1)  -- 487: ADDSD X0, X1
  , .i (.st .s 1 ⟨.CX, 0⟩)  -- 488: MOVSD X1, (CX)
  , .i (.addQ 8 .AX)  -- 489: ADDQ $0x00000008, AX
  , .i (.addQ 8 .CX)  -- 490: ADDQ $0x00000008, CX
  , .i (.decQ .DX)  -- 491: DECQ DX
  , .jmp .tailLoop  -- 492: JMP tailLoop
  , .label .end_  -- 494: end:
  , .ret  -- 495: RET
]

/-- `MulConstAVX32`, mat/internal/matfuncs/mulconst_amd64.s from line 9. -/
def mulConstAVX32 : List Line := [
  .i (.argF 0 0)  -- 10: MOVSS c+0(FP), X0
  , .i (.argQ 8 .AX)  -- 11: MOVQ x_base+8(FP), AX
  , .i (.argQ 32 .CX)  -- 12: MOVQ y_base+32(FP), CX
  , .i (.argQ 16 .DX)  -- 13: MOVQ x_len+16(FP), DX
  , .i (.bcast 0 1)  -- 14: VBROADCASTSS X0, Y1
  , .label .unrolledLoop14  -- 16: unrolledLoop14:
  , .i (.cmpQ .DX 112)  -- 17: CMPQ DX, $0x00000070
  , .jcc .l .unrolledLoop8  -- 18: JL unrolledLoop8
  , .i (.op3 .mul .y (.m ⟨.AX, 0⟩) 1 2)  -- 19: VMULPS (AX), Y1, Y2
  , .i (.op3 .mul .y (.m ⟨.AX, 32⟩) 1 3)  -- 20: VMULPS 32(AX), Y1, Y3
  , .i (.op3 .mul .y (.m ⟨.AX, 64⟩) 1 4)  -- 21: VMULPS 64(AX), Y1, Y4
  , .i (.op3 .mul .y (.m ⟨.AX, 96⟩) 1 5)  -- 22: VMULPS 96(AX), Y1, Y5
  , .i (.op3 .mul .y (.m ⟨.AX, 128⟩) 1 6)  -- 23: VMULPS 128(AX), Y1, Y6
  , .i (.op3 .mul .y (.m ⟨.AX, 160⟩) 1 7)  -- 24: VMULPS 160(AX), Y1, Y7
  , .i (.op3 .mul .y (.m ⟨.AX, 192⟩) 1 8)  -- 25: VMULPS 192(AX), Y1, Y8
  , .i (.op3 .mul .y (.m ⟨.AX, 224⟩) 1 9)  -- 26: VMULPS 224(AX), Y1, Y9
  , .i (.op3 .mul .y (.m ⟨.AX, 256⟩) 1 10)  -- 27: VMULPS 256(AX), Y1, Y10
  , .i (.op3 .mul .y (.m ⟨.AX, 288⟩) 1 11)  -- 28: VMULPS 288(AX), Y1, Y11
  , .i (.op3 .mul .y (.m ⟨.AX, 320⟩) 1 12)  -- 29: VMULPS 320(AX), Y1, Y12
  , .i (.op3 .mul .y (.m ⟨.AX, 352⟩) 1 13)  -- 30: VMULPS 352(AX), Y1, Y13
  , .i (.op3 .mul .y (.m ⟨.AX, 384⟩) 1 14)  -- 31: VMULPS 384(AX), Y1, Y14
  , .i (.op3 .mul .y (.m ⟨.AX, 416⟩) 1 15)  -- 32: VMULPS 416(AX), Y1, Y15
  , .i (.st .y 2 ⟨.CX, 0⟩)  -- 33: VMOVUPS Y2, (CX)
  , .i (.st .y 3 ⟨.CX, 32⟩)  -- 34: VMOVUPS Y3, 32(CX)
  , .i (.st .y 4 ⟨.CX, 64⟩)  -- 35: VMOVUPS Y4, 64(CX)
  , .i (.st .y 5 ⟨.CX, 96⟩)  -- 36: VMOVUPS Y5, 96(CX)
  , .i (.st .y 6 ⟨.CX, 128⟩)  -- 37: VMOVUPS Y6, 128(CX)
  , .i (.st .y 7 ⟨.CX, 160⟩)  -- 38: VMOVUPS Y7, 160(CX)
  , .i (.st .y 8 ⟨.CX, 192⟩)  -- 39: VMOVUPS Y8, 192(CX)
  , .i (.st .y 9 ⟨.CX, 224⟩)  -- 40: VMOVUPS Y9, 224(CX)
  , .i (.st .y 10 ⟨.CX, 256⟩)  -- 41: VMOVUPS Y10, 256(CX)
  , .i (.st .y 11 ⟨.CX, 288⟩)  -- 42: VMOVUPS Y11, 288(CX)
  , .i (.st .y 12 ⟨.CX, 320⟩)  -- 43: VMOVUPS Y12, 320(CX)
  , .i (.st .y 13 ⟨.CX, 352⟩)  -- 44: VMOVUPS Y13, 352(CX)
  , .i (.st .y 14 ⟨.CX, 384⟩)  -- 45: VMOVUPS Y14, 384(CX)
  , .i (.st .y 15 ⟨.CX, 416⟩)  -- 46: VMOVUPS Y15, 416(CX)
  , .i (.addQ 448 .AX)  -- 47: ADDQ $0x000001c0, AX
  , .i (.addQ 448 .CX)  -- 48: ADDQ $0x000001c0, CX
  , .i (.subQ 112 .DX)  -- 49: SUBQ $0x00000070, DX
  , .jmp .unrolledLoop14  -- 50: JMP unrolledLoop14
  , .label .unrolledLoop8  -- 52: unrolledLoop8:
  , .i (.cmpQ .DX 64)  -- 53: CMPQ DX, $0x00000040
  , .jcc .l .unrolledLoop4  -- 54: JL unrolledLoop4
  , .i (.op3 .mul .y (.m ⟨.AX, 0⟩) 1 2)  -- 55: VMULPS (AX), Y1, Y2
  , .i (.op3 .mul .y (.m ⟨.AX, 32⟩) 1 3)  -- 56: VMULPS 32(AX), Y1, Y3
  , .i (.op3 .mul .y (.m ⟨.AX, 64⟩) 1 4)  -- 57: VMULPS 64(AX), Y1, Y4
  , .i (.op3 .mul .y (.m ⟨.AX, 96⟩) 1 5)  -- 58: VMULPS 96(AX), Y1, Y5
  , .i (.op3 .mul .y (.m ⟨.AX, 128⟩) 1 6)  -- 59: VMULPS 128(AX), Y1, Y6
  , .i (.op3 .mul .y (.m ⟨.AX, 160⟩) 1 7)  -- 60: VMULPS 160(AX), Y1, Y7
  , .i (.op3 .mul .y (.m ⟨.AX, 192⟩) 1 8)  -- 61: VMULPS 192(AX), Y1, Y8
  , .i (.op3 .mul .y (.m ⟨.AX, 224⟩) 1 9)  -- 62: VMULPS 224(AX), Y1, Y9
  , .i (.st .y 2 ⟨.CX, 0⟩)  -- 63: VMOVUPS Y2, (CX)
  , .i (.st .y 3 ⟨.CX, 32⟩)  -- 64: VMOVUPS Y3, 32(CX)
  , .i (.st .y 4 ⟨.CX, 64⟩)  -- 65: VMOVUPS Y4, 64(CX)
  , .i (.st .y 5 ⟨.CX, 96⟩)  -- 66: VMOVUPS Y5, 96(CX)
  , .i (.st .y 6 ⟨.CX, 128⟩)  -- 67: VMOVUPS Y6, 128(CX)
  , .i (.st .y 7 ⟨.CX, 160⟩)  -- 68: VMOVUPS Y7, 160(CX)
  , .i (.st .y 8 ⟨.CX, 192⟩)  -- 69: VMOVUPS Y8, 192(CX)
  , .i (.st .y 9 ⟨.CX, 224⟩)  -- 70: VMOVUPS Y9, 224(CX)
  , .i (.addQ 256 .AX)  -- 71: ADDQ $0x00000100, AX
  , .i (.addQ 256 .CX)  -- 72: ADDQ $0x00000100, CX
  , .i (.subQ 64 .DX)  -- 73: SUBQ $0x00000040, DX
  , .jmp .unrolledLoop8  -- 74: JMP unrolledLoop8
  , .label .unrolledLoop4  -- 76: unrolledLoop4:
  , .i (.cmpQ .DX 32)  -- 77: CMPQ DX, $0x00000020
  , .jcc .l .unrolledLoop1  -- 78: JL unrolledLoop1
  , .i (.op3 .mul .y (.m ⟨.AX, 0⟩) 1 2)  -- 79: VMULPS (AX), Y1, Y2
  , .i (.op3 .mul .y (.m ⟨.AX, 32⟩) 1 3)  -- 80: VMULPS 32(AX), Y1, Y3
  , .i (.op3 .mul .y (.m ⟨.AX, 64⟩) 1 4)  -- 81: VMULPS 64(AX), Y1, Y4
  , .i (.op3 .mul .y (.m ⟨.AX, 96⟩) 1 5)  -- 82: VMULPS 96(AX), Y1, Y5
  , .i (.st .y 2 ⟨.CX, 0⟩)  -- 83: VMOVUPS Y2, (CX)
  , .i (.st .y 3 ⟨.CX, 32⟩)  -- 84: VMOVUPS Y3, 32(CX)
  , .i (.st .y 4 ⟨.CX, 64⟩)  -- 85: VMOVUPS Y4, 64(CX)
  , .i (.st .y 5 ⟨.CX, 96⟩)  -- 86: VMOVUPS Y5, 96(CX)
  , .i (.addQ 128 .AX)  -- 87: ADDQ $0x00000080, AX
  , .i (.addQ 128 .CX)  -- 88: ADDQ $0x00000080, CX
  , .i (.subQ 32 .DX)  -- 89: SUBQ $0x00000020, DX
  , .jmp .unrolledLoop4  -- 90: JMP unrolledLoop4
  , .label .unrolledLoop1  -- 92: unrolledLoop1:
  , .i (.cmpQ .DX 8)  -- 93: CMPQ DX, $0x00000008
  , .jcc .l .tailLoop  -- 94: JL tailLoop
  , .i (.op3 .mul .y (.m ⟨.AX, 0⟩) 1 2)  -- 95: VMULPS (AX), Y1, Y2
  , .i (.st .y 2 ⟨.CX, 0⟩)  -- 96: VMOVUPS Y2, (CX)
  , .i (.addQ 32 .AX)  -- 97: ADDQ $0x00000020, AX
  , .i (.addQ 32 .CX)  -- 98: ADDQ $0x00000020, CX
  , .i (.subQ 8 .DX)  -- 99: SUBQ $0x00000008, DX
  , .jmp .unrolledLoop1  -- 100: JMP unrolledLoop1
  , .label .tailLoop  -- 102: tailLoop:
  , .i (.cmpQ .DX 0)  -- 103: CMPQ DX, $0x00000000
  , .jcc .z .end_  -- 104: JE end
  , .i (.ld false .s ⟨.AX, 0⟩ 1)  -- 105: MOVSS (AX), X1
  , .i (.op2 .mul .s (.v 0) 1)  -- 106: MULSS X0, X1
  , .i (.st .s 1 ⟨.CX, 0⟩)  -- 107: MOVSS X1, (CX)
  , .i (.addQ 4 .AX)  -- 108: ADDQ $0x00000004, AX
  , .i (.addQ 4 .CX)  -- 109: ADDQ $0x00000004, CX
  , .i (.decQ .DX)  -- 110: DECQ DX
  , .jmp .tailLoop  -- 111: JMP tailLoop
  , .label .end_  -- 113: end:
  , .ret  -- 114: RET
]

/-- `MulConstAVX64`, mat/internal/matfuncs/mulconst_amd64.s from line 118. -/
def mulConstAVX64 : List Line := [
  .i (.argF 0 0)  -- 119: MOVSD c+0(FP), X0
  , .i (.argQ 8 .AX)  -- 120: MOVQ x_base+8(FP), AX
  , .i (.argQ 32 .CX)  -- 121: MOVQ y_base+32(FP), CX
  , .i (.argQ 16 .DX)  -- 122: MOVQ x_len+16(FP), DX
  , .i (.bcast 0 1)  -- 123: VBROADCASTSD X0, Y1
  , .label .unrolledLoop14  -- 125: unrolledLoop14:
  , .i (.cmpQ .DX 56)  -- 126: CMPQ DX, $0x00000038
  , .jcc .l .unrolledLoop8  -- 127: JL unrolledLoop8
  , .i (.op3 .mul .y (.m ⟨.AX, 0⟩) 1 2)  -- 128: VMULPD (AX), Y1, Y2
  , .i (.op3 .mul .y (.m ⟨.AX, 32⟩) 1 3)  -- 129: VMULPD 32(AX), Y1, Y3
  , .i (.op3 .mul .y (.m ⟨.AX, 64⟩) 1 4)  -- 130: VMULPD 64(AX), Y1, Y4
  , .i (.op3 .mul .y (.m ⟨.AX, 96⟩) 1 5)  -- 131: VMULPD 96(AX), Y1, Y5
  , .i (.op3 .mul .y (.m ⟨.AX, 128⟩) 1 6)  -- 132: VMULPD 128(AX), Y1, Y6
  , .i (.op3 .mul .y (.m ⟨.AX, 160⟩) 1 7)  -- 133: VMULPD 160(AX), Y1, Y7
  , .i (.op3 .mul .y (.m ⟨.AX, 192⟩) 1 8)  -- 134: VMULPD 192(AX), Y1, Y8
  , .i (.op3 .mul .y (.m ⟨.AX, 224⟩) 1 9)  -- 135: VMULPD 224(AX), Y1, Y9
  , .i (.op3 .mul .y (.m ⟨.AX, 256⟩) 1 10)  -- 136: VMULPD 256(AX), Y1, Y10
  , .i (.op3 .mul .y (.m ⟨.AX, 288⟩) 1 11)  -- 137: VMULPD 288(AX), Y1, Y11
  , .i (.op3 .mul .y (.m ⟨.AX, 320⟩) 1 12)  -- 138: VMULPD 320(AX), Y1, Y12
  , .i (.op3 .mul .y (.m ⟨.AX, 352⟩) 1 13)  -- 139: VMULPD 352(AX), Y1, Y13
  , .i (.op3 .mul .y (.m ⟨.AX, 384⟩) 1 14)  -- 140: VMULPD 384(AX), Y1, Y14
  , .i (.op3 .mul .y (.m ⟨.AX, 416⟩) 1 15)  -- 141: VMULPD 416(AX), Y1, Y15
  , .i (.st .y 2 ⟨.CX, 0⟩)  -- 142: VMOVUPD Y2, (CX)
  , .i (.st .y 3 ⟨.CX, 32⟩)  -- 143: VMOVUPD Y3, 32(CX)
  , .i (.st .y 4 ⟨.CX, 64⟩)  -- 144: VMOVUPD Y4, 64(CX)
  , .i (.st .y 5 ⟨.CX, 96⟩)  -- 145: VMOVUPD Y5, 96(CX)
  , .i (.st .y 6 ⟨.CX, 128⟩)  -- 146: VMOVUPD Y6, 128(CX)
  , .i (.st .y 7 ⟨.CX, 160⟩)  -- 147: VMOVUPD Y7, 160(CX)
  , .i (.st .y 8 ⟨.CX, 192⟩)  -- 148: VMOVUPD Y8, 192(CX)
  , .i (.st .y 9 ⟨.CX, 224⟩)  -- 149: VMOVUPD Y9, 224(CX)
  , .i (.st .y 10 ⟨.CX, 256⟩)  -- 150: VMOVUPD Y10, 256(CX)
  , .i (.st .y 11 ⟨.CX, 288⟩)  -- 151: VMOVUPD Y11, 288(CX)
  , .i (.st .y 12 ⟨.CX, 320⟩)  -- 152: VMOVUPD Y12, 320(CX)
  , .i (.st .y 13 ⟨.CX, 352⟩)  -- 153: VMOVUPD Y13, 352(CX)
  , .i (.st .y 14 ⟨.CX, 384⟩)  -- 154: VMOVUPD Y14, 384(CX)
  , .i (.st .y 15 ⟨.CX, 416⟩)  -- 155: VMOVUPD Y15, 416(CX)
  , .i (.addQ 448 .AX)  -- 156: ADDQ $0x000001c0, AX
  , .i (.addQ 448 .CX)  -- 157: ADDQ $0x000001c0, CX
  , .i (.subQ 56 .DX)  -- 158: SUBQ $0x00000038, DX
  , .jmp .unrolledLoop14  -- 159: JMP unrolledLoop14
  , .label .unrolledLoop8  -- 161: unrolledLoop8:
  , .i (.cmpQ .DX 32)  -- 162: CMPQ DX, $0x00000020
  , .jcc .l .unrolledLoop4  -- 163: JL unrolledLoop4
  , .i (.op3 .mul .y (.m ⟨.AX, 0⟩) 1 2)  -- 164: VMULPD (AX), Y1, Y2
  , .i (.op3 .mul .y (.m ⟨.AX, 32⟩) 1 3)  -- 165: VMULPD 32(AX), Y1, Y3
  , .i (.op3 .mul .y (.m ⟨.AX, 64⟩) 1 4)  -- 166: VMULPD 64(AX), Y1, Y4
  , .i (.op3 .mul .y (.m ⟨.AX, 96⟩) 1 5)  -- 167: VMULPD 96(AX), Y1, Y5
  , .i (.op3 .mul .y (.m ⟨.AX, 128⟩) 1 6)  -- 168: VMULPD 128(AX), Y1, Y6
  , .i (.op3 .mul .y (.m ⟨.AX, 160⟩) 1 7)  -- 169: VMULPD 160(AX), Y1, Y7
  , .i (.op3 .mul .y (.m ⟨.AX, 192⟩) 1 8)  -- 170: VMULPD 192(AX), Y1, Y8
  , .i (.op3 .mul .y (.m ⟨.AX, 224⟩) 1 9)  -- 171: VMULPD 224(AX), Y1, Y9
  , .i (.st .y 2 ⟨.CX, 0⟩)  -- 172: VMOVUPD Y2, (CX)
  , .i (.st .y 3 ⟨.CX, 32⟩)  -- 173: VMOVUPD Y3, 32(CX)
  , .i (.st .y 4 ⟨.CX, 64⟩)  -- 174: VMOVUPD Y4, 64(CX)
  , .i (.st .y 5 ⟨.CX, 96⟩)  -- 175: VMOVUPD Y5, 96(CX)
  , .i (.st .y 6 ⟨.CX, 128⟩)  -- 176: VMOVUPD Y6, 128(CX)
  , .i (.st .y 7 ⟨.CX, 160⟩)  -- 177: VMOVUPD Y7, 160(CX)
  , .i (.st .y 8 ⟨.CX, 192⟩)  -- 178: VMOVUPD Y8, 192(CX)
  , .i (.st .y 9 ⟨.CX, 224⟩)  -- 179: VMOVUPD Y9, 224(CX)
  , .i (.addQ 256 .AX)  -- 180: ADDQ $0x00000100, AX
  , .i (.addQ 256 .CX)  -- 181: ADDQ $0x00000100, CX
  , .i (.subQ 32 .DX)  -- 182: SUBQ $0x00000020, DX
  , .jmp .unrolledLoop8  -- 183: JMP unrolledLoop8
  , .label .unrolledLoop4  -- 185: unrolledLoop4:
  , .i (.cmpQ .DX 16)  -- 186: CMPQ DX, $0x00000010
  , .jcc .l .unrolledLoop1  -- 187: JL unrolledLoop1
  , .i (.op3 .mul .y (.m ⟨.AX, 0⟩) 1 2)  -- 188: VMULPD (AX), Y1, Y2
  , .i (.op3 .mul .y (.m ⟨.AX, 32⟩) 1 3)  -- 189: VMULPD 32(AX), Y1, Y3
  , .i (.op3 .mul .y (.m ⟨.AX, 64⟩) 1 4)  -- 190: VMULPD 64(AX), Y1, Y4
  , .i (.op3 .mul .y (.m ⟨.AX, 96⟩) 1 5)  -- 191: VMULPD 96(AX), Y1, Y5
  , .i (.st .y 2 ⟨.CX, 0⟩)  -- 192: VMOVUPD Y2, (CX)
  , .i (.st .y 3 ⟨.CX, 32⟩)  -- 193: VMOVUPD Y3, 32(CX)
  , .i (.st .y 4 ⟨.CX, 64⟩)  -- 194: VMOVUPD Y4, 64(CX)
  , .i (.st .y 5 ⟨.CX, 96⟩)  -- 195: VMOVUPD Y5, 96(CX)
  , .i (.addQ 128 .AX)  -- 196: ADDQ $0x00000080, AX
  , .i (.addQ 128 .CX)  -- 197: ADDQ $0x00000080, CX
  , .i (.subQ 16 .DX)  -- 198: SUBQ $0x00000010, DX
  , .jmp .unrolledLoop4  -- 199: JMP unrolledLoop4
  , .label .unrolledLoop1  -- 201: unrolledLoop1:
  , .i (.cmpQ .DX 4)  -- 202: CMPQ DX, $0x00000004
  , .jcc .l .tailLoop  -- 203: JL tailLoop
  , .i (.op3 .mul .y (.m ⟨.AX, 0⟩) 1 2)  -- 204: VMULPD (AX), Y1, Y2
  , .i (.st .y 2 ⟨.CX, 0⟩)  -- 205: VMOVUPD Y2, (CX)
  , .i (.addQ 32 .AX)  -- 206: ADDQ $0x00000020, AX
  , .i (.addQ 32 .CX)  -- 207: ADDQ $0x00000020, CX
  , .i (.subQ 4 .DX)  -- 208: SUBQ $0x00000004, DX
  , .jmp .unrolledLoop1  -- 209: JMP unrolledLoop1
  , .label .tailLoop  -- 211: tailLoop:
  , .i (.cmpQ .DX 0)  -- 212: CMPQ DX, $0x00000000
  , .jcc .z .end_  -- 213: JE end
  , .i (.ld false .s ⟨.AX, 0⟩ 1)  -- 214: MOVSD (AX), X1
  , .i (.op2 .mul .s (.v 0) 1)  -- 215: MULSD X0, X1
  , .i (.st .s 1 ⟨.CX, 0⟩)  -- 216: MOVSD X1, (CX)
  , .i (.addQ 8 .AX)  -- 217: ADDQ $0x00000008, AX
  , .i (.addQ 8 .CX)  -- 218: ADDQ $0x00000008, CX
  , .i (.decQ .DX)  -- 219: DECQ DX
  , .jmp .tailLoop  -- 220: JMP tailLoop
  , .label .end_  -- 222: end:
  , .ret  -- 223: RET
]

/-- `MulConstSSE32`, mat/internal/matfuncs/mulconst_amd64.s from line 227. -/
def mulConstSSE32 : List Line := [
  .i (.argF 0 0)  -- 228: MOVSS c+0(FP), X0
  , .i (.argQ 8 .AX)  -- 229: MOVQ x_base+8(FP), AX
  , .i (.argQ 32 .CX)  -- 230: MOVQ y_base+32(FP), CX
  , .i (.argQ 16 .DX)  -- 231: MOVQ x_len+16(FP), DX
  , .i (.shuf0 0)  -- 232: SHUFPS $0x00, X0, X0
  , .label .unrolledLoop14  -- 234: unrolledLoop14:
  , .i (.cmpQ .DX 56)  -- 235: CMPQ DX, $0x00000038
  , .jcc .l .unrolledLoop8  -- 236: JL unrolledLoop8
  , .i (.ld false .x ⟨.AX, 0⟩ 1)  -- 237: MOVUPS (AX), X1
  , .i (.ld false .x ⟨.AX, 16⟩ 2)  -- 238: MOVUPS 16(AX), X2
  , .i (.ld false .x ⟨.AX, 32⟩ 3)  -- 239: MOVUPS 32(AX), X3
  , .i (.ld false .x ⟨.AX, 48⟩ 4)  -- 240: MOVUPS 48(AX), X4
  , .i (.ld false .x ⟨.AX, 64⟩ 5)  -- 241: MOVUPS 64(AX), X5
  , .i (.ld false .x ⟨.AX, 80⟩ 6)  -- 242: MOVUPS 80(AX), X6
  , .i (.ld false .x ⟨.AX, 96⟩ 7)  -- 243: MOVUPS 96(AX), X7
  , .i (.ld false .x ⟨.AX, 112⟩ 8)  -- 244: MOVUPS 112(AX), X8
  , .i (.ld false .x ⟨.AX, 128⟩ 9)  -- 245: MOVUPS 128(AX), X9
  , .i (.ld false .x ⟨.AX, 144⟩ 10)  -- 246: MOVUPS 144(AX), X10
  , .i (.ld false .x ⟨.AX, 160⟩ 11)  -- 247: MOVUPS 160(AX), X11
  , .i (.ld false .x ⟨.AX, 176⟩ 12)  -- 248: MOVUPS 176(AX), X12
  , .i (.ld false .x ⟨.AX, 192⟩ 13)  -- 249: MOVUPS 192(AX), X13
  , .i (.ld false .x ⟨.AX, 208⟩ 14)  -- 250: MOVUPS 208(AX), X14
  , .i (.op2 .mul .x (.v 0) 1)  -- 251: MULPS X0, X1
  , .i (.op2 .mul .x (.v 0) 2)  -- 252: MULPS X0, X2
  , .i (.op2 .mul .x (.v 0) 3)  -- 253: MULPS X0, X3
  , .i (.op2 .mul .x (.v 0) 4)  -- 254: MULPS X0, X4
  , .i (.op2 .mul .x (.v 0) 5)  -- 255: MULPS X0, X5
  , .i (.op2 .mul .x (.v 0) 6)  -- 256: MULPS X0, X6
  , .i (.op2 .mul .x (.v 0) 7)  -- 257: MULPS X0, X7
  , .i (.op2 .mul .x (.v 0) 8)  -- 258: MULPS X0, X8
  , .i (.op2 .mul .x (.v 0) 9)  -- 259: MULPS X0, X9
  , .i (.op2 .mul .x (.v 0) 10)  -- 260: MULPS X0, X10
  , .i (.op2 .mul .x (.v 0) 11)  -- 261: MULPS X0, X11
  , .i (.op2 .mul .x (.v 0) 12)  -- 262: MULPS X0, X12
  , .i (.op2 .mul .x (.v 0) 13)  -- 263: MULPS X0, X13
  , .i (.op2 .mul .x (.v 0) 14)  -- 264: MULPS X0, X14
  , .i (.st .x 1 ⟨.CX, 0⟩)  -- 265: MOVUPS X1, (CX)
  , .i (.st .x 2 ⟨.CX, 16⟩)  -- 266: MOVUPS X2, 16(CX)
  , .i (.st .x 3 ⟨.CX, 32⟩)  -- 267: MOVUPS X3, 32(CX)
  , .i (.st .x 4 ⟨.CX, 48⟩)  -- 268: MOVUPS X4, 48(CX)
  , .i (.st .x 5 ⟨.CX, 64⟩)  -- 269: MOVUPS X5, 64(CX)
  , .i (.st .x 6 ⟨.CX, 80⟩)  -- 270: MOVUPS X6, 80(CX)
  , .i (.st .x 7 ⟨.CX, 96⟩)  -- 271: MOVUPS X7, 96(CX)
  , .i (.st .x 8 ⟨.CX, 112⟩)  -- 272: MOVUPS X8, 112(CX)
  , .i (.st .x 9 ⟨.CX, 128⟩)  -- 273: MOVUPS X9, 128(CX)
  , .i (.st .x 10 ⟨.CX, 144⟩)  -- 274: MOVUPS X10, 144(CX)
  , .i (.st .x 11 ⟨.CX, 160⟩)  -- 275: MOVUPS X11, 160(CX)
  , .i (.st .x 12 ⟨.CX, 176⟩)  -- 276: MOVUPS X12, 176(CX)
  , .i (.st .x 13 ⟨.CX, 192⟩)  -- 277: MOVUPS X13, 192(CX)
  , .i (.st .x 14 ⟨.CX, 208⟩)  -- 278: MOVUPS X14, 208(CX)
  , .i (.addQ 224 .AX)  -- 279: ADDQ $0x000000e0, AX
  , .i (.addQ 224 .CX)  -- 280: ADDQ $0x000000e0, CX
  , .i (.subQ 56 .DX)  -- 281: SUBQ $0x00000038, DX
  , .jmp .unrolledLoop14  -- 282: JMP unrolledLoop14
  , .label .unrolledLoop8  -- 284: unrolledLoop8:
  , .i (.cmpQ .DX 32)  -- 285: CMPQ DX, $0x00000020
  , .jcc .l .unrolledLoop4  -- 286: JL unrolledLoop4
  , .i (.ld false .x ⟨.AX, 0⟩ 1)  -- 287: MOVUPS (AX), X1
  , .i (.ld false .x ⟨.AX, 16⟩ 2)  -- 288: MOVUPS 16(AX), X2
  , .i (.ld false .x ⟨.AX, 32⟩ 3)  -- 289: MOVUPS 32(AX), X3
  , .i (.ld false .x ⟨.AX, 48⟩ 4)  -- 290: MOVUPS 48(AX), X4
  , .i (.ld false .x ⟨.AX, 64⟩ 5)  -- 291: MOVUPS 64(AX), X5
  , .i (.ld false .x ⟨.AX, 80⟩ 6)  -- 292: MOVUPS 80(AX), X6
  , .i (.ld false .x ⟨.AX, 96⟩ 7)  -- 293: MOVUPS 96(AX), X7
  , .i (.ld false .x ⟨.AX, 112⟩ 8)  -- 294: MOVUPS 112(AX), X8
  , .i (.op2 .mul .x (.v 0) 1)  -- 295: MULPS X0, X1
  , .i (.op2 .mul .x (.v 0) 2)  -- 296: MULPS X0, X2
  , .i (.op2 .mul .x (.v 0) 3)  -- 297: MULPS X0, X3
  , .i (.op2 .mul .x (.v 0) 4)  -- 298: MULPS X0, X4
  , .i (.op2 .mul .x (.v 0) 5)  -- 299: MULPS X0, X5
  , .i (.op2 .mul .x (.v 0) 6)  -- 300: MULPS X0, X6
  , .i (.op2 .mul .x (.v 0) 7)  -- 301: MULPS X0, X7
  , .i (.op2 .mul .x (.v 0) 8)  -- 302: MULPS X0, X8
  , .i (.st .x 1 ⟨.CX, 0⟩)  -- 303: MOVUPS X1, (CX)
  , .i (.st .x 2 ⟨.CX, 16⟩)  -- 304: MOVUPS X2, 16(CX)
  , .i (.st .x 3 ⟨.CX, 32⟩)  -- 305: MOVUPS X3, 32(CX)
  , .i (.st .x 4 ⟨.CX, 48⟩)  -- 306: MOVUPS X4, 48(CX)
  , .i (.st .x 5 ⟨.CX, 64⟩)  -- 307: MOVUPS X5, 64(CX)
  , .i (.st .x 6 ⟨.CX, 80⟩)  -- 308: MOVUPS X6, 80(CX)
  , .i (.st .x 7 ⟨.CX, 96⟩)  -- 309: MOVUPS X7, 96(CX)
  , .i (.st .x 8 ⟨.CX, 112⟩)  -- 310: MOVUPS X8, 112(CX)
  , .i (.addQ 128 .AX)  -- 311: ADDQ $0x00000080, AX
  , .i (.addQ 128 .CX)  -- 312: ADDQ $0x00000080, CX
  , .i (.subQ 32 .DX)  -- 313: SUBQ $0x00000020, DX
  , .jmp .unrolledLoop8  -- 314: JMP unrolledLoop8
  , .label .unrolledLoop4  -- 316: unrolledLoop4:
  , .i (.cmpQ .DX 16)  -- 317: CMPQ DX, $0x00000010
  , .jcc .l .unrolledLoop1  -- 318: JL unrolledLoop1
  , .i (.ld false .x ⟨.AX, 0⟩ 1)  -- 319: MOVUPS (AX), X1
  , .i (.ld false .x ⟨.AX, 16⟩ 2)  -- 320: MOVUPS 16(AX), X2
  , .i (.ld false .x ⟨.AX, 32⟩ 3)  -- 321: MOVUPS 32(AX), X3
  , .i (.ld false .x ⟨.AX, 48⟩ 4)  -- 322: MOVUPS 48(AX), X4
  , .i (.op2 .mul .x (.v 0) 1)  -- 323: MULPS X0, X1
  , .i (.op2 .mul .x (.v 0) 2)  -- 324: MULPS X0, X2
  , .i (.op2 .mul .x (.v 0) 3)  -- 325: MULPS X0, X3
  , .i (.op2 .mul .x (.v 0) 4)  -- 326: MULPS X0, X4
  , .i (.st .x 1 ⟨.CX, 0⟩)  -- 327: MOVUPS X1, (CX)
  , .i (.st .x 2 ⟨.CX, 16⟩)  -- 328: MOVUPS X2, 16(CX)
  , .i (.st .x 3 ⟨.CX, 32⟩)  -- 329: MOVUPS X3, 32(CX)
  , .i (.st .x 4 ⟨.CX, 48⟩)  -- 330: MOVUPS X4, 48(CX)
  , .i (.addQ 64 .AX)  -- 331: ADDQ $0x00000040, AX
  , .i (.addQ 64 .CX)  -- 332: ADDQ $0x00000040, CX
  , .i (.subQ 16 .DX)  -- 333: SUBQ $0x00000010, DX
  , .jmp .unrolledLoop4  -- 334: JMP unrolledLoop4
  , .label .unrolledLoop1  -- 336: unrolledLoop1:
  , .i (.cmpQ .DX 4)  -- 337: CMPQ DX, $0x00000004
  , .jcc .l .tailLoop  -- 338: JL tailLoop
  , .i (.ld false .x ⟨.AX, 0⟩ 1)  -- 339: MOVUPS (AX), X1
  , .i (.op2 .mul .x (.v 0) 1)  -- 340: MULPS X0, X1
  , .i (.st .x 1 ⟨.CX, 0⟩)  -- 341: MOVUPS X1, (CX)
  , .i (.addQ 16 .AX)  -- 342: ADDQ $0x00000010, AX
  , .i (.addQ 16 .CX)  -- 343: ADDQ $0x00000010, CX
  , .i (.subQ 4 .DX)  -- 344: SUBQ $0x00000004, DX
  , .jmp .unrolledLoop1  -- 345: JMP unrolledLoop1
  , .label .tailLoop  -- 347: tailLoop:
  , .i (.cmpQ .DX 0)  -- 348: CMPQ DX, $0x00000000
  , .jcc .z .end_  -- 349: JE end
  , .i (.ld false .s ⟨.AX, 0⟩ 1)  -- 350: MOVSS (AX), X1
  , .i (.op2 .mul .s (.v 0) 1)  -- 351: MULSS X0, X1
  , .i (.st .s 1 ⟨.CX, 0⟩)  -- 352: MOVSS X1, (CX)
  , .i (.addQ 4 .AX)  -- 353: ADDQ $0x00000004, AX
  , .i (.addQ 4 .CX)  -- 354: ADDQ $0x00000004, CX
  , .i (.decQ .DX)  -- 355: DECQ DX
  , .jmp .tailLoop  -- 356: JMP tailLoop
  , .label .end_  -- 358: end:
  , .ret  -- 359: RET
]

/-- `MulConstSSE64`, mat/internal/matfuncs/mulconst_amd64.s from line 363. -/
def mulConstSSE64 : List Line := [
  .i (.argF 0 0)  -- 364: MOVSD c+0(FP), X0
  , .i (.argQ 8 .AX)  -- 365: MOVQ x_base+8(FP), AX
  , .i (.argQ 32 .CX)  -- 366: MOVQ y_base+32(FP), CX
  , .i (.argQ 16 .DX)  -- 367: MOVQ x_len+16(FP), DX
  , .i (.shuf0 0)  -- 368: SHUFPD $0x00, X0, X0
  , .label .unrolledLoop14  -- 370: unrolledLoop14:
  , .i (.cmpQ .DX 28)  -- 371: CMPQ DX, $0x0000001c
  , .jcc .l .unrolledLoop8  -- 372: JL unrolledLoop8
  , .i (.ld false .x ⟨.AX, 0⟩ 1)  -- 373: MOVUPD (AX), X1
  , .i (.ld false .x ⟨.AX, 16⟩ 2)  -- 374: MOVUPD 16(AX), X2
  , .i (.ld false .x ⟨.AX, 32⟩ 3)  -- 375: MOVUPD 32(AX), X3
  , .i (.ld false .x ⟨.AX, 48⟩ 4)  -- 376: MOVUPD 48(AX), X4
  , .i (.ld false .x ⟨.AX, 64⟩ 5)  -- 377: MOVUPD 64(AX), X5
  , .i (.ld false .x ⟨.AX, 80⟩ 6)  -- 378: MOVUPD 80(AX), X6
  , .i (.ld false .x ⟨.AX, 96⟩ 7)  -- 379: MOVUPD 96(AX), X7
  , .i (.ld false .x ⟨.AX, 112⟩ 8)  -- 380: MOVUPD 112(AX), X8
  , .i (.ld false .x ⟨.AX, 128⟩ 9)  -- 381: MOVUPD 128(AX), X9
  , .i (.ld false .x ⟨.AX, 144⟩ 10)  -- 382: MOVUPD 144(AX), X10
  , .i (.ld false .x ⟨.AX, 160⟩ 11)  -- 383: MOVUPD 160(AX), X11
  , .i (.ld false .x ⟨.AX, 176⟩ 12)  -- 384: MOVUPD 176(AX), X12
  , .i (.ld false .x ⟨.AX, 192⟩ 13)  -- 385: MOVUPD 192(AX), X13
  , .i (.ld false .x ⟨.AX, 208⟩ 14)  -- 386: MOVUPD 208(AX), X14
  , .i (.op2 .mul .x (.v 0) 1)  -- 387: MULPD X0, X1
  , .i (.op2 .mul .x (.v 0) 2)  -- 388: MULPD X0, X2
  , .i (.op2 .mul .x (.v 0) 3)  -- 389: MULPD X0, X3
  , .i (.op2 .mul .x (.v 0) 4)  -- 390: MULPD X0, X4
  , .i (.op2 .mul .x (.v 0) 5)  -- 391: MULPD X0, X5
  , .i (.op2 .mul .x (.v 0) 6)  -- 392: MULPD X0, X6
  , .i (.op2 .mul .x (.v 0) 7)  -- 393: MULPD X0, X7
  , .i (.op2 .mul .x (.v 0) 8)  -- 394: MULPD X0, X8
  , .i (.op2 .mul .x (.v 0) 9)  -- 395: MULPD X0, X9
  , .i (.op2 .mul .x (.v 0) 10)  -- 396: MULPD X0, X10
  , .i (.op2 .mul .x (.v 0) 11)  -- 397: MULPD X0, X11
  , .i (.op2 .mul .x (.v 0) 12)  -- 398: MULPD X0, X12
  , .i (.op2 .mul .x (.v 0) 13)  -- 399: MULPD X0, X13
  , .i (.op2 .mul .x (.v 0) 14)  -- 400: MULPD X0, X14
  , .i (.st .x 1 ⟨.CX, 0⟩)  -- 401: MOVUPD X1, (CX)
  , .i (.st .x 2 ⟨.CX, 16⟩)  -- 402: MOVUPD X2, 16(CX)
  , .i (.st .x 3 ⟨.CX, 32⟩)  -- 403: MOVUPD X3, 32(CX)
  , .i (.st .x 4 ⟨.CX, 48⟩)  -- 404: MOVUPD X4, 48(CX)
  , .i (.st .x 5 ⟨.CX, 64⟩)  -- 405: MOVUPD X5, 64(CX)
  , .i (.st .x 6 ⟨.CX, 80⟩)  -- 406: MOVUPD X6, 80(CX)
  , .i (.st .x 7 ⟨.CX, 96⟩)  -- 407: MOVUPD X7, 96(CX)
  , .i (.st .x 8 ⟨.CX, 112⟩)  -- 408: MOVUPD X8, 112(CX)
  , .i (.st .x 9 ⟨.CX, 128⟩)  -- 409: MOVUPD X9, 128(CX)
  , .i (.st .x 10 ⟨.CX, 144⟩)  -- 410: MOVUPD X10, 144(CX)
  , .i (.st .x 11 ⟨.CX, 160⟩)  -- 411: MOVUPD X11, 160(CX)
  , .i (.st .x 12 ⟨.CX, 176⟩)  -- 412: MOVUPD X12, 176(CX)
  , .i (.st .x 13 ⟨.CX, 192⟩)  -- 413: MOVUPD X13, 192(CX)
  , .i (.st .x 14 ⟨.CX, 208⟩)  -- 414: MOVUPD X14, 208(CX)
  , .i (.addQ 224 .AX)  -- 415: ADDQ $0x000000e0, AX
  , .i (.addQ 224 .CX)  -- 416: ADDQ $0x000000e0, CX
  , .i (.subQ 28 .DX)  -- 417: SUBQ $0x0000001c, DX
  , .jmp .unrolledLoop14  -- 418: JMP unrolledLoop14
  , .label .unrolledLoop8  -- 420: unrolledLoop8:
  , .i (.cmpQ .DX 16)  -- 421: CMPQ DX, $0x00000010
  , .jcc .l .unrolledLoop4  -- 422: JL unrolledLoop4
  , .i (.ld false .x ⟨.AX, 0⟩ 1)  -- 423: MOVUPD (AX), X1
  , .i (.ld false .x ⟨.AX, 16⟩ 2)  -- 424: MOVUPD 16(AX), X2
  , .i (.ld false .x ⟨.AX, 32⟩ 3)  -- 425: MOVUPD 32(AX), X3
  , .i (.ld false .x ⟨.AX, 48⟩ 4)  -- 426: MOVUPD 48(AX), X4
  , .i (.ld false .x ⟨.AX, 64⟩ 5)  -- 427: MOVUPD 64(AX), X5
  , .i (.ld false .x ⟨.AX, 80⟩ 6)  -- 428: MOVUPD 80(AX), X6
  , .i (.ld false .x ⟨.AX, 96⟩ 7)  -- 429: MOVUPD 96(AX), X7
  , .i (.ld false .x ⟨.AX, 112⟩ 8)  -- 430: MOVUPD 112(AX), X8
  , .i (.op2 .mul .x (.v 0) 1)  -- 431: MULPD X0, X1
  , .i (.op2 .mul .x (.v 0) 2)  -- 432: MULPD X0, X2
  , .i (.op2 .mul .x (.v 0) 3)  -- 433: MULPD X0, X3
  , .i (.op2 .mul .x (.v 0) 4)  -- 434: MULPD X0, X4
  , .i (.op2 .mul .x (.v 0) 5)  -- 435: MULPD X0, X5
  , .i (.op2 .mul .x (.v 0) 6)  -- 436: MULPD X0, X6
  , .i (.op2 .mul .x (.v 0) 7)  -- 437: MULPD X0, X7
  , .i (.op2 .mul .x (.v 0) 8)  -- 438: MULPD X0, X8
  , .i (.st .x 1 ⟨.CX, 0⟩)  -- 439: MOVUPD X1, (CX)
  , .i (.st .x 2 ⟨.CX, 16⟩)  -- 440: MOVUPD X2, 16(CX)
  , .i (.st .x 3 ⟨.CX, 32⟩)  -- 441: MOVUPD X3, 32(CX)
  , .i (.st .x 4 ⟨.CX, 48⟩)  -- 442: MOVUPD X4, 48(CX)
  , .i (.st .x 5 ⟨.CX, 64⟩)  -- 443: MOVUPD X5, 64(CX)
  , .i (.st .x 6 ⟨.CX, 80⟩)  -- 444: MOVUPD X6, 80(CX)
  , .i (.st .x 7 ⟨.CX, 96⟩)  -- 445: MOVUPD X7, 96(CX)
  , .i (.st .x 8 ⟨.CX, 112⟩)  -- 446: MOVUPD X8, 112(CX)
  , .i (.addQ 128 .AX)  -- 447: ADDQ $0x00000080, AX
  , .i (.addQ 128 .CX)  -- 448: ADDQ $0x00000080, CX
  , .i (.subQ 16 .DX)  -- 449: SUBQ $0x00000010, DX
  , .jmp .unrolledLoop8  -- 450: JMP unrolledLoop8
  , .label .unrolledLoop4  -- 452: unrolledLoop4:
  , .i (.cmpQ .DX 8)  -- 453: CMPQ DX, $0x00000008
  , .jcc .l .unrolledLoop1  -- 454: JL unrolledLoop1
  , .i (.ld false .x ⟨.AX, 0⟩ 1)  -- 455: MOVUPD (AX), X1
  , .i (.ld false .x ⟨.AX, 16⟩ 2)  -- 456: MOVUPD 16(AX), X2
  , .i (.ld false .x ⟨.AX, 32⟩ 3)  -- 457: MOVUPD 32(AX), X3
  , .i (.ld false .x ⟨.AX, 48⟩ 4)  -- 458: MOVUPD 48(AX), X4
  , .i (.op2 .mul .x (.v 0) 1)  -- 459: MULPD X0, X1
  , .i (.op2 .mul .x (.v 0) 2)  -- 460: MULPD X0, X2
  , .i (.op2 .mul .x (.v 0) 3)  -- 461: MULPD X0, X3
  , .i (.op2 .mul .x (.v 0) 4)  -- 462: MULPD X0, X4
  , .i (.st .x 1 ⟨.CX, 0⟩)  -- 463: MOVUPD X1, (CX)
  , .i (.st .x 2 ⟨.CX, 16⟩)  -- 464: MOVUPD X2, 16(CX)
  , .i (.st .x 3 ⟨.CX, 32⟩)  -- 465: MOVUPD X3, 32(CX)
  , .i (.st .x 4 ⟨.CX, 48⟩)  -- 466: MOVUPD X4, 48(CX)
  , .i (.addQ 64 .AX)  -- 467: ADDQ $0x00000040, AX
  , .i (.addQ 64 .CX)  -- 468: ADDQ $0x00000040, CX
  , .i (.subQ 8 .DX)  -- 469: SUBQ $0x00000008, DX
  , .jmp .unrolledLoop4  -- 470: JMP unrolledLoop4
  , .label .unrolledLoop1  -- 472: unrolledLoop1:
  , .i (.cmpQ .DX 2)  -- 473: CMPQ DX, $0x00000002
  , .jcc .l .tailLoop  -- 474: JL tailLoop
  , .i (.ld false .x ⟨.AX, 0⟩ 1)  -- 475: MOVUPD (AX), X1
  , .i (.op2 .mul .x (.v 0) 1)  -- 476: MULPD X0, X1
  , .i (.st .x 1 ⟨.CX, 0⟩)  -- 477: MOVUPD X1, (CX)
  , .i (.addQ 16 .AX)  -- 478: ADDQ $0x00000010, AX
  , .i (.addQ 16 .CX)  -- 479: ADDQ $0x00000010, CX
  , .i (.subQ 2 .DX)  -- 480: SUBQ $0x00000002, DX
  , .jmp .unrolledLoop1  -- 481: JMP unrolledLoop1
  , .label .tailLoop  -- 483: tailLoop:
  , .i (.cmpQ .DX 0)  -- 484: CMPQ DX, $0x00000000
  , .jcc .z .end_  -- 485: JE end
  , .i (.ld false .s ⟨.AX, 0⟩ 1)  -- 486: MOVSD (AX), X1
  , .i (.op2 .mul .s (.v 0) 1)  -- 487: MULSD X0, X1
  , .i (.st .s 1 ⟨.CX, 0⟩)  -- 488: MOVSD X1, (CX)
  , .i (.addQ 8 .AX)  -- 489: ADDQ $0x00000008, AX
  , .i (.addQ 8 .CX)  -- 490: ADDQ $0x00000008, CX
  , .i (.decQ .DX)  -- 491: DECQ DX
  , .jmp .tailLoop  -- 492: JMP tailLoop
  , .label .end_  -- 494: end:
  , .ret  -- 495: RET
]

/-- `DotProdAVX32`, mat/internal/matfuncs/dotprod_amd64.s from line 9. -/
def dotProdAVX32 : List Line := [
  .i (.argQ 0 .AX)  -- 10: MOVQ x1_base+0(FP), AX
  , .i (.argQ 24 .CX)  -- 11: MOVQ x2_base+24(FP), CX
  , .i (.argQ 8 .DX)  -- 12: MOVQ x1_len+8(FP), DX
  , .i (.zeroAll)  -- 13: VZEROALL
  , .label .unrolledLoop14  -- 15: unrolledLoop14:
  , .i (.cmpQ .DX 112)  -- 16: CMPQ DX, $0x00000070
  , .jcc .l .unrolledLoop8  -- 17: JL unrolledLoop8
  , .i (.ld true .y ⟨.AX, 0⟩ 2)  -- 18: VMOVUPS (AX), Y2
  , .i (.ld true .y ⟨.AX, 32⟩ 3)  -- 19: VMOVUPS 32(AX), Y3
  , .i (.ld true .y ⟨.AX, 64⟩ 4)  -- 20: VMOVUPS 64(AX), Y4
  , .i (.ld true .y ⟨.AX, 96⟩ 5)  -- 21: VMOVUPS 96(AX), Y5
  , .i (.ld true .y ⟨.AX, 128⟩ 6)  -- 22: VMOVUPS 128(AX), Y6
  , .i (.ld true .y ⟨.AX, 160⟩ 7)  -- 23: VMOVUPS 160(AX), Y7
  , .i (.ld true .y ⟨.AX, 192⟩ 8)  -- 24: VMOVUPS 192(AX), Y8
  , .i (.ld true .y ⟨.AX, 224⟩ 9)  -- 25: VMOVUPS 224(AX), Y9
  , .i (.ld true .y ⟨.AX, 256⟩ 10)  -- 26: VMOVUPS 256(AX), Y10
  , .i (.ld true .y ⟨.AX, 288⟩ 11)  -- 27: VMOVUPS 288(AX), Y11
  , .i (.ld true .y ⟨.AX, 320⟩ 12)  -- 28: VMOVUPS 320(AX), Y12
  , .i (.ld true .y ⟨.AX, 352⟩ 13)  -- 29: VMOVUPS 352(AX), Y13
  , .i (.ld true .y ⟨.AX, 384⟩ 14)  -- 30: VMOVUPS 384(AX), Y14
  , .i (.ld true .y ⟨.AX, 416⟩ 15)  -- 31: VMOVUPS 416(AX), Y15
  , .i (.fma .y (.m ⟨.CX, 0⟩) 2 0)  -- 32: VFMADD231PS (CX), Y2, Y0
  , .i (.fma .y (.m ⟨.CX, 32⟩) 3 1)  -- 33: VFMADD231PS 32(CX), Y3, Y1
  , .i (.fma .y (.m ⟨.CX, 64⟩) 4 0)  -- 34: VFMADD231PS 64(CX), Y4, Y0
  , .i (.fma .y (.m ⟨.CX, 96⟩) 5 1)  -- 35: VFMADD231PS 96(CX), Y5, Y1
  , .i (.fma .y (.m ⟨.CX, 128⟩) 6 0)  -- 36: VFMADD231PS 128(CX), Y6, Y0
  , .i (.fma .y (.m ⟨.CX, 160⟩) 7 1)  -- 37: VFMADD231PS 160(CX), Y7, Y1
  , .i (.fma .y (.m ⟨.CX, 192⟩) 8 0)  -- 38: VFMADD231PS 192(CX), Y8, Y0
  , .i (.fma .y (.m ⟨.CX, 224⟩) 9 1)  -- 39: VFMADD231PS 224(CX), Y9, Y1
  , .i (.fma .y (.m ⟨.CX, 256⟩) 10 0)  -- 40: VFMADD231PS 256(CX), Y10, Y0
  , .i (.fma .y (.m ⟨.CX, 288⟩) 11 1)  -- 41: VFMADD231PS 288(CX), Y11, Y1
  , .i (.fma .y (.m ⟨.CX, 320⟩) 12 0)  -- 42: VFMADD231PS 320(CX), Y12, Y0
  , .i (.fma .y (.m ⟨.CX, 352⟩) 13 1)  -- 43: VFMADD231PS 352(CX), Y13, Y1
  , .i (.fma .y (.m ⟨.CX, 384⟩) 14 0)  -- 44: VFMADD231PS 384(CX), Y14, Y0
  , .i (.fma .y (.m ⟨.CX, 416⟩) 15 1)  -- 45: VFMADD231PS 416(CX), Y15, Y1
  , .i (.addQ 448 .AX)  -- 46: ADDQ $0x000001c0, AX
  , .i (.addQ 448 .CX)  -- 47: ADDQ $0x000001c0, CX
  , .i (.subQ 112 .DX)  -- 48: SUBQ $0x00000070, DX
  , .jmp .unrolledLoop14  -- 49: JMP unrolledLoop14
  , .label .unrolledLoop8  -- 51: unrolledLoop8:
  , .i (.cmpQ .DX 64)  -- 52: CMPQ DX, $0x00000040
  , .jcc .l .unrolledLoop4  -- 53: JL unrolledLoop4
  , .i (.ld true .y ⟨.AX, 0⟩ 2)  -- 54: VMOVUPS (AX), Y2
  , .i (.ld true .y ⟨.AX, 32⟩ 3)  -- 55: VMOVUPS 32(AX), Y3
  , .i (.ld true .y ⟨.AX, 64⟩ 4)  -- 56: VMOVUPS 64(AX), Y4
  , .i (.ld true .y ⟨.AX, 96⟩ 5)  -- 57: VMOVUPS 96(AX), Y5
  , .i (.ld true .y ⟨.AX, 128⟩ 6)  -- 58: VMOVUPS 128(AX), Y6
  , .i (.ld true .y ⟨.AX, 160⟩ 7)  -- 59: VMOVUPS 160(AX), Y7
  , .i (.ld true .y ⟨.AX, 192⟩ 8)  -- 60: VMOVUPS 192(AX), Y8
  , .i (.ld true .y ⟨.AX, 224⟩ 9)  -- 61: VMOVUPS 224(AX), Y9
  , .i (.fma .y (.m ⟨.CX, 0⟩) 2 0)  -- 62: VFMADD231PS (CX), Y2, Y0
  , .i (.fma .y (.m ⟨.CX, 32⟩) 3 1)  -- 63: VFMADD231PS 32(CX), Y3, Y1
  , .i (.fma .y (.m ⟨.CX, 64⟩) 4 0)  -- 64: VFMADD231PS 64(CX), Y4, Y0
  , .i (.fma .y (.m ⟨.CX, 96⟩) 5 1)  -- 65: VFMADD231PS 96(CX), Y5, Y1
  , .i (.fma .y (.m ⟨.CX, 128⟩) 6 0)  -- 66: VFMADD231PS 128(CX), Y6, Y0
  , .i (.fma .y (.m ⟨.CX, 160⟩) 7 1)  -- 67: VFMADD231PS 160(CX), Y7, Y1
  , .i (.fma .y (.m ⟨.CX, 192⟩) 8 0)  -- 68: VFMADD231PS 192(CX), Y8, Y0
  , .i (.fma .y (.m ⟨.CX, 224⟩) 9 1)  -- 69: VFMADD231PS 224(CX), Y9, Y1
  , .i (.addQ 256 .AX)  -- 70: ADDQ $0x00000100, AX
  , .i (.addQ 256 .CX)  -- 71: ADDQ $0x00000100, CX
  , .i (.subQ 64 .DX)  -- 72: SUBQ $0x00000040, DX
  , .jmp .unrolledLoop8  -- 73: JMP unrolledLoop8
  , .label .unrolledLoop4  -- 75: unrolledLoop4:
  , .i (.cmpQ .DX 32)  -- 76: CMPQ DX, $0x00000020
  , .jcc .l .unrolledLoop1  -- 77: JL unrolledLoop1
  , .i (.ld true .y ⟨.AX, 0⟩ 2)  -- 78: VMOVUPS (AX), Y2
  , .i (.ld true .y ⟨.AX, 32⟩ 3)  -- 79: VMOVUPS 32(AX), Y3
  , .i (.ld true .y ⟨.AX, 64⟩ 4)  -- 80: VMOVUPS 64(AX), Y4
  , .i (.ld true .y ⟨.AX, 96⟩ 5)  -- 81: VMOVUPS 96(AX), Y5
  , .i (.fma .y (.m ⟨.CX, 0⟩) 2 0)  -- 82: VFMADD231PS (CX), Y2, Y0
  , .i (.fma .y (.m ⟨.CX, 32⟩) 3 1)  -- 83: VFMADD231PS 32(CX), Y3, Y1
  , .i (.fma .y (.m ⟨.CX, 64⟩) 4 0)  -- 84: VFMADD231PS 64(CX), Y4, Y0
  , .i (.fma .y (.m ⟨.CX, 96⟩) 5 1)  -- 85: VFMADD231PS 96(CX), Y5, Y1
  , .i (.addQ 128 .AX)  -- 86: ADDQ $0x00000080, AX
  , .i (.addQ 128 .CX)  -- 87: ADDQ $0x00000080, CX
  , .i (.subQ 32 .DX)  -- 88: SUBQ $0x00000020, DX
  , .jmp .unrolledLoop4  -- 89: JMP unrolledLoop4
  , .label .unrolledLoop1  -- 91: unrolledLoop1:
  , .i (.cmpQ .DX 8)  -- 92: CMPQ DX, $0x00000008
  , .jcc .l .tail  -- 93: JL tail
  , .i (.ld true .y ⟨.AX, 0⟩ 2)  -- 94: VMOVUPS (AX), Y2
  , .i (.fma .y (.m ⟨.CX, 0⟩) 2 0)  -- 95: VFMADD231PS (CX), Y2, Y0
  , .i (.addQ 32 .AX)  -- 96: ADDQ $0x00000020, AX
  , .i (.addQ 32 .CX)  -- 97: ADDQ $0x00000020, CX
  , .i (.subQ 8 .DX)  -- 98: SUBQ $0x00000008, DX
  , .jmp .unrolledLoop1  -- 99: JMP unrolledLoop1
  , .label .tail  -- 101: tail:
  , .i (.zero3 2)  -- 102: VXORPS X2, X2, X2
  , .label .tailLoop  -- 104: tailLoop:
  , .i (.cmpQ .DX 0)  -- 105: CMPQ DX, $0x00000000
  , .jcc .z .reduce  -- 106: JE reduce
  , .i (.ld true .s ⟨.AX, 0⟩ 3)  -- 107: VMOVSS (AX), X3
  , .i (.fma .s (.m ⟨.CX, 0⟩) 3 2)  -- 108: VFMADD231SS (CX), X3, X2
  , .i (.addQ 4 .AX)  -- 109: ADDQ $0x00000004, AX
  , .i (.addQ 4 .CX)  -- 110: ADDQ $0x00000004, CX
  , .i (.decQ .DX)  -- 111: DECQ DX
  , .jmp .tailLoop  -- 112: JMP tailLoop
  , .label .reduce  -- 114: reduce:
  , .i (.op3 .add .y (.v 0) 1 0)  -- 115: VADDPS Y0, Y1, Y0
  , .i (.ext1 0 1)  -- 116: VEXTRACTF128 $0x01, Y0, X1
  , .i (.op3 .add .x (.v 0) 1 0)  -- 117: VADDPS X0, X1, X0
  , .i (.op3 .add .x (.v 0) 2 0)  -- 118: VADDPS X0, X2, X0
  , .i (.hadd3 0 0 0)  -- 119: VHADDPS X0, X0, X0
  , .i (.hadd3 0 0 0)  -- 120: VHADDPS X0, X0, X0
  , .i (.retF 0 48)  -- 121: MOVSS X0, ret+48(FP)
  , .ret  -- 122: RET
]

/-- `DotProdAVX64`, mat/internal/matfuncs/dotprod_amd64.s from line 126. -/
def dotProdAVX64 : List Line := [
  .i (.argQ 0 .AX)  -- 127: MOVQ x1_base+0(FP), AX
  , .i (.argQ 24 .CX)  -- 128: MOVQ x2_base+24(FP), CX
  , .i (.argQ 8 .DX)  -- 129: MOVQ x1_len+8(FP), DX
  , .i (.zeroAll)  -- 130: VZEROALL
  , .label .unrolledLoop14  -- 132: unrolledLoop14:
  , .i (.cmpQ .DX 56)  -- 133: CMPQ DX, $0x00000038
  , .jcc .l .unrolledLoop8  -- 134: JL unrolledLoop8
  , .i (.ld true .y ⟨.AX, 0⟩ 2)  -- 135: VMOVUPD (AX), Y2
  , .i (.ld true .y ⟨.AX, 32⟩ 3)  -- 136: VMOVUPD 32(AX), Y3
  , .i (.ld true .y ⟨.AX, 64⟩ 4)  -- 137: VMOVUPD 64(AX), Y4
  , .i (.ld true .y ⟨.AX, 96⟩ 5)  -- 138: VMOVUPD 96(AX), Y5
  , .i (.ld true .y ⟨.AX, 128⟩ 6)  -- 139: VMOVUPD 128(AX), Y6
  , .i (.ld true .y ⟨.AX, 160⟩ 7)  -- 140: VMOVUPD 160(AX), Y7
  , .i (.ld true .y ⟨.AX, 192⟩ 8)  -- 141: VMOVUPD 192(AX), Y8
  , .i (.ld true .y ⟨.AX, 224⟩ 9)  -- 142: VMOVUPD 224(AX), Y9
  , .i (.ld true .y ⟨.AX, 256⟩ 10)  -- 143: VMOVUPD 256(AX), Y10
  , .i (.ld true .y ⟨.AX, 288⟩ 11)  -- 144: VMOVUPD 288(AX), Y11
  , .i (.ld true .y ⟨.AX, 320⟩ 12)  -- 145: VMOVUPD 320(AX), Y12
  , .i (.ld true .y ⟨.AX, 352⟩ 13)  -- 146: VMOVUPD 352(AX), Y13
  , .i (.ld true .y ⟨.AX, 384⟩ 14)  -- 147: VMOVUPD 384(AX), Y14
  , .i (.ld true .y ⟨.AX, 416⟩ 15)  -- 148: VMOVUPD 416(AX), Y15
  , .i (.fma .y (.m ⟨.CX, 0⟩) 2 0)  -- 149: VFMADD231PD (CX), Y2, Y0
  , .i (.fma .y (.m ⟨.CX, 32⟩) 3 1)  -- 150: VFMADD231PD 32(CX), Y3, Y1
  , .i (.fma .y (.m ⟨.CX, 64⟩) 4 0)  -- 151: VFMADD231PD 64(CX), Y4, Y0
  , .i (.fma .y (.m ⟨.CX, 96⟩) 5 1)  -- 152: VFMADD231PD 96(CX), Y5, Y1
  , .i (.fma .y (.m ⟨.CX, 128⟩) 6 0)  -- 153: VFMADD231PD 128(CX), Y6, Y0
  , .i (.fma .y (.m ⟨.CX, 160⟩) 7 1)  -- 154: VFMADD231PD 160(CX), Y7, Y1
  , .i (.fma .y (.m ⟨.CX, 192⟩) 8 0)  -- 155: VFMADD231PD 192(CX), Y8, Y0
  , .i (.fma .y (.m ⟨.CX, 224⟩) 9 1)  -- 156: VFMADD231PD 224(CX), Y9, Y1
  , .i (.fma .y (.m ⟨.CX, 256⟩) 10 0)  -- 157: VFMADD231PD 256(CX), Y10, Y0
  , .i (.fma .y (.m ⟨.CX, 288⟩) 11 1)  -- 158: VFMADD231PD 288(CX), Y11, Y1
  , .i (.fma .y (.m ⟨.CX, 320⟩) 12 0)  -- 159: VFMADD231PD 320(CX), Y12, Y0
  , .i (.fma .y (.m ⟨.CX, 352⟩) 13 1)  -- 160: VFMADD231PD 352(CX), Y13, Y1
  , .i (.fma .y (.m ⟨.CX, 384⟩) 14 0)  -- 161: VFMADD231PD 384(CX), Y14, Y0
  , .i (.fma .y (.m ⟨.CX, 416⟩) 15 1)  -- 162: VFMADD231PD 416(CX), Y15, Y1
  , .i (.addQ 448 .AX)  -- 163: ADDQ $0x000001c0, AX
  , .i (.addQ 448 .CX)  -- 164: ADDQ $0x000001c0, CX
  , .i (.subQ 56 .DX)  -- 165: SUBQ $0x00000038, DX
  , .jmp .unrolledLoop14  -- 166: JMP unrolledLoop14
  , .label .unrolledLoop8  -- 168: unrolledLoop8:
  , .i (.cmpQ .DX 32)  -- 169: CMPQ DX, $0x00000020
  , .jcc .l .unrolledLoop4  -- 170: JL unrolledLoop4
  , .i (.ld true .y ⟨.AX, 0⟩ 2)  -- 171: VMOVUPD (AX), Y2
  , .i (.ld true .y ⟨.AX, 32⟩ 3)  -- 172: VMOVUPD 32(AX), Y3
  , .i (.ld true .y ⟨.AX, 64⟩ 4)  -- 173: VMOVUPD 64(AX), Y4
  , .i (.ld true .y ⟨.AX, 96⟩ 5)  -- 174: VMOVUPD 96(AX), Y5
  , .i (.ld true .y ⟨.AX, 128⟩ 6)  -- 175: VMOVUPD 128(AX), Y6
  , .i (.ld true .y ⟨.AX, 160⟩ 7)  -- 176: VMOVUPD 160(AX), Y7
  , .i (.ld true .y ⟨.AX, 192⟩ 8)  -- 177: VMOVUPD 192(AX), Y8
  , .i (.ld true .y ⟨.AX, 224⟩ 9)  -- 178: VMOVUPD 224(AX), Y9
  , .i (.fma .y (.m ⟨.CX, 0⟩) 2 0)  -- 179: VFMADD231PD (CX), Y2, Y0
  , .i (.fma .y (.m ⟨.CX, 32⟩) 3 1)  -- 180: VFMADD231PD 32(CX), Y3, Y1
  , .i (.fma .y (.m ⟨.CX, 64⟩) 4 0)  -- 181: VFMADD231PD 64(CX), Y4, Y0
  , .i (.fma .y (.m ⟨.CX, 96⟩) 5 1)  -- 182: VFMADD231PD 96(CX), Y5, Y1
  , .i (.fma .y (.m ⟨.CX, 128⟩) 6 0)  -- 183: VFMADD231PD 128(CX), Y6, Y0
  , .i (.fma .y (.m ⟨.CX, 160⟩) 7 1)  -- 184: VFMADD231PD 160(CX), Y7, Y1
  , .i (.fma .y (.m ⟨.CX, 192⟩) 8 0)  -- 185: VFMADD231PD 192(CX), Y8, Y0
  , .i (.fma .y (.m ⟨.CX, 224⟩) 9 1)  -- 186: VFMADD231PD 224(CX), Y9, Y1
  , .i (.addQ 256 .AX)  -- 187: ADDQ $0x00000100, AX
  , .i (.addQ 256 .CX)  -- 188: ADDQ $0x00000100, CX
  , .i (.subQ 32 .DX)  -- 189: SUBQ $0x00000020, DX
  , .jmp .unrolledLoop8  -- 190: JMP unrolledLoop8
  , .label .unrolledLoop4  -- 192: unrolledLoop4:
  , .i (.cmpQ .DX 16)  -- 193: CMPQ DX, $0x00000010
  , .jcc .l .unrolledLoop1  -- 194: JL unrolledLoop1
  , .i (.ld true .y ⟨.AX, 0⟩ 2)  -- 195: VMOVUPD (AX), Y2
  , .i (.ld true .y ⟨.AX, 32⟩ 3)  -- 196: VMOVUPD 32(AX), Y3
  , .i (.ld true .y ⟨.AX, 64⟩ 4)  -- 197: VMOVUPD 64(AX), Y4
  , .i (.ld true .y ⟨.AX, 96⟩ 5)  -- 198: VMOVUPD 96(AX), Y5
  , .i (.fma .y (.m ⟨.CX, 0⟩) 2 0)  -- 199: VFMADD231PD (CX), Y2, Y0
  , .i (.fma .y (.m ⟨.CX, 32⟩) 3 1)  -- 200: VFMADD231PD 32(CX), Y3, Y1
  , .i (.fma .y (.m ⟨.CX, 64⟩) 4 0)  -- 201: VFMADD231PD 64(CX), Y4, Y0
  , .i (.fma .y (.m ⟨.CX, 96⟩) 5 1)  -- 202: VFMADD231PD 96(CX), Y5, Y1
  , .i (.addQ 128 .AX)  -- 203: ADDQ $0x00000080, AX
  , .i (.addQ 128 .CX)  -- 204: ADDQ $0x00000080, CX
  , .i (.subQ 16 .DX)  -- 205: SUBQ $0x00000010, DX
  , .jmp .unrolledLoop4  -- 206: JMP unrolledLoop4
  , .label .unrolledLoop1  -- 208: unrolledLoop1:
  , .i (.cmpQ .DX 4)  -- 209: CMPQ DX, $0x00000004
  , .jcc .l .tail  -- 210: JL tail
  , .i (.ld true .y ⟨.AX, 0⟩ 2)  -- 211: VMOVUPD (AX), Y2
  , .i (.fma .y (.m ⟨.CX, 0⟩) 2 0)  -- 212: VFMADD231PD (CX), Y2, Y0
  , .i (.addQ 32 .AX)  -- 213: ADDQ $0x00000020, AX
  , .i (.addQ 32 .CX)  -- 214: ADDQ $0x00000020, CX
  , .i (.subQ 4 .DX)  -- 215: SUBQ $0x00000004, DX
  , .jmp .unrolledLoop1  -- 216: JMP unrolledLoop1
  , .label .tail  -- 218: tail:
  , .i (.zero3 2)  -- 219: VXORPD X2, X2, X2
  , .label .tailLoop  -- 221: tailLoop:
  , .i (.cmpQ .DX 0)  -- 222: CMPQ DX, $0x00000000
  , .jcc .z .reduce  -- 223: JE reduce
  , .i (.ld true .s ⟨.AX, 0⟩ 3)  -- 224: VMOVSD (AX), X3
  , .i (.fma .s (.m ⟨.CX, 0⟩) 3 2)  -- 225: VFMADD231SD (CX), X3, X2
  , .i (.addQ 8 .AX)  -- 226: ADDQ $0x00000008, AX
  , .i (.addQ 8 .CX)  -- 227: ADDQ $0x00000008, CX
  , .i (.decQ .DX)  -- 228: DECQ DX
  , .jmp .tailLoop  -- 229: JMP tailLoop
  , .label .reduce  -- 231: reduce:
  , .i (.op3 .add .y (.v 0) 1 0)  -- 232: VADDPD Y0, Y1, Y0
  , .i (.ext1 0 1)  -- 233: VEXTRACTF128 $0x01, Y0, X1
  , .i (.op3 .add .x (.v 0) 1 0)  -- 234: VADDPD X0, X1, X0
  , .i (.op3 .add .x (.v 0) 2 0)  -- 235: VADDPD X0, X2, X0
  , .i (.hadd3 0 0 0)  -- 236: VHADDPD X0, X0, X0
  , .i (.retF 0 48)  -- 237: MOVSD X0, ret+48(FP)
  , .ret  -- 238: RET
]

/-- `DotProdSSE32`, mat/internal/matfuncs/dotprod_amd64.s from line 242. -/
def dotProdSSE32 : List Line := [
  .i (.argQ 0 .AX)  -- 243: MOVQ x1_base+0(FP), AX
  , .i (.argQ 24 .CX)  -- 244: MOVQ x2_base+24(FP), CX
  , .i (.argQ 8 .DX)  -- 245: MOVQ x1_len+8(FP), DX
  , .i (.zero2 0)  -- 246: XORPS X0, X0
  , .i (.zero2 1)  -- 247: XORPS X1, X1
  , .i (.cmpQ .DX 0)  -- 248: CMPQ DX, $0x00000000
  , .jcc .z .reduce  -- 249: JE reduce
  , .i (.movQ .CX .BX)  -- 250: MOVQ CX, BX
  , .i (.andQ 15 .BX)  -- 251: ANDQ $0x0000000f, BX
  , .jcc .z .unrolledLoops  -- 252: JZ unrolledLoops
  , .i (.xorQ 15 .BX)  -- 253: XORQ $0x0000000f, BX
  , .i (.incQ .BX)  -- 254: INCQ BX
  , .i (.shrQ 2 .BX)  -- 255: SHRQ $0x02, BX
  , .label .alignmentLoop  -- 257: alignmentLoop:
  , .i (.ld false .s ⟨.AX, 0⟩ 2)  -- 258: MOVSS (AX), X2
  , .i (.op2 .mul .s (.m ⟨.CX, 0⟩) 2)  -- 259: MULSS (CX), X2
  , .i (.op2 .add .s (.v 2) 0)  -- 260: ADDSS X2, X0
  , .i (.addQ 4 .AX)  -- 261: ADDQ $0x00000004, AX
  , .i (.addQ 4 .CX)  -- 262: ADDQ $0x00000004, CX
  , .i (.decQ .DX)  -- 263: DECQ DX
  , .jcc .z .reduce  -- 264: JZ reduce
  , .i (.decQ .BX)  -- 265: DECQ BX
  , .jcc .nz .alignmentLoop  -- 266: JNZ alignmentLoop
  , .label .unrolledLoops  -- 268: unrolledLoops:
  , .label .unrolledLoop14  -- 269: unrolledLoop14:
  , .i (.cmpQ .DX 56)  -- 270: CMPQ DX, $0x00000038
  , .jcc .l .unrolledLoop8  -- 271: JL unrolledLoop8
  , .i (.ld false .x ⟨.AX, 0⟩ 2)  -- 272: MOVUPS (AX), X2
  , .i (.ld false .x ⟨.AX, 16⟩ 3)  -- 273: MOVUPS 16(AX), X3
  , .i (.ld false .x ⟨.AX, 32⟩ 4)  -- 274: MOVUPS 32(AX), X4
  , .i (.ld false .x ⟨.AX, 48⟩ 5)  -- 275: MOVUPS 48(AX), X5
  , .i (.ld false .x ⟨.AX, 64⟩ 6)  -- 276: MOVUPS 64(AX), X6
  , .i (.ld false .x ⟨.AX, 80⟩ 7)  -- 277: MOVUPS 80(AX), X7
  , .i (.ld false .x ⟨.AX, 96⟩ 8)  -- 278: MOVUPS 96(AX), X8
  , .i (.ld false .x ⟨.AX, 112⟩ 9)  -- 279: MOVUPS 112(AX), X9
  , .i (.ld false .x ⟨.AX, 128⟩ 10)  -- 280: MOVUPS 128(AX), X10
  , .i (.ld false .x ⟨.AX, 144⟩ 11)  -- 281: MOVUPS 144(AX), X11
  , .i (.ld false .x ⟨.AX, 160⟩ 12)  -- 282: MOVUPS 160(AX), X12
  , .i (.ld false .x ⟨.AX, 176⟩ 13)  -- 283: MOVUPS 176(AX), X13
  , .i (.ld false .x ⟨.AX, 192⟩ 14)  -- 284: MOVUPS 192(AX), X14
  , .i (.ld false .x ⟨.AX, 208⟩ 15)  -- 285: MOVUPS 208(AX), X15
  , .i (.op2 .mul .x (.m ⟨.CX, 0⟩) 2)  -- 286: MULPS (CX), X2
  , .i (.op2 .mul .x (.m ⟨.CX, 16⟩) 3)  -- 287: MULPS 16(CX), X3
  , .i (.op2 .mul .x (.m ⟨.CX, 32⟩) 4)  -- 288: MULPS 32(CX), X4
  , .i (.op2 .mul .x (.m ⟨.CX, 48⟩) 5)  -- 289: MULPS 48(CX), X5
  , .i (.op2 .mul .x (.m ⟨.CX, 64⟩) 6)  -- 290: MULPS 64(CX), X6
  , .i (.op2 .mul .x (.m ⟨.CX, 80⟩) 7)  -- 291: MULPS 80(CX), X7
  , .i (.op2 .mul .x (.m ⟨.CX, 96⟩) 8)  -- 292: MULPS 96(CX), X8
  , .i (.op2 .mul .x (.m ⟨.CX, 112⟩) 9)  -- 293: MULPS 112(CX), X9
  , .i (.op2 .mul .x (.m ⟨.CX, 128⟩) 10)  -- 294: MULPS 128(CX), X10
  , .i (.op2 .mul .x (.m ⟨.CX, 144⟩) 11)  -- 295: MULPS 144(CX), X11
  , .i (.op2 .mul .x (.m ⟨.CX, 160⟩) 12)  -- 296: MULPS 160(CX), X12
  , .i (.op2 .mul .x (.m ⟨.CX, 176⟩) 13)  -- 297: MULPS 176(CX), X13
  , .i (.op2 .mul .x (.m ⟨.CX, 192⟩) 14)  -- 298: MULPS 192(CX), X14
  , .i (.op2 .mul .x (.m ⟨.CX, 208⟩) 15)  -- 299: MULPS 208(CX), X15
  , .i (.op2 .add .x (.v 2) 0)  -- 300: ADDPS X2, X0
  , .i (.op2 .add .x (.v 3) 1)  -- 301: ADDPS X3, X1
  , .i (.op2 .add .x (.v 4) 0)  -- 302: ADDPS X4, X0
  , .i (.op2 .add .x (.v 5) 1)  -- 303: ADDPS X5, X1
  , .i (.op2 .add .x (.v 6) 0)  -- 304: ADDPS X6, X0
  , .i (.op2 .add .x (.v 7) 1)  -- 305: ADDPS X7, X1
  , .i (.op2 .add .x (.v 8) 0)  -- 306: ADDPS X8, X0
  , .i (.op2 .add .x (.v 9) 1)  -- 307: ADDPS X9, X1
  , .i (.op2 .add .x (.v 10) 0)  -- 308: ADDPS X10, X0
  , .i (.op2 .add .x (.v 11) 1)  -- 309: ADDPS X11, X1
  , .i (.op2 .add .x (.v 12) 0)  -- 310: ADDPS X12, X0
  , .i (.op2 .add .x (.v 13) 1)  -- 311: ADDPS X13, X1
  , .i (.op2 .add .x (.v 14) 0)  -- 312: ADDPS X14, X0
  , .i (.op2 .add .x (.v 15) 1)  -- 313: ADDPS X15, X1
  , .i (.addQ 224 .AX)  -- 314: ADDQ $0x000000e0, AX
  , .i (.addQ 224 .CX)  -- 315: ADDQ $0x000000e0, CX
  , .i (.subQ 56 .DX)  -- 316: SUBQ $0x00000038, DX
  , .jmp .unrolledLoop14  -- 317: JMP unrolledLoop14
  , .label .unrolledLoop8  -- 319: unrolledLoop8:
  , .i (.cmpQ .DX 32)  -- 320: CMPQ DX, $0x00000020
  , .jcc .l .unrolledLoop4  -- 321: JL unrolledLoop4
  , .i (.ld false .x ⟨.AX, 0⟩ 2)  -- 322: MOVUPS (AX), X2
  , .i (.ld false .x ⟨.AX, 16⟩ 3)  -- 323: MOVUPS 16(AX), X3
  , .i (.ld false .x ⟨.AX, 32⟩ 4)  -- 324: MOVUPS 32(AX), X4
  , .i (.ld false .x ⟨.AX, 48⟩ 5)  -- 325: MOVUPS 48(AX), X5
  , .i (.ld false .x ⟨.AX, 64⟩ 6)  -- 326: MOVUPS 64(AX), X6
  , .i (.ld false .x ⟨.AX, 80⟩ 7)  -- 327: MOVUPS 80(AX), X7
  , .i (.ld false .x ⟨.AX, 96⟩ 8)  -- 328: MOVUPS 96(AX), X8
  , .i (.ld false .x ⟨.AX, 112⟩ 9)  -- 329: MOVUPS 112(AX), X9
  , .i (.op2 .mul .x (.m ⟨.CX, 0⟩) 2)  -- 330: MULPS (CX), X2
  , .i (.op2 .mul .x (.m ⟨.CX, 16⟩) 3)  -- 331: MULPS 16(CX), X3
  , .i (.op2 .mul .x (.m ⟨.CX, 32⟩) 4)  -- 332: MULPS 32(CX), X4
  , .i (.op2 .mul .x (.m ⟨.CX, 48⟩) 5)  -- 333: MULPS 48(CX), X5
  , .i (.op2 .mul .x (.m ⟨.CX, 64⟩) 6)  -- 334: MULPS 64(CX), X6
  , .i (.op2 .mul .x (.m ⟨.CX, 80⟩) 7)  -- 335: MULPS 80(CX), X7
  , .i (.op2 .mul .x (.m ⟨.CX, 96⟩) 8)  -- 336: MULPS 96(CX), X8
  , .i (.op2 .mul .x (.m ⟨.CX, 112⟩) 9)  -- 337: MULPS 112(CX), X9
  , .i (.op2 .add .x (.v 2) 0)  -- 338: ADDPS X2, X0
  , .i (.op2 .add .x (.v 3) 1)  -- 339: ADDPS X3, X1
  , .i (.op2 .add .x (.v 4) 0)  -- 340: ADDPS X4, X0
  , .i (.op2 .add .x (.v 5) 1)  -- 341: ADDPS X5, X1
  , .i (.op2 .add .x (.v 6) 0)  -- 342: ADDPS X6, X0
  , .i (.op2 .add .x (.v 7) 1)  -- 343: ADDPS X7, X1
  , .i (.op2 .add .x (.v 8) 0)  -- 344: ADDPS X8, X0
  , .i (.op2 .add .x (.v 9) 1)  -- 345: ADDPS X9, X1
  , .i (.addQ 128 .AX)  -- 346: ADDQ $0x00000080, AX
  , .i (.addQ 128 .CX)  -- 347: ADDQ $0x00000080, CX
  , .i (.subQ 32 .DX)  -- 348: SUBQ $0x00000020, DX
  , .jmp .unrolledLoop8  -- 349: JMP unrolledLoop8
  , .label .unrolledLoop4  -- 351: unrolledLoop4:
  , .i (.cmpQ .DX 16)  -- 352: CMPQ DX, $0x00000010
  , .jcc .l .unrolledLoop1  -- 353: JL unrolledLoop1
  , .i (.ld false .x ⟨.AX, 0⟩ 2)  -- 354: MOVUPS (AX), X2
  , .i (.ld false .x ⟨.AX, 16⟩ 3)  -- 355: MOVUPS 16(AX), X3
  , .i (.ld false .x ⟨.AX, 32⟩ 4)  -- 356: MOVUPS 32(AX), X4
  , .i (.ld false .x ⟨.AX, 48⟩ 5)  -- 357: MOVUPS 48(AX), X5
  , .i (.op2 .mul .x (.m ⟨.CX, 0⟩) 2)  -- 358: MULPS (CX), X2
  , .i (.op2 .mul .x (.m ⟨.CX, 16⟩) 3)  -- 359: MULPS 16(CX), X3
  , .i (.op2 .mul .x (.m ⟨.CX, 32⟩) 4)  -- 360: MULPS 32(CX), X4
  , .i (.op2 .mul .x (.m ⟨.CX, 48⟩) 5)  -- 361: MULPS 48(CX), X5
  , .i (.op2 .add .x (.v 2) 0)  -- 362: ADDPS X2, X0
  , .i (.op2 .add .x (.v 3) 1)  -- 363: ADDPS X3, X1
  , .i (.op2 .add .x (.v 4) 0)  -- 364: ADDPS X4, X0
  , .i (.op2 .add .x (.v 5) 1)  -- 365: ADDPS X5, X1
  , .i (.addQ 64 .AX)  -- 366: ADDQ $0x00000040, AX
  , .i (.addQ 64 .CX)  -- 367: ADDQ $0x00000040, CX
  , .i (.subQ 16 .DX)  -- 368: SUBQ $0x00000010, DX
  , .jmp .unrolledLoop4  -- 369: JMP unrolledLoop4
  , .label .unrolledLoop1  -- 371: unrolledLoop1:
  , .i (.cmpQ .DX 4)  -- 372: CMPQ DX, $0x00000004
  , .jcc .l .tailLoop  -- 373: JL tailLoop
  , .i (.ld false .x ⟨.AX, 0⟩ 2)  -- 374: MOVUPS (AX), X2
  , .i (.op2 .mul .x (.m ⟨.CX, 0⟩) 2)  -- 375: MULPS (CX), X2
  , .i (.op2 .add .x (.v 2) 0)  -- 376: ADDPS X2, X0
  , .i (.addQ 16 .AX)  -- 377: ADDQ $0x00000010, AX
  , .i (.addQ 16 .CX)  -- 378: ADDQ $0x00000010, CX
  , .i (.subQ 4 .DX)  -- 379: SUBQ $0x00000004, DX
  , .jmp .unrolledLoop1  -- 380: JMP unrolledLoop1
  , .label .tailLoop  -- 382: tailLoop:
  , .i (.cmpQ .DX 0)  -- 383: CMPQ DX, $0x00000000
  , .jcc .z .reduce  -- 384: JE reduce
  , .i (.ld false .s ⟨.AX, 0⟩ 2)  -- 385: MOVSS (AX), X2
  , .i (.op2 .mul .s (.m ⟨.CX, 0⟩) 2)  -- 386: MULSS (CX), X2
  , .i (.op2 .add .s (.v 2) 0)  -- 387: ADDSS X2, X0
  , .i (.addQ 4 .AX)  -- 388: ADDQ $0x00000004, AX
  , .i (.addQ 4 .CX)  -- 389: ADDQ $0x00000004, CX
  , .i (.decQ .DX)  -- 390: DECQ DX
  , .jmp .tailLoop  -- 391: JMP tailLoop
  , .label .reduce  -- 393: reduce:
  , .i (.op2 .add .x (.v 1) 0)  -- 394: ADDPS X1, X0
  , .i (.hadd2 0 0)  -- 395: HADDPS X0, X0
  , .i (.hadd2 0 0)  -- 396: HADDPS X0, X0
  , .i (.retF 0 48)  -- 397: MOVSS X0, ret+48(FP)
  , .ret  -- 398: RET
]

/-- `DotProdSSE64`, mat/internal/matfuncs/dotprod_amd64.s from line 402. -/
def dotProdSSE64 : List Line := [
  .i (.argQ 0 .AX)  -- 403: MOVQ x1_base+0(FP), AX
  , .i (.argQ 24 .CX)  -- 404: MOVQ x2_base+24(FP), CX
  , .i (.argQ 8 .DX)  -- 405: MOVQ x1_len+8(FP), DX
  , .i (.zero2 0)  -- 406: XORPD X0, X0
  , .i (.zero2 1)  -- 407: XORPD X1, X1
  , .i (.cmpQ .DX 0)  -- 408: CMPQ DX, $0x00000000
  , .jcc .z .reduce  -- 409: JE reduce
  , .i (.movQ .CX .BX)  -- 410: MOVQ CX, BX
  , .i (.andQ 15 .BX)  -- 411: ANDQ $0x0000000f, BX
  , .jcc .z .unrolledLoops  -- 412: JZ unrolledLoops
  , .i (.ld false .s ⟨.AX, 0⟩ 2)  -- 413: MOVSD (AX), X2
  , .i (.op2 .mul .s (.m ⟨.CX, 0⟩) 2)  -- 414: MULSD (CX), X2
  , .i (.op2 .add .s (.v 2) 0)  -- 415: ADDSD X2, X0
  , .i (.addQ 8 .AX)  -- 416: ADDQ $0x00000008, AX
  , .i (.addQ 8 .CX)  -- 417: ADDQ $0x00000008, CX
  , .i (.decQ .DX)  -- 418: DECQ DX
  , .label .unrolledLoops  -- 420: unrolledLoops:
  , .label .unrolledLoop14  -- 421: unrolledLoop14:
  , .i (.cmpQ .DX 28)  -- 422: CMPQ DX, $0x0000001c
  , .jcc .l .unrolledLoop8  -- 423: JL unrolledLoop8
  , .i (.ld false .x ⟨.AX, 0⟩ 2)  -- 424: MOVUPD (AX), X2
  , .i (.ld false .x ⟨.AX, 16⟩ 3)  -- 425: MOVUPD 16(AX), X3
  , .i (.ld false .x ⟨.AX, 32⟩ 4)  -- 426: MOVUPD 32(AX), X4
  , .i (.ld false .x ⟨.AX, 48⟩ 5)  -- 427: MOVUPD 48(AX), X5
  , .i (.ld false .x ⟨.AX, 64⟩ 6)  -- 428: MOVUPD 64(AX), X6
  , .i (.ld false .x ⟨.AX, 80⟩ 7)  -- 429: MOVUPD 80(AX), X7
  , .i (.ld false .x ⟨.AX, 96⟩ 8)  -- 430: MOVUPD 96(AX), X8
  , .i (.ld false .x ⟨.AX, 112⟩ 9)  -- 431: MOVUPD 112(AX), X9
  , .i (.ld false .x ⟨.AX, 128⟩ 10)  -- 432: MOVUPD 128(AX), X10
  , .i (.ld false .x ⟨.AX, 144⟩ 11)  -- 433: MOVUPD 144(AX), X11
  , .i (.ld false .x ⟨.AX, 160⟩ 12)  -- 434: MOVUPD 160(AX), X12
  , .i (.ld false .x ⟨.AX, 176⟩ 13)  -- 435: MOVUPD 176(AX), X13
  , .i (.ld false .x ⟨.AX, 192⟩ 14)  -- 436: MOVUPD 192(AX), X14
  , .i (.ld false .x ⟨.AX, 208⟩ 15)  -- 437: MOVUPD 208(AX), X15
  , .i (.op2 .mul .x (.m ⟨.CX, 0⟩) 2)  -- 438: MULPD (CX), X2
  , .i (.op2 .mul .x (.m ⟨.CX, 16⟩) 3)  -- 439: MULPD 16(CX), X3
  , .i (.op2 .mul .x (.m ⟨.CX, 32⟩) 4)  -- 440: MULPD 32(CX), X4
  , .i (.op2 .mul .x (.m ⟨.CX, 48⟩) 5)  -- 441: MULPD 48(CX), X5
  , .i (.op2 .mul .x (.m ⟨.CX, 64⟩) 6)  -- 442: MULPD 64(CX), X6
  , .i (.op2 .mul .x (.m ⟨.CX, 80⟩) 7)  -- 443: MULPD 80(CX), X7
  , .i (.op2 .mul .x (.m ⟨.CX, 96⟩) 8)  -- 444: MULPD 96(CX), X8
  , .i (.op2 .mul .x (.m ⟨.CX, 112⟩) 9)  -- 445: MULPD 112(CX), X9
  , .i (.op2 .mul .x (.m ⟨.CX, 128⟩) 10)  -- 446: MULPD 128(CX), X10
  , .i (.op2 .mul .x (.m ⟨.CX, 144⟩) 11)  -- 447: MULPD 144(CX), X11
  , .i (.op2 .mul .x (.m ⟨.CX, 160⟩) 12)  -- 448: MULPD 160(CX), X12
  , .i (.op2 .mul .x (.m ⟨.CX, 176⟩) 13)  -- 449: MULPD 176(CX), X13
  , .i (.op2 .mul .x (.m ⟨.CX, 192⟩) 14)  -- 450: MULPD 192(CX), X14
  , .i (.op2 .mul .x (.m ⟨.CX, 208⟩) 15)  -- 451: MULPD 208(CX), X15
  , .i (.op2 .add .x (.v 2) 0)  -- 452: ADDPD X2, X0
  , .i (.op2 .add .x (.v 3) 1)  -- 453: ADDPD X3, X1
  , .i (.op2 .add .x (.v 4) 0)  -- 454: ADDPD X4, X0
  , .i (.op2 .add .x (.v 5) 1)  -- 455: ADDPD X5, X1
  , .i (.op2 .add .x (.v 6) 0)  -- 456: ADDPD X6, X0
  , .i (.op2 .add .x (.v 7) 1)  -- 457: ADDPD X7, X1
  , .i (.op2 .add .x (.v 8) 0)  -- 458: ADDPD X8, X0
  , .i (.op2 .add .x (.v 9) 1)  -- 459: ADDPD X9, X1
  , .i (.op2 .add .x (.v 10) 0)  -- 460: ADDPD X10, X0
  , .i (.op2 .add .x (.v 11) 1)  -- 461: ADDPD X11, X1
  , .i (.op2 .add .x (.v 12) 0)  -- 462: ADDPD X12, X0
  , .i (.op2 .add .x (.v 13) 1)  -- 463: ADDPD X13, X1
  , .i (.op2 .add .x (.v 14) 0)  -- 464: ADDPD X14, X0
  , .i (.op2 .add .x (.v 15) 1)  -- 465: ADDPD X15, X1
  , .i (.addQ 224 .AX)  -- 466: ADDQ $0x000000e0, AX
  , .i (.addQ 224 .CX)  -- 467: ADDQ $0x000000e0, CX
  , .i (.subQ 28 .DX)  -- 468: SUBQ $0x0000001c, DX
  , .jmp .unrolledLoop14  -- 469: JMP unrolledLoop14
  , .label .unrolledLoop8  -- 471: unrolledLoop8:
  , .i (.cmpQ .DX 16)  -- 472: CMPQ DX, $0x00000010
  , .jcc .l .unrolledLoop4  -- 473: JL unrolledLoop4
  , .i (.ld false .x ⟨.AX, 0⟩ 2)  -- 474: MOVUPD (AX), X2
  , .i (.ld false .x ⟨.AX, 16⟩ 3)  -- 475: MOVUPD 16(AX), X3
  , .i (.ld false .x ⟨.AX, 32⟩ 4)  -- 476: MOVUPD 32(AX), X4
  , .i (.ld false .x ⟨.AX, 48⟩ 5)  -- 477: MOVUPD 48(AX), X5
  , .i (.ld false .x ⟨.AX, 64⟩ 6)  -- 478: MOVUPD 64(AX), X6
  , .i (.ld false .x ⟨.AX, 80⟩ 7)  -- 479: MOVUPD 80(AX), X7
  , .i (.ld false .x ⟨.AX, 96⟩ 8)  -- 480: MOVUPD 96(AX), X8
  , .i (.ld false .x ⟨.AX, 112⟩ 9)  -- 481: MOVUPD 112(AX), X9
  , .i (.op2 .mul .x (.m ⟨.CX, 0⟩) 2)  -- 482: MULPD (CX), X2
  , .i (.op2 .mul .x (.m ⟨.CX, 16⟩) 3)  -- 483: MULPD 16(CX), X3
  , .i (.op2 .mul .x (.m ⟨.CX, 32⟩) 4)  -- 484: MULPD 32(CX), X4
  , .i (.op2 .mul .x (.m ⟨.CX, 48⟩) 5)  -- 485: MULPD 48(CX), X5
  , .i (.op2 .mul .x (.m ⟨.CX, 64⟩) 6)  -- 486: MULPD 64(CX), X6
  , .i (.op2 .mul .x (.m ⟨.CX, 80⟩) 7)  -- 487: MULPD 80(CX), X7
  , .i (.op2 .mul .x (.m ⟨.CX, 96⟩) 8)  -- 488: MULPD 96(CX), X8
  , .i (.op2 .mul .x (.m ⟨.CX, 112⟩) 9)  -- 489: MULPD 112(CX), X9
  , .i (.op2 .add .x (.v 2) 0)  -- 490: ADDPD X2, X0
  , .i (.op2 .add .x (.v 3) 1)  -- 491: ADDPD X3, X1
  , .i (.op2 .add .x (.v 4) 0)  -- 492: ADDPD X4, X0
  , .i (.op2 .add .x (.v 5) 1)  -- 493: ADDPD X5, X1
  , .i (.op2 .add .x (.v 6) 0)  -- 494: ADDPD X6, X0
  , .i (.op2 .add .x (.v 7) 1)  -- 495: ADDPD X7, X1
  , .i (.op2 .add .x (.v 8) 0)  -- 496: ADDPD X8, X0
  , .i (.op2 .add .x (.v 9) 1)  -- 497: ADDPD X9, X1
  , .i (.addQ 128 .AX)  -- 498: ADDQ $0x00000080, AX
  , .i (.addQ 128 .CX)  -- 499: ADDQ $0x00000080, CX
  , .i (.subQ 16 .DX)  -- 500: SUBQ $0x00000010, DX
  , .jmp .unrolledLoop8  -- 501: JMP unrolledLoop8
  , .label .unrolledLoop4  -- 503: unrolledLoop4:
  , .i (.cmpQ .DX 8)  -- 504: CMPQ DX, $0x00000008
  , .jcc .l .unrolledLoop1  -- 505: JL unrolledLoop1
  , .i (.ld false .x ⟨.AX, 0⟩ 2)  -- 506: MOVUPD (AX), X2
  , .i (.ld false .x ⟨.AX, 16⟩ 3)  -- 507: MOVUPD 16(AX), X3
  , .i (.ld false .x ⟨.AX, 32⟩ 4)  -- 508: MOVUPD 32(AX), X4
  , .i (.ld false .x ⟨.AX, 48⟩ 5)  -- 509: MOVUPD 48(AX), X5
  , .i (.op2 .mul .x (.m ⟨.CX, 0⟩) 2)  -- 510: MULPD (CX), X2
  , .i (.op2 .mul .x (.m ⟨.CX, 16⟩) 3)  -- 511: MULPD 16(CX), X3
  , .i (.op2 .mul .x (.m ⟨.CX, 32⟩) 4)  -- 512: MULPD 32(CX), X4
  , .i (.op2 .mul .x (.m ⟨.CX, 48⟩) 5)  -- 513: MULPD 48(CX), X5
  , .i (.op2 .add .x (.v 2) 0)  -- 514: ADDPD X2, X0
  , .i (.op2 .add .x (.v 3) 1)  -- 515: ADDPD X3, X1
  , .i (.op2 .add .x (.v 4) 0)  -- 516: ADDPD X4, X0
  , .i (.op2 .add .x (.v 5) 1)  -- 517: ADDPD X5, X1
  , .i (.addQ 64 .AX)  -- 518: ADDQ $0x00000040, AX
  , .i (.addQ 64 .CX)  -- 519: ADDQ $0x00000040, CX
  , .i (.subQ 8 .DX)  -- 520: SUBQ $0x00000008, DX
  , .jmp .unrolledLoop4  -- 521: JMP unrolledLoop4
  , .label .unrolledLoop1  -- 523: unrolledLoop1:
  , .i (.cmpQ .DX 2)  -- 524: CMPQ DX, $0x00000002
  , .jcc .l .tailLoop  -- 525: JL tailLoop
  , .i (.ld false .x ⟨.AX, 0⟩ 2)  -- 526: MOVUPD (AX), X2
  , .i (.op2 .mul .x (.m ⟨.CX, 0⟩) 2)  -- 527: MULPD (CX), X2
  , .i (.op2 .add .x (.v 2) 0)  -- 528: ADDPD X2, X0
  , .i (.addQ 16 .AX)  -- 529: ADDQ $0x00000010, AX
  , .i (.addQ 16 .CX)  -- 530: ADDQ $0x00000010, CX
  , .i (.subQ 2 .DX)  -- 531: SUBQ $0x00000002, DX
  , .jmp .unrolledLoop1  -- 532: JMP unrolledLoop1
  , .label .tailLoop  -- 534: tailLoop:
  , .i (.cmpQ .DX 0)  -- 535: CMPQ DX, $0x00000000
  , .jcc .z .reduce  -- 536: JE reduce
  , .i (.ld false .s ⟨.AX, 0⟩ 2)  -- 537: MOVSD (AX), X2
  , .i (.op2 .mul .s (.m ⟨.CX, 0⟩) 2)  -- 538: MULSD (CX), X2
  , .i (.op2 .add .s (.v 2) 0)  -- 539: ADDSD X2, X0
  , .i (.addQ 8 .AX)  -- 540: ADDQ $0x00000008, AX
  , .i (.addQ 8 .CX)  -- 541: ADDQ $0x00000008, CX
  , .i (.decQ .DX)  -- 542: DECQ DX
  , .jmp .tailLoop  -- 543: JMP tailLoop
  , .label .reduce  -- 545: reduce:
  , .i (.op2 .add .x (.v 1) 0)  -- 546: ADDPD X1, X0
  , .i (.hadd2 0 0)  -- 547: HADDPD X0, X0
  , .i (.retF 0 48)  -- 548: MOVSD X0, ret+48(FP)
  , .ret  -- 549: RET
]

/-- `SumAVX32`, mat/internal/matfuncs/sum_amd64.s from line 9. -/
def sumAVX32 : List Line := [
  .i (.argQ 0 .AX)  -- 10: MOVQ x_base+0(FP), AX
  , .i (.argQ 8 .CX)  -- 11: MOVQ x_len+8(FP), CX
  , .i (.zero3 0)  -- 12: VXORPS Y0, Y0, Y0
  , .i (.zero3 1)  -- 13: VXORPS Y1, Y1, Y1
  , .label .unrolledLoop14  -- 15: unrolledLoop14:
  , .i (.cmpQ .CX 112)  -- 16: CMPQ CX, $0x00000070
  , .jcc .l .unrolledLoop8  -- 17: JL unrolledLoop8
  , .i (.op3 .add .y (.m ⟨.AX, 0⟩) 0 0)  -- 18: VADDPS (AX), Y0, Y0
  , .i (.op3 .add .y (.m ⟨.AX, 32⟩) 1 1)  -- 19: VADDPS 32(AX), Y1, Y1
  , .i (.op3 .add .y (.m ⟨.AX, 64⟩) 0 0)  -- 20: VADDPS 64(AX), Y0, Y0
  , .i (.op3 .add .y (.m ⟨.AX, 96⟩) 1 1)  -- 21: VADDPS 96(AX), Y1, Y1
  , .i (.op3 .add .y (.m ⟨.AX, 128⟩) 0 0)  -- 22: VADDPS 128(AX), Y0, Y0
  , .i (.op3 .add .y (.m ⟨.AX, 160⟩) 1 1)  -- 23: VADDPS 160(AX), Y1, Y1
  , .i (.op3 .add .y (.m ⟨.AX, 192⟩) 0 0)  -- 24: VADDPS 192(AX), Y0, Y0
  , .i (.op3 .add .y (.m ⟨.AX, 224⟩) 1 1)  -- 25: VADDPS 224(AX), Y1, Y1
  , .i (.op3 .add .y (.m ⟨.AX, 256⟩) 0 0)  -- 26: VADDPS 256(AX), Y0, Y0
  , .i (.op3 .add .y (.m ⟨.AX, 288⟩) 1 1)  -- 27: VADDPS 288(AX), Y1, Y1
  , .i (.op3 .add .y (.m ⟨.AX, 320⟩) 0 0)  -- 28: VADDPS 320(AX), Y0, Y0
  , .i (.op3 .add .y (.m ⟨.AX, 352⟩) 1 1)  -- 29: VADDPS 352(AX), Y1, Y1
  , .i (.op3 .add .y (.m ⟨.AX, 384⟩) 0 0)  -- 30: VADDPS 384(AX), Y0, Y0
  , .i (.op3 .add .y (.m ⟨.AX, 416⟩) 1 1)  -- 31: VADDPS 416(AX), Y1, Y1
  , .i (.addQ 448 .AX)  -- 32: ADDQ $0x000001c0, AX
  , .i (.subQ 112 .CX)  -- 33: SUBQ $0x00000070, CX
  , .jmp .unrolledLoop14  -- 34: JMP unrolledLoop14
  , .label .unrolledLoop8  -- 36: unrolledLoop8:
  , .i (.cmpQ .CX 64)  -- 37: CMPQ CX, $0x00000040
  , .jcc .l .unrolledLoop4  -- 38: JL unrolledLoop4
  , .i (.op3 .add .y (.m ⟨.AX, 0⟩) 0 0)  -- 39: VADDPS (AX), Y0, Y0
  , .i (.op3 .add .y (.m ⟨.AX, 32⟩) 1 1)  -- 40: VADDPS 32(AX), Y1, Y1
  , .i (.op3 .add .y (.m ⟨.AX, 64⟩) 0 0)  -- 41: VADDPS 64(AX), Y0, Y0
  , .i (.op3 .add .y (.m ⟨.AX, 96⟩) 1 1)  -- 42: VADDPS 96(AX), Y1, Y1
  , .i (.op3 .add .y (.m ⟨.AX, 128⟩) 0 0)  -- 43: VADDPS 128(AX), Y0, Y0
  , .i (.op3 .add .y (.m ⟨.AX, 160⟩) 1 1)  -- 44: VADDPS 160(AX), Y1, Y1
  , .i (.op3 .add .y (.m ⟨.AX, 192⟩) 0 0)  -- 45: VADDPS 192(AX), Y0, Y0
  , .i (.op3 .add .y (.m ⟨.AX, 224⟩) 1 1)  -- 46: VADDPS 224(AX), Y1, Y1
  , .i (.addQ 256 .AX)  -- 47: ADDQ $0x00000100, AX
  , .i (.subQ 64 .CX)  -- 48: SUBQ $0x00000040, CX
  , .jmp .unrolledLoop8  -- 49: JMP unrolledLoop8
  , .label .unrolledLoop4  -- 51: unrolledLoop4:
  , .i (.cmpQ .CX 32)  -- 52: CMPQ CX, $0x00000020
  , .jcc .l .unrolledLoop1  -- 53: JL unrolledLoop1
  , .i (.op3 .add .y (.m ⟨.AX, 0⟩) 0 0)  -- 54: VADDPS (AX), Y0, Y0
  , .i (.op3 .add .y (.m ⟨.AX, 32⟩) 1 1)  -- 55: VADDPS 32(AX), Y1, Y1
  , .i (.op3 .add .y (.m ⟨.AX, 64⟩) 0 0)  -- 56: VADDPS 64(AX), Y0, Y0
  , .i (.op3 .add .y (.m ⟨.AX, 96⟩) 1 1)  -- 57: VADDPS 96(AX), Y1, Y1
  , .i (.addQ 128 .AX)  -- 58: ADDQ $0x00000080, AX
  , .i (.subQ 32 .CX)  -- 59: SUBQ $0x00000020, CX
  , .jmp .unrolledLoop4  -- 60: JMP unrolledLoop4
  , .label .unrolledLoop1  -- 62: unrolledLoop1:
  , .i (.cmpQ .CX 8)  -- 63: CMPQ CX, $0x00000008
  , .jcc .l .tail  -- 64: JL tail
  , .i (.op3 .add .y (.m ⟨.AX, 0⟩) 0 0)  -- 65: VADDPS (AX), Y0, Y0
  , .i (.addQ 32 .AX)  -- 66: ADDQ $0x00000020, AX
  , .i (.subQ 8 .CX)  -- 67: SUBQ $0x00000008, CX
  , .jmp .unrolledLoop1  -- 68: JMP unrolledLoop1
  , .label .tail  -- 70: tail:
  , .i (.zero3 2)  -- 71: VXORPS X2, X2, X2
  , .label .tailLoop  -- 73: tailLoop:
  , .i (.cmpQ .CX 0)  -- 74: CMPQ CX, $0x00000000
  , .jcc .z .reduce  -- 75: JE reduce
  , .i (.op3 .add .s (.m ⟨.AX, 0⟩) 2 2)  -- 76: VADDSS (AX), X2, X2
  , .i (.addQ 4 .AX)  -- 77: ADDQ $0x00000004, AX
  , .i (.decQ .CX)  -- 78: DECQ CX
  , .jmp .tailLoop  -- 79: JMP tailLoop
  , .label .reduce  -- 81: reduce:
  , .i (.op3 .add .y (.v 0) 1 0)  -- 82: VADDPS Y0, Y1, Y0
  , .i (.ext1 0 1)  -- 83: VEXTRACTF128 $0x01, Y0, X1
  , .i (.op3 .add .x (.v 0) 1 0)  -- 84: VADDPS X0, X1, X0
  , .i (.op3 .add .x (.v 0) 2 0)  -- 85: VADDPS X0, X2, X0
  , .i (.hadd3 0 0 0)  -- 86: VHADDPS X0, X0, X0
  , .i (.hadd3 0 0 0)  -- 87: VHADDPS X0, X0, X0
  , .i (.retF 0 24)  -- 88: MOVSS X0, ret+24(FP)
  , .ret  -- 89: RET
]

/-- `SumAVX64`, mat/internal/matfuncs/sum_amd64.s from line 93. -/
def sumAVX64 : List Line := [
  .i (.argQ 0 .AX)  -- 94: MOVQ x_base+0(FP), AX
  , .i (.argQ 8 .CX)  -- 95: MOVQ x_len+8(FP), CX
  , .i (.zero3 0)  -- 96: VXORPD Y0, Y0, Y0
  , .i (.zero3 1)  -- 97: VXORPD Y1, Y1, Y1
  , .label .unrolledLoop14  -- 99: unrolledLoop14:
  , .i (.cmpQ .CX 56)  -- 100: CMPQ CX, $0x00000038
  , .jcc .l .unrolledLoop8  -- 101: JL unrolledLoop8
  , .i (.op3 .add .y (.m ⟨.AX, 0⟩) 0 0)  -- 102: VADDPD (AX), Y0, Y0
  , .i (.op3 .add .y (.m ⟨.AX, 32⟩) 1 1)  -- 103: VADDPD 32(AX), Y1, Y1
  , .i (.op3 .add .y (.m ⟨.AX, 64⟩) 0 0)  -- 104: VADDPD 64(AX), Y0, Y0
  , .i (.op3 .add .y (.m ⟨.AX, 96⟩) 1 1)  -- 105: VADDPD 96(AX), Y1, Y1
  , .i (.op3 .add .y (.m ⟨.AX, 128⟩) 0 0)  -- 106: VADDPD 128(AX), Y0, Y0
  , .i (.op3 .add .y (.m ⟨.AX, 160⟩) 1 1)  -- 107: VADDPD 160(AX), Y1, Y1
  , .i (.op3 .add .y (.m ⟨.AX, 192⟩) 0 0)  -- 108: VADDPD 192(AX), Y0, Y0
  , .i (.op3 .add .y (.m ⟨.AX, 224⟩) 1 1)  -- 109: VADDPD 224(AX), Y1, Y1
  , .i (.op3 .add .y (.m ⟨.AX, 256⟩) 0 0)  -- 110: VADDPD 256(AX), Y0, Y0
  , .i (.op3 .add .y (.m ⟨.AX, 288⟩) 1 1)  -- 111: VADDPD 288(AX), Y1, Y1
  , .i (.op3 .add .y (.m ⟨.AX, 320⟩) 0 0)  -- 112: VADDPD 320(AX), Y0, Y0
  , .i (.op3 .add .y (.m ⟨.AX, 352⟩) 1 1)  -- 113: VADDPD 352(AX), Y1, Y1
  , .i (.op3 .add .y (.m ⟨.AX, 384⟩) 0 0)  -- 114: VADDPD 384(AX), Y0, Y0
  , .i (.op3 .add .y (.m ⟨.AX, 416⟩) 1 1)  -- 115: VADDPD 416(AX), Y1, Y1
  , .i (.addQ 448 .AX)  -- 116: ADDQ $0x000001c0, AX
  , .i (.subQ 56 .CX)  -- 117: SUBQ $0x00000038, CX
  , .jmp .unrolledLoop14  -- 118: JMP unrolledLoop14
  , .label .unrolledLoop8  -- 120: unrolledLoop8:
  , .i (.cmpQ .CX 32)  -- 121: CMPQ CX, $0x00000020
  , .jcc .l .unrolledLoop4  -- 122: JL unrolledLoop4
  , .i (.op3 .add .y (.m ⟨.AX, 0⟩) 0 0)  -- 123: VADDPD (AX), Y0, Y0
  , .i (.op3 .add .y (.m ⟨.AX, 32⟩) 1 1)  -- 124: VADDPD 32(AX), Y1, Y1
  , .i (.op3 .add .y (.m ⟨.AX, 64⟩) 0 0)  -- 125: VADDPD 64(AX), Y0, Y0
  , .i (.op3 .add .y (.m ⟨.AX, 96⟩) 1 1)  -- 126: VADDPD 96(AX), Y1, Y1
  , .i (.op3 .add .y (.m ⟨.AX, 128⟩) 0 0)  -- 127: VADDPD 128(AX), Y0, Y0
  , .i (.op3 .add .y (.m ⟨.AX, 160⟩) 1 1)  -- 128: VADDPD 160(AX), Y1, Y1
  , .i (.op3 .add .y (.m ⟨.AX, 192⟩) 0 0)  -- 129: VADDPD 192(AX), Y0, Y0
  , .i (.op3 .add .y (.m ⟨.AX, 224⟩) 1 1)  -- 130: VADDPD 224(AX), Y1, Y1
  , .i (.addQ 256 .AX)  -- 131: ADDQ $0x00000100, AX
  , .i (.subQ 32 .CX)  -- 132: SUBQ $0x00000020, CX
  , .jmp .unrolledLoop8  -- 133: JMP unrolledLoop8
  , .label .unrolledLoop4  -- 135: unrolledLoop4:
  , .i (.cmpQ .CX 16)  -- 136: CMPQ CX, $0x00000010
  , .jcc .l .unrolledLoop1  -- 137: JL unrolledLoop1
  , .i (.op3 .add .y (.m ⟨.AX, 0⟩) 0 0)  -- 138: VADDPD (AX), Y0, Y0
  , .i (.op3 .add .y (.m ⟨.AX, 32⟩) 1 1)  -- 139: VADDPD 32(AX), Y1, Y1
  , .i (.op3 .add .y (.m ⟨.AX, 64⟩) 0 0)  -- 140: VADDPD 64(AX), Y0, Y0
  , .i (.op3 .add .y (.m ⟨.AX, 96⟩) 1 1)  -- 141: VADDPD 96(AX), Y1, Y1
  , .i (.addQ 128 .AX)  -- 142: ADDQ $0x00000080, AX
  , .i (.subQ 16 .CX)  -- 143: SUBQ $0x00000010, CX
  , .jmp .unrolledLoop4  -- 144: JMP unrolledLoop4
  , .label .unrolledLoop1  -- 146: unrolledLoop1:
  , .i (.cmpQ .CX 4)  -- 147: CMPQ CX, $0x00000004
  , .jcc .l .tail  -- 148: JL tail
  , .i (.op3 .add .y (.m ⟨.AX, 0⟩) 0 0)  -- 149: VADDPD (AX), Y0, Y0
  , .i (.addQ 32 .AX)  -- 150: ADDQ $0x00000020, AX
  , .i (.subQ 4 .CX)  -- 151: SUBQ $0x00000004, CX
  , .jmp .unrolledLoop1  -- 152: JMP unrolledLoop1
  , .label .tail  -- 154: tail:
  , .i (.zero3 2)  -- 155: VXORPD X2, X2, X2
  , .label .tailLoop  -- 157: tailLoop:
  , .i (.cmpQ .CX 0)  -- 158: CMPQ CX, $0x00000000
  , .jcc .z .reduce  -- 159: JE reduce
  , .i (.op3 .add .s (.m ⟨.AX, 0⟩) 2 2)  -- 160: VADDSD (AX), X2, X2
  , .i (.addQ 8 .AX)  -- 161: ADDQ $0x00000008, AX
  , .i (.decQ .CX)  -- 162: DECQ CX
  , .jmp .tailLoop  -- 163: JMP tailLoop
  , .label .reduce  -- 165: reduce:
  , .i (.op3 .add .y (.v 0) 1 0)  -- 166: VADDPD Y0, Y1, Y0
  , .i (.ext1 0 1)  -- 167: VEXTRACTF128 $0x01, Y0, X1
  , .i (.op3 .add .x (.v 0) 1 0)  -- 168: VADDPD X0, X1, X0
  , .i (.op3 .add .x (.v 0) 2 0)  -- 169: VADDPD X0, X2, X0
  , .i (.hadd3 0 0 0)  -- 170: VHADDPD X0, X0, X0
  , .i (.retF 0 24)  -- 171: MOVSD X0, ret+24(FP)
  , .ret  -- 172: RET
]

/-- `SumSSE32`, mat/internal/matfuncs/sum_amd64.s from line 176. -/
def sumSSE32 : List Line := [
  .i (.argQ 0 .AX)  -- 177: MOVQ x_base+0(FP), AX
  , .i (.argQ 8 .CX)  -- 178: MOVQ x_len+8(FP), CX
  , .i (.zero2 0)  -- 179: XORPS X0, X0
  , .i (.zero2 1)  -- 180: XORPS X1, X1
  , .i (.cmpQ .CX 0)  -- 181: CMPQ CX, $0x00000000
  , .jcc .z .reduce  -- 182: JE reduce
  , .i (.movQ .AX .DX)  -- 183: MOVQ AX, DX
  , .i (.andQ 15 .DX)  -- 184: ANDQ $0x0000000f, DX
  , .jcc .z .unrolledLoops  -- 185: JZ unrolledLoops
  , .i (.xorQ 15 .DX)  -- 186: XORQ $0x0000000f, DX
  , .i (.incQ .DX)  -- 187: INCQ DX
  , .i (.shrQ 2 .DX)  -- 188: SHRQ $0x02, DX
  , .label .alignmentLoop  -- 190: alignmentLoop:
  , .i (.ld false .s ⟨.AX, 0⟩ 2)  -- 191: MOVSS (AX), X2
  , .i (.op2 .add .s (.v 2) 0)  -- 192: ADDSS X2, X0
  , .i (.addQ 4 .AX)  -- 193: ADDQ $0x00000004, AX
  , .i (.decQ .CX)  -- 194: DECQ CX
  , .jcc .z .reduce  -- 195: JZ reduce
  , .i (.decQ .DX)  -- 196: DECQ DX
  , .jcc .nz .alignmentLoop  -- 197: JNZ alignmentLoop
  , .label .unrolledLoops  -- 199: unrolledLoops:
  , .label .unrolledLoop14  -- 200: unrolledLoop14:
  , .i (.cmpQ .CX 56)  -- 201: CMPQ CX, $0x00000038
  , .jcc .l .unrolledLoop8  -- 202: JL unrolledLoop8
  , .i (.op2 .add .x (.m ⟨.AX, 0⟩) 0)  -- 203: ADDPS (AX), X0
  , .i (.op2 .add .x (.m ⟨.AX, 16⟩) 1)  -- 204: ADDPS 16(AX), X1
  , .i (.op2 .add .x (.m ⟨.AX, 32⟩) 0)  -- 205: ADDPS 32(AX), X0
  , .i (.op2 .add .x (.m ⟨.AX, 48⟩) 1)  -- 206: ADDPS 48(AX), X1
  , .i (.op2 .add .x (.m ⟨.AX, 64⟩) 0)  -- 207: ADDPS 64(AX), X0
  , .i (.op2 .add .x (.m ⟨.AX, 80⟩) 1)  -- 208: ADDPS 80(AX), X1
  , .i (.op2 .add .x (.m ⟨.AX, 96⟩) 0)  -- 209: ADDPS 96(AX), X0
  , .i (.op2 .add .x (.m ⟨.AX, 112⟩) 1)  -- 210: ADDPS 112(AX), X1
  , .i (.op2 .add .x (.m ⟨.AX, 128⟩) 0)  -- 211: ADDPS 128(AX), X0
  , .i (.op2 .add .x (.m ⟨.AX, 144⟩) 1)  -- 212: ADDPS 144(AX), X1
  , .i (.op2 .add .x (.m ⟨.AX, 160⟩) 0)  -- 213: ADDPS 160(AX), X0
  , .i (.op2 .add .x (.m ⟨.AX, 176⟩) 1)  -- 214: ADDPS 176(AX), X1
  , .i (.op2 .add .x (.m ⟨.AX, 192⟩) 0)  -- 215: ADDPS 192(AX), X0
  , .i (.op2 .add .x (.m ⟨.AX, 208⟩) 1)  -- 216: ADDPS 208(AX), X1
  , .i (.addQ 224 .AX)  -- 217: ADDQ $0x000000e0, AX
  , .i (.subQ 56 .CX)  -- 218: SUBQ $0x00000038, CX
  , .jmp .unrolledLoop14  -- 219: JMP unrolledLoop14
  , .label .unrolledLoop8  -- 221: unrolledLoop8:
  , .i (.cmpQ .CX 32)  -- 222: CMPQ CX, $0x00000020
  , .jcc .l .unrolledLoop4  -- 223: JL unrolledLoop4
  , .i (.op2 .add .x (.m ⟨.AX, 0⟩) 0)  -- 224: ADDPS (AX), X0
  , .i (.op2 .add .x (.m ⟨.AX, 16⟩) 1)  -- 225: ADDPS 16(AX), X1
  , .i (.op2 .add .x (.m ⟨.AX, 32⟩) 0)  -- 226: ADDPS 32(AX), X0
  , .i (.op2 .add .x (.m ⟨.AX, 48⟩) 1)  -- 227: ADDPS 48(AX), X1
  , .i (.op2 .add .x (.m ⟨.AX, 64⟩) 0)  -- 228: ADDPS 64(AX), X0
  , .i (.op2 .add .x (.m ⟨.AX, 80⟩) 1)  -- 229: ADDPS 80(AX), X1
  , .i (.op2 .add .x (.m ⟨.AX, 96⟩) 0)  -- 230: ADDPS 96(AX), X0
  , .i (.op2 .add .x (.m ⟨.AX, 112⟩) 1)  -- 231: ADDPS 112(AX), X1
  , .i (.addQ 128 .AX)  -- 232: ADDQ $0x00000080, AX
  , .i (.subQ 32 .CX)  -- 233: SUBQ $0x00000020, CX
  , .jmp .unrolledLoop8  -- 234: JMP unrolledLoop8
  , .label .unrolledLoop4  -- 236: unrolledLoop4:
  , .i (.cmpQ .CX 16)  -- 237: CMPQ CX, $0x00000010
  , .jcc .l .unrolledLoop1  -- 238: JL unrolledLoop1
  , .i (.op2 .add .x (.m ⟨.AX, 0⟩) 0)  -- 239: ADDPS (AX), X0
  , .i (.op2 .add .x (.m ⟨.AX, 16⟩) 1)  -- 240: ADDPS 16(AX), X1
  , .i (.op2 .add .x (.m ⟨.AX, 32⟩) 0)  -- 241: ADDPS 32(AX), X0
  , .i (.op2 .add .x (.m ⟨.AX, 48⟩) 1)  -- 242: ADDPS 48(AX), X1
  , .i (.addQ 64 .AX)  -- 243: ADDQ $0x00000040, AX
  , .i (.subQ 16 .CX)  -- 244: SUBQ $0x00000010, CX
  , .jmp .unrolledLoop4  -- 245: JMP unrolledLoop4
  , .label .unrolledLoop1  -- 247: unrolledLoop1:
  , .i (.cmpQ .CX 4)  -- 248: CMPQ CX, $0x00000004
  , .jcc .l .tailLoop  -- 249: JL tailLoop
  , .i (.op2 .add .x (.m ⟨.AX, 0⟩) 0)  -- 250: ADDPS (AX), X0
  , .i (.addQ 16 .AX)  -- 251: ADDQ $0x00000010, AX
  , .i (.subQ 4 .CX)  -- 252: SUBQ $0x00000004, CX
  , .jmp .unrolledLoop1  -- 253: JMP unrolledLoop1
  , .label .tailLoop  -- 255: tailLoop:
  , .i (.cmpQ .CX 0)  -- 256: CMPQ CX, $0x00000000
  , .jcc .z .reduce  -- 257: JE reduce
  , .i (.op2 .add .s (.m ⟨.AX, 0⟩) 0)  -- 258: ADDSS (AX), X0
  , .i (.addQ 4 .AX)  -- 259: ADDQ $0x00000004, AX
  , .i (.decQ .CX)  -- 260: DECQ CX
  , .jmp .tailLoop  -- 261: JMP tailLoop
  , .label .reduce  -- 263: reduce:
  , .i (.op2 .add .x (.v 1) 0)  -- 264: ADDPS X1, X0
  , .i (.hadd2 0 0)  -- 265: HADDPS X0, X0
  , .i (.hadd2 0 0)  -- 266: HADDPS X0, X0
  , .i (.retF 0 24)  -- 267: MOVSS X0, ret+24(FP)
  , .ret  -- 268: RET
]

/-- `SumSSE64`, mat/internal/matfuncs/sum_amd64.s from line 272. -/
def sumSSE64 : List Line := [
  .i (.argQ 0 .AX)  -- 273: MOVQ x_base+0(FP), AX
  , .i (.argQ 8 .CX)  -- 274: MOVQ x_len+8(FP), CX
  , .i (.zero2 0)  -- 275: XORPD X0, X0
  , .i (.zero2 1)  -- 276: XORPD X1, X1
  , .i (.cmpQ .CX 0)  -- 277: CMPQ CX, $0x00000000
  , .jcc .z .reduce  -- 278: JE reduce
  , .i (.movQ .AX .DX)  -- 279: MOVQ AX, DX
  , .i (.andQ 15 .DX)  -- 280: ANDQ $0x0000000f, DX
  , .jcc .z .unrolledLoops  -- 281: JZ unrolledLoops
  , .i (.ld false .s ⟨.AX, 0⟩ 2)  -- 282: MOVSD (AX), X2
  , .i (.op2 .add .s (.v 2) 0)  -- 283: ADDSD X2, X0
  , .i (.addQ 8 .AX)  -- 284: ADDQ $0x00000008, AX
  , .i (.decQ .CX)  -- 285: DECQ CX
  , .label .unrolledLoops  -- 287: unrolledLoops:
  , .label .unrolledLoop14  -- 288: unrolledLoop14:
  , .i (.cmpQ .CX 28)  -- 289: CMPQ CX, $0x0000001c
  , .jcc .l .unrolledLoop8  -- 290: JL unrolledLoop8
  , .i (.op2 .add .x (.m ⟨.AX, 0⟩) 0)  -- 291: ADDPD (AX), X0
  , .i (.op2 .add .x (.m ⟨.AX, 16⟩) 1)  -- 292: ADDPD 16(AX), X1
  , .i (.op2 .add .x (.m ⟨.AX, 32⟩) 0)  -- 293: ADDPD 32(AX), X0
  , .i (.op2 .add .x (.m ⟨.AX, 48⟩) 1)  -- 294: ADDPD 48(AX), X1
  , .i (.op2 .add .x (.m ⟨.AX, 64⟩) 0)  -- 295: ADDPD 64(AX), X0
  , .i (.op2 .add .x (.m ⟨.AX, 80⟩) 1)  -- 296: ADDPD 80(AX), X1
  , .i (.op2 .add .x (.m ⟨.AX, 96⟩) 0)  -- 297: ADDPD 96(AX), X0
  , .i (.op2 .add .x (.m ⟨.AX, 112⟩) 1)  -- 298: ADDPD 112(AX), X1
  , .i (.op2 .add .x (.m ⟨.AX, 128⟩) 0)  -- 299: ADDPD 128(AX), X0
  , .i (.op2 .add .x (.m ⟨.AX, 144⟩) 1)  -- 300: ADDPD 144(AX), X1
  , .i (.op2 .add .x (.m ⟨.AX, 160⟩) 0)  -- 301: ADDPD 160(AX), X0
  , .i (.op2 .add .x (.m ⟨.AX, 176⟩) 1)  -- 302: ADDPD 176(AX), X1
  , .i (.op2 .add .x (.m ⟨.AX, 192⟩) 0)  -- 303: ADDPD 192(AX), X0
  , .i (.op2 .add .x (.m ⟨.AX, 208⟩) 1)  -- 304: ADDPD 208(AX), X1
  , .i (.addQ 224 .AX)  -- 305: ADDQ $0x000000e0, AX
  , .i (.subQ 28 .CX)  -- 306: SUBQ $0x0000001c, CX
  , .jmp .unrolledLoop14  -- 307: JMP unrolledLoop14
  , .label .unrolledLoop8  -- 309: unrolledLoop8:
  , .i (.cmpQ .CX 16)  -- 310: CMPQ CX, $0x00000010
  , .jcc .l .unrolledLoop4  -- 311: JL unrolledLoop4
  , .i (.op2 .add .x (.m ⟨.AX, 0⟩) 0)  -- 312: ADDPD (AX), X0
  , .i (.op2 .add .x (.m ⟨.AX, 16⟩) 1)  -- 313: ADDPD 16(AX), X1
  , .i (.op2 .add .x (.m ⟨.AX, 32⟩) 0)  -- 314: ADDPD 32(AX), X0
  , .i (.op2 .add .x (.m ⟨.AX, 48⟩) 1)  -- 315: ADDPD 48(AX), X1
  , .i (.op2 .add .x (.m ⟨.AX, 64⟩) 0)  -- 316: ADDPD 64(AX), X0
  , .i (.op2 .add .x (.m ⟨.AX, 80⟩) 1)  -- 317: ADDPD 80(AX), X1
  , .i (.op2 .add .x (.m ⟨.AX, 96⟩) 0)  -- 318: ADDPD 96(AX), X0
  , .i (.op2 .add .x (.m ⟨.AX, 112⟩) 1)  -- 319: ADDPD 112(AX), X1
  , .i (.addQ 128 .AX)  -- 320: ADDQ $0x00000080, AX
  , .i (.subQ 16 .CX)  -- 321: SUBQ $0x00000010, CX
  , .jmp .unrolledLoop8  -- 322: JMP unrolledLoop8
  , .label .unrolledLoop4  -- 324: unrolledLoop4:
  , .i (.cmpQ .CX 8)  -- 325: CMPQ CX, $0x00000008
  , .jcc .l .unrolledLoop1  -- 326: JL unrolledLoop1
  , .i (.op2 .add .x (.m ⟨.AX, 0⟩) 0)  -- 327: ADDPD (AX), X0
  , .i (.op2 .add .x (.m ⟨.AX, 16⟩) 1)  -- 328: ADDPD 16(AX), X1
  , .i (.op2 .add .x (.m ⟨.AX, 32⟩) 0)  -- 329: ADDPD 32(AX), X0
  , .i (.op2 .add .x (.m ⟨.AX, 48⟩) 1)  -- 330: ADDPD 48(AX), X1
  , .i (.addQ 64 .AX)  -- 331: ADDQ $0x00000040, AX
  , .i (.subQ 8 .CX)  -- 332: SUBQ $0x00000008, CX
  , .jmp .unrolledLoop4  -- 333: JMP unrolledLoop4
  , .label .unrolledLoop1  -- 335: unrolledLoop1:
  , .i (.cmpQ .CX 2)  -- 336: CMPQ CX, $0x00000002
  , .jcc .l .tailLoop  -- 337: JL tailLoop
  , .i (.op2 .add .x (.m ⟨.AX, 0⟩) 0)  -- 338: ADDPD (AX), X0
  , .i (.addQ 16 .AX)  -- 339: ADDQ $0x00000010, AX
  , .i (.subQ 2 .CX)  -- 340: SUBQ $0x00000002, CX
  , .jmp .unrolledLoop1  -- 341: JMP unrolledLoop1
  , .label .tailLoop  -- 343: tailLoop:
  , .i (.cmpQ .CX 0)  -- 344: CMPQ CX, $0x00000000
  , .jcc .z .reduce  -- 345: JE reduce
  , .i (.op2 .add .s (.m ⟨.AX, 0⟩) 0)  -- 346: ADDSD (AX), X0
  , .i (.addQ 8 .AX)  -- 347: ADDQ $0x00000008, AX
  , .i (.decQ .CX)  -- 348: DECQ CX
  , .jmp .tailLoop  -- 349: JMP tailLoop
  , .label .reduce  -- 351: reduce:
  , .i (.op2 .add .x (.v 1) 0)  -- 352: ADDPD X1, X0
  , .i (.hadd2 0 0)  -- 353: HADDPD X0, X0
  , .i (.retF 0 24)  -- 354: MOVSD X0, ret+24(FP)
  , .ret  -- 355: RET
]

end Verif.Asm
