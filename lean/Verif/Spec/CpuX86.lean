/-
What a processor can execute (Intel Software Developer's Manual, volume 1: 12.3 for SSE3, 14.3 for
AVX, 14.5.3 for FMA, 14.7.1 for AVX2) and what GODEBUG asks for, independent of the code.
-/
import Verif.Model.CpuX86
import Mathlib.Data.List.SplitOn
set_option autoImplicit false
set_option linter.unusedSimpArgs false

namespace Verif.CpuX86

/-- AVX may be used: the processor has it and the operating system saves the registers. -/
def UseAVX (r : Regs) : Prop :=
  1 ≤ r.maxID ∧ r.ecx1.getLsbD 28 = true ∧ r.ecx1.getLsbD 27 = true ∧
    r.xcr0.getLsbD 1 = true ∧ r.xcr0.getLsbD 2 = true

def UseFMA (r : Regs) : Prop := UseAVX r ∧ r.ecx1.getLsbD 12 = true

def UseAVX2 (r : Regs) : Prop := UseAVX r ∧ 7 ≤ r.maxID ∧ r.ebx7.getLsbD 5 = true

/-- AVX-512: AVX, the bit of the foundation, the mask and ZMM registers saved by the operating system; never on darwin. -/
def UseAVX512 (r : Regs) : Prop := UseAVX r ∧ 7 ≤ r.maxID ∧ r.ebx7.getLsbD 16 = true ∧
  r.xcr0.getLsbD 5 = true ∧ r.xcr0.getLsbD 6 = true ∧ r.xcr0.getLsbD 7 = true ∧ r.darwin = false

def UseSSE3 (r : Regs) : Prop := 1 ≤ r.maxID ∧ r.ecx1.getLsbD 0 = true

instance (r : Regs) : Decidable (UseAVX r) := by unfold UseAVX; infer_instance
instance (r : Regs) : Decidable (UseFMA r) := by unfold UseFMA; infer_instance
instance (r : Regs) : Decidable (UseAVX2 r) := by unfold UseAVX2; infer_instance
instance (r : Regs) : Decidable (UseSSE3 r) := by unfold UseSSE3; infer_instance

/-- What the processor can execute. -/
def hardware (r : Regs) : Asm.Cpu :=
  ⟨decide (UseAVX r), decide (UseAVX2 r), decide (UseFMA r), decide (UseSSE3 r)⟩

/-- Every processor with AVX2 has AVX. -/
def Consistent (r : Regs) : Prop := r.ebx7.getLsbD 5 = true → r.ecx1.getLsbD 28 = true

/-- A field of GODEBUG that sets the option `name` to `b`, alone or with all the others. -/
def Says (field name : List Char) (b : Bool) : Prop :=
  ∃ key, field = "cpu.".toList ++ key ++ "=".toList ++ (if b then "on".toList else "off".toList) ∧
    (key = name ∨ key = "all".toList)

/-- GODEBUG switches the option off: the last of its comma-separated fields that says something
about the option says `off`. -/
def Off (env name : List Char) : Prop :=
  ∃ pre f post, env.splitOn ',' = pre ++ f :: post ∧ Says f name false ∧
    ∀ g ∈ post, ¬ Says g name true

/-- A run on a processor: an instruction it does not know ends the program. -/
inductive RunOn (cpu : Asm.Cpu) {R : Type} (E : Asm.Env R) (code : List Asm.Line) :
    List Asm.Line → Asm.St R → Asm.St R → Prop
  | label {l rest s s'} : RunOn cpu E code rest s s' → RunOn cpu E code (.label l :: rest) s s'
  | ins {x rest s s1 s'} : cpu.can x = true → Asm.exec E x s = some s1 →
      RunOn cpu E code rest s1 s' → RunOn cpu E code (.i x :: rest) s s'
  | jmp {l rest s s'} : RunOn cpu E code (Asm.after l code) s s' →
      RunOn cpu E code (.jmp l :: rest) s s'
  | taken {c l rest s s'} : c.holds s = true → RunOn cpu E code (Asm.after l code) s s' →
      RunOn cpu E code (.jcc c l :: rest) s s'
  | falls {c l rest s s'} : c.holds s = false → RunOn cpu E code rest s s' →
      RunOn cpu E code (.jcc c l :: rest) s s'
  | ret {rest s} : RunOn cpu E code (.ret :: rest) s s

/-- A call of a routine on a processor. -/
def CallOn (cpu : Asm.Cpu) {R : Type} (E : Asm.Env R) (code : List Asm.Line)
    (s s' : Asm.St R) : Prop := RunOn cpu E code code s s'

end Verif.CpuX86
