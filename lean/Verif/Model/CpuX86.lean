/-
Feature detection of mat/internal/matfuncs/cpu on amd64: `archInit` (cpu_x86.go), `initOptions`
(cpu_x86.go), `processOptions` (cpu.go), run in this order by `init` (cpu.go:198-202) before the
variables `hasAVX`, `hasAVX2`, `hasFMA` of matfuncs_amd64.go are initialised from the result.

The assembly stubs `cpuid` and `xgetbv` (cpu_x86.s) are the machine: their answers are the fields of
`Regs`.  A string is a list of characters (the code works on bytes; all the characters it looks for
are ASCII, so this is the same).  The warnings printed on standard error are left out.
-/
import Verif.Model.MatFuncs
set_option autoImplicit false
set_option linter.unusedSimpArgs false

namespace Verif.CpuX86

/-- Fields of `X86` (cpu.go:37-80) that `archInit` sets. -/
inductive Feat
  | adx | aes | avx | avx2 | avx512 | avx512f | avx512cd | avx512er | avx512pf | avx512vl
  | avx512bw | avx512dq | avx512ifma | avx512vbmi | avx5124vnniw | avx5124fmaps
  | avx512vpopcntdq | avx512vpclmulqdq | avx512vnni | avx512gfni | avx512vaes | avx512vbmi2
  | avx512bitalg | avx512bf16 | bmi1 | bmi2 | cx16 | erms | fma | osxsave | pclmulqdq | popcnt
  | rdrand | rdseed | sse2 | sse3 | sse41 | sse42 | ssse3
  deriving DecidableEq, Repr

/-- What the machine answers: `cpuid(0, 0)`, `cpuid(1, 0)`, `cpuid(7, 0)`, `cpuid(7, 1)` and
`xgetbv()`; `darwin` is `runtime.GOOS == "darwin"`. -/
structure Regs where
  maxID : BitVec 32
  ecx1 : BitVec 32
  edx1 : BitVec 32
  ebx7 : BitVec 32
  ecx7 : BitVec 32
  edx7 : BitVec 32
  eax71 : BitVec 32
  xcr0 : BitVec 32
  darwin : Bool

/-- `isSet` (cpu_x86.go:143-145). -/
def isSet (bitpos : Nat) (value : BitVec 32) : Bool := value &&& (1#32 <<< bitpos) != 0#32

abbrev Flags := Feat → Bool

def Flags.put (X : Flags) (f : Feat) (b : Bool) : Flags := fun g => if g = f then b else X g

/-- A sequence of assignments `X86.f = b`. -/
def Flags.puts (X : Flags) (l : List (Feat × Bool)) : Flags := l.foldl (fun X p => X.put p.1 p.2) X

/-- `osSupportsAVX` (cpu_x86.go:85-90). -/
def osAVX (r : Regs) : Bool :=
  if isSet 27 r.ecx1 then isSet 1 r.xcr0 && isSet 2 r.xcr0 else false

/-- `osSupportsAVX512` (cpu_x86.go:85-101). -/
def osAVX512 (r : Regs) : Bool :=
  if isSet 27 r.ecx1 then
    if r.darwin then false
    else osAVX r && isSet 5 r.xcr0 && isSet 6 r.xcr0 && isSet 7 r.xcr0
  else false

/-- `archInit` (cpu_x86.go:60-141) on the zero value of `X86`. -/
def archInit (r : Regs) : Flags :=
  let X : Flags := fun _ => false
  if r.maxID < 1 then X
  else
    let X := X.puts
      [(.sse2, isSet 26 r.edx1), (.sse3, isSet 0 r.ecx1), (.pclmulqdq, isSet 1 r.ecx1),
       (.ssse3, isSet 9 r.ecx1), (.fma, isSet 12 r.ecx1), (.cx16, isSet 13 r.ecx1),
       (.sse41, isSet 19 r.ecx1), (.sse42, isSet 20 r.ecx1), (.popcnt, isSet 23 r.ecx1),
       (.aes, isSet 25 r.ecx1), (.osxsave, isSet 27 r.ecx1), (.rdrand, isSet 30 r.ecx1),
       (.avx, isSet 28 r.ecx1 && osAVX r)]
    if r.maxID < 7 then X
    else
      let X := X.puts
        [(.bmi1, isSet 3 r.ebx7), (.avx2, isSet 5 r.ebx7 && osAVX r), (.bmi2, isSet 8 r.ebx7),
         (.erms, isSet 9 r.ebx7), (.rdseed, isSet 18 r.ebx7), (.adx, isSet 19 r.ebx7),
         (.avx512, isSet 16 r.ebx7 && osAVX512 r)]
      if X .avx512 then
        X.puts
          [(.avx512f, true), (.avx512cd, isSet 28 r.ebx7), (.avx512er, isSet 27 r.ebx7),
           (.avx512pf, isSet 26 r.ebx7), (.avx512vl, isSet 31 r.ebx7),
           (.avx512bw, isSet 30 r.ebx7), (.avx512dq, isSet 17 r.ebx7),
           (.avx512ifma, isSet 21 r.ebx7), (.avx512vbmi, isSet 1 r.ecx7),
           (.avx5124vnniw, isSet 2 r.edx7), (.avx5124fmaps, isSet 3 r.edx7),
           (.avx512vpopcntdq, isSet 14 r.ecx7), (.avx512vpclmulqdq, isSet 10 r.ecx7),
           (.avx512vnni, isSet 11 r.ecx7), (.avx512gfni, isSet 8 r.ecx7),
           (.avx512vaes, isSet 9 r.ecx7), (.avx512vbmi2, isSet 6 r.ecx7),
           (.avx512bitalg, isSet 12 r.ecx7), (.avx512bf16, isSet 5 r.eax71)]
      else X

/-- An element of `options` (cpu.go:211-217). -/
structure Opt where
  name : List Char
  feature : Feat
  specified : Bool := false
  enable : Bool := false
  required : Bool := false
  deriving DecidableEq, Repr

/-- `initOptions` (cpu_x86.go:14-58), on amd64. -/
def initOptions : List Opt := [
  { name := "adx".toList, feature := .adx },
  { name := "aes".toList, feature := .aes },
  { name := "avx".toList, feature := .avx },
  { name := "avx2".toList, feature := .avx2 },
  { name := "avx512".toList, feature := .avx512 },
  { name := "avx512f".toList, feature := .avx512f },
  { name := "avx512cd".toList, feature := .avx512cd },
  { name := "avx512er".toList, feature := .avx512er },
  { name := "avx512pf".toList, feature := .avx512pf },
  { name := "avx512vl".toList, feature := .avx512vl },
  { name := "avx512bw".toList, feature := .avx512bw },
  { name := "avx512dq".toList, feature := .avx512dq },
  { name := "avx512ifma".toList, feature := .avx512ifma },
  { name := "avx512vbmi".toList, feature := .avx512vbmi },
  { name := "avx512vnniw".toList, feature := .avx5124vnniw },
  { name := "avx5124fmaps".toList, feature := .avx5124fmaps },
  { name := "avx512vpopcntdq".toList, feature := .avx512vpopcntdq },
  { name := "avx512vpclmulqdq".toList, feature := .avx512vpclmulqdq },
  { name := "avx512vnni".toList, feature := .avx512vnni },
  { name := "avx512gfni".toList, feature := .avx512gfni },
  { name := "avx512vaes".toList, feature := .avx512vaes },
  { name := "avx512vbmi2".toList, feature := .avx512vbmi2 },
  { name := "avx512bitalg".toList, feature := .avx512bitalg },
  { name := "avx512bf16".toList, feature := .avx512bf16 },
  { name := "bmi1".toList, feature := .bmi1 },
  { name := "bmi2".toList, feature := .bmi2 },
  { name := "cx16".toList, feature := .cx16 },
  { name := "erms".toList, feature := .erms },
  { name := "fma".toList, feature := .fma },
  { name := "osxsave".toList, feature := .osxsave },
  { name := "pclmulqdq".toList, feature := .pclmulqdq },
  { name := "popcnt".toList, feature := .popcnt },
  { name := "rdrand".toList, feature := .rdrand },
  { name := "rdseed".toList, feature := .rdseed },
  { name := "sse3".toList, feature := .sse3 },
  { name := "sse41".toList, feature := .sse41 },
  { name := "sse42".toList, feature := .sse42 },
  { name := "ssse3".toList, feature := .ssse3 },
  { name := "sse2".toList, feature := .sse2, required := true }]

/-- `strings.IndexByte`; `none` is -1. -/
def indexByte (c : Char) : List Char → Option Nat
  | [] => none
  | a :: s => if a = c then some 0 else (indexByte c s).map (· + 1)

/-- The slice `s[i:j]`, a panic (`none`) when it is out of range. -/
def slice (s : List Char) (i j : Nat) : Option (List Char) :=
  if i ≤ j ∧ j ≤ s.length then some ((s.take j).drop i) else none

/-- `options[i].Specified = true; options[i].Enable = enable` for the first option of the given
name (cpu.go:259-265). -/
def setFirst (key : List Char) (enable : Bool) : List Opt → List Opt
  | [] => []
  | o :: os =>
    if o.name = key then { o with specified := true, enable := enable } :: os
    else o :: setFirst key enable os

/-- The body of the loop over the fields of GODEBUG (cpu.go:231-267). -/
def doField (opts : List Opt) (field : List Char) : Option (List Opt) := do
  if field.length < 4 then return opts
  let head ← slice field 0 4
  if head ≠ "cpu.".toList then return opts
  match indexByte '=' field with
  | none => return opts
  | some i =>
    let key ← slice field 4 i
    let value ← slice field (i + 1) field.length
    if value = "on".toList ∨ value = "off".toList then
      let enable := decide (value = "on".toList)
      if key = "all".toList then
        return opts.map fun o => { o with specified := true, enable := enable || o.required }
      else return setFirst key enable opts
    else return opts

/-- The loop over GODEBUG (cpu.go:221-268). -/
def fields (opts : List Opt) (env : List Char) : Option (List Opt) :=
  if env = [] then some opts
  else
    match h : indexByte ',' env with
    | none => doField opts env
    | some i => do
      let field ← slice env 0 i
      let rest ← slice env (i + 1) env.length
      let opts ← doField opts field
      if rest.length < env.length then fields opts rest else none
  termination_by env.length

/-- The loop over the options (cpu.go:270-286). -/
def apply (X : Flags) : List Opt → Flags
  | [] => X
  | o :: os =>
    if !o.specified then apply X os
    else if o.enable && !X o.feature then apply X os
    else if !o.enable && o.required then apply X os
    else apply (X.put o.feature o.enable) os

/-- `processOptions` (cpu.go:219-287); `none` is a panic. -/
def processOptions (env : List Char) (opts : List Opt) (X : Flags) : Option Flags := do
  let opts ← fields opts env
  return apply X opts

/-- `init` (cpu.go:198-202). -/
def init (r : Regs) (env : List Char) : Option Flags := processOptions env initOptions (archInit r)

/-- The variables `hasAVX`, `hasAVX2`, `hasFMA` (matfuncs_amd64.go:11-15), in the form the choice of
the routines (`Verif/Model/MatFuncs.lean`) takes them; there is no variable for SSE3. -/
def chosen (X : Flags) : Asm.Cpu := ⟨X .avx, X .avx2, X .fma, X .sse3⟩

end Verif.CpuX86
