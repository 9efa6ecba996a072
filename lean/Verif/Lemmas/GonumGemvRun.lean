/-
`GemvN` of 64 bits, contiguous operands: the runs of the routine, from the pieces of
`Lemmas/GonumGemv.lean`.
-/
import Verif.Lemmas.GonumGemv
import Verif.Model.GonumCode
set_option autoImplicit false
set_option linter.unusedSimpArgs false
set_option maxRecDepth 10000

namespace Verif.Gonum

open Verif.Asm (Arith Alu W keep lanesOf Done SameOrApart Exact)

variable {R : Type}

/-! ### The routine by labels -/

/-- From reading the arguments to the comparison of `beta` with zero. -/
def gvSetup : List Ins := [.argDup 16 15, .argDup 88 14, .argQ 56 .SI, .argQ 96 .DX, .argQ 24 .AX, .argQ 120 .R10, .argQ
  48 .R12, .shlQ 3 .R12, .lea ⟨.R12, some (.R12, 2), 0⟩ .R13, .movQ .AX .DI, .clrQ .R15, .movQ
  .CX .R14, .subQ 1 .R14, .imulQ .R10 .R14, .negQ .R14, .cmpQ .R10 0, .cmovLt .R14 .R15, .lea
  ⟨.DX, some (.R15, 8), 0⟩ .DX, .setQ .DX 96, .shlQ 3 .R10, .lea ⟨.R10, some (.R10, 2), 0⟩ .R11,
  .zero 0, .comi 14 0]

/-- From label `end_` on; `inc` is the part for strided operands. -/
def gv_end_ (inc : List Line) : List Line :=
  .ret :: inc

/-- From label `r1end` on; `inc` is the part for strided operands. -/
def gv_r1end (inc : List Line) : List Line :=
  (seg (s1 ++ (List.range 1).map (fun k => Ins.st .s (k + 4) (chunk 8 .s .DX none k))) ++ .label
  .end_ :: gv_end_ inc)

/-- From label `r1c1` on; `inc` is the part for strided operands. -/
def gv_r1c1 (inc : List Line) : List Line :=
  (seg ([] ++ [.testArg 1 8]) ++ .jz .r1end :: (seg (k11 ++ [.addQ 8 .DI]) ++ .label .r1end ::
  gv_r1end inc))

/-- From label `r1c2` on; `inc` is the part for strided operands. -/
def gv_r1c2 (inc : List Line) : List Line :=
  (seg [.testArg 2 8] ++ .jz .r1c1 :: (seg (k12 ++ [.addQ 16 .DI, .addQ 16 .SI]) ++ .label .r1c1
  :: gv_r1c1 inc))

/-- From label `r1c4` on; `inc` is the part for strided operands. -/
def gv_r1c4 (inc : List Line) : List Line :=
  (seg (k14 ++ [.addQ 32 .DI, .addQ 32 .SI]) ++ .i (.decQ .BX) :: .jnz .r1c4 :: .label .r1c2 ::
  gv_r1c2 inc)

/-- From label `r1` on; `inc` is the part for strided operands. -/
def gv_r1 (inc : List Line) : List Line :=
  (seg [.testArg 1 0] ++ .jz .end_ :: (seg (z1 ++ [.argQ 8 .BX, .shrQ 2 .BX]) ++ .jz .r1c2 ::
  .label .r1c4 :: gv_r1c4 inc))

/-- From label `r2inc` on; `inc` is the part for strided operands. -/
def gv_r2inc (inc : List Line) : List Line :=
  (seg [.argQ 56 .SI, .lea ⟨.AX, some (.R12, 2), 0⟩ .AX, .movQ .AX .DI] ++ .label .r1 :: gv_r1
  inc)

/-- From label `r2st_inc` on; `inc` is the part for strided operands. -/
def gv_r2st_inc (inc : List Line) : List Line :=
  (seg [.ld .s ⟨.DX, none, 0⟩ 4, .ldHi ⟨.DX, some (.R10, 1), 0⟩ 4, .op2 .mul .x (.v 15) 0, .op2
  .mul .x (.v 14) 4, .op2 .add .x (.v 0) 4, .st .s 4 ⟨.DX, none, 0⟩, .stHi 4 ⟨.DX, some (.R10,
  1), 0⟩, .lea ⟨.DX, some (.R10, 2), 0⟩ .DX] ++ .label .r2inc :: gv_r2inc inc)

/-- From label `r2end` on; `inc` is the part for strided operands. -/
def gv_r2end (inc : List Line) : List Line :=
  (seg [.cmpQ .R10 8] ++ .jnz .r2st_inc :: (seg (s2 ++ ((List.range 1).map (fun k => Ins.st .x
  (k + 4) (chunk 8 .x .DX none k)) ++ [.addQ 16 .DX])) ++ .jmp .r2inc :: .label .r2st_inc ::
  gv_r2st_inc inc))

/-- From label `r2c1` on; `inc` is the part for strided operands. -/
def gv_r2c1 (inc : List Line) : List Line :=
  (seg (h2 ++ [.testArg 1 8]) ++ .jz .r2end :: (seg (k21 ++ [.addQ 8 .DI, .addQ 8 .SI]) ++
  .label .r2end :: gv_r2end inc))

/-- From label `r2c2` on; `inc` is the part for strided operands. -/
def gv_r2c2 (inc : List Line) : List Line :=
  (seg [.testArg 2 8] ++ .jz .r2c1 :: (seg [.ld .x ⟨.SI, none, 0⟩ 12, .ld .x ⟨.DI, none, 0⟩ 8,
  .ld .x ⟨.DI, some (.R12, 1), 0⟩ 9, .op2 .mul .x (.v 12) 8, .op2 .mul .x (.v 12) 9, .op2 .add
  .x (.v 8) 0, .op2 .add .x (.v 9) 1, .addQ 16 .DI, .addQ 16 .SI] ++ .label .r2c1 :: gv_r2c1
  inc))

/-- From label `r2c4` on; `inc` is the part for strided operands. -/
def gv_r2c4 (inc : List Line) : List Line :=
  (seg (k24 ++ [.addQ 32 .DI, .addQ 32 .SI]) ++ .i (.decQ .BX) :: .jnz .r2c4 :: .label .r2c2 ::
  gv_r2c2 inc)

/-- From label `r2` on; `inc` is the part for strided operands. -/
def gv_r2 (inc : List Line) : List Line :=
  (seg [.testArg 2 0] ++ .jz .r1 :: (seg (z2 ++ [.argQ 8 .BX, .shrQ 2 .BX]) ++ .jz .r2c2 ::
  .label .r2c4 :: gv_r2c4 inc))

/-- From label `r4inc` on; `inc` is the part for strided operands. -/
def gv_r4inc (inc : List Line) : List Line :=
  (seg [.argQ 56 .SI, .lea ⟨.AX, some (.R12, 4), 0⟩ .AX, .movQ .AX .DI] ++ .i (.decQ .CX) ::
  .jnz .r4 :: .label .r2 :: gv_r2 inc)

/-- From label `r4st_inc` on; `inc` is the part for strided operands. -/
def gv_r4st_inc (inc : List Line) : List Line :=
  (seg [.ld .s ⟨.DX, none, 0⟩ 4, .ldHi ⟨.DX, some (.R10, 1), 0⟩ 4, .ld .s ⟨.DX, some (.R10, 2),
  0⟩ 5, .ldHi ⟨.DX, some (.R11, 1), 0⟩ 5, .op2 .mul .x (.v 15) 0, .op2 .mul .x (.v 15) 2, .op2
  .mul .x (.v 14) 4, .op2 .mul .x (.v 14) 5, .op2 .add .x (.v 0) 4, .op2 .add .x (.v 2) 5, .st
  .s 4 ⟨.DX, none, 0⟩, .stHi 4 ⟨.DX, some (.R10, 1), 0⟩, .st .s 5 ⟨.DX, some (.R10, 2), 0⟩,
  .stHi 5 ⟨.DX, some (.R11, 1), 0⟩, .lea ⟨.DX, some (.R10, 4), 0⟩ .DX] ++ .label .r4inc ::
  gv_r4inc inc)

/-- From label `r4end` on; `inc` is the part for strided operands. -/
def gv_r4end (inc : List Line) : List Line :=
  (seg [.cmpQ .R10 8] ++ .jnz .r4st_inc :: (seg (s4 ++ ((List.range 2).map (fun k => Ins.st .x
  (k + 4) (chunk 8 .x .DX none k)) ++ [.addQ 32 .DX])) ++ .jmp .r4inc :: .label .r4st_inc ::
  gv_r4st_inc inc))

/-- From label `r4c1` on; `inc` is the part for strided operands. -/
def gv_r4c1 (inc : List Line) : List Line :=
  (seg (h4 ++ [.testArg 1 8]) ++ .jz .r4end :: (seg (k41 ++ [.addQ 8 .DI, .addQ 8 .SI]) ++
  .label .r4end :: gv_r4end inc))

/-- From label `r4c2` on; `inc` is the part for strided operands. -/
def gv_r4c2 (inc : List Line) : List Line :=
  (seg [.testArg 2 8] ++ .jz .r4c1 :: (seg (k42 ++ [.addQ 16 .DI, .addQ 16 .SI]) ++ .label .r4c1
  :: gv_r4c1 inc))

/-- From label `r4c4` on; `inc` is the part for strided operands. -/
def gv_r4c4 (inc : List Line) : List Line :=
  (seg (k44 ++ [.addQ 32 .DI, .addQ 32 .SI]) ++ .i (.decQ .BX) :: .jnz .r4c4 :: .label .r4c2 ::
  gv_r4c2 inc)

/-- From label `r4` on; `inc` is the part for strided operands. -/
def gv_r4 (inc : List Line) : List Line :=
  (seg (z4 ++ [.argQ 8 .BX, .shrQ 2 .BX]) ++ .jz .r4c2 :: .label .r4c4 :: gv_r4c4 inc)

/-- From label `gemv_start` on; `inc` is the part for strided operands. -/
def gv_gemv_start (inc : List Line) : List Line :=
  (seg [.cmpArgI 80 1] ++ .jnz .inc :: (seg [.shrQ 2 .CX] ++ .jz .r2 :: .label .r4 :: gv_r4
  inc))

/-- From label `prep_end` on; `inc` is the part for strided operands. -/
def gv_prep_end (inc : List Line) : List Line :=
  (seg [.argQ 96 .DX, .argQ 0 .CX] ++ .label .gemv_start :: gv_gemv_start inc)

/-- From label `inc_clear1` on; `inc` is the part for strided operands. -/
def gv_inc_clear1 (inc : List Line) : List Line :=
  (seg [.testArg 1 0] ++ .jz .prep_end :: (seg [.st .s 0 ⟨.DX, none, 0⟩] ++ .label .prep_end ::
  gv_prep_end inc))

/-- From label `inc_clear2` on; `inc` is the part for strided operands. -/
def gv_inc_clear2 (inc : List Line) : List Line :=
  (seg [.testArg 2 0] ++ .jz .inc_clear1 :: (seg [.st .s 0 ⟨.DX, none, 0⟩, .st .s 1 ⟨.DX, some
  (.R10, 1), 0⟩, .lea ⟨.DX, some (.R10, 2), 0⟩ .DX] ++ .label .inc_clear1 :: gv_inc_clear1 inc))

/-- From label `inc_clear4` on; `inc` is the part for strided operands. -/
def gv_inc_clear4 (inc : List Line) : List Line :=
  (seg [.st .s 0 ⟨.DX, none, 0⟩, .st .s 1 ⟨.DX, some (.R10, 1), 0⟩, .st .s 2 ⟨.DX, some (.R10,
  2), 0⟩, .st .s 3 ⟨.DX, some (.R11, 1), 0⟩, .lea ⟨.DX, some (.R10, 4), 0⟩ .DX] ++ .i (.decQ
  .CX) :: .jnz .inc_clear4 :: .label .inc_clear2 :: gv_inc_clear2 inc)

/-- From label `inc_clear` on; `inc` is the part for strided operands. -/
def gv_inc_clear (inc : List Line) : List Line :=
  (seg [.shrQ 2 .CX] ++ .jz .inc_clear2 :: .label .inc_clear4 :: gv_inc_clear4 inc)

/-- From label `clear1` on; `inc` is the part for strided operands. -/
def gv_clear1 (inc : List Line) : List Line :=
  (seg [.testArg 1 0] ++ .jz .prep_end :: (seg ((List.range 1).map (fun k => Ins.st .s (k + 0)
  (chunk 8 .s .DX none k))) ++ .jmp .prep_end :: .label .inc_clear :: gv_inc_clear inc))

/-- From label `clear2` on; `inc` is the part for strided operands. -/
def gv_clear2 (inc : List Line) : List Line :=
  (seg [.testArg 2 0] ++ .jz .clear1 :: (seg ((List.range 1).map (fun k => Ins.st .x (k + 0)
  (chunk 8 .x .DX none k)) ++ [.addQ 16 .DX]) ++ .label .clear1 :: gv_clear1 inc))

/-- From label `clear4` on; `inc` is the part for strided operands. -/
def gv_clear4 (inc : List Line) : List Line :=
  (seg [.testArg 4 0] ++ .jz .clear2 :: (seg ((List.range 2).map (fun k => Ins.st .x (k + 0)
  (chunk 8 .x .DX none k)) ++ [.addQ 32 .DX]) ++ .label .clear2 :: gv_clear2 inc))

/-- From label `clear8` on; `inc` is the part for strided operands. -/
def gv_clear8 (inc : List Line) : List Line :=
  (seg ((List.range 4).map (fun k => Ins.st .x (k + 0) (chunk 8 .x .DX none k)) ++ [.addQ 64
  .DX]) ++ .i (.decQ .CX) :: .jnz .clear8 :: .label .clear4 :: gv_clear4 inc)

/-- From label `gemv_clear` on; `inc` is the part for strided operands. -/
def gv_gemv_clear (inc : List Line) : List Line :=
  (seg [.zero 0, .zero 1, .zero 2, .zero 3, .cmpArgI 120 1] ++ .jnz .inc_clear :: (seg [.shrQ 3
  .CX] ++ .jz .clear4 :: .label .clear8 :: gv_clear8 inc))

def gvCode (inc : List Line) : List Line :=
  (seg [.argQ 0 .CX, .argQ 8 .BX, .cmpQ .CX 0] ++ .jz .end_ :: (seg [.cmpQ .BX 0] ++ .jz .end_
  :: (seg gvSetup ++ .jnz .gemv_start :: .label .gemv_clear :: gv_gemv_clear inc)))

theorem gemvN64_form : gemvN64 = gvCode (gemvN64.drop 321) := rfl

theorem at_gemv_clear (inc : List Line) : after .gemv_clear (gvCode inc) = gv_gemv_clear inc := rfl

theorem at_clear8 (inc : List Line) : after .clear8 (gvCode inc) = gv_clear8 inc := rfl

theorem at_clear4 (inc : List Line) : after .clear4 (gvCode inc) = gv_clear4 inc := rfl

theorem at_clear2 (inc : List Line) : after .clear2 (gvCode inc) = gv_clear2 inc := rfl

theorem at_clear1 (inc : List Line) : after .clear1 (gvCode inc) = gv_clear1 inc := rfl

theorem at_prep_end (inc : List Line) : after .prep_end (gvCode inc) = gv_prep_end inc := rfl

theorem at_gemv_start (inc : List Line) : after .gemv_start (gvCode inc) = gv_gemv_start inc := rfl

theorem at_r4 (inc : List Line) : after .r4 (gvCode inc) = gv_r4 inc := rfl

theorem at_r4c4 (inc : List Line) : after .r4c4 (gvCode inc) = gv_r4c4 inc := rfl

theorem at_r4c2 (inc : List Line) : after .r4c2 (gvCode inc) = gv_r4c2 inc := rfl

theorem at_r4c1 (inc : List Line) : after .r4c1 (gvCode inc) = gv_r4c1 inc := rfl

theorem at_r4end (inc : List Line) : after .r4end (gvCode inc) = gv_r4end inc := rfl

theorem at_r4inc (inc : List Line) : after .r4inc (gvCode inc) = gv_r4inc inc := rfl

theorem at_r2 (inc : List Line) : after .r2 (gvCode inc) = gv_r2 inc := rfl

theorem at_r2c4 (inc : List Line) : after .r2c4 (gvCode inc) = gv_r2c4 inc := rfl

theorem at_r2c2 (inc : List Line) : after .r2c2 (gvCode inc) = gv_r2c2 inc := rfl

theorem at_r2c1 (inc : List Line) : after .r2c1 (gvCode inc) = gv_r2c1 inc := rfl

theorem at_r2end (inc : List Line) : after .r2end (gvCode inc) = gv_r2end inc := rfl

theorem at_r2inc (inc : List Line) : after .r2inc (gvCode inc) = gv_r2inc inc := rfl

theorem at_r1 (inc : List Line) : after .r1 (gvCode inc) = gv_r1 inc := rfl

theorem at_r1c4 (inc : List Line) : after .r1c4 (gvCode inc) = gv_r1c4 inc := rfl

theorem at_r1c2 (inc : List Line) : after .r1c2 (gvCode inc) = gv_r1c2 inc := rfl

theorem at_r1c1 (inc : List Line) : after .r1c1 (gvCode inc) = gv_r1c1 inc := rfl

theorem at_r1end (inc : List Line) : after .r1end (gvCode inc) = gv_r1end inc := rfl

theorem at_end_ (inc : List Line) : after .end_ (gvCode inc) = gv_end_ inc := rfl

/-! ### The columns of a group of rows -/

section
variable [CommSemiring R] {G : Gv R} {h i k : Nat}

theorem Gv.Col.flags {acc : (Nat → Nat → R) → Nat → R} {j : Nat} {s : St R} (H : G.Col acc h i k j s)
    (b : Nat) (z l : Bool) : G.Col acc h i k j { s.setR .BX b with zf := z, lt := l } :=
  ⟨⟨H.le, H.cx, H.ax, H.dx, H.r10, H.r12, H.r13, H.f0, H.f8, H.f56, H.al15, H.be14, H.mem⟩, H.hi,
    H.lj, H.di, H.si, H.sum⟩

theorem Gv.Col.zflag {acc : (Nat → Nat → R) → Nat → R} {j : Nat} {s : St R} (H : G.Col acc h i k j s)
    (z l : Bool) : G.Col acc h i k j { s with zf := z, lt := l } :=
  ⟨⟨H.le, H.cx, H.ax, H.dx, H.r10, H.r12, H.r13, H.f0, H.f8, H.f56, H.al15, H.be14, H.mem⟩, H.hi,
    H.lj, H.di, H.si, H.sum⟩

theorem and_two (n : Nat) : (n &&& 2 == 0) = decide (n % 4 < 2) := by
  have h1 : n &&& 2 = (n % 4) &&& 2 := by
    have := Nat.and_two_pow_sub_one_eq_mod n 2
    rw [show n % 4 = n &&& 3 from this.symm, Nat.and_assoc]; rfl
  rw [h1]
  have : n % 4 < 4 := Nat.mod_lt _ (by omega)
  generalize n % 4 = q at this
  obtain rfl | rfl | rfl | rfl : q = 0 ∨ q = 1 ∨ q = 2 ∨ q = 3 := by omega
  all_goals rfl

theorem and_four (n : Nat) : (n &&& 4 == 0) = decide (n % 8 < 4) := by
  have h1 : n &&& 4 = (n % 8) &&& 4 := by
    have := Nat.and_two_pow_sub_one_eq_mod n 3
    rw [show n % 8 = n &&& 7 from this.symm, Nat.and_assoc]; rfl
  rw [h1]
  have : n % 8 < 8 := Nat.mod_lt _ (by omega)
  generalize n % 8 = q at this
  obtain rfl | rfl | rfl | rfl | rfl | rfl | rfl | rfl : q = 0 ∨ q = 1 ∨ q = 2 ∨ q = 3 ∨ q = 4 ∨
    q = 5 ∨ q = 6 ∨ q = 7 := by omega
  all_goals rfl

theorem and_one (n : Nat) : (n &&& 1 == 0) = decide (n % 2 = 0) := by
  rw [Nat.and_one_is_mod]
  rfl

/-- Groups of four columns, then two, then one; `M` joins the lanes. -/
theorem cols_ends {code : List Line} {c4 c2 c1 ce : Lbl} {Z K4 K2 M K1 : List Ins}
    {acc : (Nat → Nat → R) → Nat → R} {P : St R → Prop}
    (hc4 : after c4 code = seg K4 ++ .i (.decQ .BX) :: .jnz c4 :: .label c2 :: after c2 code)
    (hc2 : after c2 code = seg [.testArg 2 8] ++ .jz c1 :: (seg K2 ++ .label c1 :: after c1 code))
    (hc1 : after c1 code = seg M ++ .jz ce :: (seg K1 ++ .label ce :: after ce code))
    (hZ : ∀ s, G.Col acc2 0 i k 0 s → ∃ u, execs G.E Z s = some u ∧ u.r .BX = G.n / 4 ∧
      u.zf = (G.n / 4 == 0) ∧ G.Col acc2 h i k 0 u)
    (h4 : ∀ j s, G.Col acc2 h i k j s → j + 4 ≤ G.n → ∃ u, execs G.E K4 s = some u ∧
      u.r .BX = s.r .BX ∧ G.Col acc2 h i k (j + 4) u)
    (h2 : ∀ j s, G.Col acc2 h i k j s → j + 2 ≤ G.n → ∃ u, execs G.E K2 s = some u ∧
      u.r .BX = s.r .BX ∧ G.Col acc2 h i k (j + 2) u)
    (hM : ∀ j s, G.Col acc2 h i k j s → ∃ u, execs G.E M s = some u ∧
      u.zf = (G.n &&& 1 == 0) ∧ G.Col acc h i k j u)
    (h1 : ∀ j s, G.Col acc h i k j s → j + 1 = G.n → ∃ u, execs G.E K1 s = some u ∧
      G.Fin acc h i k u)
    (hfin : ∀ s, G.Fin acc h i k s → Ends G.E code (after ce code) s P) {s : St R}
    (H : G.Col acc2 0 i k 0 s) :
    Ends G.E code (seg Z ++ .jz c2 :: .label c4 :: after c4 code) s P := by
  have p1 : ∀ j s, G.Col acc2 h i k j s → j = G.n / 2 * 2 → Ends G.E code (after c1 code) s P := by
    intro j s Hs hj
    obtain ⟨u, e, hz, Hu⟩ := hM j s Hs
    rw [hc1]
    rw [and_one] at hz
    refine .seg e (.jz ?_ ?_)
    · intro ht
      rw [ht] at hz
      have := of_decide_eq_true hz.symm
      have hn : j = G.n := by omega
      subst hn
      exact hfin _ ⟨Hu.toBase, Hu.hi, Hu.sum⟩
    · intro ht
      rw [ht] at hz
      have := of_decide_eq_false hz.symm
      obtain ⟨v, e', Hv⟩ := h1 j u Hu (by omega)
      exact .seg e' (.label (hfin _ Hv))
  have p2 : ∀ s, G.Col acc2 h i k (G.n / 4 * 4) s → Ends G.E code (after c2 code) s P := by
    intro s Hs
    rw [hc2]
    refine .seg rfl (.jz ?_ ?_)
    · intro ht
      simp only [Hs.f8, and_two, decide_eq_true_eq] at ht
      exact p1 _ _ (Hs.zflag _ _) (by omega)
    · intro ht
      simp only [Hs.f8, and_two, decide_eq_false_iff_not] at ht
      obtain ⟨v, e', -, Hv⟩ := h2 _ _ (Hs.zflag _ _) (show G.n / 4 * 4 + 2 ≤ G.n by omega)
      exact .seg e' (.label (p1 _ _ Hv (by omega)))
  obtain ⟨u, e, hb, hz, Hu⟩ := hZ s H
  refine .seg e (.jz ?_ ?_)
  · intro ht
    rw [ht] at hz
    have h0 : G.n / 4 = 0 := by simpa using hz.symm
    refine p2 _ ?_
    rw [h0]
    exact Hu
  · intro ht
    rw [ht] at hz
    have h0 : G.n / 4 ≠ 0 := by simpa using hz.symm
    obtain ⟨q, hq⟩ := Nat.exists_eq_succ_of_ne_zero h0
    refine .label (Ends.dec (Inv := fun q s => q ≤ G.n / 4 ∧ G.Col acc2 h i k (4 * (G.n / 4 - q)) s)
      hc4 ?_ ?_ ?_ q u ⟨by omega, ?_⟩ (by omega))
    · exact fun q s a z l h => ⟨h.1, h.2.flags a z l⟩
    · rintro q s ⟨hle, Hs⟩
      obtain ⟨v, ev, hv, Hv⟩ := h4 _ s Hs (by omega)
      refine ⟨v, ev, hv, by omega, ?_⟩
      rwa [show 4 * (G.n / 4 - q) = 4 * (G.n / 4 - (q + 1)) + 4 by omega]
    · rintro s ⟨-, Hs⟩
      refine .label (p2 _ ?_)
      rwa [show G.n / 4 * 4 = 4 * (G.n / 4 - 0) by omega]
    · rw [hq, show 4 * (q.succ - (q + 1)) = 0 by omega]
      exact Hu

/-! ### The rows -/

variable {inc : List Line}

theorem Gv.Col.nil {acc : (Nat → Nat → R) → Nat → R} {j : Nat} {s : St R} (H : G.Col acc h i k j s)
    (hj : j = 0) : G.Col acc2 0 i k 0 s := by
  subst hj
  exact ⟨H.toBase, H.le, H.lj, H.di, H.si, fun q hq => by omega⟩

/-- The rest, less than two rows. -/
theorem r1_ends (hp : G.Pre) {s : St R} (H : G.Col acc2 0 i k 0 s) (hi : i = G.m / 2 * 2) :
    Ends G.E (gvCode inc) (gv_r1 inc) s fun t => Done 8 G.y G.T G.m1 G.m t.mem := by
  refine .seg rfl (.jz ?_ ?_)
  · intro ht
    simp only [H.f0, and_one, decide_eq_true_eq] at ht
    rw [at_end_]
    refine .ret ?_
    have e : i = G.m := by omega
    have := H.mem
    rwa [e] at this
  · intro ht
    simp only [H.f0, and_one, decide_eq_false_iff_not] at ht
    have e : i + 1 = G.m := by omega
    refine cols_ends (code := gvCode inc) (c4 := .r1c4) (c2 := .r1c2) (c1 := .r1c1) (ce := .r1end) (h := 1)
      (Z := z1 ++ [.argQ 8 .BX, .shrQ 2 .BX]) (M := [] ++ [.testArg 1 8]) (acc := acc2) (k := k)
      rfl rfl rfl (fun s Hs => init_run hp Hs (by omega) (z1_run hp s)) (fun j s => k14_run hp)
      (fun j s => k12_run hp)
      (fun j s Hs => mid_run hp Hs ⟨s, rfl, rfl, rfl, rfl, fun _ _ => rfl, fun _ _ => rfl, fun _ _ => rfl⟩)
      (fun j s => k11_run hp) ?_ (H.zflag _ _)
    intro s Hs
    obtain ⟨t, ht, hd⟩ := s1_run hp Hs
    rw [at_r1end]
    refine .seg ht (.label (.ret ?_))
    rwa [e] at hd

theorem r2_ends (hp : G.Pre) {s : St R} (H : G.Col acc2 0 i k 0 s) (hi : i = G.m / 4 * 4) :
    Ends G.E (gvCode inc) (gv_r2 inc) s fun t => Done 8 G.y G.T G.m1 G.m t.mem := by
  refine .seg rfl (.jz ?_ ?_)
  · intro ht
    simp only [H.f0, and_two, decide_eq_true_eq] at ht
    rw [at_r1]
    exact r1_ends hp (H.zflag _ _) (by omega)
  · intro ht
    simp only [H.f0, and_two, decide_eq_false_iff_not] at ht
    refine cols_ends (code := gvCode inc) (c4 := .r2c4) (c2 := .r2c2) (c1 := .r2c1) (ce := .r2end) (h := 2)
      (Z := z2 ++ [.argQ 8 .BX, .shrQ 2 .BX]) (M := h2 ++ [.testArg 1 8]) (acc := accH) (k := k)
      rfl rfl rfl (fun s Hs => init_run hp Hs (by omega) (z2_run hp s)) (fun j s => k24_run hp)
      (fun j s => k22_run hp) (fun j s Hs => mid_run hp Hs (h2_run hp s))
      (fun j s => k21_run hp) ?_ (H.zflag _ _)
    intro s Hs
    rw [at_r2end]
    refine .seg rfl (.jnz ?_ fun _ => ?_)
    · intro hz
      simp [Hs.r10] at hz
    · have Hf : G.Fin accH 2 i k { s with zf := s.r .R10 == 8, lt := decide (s.r .R10 < 8) } :=
        ⟨⟨Hs.le, Hs.cx, Hs.ax, Hs.dx, Hs.r10, Hs.r12, Hs.r13, Hs.f0, Hs.f8, Hs.f56, Hs.al15, Hs.be14,
          Hs.mem⟩, Hs.hi, Hs.sum⟩
      obtain ⟨t, ht, hd⟩ := s2_run hp Hf
      obtain ⟨u, hu, Hu⟩ := next_run hd
      refine .seg ht (.jmp ?_)
      rw [at_r2inc]
      exact .seg hu (.label (r1_ends hp Hu (by omega)))

theorem r4_body (hp : G.Pre) {P : St R → Prop} {s : St R} (H : G.Col acc2 0 i k 0 s)
    (hi : i + 4 ≤ G.m)
    (hnext : ∀ t, G.Col acc2 0 (i + 4) k 0 t → Ends G.E (gvCode inc)
      (.i (.decQ .CX) :: .jnz .r4 :: .label .r2 :: gv_r2 inc) t P) :
    Ends G.E (gvCode inc) (gv_r4 inc) s P := by
  refine cols_ends (code := gvCode inc) (c4 := .r4c4) (c2 := .r4c2) (c1 := .r4c1) (ce := .r4end) (h := 4)
    (Z := z4 ++ [.argQ 8 .BX, .shrQ 2 .BX]) (M := h4 ++ [.testArg 1 8]) (acc := accH) (k := k)
    rfl rfl rfl (fun s Hs => init_run hp Hs (by omega) (z4_run hp s)) (fun j s => k44_run hp)
    (fun j s => k42_run hp) (fun j s Hs => mid_run hp Hs (h4_run hp s))
    (fun j s => k41_run hp) ?_ H
  intro s Hs
  rw [at_r4end]
  refine .seg rfl (.jnz ?_ fun _ => ?_)
  · intro hz
    simp [Hs.r10] at hz
  · have Hf : G.Fin accH 4 i k { s with zf := s.r .R10 == 8, lt := decide (s.r .R10 < 8) } :=
      ⟨⟨Hs.le, Hs.cx, Hs.ax, Hs.dx, Hs.r10, Hs.r12, Hs.r13, Hs.f0, Hs.f8, Hs.f56, Hs.al15, Hs.be14,
        Hs.mem⟩, Hs.hi, Hs.sum⟩
    obtain ⟨t, ht, hd⟩ := s4_run hp Hf
    obtain ⟨u, hu, Hu⟩ := next_run hd
    refine .seg ht (.jmp ?_)
    rw [at_r4inc]
    exact .seg hu (hnext u Hu)

theorem Gv.Col.count {acc : (Nat → Nat → R) → Nat → R} {j : Nat} {s : St R} (H : G.Col acc h i k j s)
    (c : Nat) (z l : Bool) : G.Col acc h i c j { s.setR .CX c with zf := z, lt := l } :=
  ⟨⟨H.le, rfl, H.ax, H.dx, H.r10, H.r12, H.r13, H.f0, H.f8, H.f56, H.al15, H.be14, H.mem⟩, H.hi,
    H.lj, H.di, H.si, H.sum⟩

theorem r4_ends (hp : G.Pre) : ∀ k i s, G.Col acc2 0 i (k + 1) 0 s → i + 4 * (k + 1) = G.m / 4 * 4 →
    Ends G.E (gvCode inc) (gv_r4 inc) s fun t => Done 8 G.y G.T G.m1 G.m t.mem := by
  intro k
  induction k with
  | zero =>
    intro i s H hi
    refine r4_body hp H (by omega) fun t Ht => ?_
    have hc := Ht.cx
    refine .ins (if_pos (by omega)) (.jnz ?_ fun _ => .label (r2_ends hp (Ht.count _ _ _) (by omega)))
    intro hz
    simp [hc] at hz
  | succ k ih =>
    intro i s H hi
    refine r4_body hp H (by omega) fun t Ht => ?_
    have hc := Ht.cx
    refine .ins (if_pos (by omega)) (.jnz (fun _ => ?_) ?_)
    · rw [at_r4]
      have := Ht.count (t.r .CX - 1) (t.r .CX - 1 == 0) false
      rw [show t.r .CX - 1 = k + 1 by omega] at this ⊢
      exact ih _ _ this (by omega)
    · intro hz
      simp [hc] at hz

/-! ### Before the rows -/

/-- The arguments are in the registers. -/
structure Gv.Rdy (G : Gv R) (s : St R) : Prop where
  ax : s.r .AX = G.a
  si : s.r .SI = G.x
  di : s.r .DI = G.a
  r10 : s.r .R10 = 8
  r12 : s.r .R12 = 8 * G.lda
  r13 : s.r .R13 = 24 * G.lda
  f0 : s.frame 0 = G.m
  f8 : s.frame 8 = G.n
  f56 : s.frame 56 = G.x
  f80 : s.frame 80 = 1
  f96 : s.frame 96 = G.y
  f120 : s.frame 120 = 1
  al15 : ∀ l, l < 2 → s.v 15 l = G.al
  be14 : ∀ l, l < 2 → s.v 14 l = G.be

theorem start_ends (hp : G.Pre) {s : St R} (H : G.Rdy s) (hd : s.r .DX = G.y) (hc : s.r .CX = G.m)
    (hm : s.mem = G.m1) :
    Ends G.E (gvCode inc) (gv_gemv_start inc) s fun t => Done 8 G.y G.T G.m1 G.m t.mem := by
  refine .seg rfl (.jnz ?_ fun _ => ?_)
  · intro hz
    simp [H.f80] at hz
  · have e4 : G.m >>> 2 = G.m / 4 := Nat.shiftRight_eq_div_pow _ 2
    have Hc : ∀ (z l z' l' : Bool), G.Col acc2 0 0 (G.m / 4) 0
        { ({ s with zf := z, lt := l } : St R).setR .CX (s.r .CX >>> 2) with zf := z', lt := l' } := by
      intro z l z' l'
      refine ⟨⟨Nat.zero_le _, ?_, ?_, ?_, ?_, ?_, ?_, H.f0, H.f8, H.f56, H.al15, H.be14, ?_⟩,
        Nat.zero_le _, Nat.zero_le _, ?_, ?_, fun q hq => by omega⟩
      all_goals simp [St.setR, hc, e4, H.ax, hd, H.r10, H.r12, H.r13, H.di, H.si]
      rw [hm]
      exact Done.zero
    refine .seg rfl (.jz ?_ ?_)
    · intro hz
      simp only [hc, e4, beq_iff_eq] at hz
      rw [at_r2]
      exact r2_ends hp (Hc _ _ _ _) (by omega)
    · intro hz
      simp only [hc, e4, beq_eq_false_iff_ne] at hz
      have := Hc (s.frame 80 == 1) (decide (s.frame 80 < 1)) (s.r .CX >>> 2 == 0) false
      obtain ⟨q, hq⟩ := Nat.exists_eq_succ_of_ne_zero hz
      rw [hq] at this
      exact .label (r4_ends hp q 0 _ this (by omega))

/-- `i` elements of `y` are zero. -/
structure Gv.Clr (G : Gv R) (m0 : Nat → R) (i : Nat) (s : St R) : Prop extends G.Rdy s where
  le : i ≤ G.m
  dx : s.r .DX = G.y + 8 * i
  z : ∀ q l, q < 4 → l < 2 → s.v q l = 0
  mem : Done 8 G.y (fun _ => 0) m0 i s.mem

theorem clr_mem (hp : G.Pre) {m0 : Nat → R} {w : W} (hw : lanesOf 8 w ≤ 2) {u : Nat} (hu : u ≤ 4)
    {s : St R} (H : G.Clr m0 i s) (hi : i + u * lanesOf 8 w ≤ G.m) :
    ∃ t, execs G.E ((List.range u).map fun k => Ins.st w (k + 0) (chunk 8 w .DX none k)) s = some t ∧
      t.r = s.r ∧ t.v = s.v ∧ t.frame = s.frame ∧
      Done 8 G.y (fun _ => 0) m0 (i + u * lanesOf 8 w) t.mem := by
  have hes := hp.es
  have hL : G.E.lanes w = lanesOf 8 w := by simp [Env.lanes, hes]
  obtain ⟨t1, h1, r1, w1, f1, m1, o1⟩ := stores (E := G.E) (w := w) (base := .DX) (ix := none) (d := 0)
    (u := u) (p := G.y + 8 * i) (s := s) (by omega) (by simp [St.addr, H.dx])
    (by
      intro j hj
      rw [hL] at hj
      rw [hes, Nat.add_assoc, ← Nat.mul_add]
      exact hp.wrY _ (by omega))
  rw [hes, hL] at o1
  rw [hes] at h1
  simp only [hL, hes] at m1
  refine ⟨_, h1, r1, w1, f1, ?_⟩
  refine Done.write (by omega) H.mem ?_ ?_
  · intro c hc
    have hLp : 0 < lanesOf 8 w := by
      rcases Nat.eq_zero_or_pos (lanesOf 8 w) with h0 | h0
      · rw [h0] at hc; omega
      · exact h0
    have hck : c / lanesOf 8 w < u := Nat.div_lt_of_lt_mul (by rwa [Nat.mul_comm] at hc)
    have e : c / lanesOf 8 w * lanesOf 8 w + c % lanesOf 8 w = c := Nat.div_add_mod' _ _
    have hl := Nat.mod_lt c hLp
    have := m1 _ hck _ hl
    rw [e, H.z _ _ (by omega) (by omega)] at this
    exact this
  · intro q hq
    rw [o1 q hq]

theorem clr_run (hp : G.Pre) {m0 : Nat → R} {w : W} (hw : lanesOf 8 w ≤ 2) {u : Nat} (hu : u ≤ 4)
    {s : St R} (H : G.Clr m0 i s) (hi : i + u * lanesOf 8 w ≤ G.m) :
    ∃ t, execs G.E (((List.range u).map fun k => Ins.st w (k + 0) (chunk 8 w .DX none k)) ++
        [.addQ (8 * (u * lanesOf 8 w)) .DX]) s = some t ∧ t.r .CX = s.r .CX ∧
      G.Clr m0 (i + u * lanesOf 8 w) t := by
  obtain ⟨t1, h1, r1, w1, f1, m1⟩ := clr_mem hp hw hu H hi
  refine ⟨_, (execs_append h1).trans rfl, ?_, ⟨?_, ?_, ?_, ?_, ?_, ?_, ?_, ?_, ?_, ?_, ?_, ?_, ?_, ?_⟩,
    hi, ?_, ?_, m1⟩
  all_goals simp only [St.setR, r1, f1, w1, reduceCtorEq, if_false, if_true]
  · exact H.ax
  · exact H.si
  · exact H.di
  · exact H.r10
  · exact H.r12
  · exact H.r13
  · exact H.f0
  · exact H.f8
  · exact H.f56
  · exact H.f80
  · exact H.f96
  · exact H.f120
  · exact H.al15
  · exact H.be14
  · rw [H.dx]; ring
  · exact H.z

theorem Gv.Clr.flags {m0 : Nat → R} {s : St R} (H : G.Clr m0 i s) (a : Nat) (z l : Bool) :
    G.Clr m0 i { s.setR .CX a with zf := z, lt := l } :=
  ⟨⟨H.ax, H.si, H.di, H.r10, H.r12, H.r13, H.f0, H.f8, H.f56, H.f80, H.f96, H.f120, H.al15, H.be14⟩,
    H.le, H.dx, H.z, H.mem⟩

theorem Gv.Clr.zflag {m0 : Nat → R} {s : St R} (H : G.Clr m0 i s) (z l : Bool) :
    G.Clr m0 i { s with zf := z, lt := l } :=
  ⟨⟨H.ax, H.si, H.di, H.r10, H.r12, H.r13, H.f0, H.f8, H.f56, H.f80, H.f96, H.f120, H.al15, H.be14⟩,
    H.le, H.dx, H.z, H.mem⟩

/-- Clearing `y`. -/
theorem clear_ends {P : St R → Prop} (hp : G.Pre) {m0 : Nat → R} {s : St R} (H : G.Clr m0 0 s)
    (hc : s.r .CX = G.m)
    (hnext : ∀ t, G.Rdy t → Done 8 G.y (fun _ => 0) m0 G.m t.mem →
      Ends G.E (gvCode inc) (gv_prep_end inc) t P) :
    Ends G.E (gvCode inc) (seg [.shrQ 3 .CX] ++ .jz .clear4 :: .label .clear8 :: gv_clear8 inc) s P := by
  have fin : ∀ t, G.Clr m0 G.m t → Ends G.E (gvCode inc) (gv_prep_end inc) t P := fun t Ht =>
    hnext t Ht.toRdy Ht.mem
  have c1 : ∀ t i, G.Clr m0 i t → i = G.m / 2 * 2 → Ends G.E (gvCode inc) (gv_clear1 inc) t P := by
    intro t i Ht hi
    refine .seg rfl (.jz ?_ ?_)
    · intro hz
      simp only [Ht.f0, and_one, decide_eq_true_eq] at hz
      rw [at_prep_end]
      have e : i = G.m := by omega
      subst e
      exact fin _ (Ht.zflag _ _)
    · intro hz
      simp only [Ht.f0, and_one, decide_eq_false_iff_not] at hz
      have Ht' := Ht.zflag (t.frame 0 &&& 1 == 0) false
      obtain ⟨u, hu, hr, hv, hf, hd⟩ := clr_mem hp (w := .s) (by simp [lanesOf]) (u := 1) (by omega)
        Ht' (by simp only [lanesOf]; omega)
      refine .seg hu (.jmp ?_)
      rw [at_prep_end]
      have e : i + 1 * lanesOf 8 .s = G.m := by simp only [lanesOf]; omega
      rw [e] at hd
      refine hnext u ⟨?_, ?_, ?_, ?_, ?_, ?_, ?_, ?_, ?_, ?_, ?_, ?_, ?_, ?_⟩ hd
      all_goals simp only [hr, hv, hf]
      · exact Ht.ax
      · exact Ht.si
      · exact Ht.di
      · exact Ht.r10
      · exact Ht.r12
      · exact Ht.r13
      · exact Ht.f0
      · exact Ht.f8
      · exact Ht.f56
      · exact Ht.f80
      · exact Ht.f96
      · exact Ht.f120
      · exact Ht.al15
      · exact Ht.be14
  have c2 : ∀ t i, G.Clr m0 i t → i = G.m / 4 * 4 → Ends G.E (gvCode inc) (gv_clear2 inc) t P := by
    intro t i Ht hi
    refine .seg rfl (.jz ?_ ?_)
    · intro hz
      simp only [Ht.f0, and_two, decide_eq_true_eq] at hz
      rw [at_clear1]
      exact c1 _ _ (Ht.zflag _ _) (by omega)
    · intro hz
      simp only [Ht.f0, and_two, decide_eq_false_iff_not] at hz
      have Ht' := Ht.zflag (t.frame 0 &&& 2 == 0) false
      obtain ⟨u, hu, -, hd⟩ := clr_run hp (w := .x) (by simp [lanesOf]) (u := 1) (by omega)
        Ht' (by simp only [lanesOf]; omega)
      exact .seg hu (.label (c1 _ _ hd (by simp only [lanesOf]; omega)))
  have c4 : ∀ t i, G.Clr m0 i t → i = G.m / 8 * 8 → Ends G.E (gvCode inc) (gv_clear4 inc) t P := by
    intro t i Ht hi
    refine .seg rfl (.jz ?_ ?_)
    · intro hz
      simp only [Ht.f0, and_four, decide_eq_true_eq] at hz
      rw [at_clear2]
      exact c2 _ _ (Ht.zflag _ _) (by omega)
    · intro hz
      simp only [Ht.f0, and_four, decide_eq_false_iff_not] at hz
      have Ht' := Ht.zflag (t.frame 0 &&& 4 == 0) false
      obtain ⟨u, hu, -, hd⟩ := clr_run hp (w := .x) (by simp [lanesOf]) (u := 2) (by omega)
        Ht' (by simp only [lanesOf]; omega)
      exact .seg hu (.label (c2 _ _ hd (by simp only [lanesOf]; omega)))
  have e8 : G.m >>> 3 = G.m / 8 := Nat.shiftRight_eq_div_pow _ 3
  refine .seg rfl (.jz ?_ ?_)
  · intro hz
    simp only [hc, e8, beq_iff_eq] at hz
    rw [at_clear4]
    exact c4 _ 0 (H.flags _ _ _) (by omega)
  · intro hz
    simp only [hc, e8, beq_eq_false_iff_ne] at hz
    obtain ⟨q, hq⟩ := Nat.exists_eq_succ_of_ne_zero hz
    refine .label (Ends.dec (Inv := fun q s => q ≤ G.m / 8 ∧ G.Clr m0 (8 * (G.m / 8 - q)) s)
      (L := .clear8) rfl ?_ ?_ ?_ q _ ⟨by omega, ?_⟩ ?_)
    · exact fun q s a z l h => ⟨h.1, h.2.flags a z l⟩
    · rintro q s ⟨hle, Hs⟩
      obtain ⟨v, ev, hv, Hv⟩ := clr_run hp (w := .x) (by simp [lanesOf]) (u := 4) (by omega) Hs
        (by simp only [lanesOf]; omega)
      refine ⟨v, ev, hv, by omega, ?_⟩
      simp only [lanesOf] at Hv
      rwa [show 8 * (G.m / 8 - q) = 8 * (G.m / 8 - (q + 1)) + 4 * (16 / 8) by omega]
    · rintro s ⟨-, Hs⟩
      exact .label (c4 _ _ Hs (by omega))
    · rw [hq, show 8 * (q.succ - (q + 1)) = 0 by omega]
      exact H.flags _ _ _
    · simp [St.setR, hc, e8, hq]

/-- The frame of a call. -/
structure Gv.Frame (G : Gv R) (f : Nat → Nat) : Prop where
  f0 : f 0 = G.m
  f8 : f 8 = G.n
  f24 : f 24 = G.a
  f48 : f 48 = G.lda
  f56 : f 56 = G.x
  f80 : f 80 = 1
  f96 : f 96 = G.y
  f120 : f 120 = 1

theorem setup_run (hp : G.Pre) {s : St R} (hf : G.Frame s.frame) (hal : G.E.argF 16 = G.al)
    (hbe : G.E.argF 88 = G.be) (hc : s.r .CX = G.m) (hm : 1 ≤ G.m) :
    ∃ t, execs G.E gvSetup s = some t ∧ G.Rdy t ∧ t.r .DX = G.y ∧ t.r .CX = G.m ∧
      t.mem = s.mem ∧ t.zf = G.E.eqf 0 G.be := by
  have hes := hp.es
  let s1 : St R := (((((((((((s.setV 15 (keep (16 / G.E.es) (fun _ => G.E.argF 16) (s.v 15))).setV 14
    (keep (16 / G.E.es) (fun _ => G.E.argF 88) (s.v 14))).setR .SI G.x).setR .DX G.y).setR .AX
    G.a).setR .R10 1).setR .R12 (8 * G.lda)).setR .R13 (24 * G.lda)).setR .DI G.a).setR .R15 0).setR
    .R14 G.m)
  have h1 : ∃ t, execs G.E (gvSetup.take 12) s = some t ∧ t.r = s1.r ∧ t.v = s1.v ∧
      t.mem = s.mem ∧ t.frame = s.frame := by
    refine ⟨_, rfl, ?_, rfl, rfl, rfl⟩
    funext q
    cases q <;> simp [s1, St.setR, St.setV, St.addr, hf.f56, hf.f96, hf.f24, hf.f120, hf.f48, hc,
      Nat.shiftLeft_eq] <;> ring
  obtain ⟨t, ht, hr, hv, hm', hfr⟩ := h1
  have e1 : gvSetup = gvSetup.take 12 ++ (.subQ 1 .R14 :: gvSetup.drop 13) := rfl
  have e14 : 1 ≤ t.r .R14 := by rw [hr]; simpa [s1, St.setR] using hm
  have h2 : ∃ u, execs G.E (gvSetup.drop 13) { t.setR .R14 (t.r .R14 - 1) with
      zf := (t.r .R14 - 1) == 0, lt := false } = some u ∧ G.Rdy u ∧ u.r .DX = G.y ∧
      u.r .CX = G.m ∧ u.mem = s.mem ∧ u.zf = G.E.eqf 0 G.be := by
    have h10 : t.r .R10 = 1 := by rw [hr]; simp [s1, St.setR]
    refine ⟨_, rfl, ?_⟩
    simp only [St.setR, St.setV, reduceCtorEq, if_false, if_true, h10, Nat.not_lt_zero, decide_false,
      St.addr, hr, hv, hm', hfr, Bool.false_eq_true]
    refine ⟨⟨?_, ?_, ?_, ?_, ?_, ?_, ?_, ?_, ?_, ?_, ?_, ?_, ?_, ?_⟩, ?_, ?_, ?_, ?_⟩
    all_goals simp [s1, St.setR, St.setV, keep, hes, hf.f0, hf.f8, hf.f56, hf.f80, hf.f96, hf.f120,
      hal, hbe, hc, hp.ex.zero]
    all_goals
      intro l hl hl'
      omega
  obtain ⟨u, hu, h⟩ := h2
  refine ⟨u, ?_, h⟩
  rw [e1, execs_append ht]
  have h3 : exec G.E (.subQ 1 .R14) t = some { t.setR .R14 (t.r .R14 - 1) with
      zf := (t.r .R14 - 1) == 0, lt := false } := if_pos e14
  simp only [execs, h3, Option.bind_some]
  exact hu

/-- A call with contiguous operands. -/
theorem gemv_ends (hp : G.Pre) {s : St R} (hf : G.Frame s.frame) (hal : G.E.argF 16 = G.al)
    (hbe : G.E.argF 88 = G.be) (h0 : G.E.eqf 0 G.be = true → G.be = 0) (hm : s.mem = G.m1)
    (h1 : 1 ≤ G.m) (h2 : 1 ≤ G.n) :
    Ends G.E (gvCode inc) (gvCode inc) s fun t => Done 8 G.y G.T G.m1 G.m t.mem := by
  refine .seg rfl (.jz ?_ fun _ => .seg rfl (.jz ?_ fun _ => ?_))
  · intro hz
    simp [St.setR, hf.f0] at hz
    omega
  · intro hz
    simp [St.setR, hf.f8] at hz
    omega
  obtain ⟨t, ht, Ht, td, tc, tm, tz⟩ := setup_run (s := { ({ ((s.setR .CX (s.frame 0)).setR .BX (s.frame 8)) with
      zf := s.frame 0 == 0, lt := decide (s.frame 0 < 0) } : St R) with
      zf := s.frame 8 == 0, lt := decide (s.frame 8 < 0) }) hp hf hal hbe (by simp [St.setR, hf.f0]) h1
  have tm : t.mem = G.m1 := tm.trans hm
  refine .seg ht (.jnz ?_ ?_)
  · intro _
    rw [at_gemv_start]
    exact start_ends hp Ht td tc tm
  · intro hz
    have hb := h0 (tz.symm.trans hz)
    refine .label (.seg rfl (.jnz ?_ fun _ => ?_))
    · intro hz
      simp [St.setV, Ht.f120] at hz
    · refine clear_ends (m0 := G.m1) hp ⟨⟨Ht.ax, Ht.si, Ht.di, Ht.r10, Ht.r12, Ht.r13, Ht.f0, Ht.f8,
        Ht.f56, Ht.f80, Ht.f96, Ht.f120, Ht.al15, Ht.be14⟩, Nat.zero_le _, ?_, ?_, ?_⟩ tc ?_
      · simp [St.setV, td]
      · intro q l hq hl
        obtain rfl | rfl | rfl | rfl : q = 0 ∨ q = 1 ∨ q = 2 ∨ q = 3 := by omega
        all_goals simp [St.setV, keep, hp.es, hl, hp.ex.zero]
      · change Done 8 G.y (fun _ => 0) G.m1 0 t.mem
        rw [tm]
        exact Done.zero
      · intro u Hu hd
        let G' : Gv R := { G with m1 := u.mem }
        have hp' : G'.Pre := ⟨hp.es, hp.ex, hp.rdA, hp.rdX, hp.rdY, hp.wrY, hp.apA, hp.apX⟩
        have hA : ∀ i j, i < G.m → j < G.n → G'.A i j = G.A i j := fun i j hi hj =>
          hd.2 _ fun k hk => hp.apA i j k hi hj hk
        have hX : ∀ j, j < G.n → G'.X j = G.X j := fun j hj => hd.2 _ fun k hk => hp.apX j k hj hk
        have hT : ∀ i, i < G.m → G'.T i = G.T i := by
          intro i hi
          have e : G'.dot i G'.n = G.dot i G.n := Finset.sum_congr rfl fun j hj => by
            have hj := Finset.mem_range.1 hj
            rw [hA i j hi hj, hX j hj]
          have hb' : G'.be = 0 := hb
          simp only [Gv.T, e, hb, hb', zero_mul]
          rfl
        refine .seg rfl (.label ?_)
        have := start_ends (G := G') (inc := inc) (s := (u.setR .DX (u.frame 96)).setR .CX
          ((u.setR .DX (u.frame 96)).frame 0)) hp' ⟨Hu.ax, Hu.si, Hu.di, Hu.r10, Hu.r12, Hu.r13, Hu.f0,
            Hu.f8, Hu.f56, Hu.f80, Hu.f96, Hu.f120, Hu.al15, Hu.be14⟩
          (by simp [St.setR, Hu.f96, G']) (by simp [St.setR, Hu.f0, G']) rfl
        refine this.imp fun v hv => ⟨hv.1, fun i hi => ?_, fun p hq => ?_⟩
        · exact (hv.2.1 i hi).trans (hT i hi)
        · exact (hv.2.2 p hq).trans (hd.2 p hq)

end

/-- Without rows or without columns the routine returns at once. -/
theorem gemv_empty {inc : List Line} {E : Env R} {s : St R} (h : s.frame 0 = 0 ∨ s.frame 8 = 0) :
    Ends E (gvCode inc) (gvCode inc) s fun t => t.mem = s.mem := by
  refine .seg rfl (.jz (fun _ => ?_) fun hz => .seg rfl (.jz (fun _ => ?_) fun hz' => ?_))
  · rw [at_end_]
    exact .ret rfl
  · rw [at_end_]
    exact .ret rfl
  · simp [St.setR] at hz hz'
    omega

end Verif.Gonum
