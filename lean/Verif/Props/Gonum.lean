/-
The amd64 kernels of mat/internal/f32/asm32 and mat/internal/f64/asm64 that matrices use (C64):
`AxpyUnitary` and `AxpyUnitaryTo`.
-/
import Verif.Lemmas.GonumAxpy
import Verif.Model.GonumFns
import Verif.Props.AsmKernels
import Verif.Model.Dense
set_option autoImplicit false
set_option linter.unusedSimpArgs false
set_option maxRecDepth 10000

namespace Verif.Gonum

open Verif.Spec.Kernels
open Verif.Asm (Arith Alu W keep lanesOf Done SameOrApart Sl Sz poke poke_done elems_zip Exact)

variable {R : Type}

/-! ### The transcribed routines have the general forms -/

def args1 (n : Reg) : List Ins :=
  [.argQ 8 .SI, .argQ 32 .DI, .argQ 16 n, .cmpArg 40 n, .cmovLeArg 40 n]

def args3 (n : Reg) : List Ins :=
  [.argQ 0 .DI, .argQ 32 .SI, .argQ 56 .DX, .argQ 40 n, .cmpArg 64 n, .cmovLeArg 64 n,
    .cmpArg 8 n, .cmovLeArg 8 n]

theorem axpyUnitary32_form : axpyUnitary32 = axpy32 (args1 .BX)
    [.argF 0 0, .shuf0 0, .clrQ .AX, .zero 2, .zero 3] .DI := rfl

theorem axpyUnitaryTo32_form : axpyUnitaryTo32 = axpy32 (args3 .BX)
    [.argF 24 0, .shuf0 0, .clrQ .AX] .DX := rfl

theorem axpyUnitary64_form : axpyUnitary64 = axpy64 (args1 .CX)
    [.clrQ .AX, .argF 0 0, .shufpd 0 0 0, .movV 0 1] [] .DI := rfl

theorem axpyUnitaryTo64_form : axpyUnitaryTo64 = axpy64 (args3 .CX)
    [.clrQ .AX, .argF 24 0, .shufpd 0 0 0] [.movV 0 1] .DX := rfl

/-! ### The kernels -/

theorem run_unique {E : Env R} {code : List Line} {s : St R} {P : St R → Prop}
    (h : Ends E code code s P) : ∃ s', (∀ t, Call E code s t ↔ t = s') ∧ P s' := by
  obtain ⟨s', h1, h2⟩ := h
  exact ⟨s', fun t => ⟨fun h => Run.det h h1, fun h => h ▸ h1⟩, h2⟩

theorem args1_exec (E : Env R) (n : Reg) (hn : n = .BX ∨ n = .CX) {x y : Sl} {s : St R}
    (hf : s.frame = axpyFrame x y) : ∃ t, execs E (args1 n) s = some t ∧ t.r .SI = x.base ∧
      t.r .DI = y.base ∧ t.r n = min x.len y.len ∧ t.mem = s.mem := by
  rcases hn with rfl | rfl <;>
  · simp only [args1, execs, exec, Option.bind_some, St.setR, hf, axpyFrame]
    by_cases h : y.len ≤ x.len
    · refine ⟨_, rfl, ?_, ?_, ?_, ?_⟩ <;> simp [h, Nat.le_iff_lt_or_eq.1 h, or_comm] <;> split <;> simp <;> omega
    · refine ⟨_, rfl, ?_, ?_, ?_, ?_⟩ <;> simp [h] <;> split <;> simp <;> omega

/-- `CMPQ name+off(FP), n; CMOVQLE name+off(FP), n`: the smaller one. -/
theorem cmov_exec (E : Env R) (off : Nat) (n : Reg) (s : St R) : ∃ t,
    execs E [.cmpArg off n, .cmovLeArg off n] s = some t ∧ t.r n = min (s.r n) (s.frame off) ∧
      (∀ q, q ≠ n → t.r q = s.r q) ∧ t.frame = s.frame ∧ t.mem = s.mem := by
  by_cases h : s.frame off ≤ s.r n
  · have e : (s.frame off == s.r n || decide (s.frame off < s.r n)) = true := by
      simp; omega
    refine ⟨_, rfl, ?_, ?_, ?_, ?_⟩ <;> simp only [e, if_true]
    · simp [St.setR, h]
    · intro q hq; simp [St.setR, hq]
    · rfl
    · rfl
  · have e : (s.frame off == s.r n || decide (s.frame off < s.r n)) = false := by
      simp; omega
    refine ⟨_, rfl, ?_, ?_, ?_, ?_⟩ <;> simp only [e, if_false, Bool.false_eq_true]
    · omega
    · simp

theorem args3_exec (E : Env R) (n : Reg) (hn : n = .BX ∨ n = .CX) {dst x y : Sl} {s : St R}
    (hf : s.frame = axpyToFrame dst x y) : ∃ t, execs E (args3 n) s = some t ∧ t.r .SI = x.base ∧
      t.r .DI = dst.base ∧ t.r .DX = y.base ∧ t.r n = min (min x.len y.len) dst.len ∧
      t.mem = s.mem := by
  obtain ⟨a, ha, a1, a2, a3, a4, a5, a6⟩ : ∃ a : St R, execs E
      [.argQ 0 .DI, .argQ 32 .SI, .argQ 56 .DX, .argQ 40 n] s = some a ∧ a.r .SI = x.base ∧
      a.r .DI = dst.base ∧ a.r .DX = y.base ∧ a.r n = x.len ∧ a.mem = s.mem ∧ a.frame = s.frame := by
    rcases hn with rfl | rfl <;> refine ⟨_, rfl, ?_, ?_, ?_, ?_, rfl, rfl⟩ <;>
      simp [St.setR, hf, axpyToFrame]
  obtain ⟨b, hb, b1, b2, b3, b4⟩ := cmov_exec E 64 n a
  obtain ⟨c, hc, c1, c2, c3, c4⟩ := cmov_exec E 8 n b
  have h1 : Reg.SI ≠ n := by rcases hn with rfl | rfl <;> decide
  have h2 : Reg.DI ≠ n := by rcases hn with rfl | rfl <;> decide
  have h3 : Reg.DX ≠ n := by rcases hn with rfl | rfl <;> decide
  refine ⟨c, ?_, ?_, ?_, ?_, ?_, ?_⟩
  · exact (execs_append (ys := [.cmpArg 64 n, .cmovLeArg 64 n, .cmpArg 8 n, .cmovLeArg 8 n]) ha).trans
      ((execs_append (ys := [.cmpArg 8 n, .cmovLeArg 8 n]) hb).trans hc)
  · rw [c2 _ h1, b2 _ h1, a1]
  · rw [c2 _ h2, b2 _ h2, a2]
  · rw [c2 _ h3, b2 _ h3, a3]
  · rw [c1, b1, a4, b3, a6, hf]; rfl
  · rw [c4, b4, a5]

/-- Contents of `dst` after `AxpyUnitaryTo`, and that nothing else changes. -/
def AxpyCall (E : Env R) (code : List Line) (a : R) (dst x y : Nat) (n : Nat) (s : St R) : Prop :=
  ∃ s', (∀ t, Call E code s t ↔ t = s') ∧
    elems E.es s'.mem dst n = List.zipWith (fun u v => E.alu.op .add (E.alu.op .mul u a) v)
      (elems E.es s.mem x n) (elems E.es s.mem y n) ∧
    OnlyAt E.es dst n s.mem s'.mem

theorem axpy_done (sz : Sz) (alu : Alu R) (a : R) {x y : Sl} {s : St R}
    (hf : s.frame = axpyFrame x y) (hal : y.base % sz.bytes = 0)
    (ov : x.base = y.base ∨ Apart sz.bytes (min x.len y.len) x.base y.base) :
    ∃ s', (∀ t, Call (axpyEnv sz alu a x y) (axpyUnitary sz) s t ↔ t = s') ∧
      Done sz.bytes y.base (axT (axpyEnv sz alu a x y) s.mem a x.base y.base) s.mem
        (min x.len y.len) s'.mem := by
  have hp : AxPre (axpyEnv sz alu a x y) x.base y.base y.base (min x.len y.len) := by
    refine ⟨sz.bytes_pos, ?_, ?_, ?_, ov, .inl rfl⟩
    · intro i hi; simp [axpyEnv, Sl.has_of (show i < x.len by omega)]
    · intro i hi; simp [axpyEnv, Sl.has_of (show i < y.len by omega)]
    · intro i hi; exact Sl.has_of (show i < y.len by omega)
  refine run_unique ?_
  cases sz
  · obtain ⟨t, ht, t1, t2, t3, t4⟩ := args1_exec (axpyEnv .f32 alu a x y) .BX (.inl rfl) hf
    change Ends _ axpyUnitary32 axpyUnitary32 s _
    rw [axpyUnitary32_form]
    refine axpy32_ends hp rfl (.inl rfl) hal ht t1 t2 t2 t3 t4 ?_
    intro t
    refine ⟨_, rfl, ?_, ?_, rfl, ?_⟩
    · intro q hq; simp [St.setR, St.setV, hq]
    · simp [St.setR, St.setV]
    · intro l hl; simp [St.setR, St.setV, keep, axpyEnv, Sz.bytes, hl]
  · obtain ⟨t, ht, t1, t2, t3, t4⟩ := args1_exec (axpyEnv .f64 alu a x y) .CX (.inr rfl) hf
    change Ends _ axpyUnitary64 axpyUnitary64 s _
    rw [axpyUnitary64_form]
    refine axpy64_ends hp rfl (.inl rfl) hal ht t1 t2 t2 t3 t4 (fun u => ∀ l, l < 2 → u.v 1 l = a)
      (fun u v e h => e ▸ h) ?_ (fun t h _ => ⟨t, rfl, rfl, rfl, rfl, h⟩)
    intro t
    refine ⟨_, rfl, ?_, ?_, rfl, ?_, ?_⟩
    · intro q hq; simp [St.setR, St.setV, hq]
    · simp [St.setR, St.setV]
    · intro l hl; simp [St.setR, St.setV, keep, axpyEnv, Sz.bytes, hl]
    · intro l hl; simp [St.setR, St.setV, keep, axpyEnv, Sz.bytes, hl]

theorem axpyTo_done (sz : Sz) (alu : Alu R) (a : R) {dst x y : Sl} {s : St R}
    (hf : s.frame = axpyToFrame dst x y) (hal : y.base % sz.bytes = 0)
    (ovx : x.base = dst.base ∨ Apart sz.bytes (min (min x.len y.len) dst.len) x.base dst.base)
    (ovy : y.base = dst.base ∨ Apart sz.bytes (min (min x.len y.len) dst.len) y.base dst.base) :
    ∃ s', (∀ t, Call (axpyToEnv sz alu a dst x y) (axpyUnitaryTo sz) s t ↔ t = s') ∧
      Done sz.bytes dst.base (axT (axpyToEnv sz alu a dst x y) s.mem a x.base y.base) s.mem
        (min (min x.len y.len) dst.len) s'.mem := by
  have hp : AxPre (axpyToEnv sz alu a dst x y) x.base y.base dst.base
      (min (min x.len y.len) dst.len) := by
    refine ⟨sz.bytes_pos, ?_, ?_, ?_, ovx, ovy⟩
    · intro i hi; simp [axpyToEnv, Sl.has_of (show i < x.len by omega)]
    · intro i hi; simp [axpyToEnv, Sl.has_of (show i < y.len by omega)]
    · intro i hi; exact Sl.has_of (show i < dst.len by omega)
  refine run_unique ?_
  cases sz
  · obtain ⟨t, ht, t1, t2, t2', t3, t4⟩ :=
      args3_exec (axpyToEnv .f32 alu a dst x y) .BX (.inl rfl) hf
    change Ends _ axpyUnitaryTo32 axpyUnitaryTo32 s _
    rw [axpyUnitaryTo32_form]
    refine axpy32_ends hp rfl (.inr rfl) hal ht t1 t2 t2' t3 t4 ?_
    intro t
    refine ⟨_, rfl, ?_, ?_, rfl, ?_⟩
    · intro q hq; simp [St.setR, St.setV, hq]
    · simp [St.setR, St.setV]
    · intro l hl; simp [St.setR, St.setV, keep, axpyToEnv, Sz.bytes, hl]
  · obtain ⟨t, ht, t1, t2, t2', t3, t4⟩ :=
      args3_exec (axpyToEnv .f64 alu a dst x y) .CX (.inr rfl) hf
    change Ends _ axpyUnitaryTo64 axpyUnitaryTo64 s _
    rw [axpyUnitaryTo64_form]
    refine axpy64_ends hp rfl (.inr rfl) hal ht t1 t2 t2' t3 t4 (fun _ => True)
      (fun _ _ _ h => h) ?_ ?_
    · intro t
      refine ⟨_, rfl, ?_, ?_, rfl, ?_, trivial⟩
      · intro q hq; simp [St.setR, St.setV, hq]
      · simp [St.setR, St.setV]
      · intro l hl; simp [St.setR, St.setV, keep, axpyToEnv, Sz.bytes, hl]
    · intro t _ h
      refine ⟨_, rfl, rfl, rfl, ?_, ?_⟩
      · simp [St.setV]
      · intro l hl; simp [St.setV, keep, axpyToEnv, Sz.bytes, hl, h l hl]

/-- `AxpyUnitary`: for every length, every alignment and every way `x` and `y` may lie — the same
slice or disjoint — the call ends in exactly one state, having read and written only elements of its
slices (the environment refuses anything else); the first `min(len x, len y)` elements of `y` are
`x[i]*alpha + y[i]` of the old values, and everything else is as before. -/
theorem axpyUnitary_kernel (sz : Sz) (alu : Alu R) (a : R) {x y : Sl} {s : St R}
    (hf : s.frame = axpyFrame x y) (hal : y.base % sz.bytes = 0)
    (ov : x.base = y.base ∨ Apart sz.bytes (min x.len y.len) x.base y.base) :
    AxpyCall (axpyEnv sz alu a x y) (axpyUnitary sz) a y.base x.base y.base (min x.len y.len) s := by
  obtain ⟨s', h1, h2⟩ := axpy_done sz alu a hf hal ov
  exact ⟨s', h1, elems_zip h2.1, h2.2⟩

/-- `AxpyUnitaryTo`, likewise. -/
theorem axpyUnitaryTo_kernel (sz : Sz) (alu : Alu R) (a : R) {dst x y : Sl} {s : St R}
    (hf : s.frame = axpyToFrame dst x y) (hal : y.base % sz.bytes = 0)
    (ovx : x.base = dst.base ∨ Apart sz.bytes (min (min x.len y.len) dst.len) x.base dst.base)
    (ovy : y.base = dst.base ∨ Apart sz.bytes (min (min x.len y.len) dst.len) y.base dst.base) :
    AxpyCall (axpyToEnv sz alu a dst x y) (axpyUnitaryTo sz) a dst.base x.base y.base
      (min (min x.len y.len) dst.len) s := by
  obtain ⟨s', h1, h2⟩ := axpyTo_done sz alu a hf hal ovx ovy
  exact ⟨s', h1, elems_zip h2.1, h2.2⟩

/-! ### The portable loops -/

theorem axpyLoop_done {alu : Alu R} {a : R} {es dst x y n : Nat} {m0 : Nat → R} (hes : 0 < es)
    (ovx : SameOrApart es n x dst) (ovy : SameOrApart es n y dst) :
    ∀ k i m, i + k = n →
      Done es dst (fun j => alu.op .add (alu.op .mul a (m0 (x + es * j))) (m0 (y + es * j))) m0 i m →
      Done es dst (fun j => alu.op .add (alu.op .mul a (m0 (x + es * j))) (m0 (y + es * j))) m0 n
        (axpyLoop alu a es dst x y k i m) := by
  intro k
  induction k with
  | zero => intro i m hi h; simp at hi; subst hi; exact h
  | succ k ih =>
    intro i m hi h
    refine ih (i + 1) _ (by omega) (poke_done hes h ?_)
    rw [h.read hes ovx (by omega) le_rfl (by omega), h.read hes ovy (by omega) le_rfl (by omega)]

theorem axpyLoop1_done {alu : Alu R} {a : R} {es x y n : Nat} {m0 : Nat → R} (hes : 0 < es)
    (ovx : SameOrApart es n x y) :
    ∀ k i m, i + k = n →
      Done es y (fun j => alu.op .add (m0 (y + es * j)) (alu.op .mul a (m0 (x + es * j)))) m0 i m →
      Done es y (fun j => alu.op .add (m0 (y + es * j)) (alu.op .mul a (m0 (x + es * j)))) m0 n
        (axpyLoop1 alu a es x y k i m) := by
  intro k
  induction k with
  | zero => intro i m hi h; simp at hi; subst hi; exact h
  | succ k ih =>
    intro i m hi h
    refine ih (i + 1) _ (by omega) (poke_done hes h ?_)
    rw [h.read hes ovx (by omega) le_rfl (by omega),
      h.read hes (show SameOrApart es n y y from .inl rfl) (by omega) le_rfl (by omega)]

/-- The assembly and the portable loop leave the same memory; the one property of the arithmetic
used is that sums and products do not depend on the order of the two operands, so this holds of
IEEE arithmetic bit for bit (up to the payload of a NaN). -/
theorem axpyUnitary_eq_purego (sz : Sz) (alu : Alu R) (a : R)
    (hadd : ∀ u v, alu.op .add u v = alu.op .add v u) (hmul : ∀ u v, alu.op .mul u v = alu.op .mul v u)
    {x y : Sl} {s t : St R} (hlen : x.len ≤ y.len)
    (hf : s.frame = axpyFrame x y) (hal : y.base % sz.bytes = 0)
    (ov : x.base = y.base ∨ Apart sz.bytes x.len x.base y.base)
    (h : Call (axpyEnv sz alu a x y) (axpyUnitary sz) s t) :
    puregoAxpy sz alu a x y s.mem = some t.mem := by
  have hmin : min x.len y.len = x.len := by omega
  obtain ⟨s', h1, h2⟩ := axpy_done sz alu a hf hal (by rw [hmin]; exact ov)
  obtain rfl := (h1 t).1 h
  rw [hmin] at h2
  rw [puregoAxpy, if_pos hlen]
  refine congrArg some ((axpyLoop1_done sz.bytes_pos ov _ 0 s.mem (by omega) Done.zero).unique ?_)
  convert h2 using 1
  funext j
  simp only [axT, axpyEnv]
  rw [hadd, hmul]

theorem axpyUnitaryTo_eq_purego (sz : Sz) (alu : Alu R) (a : R)
    (hmul : ∀ u v, alu.op .mul u v = alu.op .mul v u)
    {dst x y : Sl} {s t : St R} (hy : x.len ≤ y.len) (hd : x.len ≤ dst.len)
    (hf : s.frame = axpyToFrame dst x y) (hal : y.base % sz.bytes = 0)
    (ovx : x.base = dst.base ∨ Apart sz.bytes x.len x.base dst.base)
    (ovy : y.base = dst.base ∨ Apart sz.bytes x.len y.base dst.base)
    (h : Call (axpyToEnv sz alu a dst x y) (axpyUnitaryTo sz) s t) :
    puregoAxpyTo sz alu a dst x y s.mem = some t.mem := by
  have hmin : min (min x.len y.len) dst.len = x.len := by omega
  obtain ⟨s', h1, h2⟩ := axpyTo_done sz alu a hf hal (by rw [hmin]; exact ovx) (by rw [hmin]; exact ovy)
  obtain rfl := (h1 t).1 h
  rw [hmin] at h2
  rw [puregoAxpyTo, if_pos ⟨hy, hd⟩]
  refine congrArg some ((axpyLoop_done sz.bytes_pos ovx ovy _ 0 s.mem (by omega) Done.zero).unique ?_)
  convert h2 using 1
  funext j
  simp only [axT, axpyToEnv]
  rw [hmul]

/-- With a `y` shorter than `x` the portable function panics, the assembly silently works on
`len y` elements. -/
theorem axpyUnitary_short (sz : Sz) (alu : Alu R) (a : R) {x y : Sl} {s : St R}
    (hlen : y.len < x.len) (hf : s.frame = axpyFrame x y) (hal : y.base % sz.bytes = 0)
    (ov : x.base = y.base ∨ Apart sz.bytes y.len x.base y.base) :
    puregoAxpy sz alu a x y s.mem = none ∧
    AxpyCall (axpyEnv sz alu a x y) (axpyUnitary sz) a y.base x.base y.base y.len s := by
  constructor
  · rw [puregoAxpy, if_neg (by omega)]
  · have hmin : min x.len y.len = y.len := by omega
    have := axpyUnitary_kernel sz alu a hf hal (by rw [hmin]; exact ov)
    rwa [hmin] at this

/-- Likewise with a `y` or a `dst` shorter than `x`. -/
theorem axpyUnitaryTo_short (sz : Sz) (alu : Alu R) (a : R) {dst x y : Sl} {s : St R}
    (hlen : y.len < x.len ∨ dst.len < x.len) (hf : s.frame = axpyToFrame dst x y)
    (hal : y.base % sz.bytes = 0)
    (ovx : x.base = dst.base ∨ Apart sz.bytes (min (min x.len y.len) dst.len) x.base dst.base)
    (ovy : y.base = dst.base ∨ Apart sz.bytes (min (min x.len y.len) dst.len) y.base dst.base) :
    puregoAxpyTo sz alu a dst x y s.mem = none ∧
    ∃ t, Call (axpyToEnv sz alu a dst x y) (axpyUnitaryTo sz) s t := by
  constructor
  · rw [puregoAxpyTo, if_neg (by omega)]
  · obtain ⟨s', h1, -⟩ := axpyTo_done sz alu a hf hal ovx ovy
    exact ⟨s', (h1 s').2 rfl⟩

/-! ### Cases -/

open Verif.Asm (intAlu)

/-- Memory where the cell at address `a` holds `a`. -/
def demoSt (frame : Nat → Nat) : St Int where
  r := fun _ => 77
  v := fun _ _ => 5
  mem := fun a => a
  frame := frame
  zf := true
  lt := false

/-- Five elements from an odd multiple of 4 on: the prologue up to alignment, and a tail. -/
example : ∃ s', (∀ t, Call (axpyEnv .f32 intAlu 10 ⟨400, 5⟩ ⟨12, 7⟩) (axpyUnitary .f32)
      (demoSt (axpyFrame ⟨400, 5⟩ ⟨12, 7⟩)) t ↔ t = s') ∧
    elems 4 s'.mem 12 5 = [4012, 4056, 4100, 4144, 4188] ∧
    OnlyAt 4 12 5 (fun a => (a : Int)) s'.mem :=
  axpyUnitary_kernel .f32 intAlu 10 (x := ⟨400, 5⟩) (y := ⟨12, 7⟩)
    (s := demoSt (axpyFrame ⟨400, 5⟩ ⟨12, 7⟩)) rfl (by decide)
    (.inr fun i j hi hj => by simp [Sz.bytes] at *; omega)

/-- `y += 2 * y`, 1001 elements of 8 bytes. -/
example : AxpyCall (axpyEnv .f64 intAlu 2 ⟨24, 1001⟩ ⟨24, 1001⟩) (axpyUnitary .f64) 2 24 24 24 1001
    (demoSt (axpyFrame ⟨24, 1001⟩ ⟨24, 1001⟩)) :=
  axpyUnitary_kernel .f64 intAlu 2 (x := ⟨24, 1001⟩) (y := ⟨24, 1001⟩) rfl (by decide) (.inl rfl)

example : ∃ s', (∀ t, Call (axpyToEnv .f64 intAlu 3 ⟨800, 3⟩ ⟨80, 3⟩ ⟨8, 3⟩) (axpyUnitaryTo .f64)
      (demoSt (axpyToFrame ⟨800, 3⟩ ⟨80, 3⟩ ⟨8, 3⟩)) t ↔ t = s') ∧
    elems 8 s'.mem 800 3 = [248, 280, 312] ∧ OnlyAt 8 800 3 (fun a => (a : Int)) s'.mem :=
  axpyUnitaryTo_kernel .f64 intAlu 3 (dst := ⟨800, 3⟩) (x := ⟨80, 3⟩) (y := ⟨8, 3⟩)
    (s := demoSt (axpyToFrame ⟨800, 3⟩ ⟨80, 3⟩ ⟨8, 3⟩)) rfl (by decide)
    (.inr fun i j hi hj => by simp [Sz.bytes] at *; omega)
    (.inr fun i j hi hj => by simp [Sz.bytes] at *; omega)

example (t : St Int) (h : Call (axpyEnv .f32 intAlu 10 ⟨400, 5⟩ ⟨12, 7⟩) (axpyUnitary .f32)
      (demoSt (axpyFrame ⟨400, 5⟩ ⟨12, 7⟩)) t) :
    puregoAxpy .f32 intAlu 10 ⟨400, 5⟩ ⟨12, 7⟩ (fun a => (a : Int)) = some t.mem :=
  axpyUnitary_eq_purego .f32 intAlu 10 Int.add_comm Int.mul_comm (by decide) rfl (by decide)
    (.inr fun i j hi hj => by simp [Sz.bytes] at *; omega) h

example (t : St Int) (h : Call (axpyToEnv .f64 intAlu 3 ⟨800, 3⟩ ⟨80, 3⟩ ⟨800, 3⟩) (axpyUnitaryTo .f64)
      (demoSt (axpyToFrame ⟨800, 3⟩ ⟨80, 3⟩ ⟨800, 3⟩)) t) :
    puregoAxpyTo .f64 intAlu 3 ⟨800, 3⟩ ⟨80, 3⟩ ⟨800, 3⟩ (fun a => (a : Int)) = some t.mem :=
  axpyUnitaryTo_eq_purego .f64 intAlu 3 Int.mul_comm (by decide) (by decide) rfl (by decide)
    (.inr fun i j hi hj => by simp [Sz.bytes] at *; omega) (.inl rfl) h

example : puregoAxpy .f64 intAlu 10 ⟨400, 5⟩ ⟨16, 2⟩ (fun a => (a : Int)) = none ∧
    AxpyCall (axpyEnv .f64 intAlu 10 ⟨400, 5⟩ ⟨16, 2⟩) (axpyUnitary .f64) 10 16 400 16 2
      (demoSt (axpyFrame ⟨400, 5⟩ ⟨16, 2⟩)) :=
  axpyUnitary_short .f64 intAlu 10 (x := ⟨400, 5⟩) (y := ⟨16, 2⟩)
    (s := demoSt (axpyFrame ⟨400, 5⟩ ⟨16, 2⟩)) (by decide) rfl (by decide)
    (.inr fun i j hi hj => by simp [Sz.bytes] at *; omega)

example : puregoAxpyTo .f32 intAlu 10 ⟨400, 1⟩ ⟨16, 2⟩ ⟨48, 2⟩ (fun a => (a : Int)) = none ∧
    ∃ t, Call (axpyToEnv .f32 intAlu 10 ⟨400, 1⟩ ⟨16, 2⟩ ⟨48, 2⟩) (axpyUnitaryTo .f32)
      (demoSt (axpyToFrame ⟨400, 1⟩ ⟨16, 2⟩ ⟨48, 2⟩)) t :=
  axpyUnitaryTo_short .f32 intAlu 10 (dst := ⟨400, 1⟩) (x := ⟨16, 2⟩) (y := ⟨48, 2⟩)
    (s := demoSt (axpyToFrame ⟨400, 1⟩ ⟨16, 2⟩ ⟨48, 2⟩)) (.inr (by decide)) rfl (by decide)
    (.inr fun i j hi hj => by simp [Sz.bytes] at *; omega)
    (.inr fun i j hi hj => by simp [Sz.bytes] at *; omega)

end Verif.Gonum
