/- `CumSum` of 64 bits: general form and correctness. -/
import Verif.Lemmas.GonumAxpy
import Verif.Lemmas.GonumSym
set_option autoImplicit false
set_option linter.unusedSimpArgs false
set_option maxRecDepth 10000

namespace Verif.Gonum

open Verif.Asm (Arith Alu W keep lanesOf Done SameOrApart index_split gap32 and15)

variable {R : Type}

def csArgs : List Ins :=
  [.argQ 0 .DI, .argQ 8 .CX, .argQ 24 .SI, .cmpArg 32 .CX, .cmovLeArg 32 .CX, .setQ .CX 56,
    .cmpQ .CX 0]

def csVec : List Ins :=
  [.ld .x ⟨.SI, some (.AX, 8), 0⟩ 0, .ld .x ⟨.SI, some (.AX, 8), 16⟩ 2, .movV 0 1, .movV 2 3, .shufpd 1 1 1, .shufpd 1 3 3, .op2 .add .x (.v 0) 1,
    .op2 .add .x (.v 2) 3, .shufpd 2 1 0, .shufpd 3 1 1, .shufpd 2 3 2, .shufpd 3 3 3,
    .op2 .add .x (.v 5) 0, .op2 .add .x (.v 1) 5, .op2 .add .x (.v 5) 2]

def csBody : List Ins :=
  csVec ++ ([.st .x 0 ⟨.DI, some (.AX, 8), 0⟩, .st .x 2 ⟨.DI, some (.AX, 8), 16⟩] ++
  [.op2 .add .x (.v 3) 5, .addQ 4 .AX])

def csTail : List Ins :=
  [.op2 .add .s (.m ⟨.SI, some (.AX, 8), 0⟩) 5, .st .s 5 ⟨.DI, some (.AX, 8), 0⟩, .incQ .AX]

def csCode : List Line :=
  seg csArgs ++ .jz .cs_end ::
  (seg [.clrQ .AX, .zero 5, .movQ .CX .BX, .andQ 3 .BX, .shrQ 2 .CX] ++ .jz .cs_tail_start ::
    .label .cs_loop ::
  (seg csBody ++ .loop .cs_loop ::
  (seg [.cmpQ .BX 0] ++ .jz .cs_end :: .label .cs_tail_start ::
  (seg [.movQ .BX .CX] ++ .label .cs_tail ::
  (seg csTail ++ .loop .cs_tail :: .label .cs_end ::
  (seg [.setQ .DI 48, .argQ 16 .SI, .setQ .SI 64] ++ [.ret]))))))

/-! ### What is computed -/

section
variable (alu : Alu R) (x : Nat → R)

/-- The running sum after `k` groups of four. -/
def csP : Nat → R
  | 0 => alu.zero
  | k + 1 => alu.op .add (alu.op .add (csP k) (alu.op .add (x (4 * k)) (x (4 * k + 1))))
      (alu.op .add (x (4 * k + 2)) (x (4 * k + 3)))

/-- Element `r` of group `k`. -/
def csG (k : Nat) : Nat → R
  | 0 => alu.op .add (x (4 * k)) (csP alu x k)
  | 1 => alu.op .add (alu.op .add (x (4 * k)) (x (4 * k + 1))) (csP alu x k)
  | 2 => alu.op .add (x (4 * k + 2)) (alu.op .add (csP alu x k)
      (alu.op .add (x (4 * k)) (x (4 * k + 1))))
  | _ => alu.op .add (alu.op .add (x (4 * k + 2)) (x (4 * k + 3))) (alu.op .add (csP alu x k)
      (alu.op .add (x (4 * k)) (x (4 * k + 1))))

/-- The running sum after `K` groups of four and `r` more elements. -/
def csQ (K : Nat) : Nat → R
  | 0 => csP alu x K
  | r + 1 => alu.op .add (csQ K r) (x (4 * K + r))

/-- Element `j` of the result for `n` elements. -/
def csT (n j : Nat) : R :=
  if j < 4 * (n / 4) then csG alu x (j / 4) (j % 4) else csQ alu x (n / 4) (j - 4 * (n / 4) + 1)

end

/-! ### Correctness -/

structure CsPre (E : Env R) (x dst n : Nat) : Prop where
  es : E.es = 8
  rd : ∀ i, i < n → E.rd (x + 8 * i) = true
  wr : ∀ i, i < n → E.wr (dst + 8 * i) = true
  ov : SameOrApart 8 n x dst

/-- `i` elements are done, and the running sum is `p`. -/
structure CsInv (E : Env R) (m0 : Nat → R) (x dst n i : Nat) (p : R) (s : St R) : Prop where
  le : i ≤ n
  si : s.r .SI = x
  di : s.r .DI = dst
  ax : s.r .AX = i
  v5 : s.v 5 0 = p
  mem : Done 8 dst (csT E.alu (fun j => m0 (x + 8 * j)) n) m0 i s.mem

theorem exec_st {E : Env R} {w : W} {a : Addr} {d : Nat} {s : St R}
    (h : E.ok E.wr (s.addr a) (E.lanes w) = true) : ∃ t, exec E (.st w d a) s = some t ∧
      t.r = s.r ∧ t.v = s.v ∧ t.frame = s.frame ∧
      t.mem = E.write s.mem (s.addr a) (E.lanes w) (s.v d) :=
  ⟨_, if_pos h, rfl, rfl, rfl, rfl⟩

section
variable {E : Env R} {m0 : Nat → R} {x dst n : Nat}

theorem cs_body (hp : CsPre E x dst n) {k : Nat} {s : St R}
    (h : CsInv E m0 x dst n (4 * k) (csP E.alu (fun j => m0 (x + 8 * j)) k) s)
    (h5 : s.v 5 1 = s.v 5 0) (hk : k < n / 4) : ∃ t, execs E csBody s = some t ∧
      t.r .CX = s.r .CX ∧ t.r .BX = s.r .BX ∧ t.frame = s.frame ∧ t.v 5 1 = t.v 5 0 ∧
      CsInv E m0 x dst n (4 * (k + 1)) (csP E.alu (fun j => m0 (x + 8 * j)) (k + 1)) t := by
  have lx : E.lanes .x = 2 := by simp [Env.lanes, lanesOf, hp.es]
  have l2 : 16 / E.es = 2 := by rw [hp.es]
  have rd : ∀ j, j < 4 → s.mem (x + 8 * (4 * k + j)) = m0 (x + 8 * (4 * k + j)) := fun j hj =>
    h.mem.read (by omega) hp.ov h.le (by omega) (by omega)
  have a0 : s.addr ⟨.SI, some (.AX, 8), 0⟩ = x + 8 * (4 * k) := by simp [St.addr, h.si, h.ax]
  have a1 : s.addr ⟨.SI, some (.AX, 8), 16⟩ = x + 8 * (4 * k + 2) := by
    simp [St.addr, h.si, h.ax]; omega
  have x0 : Ex.eval E s (.ld ⟨.SI, some (.AX, 8), 0⟩ 0) = m0 (x + 8 * (4 * k)) := by
    rw [← Nat.add_zero (4 * k), ← rd 0 (by omega)]; simp [Ex.eval, a0, hp.es]
  have x1 : Ex.eval E s (.ld ⟨.SI, some (.AX, 8), 0⟩ 1) = m0 (x + 8 * (4 * k + 1)) := by
    rw [← rd 1 (by omega)]; simp only [Ex.eval, a0, hp.es]; congr 1
  have x2 : Ex.eval E s (.ld ⟨.SI, some (.AX, 8), 16⟩ 0) = m0 (x + 8 * (4 * k + 2)) := by
    rw [← rd 2 (by omega)]; simp [Ex.eval, a1, hp.es]
  have x3 : Ex.eval E s (.ld ⟨.SI, some (.AX, 8), 16⟩ 1) = m0 (x + 8 * (4 * k + 3)) := by
    rw [← rd 3 (by omega)]; simp only [Ex.eval, a1, hp.es]; congr 1
  obtain ⟨c, hc, hr⟩ := sym_run hp.es s csVec rfl (by
    have hl : (symIs csVec Sym.init).need = [(⟨.SI, some (.AX, 8), 16⟩, 0),
      (⟨.SI, some (.AX, 8), 16⟩, 1), (⟨.SI, some (.AX, 8), 0⟩, 0), (⟨.SI, some (.AX, 8), 0⟩, 1)] := rfl
    rw [hl]
    simp only [List.mem_cons, List.not_mem_nil, or_false, forall_eq_or_imp, forall_eq, a0, a1,
      Nat.add_assoc, ← Nat.mul_add]
    exact ⟨hp.rd _ (by omega), hp.rd _ (by omega), hp.rd _ (by omega), hp.rd _ (by omega)⟩)
  have c00 : c.v 0 0 = csG E.alu (fun j => m0 (x + 8 * j)) k 0 := by
    refine (hr.lo 0).trans ?_
    change E.alu.op .add (Ex.eval E s (.ld ⟨.SI, some (.AX, 8), 0⟩ 0)) (s.v 5 0) = _
    rw [x0, h.v5]; rfl
  have c01 : c.v 0 1 = csG E.alu (fun j => m0 (x + 8 * j)) k 1 := by
    refine (hr.hi 0).trans ?_
    change E.alu.op .add (E.alu.op .add (Ex.eval E s (.ld ⟨.SI, some (.AX, 8), 0⟩ 0))
      (Ex.eval E s (.ld ⟨.SI, some (.AX, 8), 0⟩ 1))) (s.v 5 1) = _
    rw [x0, x1, h5, h.v5]; rfl
  have c5 : ∀ l, l < 2 → c.v 5 l = E.alu.op .add (csP E.alu (fun j => m0 (x + 8 * j)) k)
      (E.alu.op .add (m0 (x + 8 * (4 * k))) (m0 (x + 8 * (4 * k + 1)))) := by
    intro l hl
    obtain rfl | rfl : l = 0 ∨ l = 1 := by omega
    · refine (hr.lo 5).trans ?_
      change E.alu.op .add (s.v 5 0) (E.alu.op .add (Ex.eval E s (.ld ⟨.SI, some (.AX, 8), 0⟩ 0))
        (Ex.eval E s (.ld ⟨.SI, some (.AX, 8), 0⟩ 1))) = _
      rw [x0, x1, h.v5]
    · refine (hr.hi 5).trans ?_
      change E.alu.op .add (s.v 5 1) (E.alu.op .add (Ex.eval E s (.ld ⟨.SI, some (.AX, 8), 0⟩ 0))
        (Ex.eval E s (.ld ⟨.SI, some (.AX, 8), 0⟩ 1))) = _
      rw [x0, x1, h5, h.v5]
  have c3 : ∀ l, l < 2 → c.v 3 l = E.alu.op .add (m0 (x + 8 * (4 * k + 2)))
      (m0 (x + 8 * (4 * k + 3))) := by
    intro l hl
    rw [← x2, ← x3]
    obtain rfl | rfl : l = 0 ∨ l = 1 := by omega
    · exact hr.lo 3
    · exact hr.hi 3
  have c20 : c.v 2 0 = csG E.alu (fun j => m0 (x + 8 * j)) k 2 := by
    refine (hr.lo 2).trans ?_
    change E.alu.op .add (Ex.eval E s (.ld ⟨.SI, some (.AX, 8), 16⟩ 0))
      (Ex.eval E s (Sym.get (symIs csVec Sym.init) 5).1) = _
    rw [x2, ← hr.lo 5, c5 0 (by omega)]; rfl
  have c21 : c.v 2 1 = csG E.alu (fun j => m0 (x + 8 * j)) k 3 := by
    refine (hr.hi 2).trans ?_
    change E.alu.op .add (E.alu.op .add (Ex.eval E s (.ld ⟨.SI, some (.AX, 8), 16⟩ 0))
      (Ex.eval E s (.ld ⟨.SI, some (.AX, 8), 16⟩ 1)))
      (Ex.eval E s (Sym.get (symIs csVec Sym.init) 5).2) = _
    rw [x2, x3, ← hr.hi 5, c5 1 (by omega)]; rfl
  have cr := hr.r
  have cm := hr.mem
  have cf := hr.frame
  have ca0 : c.addr ⟨.DI, some (.AX, 8), 0⟩ = dst + 8 * (4 * k) := by
    simp [St.addr, cr, h.di, h.ax]
  obtain ⟨e, he, er, ev, ef, e1, e2⟩ : ∃ e : St R, execs E
      [.st .x 0 ⟨.DI, some (.AX, 8), 0⟩, .st .x 2 ⟨.DI, some (.AX, 8), 16⟩] c = some e ∧
      e.r = c.r ∧ e.v = c.v ∧ e.frame = c.frame ∧
      (∀ j, j < 4 → e.mem (dst + 8 * (4 * k) + 8 * j) = c.v (j / 2 * 2) (j % 2)) ∧
      ∀ q, (∀ j, j < 4 → q ≠ dst + 8 * (4 * k) + 8 * j) → e.mem q = c.mem q := by
    have ok0 : E.ok E.wr (c.addr ⟨.DI, some (.AX, 8), 0⟩) (E.lanes .x) = true := by
      refine ok_of fun l hl => ?_
      rw [ca0, hp.es, Nat.add_assoc, ← Nat.mul_add]
      exact hp.wr _ (by omega)
    obtain ⟨c1, h1, r1, v1, f1, m1⟩ := exec_st (d := 0) ok0
    have a1 : c1.addr ⟨.DI, some (.AX, 8), 16⟩ = dst + 8 * (4 * k + 2) := by
      simp [St.addr, r1, cr, h.di, h.ax]; omega
    have ok1 : E.ok E.wr (c1.addr ⟨.DI, some (.AX, 8), 16⟩) (E.lanes .x) = true := by
      refine ok_of fun l hl => ?_
      rw [a1, hp.es, Nat.add_assoc, ← Nat.mul_add]
      exact hp.wr _ (by omega)
    obtain ⟨c2, h2, r2, v2, f2, m2⟩ := exec_st (d := 2) ok1
    have hes : 0 < E.es := by rw [hp.es]; omega
    rw [a1, m1, ca0, lx] at m2
    refine ⟨c2, by simp [execs, h1, h2], r2.trans r1, v2.trans v1, f2.trans f1, ?_, ?_⟩
    · intro j hj
      rw [m2, v1]
      have w1 : ∀ l, l < 2 → ∀ m f, E.write m (dst + 8 * (4 * k)) 2 f (dst + 8 * (4 * k) + 8 * l)
          = f l := fun l hl m f => by
        have := write_in (E := E) (m := m) (p := dst + 8 * (4 * k)) (f := f) hes hl
        rwa [hp.es] at this
      have w2 : ∀ l, l < 2 → ∀ m f, E.write m (dst + 8 * (4 * k + 2)) 2 f
          (dst + 8 * (4 * k) + 8 * (2 + l)) = f l := fun l hl m f => by
        have := write_in (E := E) (m := m) (p := dst + 8 * (4 * k + 2)) (f := f) hes hl
        rwa [hp.es, show dst + 8 * (4 * k + 2) + 8 * l = dst + 8 * (4 * k) + 8 * (2 + l) by ring]
          at this
      obtain rfl | rfl | rfl | rfl : j = 0 ∨ j = 1 ∨ j = 2 ∨ j = 3 := by omega
      · rw [write_out (by rw [hp.es]; omega), w1 0 (by omega)]
      · rw [write_out (by rw [hp.es]; omega), w1 1 (by omega)]
      · exact w2 0 (by omega) _ _
      · exact w2 1 (by omega) _ _
    · intro q hq
      have q0 := hq 0 (by omega)
      have q1 := hq 1 (by omega)
      have q2 := hq 2 (by omega)
      have q3 := hq 3 (by omega)
      rw [m2, write_out (by rw [hp.es]; omega), write_out (by rw [hp.es]; omega)]
  have hfin : ∃ f, execs E [.op2 .add .x (.v 3) 5, .addQ 4 .AX] e = some f ∧
      f.mem = e.mem ∧ f.frame = e.frame ∧ f.r .AX = e.r .AX + 4 ∧ (∀ q, q ≠ .AX → f.r q = e.r q) ∧
      ∀ l, l < 2 → f.v 5 l = E.alu.op .add (e.v 5 l) (e.v 3 l) := by
    refine ⟨_, rfl, rfl, rfl, ?_, ?_, ?_⟩
    · simp [St.setR, St.setV]
    · intro q hq; simp [St.setR, St.setV, hq]
    · intro l hl; simp [St.setR, St.setV, keep, lx, hl]
  obtain ⟨f, hf, fm, ff, fa, fr, fv⟩ := hfin
  have ex : execs E csBody s = some f := by
    rw [csBody, execs_append hc, execs_append he, hf]
  refine ⟨f, ex, ?_, ?_, ?_, ?_, ?_, ?_, ?_, ?_, ?_, ?_⟩
  · rw [fr _ (by decide), er, cr]
  · rw [fr _ (by decide), er, cr]
  · rw [ff, ef, cf]
  · rw [fv 1 (by omega), fv 0 (by omega), ev, c5 0 (by omega), c5 1 (by omega), c3 0 (by omega),
      c3 1 (by omega)]
  · omega
  · rw [fr _ (by decide), er, cr, h.si]
  · rw [fr _ (by decide), er, cr, h.di]
  · rw [fa, er, cr, h.ax]; ring
  · rw [fv 0 (by omega), ev, c3 0 (by omega), c5 0 (by omega)]
    rfl
  · rw [fm, show 4 * (k + 1) = 4 * k + 4 by ring]
    refine Done.write (by omega) h.mem ?_ ?_
    · intro j hj
      rw [e1 j hj, csT, if_pos (by omega)]
      obtain rfl | rfl | rfl | rfl : j = 0 ∨ j = 1 ∨ j = 2 ∨ j = 3 := by omega
      · rw [show (4 * k + 0) / 4 = k by omega, show (4 * k + 0) % 4 = 0 by omega]; exact c00
      · rw [show (4 * k + 1) / 4 = k by omega, show (4 * k + 1) % 4 = 1 by omega]; exact c01
      · rw [show (4 * k + 2) / 4 = k by omega, show (4 * k + 2) % 4 = 2 by omega]; exact c20
      · rw [show (4 * k + 3) / 4 = k by omega, show (4 * k + 3) % 4 = 3 by omega]; exact c21
    · intro q hq
      rw [e2 q hq, cm]

theorem cs_tail (hp : CsPre E x dst n) {r : Nat} {s : St R}
    (h : CsInv E m0 x dst n (4 * (n / 4) + r) (csQ E.alu (fun j => m0 (x + 8 * j)) (n / 4) r) s)
    (hr : 4 * (n / 4) + r < n) : ∃ t, execs E csTail s = some t ∧
      t.r .CX = s.r .CX ∧ t.frame = s.frame ∧
      CsInv E m0 x dst n (4 * (n / 4) + (r + 1))
        (csQ E.alu (fun j => m0 (x + 8 * j)) (n / 4) (r + 1)) t := by
  have ls : E.lanes .s = 1 := rfl
  have a0 : s.addr ⟨.SI, some (.AX, 8), 0⟩ = x + 8 * (4 * (n / 4) + r) := by
    simp [St.addr, h.si, h.ax]
  have ok0 : E.ok E.rd (s.addr ⟨.SI, some (.AX, 8), 0⟩) (E.lanes .s) = true := by
    refine ok_of fun l hl => ?_
    rw [a0, hp.es, Nat.add_assoc, ← Nat.mul_add]
    exact hp.rd _ (by omega)
  obtain ⟨b, hb, br, bm, bf, bv⟩ : ∃ b : St R,
      exec E (.op2 .add .s (.m ⟨.SI, some (.AX, 8), 0⟩) 5) s = some b ∧ b.r = s.r ∧ b.mem = s.mem ∧
      b.frame = s.frame ∧ b.v 5 0 = csQ E.alu (fun j => m0 (x + 8 * j)) (n / 4) (r + 1) := by
    obtain ⟨b, hb, hr⟩ := sym_run hp.es s [.op2 .add .s (.m ⟨.SI, some (.AX, 8), 0⟩) 5] rfl (by
      have hl : (symIs [.op2 .add .s (.m ⟨.SI, some (.AX, 8), 0⟩) 5] Sym.init).need =
        [(⟨.SI, some (.AX, 8), 0⟩, 0)] := rfl
      rw [hl]
      simp only [List.mem_singleton, forall_eq, a0]
      exact hp.rd _ hr)
    refine ⟨b, by simpa [execs] using hb, hr.r, hr.mem, hr.frame, (hr.lo 5).trans ?_⟩
    change E.alu.op .add (s.v 5 0) (Ex.eval E s (.ld ⟨.SI, some (.AX, 8), 0⟩ 0)) = _
    simp only [Ex.eval, a0, Nat.mul_zero, Nat.add_zero]
    rw [h.v5, h.mem.read (by omega) hp.ov h.le (by omega) (by omega)]
    rfl
  have ca0 : b.addr ⟨.DI, some (.AX, 8), 0⟩ = dst + 8 * (4 * (n / 4) + r) := by
    simp [St.addr, br, h.di, h.ax]
  have ok1 : E.ok E.wr (b.addr ⟨.DI, some (.AX, 8), 0⟩) (E.lanes .s) = true := by
    refine ok_of fun l hl => ?_
    rw [ca0, hp.es, Nat.add_assoc, ← Nat.mul_add]
    exact hp.wr _ (by omega)
  obtain ⟨c, hc, cr, cv, cf, cm⟩ := exec_st (d := 5) ok1
  rw [ca0, ls] at cm
  refine ⟨{ c.setR .AX (c.r .AX + 1) with zf := false, lt := false },
    by simp [csTail, execs, hb, hc]; rfl, by simp [St.setR, cr, br],
    by simp [St.setR, cf, bf], by omega, ?_, ?_, ?_, ?_, ?_⟩
  · simp [St.setR, cr, br, h.si]
  · simp [St.setR, cr, br, h.di]
  · simp [St.setR, cr, br, h.ax]; ring
  · simp only [St.setR, cv]; exact bv
  · rw [← Nat.add_assoc]
    refine Done.write (by omega) h.mem ?_ ?_
    · intro j hj
      obtain rfl : j = 0 := by omega
      have := write_in (E := E) (m := b.mem) (p := dst + 8 * (4 * (n / 4) + r)) (f := b.v 5) (n := 1)
        (l := 0) (by rw [hp.es]; omega) (by omega)
      rw [hp.es] at this
      simp only [St.setR, cm]
      rw [this, bv, csT, if_neg (by omega)]
      congr 1; omega
    · intro q hq
      have := hq 0 (by omega)
      simp only [St.setR, cm]
      rw [write_out (by rw [hp.es]; omega), bm]

end

end Verif.Gonum
