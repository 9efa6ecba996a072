/- The routines with a constant (addconst, mulconst): general form and correctness. -/
import Verif.Lemmas.AsmBin
set_option autoImplicit false
set_option linter.unusedSimpArgs false

namespace Verif.Asm

variable {R : Type}

/-! ### The general form of the code -/

/-- Arithmetic and stores of a loop working on `u` registers. -/
def constCompute (es : Nat) (vex : Bool) (o : Arith) (w : W) (u : Nat) : List Ins :=
  if vex then
    ((List.range u).map fun k => Ins.op3 o w (.m ⟨.AX, es * lanesOf es w * k⟩) 1 (k + 2)) ++
    ((List.range u).map fun k => Ins.st w (k + 2) ⟨.CX, es * lanesOf es w * k⟩)
  else
    ((List.range u).map fun k => Ins.ld false w ⟨.AX, es * lanesOf es w * k⟩ (k + 1)) ++
    (((List.range u).map fun k => Ins.op2 o w (.v 0) (k + 1)) ++
    ((List.range u).map fun k => Ins.st w (k + 1) ⟨.CX, es * lanesOf es w * k⟩))

def constBody (es : Nat) (vex : Bool) (o : Arith) (w : W) (u : Nat) : List Ins :=
  constCompute es vex o w u ++
  [.addQ (es * lanesOf es w * u) .AX, .addQ (es * lanesOf es w * u) .CX]

/-- One of the four unrolled loops. -/
def constLoop (es : Nat) (vex : Bool) (o : Arith) (w : W) (u : Nat) (L N : Lbl)
    (rest : List Line) : List Line :=
  .label L :: .i (.cmpQ .DX (u * lanesOf es w)) :: .jcc .l N ::
  (seg (constBody es vex o w u ++ [.subQ (u * lanesOf es w) .DX]) ++ .jmp L :: rest)

def constTail (es : Nat) (o : Arith) : List Line :=
  .label .tailLoop :: .i (.cmpQ .DX 0) :: .jcc .z .end_ ::
  (seg (constBody es false o .s 1 ++ [.decQ .DX]) ++ .jmp .tailLoop :: [.label .end_, .ret])

def constLoops (es : Nat) (vex : Bool) (o : Arith) (w : W) : List Line :=
  constLoop es vex o w 14 .unrolledLoop14 .unrolledLoop8 <|
  constLoop es vex o w 8 .unrolledLoop8 .unrolledLoop4 <|
  constLoop es vex o w 4 .unrolledLoop4 .unrolledLoop1 <|
  constLoop es vex o w 1 .unrolledLoop1 .tailLoop <| constTail es o

def constArgs (vex : Bool) : List Ins :=
  [.argF 0 0, .argQ 8 .AX, .argQ 32 .CX, .argQ 16 .DX, if vex then .bcast 0 1 else .shuf0 0]

/-- AddConst, MulConst. -/
def constCode (es : Nat) (vex : Bool) (o : Arith) (w : W) : List Line :=
  seg (constArgs vex) ++ constLoops es vex o w

/-! ### Correctness -/

section
variable {E : Env R} {w : W} {o : Arith} {x y n : Nat} {m0 : Nat → R}

/-- What a routine may touch, the condition on overlaps, and the order of the operands. -/
structure ConstPre (E : Env R) (o : Arith) (x y n : Nat) : Prop where
  es : 0 < E.es
  rd : ∀ i, i < n → E.rd (x + E.es * i) = true
  wr : ∀ i, i < n → E.wr (y + E.es * i) = true
  ov : SameOrApart E.es n x y
  comm : ∀ a, E.alu.op o a E.argF = E.alu.op o E.argF a

/-- Invariant of the loops. -/
structure ConstInv (E : Env R) (o : Arith) (x y n : Nat) (m0 : Nat → R) (i : Nat) (s : St R) :
    Prop where
  le : i ≤ n
  ax : s.r .AX = x + E.es * i
  cx : s.r .CX = y + E.es * i
  dx : s.r .DX = n - i
  mem : Done E.es y (fun j => E.alu.op o E.argF (m0 (x + E.es * j))) m0 i s.mem

/-- The constant is where the code of width `w` looks for it. -/
def Holds (E : Env R) (vex : Bool) (w : W) (s : St R) : Prop :=
  s.v 0 0 = E.argF ∧
  ((vex = true ∧ ∀ l, s.v 1 l = E.argF) ∨ (vex = false ∧ ∀ l, l < E.lanes w → s.v 0 l = E.argF))

theorem adds2 (E : Env R) (k : Nat) (s : St R) :
    ∃ t, execs E [.addQ k .AX, .addQ k .CX] s = some t ∧ t.mem = s.mem ∧ t.v = s.v ∧
      t.r .AX = s.r .AX + k ∧ t.r .CX = s.r .CX + k ∧ t.r .DX = s.r .DX ∧ t.r .BX = s.r .BX :=
  ⟨_, rfl, rfl, rfl, by simp [St.setR], by simp [St.setR], by simp [St.setR], by simp [St.setR]⟩

theorem constCompute_ok {vex : Bool} {u : Nat} {s : St R} (hes : 0 < E.es)
    (hx : E.lanes w ≤ 16 / E.es) (hc : Holds E vex w s)
    (hcomm : ∀ a, E.alu.op o a E.argF = E.alu.op o E.argF a)
    (hrd : ∀ j, j < u * E.lanes w → E.rd (s.r .AX + E.es * j) = true)
    (hwr : ∀ j, j < u * E.lanes w → E.wr (s.r .CX + E.es * j) = true) (hv : vex = false) :
    ∃ t, execs E (constCompute E.es vex o w u) s = some t ∧ t.r = s.r ∧ t.v 0 = s.v 0 ∧
      (∀ j, j < u * E.lanes w → t.mem (s.r .CX + E.es * j) =
        E.alu.op o E.argF (s.mem (s.r .AX + E.es * j))) ∧
      ∀ a, (∀ j, j < u * E.lanes w → a ≠ s.r .CX + E.es * j) → t.mem a = s.mem a := by
  subst hv
  obtain ⟨hc0, ⟨h, -⟩ | ⟨-, hcl⟩⟩ := hc
  · cases h
  obtain ⟨a, ha, ar, am, -, av, aq⟩ := loads (E := E) (w := w) (vex := false) (base := .AX) (d := 1)
    (u := u) (s := s) (.inl hx) hrd
  obtain ⟨b, hb, br, bm, bv, bq⟩ := execs_range (E := E) (s := a)
    (fun k => Ins.op2 o w (.v 0) (k + 1))
    (fun k t => t.r = a.r ∧ t.mem = a.mem ∧
      (∀ q, q < u → ∀ l, l < E.lanes w → t.v (q + 1) l =
        if q < k then E.alu.op o (a.v (q + 1) l) E.argF else a.v (q + 1) l) ∧ t.v 0 = a.v 0) u
    ⟨rfl, rfl, fun q hq l hl => by simp, rfl⟩
    (by
      rintro k hk t ⟨h1, h2, h3, h4⟩
      refine ⟨_, exec_op2 rfl, h1, h2, ?_, ?_⟩
      · intro q hq l hl
        have h0 : t.v 0 l = E.argF := by rw [h4, aq 0 (by omega), hcl l hl]
        by_cases hqk : q = k
        · subst hqk
          simp [St.setV, keep, hl, h3 q hq l hl, h0]
        · have e1 : ¬ q + 1 = k + 1 := by omega
          have e2 : (q < k + 1) = (q < k) := by simp; omega
          simp only [St.setV, e1, if_false, e2, h3 q hq l hl]
      · simp [St.setV, h4])
  obtain ⟨c, hcx, cr, cv, -, c1, c2⟩ := stores (E := E) (w := w) (base := .CX) (d := 1) (u := u)
    (s := b) hes (by rw [br, ar]; exact hwr)
  refine ⟨c, ?_, by rw [cr, br, ar], by rw [cv, bq, aq 0 (by omega)], ?_, ?_⟩
  · simp only [constCompute, Bool.false_eq_true, if_false]
    exact (execs_append ha).trans ((execs_append hb).trans hcx)
  · intro j hj
    obtain ⟨h1, h2, h3⟩ := index_split hj
    have e1 := c1 _ h1 _ h2
    rw [← h3, br, ar] at e1
    rw [e1, bv _ h1 _ h2, if_pos h1, av _ h1 _ h2, ← h3, hcomm]
  · intro q hq
    rw [c2 q (by rw [br, ar]; exact hq), bm, am]

theorem constCompute_vex {u : Nat} {s : St R} (hes : 0 < E.es)
    (hc : ∀ l, s.v 1 l = E.argF)
    (hrd : ∀ j, j < u * E.lanes w → E.rd (s.r .AX + E.es * j) = true)
    (hwr : ∀ j, j < u * E.lanes w → E.wr (s.r .CX + E.es * j) = true) :
    ∃ t, execs E (constCompute E.es true o w u) s = some t ∧ t.r = s.r ∧
      t.v 0 = s.v 0 ∧ t.v 1 = s.v 1 ∧
      (∀ j, j < u * E.lanes w → t.mem (s.r .CX + E.es * j) =
        E.alu.op o E.argF (s.mem (s.r .AX + E.es * j))) ∧
      ∀ a, (∀ j, j < u * E.lanes w → a ≠ s.r .CX + E.es * j) → t.mem a = s.mem a := by
  obtain ⟨b, hb, br, bm, bv, b0, b1⟩ := execs_range (E := E) (s := s)
    (fun k => Ins.op3 o w (.m ⟨.AX, E.es * E.lanes w * k⟩) 1 (k + 2))
    (fun k t => t.r = s.r ∧ t.mem = s.mem ∧
      (∀ q, q < k → ∀ l, l < E.lanes w → t.v (q + 2) l =
        E.alu.op o E.argF (s.mem (s.r .AX + E.es * (q * E.lanes w + l)))) ∧
      t.v 0 = s.v 0 ∧ t.v 1 = s.v 1) u
    ⟨rfl, rfl, fun q hq => by omega, rfl, rfl⟩
    (by
      rintro k hk t ⟨h1, h2, h3, h4, h5⟩
      have ha : t.addr ⟨.AX, E.es * E.lanes w * k⟩ = s.r .AX + E.es * (k * E.lanes w) := by
        simp [St.addr, h1]; ring
      have hle : (k + 1) * E.lanes w ≤ u * E.lanes w := Nat.mul_le_mul_right _ hk
      have hk1 : (k + 1) * E.lanes w = k * E.lanes w + E.lanes w := by ring
      have hs : E.src t w false (.m ⟨.AX, E.es * E.lanes w * k⟩) = _ :=
        src_m ha (by
          intro l hl
          rw [Nat.add_assoc, ← Nat.mul_add]
          exact hrd _ (by omega)) (by simp)
      refine ⟨_, exec_op3 hs, h1, h2, ?_, ?_, ?_⟩
      · intro q hq l hl
        by_cases hqk : q = k
        · subst hqk
          simp [St.setV, Env.vex, hl, h2, h5, hc, Nat.mul_add, Nat.add_assoc]
        · have e1 : ¬ q + 2 = k + 2 := by omega
          simp only [St.setV, e1, if_false]
          exact h3 q (by omega) l hl
      · simp [St.setV, h4]
      · simp [St.setV, h5])
  obtain ⟨c, hcx, cr, cv, -, c1, c2⟩ := stores (E := E) (w := w) (base := .CX) (d := 2) (u := u)
    (s := b) hes (by rw [br]; exact hwr)
  refine ⟨c, ?_, by rw [cr, br], by rw [cv, b0], by rw [cv, b1], ?_, ?_⟩
  · simp only [constCompute, if_true]
    exact (execs_append hb).trans hcx
  · intro j hj
    obtain ⟨h1, h2, h3⟩ := index_split hj
    have e1 := c1 _ h1 _ h2
    rw [← h3, br] at e1
    rw [e1, bv _ h1 _ h2, ← h3]
  · intro q hq
    rw [c2 q (by rw [br]; exact hq), bm]

theorem const_body (hp : ConstPre E o x y n) {vex : Bool} {u i : Nat} {s : St R}
    (hx : E.lanes w ≤ 16 / E.es ∨ vex = true)
    (h : ConstInv E o x y n m0 i s) (hc : Holds E vex w s) (hn : i + u * E.lanes w ≤ n) :
    ∃ s', execs E (constBody E.es vex o w u) s = some s' ∧ Holds E vex w s' ∧
      s'.v 0 = s.v 0 ∧
      s'.r .AX = x + E.es * (i + u * E.lanes w) ∧ s'.r .CX = y + E.es * (i + u * E.lanes w) ∧
      s'.r .DX = s.r .DX ∧
      Done E.es y (fun j => E.alu.op o E.argF (m0 (x + E.es * j))) m0 (i + u * E.lanes w)
        s'.mem := by
  have key : ∀ x j, x + E.es * i + E.es * j = x + E.es * (i + j) := fun x j => by ring
  have hrd : ∀ j, j < u * E.lanes w → E.rd (s.r .AX + E.es * j) = true := by
    intro j hj; rw [h.ax, key]; exact hp.rd _ (by omega)
  have hwr : ∀ j, j < u * E.lanes w → E.wr (s.r .CX + E.es * j) = true := by
    intro j hj; rw [h.cx, key]; exact hp.wr _ (by omega)
  obtain ⟨t, ht, tr, tc, t0, t1, t2⟩ : ∃ t, execs E (constCompute E.es vex o w u) s = some t ∧
      t.r = s.r ∧ Holds E vex w t ∧ t.v 0 = s.v 0 ∧
      (∀ j, j < u * E.lanes w → t.mem (s.r .CX + E.es * j) =
        E.alu.op o E.argF (s.mem (s.r .AX + E.es * j))) ∧
      ∀ a, (∀ j, j < u * E.lanes w → a ≠ s.r .CX + E.es * j) → t.mem a = s.mem a := by
    cases vex with
    | true =>
      obtain ⟨hc0, ⟨-, hcl⟩ | ⟨h, -⟩⟩ := hc
      · obtain ⟨t, ht, tr, t0, t1, t2, t3⟩ := constCompute_vex (o := o) hp.es hcl hrd hwr
        exact ⟨t, ht, tr, ⟨by rw [t0, hc0], .inl ⟨rfl, by rw [t1]; exact hcl⟩⟩, t0, t2, t3⟩
      · cases h
    | false =>
      obtain ⟨t, ht, tr, t0, t2, t3⟩ := constCompute_ok (o := o) hp.es
        (hx.resolve_right (by simp)) hc hp.comm hrd hwr rfl
      refine ⟨t, ht, tr, ⟨by rw [t0, hc.1], .inr ⟨rfl, ?_⟩⟩, t0, t2, t3⟩
      obtain ⟨-, ⟨h, -⟩ | ⟨-, hcl⟩⟩ := hc
      · cases h
      · rw [t0]; exact hcl
  obtain ⟨d, hd, dm, dv, d1, d2, d3, -⟩ := adds2 E (E.es * E.lanes w * u) t
  rw [tr] at d1 d2 d3
  refine ⟨d, (execs_append ht).trans hd, ?_, by rw [dv, t0], ?_, ?_, d3, ?_⟩
  · simpa [Holds, dv] using tc
  · rw [d1, h.ax]; ring
  · rw [d2, h.cx]; ring
  · rw [dm]
    refine Done.write hp.es h.mem ?_ ?_
    · intro j hj
      have e1 := t1 j hj
      rw [h.cx, h.ax, key] at e1
      rw [key] at e1 ⊢
      rw [e1, h.mem.read hp.es hp.ov h.le (by omega) (by omega)]
    · intro q hq
      rw [t2 q (by rw [h.cx]; exact hq)]

theorem const_body_sub (hp : ConstPre E o x y n) {vex : Bool} {u i : Nat} {s : St R}
    (hx : E.lanes w ≤ 16 / E.es ∨ vex = true)
    (h : ConstInv E o x y n m0 i s) (hc : Holds E vex w s) (hn : i + u * E.lanes w ≤ n) :
    ∃ s', execs E (constBody E.es vex o w u ++ [.subQ (u * E.lanes w) .DX]) s = some s' ∧
      ConstInv E o x y n m0 (i + u * E.lanes w) s' ∧ Holds E vex w s' := by
  obtain ⟨s', hs, hc', -, h1, h2, h3, h4⟩ := const_body hp hx h hc hn
  have hb := h.dx
  rw [execs_append hs]
  refine ⟨_, exec_subQ (by omega), ⟨hn, ?_, ?_, ?_, h4⟩, hc'⟩
  · simp [St.setR, h1]
  · simp [St.setR, h2]
  · simp [St.setR, h3, hb]; omega

theorem const_body_dec (hp : ConstPre E o x y n) {i : Nat} {s : St R}
    (hx : E.lanes .s ≤ 16 / E.es)
    (h : ConstInv E o x y n m0 i s) (hc : s.v 0 0 = E.argF) (hn : i + 1 ≤ n) :
    ∃ s', execs E (constBody E.es false o .s 1 ++ [.decQ .DX]) s = some s' ∧
      ConstInv E o x y n m0 (i + 1) s' ∧ s'.v 0 0 = E.argF := by
  obtain ⟨s', hs, hc', -, h1, h2, h3, h4⟩ := const_body (w := .s) (u := 1) (vex := false) hp
    (.inl hx) h
    ⟨hc, .inr ⟨rfl, fun l hl => by
      obtain rfl : l = 0 := by simp [Env.lanes, lanesOf] at hl; exact hl
      exact hc⟩⟩ hn
  have hb := h.dx
  rw [execs_append hs]
  refine ⟨_, exec_decQ (by omega), ⟨hn, ?_, ?_, ?_, h4⟩, hc'.1⟩
  · simpa [St.setR, Env.lanes, lanesOf] using h1
  · simpa [St.setR, Env.lanes, lanesOf] using h2
  · simp [St.setR, h3, hb]; omega

theorem ConstInv.flags {i : Nat} {s : St R} (h : ConstInv E o x y n m0 i s) (z l : Bool) :
    ConstInv E o x y n m0 i { s with zf := z, lt := l } :=
  ⟨h.le, h.ax, h.cx, h.dx, h.mem⟩

/-- The arguments. -/
structure ConstArgs (E : Env R) (x y n : Nat) : Prop where
  a1 : E.argQ 8 = x
  a2 : E.argQ 32 = y
  len : E.argQ 16 = n

theorem constCode_correct (ha : ConstArgs E x y n) (hp : ConstPre E o x y n)
    (hes : E.es = 4 ∨ E.es = 8) {vex : Bool}
    (hw : (vex = true ∧ w = .y) ∨ (vex = false ∧ w = .x)) (s : St R) :
    ∃ s', Call E (constCode E.es vex o w) s s' ∧
      Done E.es y (fun j => E.alu.op o E.argF (s.mem (x + E.es * j))) s.mem n s'.mem := by
  have hL : 0 < E.lanes w := by
    rcases hw with ⟨-, rfl⟩ | ⟨-, rfl⟩ <;> rcases hes with h | h <;> simp [Env.lanes, lanesOf, h]
  have hx : E.lanes w ≤ 16 / E.es ∨ vex = true := by
    rcases hw with ⟨h, -⟩ | ⟨-, rfl⟩
    · exact .inr h
    · exact .inl le_rfl
  have hxs : E.lanes .s ≤ 16 / E.es := by
    rcases hes with h | h <;> simp [Env.lanes, lanesOf, h]
  have h0 : 0 < 16 / E.es := by rcases hes with h | h <;> simp [h]
  obtain ⟨t, ht, hi, hc⟩ : ∃ t, execs E (constArgs vex) s = some t ∧
      ConstInv E o x y n s.mem 0 t ∧ Holds E vex w t := by
    rcases hw with ⟨rfl, rfl⟩ | ⟨rfl, rfl⟩
    · refine ⟨_, rfl, ⟨by omega, ?_, ?_, ?_, Done.zero⟩, ?_, .inl ⟨rfl, ?_⟩⟩
      · simp [St.setR, St.setV, ha.a1]
      · simp [St.setR, St.setV, ha.a2]
      · simp [St.setR, St.setV, ha.len]
      · simp [St.setR, St.setV, keep, h0]
      · simp [St.setR, St.setV, keep, h0]
    · refine ⟨_, rfl, ⟨by omega, ?_, ?_, ?_, Done.zero⟩, ?_, .inr ⟨rfl, fun l hl => ?_⟩⟩
      · simp [St.setR, St.setV, ha.a1]
      · simp [St.setR, St.setV, ha.a2]
      · simp [St.setR, St.setV, ha.len]
      · simp [St.setR, St.setV, keep, h0]
      · have : l < 16 / E.es := hl
        simp [St.setR, St.setV, keep, h0, this]
  have pre : ∀ l, after l (constCode E.es vex o w) = after l (constLoops E.es vex o w) :=
    fun l => after_seg _ _ _
  have hend : ∀ t, (ConstInv E o x y n s.mem n t ∧ t.v 0 0 = E.argF) →
      ∃ s', Run E (constCode E.es vex o w) (after .end_ (constCode E.es vex o w)) t s' ∧
      Done E.es y (fun j => E.alu.op o E.argF (s.mem (x + E.es * j))) s.mem n s'.mem := by
    intro t h
    refine ⟨t, ?_, h.1.mem⟩
    rw [pre]
    simp only [constLoops, constLoop, constTail, after, after_seg]
    exact .ret
  have htail := loop_z (E := E) (code := constCode E.es vex o w) (n := n) (cnt := .DX)
    (L := .tailLoop) (N := .end_)
    (Post := fun s' => Done E.es y (fun j => E.alu.op o E.argF (s.mem (x + E.es * j))) s.mem n
      s'.mem) (Inv := fun i t => ConstInv E o x y n s.mem i t ∧ t.v 0 0 = E.argF)
    (body := constBody E.es false o .s 1 ++ [.decQ .DX]) (rest := _)
    (by rw [pre]; simp only [constLoops, constLoop, constTail, after, after_seg, if_true]; rfl)
    (fun i s h => ⟨h.1.le, h.1.dx⟩) (fun i s z l h => ⟨h.1.flags z l, h.2⟩)
    (fun i s h hi => const_body_dec hp hxs h.1 h.2 hi) hend
  have hstep : ∀ (u : Nat) (L N : Lbl) (rest : List Line), 0 < u →
      after L (constCode E.es vex o w) =
        .i (.cmpQ .DX (u * lanesOf E.es w)) :: .jcc .l N ::
        (seg (constBody E.es vex o w u ++ [.subQ (u * lanesOf E.es w) .DX]) ++ .jmp L :: rest) →
      (∀ i t, (ConstInv E o x y n s.mem i t ∧ Holds E vex w t) →
        ∃ s', Run E (constCode E.es vex o w) (after N (constCode E.es vex o w)) t s' ∧
        Done E.es y (fun j => E.alu.op o E.argF (s.mem (x + E.es * j))) s.mem n s'.mem) →
      ∀ i t, (ConstInv E o x y n s.mem i t ∧ Holds E vex w t) →
        ∃ s', Run E (constCode E.es vex o w) (after L (constCode E.es vex o w)) t s' ∧
        Done E.es y (fun j => E.alu.op o E.argF (s.mem (x + E.es * j))) s.mem n s'.mem := by
    intro u L N rest hu hL' hN
    exact loop_l (n := n) (cnt := .DX)
      (Inv := fun i t => ConstInv E o x y n s.mem i t ∧ Holds E vex w t)
      (Post := fun s' => Done E.es y (fun j => E.alu.op o E.argF (s.mem (x + E.es * j))) s.mem n
        s'.mem)
      (c := u * E.lanes w) (Nat.mul_pos hu hL) hL'
      (fun i s h => ⟨h.1.le, h.1.dx⟩) (fun i s z l h => ⟨h.1.flags z l, h.2⟩)
      (fun i s h hi => const_body_sub hp hx h.1 h.2 hi) (fun i s h _ => hN i s h)
  have h1 := hstep 1 .unrolledLoop1 .tailLoop _ (by omega)
    (by rw [pre]; simp only [constLoops, constLoop, after, after_seg, if_true]; rfl)
    (fun i t h => htail i t ⟨h.1, h.2.1⟩)
  have h4 := hstep 4 .unrolledLoop4 .unrolledLoop1 _ (by omega)
    (by rw [pre]; simp only [constLoops, constLoop, after, after_seg, if_true]; rfl) h1
  have h8 := hstep 8 .unrolledLoop8 .unrolledLoop4 _ (by omega)
    (by rw [pre]; simp only [constLoops, constLoop, after, after_seg, if_true]; rfl) h4
  have h14 := hstep 14 .unrolledLoop14 .unrolledLoop8 _ (by omega)
    (by rw [pre]; simp only [constLoops, constLoop, after, after_seg, if_true]; rfl) h8
  obtain ⟨s', hs', hd⟩ := h14 0 t ⟨hi, hc⟩
  refine ⟨s', Run.seg ht (.label ?_), hd⟩
  rw [pre] at hs'
  simpa [constLoops, constLoop, after] using hs'

end

end Verif.Asm
