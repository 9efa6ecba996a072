/- The reducing routines (sum, dotprod): general form and correctness. -/
import Mathlib.Algebra.BigOperators.Intervals
import Mathlib.Tactic.Abel
import Verif.Lemmas.AsmConst
set_option autoImplicit false
set_option linter.unusedSimpArgs false

namespace Verif.Asm

/-! ### The general form of the code -/

/-- Accumulation of `u` registers: even ones into register 0, odd ones into register 1. -/
def redAcc (es : Nat) (dot vex : Bool) (w : W) (u : Nat) : List Ins :=
  match dot, vex with
  | false, true => (List.range u).map fun k =>
      Ins.op3 .add w (.m ⟨.AX, es * lanesOf es w * k⟩) (k % 2) (k % 2)
  | false, false => (List.range u).map fun k =>
      Ins.op2 .add w (.m ⟨.AX, es * lanesOf es w * k⟩) (k % 2)
  | true, true =>
      ((List.range u).map fun k => Ins.ld true w ⟨.AX, es * lanesOf es w * k⟩ (k + 2)) ++
      ((List.range u).map fun k =>
        Ins.fma w (.m ⟨.CX, es * lanesOf es w * k⟩) (k + 2) (k % 2))
  | true, false =>
      ((List.range u).map fun k => Ins.ld false w ⟨.AX, es * lanesOf es w * k⟩ (k + 2)) ++
      (((List.range u).map fun k => Ins.op2 .mul w (.m ⟨.CX, es * lanesOf es w * k⟩) (k + 2)) ++
      ((List.range u).map fun k => Ins.op2 .add w (.v (k + 2)) (k % 2)))

def redPtrs (dot : Bool) (b : Nat) : List Ins :=
  if dot then [.addQ b .AX, .addQ b .CX] else [.addQ b .AX]

/-- The register with the number of remaining elements. -/
def redCnt (dot : Bool) : Reg := if dot then .DX else .CX

/-- The register for the alignment computation. -/
def redTmp (dot : Bool) : Reg := if dot then .BX else .DX

/-- The pointer that the SSE code aligns. -/
def redPtr (dot : Bool) : Reg := if dot then .CX else .AX

def redLoop (es : Nat) (dot vex : Bool) (w : W) (u : Nat) (L N : Lbl) (rest : List Line) :
    List Line :=
  .label L :: .i (.cmpQ (redCnt dot) (u * lanesOf es w)) :: .jcc .l N ::
  (seg (redAcc es dot vex w u ++ (redPtrs dot (es * lanesOf es w * u) ++
    [.subQ (u * lanesOf es w) (redCnt dot)])) ++ .jmp L :: rest)

def redLoops (es : Nat) (dot vex : Bool) (w : W) (N : Lbl) (rest : List Line) : List Line :=
  redLoop es dot vex w 14 .unrolledLoop14 .unrolledLoop8 <|
  redLoop es dot vex w 8 .unrolledLoop8 .unrolledLoop4 <|
  redLoop es dot vex w 4 .unrolledLoop4 .unrolledLoop1 <|
  redLoop es dot vex w 1 .unrolledLoop1 N rest

/-- One element: AVX tail, SSE tail, SSE alignment. -/
def redOneAVX (dot : Bool) : List Ins :=
  if dot then [.ld true .s ⟨.AX, 0⟩ 3, .fma .s (.m ⟨.CX, 0⟩) 3 2]
  else [.op3 .add .s (.m ⟨.AX, 0⟩) 2 2]

def redOneSSE (dot : Bool) : List Ins :=
  if dot then [.ld false .s ⟨.AX, 0⟩ 2, .op2 .mul .s (.m ⟨.CX, 0⟩) 2, .op2 .add .s (.v 2) 0]
  else [.op2 .add .s (.m ⟨.AX, 0⟩) 0]

def redOneAlign (dot : Bool) : List Ins :=
  if dot then [.ld false .s ⟨.AX, 0⟩ 2, .op2 .mul .s (.m ⟨.CX, 0⟩) 2, .op2 .add .s (.v 2) 0]
  else [.ld false .s ⟨.AX, 0⟩ 2, .op2 .add .s (.v 2) 0]

def redTail (es : Nat) (dot : Bool) (one fin : List Ins) : List Line :=
  .label .tailLoop :: .i (.cmpQ (redCnt dot) 0) :: .jcc .z .reduce ::
  (seg (one ++ (redPtrs dot es ++ [.decQ (redCnt dot)])) ++ .jmp .tailLoop ::
  .label .reduce :: (seg fin ++ [.ret]))

def redRet (dot : Bool) : Nat := if dot then 48 else 24

def redFinAVX (es : Nat) (dot : Bool) : List Ins :=
  [.op3 .add .y (.v 0) 1 0, .ext1 0 1, .op3 .add .x (.v 0) 1 0, .op3 .add .x (.v 0) 2 0] ++
  ((if es = 4 then [.hadd3 0 0 0, .hadd3 0 0 0] else [.hadd3 0 0 0]) ++ [.retF 0 (redRet dot)])

def redFinSSE (es : Nat) (dot : Bool) : List Ins :=
  [.op2 .add .x (.v 1) 0] ++
  ((if es = 4 then [.hadd2 0 0, .hadd2 0 0] else [.hadd2 0 0]) ++ [.retF 0 (redRet dot)])

def redArgs (dot vex : Bool) : List Ins :=
  (if dot then [.argQ 0 .AX, .argQ 24 .CX, .argQ 8 .DX] else [.argQ 0 .AX, .argQ 8 .CX]) ++
  match dot, vex with
  | true, true => [.zeroAll]
  | false, true => [.zero3 0, .zero3 1]
  | _, false => [.zero2 0, .zero2 1]

def redAVX (es : Nat) (dot : Bool) : List Line :=
  seg (redArgs dot true) ++ redLoops es dot true .y .tail
    (.label .tail :: (seg [.zero3 2] ++ redTail es dot (redOneAVX dot) (redFinAVX es dot)))

def redSSELoops (es : Nat) (dot : Bool) : List Line :=
  .label .unrolledLoops :: redLoops es dot false .x .tailLoop
    (redTail es dot (redOneSSE dot) (redFinSSE es dot))

def redSSE32 (dot : Bool) : List Line :=
  seg (redArgs dot false) ++ .i (.cmpQ (redCnt dot) 0) :: .jcc .z .reduce ::
  (seg [.movQ (redPtr dot) (redTmp dot), .andQ 15 (redTmp dot)] ++ .jcc .z .unrolledLoops ::
  (seg [.xorQ 15 (redTmp dot), .incQ (redTmp dot), .shrQ 2 (redTmp dot)] ++
  .label .alignmentLoop ::
  (seg (redOneAlign dot ++ (redPtrs dot 4 ++ [.decQ (redCnt dot)])) ++ .jcc .z .reduce ::
  .i (.decQ (redTmp dot)) :: .jcc .nz .alignmentLoop :: redSSELoops 4 dot)))

def redSSE64 (dot : Bool) : List Line :=
  seg (redArgs dot false) ++ .i (.cmpQ (redCnt dot) 0) :: .jcc .z .reduce ::
  (seg [.movQ (redPtr dot) (redTmp dot), .andQ 15 (redTmp dot)] ++ .jcc .z .unrolledLoops ::
  (seg (redOneAlign dot ++ (redPtrs dot 8 ++ [.decQ (redCnt dot)])) ++ redSSELoops 8 dot))

/-! ### Correctness -/

/-- Arithmetic without rounding. -/
structure Exact {R : Type} [AddCommMonoid R] [Mul R] (A : Alu R) : Prop where
  zero : A.zero = 0
  add : ∀ a b, A.op .add a b = a + b
  mul : ∀ a b, A.op .mul a b = a * b
  fma : ∀ a b c, A.fma a b c = a * b + c

variable {R : Type} [AddCommMonoid R] [Mul R] {E : Env R} {w : W}

/-- The element number `j` of the reduction. -/
def redTerm (es : Nat) (dot : Bool) (x1 x2 : Nat) (m : Nat → R) (j : Nat) : R :=
  if dot then m (x1 + es * j) * m (x2 + es * j) else m (x1 + es * j)

def accSum (L : Nat) (s : St R) : R :=
  (Finset.range L).sum (s.v 0) + (Finset.range L).sum (s.v 1)

theorem sum_lane0 {L : Nat} (hL : 0 < L) {f g : Nat → R} {a : R} (h0 : f 0 = g 0 + a)
    (h : ∀ l, 0 < l → l < L → f l = g l) :
    (Finset.range L).sum f = (Finset.range L).sum g + a := by
  obtain ⟨L, rfl⟩ : ∃ k, L = k + 1 := ⟨L - 1, by omega⟩
  rw [Finset.sum_range_succ', Finset.sum_range_succ', h0,
    Finset.sum_congr rfl fun l hl => h (l + 1) (by omega) (by simpa using hl)]
  abel

/-- Accumulation into registers 0 and 1. -/
theorem acc_phase {L u : Nat} {g : Nat → Ins} {t0 : Nat → R} {s : St R}
    (hg : ∀ k, k < u → ∀ t : St R, t.r = s.r → t.mem = s.mem → (∀ q, 2 ≤ q → t.v q = s.v q) →
      ∃ f : Nat → R, exec E (g k) t = some (t.setV (k % 2) f) ∧
        ∀ l, l < L → f l = t.v (k % 2) l + t0 (k * L + l)) :
    ∃ t, execs E ((List.range u).map g) s = some t ∧ t.r = s.r ∧ t.mem = s.mem ∧
      accSum L t = accSum L s + (Finset.range (u * L)).sum t0 := by
  obtain ⟨t, ht, h1, h2, -, h4⟩ := execs_range (E := E) (s := s) g
    (fun k t => t.r = s.r ∧ t.mem = s.mem ∧ (∀ q, 2 ≤ q → t.v q = s.v q) ∧
      accSum L t = accSum L s + (Finset.range (k * L)).sum t0) u
    ⟨rfl, rfl, fun _ _ => rfl, by simp⟩
    (by
      rintro k hk t ⟨h1, h2, h3, h4⟩
      obtain ⟨f, e1, e2⟩ := hg k hk t h1 h2 h3
      refine ⟨_, e1, h1, h2, ?_, ?_⟩
      · intro q hq
        have : ¬ q = k % 2 := by omega
        simp [St.setV, this, h3 q hq]
      · rw [Nat.succ_mul, Finset.sum_range_add, ← add_assoc, ← h4]
        have hsum : (Finset.range L).sum f =
            (Finset.range L).sum (t.v (k % 2)) + (Finset.range L).sum fun l => t0 (k * L + l) := by
          rw [← Finset.sum_add_distrib]
          exact Finset.sum_congr rfl fun l hl => e2 l (by simpa using hl)
        have : k % 2 = 0 ∨ k % 2 = 1 := by omega
        rcases this with h | h
        · rw [h] at hsum
          simp only [accSum, St.setV, h, if_true, one_ne_zero, if_false, hsum]; abel
        · rw [h] at hsum
          simp only [accSum, St.setV, h, if_true, zero_ne_one, if_false, hsum]; abel)
  exact ⟨t, ht, h1, h2, h4⟩

variable {dot : Bool} {x1 x2 n : Nat} {m0 : Nat → R}

/-- What a routine may touch. -/
structure RedPre (E : Env R) (dot : Bool) (x1 x2 n : Nat) : Prop where
  exact : Exact E.alu
  rd1 : ∀ i, i < n → E.rd (x1 + E.es * i) = true
  rd2 : dot = true → ∀ i, i < n → E.rd (x2 + E.es * i) = true

/-- Pointers, counter and memory after `i` elements. -/
structure RedPos (E : Env R) (dot : Bool) (x1 x2 n : Nat) (m0 : Nat → R) (i : Nat) (s : St R) :
    Prop where
  le : i ≤ n
  ax : s.r .AX = x1 + E.es * i
  cx : dot = true → s.r .CX = x2 + E.es * i
  cnt : s.r (redCnt dot) = n - i
  mem : s.mem = m0

/-- Invariant of the unrolled loops. -/
structure RedInv (E : Env R) (dot : Bool) (L x1 x2 n : Nat) (m0 : Nat → R) (i : Nat) (s : St R) :
    Prop extends RedPos E dot x1 x2 n m0 i s where
  acc : accSum L s = (Finset.range i).sum (redTerm E.es dot x1 x2 m0)

theorem redAcc_ok (hp : RedPre E dot x1 x2 n) {vex : Bool} {u i : Nat} {s : St R}
    (hx : E.lanes w ≤ 16 / E.es ∨ vex = true)
    (h : RedInv E dot (E.lanes w) x1 x2 n m0 i s) (hn : i + u * E.lanes w ≤ n)
    (hal : vex = false → w = .x →
      ((if dot then x2 else x1) + E.es * i) % 16 = 0 ∧ 16 ∣ E.es * E.lanes w) :
    ∃ t, execs E (redAcc E.es dot vex w u) s = some t ∧ t.r = s.r ∧ t.mem = s.mem ∧
      accSum (E.lanes w) t =
        (Finset.range (i + u * E.lanes w)).sum (redTerm E.es dot x1 x2 m0) := by
  have key : ∀ x j, x + E.es * i + E.es * j = x + E.es * (i + j) := fun x j => by ring
  have hsplit : ∀ k l, k < u → l < E.lanes w → i + (k * E.lanes w + l) < n := by
    intro k l hk hl
    have hle : (k + 1) * E.lanes w ≤ u * E.lanes w := Nat.mul_le_mul_right _ hk
    have hk1 : (k + 1) * E.lanes w = k * E.lanes w + E.lanes w := by ring
    omega
  have haddr : ∀ (base : Reg) (x : Nat) (k : Nat) (t : St R), t.r base = x + E.es * i →
      t.addr ⟨base, E.es * E.lanes w * k⟩ = x + E.es * (i + k * E.lanes w) := by
    intro base x k t ht
    simp [St.addr, ht]; ring
  have hrd : ∀ x k, (∀ i, i < n → E.rd (x + E.es * i) = true) → k < u → ∀ l, l < E.lanes w →
      E.rd (x + E.es * (i + k * E.lanes w) + E.es * l) = true := by
    intro x k hr hk l hl
    rw [show x + E.es * (i + k * E.lanes w) + E.es * l = x + E.es * (i + (k * E.lanes w + l)) by
      ring]
    exact hr _ (hsplit k l hk hl)
  have h16 : vex = false → w = .x → ∀ k,
      ((if dot then x2 else x1) + E.es * (i + k * E.lanes w)) % 16 = 0 := by
    intro hv hw k
    obtain ⟨h, c, hc⟩ := hal hv hw
    have : E.es * (i + k * E.lanes w) = E.es * i + 16 * (c * k) := by
      calc E.es * (i + k * E.lanes w) = E.es * i + (E.es * E.lanes w) * k := by ring
        _ = _ := by rw [hc]; ring
    omega
  have fin : ∀ t : St R, accSum (E.lanes w) t = accSum (E.lanes w) s +
      ((Finset.range (u * E.lanes w)).sum fun j => redTerm E.es dot x1 x2 m0 (i + j)) →
      accSum (E.lanes w) t =
        (Finset.range (i + u * E.lanes w)).sum (redTerm E.es dot x1 x2 m0) := by
    intro t ht
    rw [ht, h.acc, Finset.sum_range_add]
  cases dot with
  | false =>
    cases vex with
    | true =>
      obtain ⟨t, ht, h1, h2, h3⟩ := acc_phase (E := E) (s := s) (u := u) (L := E.lanes w)
        (g := fun k => Ins.op3 .add w (.m ⟨.AX, E.es * E.lanes w * k⟩) (k % 2) (k % 2))
        (t0 := fun j => redTerm E.es false x1 x2 m0 (i + j)) (by
          intro k hk t tr tm tq
          have hs : E.src t w false (.m ⟨.AX, E.es * E.lanes w * k⟩) = _ :=
            src_m (haddr .AX x1 k t (by rw [tr, h.ax])) (hrd x1 k hp.rd1 hk) (by simp)
          refine ⟨_, exec_op3 hs, fun l hl => ?_⟩
          simp only [Env.vex, hl, if_true, hp.exact.add, tm, h.mem, redTerm, Bool.false_eq_true,
            if_false]
          ring_nf)
      exact ⟨t, ht, h1, h2, fin t h3⟩
    | false =>
      obtain ⟨t, ht, h1, h2, h3⟩ := acc_phase (E := E) (s := s) (u := u) (L := E.lanes w)
        (g := fun k => Ins.op2 .add w (.m ⟨.AX, E.es * E.lanes w * k⟩) (k % 2))
        (t0 := fun j => redTerm E.es false x1 x2 m0 (i + j)) (by
          intro k hk t tr tm tq
          have hs : E.src t w (decide (w = .x)) (.m ⟨.AX, E.es * E.lanes w * k⟩) = _ :=
            src_m (haddr .AX x1 k t (by rw [tr, h.ax])) (hrd x1 k hp.rd1 hk)
              (fun hw => by simpa using h16 rfl (by simpa using hw) k)
          refine ⟨_, exec_op2 hs, fun l hl => ?_⟩
          simp only [keep, hl, if_true, hp.exact.add, tm, h.mem, redTerm, Bool.false_eq_true,
            if_false]
          ring_nf)
      exact ⟨t, ht, h1, h2, fin t h3⟩
  | true =>
    obtain ⟨a, ha, ar, am, -, av, aq⟩ := loads (E := E) (w := w) (vex := vex) (base := .AX)
      (d := 2) (u := u) (s := s) hx (by
        intro j hj; rw [h.ax, key]; exact hp.rd1 _ (by omega))
    have hcx := h.cx rfl
    have hacc : accSum (E.lanes w) a = accSum (E.lanes w) s := by
      simp [accSum, aq 0 (by omega), aq 1 (by omega)]
    cases vex with
    | true =>
      obtain ⟨t, ht, h1, h2, h3⟩ := acc_phase (E := E) (s := a) (u := u) (L := E.lanes w)
        (g := fun k => Ins.fma w (.m ⟨.CX, E.es * E.lanes w * k⟩) (k + 2) (k % 2))
        (t0 := fun j => redTerm E.es true x1 x2 m0 (i + j)) (by
          intro k hk t tr tm tq
          have hs : E.src t w false (.m ⟨.CX, E.es * E.lanes w * k⟩) = _ :=
            src_m (haddr .CX x2 k t (by rw [tr, ar, hcx])) (hrd x2 k (hp.rd2 rfl) hk) (by simp)
          refine ⟨_, exec_fma hs, fun l hl => ?_⟩
          simp only [Env.vex, hl, if_true, hp.exact.fma, tm, am, h.mem, redTerm,
            tq (k + 2) (by omega), av k hk l hl, h.ax, key]
          ring_nf
          exact add_comm _ _)
      exact ⟨t, (execs_append ha).trans ht, by rw [h1, ar], by rw [h2, am],
        fin t (by rw [h3, hacc])⟩
    | false =>
      obtain ⟨b, hb, br, bm, bv, b0, b1⟩ := execs_range (E := E) (s := a)
        (fun k => Ins.op2 .mul w (.m ⟨.CX, E.es * E.lanes w * k⟩) (k + 2))
        (fun k t => t.r = a.r ∧ t.mem = a.mem ∧
          (∀ q, q < u → ∀ l, l < E.lanes w → t.v (q + 2) l =
            if q < k then redTerm E.es true x1 x2 m0 (i + (q * E.lanes w + l))
            else a.v (q + 2) l) ∧ t.v 0 = a.v 0 ∧ t.v 1 = a.v 1) u
        ⟨rfl, rfl, fun q hq l hl => by simp, rfl, rfl⟩
        (by
          rintro k hk t ⟨h1, h2, h3, h4, h5⟩
          have hs : E.src t w (decide (w = .x)) (.m ⟨.CX, E.es * E.lanes w * k⟩) = _ :=
            src_m (haddr .CX x2 k t (by rw [h1, ar, hcx])) (hrd x2 k (hp.rd2 rfl) hk)
              (fun hw => by simpa using h16 rfl (by simpa using hw) k)
          refine ⟨_, exec_op2 hs, h1, h2, ?_, ?_, ?_⟩
          · intro q hq l hl
            by_cases hqk : q = k
            · subst hqk
              have h3' := h3 q hq l hl
              simp only [lt_self_iff_false, if_false] at h3'
              simp only [St.setV, if_true, keep, hl, h3', hp.exact.mul, h2, am, h.mem, redTerm,
                av q hk l hl, h.ax, key, Nat.lt_succ_self]
              ring_nf
            · have e1 : ¬ q + 2 = k + 2 := by omega
              have e2 : (q < k + 1) = (q < k) := by simp; omega
              simp only [St.setV, e1, if_false, e2, h3 q hq l hl]
          · simp [St.setV, h4]
          · simp [St.setV, h5])
      obtain ⟨t, ht, h1, h2, h3⟩ := acc_phase (E := E) (s := b) (u := u) (L := E.lanes w)
        (g := fun k => Ins.op2 .add w (.v (k + 2)) (k % 2))
        (t0 := fun j => redTerm E.es true x1 x2 m0 (i + j)) (by
          intro k hk t tr tm tq
          refine ⟨_, exec_op2 rfl, fun l hl => ?_⟩
          simp only [keep, hl, if_true, hp.exact.add, tq (k + 2) (by omega), bv k hk l hl, hk])
      have hacc' : accSum (E.lanes w) b = accSum (E.lanes w) s := by
        rw [← hacc]; simp [accSum, b0, b1]
      exact ⟨t, (execs_append ha).trans ((execs_append hb).trans ht), by rw [h1, br, ar],
        by rw [h2, bm, am], fin t (by rw [h3, hacc'])⟩

/-- Pointer updates. -/
theorem redPtrs_ok (E : Env R) (dot : Bool) (b : Nat) (s : St R) :
    ∃ t, execs E (redPtrs dot b) s = some t ∧ t.mem = s.mem ∧ t.v = s.v ∧
      t.r .AX = s.r .AX + b ∧ (dot = true → t.r .CX = s.r .CX + b) ∧
      t.r (redCnt dot) = s.r (redCnt dot) ∧ t.r (redTmp dot) = s.r (redTmp dot) := by
  cases dot
  · exact ⟨_, rfl, rfl, rfl, by simp [St.setR], by simp, by simp [St.setR, redCnt],
      by simp [St.setR, redTmp]⟩
  · exact ⟨_, rfl, rfl, rfl, by simp [St.setR], by simp [St.setR], by simp [St.setR, redCnt],
      by simp [St.setR, redTmp]⟩

theorem cnt_ne_ax (dot : Bool) : Reg.AX ≠ redCnt dot := by cases dot <;> decide
theorem cnt_ne_cx : Reg.CX ≠ redCnt true := by decide
theorem tmp_ne_cnt (dot : Bool) : redTmp dot ≠ redCnt dot := by cases dot <;> decide
theorem tmp_ne_ax (dot : Bool) : Reg.AX ≠ redTmp dot := by cases dot <;> decide
theorem tmp_ne_cx : Reg.CX ≠ redTmp true := by decide
theorem ptr_ne_tmp (dot : Bool) : redPtr dot ≠ redTmp dot := by cases dot <;> decide

/-- From the position after `c` more elements have been accumulated, through pointer updates and
the decrement of the counter. -/
theorem red_advance {i c : Nat} {s t : St R} (h : RedPos E dot x1 x2 n m0 i s) (hn : i + c ≤ n)
    (hr : t.r = s.r) (hm : t.mem = s.mem) :
    ∃ t', execs E (redPtrs dot (E.es * c) ++ [.subQ c (redCnt dot)]) t = some t' ∧
      RedPos E dot x1 x2 n m0 (i + c) t' ∧ t'.v = t.v := by
  obtain ⟨d, hd, dm, dv, d1, d2, d3, d4⟩ := redPtrs_ok E dot (E.es * c) t
  rw [hr] at d1 d2 d3
  have hc := h.cnt
  refine ⟨_, (execs_append hd).trans (exec_subQ (by omega)), ⟨hn, ?_, ?_, ?_, ?_⟩, dv⟩
  · simp only [St.setR, cnt_ne_ax, if_false, d1, h.ax]; ring
  · rintro rfl
    simp only [St.setR, cnt_ne_cx, if_false, d2 rfl, h.cx rfl]; ring
  · simp only [St.setR, if_true, d3, hc]; omega
  · exact dm.trans (hm.trans h.mem)

theorem red_advance1 {i : Nat} {s t : St R} (h : RedPos E dot x1 x2 n m0 i s) (hn : i + 1 ≤ n)
    (hr : t.r = s.r) (hm : t.mem = s.mem) :
    ∃ t', execs E (redPtrs dot E.es ++ [.decQ (redCnt dot)]) t = some t' ∧
      RedPos E dot x1 x2 n m0 (i + 1) t' ∧ t'.v = t.v ∧ t'.r (redTmp dot) = s.r (redTmp dot) ∧
      t'.zf = (n - (i + 1) == 0) := by
  obtain ⟨d, hd, dm, dv, d1, d2, d3, d4⟩ := redPtrs_ok E dot E.es t
  rw [hr] at d1 d2 d3 d4
  have hc := h.cnt
  refine ⟨_, (execs_append hd).trans (exec_decQ (by omega)), ⟨hn, ?_, ?_, ?_, ?_⟩, dv, ?_, ?_⟩
  · simp only [St.setR, cnt_ne_ax, if_false, d1, h.ax]; ring
  · rintro rfl
    simp only [St.setR, cnt_ne_cx, if_false, d2 rfl, h.cx rfl]; ring
  · simp only [St.setR, if_true, d3, hc]; omega
  · exact dm.trans (hm.trans h.mem)
  · simp only [St.setR, tmp_ne_cnt, if_false, d4]
  · simp [d3, hc]; omega

theorem red_body (hp : RedPre E dot x1 x2 n) {vex : Bool} {u i : Nat} {s : St R}
    (hx : E.lanes w ≤ 16 / E.es ∨ vex = true)
    (h : RedInv E dot (E.lanes w) x1 x2 n m0 i s) (hn : i + u * E.lanes w ≤ n)
    (hal : vex = false → w = .x →
      ((if dot then x2 else x1) + E.es * i) % 16 = 0 ∧ 16 ∣ E.es * E.lanes w) :
    ∃ s', execs E (redAcc E.es dot vex w u ++ (redPtrs dot (E.es * E.lanes w * u) ++
        [.subQ (u * E.lanes w) (redCnt dot)])) s = some s' ∧
      RedInv E dot (E.lanes w) x1 x2 n m0 (i + u * E.lanes w) s' := by
  obtain ⟨t, ht, h1, h2, h3⟩ := redAcc_ok hp hx h hn hal
  obtain ⟨t', ht', h4, h5⟩ := red_advance h.toRedPos hn h1 h2
  refine ⟨t', (execs_append ht).trans ?_, h4, ?_⟩
  · rw [show E.es * E.lanes w * u = E.es * (u * E.lanes w) by ring]; exact ht'
  · rw [← h3]; simp [accSum, h5]

theorem RedPos.flags {i : Nat} {s : St R} (h : RedPos E dot x1 x2 n m0 i s) (z l : Bool) :
    RedPos E dot x1 x2 n m0 i { s with zf := z, lt := l } :=
  ⟨h.le, h.ax, h.cx, h.cnt, h.mem⟩

theorem RedInv.flags {L i : Nat} {s : St R} (h : RedInv E dot L x1 x2 n m0 i s) (z l : Bool) :
    RedInv E dot L x1 x2 n m0 i { s with zf := z, lt := l } :=
  ⟨h.toRedPos.flags z l, h.acc⟩

theorem RedInv.tmp {L i : Nat} {s : St R} (h : RedInv E dot L x1 x2 n m0 i s) (a : Nat)
    (z : Bool) : RedInv E dot L x1 x2 n m0 i { s.setR (redTmp dot) a with zf := z } := by
  refine ⟨⟨h.le, ?_, ?_, ?_, h.mem⟩, h.acc⟩
  · simpa only [St.setR, tmp_ne_ax, if_false] using h.ax
  · rintro rfl
    simpa only [St.setR, tmp_ne_cx, if_false] using h.cx rfl
  · simpa only [St.setR, (tmp_ne_cnt dot).symm, if_false] using h.cnt

theorem execs_cons {i : Ins} {is : List Ins} {s t : St R} (h : exec E i s = some t) :
    execs E (i :: is) s = execs E is t := by simp [execs, h]

theorem execs_one {i : Ins} {s t : St R} (h : exec E i s = some t) :
    execs E [i] s = some t := by simp [execs, h]

/-- Reading one element. -/
theorem src_one {base : Reg} {p i : Nat} {s : St R} (hb : s.r base = p + E.es * i)
    (hrd : E.rd (p + E.es * i) = true) (al : Bool) (hal : al = false) :
    E.src s .s al (.m ⟨base, 0⟩) = some fun l => s.mem (p + E.es * i + E.es * l) :=
  src_m (by simp [St.addr, hb]) (fun l hl => by
    obtain rfl : l = 0 := by simp [Env.lanes, lanesOf] at hl; exact hl
    simpa using hrd) (by simp [hal])

theorem ld_one {vex : Bool} {base : Reg} {p i d : Nat} {s : St R} (hb : s.r base = p + E.es * i)
    (hrd : E.rd (p + E.es * i) = true) (h0 : 0 < 16 / E.es) :
    ∃ f : Nat → R, exec E (.ld vex .s ⟨base, 0⟩ d) s = some (s.setV d f) ∧
      f 0 = s.mem (p + E.es * i) := by
  have hok : E.ok E.rd (s.addr ⟨base, 0⟩) (E.lanes .s) = true := ok_of fun l hl => by
    obtain rfl : l = 0 := by simp [Env.lanes, lanesOf] at hl; exact hl
    simpa [St.addr, hb] using hrd
  refine ⟨_, if_pos hok, ?_⟩
  cases vex <;> simp [keep, h0, Env.lanes, lanesOf, St.addr, hb]

/-- One element into lane 0 of register 0 (SSE tail and SSE alignment). -/
theorem redOne_ok (hp : RedPre E dot x1 x2 n) {L i : Nat} {s : St R} (hL : 0 < L)
    (h0 : 0 < 16 / E.es) (h : RedInv E dot L x1 x2 n m0 i s) (hn : i + 1 ≤ n) {one : List Ins}
    (hone : one = redOneSSE dot ∨ one = redOneAlign dot) :
    ∃ s', execs E (one ++ (redPtrs dot E.es ++ [.decQ (redCnt dot)])) s = some s' ∧
      RedInv E dot L x1 x2 n m0 (i + 1) s' ∧ s'.r (redTmp dot) = s.r (redTmp dot) ∧
      s'.zf = (n - (i + 1) == 0) := by
  suffices H : ∃ t, execs E one s = some t ∧ t.r = s.r ∧ t.mem = s.mem ∧
      accSum L t = accSum L s + redTerm E.es dot x1 x2 m0 i by
    obtain ⟨t, ht, h1, h2, h3⟩ := H
    obtain ⟨t', ht', h4, h5, h6, h7⟩ := red_advance1 h.toRedPos hn h1 h2
    refine ⟨t', (execs_append ht).trans ht', ⟨h4, ?_⟩, h6, h7⟩
    rw [Finset.sum_range_succ, ← h.acc, ← h3]; simp [accSum, h5]
  have add0 : ∀ (t : St R) (f : Nat → R), t.v 0 = s.v 0 → t.v 1 = s.v 1 →
      f 0 = redTerm E.es dot x1 x2 m0 i →
      accSum L (t.setV 0 (keep (E.lanes .s) (fun l => E.alu.op .add (t.v 0 l) (f l)) (t.v 0))) =
        accSum L s + redTerm E.es dot x1 x2 m0 i := by
    intro t f t0 t1 hf
    have := sum_lane0 (L := L) hL
      (f := keep (E.lanes .s) (fun l => E.alu.op .add (t.v 0 l) (f l)) (t.v 0)) (g := s.v 0)
      (a := redTerm E.es dot x1 x2 m0 i)
      (by simp [keep, Env.lanes, lanesOf, hp.exact.add, hf, t0])
      (by intro l hl _; simp [keep, Env.lanes, lanesOf, t0, hl.ne'])
    simp only [accSum, St.setV, if_true, one_ne_zero, if_false, this, t1]
    abel
  have hax : ∀ t : St R, t.r = s.r → t.r .AX = x1 + E.es * i := fun t ht => by rw [ht, h.ax]
  cases dot with
  | false =>
    rcases hone with rfl | rfl
    · have hs : E.src s .s (decide (W.s = .x)) (.m ⟨.AX, 0⟩) = _ :=
        src_one (hax s rfl) (hp.rd1 i (by omega)) _ (by decide)
      refine ⟨_, execs_one (exec_op2 hs),
        rfl, rfl, add0 s _ rfl rfl ?_⟩
      simp [redTerm, h.mem]
    · obtain ⟨f, hf, hf0⟩ := ld_one (E := E) (vex := false) (d := 2) (hax s rfl)
        (hp.rd1 i (by omega)) h0
      refine ⟨_, (execs_cons hf).trans (execs_one (exec_op2 rfl)), rfl, rfl, add0 (s.setV 2 f) _ rfl rfl ?_⟩
      simp [redTerm, St.setV, hf0, h.mem]
  | true =>
    obtain rfl : one = redOneSSE true := by rcases hone with rfl | rfl <;> rfl
    obtain ⟨f, hf, hf0⟩ := ld_one (E := E) (vex := false) (d := 2) (hax s rfl)
      (hp.rd1 i (by omega)) h0
    have hs : E.src (s.setV 2 f) .s (decide (W.s = .x)) (.m ⟨.CX, 0⟩) = _ :=
      src_one (h.cx rfl) (hp.rd2 rfl i (by omega)) _ (by decide)
    refine ⟨_, (execs_cons hf).trans ((execs_cons (exec_op2 hs)).trans (execs_one (exec_op2 rfl))), rfl, rfl, add0 (St.setV _ 2 _) _ rfl rfl ?_⟩
    simp [redTerm, St.setV, hf0, h.mem, keep, Env.lanes, lanesOf, hp.exact.mul]

/-- Invariant of the AVX tail: register 2 has a part of the sum in lane 0. -/
structure RedTailInv (E : Env R) (dot : Bool) (L x1 x2 n : Nat) (m0 : Nat → R) (i : Nat)
    (s : St R) : Prop extends RedPos E dot x1 x2 n m0 i s where
  acc : accSum L s + s.v 2 0 = (Finset.range i).sum (redTerm E.es dot x1 x2 m0)
  zero : ∀ l, 0 < l → l < 16 / E.es → s.v 2 l = 0

theorem redOneAVX_ok (hp : RedPre E dot x1 x2 n) {L i : Nat} {s : St R}
    (h0 : 0 < 16 / E.es) (h : RedTailInv E dot L x1 x2 n m0 i s) (hn : i + 1 ≤ n) :
    ∃ s', execs E (redOneAVX dot ++ (redPtrs dot E.es ++ [.decQ (redCnt dot)])) s = some s' ∧
      RedTailInv E dot L x1 x2 n m0 (i + 1) s' := by
  suffices H : ∃ t, execs E (redOneAVX dot) s = some t ∧ t.r = s.r ∧ t.mem = s.mem ∧
      t.v 0 = s.v 0 ∧ t.v 1 = s.v 1 ∧ t.v 2 0 = s.v 2 0 + redTerm E.es dot x1 x2 m0 i ∧
      ∀ l, 0 < l → l < 16 / E.es → t.v 2 l = s.v 2 l by
    obtain ⟨t, ht, h1, h2, h3, h4, h5, h6⟩ := H
    obtain ⟨t', ht', h7, h8, -⟩ := red_advance1 h.toRedPos hn h1 h2
    refine ⟨t', (execs_append ht).trans ht', h7, ?_, ?_⟩
    · rw [Finset.sum_range_succ, ← h.acc, h8, h5]
      simp only [accSum, h8, h3, h4]; abel
    · intro l hl hl'
      rw [h8, h6 l hl hl', h.zero l hl hl']
  cases dot with
  | false =>
    have hs : E.src s .s false (.m ⟨.AX, 0⟩) = _ :=
      src_one h.ax (hp.rd1 i (by omega)) _ rfl
    refine ⟨_, execs_one (exec_op3 hs),
      rfl, rfl, rfl, rfl, ?_, ?_⟩
    · simp [St.setV, Env.vex, Env.lanes, lanesOf, hp.exact.add, redTerm, h.mem]
    · intro l hl hl'
      simp [St.setV, Env.vex, Env.lanes, lanesOf, hl.ne', hl']
  | true =>
    obtain ⟨f, hf, hf0⟩ := ld_one (E := E) (vex := true) (d := 3) h.ax
      (hp.rd1 i (by omega)) h0
    have hs : E.src (s.setV 3 f) .s false (.m ⟨.CX, 0⟩) = _ :=
      src_one (h.cx rfl) (hp.rd2 rfl i (by omega)) _ rfl
    refine ⟨_, (execs_cons hf).trans (execs_one (exec_fma hs)), rfl, rfl, rfl, rfl, ?_, ?_⟩
    · simp [St.setV, Env.vex, Env.lanes, lanesOf, hp.exact.fma, redTerm, h.mem, hf0, add_comm]
    · intro l hl hl'
      simp [St.setV, Env.vex, Env.lanes, lanesOf, hl.ne', hl']

/-- The final sum of the SSE routines. -/
theorem redFinSSE_ok (hex : Exact E.alu) (hes : E.es = 4 ∨ E.es = 8) (s : St R) :
    ∃ t, execs E (redFinSSE E.es dot) s = some t ∧ t.mem = s.mem ∧
      t.out = some (accSum (E.lanes .x) s) := by
  rcases hes with h | h
  · rw [h]
    refine ⟨_, rfl, rfl, ?_⟩
    simp [St.setV, keep, Env.hadd, Env.lanes, lanesOf, h, hex.add, accSum, Finset.sum_range_succ]
    abel
  · rw [h]
    refine ⟨_, rfl, rfl, ?_⟩
    simp [St.setV, keep, Env.hadd, Env.lanes, lanesOf, h, hex.add, accSum, Finset.sum_range_succ]
    abel

/-- The final sum of the AVX routines. -/
theorem redFinAVX_ok (hex : Exact E.alu) (hes : E.es = 4 ∨ E.es = 8) (s : St R)
    (hz : ∀ l, 0 < l → l < 16 / E.es → s.v 2 l = 0) :
    ∃ t, execs E (redFinAVX E.es dot) s = some t ∧ t.mem = s.mem ∧
      t.out = some (accSum (E.lanes .y) s + s.v 2 0) := by
  rcases hes with h | h
  · rw [h] at hz
    rw [h]
    refine ⟨_, rfl, rfl, ?_⟩
    simp [St.setV, Env.vex, Env.hadd, Env.lanes, lanesOf, h, hex.add, accSum,
      Finset.sum_range_succ, hz]
    abel
  · rw [h] at hz
    rw [h]
    refine ⟨_, rfl, rfl, ?_⟩
    simp [St.setV, Env.vex, Env.hadd, Env.lanes, lanesOf, h, hex.add, accSum,
      Finset.sum_range_succ, hz]
    abel

/-- The arguments. -/
structure RedArgs (E : Env R) (dot : Bool) (x1 x2 n : Nat) : Prop where
  a1 : E.argQ 0 = x1
  a2 : dot = true → E.argQ 24 = x2
  len : E.argQ 8 = n

theorem redArgs_ok (ha : RedArgs E dot x1 x2 n) (hex : Exact E.alu) (vex : Bool) (L : Nat)
    (hL : L ≤ 16 / E.es ∨ vex = true) (s : St R) :
    ∃ t, execs E (redArgs dot vex) s = some t ∧ RedInv E dot L x1 x2 n s.mem 0 t := by
  cases dot <;> cases vex
  · refine ⟨_, rfl, ⟨by omega, ?_, by simp, ?_, rfl⟩, ?_⟩
    · simp [St.setR, St.setV, ha.a1]
    · simp [St.setR, St.setV, ha.len, redCnt]
    · have hL := hL.resolve_right (by simp)
      simp only [accSum, Finset.sum_range_zero]
      rw [Finset.sum_eq_zero, Finset.sum_eq_zero, add_zero] <;> intro l hl <;>
        · have : l < 16 / E.es := by have := Finset.mem_range.1 hl; omega
          simp [St.setR, St.setV, keep, hex.zero, this]
  · refine ⟨_, rfl, ⟨by omega, ?_, by simp, ?_, rfl⟩, ?_⟩
    · simp [St.setR, St.setV, ha.a1]
    · simp [St.setR, St.setV, ha.len, redCnt]
    · simp [accSum, St.setV, hex.zero]
  · refine ⟨_, rfl, ⟨by omega, ?_, ?_, ?_, rfl⟩, ?_⟩
    · simp [St.setR, St.setV, ha.a1]
    · simp [St.setR, St.setV, ha.a2]
    · simp [St.setR, St.setV, ha.len, redCnt]
    · have hL := hL.resolve_right (by simp)
      simp only [accSum, Finset.sum_range_zero]
      rw [Finset.sum_eq_zero, Finset.sum_eq_zero, add_zero] <;> intro l hl <;>
        · have : l < 16 / E.es := by have := Finset.mem_range.1 hl; omega
          simp [St.setR, St.setV, keep, hex.zero, this]
  · refine ⟨_, rfl, ⟨by omega, ?_, ?_, ?_, rfl⟩, ?_⟩
    · simp [St.setR, St.setV, ha.a1]
    · simp [St.setR, St.setV, ha.a2]
    · simp [St.setR, St.setV, ha.len, redCnt]
    · simp [accSum, St.setV, hex.zero]

/-- The result of a reduction. -/
def RedPost (es : Nat) (dot : Bool) (x1 x2 n : Nat) (m0 : Nat → R) (s : St R) : Prop :=
  s.out = some ((Finset.range n).sum (redTerm es dot x1 x2 m0)) ∧ s.mem = m0

/-- The four unrolled loops. -/
theorem redLoops_ok (hp : RedPre E dot x1 x2 n) (hes : E.es = 4 ∨ E.es = 8) {vex : Bool}
    (hw : (vex = true ∧ w = .y) ∨ (vex = false ∧ w = .x)) {code rest : List Line} {N : Lbl}
    (hN' : N = .tail ∨ N = .tailLoop)
    (hcode : ∀ l, l = .unrolledLoop14 ∨ l = .unrolledLoop8 ∨ l = .unrolledLoop4 ∨
        l = .unrolledLoop1 →
      after l code = after l (redLoops E.es dot vex w N rest))
    (hN : ∀ i t, RedInv E dot (E.lanes w) x1 x2 n m0 i t →
      ∃ s', Run E code (after N code) t s' ∧ RedPost E.es dot x1 x2 n m0 s') :
    ∀ i t, RedInv E dot (E.lanes w) x1 x2 n m0 i t →
      (vex = false → ((if dot then x2 else x1) + E.es * i) % 16 = 0) →
      ∃ s', Run E code (after .unrolledLoop14 code) t s' ∧ RedPost E.es dot x1 x2 n m0 s' := by
  have hL : 0 < E.lanes w := by
    rcases hw with ⟨-, rfl⟩ | ⟨-, rfl⟩ <;> rcases hes with h | h <;> simp [Env.lanes, lanesOf, h]
  have h16 : 16 ∣ E.es * E.lanes w := by
    rcases hw with ⟨-, rfl⟩ | ⟨-, rfl⟩ <;> rcases hes with h | h <;> simp [Env.lanes, lanesOf, h]
  have hx : E.lanes w ≤ 16 / E.es ∨ vex = true := by
    rcases hw with ⟨h, -⟩ | ⟨-, rfl⟩
    · exact .inr h
    · exact .inl le_rfl
  have hstep : ∀ (u : Nat) (L N : Lbl) (rest : List Line), 0 < u →
      after L code =
        .i (.cmpQ (redCnt dot) (u * lanesOf E.es w)) :: .jcc .l N ::
        (seg (redAcc E.es dot vex w u ++ (redPtrs dot (E.es * lanesOf E.es w * u) ++
          [.subQ (u * lanesOf E.es w) (redCnt dot)])) ++ .jmp L :: rest) →
      (∀ i t, (RedInv E dot (E.lanes w) x1 x2 n m0 i t ∧
          (vex = false → ((if dot then x2 else x1) + E.es * i) % 16 = 0)) →
        ∃ s', Run E code (after N code) t s' ∧ RedPost E.es dot x1 x2 n m0 s') →
      ∀ i t, (RedInv E dot (E.lanes w) x1 x2 n m0 i t ∧
          (vex = false → ((if dot then x2 else x1) + E.es * i) % 16 = 0)) →
        ∃ s', Run E code (after L code) t s' ∧ RedPost E.es dot x1 x2 n m0 s' := by
    intro u L N rest hu hL' hN
    refine loop_l (n := n) (cnt := redCnt dot)
      (Inv := fun i t => RedInv E dot (E.lanes w) x1 x2 n m0 i t ∧
          (vex = false → ((if dot then x2 else x1) + E.es * i) % 16 = 0))
      (Post := RedPost E.es dot x1 x2 n m0)
      (c := u * E.lanes w) (Nat.mul_pos hu hL) hL'
      (fun i s h => ⟨h.1.le, h.1.cnt⟩) (fun i s z l h => ⟨h.1.flags z l, h.2⟩)
      (fun i s h hi => ?_) (fun i s h _ => hN i s h)
    obtain ⟨s', h1, h2⟩ := red_body (u := u) hp hx h.1 hi fun hv _ => ⟨h.2 hv, h16⟩
    refine ⟨s', h1, h2, fun hv => ?_⟩
    obtain ⟨c, hc⟩ := h16
    have h1 := h.2 hv
    have : E.es * (i + u * E.lanes w) = E.es * i + 16 * (c * u) := by
      calc E.es * (i + u * E.lanes w) = E.es * i + (E.es * E.lanes w) * u := by ring
        _ = _ := by rw [hc]; ring
    omega
  have h1 := hstep 1 .unrolledLoop1 N _ (by omega)
    (by rw [hcode _ (by simp)]; simp only [redLoops, redLoop, after, after_seg, if_true]; rfl)
    (fun i t h => hN i t h.1)
  have h4 := hstep 4 .unrolledLoop4 .unrolledLoop1 _ (by omega)
    (by rw [hcode _ (by simp)]; simp only [redLoops, redLoop, after, after_seg, if_true]; rfl) h1
  have h8 := hstep 8 .unrolledLoop8 .unrolledLoop4 _ (by omega)
    (by rw [hcode _ (by simp)]; simp only [redLoops, redLoop, after, after_seg, if_true]; rfl) h4
  have h14 := hstep 14 .unrolledLoop14 .unrolledLoop8 _ (by omega)
    (by rw [hcode _ (by simp)]; simp only [redLoops, redLoop, after, after_seg, if_true]; rfl) h8
  exact fun i t h ha => h14 i t ⟨h, ha⟩

theorem redAVX_correct (ha : RedArgs E dot x1 x2 n) (hp : RedPre E dot x1 x2 n)
    (hes : E.es = 4 ∨ E.es = 8) (s : St R) :
    ∃ s', Call E (redAVX E.es dot) s s' ∧ RedPost E.es dot x1 x2 n s.mem s' := by
  have h0 : 0 < 16 / E.es := by rcases hes with h | h <;> simp [h]
  obtain ⟨t, ht, hi⟩ := redArgs_ok ha hp.exact true (E.lanes .y) (.inr rfl) s
  have pre : ∀ l, after l (redAVX E.es dot) = _ := fun l => after_seg _ _ _
  have hend : ∀ t, RedTailInv E dot (E.lanes .y) x1 x2 n s.mem n t →
      ∃ s', Run E (redAVX E.es dot) (after .reduce (redAVX E.es dot)) t s' ∧
        RedPost E.es dot x1 x2 n s.mem s' := by
    intro t h
    obtain ⟨s', h1, h2, h3⟩ := redFinAVX_ok (dot := dot) hp.exact hes t h.zero
    refine ⟨s', ?_, by rw [h3, h.acc], by rw [h2, h.mem]⟩
    rw [pre]
    simp only [redLoops, redLoop, redTail, after, after_seg]
    exact Run.seg h1 .ret
  have htail := loop_z (E := E) (code := redAVX E.es dot) (n := n) (cnt := redCnt dot)
    (L := .tailLoop) (N := .reduce) (Post := RedPost E.es dot x1 x2 n s.mem)
    (Inv := RedTailInv E dot (E.lanes .y) x1 x2 n s.mem)
    (body := redOneAVX dot ++ (redPtrs dot E.es ++ [.decQ (redCnt dot)])) (rest := _)
    (by rw [pre]; simp only [redLoops, redLoop, redTail, after, after_seg, if_true]; rfl)
    (fun i s h => ⟨h.le, h.cnt⟩)
    (fun i s z l h => ⟨h.toRedPos.flags z l, h.acc, h.zero⟩)
    (fun i s h hi => redOneAVX_ok hp h0 h hi) hend
  have h := redLoops_ok (w := .y) (vex := true) (N := .tail) (m0 := s.mem) hp hes
    (.inl ⟨rfl, rfl⟩) (code := redAVX E.es dot) (.inl rfl) (fun l _ => pre l) (by
      intro i t h
      have hz : execs E [.zero3 2] t = some (t.setV 2 fun _ => E.alu.zero) := rfl
      obtain ⟨s', hs', hd⟩ := htail i (t.setV 2 fun _ => E.alu.zero)
        ⟨⟨h.le, h.ax, h.cx, h.cnt, h.mem⟩, by
          rw [← h.acc]; simp [accSum, St.setV, hp.exact.zero], by simp [St.setV, hp.exact.zero]⟩
      refine ⟨s', ?_, hd⟩
      rw [pre] at hs' ⊢
      simp only [redLoops, redLoop, redTail, after, after_seg, if_true] at hs' ⊢
      exact Run.seg hz (.label hs'))
  obtain ⟨s', hs', hd⟩ := h 0 t hi (by simp)
  refine ⟨s', Run.seg ht (.label ?_), hd⟩
  rw [pre] at hs'
  simpa [redLoops, redLoop, after] using hs'

/-- The loops, the tail and the end of the SSE routines. -/
theorem redSSELoops_ok (hp : RedPre E dot x1 x2 n) (hes : E.es = 4 ∨ E.es = 8) {code : List Line}
    (hcode : ∀ l, l ≠ .alignmentLoop → after l code = after l (redSSELoops E.es dot)) :
    (∀ s, RedInv E dot (E.lanes .x) x1 x2 n m0 n s →
      ∃ s', Run E code (after .reduce code) s s' ∧ RedPost E.es dot x1 x2 n m0 s') ∧
    ∀ i s, RedInv E dot (E.lanes .x) x1 x2 n m0 i s →
      ((if dot then x2 else x1) + E.es * i) % 16 = 0 →
      ∃ s', Run E code (after .unrolledLoops code) s s' ∧ RedPost E.es dot x1 x2 n m0 s' := by
  have h0 : 0 < 16 / E.es := by rcases hes with h | h <;> simp [h]
  have hend : ∀ t, RedInv E dot (E.lanes .x) x1 x2 n m0 n t →
      ∃ s', Run E code (after .reduce code) t s' ∧ RedPost E.es dot x1 x2 n m0 s' := by
    intro t h
    obtain ⟨s', h1, h2, h3⟩ := redFinSSE_ok (dot := dot) hp.exact hes t
    refine ⟨s', ?_, by rw [h3, h.acc], by rw [h2, h.mem]⟩
    rw [hcode _ (by decide)]
    simp only [redSSELoops, redLoops, redLoop, redTail, after, after_seg]
    exact Run.seg h1 .ret
  have htail := loop_z (E := E) (code := code) (n := n) (cnt := redCnt dot)
    (L := .tailLoop) (N := .reduce) (Post := RedPost E.es dot x1 x2 n m0)
    (Inv := RedInv E dot (E.lanes .x) x1 x2 n m0)
    (body := redOneSSE dot ++ (redPtrs dot E.es ++ [.decQ (redCnt dot)])) (rest := _)
    (by
      rw [hcode _ (by decide)]
      simp only [redSSELoops, redLoops, redLoop, redTail, after, after_seg, if_true]; rfl)
    (fun i s h => ⟨h.le, h.cnt⟩) (fun i s z l h => h.flags z l)
    (fun i s h hi => by
      obtain ⟨s', h1, h2, -⟩ := redOne_ok hp h0 h0 h hi (.inl rfl)
      exact ⟨s', h1, h2⟩) hend
  have h := redLoops_ok (w := .x) (vex := false) (N := .tailLoop) (m0 := m0) hp hes
    (.inr ⟨rfl, rfl⟩) (code := code) (.inr rfl)
    (rest := redTail E.es dot (redOneSSE dot) (redFinSSE E.es dot)) (by
      intro l hl
      rw [hcode _ (by rcases hl with rfl | rfl | rfl | rfl <;> decide)]
      rcases hl with rfl | rfl | rfl | rfl <;> simp [redSSELoops, after]) htail
  refine ⟨hend, fun i s hi ha => ?_⟩
  obtain ⟨s', hs', hd⟩ := h i s hi fun _ => ha
  refine ⟨s', ?_, hd⟩
  rw [hcode _ (by decide)] at hs' ⊢
  simp only [redSSELoops, redLoops, redLoop, after, after_seg, if_true] at hs' ⊢
  exact .label hs'

theorem redPtr_eq {s : St R} {i : Nat} (h : RedPos E dot x1 x2 n m0 i s) :
    s.r (redPtr dot) = (if dot then x2 else x1) + E.es * i := by
  cases dot
  · exact h.ax
  · exact h.cx rfl

theorem redSSE32_correct (ha : RedArgs E dot x1 x2 n) (hp : RedPre E dot x1 x2 n)
    (hes : E.es = 4) (h4 : (if dot then x2 else x1) % 4 = 0) (s : St R) :
    ∃ s', Call E (redSSE32 dot) s s' ∧ RedPost E.es dot x1 x2 n s.mem s' := by
  have h0 : 0 < 16 / E.es := by simp [hes]
  obtain ⟨t, ht, hi⟩ := redArgs_ok ha hp.exact false (E.lanes .x) (.inl le_rfl) s
  obtain ⟨hend, h⟩ := redSSELoops_ok (m0 := s.mem) hp (.inl hes) (code := redSSE32 dot)
    (fun l hl => by simp [redSSE32, after, after_seg, hes, hl.symm])
  obtain ⟨s', hs', hd⟩ := prelude32 (E := E) (code := redSSE32 dot) (n := n) (cnt := redCnt dot)
    (tmp := redTmp dot) (ptr := redPtr dot) (N := .reduce) (U := .unrolledLoops)
    (p := if dot then x2 else x1)
    (body := redOneAlign dot ++ (redPtrs dot 4 ++ [.decQ (redCnt dot)]))
    (rest := redSSELoops 4 dot) (Inv := RedInv E dot (E.lanes .x) x1 x2 n s.mem)
    (Post := RedPost E.es dot x1 x2 n s.mem) (ptr_ne_tmp dot) h4
    (by simp [redSSE32, after, after_seg])
    (fun i s h => ⟨h.le, h.cnt⟩) (fun s h => by simpa using redPtr_eq h.toRedPos)
    (fun i s z l h => h.flags z l) (fun i s a z h => h.tmp a z)
    (fun i s h hi => by
      have := redOne_ok (L := E.lanes .x) hp h0 h0 h hi (.inr rfl)
      rwa [hes] at this)
    hend (fun s hi h16 => h 0 s hi (by simpa using h16))
    (fun i s hi h16 => by
      obtain ⟨s', hs', hd⟩ := h i s hi (by rw [hes]; exact h16)
      refine ⟨s', .label ?_, hd⟩
      simpa [redSSE32, redSSELoops, after, after_seg] using hs') t hi
  exact ⟨s', Run.seg ht hs', hd⟩

theorem redSSE64_correct (ha : RedArgs E dot x1 x2 n) (hp : RedPre E dot x1 x2 n)
    (hes : E.es = 8) (h8 : (if dot then x2 else x1) % 8 = 0) (s : St R) :
    ∃ s', Call E (redSSE64 dot) s s' ∧ RedPost E.es dot x1 x2 n s.mem s' := by
  have h0 : 0 < 16 / E.es := by simp [hes]
  obtain ⟨t, ht, hi⟩ := redArgs_ok ha hp.exact false (E.lanes .x) (.inl le_rfl) s
  obtain ⟨hend, h⟩ := redSSELoops_ok (m0 := s.mem) hp (.inr hes) (code := redSSE64 dot)
    (fun l hl => by simp [redSSE64, after, after_seg, hes, hl.symm])
  obtain ⟨s', hs', hd⟩ := prelude64 (E := E) (code := redSSE64 dot) (n := n) (cnt := redCnt dot)
    (tmp := redTmp dot) (ptr := redPtr dot) (N := .reduce) (U := .unrolledLoops)
    (p := if dot then x2 else x1)
    (body := redOneAlign dot ++ (redPtrs dot 8 ++ [.decQ (redCnt dot)]))
    (rest := redSSELoops 8 dot) (Inv := RedInv E dot (E.lanes .x) x1 x2 n s.mem)
    (Post := RedPost E.es dot x1 x2 n s.mem) (ptr_ne_tmp dot) h8
    (fun i s h => ⟨h.le, h.cnt⟩) (fun s h => by simpa using redPtr_eq h.toRedPos)
    (fun i s z l h => h.flags z l) (fun i s a z h => h.tmp a z)
    (fun i s h hi => by
      have := redOne_ok (L := E.lanes .x) hp h0 h0 h hi (.inr rfl)
      rwa [hes] at this)
    hend (fun s hi h16 => h 0 s hi (by simpa using h16))
    (fun i s hi h16 => by
      obtain ⟨s', hs', hd⟩ := h i s hi (by rw [hes]; exact h16)
      refine ⟨s', .label ?_, hd⟩
      simpa [redSSE64, redSSELoops, after, after_seg] using hs') t hi
  exact ⟨s', Run.seg ht hs', hd⟩

end Verif.Asm
