/-
`GemvN` of 64 bits, contiguous operands: what the straight-line pieces do.  The lists are those of
`Model/GonumCode.lean`; the statements about single pieces follow one pattern, from symbolic
execution.
-/
import Verif.Lemmas.GonumCumSum
import Verif.Lemmas.AsmRed
set_option autoImplicit false
set_option linter.unusedSimpArgs false
set_option maxRecDepth 10000

namespace Verif.Gonum

open Verif.Asm (Arith Alu W keep lanesOf Done SameOrApart Exact)

variable {R : Type}

/-- A call: `y = al * A * x + be * y`, with `m1` the memory when the rows are started. -/
structure Gv (R : Type) where
  E : Env R
  m1 : Nat → R
  al : R
  be : R
  a : Nat
  x : Nat
  y : Nat
  m : Nat
  n : Nat
  lda : Nat

namespace Gv

variable (G : Gv R)

def A (i j : Nat) : R := G.m1 (G.a + 8 * (G.lda * i + j))

def X (j : Nat) : R := G.m1 (G.x + 8 * j)

/-- Row `i` times the column, up to index `j`. -/
def dot [CommSemiring R] (i j : Nat) : R := (Finset.range j).sum fun c => G.A i c * G.X c

/-- Entry `i` of the result. -/
def T [CommSemiring R] (i : Nat) : R := G.be * G.m1 (G.y + 8 * i) + G.al * G.dot i G.n

structure Pre [CommSemiring R] : Prop where
  es : G.E.es = 8
  ex : Exact G.E.alu
  rdA : ∀ i j, i < G.m → j < G.n → G.E.rd (G.a + 8 * (G.lda * i + j)) = true
  rdX : ∀ j, j < G.n → G.E.rd (G.x + 8 * j) = true
  rdY : ∀ i, i < G.m → G.E.rd (G.y + 8 * i) = true
  wrY : ∀ i, i < G.m → G.E.wr (G.y + 8 * i) = true
  apA : ∀ i j k, i < G.m → j < G.n → k < G.m → G.a + 8 * (G.lda * i + j) ≠ G.y + 8 * k
  apX : ∀ j k, j < G.n → k < G.m → G.x + 8 * j ≠ G.y + 8 * k

/-- `i` rows are done; `k` is the count of groups of rows. -/
structure Base [CommSemiring R] (i k : Nat) (s : St R) : Prop where
  le : i ≤ G.m
  cx : s.r .CX = k
  ax : s.r .AX = G.a + 8 * (G.lda * i)
  dx : s.r .DX = G.y + 8 * i
  r10 : s.r .R10 = 8
  r12 : s.r .R12 = 8 * G.lda
  r13 : s.r .R13 = 24 * G.lda
  f0 : s.frame 0 = G.m
  f8 : s.frame 8 = G.n
  f56 : s.frame 56 = G.x
  al15 : ∀ l, l < 2 → s.v 15 l = G.al
  be14 : ∀ l, l < 2 → s.v 14 l = G.be
  mem : Done 8 G.y G.T G.m1 i s.mem

/-- Within `h` rows from row `i` on, `j` columns are done; `acc` tells where the sums are. -/
structure Col [CommSemiring R] (acc : (Nat → Nat → R) → Nat → R) (h i k j : Nat) (s : St R) : Prop
    extends G.Base i k s where
  hi : i + h ≤ G.m
  lj : j ≤ G.n
  di : s.r .DI = G.a + 8 * (G.lda * i + j)
  si : s.r .SI = G.x + 8 * j
  sum : ∀ q, q < h → acc s.v q = G.dot (i + q) j

/-- The `h` rows are summed up. -/
structure Fin [CommSemiring R] (acc : (Nat → Nat → R) → Nat → R) (h i k : Nat) (s : St R) : Prop
    extends G.Base i k s where
  hi : i + h ≤ G.m
  sum : ∀ q, q < h → acc s.v q = G.dot (i + q) G.n

end Gv

/-- Sum `q` is spread over the two lanes of register `q`. -/
def acc2 [CommSemiring R] (v : Nat → Nat → R) (q : Nat) : R := v q 0 + v q 1

/-- Sums `q` and `q + 1` are in the two lanes of register `q`, `q` even. -/
def accH (v : Nat → Nat → R) (q : Nat) : R := v (q / 2 * 2) (q % 2)

/-- Address of row `q` of a group. -/
def rowA : Nat → Nat → Addr
  | 0, o => ⟨.DI, none, o⟩
  | 1, o => ⟨.DI, some (.R12, 1), o⟩
  | 2, o => ⟨.DI, some (.R12, 2), o⟩
  | _, o => ⟨.DI, some (.R13, 1), o⟩

/-- A cell of the group, `w` columns wide. -/
def needOk (h w : Nat) (p : Addr × Nat) : Bool :=
  p.1.off % 8 == 0 && decide (p.1.off / 8 + p.2 < w) &&
    (p.1 == ⟨.SI, none, p.1.off⟩ || (List.range h).any fun q => p.1 == rowA q p.1.off)

section
variable [CommSemiring R] {G : Gv R} {acc : (Nat → Nat → R) → Nat → R} {h i k j : Nat} {s : St R}

theorem Gv.Base.keep {i k k' : Nat} {s t : St R} (h : G.Base i k s) (cx : t.r .CX = k')
    (ax : t.r .AX = s.r .AX) (dx : t.r .DX = s.r .DX) (r10 : t.r .R10 = s.r .R10)
    (r12 : t.r .R12 = s.r .R12) (r13 : t.r .R13 = s.r .R13) (f : t.frame = s.frame)
    (v15 : ∀ l, l < 2 → t.v 15 l = s.v 15 l) (v14 : ∀ l, l < 2 → t.v 14 l = s.v 14 l)
    (m : t.mem = s.mem) : G.Base i k' t :=
  ⟨h.le, cx, ax.trans h.ax, dx.trans h.dx, r10.trans h.r10, r12.trans h.r12, r13.trans h.r13,
    (congrFun f 0).trans h.f0, (congrFun f 8).trans h.f8, (congrFun f 56).trans h.f56,
    fun l hl => (v15 l hl).trans (h.al15 l hl), fun l hl => (v14 l hl).trans (h.be14 l hl),
    m ▸ h.mem⟩

theorem Gv.Col.addrA (H : G.Col acc h i k j s) {q : Nat} (hq : q < 4) (o : Nat) :
    s.addr (rowA q o) = G.a + 8 * (G.lda * (i + q) + j) + o := by
  obtain rfl | rfl | rfl | rfl : q = 0 ∨ q = 1 ∨ q = 2 ∨ q = 3 := by omega
  all_goals
    simp only [rowA, St.addr, H.di, H.r12, H.r13]
    ring

theorem Gv.Col.addrX (H : G.Col acc h i k j s) (o : Nat) :
    s.addr ⟨.SI, none, o⟩ = G.x + 8 * j + o := by
  simp only [St.addr, H.si]

theorem Gv.Base.read (hp : G.Pre) (H : G.Base i k s) {p : Nat}
    (hy : ∀ k, k < G.m → p ≠ G.y + 8 * k) : s.mem p = G.m1 p :=
  H.mem.2 p fun k hk => hy k (by have := H.le; omega)

theorem Gv.Col.evA (hp : G.Pre) (H : G.Col acc h i k j s) (q c l : Nat) (hq : q < h) (hq4 : q < 4)
    (hc : j + (c + l) < G.n) :
    Ex.eval G.E s (.ld (rowA q (8 * c)) l) = G.A (i + q) (j + (c + l)) := by
  have e : G.a + 8 * (G.lda * (i + q) + j) + 8 * c + 8 * l =
      G.a + 8 * (G.lda * (i + q) + (j + (c + l))) := by ring
  have := H.hi
  simp only [Ex.eval, H.addrA hq4, hp.es, e]
  exact H.read hp fun k hk => hp.apA _ _ _ (by omega) hc hk

theorem Gv.Col.evX (hp : G.Pre) (H : G.Col acc h i k j s) (c l : Nat) (hc : j + (c + l) < G.n) :
    Ex.eval G.E s (.ld ⟨.SI, none, 8 * c⟩ l) = G.X (j + (c + l)) := by
  have e : G.x + 8 * j + 8 * c + 8 * l = G.x + 8 * (j + (c + l)) := by ring
  simp only [Ex.eval, H.addrX, hp.es, e]
  exact H.read hp fun k hk => hp.apX _ _ hc hk

theorem Gv.Col.need (hp : G.Pre) (H : G.Col acc h i k j s) {w : Nat} (hw : j + w ≤ G.n) (h4 : h ≤ 4)
    {l : List (Addr × Nat)} (hl : l.all (needOk h w) = true) :
    ∀ p ∈ l, G.E.rd (s.addr p.1 + 8 * p.2) = true := by
  intro p hpl
  have := List.all_eq_true.1 hl p hpl
  simp only [needOk, Bool.and_eq_true, beq_iff_eq, decide_eq_true_eq, Bool.or_eq_true,
    List.any_eq_true, List.mem_range] at this
  obtain ⟨⟨h8, hc⟩, hr⟩ := this
  have e8 : p.1.off = 8 * (p.1.off / 8) := by omega
  rcases hr with hx | ⟨q, hq, ha⟩
  · rw [hx, H.addrX]
    rw [show G.x + 8 * j + p.1.off + 8 * p.2 = G.x + 8 * (j + (p.1.off / 8 + p.2)) by omega]
    exact hp.rdX _ (by omega)
  · have := H.hi
    rw [ha, H.addrA (by omega)]
    rw [show G.a + 8 * (G.lda * (i + q) + j) + p.1.off + 8 * p.2 =
      G.a + 8 * (G.lda * (i + q) + (j + (p.1.off / 8 + p.2))) by omega]
    exact hp.rdA _ _ (by omega) (by omega)

theorem Gv.dot_add (G : Gv R) (r j w : Nat) : G.dot r (j + w) =
    G.dot r j + (Finset.range w).sum fun c => G.A r (j + c) * G.X (j + c) :=
  Finset.sum_range_add _ _ _

/-- The end of a piece: the pointers go on by `w` columns. -/
theorem Gv.Col.adv (H : G.Col acc h i k j s) {w : Nat} (hw : j + w ≤ G.n) {t : St R}
    (hr : t.r = s.r) (hm : t.mem = s.mem) (hf : t.frame = s.frame)
    (v15 : ∀ l, l < 2 → t.v 15 l = s.v 15 l) (v14 : ∀ l, l < 2 → t.v 14 l = s.v 14 l)
    (hs : ∀ q, q < h → acc t.v q = acc s.v q + (Finset.range w).sum fun c =>
      G.A (i + q) (j + c) * G.X (j + c)) :
    ∃ u, execs G.E [.addQ (8 * w) .DI, .addQ (8 * w) .SI] t = some u ∧ u.r .BX = s.r .BX ∧
      G.Col acc h i k (j + w) u := by
  refine ⟨_, rfl, by simp [St.setR, hr], H.toBase.keep ?_ ?_ ?_ ?_ ?_ ?_ hf v15 v14 hm, H.hi, hw, ?_, ?_, ?_⟩
  any_goals simp [St.setR, hr]
  · exact H.cx
  · rw [H.di]; ring
  · rw [H.si]; ring
  · intro q hq
    rw [G.dot_add]
    exact (hs q hq).trans (by rw [H.sum q hq])

/-- The same after the last column; the pointers are not used any more. -/
theorem Gv.Col.last (H : G.Col acc h i k j s) (hw : j + 1 = G.n) {t : St R}
    (hr : t.r = s.r) (hm : t.mem = s.mem) (hf : t.frame = s.frame)
    (v15 : ∀ l, l < 2 → t.v 15 l = s.v 15 l) (v14 : ∀ l, l < 2 → t.v 14 l = s.v 14 l)
    (hs : ∀ q, q < h → acc t.v q = acc s.v q + G.A (i + q) j * G.X j) (b : Bool) :
    ∃ u, execs G.E (.addQ 8 .DI :: if b then [.addQ 8 .SI] else []) t = some u ∧
      G.Fin acc h i k u := by
  have key : ∀ q, q < h → acc t.v q = G.dot (i + q) G.n := by
    intro q hq
    rw [← hw, G.dot_add, hs q hq, H.sum q hq]
    simp
  cases b
  · refine ⟨_, rfl, H.toBase.keep ?_ ?_ ?_ ?_ ?_ ?_ hf v15 v14 hm, H.hi, key⟩
    any_goals simp [St.setR, hr]
    exact H.cx
  · refine ⟨_, rfl, H.toBase.keep ?_ ?_ ?_ ?_ ?_ ?_ hf v15 v14 hm, H.hi, key⟩
    any_goals simp [St.setR, hr]
    exact H.cx

/-! ### Pieces -/

theorem Ex.eval_op (E : Env R) (s : St R) (o : Arith) (a b : Ex) :
    Ex.eval E s (.op o a b) = E.alu.op o (Ex.eval E s a) (Ex.eval E s b) := rfl

theorem Ex.eval_v (E : Env R) (s : St R) (q l : Nat) : Ex.eval E s (.v q l) = s.v q l := rfl

/-- `KERNEL_LOAD4`, `KERNEL_4x4` (gemvN_amd64.s:357-358), less the pointers. -/
def k44 : List Ins := [.ld .x ⟨.SI, none, 0⟩ 12, .ld .x ⟨.SI, none, 16⟩ 13, .ld .x ⟨.DI, none, 0⟩
  4, .ld .x ⟨.DI, none, 16⟩ 5, .ld .x ⟨.DI, some (.R12, 1), 0⟩ 6, .ld .x ⟨.DI, some (.R12, 1), 16⟩
  7, .ld .x ⟨.DI, some (.R12, 2), 0⟩ 8, .ld .x ⟨.DI, some (.R12, 2), 16⟩ 9, .ld .x ⟨.DI, some
  (.R13, 1), 0⟩ 10, .ld .x ⟨.DI, some (.R13, 1), 16⟩ 11, .op2 .mul .x (.v 12) 4, .op2 .mul .x (.v
  13) 5, .op2 .mul .x (.v 12) 6, .op2 .mul .x (.v 13) 7, .op2 .mul .x (.v 12) 8, .op2 .mul .x (.v
  13) 9, .op2 .mul .x (.v 12) 10, .op2 .mul .x (.v 13) 11, .op2 .add .x (.v 4) 0, .op2 .add .x (.v
  5) 0, .op2 .add .x (.v 6) 1, .op2 .add .x (.v 7) 1, .op2 .add .x (.v 8) 2, .op2 .add .x (.v 9)
  2, .op2 .add .x (.v 10) 3, .op2 .add .x (.v 11) 3]

theorem k44_run (hp : G.Pre) (H : G.Col acc2 4 i k j s) (hw : j + 4 ≤ G.n) :
    ∃ u, execs G.E (k44 ++ [.addQ 32 .DI, .addQ 32 .SI]) s = some u ∧ u.r .BX = s.r .BX ∧
      G.Col acc2 4 i k (j + 4) u := by
  obtain ⟨t, ht, hr⟩ := sym_run hp.es s k44 rfl (H.need hp (show j + 4 ≤ G.n by omega) (by omega) (by decide))
  have eA0_0 : Ex.eval G.E s (.ld ⟨.DI, none, 0⟩ 0) = G.A (i + 0) (j + 0) :=
    H.evA hp 0 0 0 (by omega) (by omega) (by omega)
  have eA0_1 : Ex.eval G.E s (.ld ⟨.DI, none, 0⟩ 1) = G.A (i + 0) (j + 1) :=
    H.evA hp 0 0 1 (by omega) (by omega) (by omega)
  have eA0_2 : Ex.eval G.E s (.ld ⟨.DI, none, 16⟩ 0) = G.A (i + 0) (j + 2) :=
    H.evA hp 0 2 0 (by omega) (by omega) (by omega)
  have eA0_3 : Ex.eval G.E s (.ld ⟨.DI, none, 16⟩ 1) = G.A (i + 0) (j + 3) :=
    H.evA hp 0 2 1 (by omega) (by omega) (by omega)
  have eA1_0 : Ex.eval G.E s (.ld ⟨.DI, some (.R12, 1), 0⟩ 0) = G.A (i + 1) (j + 0) :=
    H.evA hp 1 0 0 (by omega) (by omega) (by omega)
  have eA1_1 : Ex.eval G.E s (.ld ⟨.DI, some (.R12, 1), 0⟩ 1) = G.A (i + 1) (j + 1) :=
    H.evA hp 1 0 1 (by omega) (by omega) (by omega)
  have eA1_2 : Ex.eval G.E s (.ld ⟨.DI, some (.R12, 1), 16⟩ 0) = G.A (i + 1) (j + 2) :=
    H.evA hp 1 2 0 (by omega) (by omega) (by omega)
  have eA1_3 : Ex.eval G.E s (.ld ⟨.DI, some (.R12, 1), 16⟩ 1) = G.A (i + 1) (j + 3) :=
    H.evA hp 1 2 1 (by omega) (by omega) (by omega)
  have eA2_0 : Ex.eval G.E s (.ld ⟨.DI, some (.R12, 2), 0⟩ 0) = G.A (i + 2) (j + 0) :=
    H.evA hp 2 0 0 (by omega) (by omega) (by omega)
  have eA2_1 : Ex.eval G.E s (.ld ⟨.DI, some (.R12, 2), 0⟩ 1) = G.A (i + 2) (j + 1) :=
    H.evA hp 2 0 1 (by omega) (by omega) (by omega)
  have eA2_2 : Ex.eval G.E s (.ld ⟨.DI, some (.R12, 2), 16⟩ 0) = G.A (i + 2) (j + 2) :=
    H.evA hp 2 2 0 (by omega) (by omega) (by omega)
  have eA2_3 : Ex.eval G.E s (.ld ⟨.DI, some (.R12, 2), 16⟩ 1) = G.A (i + 2) (j + 3) :=
    H.evA hp 2 2 1 (by omega) (by omega) (by omega)
  have eA3_0 : Ex.eval G.E s (.ld ⟨.DI, some (.R13, 1), 0⟩ 0) = G.A (i + 3) (j + 0) :=
    H.evA hp 3 0 0 (by omega) (by omega) (by omega)
  have eA3_1 : Ex.eval G.E s (.ld ⟨.DI, some (.R13, 1), 0⟩ 1) = G.A (i + 3) (j + 1) :=
    H.evA hp 3 0 1 (by omega) (by omega) (by omega)
  have eA3_2 : Ex.eval G.E s (.ld ⟨.DI, some (.R13, 1), 16⟩ 0) = G.A (i + 3) (j + 2) :=
    H.evA hp 3 2 0 (by omega) (by omega) (by omega)
  have eA3_3 : Ex.eval G.E s (.ld ⟨.DI, some (.R13, 1), 16⟩ 1) = G.A (i + 3) (j + 3) :=
    H.evA hp 3 2 1 (by omega) (by omega) (by omega)
  have eX_0 : Ex.eval G.E s (.ld ⟨.SI, none, 0⟩ 0) = G.X (j + 0) :=
    H.evX hp 0 0 (by omega)
  have eX_1 : Ex.eval G.E s (.ld ⟨.SI, none, 0⟩ 1) = G.X (j + 1) :=
    H.evX hp 0 1 (by omega)
  have eX_2 : Ex.eval G.E s (.ld ⟨.SI, none, 16⟩ 0) = G.X (j + 2) :=
    H.evX hp 2 0 (by omega)
  have eX_3 : Ex.eval G.E s (.ld ⟨.SI, none, 16⟩ 1) = G.X (j + 3) :=
    H.evX hp 2 1 (by omega)
  have v0_0 : t.v 0 0 = Ex.eval G.E s (.op .add (.op .add (.v 0 0) (.op .mul (.ld ⟨.DI, none, 0⟩ 0) (.ld ⟨.SI, none, 0⟩ 0))) (.op .mul
    (.ld ⟨.DI, none, 16⟩ 0) (.ld ⟨.SI, none, 16⟩ 0))) := hr.lo 0
  simp only [Ex.eval_op, Ex.eval_v, hp.ex.add, hp.ex.mul, eA0_0, eA0_1, eA0_2, eA0_3, eA1_0, eA1_1, eA1_2, eA1_3, eA2_0, eA2_1, eA2_2, eA2_3, eA3_0, eA3_1, eA3_2, eA3_3, eX_0, eX_1, eX_2, eX_3] at v0_0
  have v0_1 : t.v 0 1 = Ex.eval G.E s (.op .add (.op .add (.v 0 1) (.op .mul (.ld ⟨.DI, none, 0⟩ 1) (.ld ⟨.SI, none, 0⟩ 1))) (.op .mul
    (.ld ⟨.DI, none, 16⟩ 1) (.ld ⟨.SI, none, 16⟩ 1))) := hr.hi 0
  simp only [Ex.eval_op, Ex.eval_v, hp.ex.add, hp.ex.mul, eA0_0, eA0_1, eA0_2, eA0_3, eA1_0, eA1_1, eA1_2, eA1_3, eA2_0, eA2_1, eA2_2, eA2_3, eA3_0, eA3_1, eA3_2, eA3_3, eX_0, eX_1, eX_2, eX_3] at v0_1
  have v1_0 : t.v 1 0 = Ex.eval G.E s (.op .add (.op .add (.v 1 0) (.op .mul (.ld ⟨.DI, some (.R12, 1), 0⟩ 0) (.ld ⟨.SI, none, 0⟩ 0)))
    (.op .mul (.ld ⟨.DI, some (.R12, 1), 16⟩ 0) (.ld ⟨.SI, none, 16⟩ 0))) := hr.lo 1
  simp only [Ex.eval_op, Ex.eval_v, hp.ex.add, hp.ex.mul, eA0_0, eA0_1, eA0_2, eA0_3, eA1_0, eA1_1, eA1_2, eA1_3, eA2_0, eA2_1, eA2_2, eA2_3, eA3_0, eA3_1, eA3_2, eA3_3, eX_0, eX_1, eX_2, eX_3] at v1_0
  have v1_1 : t.v 1 1 = Ex.eval G.E s (.op .add (.op .add (.v 1 1) (.op .mul (.ld ⟨.DI, some (.R12, 1), 0⟩ 1) (.ld ⟨.SI, none, 0⟩ 1)))
    (.op .mul (.ld ⟨.DI, some (.R12, 1), 16⟩ 1) (.ld ⟨.SI, none, 16⟩ 1))) := hr.hi 1
  simp only [Ex.eval_op, Ex.eval_v, hp.ex.add, hp.ex.mul, eA0_0, eA0_1, eA0_2, eA0_3, eA1_0, eA1_1, eA1_2, eA1_3, eA2_0, eA2_1, eA2_2, eA2_3, eA3_0, eA3_1, eA3_2, eA3_3, eX_0, eX_1, eX_2, eX_3] at v1_1
  have v2_0 : t.v 2 0 = Ex.eval G.E s (.op .add (.op .add (.v 2 0) (.op .mul (.ld ⟨.DI, some (.R12, 2), 0⟩ 0) (.ld ⟨.SI, none, 0⟩ 0)))
    (.op .mul (.ld ⟨.DI, some (.R12, 2), 16⟩ 0) (.ld ⟨.SI, none, 16⟩ 0))) := hr.lo 2
  simp only [Ex.eval_op, Ex.eval_v, hp.ex.add, hp.ex.mul, eA0_0, eA0_1, eA0_2, eA0_3, eA1_0, eA1_1, eA1_2, eA1_3, eA2_0, eA2_1, eA2_2, eA2_3, eA3_0, eA3_1, eA3_2, eA3_3, eX_0, eX_1, eX_2, eX_3] at v2_0
  have v2_1 : t.v 2 1 = Ex.eval G.E s (.op .add (.op .add (.v 2 1) (.op .mul (.ld ⟨.DI, some (.R12, 2), 0⟩ 1) (.ld ⟨.SI, none, 0⟩ 1)))
    (.op .mul (.ld ⟨.DI, some (.R12, 2), 16⟩ 1) (.ld ⟨.SI, none, 16⟩ 1))) := hr.hi 2
  simp only [Ex.eval_op, Ex.eval_v, hp.ex.add, hp.ex.mul, eA0_0, eA0_1, eA0_2, eA0_3, eA1_0, eA1_1, eA1_2, eA1_3, eA2_0, eA2_1, eA2_2, eA2_3, eA3_0, eA3_1, eA3_2, eA3_3, eX_0, eX_1, eX_2, eX_3] at v2_1
  have v3_0 : t.v 3 0 = Ex.eval G.E s (.op .add (.op .add (.v 3 0) (.op .mul (.ld ⟨.DI, some (.R13, 1), 0⟩ 0) (.ld ⟨.SI, none, 0⟩ 0)))
    (.op .mul (.ld ⟨.DI, some (.R13, 1), 16⟩ 0) (.ld ⟨.SI, none, 16⟩ 0))) := hr.lo 3
  simp only [Ex.eval_op, Ex.eval_v, hp.ex.add, hp.ex.mul, eA0_0, eA0_1, eA0_2, eA0_3, eA1_0, eA1_1, eA1_2, eA1_3, eA2_0, eA2_1, eA2_2, eA2_3, eA3_0, eA3_1, eA3_2, eA3_3, eX_0, eX_1, eX_2, eX_3] at v3_0
  have v3_1 : t.v 3 1 = Ex.eval G.E s (.op .add (.op .add (.v 3 1) (.op .mul (.ld ⟨.DI, some (.R13, 1), 0⟩ 1) (.ld ⟨.SI, none, 0⟩ 1)))
    (.op .mul (.ld ⟨.DI, some (.R13, 1), 16⟩ 1) (.ld ⟨.SI, none, 16⟩ 1))) := hr.hi 3
  simp only [Ex.eval_op, Ex.eval_v, hp.ex.add, hp.ex.mul, eA0_0, eA0_1, eA0_2, eA0_3, eA1_0, eA1_1, eA1_2, eA1_3, eA2_0, eA2_1, eA2_2, eA2_3, eA3_0, eA3_1, eA3_2, eA3_3, eX_0, eX_1, eX_2, eX_3] at v3_1
  have hs : ∀ q, q < 4 → acc2 t.v q = acc2 s.v q + (Finset.range 4).sum fun c =>
      G.A (i + q) (j + c) * G.X (j + c) := by
    intro q hq
    obtain rfl | rfl | rfl | rfl : q = 0 ∨ q = 1 ∨ q = 2 ∨ q = 3 := by omega
    · simp only [acc2, Finset.sum_range_succ, Finset.sum_range_zero, v0_0, v0_1, Nat.add_zero, Nat.zero_add]
      ring
    · simp only [acc2, Finset.sum_range_succ, Finset.sum_range_zero, v1_0, v1_1, Nat.add_zero, Nat.zero_add]
      ring
    · simp only [acc2, Finset.sum_range_succ, Finset.sum_range_zero, v2_0, v2_1, Nat.add_zero, Nat.zero_add]
      ring
    · simp only [acc2, Finset.sum_range_succ, Finset.sum_range_zero, v3_0, v3_1, Nat.add_zero, Nat.zero_add]
      ring
  obtain ⟨u, hu, u1, u2⟩ := H.adv (w := 4) hw hr.r hr.mem hr.frame
    (by intro l hl; obtain rfl | rfl : l = 0 ∨ l = 1 := by omega
        · exact hr.lo 15
        · exact hr.hi 15)
    (by intro l hl; obtain rfl | rfl : l = 0 ∨ l = 1 := by omega
        · exact hr.lo 14
        · exact hr.hi 14) hs
  exact ⟨u, (execs_append ht).trans hu, u1, u2⟩

/-- `KERNEL_LOAD2`, `KERNEL_4x2` (gemvN_amd64.s:370-371), less the pointers. -/
def k42 : List Ins := [.ld .x ⟨.SI, none, 0⟩ 12, .ld .x ⟨.DI, none, 0⟩ 4, .ld .x ⟨.DI, some (.R12,
  1), 0⟩ 5, .ld .x ⟨.DI, some (.R12, 2), 0⟩ 6, .ld .x ⟨.DI, some (.R13, 1), 0⟩ 7, .op2 .mul .x (.v
  12) 4, .op2 .mul .x (.v 12) 5, .op2 .mul .x (.v 12) 6, .op2 .mul .x (.v 12) 7, .op2 .add .x (.v
  4) 0, .op2 .add .x (.v 5) 1, .op2 .add .x (.v 6) 2, .op2 .add .x (.v 7) 3]

theorem k42_run (hp : G.Pre) (H : G.Col acc2 4 i k j s) (hw : j + 2 ≤ G.n) :
    ∃ u, execs G.E (k42 ++ [.addQ 16 .DI, .addQ 16 .SI]) s = some u ∧ u.r .BX = s.r .BX ∧
      G.Col acc2 4 i k (j + 2) u := by
  obtain ⟨t, ht, hr⟩ := sym_run hp.es s k42 rfl (H.need hp (show j + 2 ≤ G.n by omega) (by omega) (by decide))
  have eA0_0 : Ex.eval G.E s (.ld ⟨.DI, none, 0⟩ 0) = G.A (i + 0) (j + 0) :=
    H.evA hp 0 0 0 (by omega) (by omega) (by omega)
  have eA0_1 : Ex.eval G.E s (.ld ⟨.DI, none, 0⟩ 1) = G.A (i + 0) (j + 1) :=
    H.evA hp 0 0 1 (by omega) (by omega) (by omega)
  have eA1_0 : Ex.eval G.E s (.ld ⟨.DI, some (.R12, 1), 0⟩ 0) = G.A (i + 1) (j + 0) :=
    H.evA hp 1 0 0 (by omega) (by omega) (by omega)
  have eA1_1 : Ex.eval G.E s (.ld ⟨.DI, some (.R12, 1), 0⟩ 1) = G.A (i + 1) (j + 1) :=
    H.evA hp 1 0 1 (by omega) (by omega) (by omega)
  have eA2_0 : Ex.eval G.E s (.ld ⟨.DI, some (.R12, 2), 0⟩ 0) = G.A (i + 2) (j + 0) :=
    H.evA hp 2 0 0 (by omega) (by omega) (by omega)
  have eA2_1 : Ex.eval G.E s (.ld ⟨.DI, some (.R12, 2), 0⟩ 1) = G.A (i + 2) (j + 1) :=
    H.evA hp 2 0 1 (by omega) (by omega) (by omega)
  have eA3_0 : Ex.eval G.E s (.ld ⟨.DI, some (.R13, 1), 0⟩ 0) = G.A (i + 3) (j + 0) :=
    H.evA hp 3 0 0 (by omega) (by omega) (by omega)
  have eA3_1 : Ex.eval G.E s (.ld ⟨.DI, some (.R13, 1), 0⟩ 1) = G.A (i + 3) (j + 1) :=
    H.evA hp 3 0 1 (by omega) (by omega) (by omega)
  have eX_0 : Ex.eval G.E s (.ld ⟨.SI, none, 0⟩ 0) = G.X (j + 0) :=
    H.evX hp 0 0 (by omega)
  have eX_1 : Ex.eval G.E s (.ld ⟨.SI, none, 0⟩ 1) = G.X (j + 1) :=
    H.evX hp 0 1 (by omega)
  have v0_0 : t.v 0 0 = Ex.eval G.E s (.op .add (.v 0 0) (.op .mul (.ld ⟨.DI, none, 0⟩ 0) (.ld ⟨.SI, none, 0⟩ 0))) := hr.lo 0
  simp only [Ex.eval_op, Ex.eval_v, hp.ex.add, hp.ex.mul, eA0_0, eA0_1, eA1_0, eA1_1, eA2_0, eA2_1, eA3_0, eA3_1, eX_0, eX_1] at v0_0
  have v0_1 : t.v 0 1 = Ex.eval G.E s (.op .add (.v 0 1) (.op .mul (.ld ⟨.DI, none, 0⟩ 1) (.ld ⟨.SI, none, 0⟩ 1))) := hr.hi 0
  simp only [Ex.eval_op, Ex.eval_v, hp.ex.add, hp.ex.mul, eA0_0, eA0_1, eA1_0, eA1_1, eA2_0, eA2_1, eA3_0, eA3_1, eX_0, eX_1] at v0_1
  have v1_0 : t.v 1 0 = Ex.eval G.E s (.op .add (.v 1 0) (.op .mul (.ld ⟨.DI, some (.R12, 1), 0⟩ 0) (.ld ⟨.SI, none, 0⟩ 0))) := hr.lo 1
  simp only [Ex.eval_op, Ex.eval_v, hp.ex.add, hp.ex.mul, eA0_0, eA0_1, eA1_0, eA1_1, eA2_0, eA2_1, eA3_0, eA3_1, eX_0, eX_1] at v1_0
  have v1_1 : t.v 1 1 = Ex.eval G.E s (.op .add (.v 1 1) (.op .mul (.ld ⟨.DI, some (.R12, 1), 0⟩ 1) (.ld ⟨.SI, none, 0⟩ 1))) := hr.hi 1
  simp only [Ex.eval_op, Ex.eval_v, hp.ex.add, hp.ex.mul, eA0_0, eA0_1, eA1_0, eA1_1, eA2_0, eA2_1, eA3_0, eA3_1, eX_0, eX_1] at v1_1
  have v2_0 : t.v 2 0 = Ex.eval G.E s (.op .add (.v 2 0) (.op .mul (.ld ⟨.DI, some (.R12, 2), 0⟩ 0) (.ld ⟨.SI, none, 0⟩ 0))) := hr.lo 2
  simp only [Ex.eval_op, Ex.eval_v, hp.ex.add, hp.ex.mul, eA0_0, eA0_1, eA1_0, eA1_1, eA2_0, eA2_1, eA3_0, eA3_1, eX_0, eX_1] at v2_0
  have v2_1 : t.v 2 1 = Ex.eval G.E s (.op .add (.v 2 1) (.op .mul (.ld ⟨.DI, some (.R12, 2), 0⟩ 1) (.ld ⟨.SI, none, 0⟩ 1))) := hr.hi 2
  simp only [Ex.eval_op, Ex.eval_v, hp.ex.add, hp.ex.mul, eA0_0, eA0_1, eA1_0, eA1_1, eA2_0, eA2_1, eA3_0, eA3_1, eX_0, eX_1] at v2_1
  have v3_0 : t.v 3 0 = Ex.eval G.E s (.op .add (.v 3 0) (.op .mul (.ld ⟨.DI, some (.R13, 1), 0⟩ 0) (.ld ⟨.SI, none, 0⟩ 0))) := hr.lo 3
  simp only [Ex.eval_op, Ex.eval_v, hp.ex.add, hp.ex.mul, eA0_0, eA0_1, eA1_0, eA1_1, eA2_0, eA2_1, eA3_0, eA3_1, eX_0, eX_1] at v3_0
  have v3_1 : t.v 3 1 = Ex.eval G.E s (.op .add (.v 3 1) (.op .mul (.ld ⟨.DI, some (.R13, 1), 0⟩ 1) (.ld ⟨.SI, none, 0⟩ 1))) := hr.hi 3
  simp only [Ex.eval_op, Ex.eval_v, hp.ex.add, hp.ex.mul, eA0_0, eA0_1, eA1_0, eA1_1, eA2_0, eA2_1, eA3_0, eA3_1, eX_0, eX_1] at v3_1
  have hs : ∀ q, q < 4 → acc2 t.v q = acc2 s.v q + (Finset.range 2).sum fun c =>
      G.A (i + q) (j + c) * G.X (j + c) := by
    intro q hq
    obtain rfl | rfl | rfl | rfl : q = 0 ∨ q = 1 ∨ q = 2 ∨ q = 3 := by omega
    · simp only [acc2, Finset.sum_range_succ, Finset.sum_range_zero, v0_0, v0_1, Nat.add_zero, Nat.zero_add]
      ring
    · simp only [acc2, Finset.sum_range_succ, Finset.sum_range_zero, v1_0, v1_1, Nat.add_zero, Nat.zero_add]
      ring
    · simp only [acc2, Finset.sum_range_succ, Finset.sum_range_zero, v2_0, v2_1, Nat.add_zero, Nat.zero_add]
      ring
    · simp only [acc2, Finset.sum_range_succ, Finset.sum_range_zero, v3_0, v3_1, Nat.add_zero, Nat.zero_add]
      ring
  obtain ⟨u, hu, u1, u2⟩ := H.adv (w := 2) hw hr.r hr.mem hr.frame
    (by intro l hl; obtain rfl | rfl : l = 0 ∨ l = 1 := by omega
        · exact hr.lo 15
        · exact hr.hi 15)
    (by intro l hl; obtain rfl | rfl : l = 0 ∨ l = 1 := by omega
        · exact hr.lo 14
        · exact hr.hi 14) hs
  exact ⟨u, (execs_append ht).trans hu, u1, u2⟩

/-- `KERNEL_4x1` (gemvN_amd64.s:382), less the pointers. -/
def k41 : List Ins := [.ldDup ⟨.SI, none, 0⟩ 12, .ld .s ⟨.DI, none, 0⟩ 4, .ldHi ⟨.DI, some (.R12,
  1), 0⟩ 4, .ld .s ⟨.DI, some (.R12, 2), 0⟩ 5, .ldHi ⟨.DI, some (.R13, 1), 0⟩ 5, .op2 .mul .x (.v
  12) 4, .op2 .mul .x (.v 12) 5, .op2 .add .x (.v 4) 0, .op2 .add .x (.v 5) 2]

theorem k41_run (hp : G.Pre) (H : G.Col accH 4 i k j s) (hw : j + 1 = G.n) :
    ∃ u, execs G.E (k41 ++ [.addQ 8 .DI, .addQ 8 .SI]) s = some u ∧
      G.Fin accH 4 i k u := by
  obtain ⟨t, ht, hr⟩ := sym_run hp.es s k41 rfl (H.need hp (show j + 1 ≤ G.n by omega) (by omega) (by decide))
  have eA0_0 : Ex.eval G.E s (.ld ⟨.DI, none, 0⟩ 0) = G.A (i + 0) (j + 0) :=
    H.evA hp 0 0 0 (by omega) (by omega) (by omega)
  have eA1_0 : Ex.eval G.E s (.ld ⟨.DI, some (.R12, 1), 0⟩ 0) = G.A (i + 1) (j + 0) :=
    H.evA hp 1 0 0 (by omega) (by omega) (by omega)
  have eA2_0 : Ex.eval G.E s (.ld ⟨.DI, some (.R12, 2), 0⟩ 0) = G.A (i + 2) (j + 0) :=
    H.evA hp 2 0 0 (by omega) (by omega) (by omega)
  have eA3_0 : Ex.eval G.E s (.ld ⟨.DI, some (.R13, 1), 0⟩ 0) = G.A (i + 3) (j + 0) :=
    H.evA hp 3 0 0 (by omega) (by omega) (by omega)
  have eX_0 : Ex.eval G.E s (.ld ⟨.SI, none, 0⟩ 0) = G.X (j + 0) :=
    H.evX hp 0 0 (by omega)
  have v0_0 : t.v 0 0 = Ex.eval G.E s (.op .add (.v 0 0) (.op .mul (.ld ⟨.DI, none, 0⟩ 0) (.ld ⟨.SI, none, 0⟩ 0))) := hr.lo 0
  simp only [Ex.eval_op, Ex.eval_v, hp.ex.add, hp.ex.mul, eA0_0, eA1_0, eA2_0, eA3_0, eX_0] at v0_0
  have v0_1 : t.v 0 1 = Ex.eval G.E s (.op .add (.v 0 1) (.op .mul (.ld ⟨.DI, some (.R12, 1), 0⟩ 0) (.ld ⟨.SI, none, 0⟩ 0))) := hr.hi 0
  simp only [Ex.eval_op, Ex.eval_v, hp.ex.add, hp.ex.mul, eA0_0, eA1_0, eA2_0, eA3_0, eX_0] at v0_1
  have v2_0 : t.v 2 0 = Ex.eval G.E s (.op .add (.v 2 0) (.op .mul (.ld ⟨.DI, some (.R12, 2), 0⟩ 0) (.ld ⟨.SI, none, 0⟩ 0))) := hr.lo 2
  simp only [Ex.eval_op, Ex.eval_v, hp.ex.add, hp.ex.mul, eA0_0, eA1_0, eA2_0, eA3_0, eX_0] at v2_0
  have v2_1 : t.v 2 1 = Ex.eval G.E s (.op .add (.v 2 1) (.op .mul (.ld ⟨.DI, some (.R13, 1), 0⟩ 0) (.ld ⟨.SI, none, 0⟩ 0))) := hr.hi 2
  simp only [Ex.eval_op, Ex.eval_v, hp.ex.add, hp.ex.mul, eA0_0, eA1_0, eA2_0, eA3_0, eX_0] at v2_1
  have hs : ∀ q, q < 4 → accH t.v q = accH s.v q + G.A (i + q) j * G.X j := by
    intro q hq
    obtain rfl | rfl | rfl | rfl : q = 0 ∨ q = 1 ∨ q = 2 ∨ q = 3 := by omega
    · change t.v 0 0 = s.v 0 0 + _
      simp only [v0_0, Nat.add_zero, Nat.zero_add]
    · change t.v 0 1 = s.v 0 1 + _
      simp only [v0_1, Nat.add_zero, Nat.zero_add]
    · change t.v 2 0 = s.v 2 0 + _
      simp only [v2_0, Nat.add_zero, Nat.zero_add]
    · change t.v 2 1 = s.v 2 1 + _
      simp only [v2_1, Nat.add_zero, Nat.zero_add]
  obtain ⟨u, hu, u1⟩ := H.last hw hr.r hr.mem hr.frame
    (by intro l hl; obtain rfl | rfl : l = 0 ∨ l = 1 := by omega
        · exact hr.lo 15
        · exact hr.hi 15)
    (by intro l hl; obtain rfl | rfl : l = 0 ∨ l = 1 := by omega
        · exact hr.lo 14
        · exact hr.hi 14) hs true
  exact ⟨u, (execs_append ht).trans hu, u1⟩

/-- `KERNEL_LOAD4`, `KERNEL_2x4` (gemvN_amd64.s:419-420), less the pointers. -/
def k24 : List Ins := [.ld .x ⟨.SI, none, 0⟩ 12, .ld .x ⟨.SI, none, 16⟩ 13, .ld .x ⟨.DI, none, 0⟩
  8, .ld .x ⟨.DI, none, 16⟩ 9, .ld .x ⟨.DI, some (.R12, 1), 0⟩ 10, .ld .x ⟨.DI, some (.R12, 1),
  16⟩ 11, .op2 .mul .x (.v 12) 8, .op2 .mul .x (.v 13) 9, .op2 .mul .x (.v 12) 10, .op2 .mul .x
  (.v 13) 11, .op2 .add .x (.v 8) 0, .op2 .add .x (.v 10) 1, .op2 .add .x (.v 9) 0, .op2 .add .x
  (.v 11) 1]

theorem k24_run (hp : G.Pre) (H : G.Col acc2 2 i k j s) (hw : j + 4 ≤ G.n) :
    ∃ u, execs G.E (k24 ++ [.addQ 32 .DI, .addQ 32 .SI]) s = some u ∧ u.r .BX = s.r .BX ∧
      G.Col acc2 2 i k (j + 4) u := by
  obtain ⟨t, ht, hr⟩ := sym_run hp.es s k24 rfl (H.need hp (show j + 4 ≤ G.n by omega) (by omega) (by decide))
  have eA0_0 : Ex.eval G.E s (.ld ⟨.DI, none, 0⟩ 0) = G.A (i + 0) (j + 0) :=
    H.evA hp 0 0 0 (by omega) (by omega) (by omega)
  have eA0_1 : Ex.eval G.E s (.ld ⟨.DI, none, 0⟩ 1) = G.A (i + 0) (j + 1) :=
    H.evA hp 0 0 1 (by omega) (by omega) (by omega)
  have eA0_2 : Ex.eval G.E s (.ld ⟨.DI, none, 16⟩ 0) = G.A (i + 0) (j + 2) :=
    H.evA hp 0 2 0 (by omega) (by omega) (by omega)
  have eA0_3 : Ex.eval G.E s (.ld ⟨.DI, none, 16⟩ 1) = G.A (i + 0) (j + 3) :=
    H.evA hp 0 2 1 (by omega) (by omega) (by omega)
  have eA1_0 : Ex.eval G.E s (.ld ⟨.DI, some (.R12, 1), 0⟩ 0) = G.A (i + 1) (j + 0) :=
    H.evA hp 1 0 0 (by omega) (by omega) (by omega)
  have eA1_1 : Ex.eval G.E s (.ld ⟨.DI, some (.R12, 1), 0⟩ 1) = G.A (i + 1) (j + 1) :=
    H.evA hp 1 0 1 (by omega) (by omega) (by omega)
  have eA1_2 : Ex.eval G.E s (.ld ⟨.DI, some (.R12, 1), 16⟩ 0) = G.A (i + 1) (j + 2) :=
    H.evA hp 1 2 0 (by omega) (by omega) (by omega)
  have eA1_3 : Ex.eval G.E s (.ld ⟨.DI, some (.R12, 1), 16⟩ 1) = G.A (i + 1) (j + 3) :=
    H.evA hp 1 2 1 (by omega) (by omega) (by omega)
  have eX_0 : Ex.eval G.E s (.ld ⟨.SI, none, 0⟩ 0) = G.X (j + 0) :=
    H.evX hp 0 0 (by omega)
  have eX_1 : Ex.eval G.E s (.ld ⟨.SI, none, 0⟩ 1) = G.X (j + 1) :=
    H.evX hp 0 1 (by omega)
  have eX_2 : Ex.eval G.E s (.ld ⟨.SI, none, 16⟩ 0) = G.X (j + 2) :=
    H.evX hp 2 0 (by omega)
  have eX_3 : Ex.eval G.E s (.ld ⟨.SI, none, 16⟩ 1) = G.X (j + 3) :=
    H.evX hp 2 1 (by omega)
  have v0_0 : t.v 0 0 = Ex.eval G.E s (.op .add (.op .add (.v 0 0) (.op .mul (.ld ⟨.DI, none, 0⟩ 0) (.ld ⟨.SI, none, 0⟩ 0))) (.op .mul
    (.ld ⟨.DI, none, 16⟩ 0) (.ld ⟨.SI, none, 16⟩ 0))) := hr.lo 0
  simp only [Ex.eval_op, Ex.eval_v, hp.ex.add, hp.ex.mul, eA0_0, eA0_1, eA0_2, eA0_3, eA1_0, eA1_1, eA1_2, eA1_3, eX_0, eX_1, eX_2, eX_3] at v0_0
  have v0_1 : t.v 0 1 = Ex.eval G.E s (.op .add (.op .add (.v 0 1) (.op .mul (.ld ⟨.DI, none, 0⟩ 1) (.ld ⟨.SI, none, 0⟩ 1))) (.op .mul
    (.ld ⟨.DI, none, 16⟩ 1) (.ld ⟨.SI, none, 16⟩ 1))) := hr.hi 0
  simp only [Ex.eval_op, Ex.eval_v, hp.ex.add, hp.ex.mul, eA0_0, eA0_1, eA0_2, eA0_3, eA1_0, eA1_1, eA1_2, eA1_3, eX_0, eX_1, eX_2, eX_3] at v0_1
  have v1_0 : t.v 1 0 = Ex.eval G.E s (.op .add (.op .add (.v 1 0) (.op .mul (.ld ⟨.DI, some (.R12, 1), 0⟩ 0) (.ld ⟨.SI, none, 0⟩ 0)))
    (.op .mul (.ld ⟨.DI, some (.R12, 1), 16⟩ 0) (.ld ⟨.SI, none, 16⟩ 0))) := hr.lo 1
  simp only [Ex.eval_op, Ex.eval_v, hp.ex.add, hp.ex.mul, eA0_0, eA0_1, eA0_2, eA0_3, eA1_0, eA1_1, eA1_2, eA1_3, eX_0, eX_1, eX_2, eX_3] at v1_0
  have v1_1 : t.v 1 1 = Ex.eval G.E s (.op .add (.op .add (.v 1 1) (.op .mul (.ld ⟨.DI, some (.R12, 1), 0⟩ 1) (.ld ⟨.SI, none, 0⟩ 1)))
    (.op .mul (.ld ⟨.DI, some (.R12, 1), 16⟩ 1) (.ld ⟨.SI, none, 16⟩ 1))) := hr.hi 1
  simp only [Ex.eval_op, Ex.eval_v, hp.ex.add, hp.ex.mul, eA0_0, eA0_1, eA0_2, eA0_3, eA1_0, eA1_1, eA1_2, eA1_3, eX_0, eX_1, eX_2, eX_3] at v1_1
  have hs : ∀ q, q < 2 → acc2 t.v q = acc2 s.v q + (Finset.range 4).sum fun c =>
      G.A (i + q) (j + c) * G.X (j + c) := by
    intro q hq
    obtain rfl | rfl : q = 0 ∨ q = 1 := by omega
    · simp only [acc2, Finset.sum_range_succ, Finset.sum_range_zero, v0_0, v0_1, Nat.add_zero, Nat.zero_add]
      ring
    · simp only [acc2, Finset.sum_range_succ, Finset.sum_range_zero, v1_0, v1_1, Nat.add_zero, Nat.zero_add]
      ring
  obtain ⟨u, hu, u1, u2⟩ := H.adv (w := 4) hw hr.r hr.mem hr.frame
    (by intro l hl; obtain rfl | rfl : l = 0 ∨ l = 1 := by omega
        · exact hr.lo 15
        · exact hr.hi 15)
    (by intro l hl; obtain rfl | rfl : l = 0 ∨ l = 1 := by omega
        · exact hr.lo 14
        · exact hr.hi 14) hs
  exact ⟨u, (execs_append ht).trans hu, u1, u2⟩

/-- `KERNEL_LOAD2`, `KERNEL_2x2` (gemvN_amd64.s:432-433), less the pointers. -/
def k22 : List Ins := [.ld .x ⟨.SI, none, 0⟩ 12, .ld .x ⟨.DI, none, 0⟩ 8, .ld .x ⟨.DI, some (.R12,
  1), 0⟩ 9, .op2 .mul .x (.v 12) 8, .op2 .mul .x (.v 12) 9, .op2 .add .x (.v 8) 0, .op2 .add .x
  (.v 9) 1]

theorem k22_run (hp : G.Pre) (H : G.Col acc2 2 i k j s) (hw : j + 2 ≤ G.n) :
    ∃ u, execs G.E (k22 ++ [.addQ 16 .DI, .addQ 16 .SI]) s = some u ∧ u.r .BX = s.r .BX ∧
      G.Col acc2 2 i k (j + 2) u := by
  obtain ⟨t, ht, hr⟩ := sym_run hp.es s k22 rfl (H.need hp (show j + 2 ≤ G.n by omega) (by omega) (by decide))
  have eA0_0 : Ex.eval G.E s (.ld ⟨.DI, none, 0⟩ 0) = G.A (i + 0) (j + 0) :=
    H.evA hp 0 0 0 (by omega) (by omega) (by omega)
  have eA0_1 : Ex.eval G.E s (.ld ⟨.DI, none, 0⟩ 1) = G.A (i + 0) (j + 1) :=
    H.evA hp 0 0 1 (by omega) (by omega) (by omega)
  have eA1_0 : Ex.eval G.E s (.ld ⟨.DI, some (.R12, 1), 0⟩ 0) = G.A (i + 1) (j + 0) :=
    H.evA hp 1 0 0 (by omega) (by omega) (by omega)
  have eA1_1 : Ex.eval G.E s (.ld ⟨.DI, some (.R12, 1), 0⟩ 1) = G.A (i + 1) (j + 1) :=
    H.evA hp 1 0 1 (by omega) (by omega) (by omega)
  have eX_0 : Ex.eval G.E s (.ld ⟨.SI, none, 0⟩ 0) = G.X (j + 0) :=
    H.evX hp 0 0 (by omega)
  have eX_1 : Ex.eval G.E s (.ld ⟨.SI, none, 0⟩ 1) = G.X (j + 1) :=
    H.evX hp 0 1 (by omega)
  have v0_0 : t.v 0 0 = Ex.eval G.E s (.op .add (.v 0 0) (.op .mul (.ld ⟨.DI, none, 0⟩ 0) (.ld ⟨.SI, none, 0⟩ 0))) := hr.lo 0
  simp only [Ex.eval_op, Ex.eval_v, hp.ex.add, hp.ex.mul, eA0_0, eA0_1, eA1_0, eA1_1, eX_0, eX_1] at v0_0
  have v0_1 : t.v 0 1 = Ex.eval G.E s (.op .add (.v 0 1) (.op .mul (.ld ⟨.DI, none, 0⟩ 1) (.ld ⟨.SI, none, 0⟩ 1))) := hr.hi 0
  simp only [Ex.eval_op, Ex.eval_v, hp.ex.add, hp.ex.mul, eA0_0, eA0_1, eA1_0, eA1_1, eX_0, eX_1] at v0_1
  have v1_0 : t.v 1 0 = Ex.eval G.E s (.op .add (.v 1 0) (.op .mul (.ld ⟨.DI, some (.R12, 1), 0⟩ 0) (.ld ⟨.SI, none, 0⟩ 0))) := hr.lo 1
  simp only [Ex.eval_op, Ex.eval_v, hp.ex.add, hp.ex.mul, eA0_0, eA0_1, eA1_0, eA1_1, eX_0, eX_1] at v1_0
  have v1_1 : t.v 1 1 = Ex.eval G.E s (.op .add (.v 1 1) (.op .mul (.ld ⟨.DI, some (.R12, 1), 0⟩ 1) (.ld ⟨.SI, none, 0⟩ 1))) := hr.hi 1
  simp only [Ex.eval_op, Ex.eval_v, hp.ex.add, hp.ex.mul, eA0_0, eA0_1, eA1_0, eA1_1, eX_0, eX_1] at v1_1
  have hs : ∀ q, q < 2 → acc2 t.v q = acc2 s.v q + (Finset.range 2).sum fun c =>
      G.A (i + q) (j + c) * G.X (j + c) := by
    intro q hq
    obtain rfl | rfl : q = 0 ∨ q = 1 := by omega
    · simp only [acc2, Finset.sum_range_succ, Finset.sum_range_zero, v0_0, v0_1, Nat.add_zero, Nat.zero_add]
      ring
    · simp only [acc2, Finset.sum_range_succ, Finset.sum_range_zero, v1_0, v1_1, Nat.add_zero, Nat.zero_add]
      ring
  obtain ⟨u, hu, u1, u2⟩ := H.adv (w := 2) hw hr.r hr.mem hr.frame
    (by intro l hl; obtain rfl | rfl : l = 0 ∨ l = 1 := by omega
        · exact hr.lo 15
        · exact hr.hi 15)
    (by intro l hl; obtain rfl | rfl : l = 0 ∨ l = 1 := by omega
        · exact hr.lo 14
        · exact hr.hi 14) hs
  exact ⟨u, (execs_append ht).trans hu, u1, u2⟩

/-- `KERNEL_2x1` (gemvN_amd64.s:443), less the pointers. -/
def k21 : List Ins := [.ldDup ⟨.SI, none, 0⟩ 12, .ld .s ⟨.DI, none, 0⟩ 8, .ldHi ⟨.DI, some (.R12,
  1), 0⟩ 8, .op2 .mul .x (.v 12) 8, .op2 .add .x (.v 8) 0]

theorem k21_run (hp : G.Pre) (H : G.Col accH 2 i k j s) (hw : j + 1 = G.n) :
    ∃ u, execs G.E (k21 ++ [.addQ 8 .DI, .addQ 8 .SI]) s = some u ∧
      G.Fin accH 2 i k u := by
  obtain ⟨t, ht, hr⟩ := sym_run hp.es s k21 rfl (H.need hp (show j + 1 ≤ G.n by omega) (by omega) (by decide))
  have eA0_0 : Ex.eval G.E s (.ld ⟨.DI, none, 0⟩ 0) = G.A (i + 0) (j + 0) :=
    H.evA hp 0 0 0 (by omega) (by omega) (by omega)
  have eA1_0 : Ex.eval G.E s (.ld ⟨.DI, some (.R12, 1), 0⟩ 0) = G.A (i + 1) (j + 0) :=
    H.evA hp 1 0 0 (by omega) (by omega) (by omega)
  have eX_0 : Ex.eval G.E s (.ld ⟨.SI, none, 0⟩ 0) = G.X (j + 0) :=
    H.evX hp 0 0 (by omega)
  have v0_0 : t.v 0 0 = Ex.eval G.E s (.op .add (.v 0 0) (.op .mul (.ld ⟨.DI, none, 0⟩ 0) (.ld ⟨.SI, none, 0⟩ 0))) := hr.lo 0
  simp only [Ex.eval_op, Ex.eval_v, hp.ex.add, hp.ex.mul, eA0_0, eA1_0, eX_0] at v0_0
  have v0_1 : t.v 0 1 = Ex.eval G.E s (.op .add (.v 0 1) (.op .mul (.ld ⟨.DI, some (.R12, 1), 0⟩ 0) (.ld ⟨.SI, none, 0⟩ 0))) := hr.hi 0
  simp only [Ex.eval_op, Ex.eval_v, hp.ex.add, hp.ex.mul, eA0_0, eA1_0, eX_0] at v0_1
  have hs : ∀ q, q < 2 → accH t.v q = accH s.v q + G.A (i + q) j * G.X j := by
    intro q hq
    obtain rfl | rfl : q = 0 ∨ q = 1 := by omega
    · change t.v 0 0 = s.v 0 0 + _
      simp only [v0_0, Nat.add_zero, Nat.zero_add]
    · change t.v 0 1 = s.v 0 1 + _
      simp only [v0_1, Nat.add_zero, Nat.zero_add]
  obtain ⟨u, hu, u1⟩ := H.last hw hr.r hr.mem hr.frame
    (by intro l hl; obtain rfl | rfl : l = 0 ∨ l = 1 := by omega
        · exact hr.lo 15
        · exact hr.hi 15)
    (by intro l hl; obtain rfl | rfl : l = 0 ∨ l = 1 := by omega
        · exact hr.lo 14
        · exact hr.hi 14) hs true
  exact ⟨u, (execs_append ht).trans hu, u1⟩

/-- `KERNEL_LOAD4`, `KERNEL_1x4` (gemvN_amd64.s:477-478), less the pointers. -/
def k14 : List Ins := [.ld .x ⟨.SI, none, 0⟩ 12, .ld .x ⟨.SI, none, 16⟩ 13, .ld .x ⟨.DI, none, 0⟩
  8, .ld .x ⟨.DI, none, 16⟩ 9, .op2 .mul .x (.v 12) 8, .op2 .mul .x (.v 13) 9, .op2 .add .x (.v 8)
  0, .op2 .add .x (.v 9) 0]

theorem k14_run (hp : G.Pre) (H : G.Col acc2 1 i k j s) (hw : j + 4 ≤ G.n) :
    ∃ u, execs G.E (k14 ++ [.addQ 32 .DI, .addQ 32 .SI]) s = some u ∧ u.r .BX = s.r .BX ∧
      G.Col acc2 1 i k (j + 4) u := by
  obtain ⟨t, ht, hr⟩ := sym_run hp.es s k14 rfl (H.need hp (show j + 4 ≤ G.n by omega) (by omega) (by decide))
  have eA0_0 : Ex.eval G.E s (.ld ⟨.DI, none, 0⟩ 0) = G.A (i + 0) (j + 0) :=
    H.evA hp 0 0 0 (by omega) (by omega) (by omega)
  have eA0_1 : Ex.eval G.E s (.ld ⟨.DI, none, 0⟩ 1) = G.A (i + 0) (j + 1) :=
    H.evA hp 0 0 1 (by omega) (by omega) (by omega)
  have eA0_2 : Ex.eval G.E s (.ld ⟨.DI, none, 16⟩ 0) = G.A (i + 0) (j + 2) :=
    H.evA hp 0 2 0 (by omega) (by omega) (by omega)
  have eA0_3 : Ex.eval G.E s (.ld ⟨.DI, none, 16⟩ 1) = G.A (i + 0) (j + 3) :=
    H.evA hp 0 2 1 (by omega) (by omega) (by omega)
  have eX_0 : Ex.eval G.E s (.ld ⟨.SI, none, 0⟩ 0) = G.X (j + 0) :=
    H.evX hp 0 0 (by omega)
  have eX_1 : Ex.eval G.E s (.ld ⟨.SI, none, 0⟩ 1) = G.X (j + 1) :=
    H.evX hp 0 1 (by omega)
  have eX_2 : Ex.eval G.E s (.ld ⟨.SI, none, 16⟩ 0) = G.X (j + 2) :=
    H.evX hp 2 0 (by omega)
  have eX_3 : Ex.eval G.E s (.ld ⟨.SI, none, 16⟩ 1) = G.X (j + 3) :=
    H.evX hp 2 1 (by omega)
  have v0_0 : t.v 0 0 = Ex.eval G.E s (.op .add (.op .add (.v 0 0) (.op .mul (.ld ⟨.DI, none, 0⟩ 0) (.ld ⟨.SI, none, 0⟩ 0))) (.op .mul
    (.ld ⟨.DI, none, 16⟩ 0) (.ld ⟨.SI, none, 16⟩ 0))) := hr.lo 0
  simp only [Ex.eval_op, Ex.eval_v, hp.ex.add, hp.ex.mul, eA0_0, eA0_1, eA0_2, eA0_3, eX_0, eX_1, eX_2, eX_3] at v0_0
  have v0_1 : t.v 0 1 = Ex.eval G.E s (.op .add (.op .add (.v 0 1) (.op .mul (.ld ⟨.DI, none, 0⟩ 1) (.ld ⟨.SI, none, 0⟩ 1))) (.op .mul
    (.ld ⟨.DI, none, 16⟩ 1) (.ld ⟨.SI, none, 16⟩ 1))) := hr.hi 0
  simp only [Ex.eval_op, Ex.eval_v, hp.ex.add, hp.ex.mul, eA0_0, eA0_1, eA0_2, eA0_3, eX_0, eX_1, eX_2, eX_3] at v0_1
  have hs : ∀ q, q < 1 → acc2 t.v q = acc2 s.v q + (Finset.range 4).sum fun c =>
      G.A (i + q) (j + c) * G.X (j + c) := by
    intro q hq
    obtain rfl : q = 0 := by omega
    · simp only [acc2, Finset.sum_range_succ, Finset.sum_range_zero, v0_0, v0_1, Nat.add_zero, Nat.zero_add]
      ring
  obtain ⟨u, hu, u1, u2⟩ := H.adv (w := 4) hw hr.r hr.mem hr.frame
    (by intro l hl; obtain rfl | rfl : l = 0 ∨ l = 1 := by omega
        · exact hr.lo 15
        · exact hr.hi 15)
    (by intro l hl; obtain rfl | rfl : l = 0 ∨ l = 1 := by omega
        · exact hr.lo 14
        · exact hr.hi 14) hs
  exact ⟨u, (execs_append ht).trans hu, u1, u2⟩

/-- `KERNEL_LOAD2`, `KERNEL_1x2` (gemvN_amd64.s:490-491), less the pointers. -/
def k12 : List Ins := [.ld .x ⟨.SI, none, 0⟩ 12, .ld .x ⟨.DI, none, 0⟩ 8, .op2 .mul .x (.v 12) 8,
  .op2 .add .x (.v 8) 0]

theorem k12_run (hp : G.Pre) (H : G.Col acc2 1 i k j s) (hw : j + 2 ≤ G.n) :
    ∃ u, execs G.E (k12 ++ [.addQ 16 .DI, .addQ 16 .SI]) s = some u ∧ u.r .BX = s.r .BX ∧
      G.Col acc2 1 i k (j + 2) u := by
  obtain ⟨t, ht, hr⟩ := sym_run hp.es s k12 rfl (H.need hp (show j + 2 ≤ G.n by omega) (by omega) (by decide))
  have eA0_0 : Ex.eval G.E s (.ld ⟨.DI, none, 0⟩ 0) = G.A (i + 0) (j + 0) :=
    H.evA hp 0 0 0 (by omega) (by omega) (by omega)
  have eA0_1 : Ex.eval G.E s (.ld ⟨.DI, none, 0⟩ 1) = G.A (i + 0) (j + 1) :=
    H.evA hp 0 0 1 (by omega) (by omega) (by omega)
  have eX_0 : Ex.eval G.E s (.ld ⟨.SI, none, 0⟩ 0) = G.X (j + 0) :=
    H.evX hp 0 0 (by omega)
  have eX_1 : Ex.eval G.E s (.ld ⟨.SI, none, 0⟩ 1) = G.X (j + 1) :=
    H.evX hp 0 1 (by omega)
  have v0_0 : t.v 0 0 = Ex.eval G.E s (.op .add (.v 0 0) (.op .mul (.ld ⟨.DI, none, 0⟩ 0) (.ld ⟨.SI, none, 0⟩ 0))) := hr.lo 0
  simp only [Ex.eval_op, Ex.eval_v, hp.ex.add, hp.ex.mul, eA0_0, eA0_1, eX_0, eX_1] at v0_0
  have v0_1 : t.v 0 1 = Ex.eval G.E s (.op .add (.v 0 1) (.op .mul (.ld ⟨.DI, none, 0⟩ 1) (.ld ⟨.SI, none, 0⟩ 1))) := hr.hi 0
  simp only [Ex.eval_op, Ex.eval_v, hp.ex.add, hp.ex.mul, eA0_0, eA0_1, eX_0, eX_1] at v0_1
  have hs : ∀ q, q < 1 → acc2 t.v q = acc2 s.v q + (Finset.range 2).sum fun c =>
      G.A (i + q) (j + c) * G.X (j + c) := by
    intro q hq
    obtain rfl : q = 0 := by omega
    · simp only [acc2, Finset.sum_range_succ, Finset.sum_range_zero, v0_0, v0_1, Nat.add_zero, Nat.zero_add]
      ring
  obtain ⟨u, hu, u1, u2⟩ := H.adv (w := 2) hw hr.r hr.mem hr.frame
    (by intro l hl; obtain rfl | rfl : l = 0 ∨ l = 1 := by omega
        · exact hr.lo 15
        · exact hr.hi 15)
    (by intro l hl; obtain rfl | rfl : l = 0 ∨ l = 1 := by omega
        · exact hr.lo 14
        · exact hr.hi 14) hs
  exact ⟨u, (execs_append ht).trans hu, u1, u2⟩

/-- `KERNEL_1x1` (gemvN_amd64.s:501), less the pointer. -/
def k11 : List Ins := [.ld .s ⟨.SI, none, 0⟩ 12, .ld .s ⟨.DI, none, 0⟩ 8, .op2 .mul .s (.v 12) 8,
  .op2 .add .s (.v 8) 0]

theorem k11_run (hp : G.Pre) (H : G.Col acc2 1 i k j s) (hw : j + 1 = G.n) :
    ∃ u, execs G.E (k11 ++ [.addQ 8 .DI]) s = some u ∧
      G.Fin acc2 1 i k u := by
  obtain ⟨t, ht, hr⟩ := sym_run hp.es s k11 rfl (H.need hp (show j + 1 ≤ G.n by omega) (by omega) (by decide))
  have eA0_0 : Ex.eval G.E s (.ld ⟨.DI, none, 0⟩ 0) = G.A (i + 0) (j + 0) :=
    H.evA hp 0 0 0 (by omega) (by omega) (by omega)
  have eX_0 : Ex.eval G.E s (.ld ⟨.SI, none, 0⟩ 0) = G.X (j + 0) :=
    H.evX hp 0 0 (by omega)
  have v0_0 : t.v 0 0 = Ex.eval G.E s (.op .add (.v 0 0) (.op .mul (.ld ⟨.DI, none, 0⟩ 0) (.ld ⟨.SI, none, 0⟩ 0))) := hr.lo 0
  simp only [Ex.eval_op, Ex.eval_v, hp.ex.add, hp.ex.mul, eA0_0, eX_0] at v0_0
  have v0_1 : t.v 0 1 = Ex.eval G.E s (.v 0 1) := hr.hi 0
  simp only [Ex.eval_op, Ex.eval_v, hp.ex.add, hp.ex.mul, eA0_0, eX_0] at v0_1
  have hs : ∀ q, q < 1 → acc2 t.v q = acc2 s.v q + G.A (i + q) j * G.X j := by
    intro q hq
    obtain rfl : q = 0 := by omega
    · simp only [acc2, v0_0, v0_1, Nat.add_zero, Nat.zero_add]
      ring
  obtain ⟨u, hu, u1⟩ := H.last hw hr.r hr.mem hr.frame
    (by intro l hl; obtain rfl | rfl : l = 0 ∨ l = 1 := by omega
        · exact hr.lo 15
        · exact hr.hi 15)
    (by intro l hl; obtain rfl | rfl : l = 0 ∨ l = 1 := by omega
        · exact hr.lo 14
        · exact hr.hi 14) hs false
  exact ⟨u, (execs_append ht).trans hu, u1⟩

/-! ### Before and after the columns -/

theorem init_run (hp : G.Pre) {zs : List Ins} (H : G.Col acc2 0 i k 0 s) (hi : i + h ≤ G.m)
    (hz : ∃ t : St R, execs G.E zs s = some t ∧ t.r = s.r ∧ t.mem = s.mem ∧ t.frame = s.frame ∧
      (∀ l, l < 2 → t.v 15 l = s.v 15 l) ∧ (∀ l, l < 2 → t.v 14 l = s.v 14 l) ∧
      ∀ q, q < h → t.v q 0 = 0 ∧ t.v q 1 = 0) :
    ∃ u, execs G.E (zs ++ [.argQ 8 .BX, .shrQ 2 .BX]) s = some u ∧ u.r .BX = G.n / 4 ∧
      u.zf = (G.n / 4 == 0) ∧ G.Col acc2 h i k 0 u := by
  obtain ⟨t, ht, hr, hm, hf, v15, v14, hs⟩ := hz
  have e4 : G.n >>> 2 = G.n / 4 := Nat.shiftRight_eq_div_pow _ 2
  have hn : t.frame 8 = G.n := by rw [hf, H.f8]
  refine ⟨_, (execs_append ht).trans rfl, ?_, ?_, H.toBase.keep ?_ ?_ ?_ ?_ ?_ ?_ hf v15 v14 hm, hi,
    by omega, ?_, ?_, ?_⟩
  any_goals simp [St.setR, hr, hn, e4]
  · exact H.cx
  · exact H.di
  · exact H.si
  · intro q hq
    simp [acc2, hs q hq, Gv.dot]

theorem mid_run {acc' : (Nat → Nat → R) → Nat → R} (hp : G.Pre) {zs : List Ins}
    (H : G.Col acc h i k j s)
    (hz : ∃ t : St R, execs G.E zs s = some t ∧ t.r = s.r ∧ t.mem = s.mem ∧ t.frame = s.frame ∧
      (∀ l, l < 2 → t.v 15 l = s.v 15 l) ∧ (∀ l, l < 2 → t.v 14 l = s.v 14 l) ∧
      ∀ q, q < h → acc' t.v q = acc s.v q) :
    ∃ u, execs G.E (zs ++ [.testArg 1 8]) s = some u ∧ u.zf = (G.n &&& 1 == 0) ∧
      G.Col acc' h i k j u := by
  obtain ⟨t, ht, hr, hm, hf, v15, v14, hs⟩ := hz
  refine ⟨_, (execs_append ht).trans rfl, ?_, H.toBase.keep ?_ ?_ ?_ ?_ ?_ ?_ hf v15 v14 hm, H.hi,
    H.lj, ?_, ?_, ?_⟩
  any_goals simp [St.setR, hr, hf, H.f8]
  · exact H.cx
  · exact H.di
  · exact H.si
  · intro q hq
    exact (hs q hq).trans (H.sum q hq)

/-- `INIT4`. -/
def z4 : List Ins := [.zero 0, .zero 1, .zero 2, .zero 3]

theorem z4_run (hp : G.Pre) (s : St R) : ∃ t : St R, execs G.E z4 s = some t ∧ t.r = s.r ∧
    t.mem = s.mem ∧ t.frame = s.frame ∧ (∀ l, l < 2 → t.v 15 l = s.v 15 l) ∧
    (∀ l, l < 2 → t.v 14 l = s.v 14 l) ∧ ∀ q, q < 4 → t.v q 0 = 0 ∧ t.v q 1 = 0 := by
  obtain ⟨t, ht, hr⟩ := sym_run hp.es s z4 rfl (by intro p hp; simp [z4, symIs, symI, Sym.set, Sym.init] at hp)
  refine ⟨t, ht, hr.r, hr.mem, hr.frame, ?_, ?_, ?_⟩
  · intro l hl; obtain rfl | rfl : l = 0 ∨ l = 1 := by omega
    · exact hr.lo 15
    · exact hr.hi 15
  · intro l hl; obtain rfl | rfl : l = 0 ∨ l = 1 := by omega
    · exact hr.lo 14
    · exact hr.hi 14
  · intro q hq
    obtain rfl | rfl | rfl | rfl : q = 0 ∨ q = 1 ∨ q = 2 ∨ q = 3 := by omega
    all_goals exact ⟨(hr.lo _).trans hp.ex.zero, (hr.hi _).trans hp.ex.zero⟩

/-- `INIT2`. -/
def z2 : List Ins := [.zero 0, .zero 1]

theorem z2_run (hp : G.Pre) (s : St R) : ∃ t : St R, execs G.E z2 s = some t ∧ t.r = s.r ∧
    t.mem = s.mem ∧ t.frame = s.frame ∧ (∀ l, l < 2 → t.v 15 l = s.v 15 l) ∧
    (∀ l, l < 2 → t.v 14 l = s.v 14 l) ∧ ∀ q, q < 2 → t.v q 0 = 0 ∧ t.v q 1 = 0 := by
  obtain ⟨t, ht, hr⟩ := sym_run hp.es s z2 rfl (by intro p hp; simp [z2, symIs, symI, Sym.set, Sym.init] at hp)
  refine ⟨t, ht, hr.r, hr.mem, hr.frame, ?_, ?_, ?_⟩
  · intro l hl; obtain rfl | rfl : l = 0 ∨ l = 1 := by omega
    · exact hr.lo 15
    · exact hr.hi 15
  · intro l hl; obtain rfl | rfl : l = 0 ∨ l = 1 := by omega
    · exact hr.lo 14
    · exact hr.hi 14
  · intro q hq
    obtain rfl | rfl : q = 0 ∨ q = 1 := by omega
    all_goals exact ⟨(hr.lo _).trans hp.ex.zero, (hr.hi _).trans hp.ex.zero⟩

/-- `INIT1`. -/
def z1 : List Ins := [.zero 0]

theorem z1_run (hp : G.Pre) (s : St R) : ∃ t : St R, execs G.E z1 s = some t ∧ t.r = s.r ∧
    t.mem = s.mem ∧ t.frame = s.frame ∧ (∀ l, l < 2 → t.v 15 l = s.v 15 l) ∧
    (∀ l, l < 2 → t.v 14 l = s.v 14 l) ∧ ∀ q, q < 1 → t.v q 0 = 0 ∧ t.v q 1 = 0 := by
  obtain ⟨t, ht, hr⟩ := sym_run hp.es s z1 rfl (by intro p hp; simp [z1, symIs, symI, Sym.set, Sym.init] at hp)
  refine ⟨t, ht, hr.r, hr.mem, hr.frame, ?_, ?_, ?_⟩
  · intro l hl; obtain rfl | rfl : l = 0 ∨ l = 1 := by omega
    · exact hr.lo 15
    · exact hr.hi 15
  · intro l hl; obtain rfl | rfl : l = 0 ∨ l = 1 := by omega
    · exact hr.lo 14
    · exact hr.hi 14
  · intro q hq
    obtain rfl : q = 0 := by omega
    all_goals exact ⟨(hr.lo _).trans hp.ex.zero, (hr.hi _).trans hp.ex.zero⟩

/-- The horizontal additions of 4 rows. -/
def h4 : List Ins := [.hadd 1 0, .hadd 3 2]

theorem h4_run (hp : G.Pre) (s : St R) : ∃ t : St R, execs G.E h4 s = some t ∧ t.r = s.r ∧
    t.mem = s.mem ∧ t.frame = s.frame ∧ (∀ l, l < 2 → t.v 15 l = s.v 15 l) ∧
    (∀ l, l < 2 → t.v 14 l = s.v 14 l) ∧ ∀ q, q < 4 → accH t.v q = acc2 s.v q := by
  obtain ⟨t, ht, hr⟩ := sym_run hp.es s h4 rfl (by intro p hp; simp [h4, symIs, symI, Sym.set, Sym.init] at hp)
  refine ⟨t, ht, hr.r, hr.mem, hr.frame, ?_, ?_, ?_⟩
  · intro l hl; obtain rfl | rfl : l = 0 ∨ l = 1 := by omega
    · exact hr.lo 15
    · exact hr.hi 15
  · intro l hl; obtain rfl | rfl : l = 0 ∨ l = 1 := by omega
    · exact hr.lo 14
    · exact hr.hi 14
  · intro q hq
    obtain rfl | rfl | rfl | rfl : q = 0 ∨ q = 1 ∨ q = 2 ∨ q = 3 := by omega
    · exact (hr.lo 0).trans (hp.ex.add _ _)
    · exact (hr.hi 0).trans (hp.ex.add _ _)
    · exact (hr.lo 2).trans (hp.ex.add _ _)
    · exact (hr.hi 2).trans (hp.ex.add _ _)

/-- The horizontal additions of 2 rows. -/
def h2 : List Ins := [.hadd 1 0]

theorem h2_run (hp : G.Pre) (s : St R) : ∃ t : St R, execs G.E h2 s = some t ∧ t.r = s.r ∧
    t.mem = s.mem ∧ t.frame = s.frame ∧ (∀ l, l < 2 → t.v 15 l = s.v 15 l) ∧
    (∀ l, l < 2 → t.v 14 l = s.v 14 l) ∧ ∀ q, q < 2 → accH t.v q = acc2 s.v q := by
  obtain ⟨t, ht, hr⟩ := sym_run hp.es s h2 rfl (by intro p hp; simp [h2, symIs, symI, Sym.set, Sym.init] at hp)
  refine ⟨t, ht, hr.r, hr.mem, hr.frame, ?_, ?_, ?_⟩
  · intro l hl; obtain rfl | rfl : l = 0 ∨ l = 1 := by omega
    · exact hr.lo 15
    · exact hr.hi 15
  · intro l hl; obtain rfl | rfl : l = 0 ∨ l = 1 := by omega
    · exact hr.lo 14
    · exact hr.hi 14
  · intro q hq
    obtain rfl | rfl : q = 0 ∨ q = 1 := by omega
    · exact (hr.lo 0).trans (hp.ex.add _ _)
    · exact (hr.hi 0).trans (hp.ex.add _ _)

/-- The result of a group of rows is stored. -/
structure Gv.Stored (G : Gv R) (h i k : Nat) (s : St R) : Prop where
  le : i + h ≤ G.m
  cx : s.r .CX = k
  ax : s.r .AX = G.a + 8 * (G.lda * i)
  dx : s.r .DX = G.y + 8 * (i + h)
  r10 : s.r .R10 = 8
  r12 : s.r .R12 = 8 * G.lda
  r13 : s.r .R13 = 24 * G.lda
  f0 : s.frame 0 = G.m
  f8 : s.frame 8 = G.n
  f56 : s.frame 56 = G.x
  al15 : ∀ l, l < 2 → s.v 15 l = G.al
  be14 : ∀ l, l < 2 → s.v 14 l = G.be
  mem : Done 8 G.y G.T G.m1 (i + h) s.mem

theorem Gv.Base.addrY (H : G.Base i k s) (o : Nat) : s.addr ⟨.DX, none, o⟩ = G.y + 8 * i + o := by
  simp only [St.addr, H.dx]

theorem Gv.Base.evY (hp : G.Pre) (H : G.Base i k s) (c l : Nat) :
    Ex.eval G.E s (.ld ⟨.DX, none, 8 * c⟩ l) = G.m1 (G.y + 8 * (i + (c + l))) := by
  have e : G.y + 8 * i + 8 * c + 8 * l = G.y + 8 * (i + (c + l)) := by ring
  simp only [Ex.eval, H.addrY, hp.es, e]
  exact H.mem.2 _ fun k hk => by omega

/-- Storing the rows: the registers from 4 on hold the results. -/
theorem store_mem (hp : G.Pre) {w : W} {u : Nat} (H : G.Base i k s) {t : St R} (hr : t.r = s.r)
    (hm : t.mem = s.mem) (hi : i + u * lanesOf 8 w ≤ G.m)
    (hv : ∀ k, k < u → ∀ l, l < lanesOf 8 w → t.v (k + 4) l = G.T (i + (k * lanesOf 8 w + l))) :
    ∃ t', execs G.E ((List.range u).map fun k => Ins.st w (k + 4) (chunk 8 w .DX none k)) t = some t' ∧
      t'.r = t.r ∧ t'.v = t.v ∧ t'.frame = t.frame ∧
      Done 8 G.y G.T G.m1 (i + u * lanesOf 8 w) t'.mem := by
  have hes := hp.es
  have hL : G.E.lanes w = lanesOf 8 w := by simp [Env.lanes, hes]
  obtain ⟨t1, h1, r1, w1, f1, m1, o1⟩ := stores (E := G.E) (w := w) (base := .DX) (ix := none) (d := 4)
    (u := u) (p := G.y + 8 * i) (s := t) (by omega) (by rw [addr_congr hr, H.addrY]; rfl)
    (by
      intro j hj
      rw [hL] at hj
      rw [hes, Nat.add_assoc, ← Nat.mul_add]
      exact hp.wrY _ (by omega))
  rw [hes, hL] at o1
  rw [hes] at h1
  simp only [hL, hes] at m1
  refine ⟨_, h1, r1, w1, f1, ?_⟩
  refine Done.write (by omega) H.mem ?_ ?_
  · intro c hc
    have hLp : 0 < lanesOf 8 w := by
      rcases Nat.eq_zero_or_pos (lanesOf 8 w) with h0 | h0
      · rw [h0] at hc; omega
      · exact h0
    have hck : c / lanesOf 8 w < u := Nat.div_lt_of_lt_mul (by rwa [Nat.mul_comm] at hc)
    have e : c / lanesOf 8 w * lanesOf 8 w + c % lanesOf 8 w = c := Nat.div_add_mod' _ _
    have := m1 _ hck _ (Nat.mod_lt c hLp)
    rw [e, hv _ hck _ (Nat.mod_lt c hLp), e] at this
    exact this
  · intro q hq
    rw [o1 q hq, hm]

/-- The stores and the step to the next rows. -/
theorem store_run (hp : G.Pre) {w : W} {u : Nat} (H : G.Base i k s) {t : St R} (hr : t.r = s.r)
    (hm : t.mem = s.mem) (hf : t.frame = s.frame) (v15 : ∀ l, l < 2 → t.v 15 l = s.v 15 l)
    (v14 : ∀ l, l < 2 → t.v 14 l = s.v 14 l) (hi : i + u * lanesOf 8 w ≤ G.m)
    (hv : ∀ k, k < u → ∀ l, l < lanesOf 8 w → t.v (k + 4) l = G.T (i + (k * lanesOf 8 w + l))) :
    ∃ t', execs G.E (((List.range u).map fun k => Ins.st w (k + 4) (chunk 8 w .DX none k)) ++
        [.addQ (8 * (u * lanesOf 8 w)) .DX]) t = some t' ∧ G.Stored (u * lanesOf 8 w) i k t' := by
  obtain ⟨t1, h1, r1, w1, f1, m1⟩ := store_mem hp H hr hm hi hv
  refine ⟨_, (execs_append h1).trans rfl, hi, ?_, ?_, ?_, ?_, ?_, ?_, ?_, ?_, ?_, ?_, ?_, m1⟩
  · simp [St.setR, r1, hr, H.cx]
  · simp [St.setR, r1, hr, H.ax]
  · simp [St.setR, r1, hr, H.dx]; ring
  · simp [St.setR, r1, hr, H.r10]
  · simp [St.setR, r1, hr, H.r12]
  · simp [St.setR, r1, hr, H.r13]
  · simp [St.setR, f1, hf, H.f0]
  · simp [St.setR, f1, hf, H.f8]
  · simp [St.setR, f1, hf, H.f56]
  · intro l hl
    simp only [St.setR, w1]
    rw [v15 l hl, H.al15 l hl]
  · intro l hl
    simp only [St.setR, w1]
    rw [v14 l hl, H.be14 l hl]

/-- To the next group of rows. -/
theorem next_run (H : G.Stored h i k s) : ∃ t, execs G.E
    [.argQ 56 .SI, .lea ⟨.AX, some (.R12, h), 0⟩ .AX, .movQ .AX .DI] s = some t ∧
      G.Col acc2 0 (i + h) k 0 t := by
  refine ⟨_, rfl, ⟨H.le, ?_, ?_, ?_, ?_, ?_, ?_, H.f0, H.f8, H.f56, H.al15, H.be14, H.mem⟩, H.le,
    by omega, ?_, ?_, fun q hq => by omega⟩
  all_goals simp [St.setR, St.addr, H.cx, H.ax, H.dx, H.r10, H.r12, H.r13, H.f56]
  all_goals ring


/-- `STORE4` (gemvN_amd64.s:390) up to the stores. -/
def s4 : List Ins := [.ld .x ⟨.DX, none, 0⟩ 4, .ld .x ⟨.DX, none, 16⟩ 5, .op2 .mul .x (.v 15) 0,
  .op2 .mul .x (.v 15) 2, .op2 .mul .x (.v 14) 4, .op2 .mul .x (.v 14) 5, .op2 .add .x (.v 0) 4,
  .op2 .add .x (.v 2) 5]

theorem s4_run (hp : G.Pre) (H : G.Fin accH 4 i k s) : ∃ t, execs G.E (s4 ++
    ((List.range 2).map (fun k => Ins.st .x (k + 4) (chunk 8 .x .DX none k)) ++
      [.addQ 32 .DX])) s = some t ∧ G.Stored 4 i k t := by
  have hi := H.hi
  have rd : ∀ c, c < 4 → G.E.rd (s.addr ⟨.DX, none, 8 * c⟩) = true := by
    intro c hc
    rw [H.addrY, Nat.add_assoc, ← Nat.mul_add]
    exact hp.rdY _ (by omega)
  obtain ⟨t, ht, hr⟩ := sym_run hp.es s s4 rfl (by
    intro p hpm
    have hl : (symIs s4 Sym.init).need = [(⟨.DX, none, 16⟩, 0), (⟨.DX, none, 16⟩, 1), (⟨.DX, none, 0⟩, 0), (⟨.DX, none, 0⟩, 1)] := rfl
    rw [hl] at hpm
    simp only [List.mem_cons, List.not_mem_nil, or_false] at hpm
    rcases hpm with rfl | rfl | rfl | rfl
    · rw [show s.addr ⟨.DX, none, 16⟩ + 8 * 0 = s.addr ⟨.DX, none, 8 * 2⟩ by simp [St.addr]]
      exact rd 2 (by omega)
    · rw [show s.addr ⟨.DX, none, 16⟩ + 8 * 1 = s.addr ⟨.DX, none, 8 * 3⟩ by simp [St.addr]]
      exact rd 3 (by omega)
    · rw [show s.addr ⟨.DX, none, 0⟩ + 8 * 0 = s.addr ⟨.DX, none, 8 * 0⟩ by simp [St.addr]]
      exact rd 0 (by omega)
    · rw [show s.addr ⟨.DX, none, 0⟩ + 8 * 1 = s.addr ⟨.DX, none, 8 * 1⟩ by simp [St.addr]]
      exact rd 1 (by omega)
    )
  have v4_0 : t.v 4 0 = G.T (i + 0) := by
    have e0 : Ex.eval G.E s (.ld ⟨.DX, none, 0⟩ 0) = G.m1 (G.y + 8 * (i + 0)) := H.evY hp 0 0
    have e1 : t.v 4 0 = Ex.eval G.E s (.op .add (.op .mul (.ld ⟨.DX, none, 0⟩ 0) (.v 14 0)) (.op .mul (.v 0 0) (.v 15 0))) := hr.lo 4
    have e2 := H.sum 0 (by omega)
    simp only [accH, Nat.zero_div, Nat.zero_mul, Nat.zero_mod, Nat.reduceDiv, Nat.reduceMul, Nat.reduceMod] at e2
    rw [e1]
    simp only [Ex.eval_op, Ex.eval_v, hp.ex.add, hp.ex.mul, e0, H.al15 0 (by omega), H.be14 0 (by omega), e2, Gv.T]
    ring
  have v4_1 : t.v 4 1 = G.T (i + 1) := by
    have e0 : Ex.eval G.E s (.ld ⟨.DX, none, 0⟩ 1) = G.m1 (G.y + 8 * (i + 1)) := H.evY hp 0 1
    have e1 : t.v 4 1 = Ex.eval G.E s (.op .add (.op .mul (.ld ⟨.DX, none, 0⟩ 1) (.v 14 1)) (.op .mul (.v 0 1) (.v 15 1))) := hr.hi 4
    have e2 := H.sum 1 (by omega)
    simp only [accH, Nat.zero_div, Nat.zero_mul, Nat.zero_mod, Nat.reduceDiv, Nat.reduceMul, Nat.reduceMod] at e2
    rw [e1]
    simp only [Ex.eval_op, Ex.eval_v, hp.ex.add, hp.ex.mul, e0, H.al15 1 (by omega), H.be14 1 (by omega), e2, Gv.T]
    ring
  have v5_0 : t.v 5 0 = G.T (i + 2) := by
    have e0 : Ex.eval G.E s (.ld ⟨.DX, none, 16⟩ 0) = G.m1 (G.y + 8 * (i + 2)) := H.evY hp 2 0
    have e1 : t.v 5 0 = Ex.eval G.E s (.op .add (.op .mul (.ld ⟨.DX, none, 16⟩ 0) (.v 14 0)) (.op .mul (.v 2 0) (.v 15 0))) := hr.lo 5
    have e2 := H.sum 2 (by omega)
    simp only [accH, Nat.zero_div, Nat.zero_mul, Nat.zero_mod, Nat.reduceDiv, Nat.reduceMul, Nat.reduceMod] at e2
    rw [e1]
    simp only [Ex.eval_op, Ex.eval_v, hp.ex.add, hp.ex.mul, e0, H.al15 0 (by omega), H.be14 0 (by omega), e2, Gv.T]
    ring
  have v5_1 : t.v 5 1 = G.T (i + 3) := by
    have e0 : Ex.eval G.E s (.ld ⟨.DX, none, 16⟩ 1) = G.m1 (G.y + 8 * (i + 3)) := H.evY hp 2 1
    have e1 : t.v 5 1 = Ex.eval G.E s (.op .add (.op .mul (.ld ⟨.DX, none, 16⟩ 1) (.v 14 1)) (.op .mul (.v 2 1) (.v 15 1))) := hr.hi 5
    have e2 := H.sum 3 (by omega)
    simp only [accH, Nat.zero_div, Nat.zero_mul, Nat.zero_mod, Nat.reduceDiv, Nat.reduceMul, Nat.reduceMod] at e2
    rw [e1]
    simp only [Ex.eval_op, Ex.eval_v, hp.ex.add, hp.ex.mul, e0, H.al15 1 (by omega), H.be14 1 (by omega), e2, Gv.T]
    ring
  obtain ⟨u, hu, h2⟩ := store_run hp (w := .x) (u := 2) H.toBase hr.r hr.mem hr.frame
    (by intro l hl; obtain rfl | rfl : l = 0 ∨ l = 1 := by omega
        · exact hr.lo 15
        · exact hr.hi 15)
    (by intro l hl; obtain rfl | rfl : l = 0 ∨ l = 1 := by omega
        · exact hr.lo 14
        · exact hr.hi 14) (by simpa [lanesOf] using hi) (by
    intro k hk l hl
    simp only [lanesOf, Nat.reduceDiv] at hl ⊢
    obtain rfl | rfl : l = 0 ∨ l = 1 := by omega
    all_goals obtain rfl | rfl : k = 0 ∨ k = 1 := by omega
    · exact v4_0
    · exact v5_0
    · exact v4_1
    · exact v5_1
    )
  exact ⟨u, (execs_append ht).trans hu, h2⟩

/-- The last row (gemvN_amd64.s:521) up to the store. -/
def s1 : List Ins := [.hadd 0 0, .ld .s ⟨.DX, none, 0⟩ 4, .op2 .mul .s (.v 15) 0, .op2 .mul .s (.v
  14) 4, .op2 .add .s (.v 0) 4]

theorem s1_run (hp : G.Pre) (H : G.Fin acc2 1 i k s) : ∃ t, execs G.E (s1 ++
    (List.range 1).map (fun k => Ins.st .s (k + 4) (chunk 8 .s .DX none k))) s = some t ∧
      Done 8 G.y G.T G.m1 (i + 1) t.mem := by
  have hi := H.hi
  obtain ⟨t, ht, hr⟩ := sym_run hp.es s s1 rfl (by
    intro p hpm
    have hl : (symIs s1 Sym.init).need = [(⟨.DX, none, 0⟩, 0)] := rfl
    rw [hl] at hpm
    simp only [List.mem_cons, List.not_mem_nil, or_false] at hpm
    obtain rfl := hpm
    rw [H.addrY, Nat.add_assoc, Nat.add_assoc]
    exact hp.rdY _ (by omega))
  have v4 : t.v 4 0 = G.T (i + 0) := by
    have e0 : Ex.eval G.E s (.ld ⟨.DX, none, 0⟩ 0) = G.m1 (G.y + 8 * (i + 0)) := H.evY hp 0 0
    have e1 : t.v 4 0 = Ex.eval G.E s (.op .add (.op .mul (.ld ⟨.DX, none, 0⟩ 0) (.v 14 0))
      (.op .mul (.op .add (.v 0 0) (.v 0 1)) (.v 15 0))) := hr.lo 4
    have e2 := H.sum 0 (by omega)
    simp only [acc2] at e2
    rw [e1]
    simp only [Ex.eval_op, Ex.eval_v, hp.ex.add, hp.ex.mul, e0, H.al15 0 (by omega),
      H.be14 0 (by omega), e2, Gv.T]
    ring
  obtain ⟨u, hu, -, -, -, h2⟩ := store_mem hp (w := .s) (u := 1) H.toBase hr.r hr.mem hi (by
    intro k hk l hl
    simp only [lanesOf] at hl ⊢
    obtain rfl : l = 0 := by omega
    obtain rfl : k = 0 := by omega
    exact v4)
  exact ⟨u, (execs_append ht).trans hu, h2⟩

/-- `STORE2` (gemvN_amd64.s:451) up to the store. -/
def s2 : List Ins := [.ld .x ⟨.DX, none, 0⟩ 4, .op2 .mul .x (.v 15) 0, .op2 .mul .x (.v 14) 4,
  .op2 .add .x (.v 0) 4]

theorem s2_run (hp : G.Pre) (H : G.Fin accH 2 i k s) : ∃ t, execs G.E (s2 ++
    ((List.range 1).map (fun k => Ins.st .x (k + 4) (chunk 8 .x .DX none k)) ++
      [.addQ 16 .DX])) s = some t ∧ G.Stored 2 i k t := by
  have hi := H.hi
  have rd : ∀ c, c < 2 → G.E.rd (s.addr ⟨.DX, none, 8 * c⟩) = true := by
    intro c hc
    rw [H.addrY, Nat.add_assoc, ← Nat.mul_add]
    exact hp.rdY _ (by omega)
  obtain ⟨t, ht, hr⟩ := sym_run hp.es s s2 rfl (by
    intro p hpm
    have hl : (symIs s2 Sym.init).need = [(⟨.DX, none, 0⟩, 0), (⟨.DX, none, 0⟩, 1)] := rfl
    rw [hl] at hpm
    simp only [List.mem_cons, List.not_mem_nil, or_false] at hpm
    rcases hpm with rfl | rfl
    · rw [show s.addr ⟨.DX, none, 0⟩ + 8 * 0 = s.addr ⟨.DX, none, 8 * 0⟩ by simp [St.addr]]
      exact rd 0 (by omega)
    · rw [show s.addr ⟨.DX, none, 0⟩ + 8 * 1 = s.addr ⟨.DX, none, 8 * 1⟩ by simp [St.addr]]
      exact rd 1 (by omega)
    )
  have v4_0 : t.v 4 0 = G.T (i + 0) := by
    have e0 : Ex.eval G.E s (.ld ⟨.DX, none, 0⟩ 0) = G.m1 (G.y + 8 * (i + 0)) := H.evY hp 0 0
    have e1 : t.v 4 0 = Ex.eval G.E s (.op .add (.op .mul (.ld ⟨.DX, none, 0⟩ 0) (.v 14 0)) (.op .mul (.v 0 0) (.v 15 0))) := hr.lo 4
    have e2 := H.sum 0 (by omega)
    simp only [accH, Nat.zero_div, Nat.zero_mul, Nat.zero_mod, Nat.reduceDiv, Nat.reduceMul, Nat.reduceMod] at e2
    rw [e1]
    simp only [Ex.eval_op, Ex.eval_v, hp.ex.add, hp.ex.mul, e0, H.al15 0 (by omega), H.be14 0 (by omega), e2, Gv.T]
    ring
  have v4_1 : t.v 4 1 = G.T (i + 1) := by
    have e0 : Ex.eval G.E s (.ld ⟨.DX, none, 0⟩ 1) = G.m1 (G.y + 8 * (i + 1)) := H.evY hp 0 1
    have e1 : t.v 4 1 = Ex.eval G.E s (.op .add (.op .mul (.ld ⟨.DX, none, 0⟩ 1) (.v 14 1)) (.op .mul (.v 0 1) (.v 15 1))) := hr.hi 4
    have e2 := H.sum 1 (by omega)
    simp only [accH, Nat.zero_div, Nat.zero_mul, Nat.zero_mod, Nat.reduceDiv, Nat.reduceMul, Nat.reduceMod] at e2
    rw [e1]
    simp only [Ex.eval_op, Ex.eval_v, hp.ex.add, hp.ex.mul, e0, H.al15 1 (by omega), H.be14 1 (by omega), e2, Gv.T]
    ring
  obtain ⟨u, hu, h2⟩ := store_run hp (w := .x) (u := 1) H.toBase hr.r hr.mem hr.frame
    (by intro l hl; obtain rfl | rfl : l = 0 ∨ l = 1 := by omega
        · exact hr.lo 15
        · exact hr.hi 15)
    (by intro l hl; obtain rfl | rfl : l = 0 ∨ l = 1 := by omega
        · exact hr.lo 14
        · exact hr.hi 14) (by simpa [lanesOf] using hi) (by
    intro k hk l hl
    simp only [lanesOf, Nat.reduceDiv] at hl ⊢
    obtain rfl | rfl : l = 0 ∨ l = 1 := by omega
    all_goals obtain rfl : k = 0 := by omega
    · exact v4_0
    · exact v4_1
    )
  exact ⟨u, (execs_append ht).trans hu, h2⟩

end

end Verif.Gonum
