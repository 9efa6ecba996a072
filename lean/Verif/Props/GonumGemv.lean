/-
C65: the matrix-vector product on amd64, `GemvN` of 64 bits with increments of one, which `Mul` calls
for a column.
-/
import Verif.Lemmas.GonumGemvRun
import Verif.Props.GonumMul
set_option autoImplicit false
set_option linter.unusedSimpArgs false

namespace Verif.Gonum

open Verif.Spec.Kernels
open Verif.Asm (Arith Alu W keep lanesOf Done SameOrApart Sl Sz poke poke_done elems_zip Exact intAlu
  intAlu_exact)

variable {R : Type} [CommSemiring R]

section
variable {alu : Alu R} {eqf : R → R → Bool} {al be : R} {m n lda : Nat} {a x y : Sl} {s : St R}

theorem lda_lt {i j m n lda : Nat} (hi : i < m) (hj : j < n) :
    lda * i + j < lda * (m - 1) + n := by
  have := Nat.mul_le_mul_left lda (show i ≤ m - 1 by omega)
  omega

/-- The call of `GemvN` as the lemmas know it. -/
def gvOf (alu : Alu R) (eqf : R → R → Bool) (al be : R) (m n lda : Nat) (a x y : Sl) (s : St R) : Gv R :=
  ⟨gemvEnv alu eqf al be a x y, s.mem, al, be, a.base, x.base, y.base, m, n, lda⟩

theorem gemvN_done (hex : Exact alu) (h0 : eqf 0 be = true → be = 0)
    (hf : s.frame = gemvFrame m n lda 1 1 a x y) (hm : 1 ≤ m) (hn : 1 ≤ n)
    (la : lda * (m - 1) + n ≤ a.len) (lx : n ≤ x.len) (ly : m ≤ y.len)
    (ay : Separate 8 a.base a.len y.base m) (xy : Separate 8 x.base n y.base m) :
    ∃ s', (∀ t, Call (gemvEnv alu eqf al be a x y) gemvN64 s t ↔ t = s') ∧
      Done 8 y.base (gvOf alu eqf al be m n lda a x y s).T s.mem m s'.mem := by
  have hp : (gvOf alu eqf al be m n lda a x y s).Pre := by
    refine ⟨rfl, hex, ?_, ?_, ?_, ?_, ?_, ?_⟩
    · intro i j hi hj
      have := lda_lt (lda := lda) hi hj
      have : lda * i + j < a.len := by simp only [gvOf] at this; omega
      simp [gvOf, gemvEnv, Sl.has_of this]
    · intro j hj
      simp only [gvOf] at hj
      simp [gvOf, gemvEnv, Sl.has_of (show j < x.len by omega)]
    · intro j hj
      simp only [gvOf] at hj
      simp [gvOf, gemvEnv, Sl.has_of (show j < y.len by omega)]
    · intro j hj
      simp only [gvOf] at hj
      exact Sl.has_of (show j < y.len by omega)
    · intro i j k hi hj hk
      have := lda_lt (lda := lda) hi hj
      exact ay _ k (by simp only [gvOf] at this ⊢; omega) hk
    · intro j k hj hk
      exact xy j k hj hk
  refine run_unique ?_
  rw [gemvN64_form]
  refine gemv_ends hp ?_ rfl rfl h0 rfl hm hn
  rw [hf]
  exact ⟨rfl, rfl, rfl, rfl, rfl, rfl, rfl, rfl⟩

/-- **C65.** In exact arithmetic the assembly `GemvN` of 64 bits, with increments of one and at least
one row and one column, ends in one state, in which `y = alpha * A * x + beta * y`; nothing but the
`m` elements of `y` changes, and nothing outside the slices is read. -/
theorem gemvN_kernel (hex : Exact alu) (h0 : eqf 0 be = true → be = 0)
    (hf : s.frame = gemvFrame m n lda 1 1 a x y) (hm : 1 ≤ m) (hn : 1 ≤ n)
    (la : lda * (m - 1) + n ≤ a.len) (lx : n ≤ x.len) (ly : m ≤ y.len)
    (ay : Separate 8 a.base a.len y.base m) (xy : Separate 8 x.base n y.base m) :
    ∃ s', (∀ t, Call (gemvEnv alu eqf al be a x y) gemvN64 s t ↔ t = s') ∧
      (∀ i, i < m → s'.mem (y.base + 8 * i) = be * s.mem (y.base + 8 * i) +
        al * (Finset.range n).sum fun j => s.mem (a.base + 8 * (lda * i + j)) * s.mem (x.base + 8 * j)) ∧
      OnlyAt 8 y.base m s.mem s'.mem := by
  obtain ⟨s', h1, h2⟩ := gemvN_done hex h0 hf hm hn la lx ly ay xy
  exact ⟨s', h1, h2.1, h2.2⟩

/-- **C65.** Without rows or without columns `y` stays as it is, whatever `beta` is, also in
machine arithmetic and with any increments. -/
theorem gemvN_empty {R : Type} {alu : Alu R} {eqf : R → R → Bool} {al be : R} {m n lda incX incY : Nat}
    {a x y : Sl} {s : St R} (hf : s.frame = gemvFrame m n lda incX incY a x y) (h : m = 0 ∨ n = 0) :
    ∃ s', (∀ t, Call (gemvEnv alu eqf al be a x y) gemvN64 s t ↔ t = s') ∧ s'.mem = s.mem := by
  refine run_unique ?_
  rw [gemvN64_form]
  refine gemv_empty ?_
  rw [hf]
  exact h

/-! ### The portable loop -/

theorem dotLoop_sum (hex : Exact alu) (p q : Nat) (m : Nat → R) : ∀ k i sum,
    dotLoop alu p q m k i sum =
      sum + (Finset.range k).sum fun j => m (p + 8 * (i + j)) * m (q + 8 * (i + j)) := by
  intro k
  induction k with
  | zero => intro i sum; simp [dotLoop]
  | succ k ih =>
    intro i sum
    rw [dotLoop, ih, Finset.sum_range_succ', hex.add, hex.mul]
    simp only [Nat.add_zero, Nat.add_assoc, Nat.add_comm 1]
    ring

theorem gemvLoop_done (hex : Exact alu) (h0 : eqf be 0 = true → be = 0) (m0 : Nat → R)
    (G : Gv R) (hG : G.m1 = m0) (hal : G.al = al) (hbe : G.be = be)
    (ay : ∀ i j k, i < G.m → j < G.n → k < G.m → G.a + 8 * (G.lda * i + j) ≠ G.y + 8 * k)
    (xy : ∀ j k, j < G.n → k < G.m → G.x + 8 * j ≠ G.y + 8 * k) :
    ∀ k i mm, i + k = G.m → Done 8 G.y G.T m0 i mm →
      Done 8 G.y G.T m0 G.m (gemvLoop alu eqf al be G.n G.lda G.a G.x G.y k i mm) := by
  intro k
  induction k with
  | zero => intro i mm hi hd; rw [Nat.add_zero] at hi; subst hi; exact hd
  | succ k ih =>
    intro i mm hi hd
    refine ih (i + 1) _ (by omega) (poke_done (by omega) hd ?_)
    have hdot : dotLoop alu (G.a + 8 * (G.lda * i)) G.x mm G.n 0 alu.zero = G.dot i G.n := by
      rw [dotLoop_sum hex, hex.zero, zero_add, Gv.dot]
      refine Finset.sum_congr rfl fun j hj => ?_
      have hj := Finset.mem_range.1 hj
      rw [Nat.zero_add, hd.2 (G.x + 8 * j) fun q hq => xy j q hj (by omega), Gv.A, Gv.X, hG,
        Nat.add_assoc, ← Nat.mul_add, hd.2 _ fun q hq => ay i j q (by omega) hj (by omega)]
    have hy : mm (G.y + 8 * i) = m0 (G.y + 8 * i) := hd.2 _ fun q hq => by omega
    rw [hdot, hy, Gv.T, hal, hbe, hG]
    cases he : eqf be alu.zero
    · simp only [hex.add, hex.mul, Bool.false_eq_true, if_false]
      ring
    · rw [hex.zero] at he
      simp [hex.mul, h0 he]

/-- **C65.** With at least one column the assembly and the portable function leave the same memory,
in exact arithmetic. -/
theorem gemvN_eq_purego (hex : Exact alu) (h0 : eqf 0 be = true → be = 0)
    (h0' : eqf be 0 = true → be = 0)
    (hf : s.frame = gemvFrame m n lda 1 1 a x y) (hn : 1 ≤ n)
    (la : lda * (m - 1) + n ≤ a.len) (lx : n ≤ x.len) (ly : m ≤ y.len)
    (ay : Separate 8 a.base a.len y.base m) (xy : Separate 8 x.base n y.base m) {t : St R}
    (h : Call (gemvEnv alu eqf al be a x y) gemvN64 s t) :
    puregoGemvN alu eqf al be m n lda a x y s.mem = some t.mem := by
  rw [puregoGemvN, if_pos (.inr ⟨la, lx, ly⟩)]
  rcases Nat.eq_zero_or_pos m with rfl | hm
  · obtain ⟨s', h1, h2⟩ := gemvN_empty hf (alu := alu) (eqf := eqf) (al := al) (be := be) (.inl rfl)
    obtain rfl := (h1 t).1 h
    rw [h2]
    rfl
  · obtain ⟨s', h1, h2⟩ := gemvN_done hex h0 hf hm hn la lx ly ay xy
    obtain rfl := (h1 t).1 h
    have := gemvLoop_done (eqf := eqf) hex h0' s.mem (gvOf alu eqf al be m n lda a x y s) rfl rfl rfl
      (fun i j k hi hj hk => ay _ k (by
        have := lda_lt (lda := lda) hi hj
        simp only [gvOf] at this ⊢
        omega) hk) xy m 0 s.mem (Nat.zero_add _) Done.zero
    exact congrArg some (this.unique h2)

/-- **C65.** Without columns they differ: the portable function scales `y` by `beta`, the assembly
leaves `y` alone; they agree only where `beta` times the element is the element. -/
theorem gemvN_noColumns (hex : Exact alu) (h0 : eqf be 0 = true → be = 0)
    (hf : s.frame = gemvFrame m 0 lda 1 1 a x y) (la : lda * (m - 1) ≤ a.len) (ly : m ≤ y.len) {t : St R}
    (h : Call (gemvEnv alu eqf al be a x y) gemvN64 s t) :
    ∃ m', puregoGemvN alu eqf al be m 0 lda a x y s.mem = some m' ∧ t.mem = s.mem ∧
      ∀ i, i < m → m' (y.base + 8 * i) = be * s.mem (y.base + 8 * i) := by
  obtain ⟨s', h1, h2⟩ := gemvN_empty hf (alu := alu) (eqf := eqf) (al := al) (be := be) (.inr rfl)
  obtain rfl := (h1 t).1 h
  refine ⟨_, if_pos (.inr ⟨la, Nat.zero_le _, ly⟩), h2, ?_⟩
  have := gemvLoop_done (eqf := eqf) hex h0 s.mem (gvOf alu eqf al be m 0 lda a x y s) rfl rfl rfl
    (fun i j k hi hj hk => absurd hj (Nat.not_lt_zero j)) (fun j k hj hk => absurd hj (Nat.not_lt_zero j))
    m 0 s.mem (Nat.zero_add _) Done.zero
  intro i hi
  refine (this.1 i hi).trans ?_
  simp [Gv.T, Gv.dot, gvOf]

end

/-- **C65.** `Mul` with a column, of 64 bits (dense.go:735-746): from a result that is all zero every
call leaves the product in the result, also for a matrix without columns, and such a call exists. -/
theorem mulVec_kernel {alu : Alu R} (hex : Exact alu) {eqf : R → R → Bool} {rows cols d v out : Nat}
    (dout : Separate 8 d (rows * cols) out rows) (vout : Separate 8 v cols out rows) (m : Nat → R)
    (hz : ∀ i, i < rows → m (out + 8 * i) = 0) :
    (∃ m', MulVecOn alu eqf 1 rows cols d v out m m') ∧
    ∀ m', MulVecOn alu eqf 1 rows cols d v out m m' →
      (∀ i, i < rows → m' (out + 8 * i) =
        (Finset.range cols).sum fun j => m (d + 8 * (i * cols + j)) * m (v + 8 * j)) ∧
      OnlyAt 8 out rows m m' := by
  have key : ∀ s : St R, s.mem = m →
      s.frame = gemvFrame rows cols cols 1 1 ⟨d, rows * cols⟩ ⟨v, cols⟩ ⟨out, rows⟩ →
      ∃ s', (∀ t, Call (gemvEnv alu eqf 1 alu.zero ⟨d, rows * cols⟩ ⟨v, cols⟩ ⟨out, rows⟩) gemvN64 s t ↔
        t = s') ∧ (∀ i, i < rows → s'.mem (out + 8 * i) =
          (Finset.range cols).sum fun j => m (d + 8 * (i * cols + j)) * m (v + 8 * j)) ∧
        OnlyAt 8 out rows m s'.mem := by
    intro s hm hf
    by_cases h0 : rows = 0 ∨ cols = 0
    · obtain ⟨s', h1, h2⟩ := gemvN_empty hf (alu := alu) (eqf := eqf) (al := 1) (be := alu.zero) h0
      refine ⟨s', h1, fun i hi => ?_, fun a _ => by rw [h2, hm]⟩
      obtain rfl : cols = 0 := by omega
      rw [h2, hm, hz i hi]
      simp
    · have la : cols * (rows - 1) + cols ≤ rows * cols := by
        obtain ⟨q, rfl⟩ : ∃ q, rows = q + 1 := ⟨rows - 1, by omega⟩
        rw [Nat.add_sub_cancel]
        exact (by ring : cols * q + cols = (q + 1) * cols).le
      obtain ⟨s', h1, h2, h3⟩ := gemvN_kernel (al := 1) (be := alu.zero) (eqf := eqf) hex
        (fun _ => hex.zero) hf (by omega) (by omega) la (Nat.le_refl _) (Nat.le_refl _) dout vout
      refine ⟨s', h1, fun i hi => ?_, hm ▸ h3⟩
      rw [h2 i hi, hex.zero, hm]
      simp only [zero_mul, zero_add, one_mul, Nat.mul_comm cols]
  constructor
  · obtain ⟨s', h1, -⟩ := key ⟨fun _ => 0, fun _ _ => 0, m, _, false, false⟩ rfl rfl
    exact ⟨_, _, s', rfl, rfl, (h1 s').2 rfl, rfl⟩
  · rintro m' ⟨s, t, hs, hf, hc, rfl⟩
    obtain ⟨s', h1, h2⟩ := key s hs hf
    obtain rfl := (h1 t).1 hc
    exact h2

/-! ### Cases -/

/-- Seven rows of seven columns in a matrix of eight columns, with `alpha = 3` and `beta = 2`: every
group of rows and columns is used. -/
example : ∃ s', (∀ t, Call (gemvEnv intAlu (fun u v => u == v) 3 2 ⟨0, 55⟩ ⟨1000, 7⟩ ⟨2000, 7⟩) gemvN64
      (demoSt (gemvFrame 7 7 8 1 1 ⟨0, 55⟩ ⟨1000, 7⟩ ⟨2000, 7⟩)) t ↔ t = s') ∧
    s'.mem (2000 + 8 * 6) = 2 * 2048 + 3 * 2926336 ∧
    OnlyAt 8 2000 7 (fun a => (a : Int)) s'.mem := by
  obtain ⟨s', h1, h2, h3⟩ := gemvN_kernel (al := 3) (be := 2) (eqf := fun u v => u == v) (m := 7)
    (n := 7) (lda := 8) (a := ⟨0, 55⟩) (x := ⟨1000, 7⟩) (y := ⟨2000, 7⟩)
    (s := demoSt (gemvFrame 7 7 8 1 1 ⟨0, 55⟩ ⟨1000, 7⟩ ⟨2000, 7⟩)) intAlu_exact (by decide) rfl
    (by decide) (by decide) (by decide) (by decide) (by decide)
    (fun i j hi hj => by simp at *; omega) (fun i j hi hj => by simp at *; omega)
  refine ⟨s', h1, (h2 6 (by omega)).trans ?_, h3⟩
  simp [Finset.sum_range_succ, demoSt]

/-- `beta = 0`: the old values of `y` do not matter. -/
example (t : St Int) (h : Call (gemvEnv intAlu (fun u v => u == v) 1 0 ⟨0, 12⟩ ⟨1000, 4⟩ ⟨2000, 3⟩)
      gemvN64 (demoSt (gemvFrame 3 4 4 1 1 ⟨0, 12⟩ ⟨1000, 4⟩ ⟨2000, 3⟩)) t) :
    puregoGemvN intAlu (fun u v => u == v) 1 0 3 4 4 ⟨0, 12⟩ ⟨1000, 4⟩ ⟨2000, 3⟩ (fun a => (a : Int)) =
      some t.mem :=
  gemvN_eq_purego (al := 1) (be := 0) (eqf := fun u v => u == v) (m := 3) (n := 4) (lda := 4)
    (a := ⟨0, 12⟩) (x := ⟨1000, 4⟩) (y := ⟨2000, 3⟩)
    (s := demoSt (gemvFrame 3 4 4 1 1 ⟨0, 12⟩ ⟨1000, 4⟩ ⟨2000, 3⟩)) intAlu_exact (fun _ => rfl) (fun _ => rfl) rfl (by decide) (by decide) (by decide)
    (by decide) (fun i j hi hj => by simp at *; omega) (fun i j hi hj => by simp at *; omega) h

/-- No columns, `beta = 2`: the portable function doubles, the assembly does not. -/
example (t : St Int) (h : Call (gemvEnv intAlu (fun u v => u == v) 1 2 ⟨0, 0⟩ ⟨1000, 0⟩ ⟨2000, 3⟩)
      gemvN64 (demoSt (gemvFrame 3 0 0 1 1 ⟨0, 0⟩ ⟨1000, 0⟩ ⟨2000, 3⟩)) t) :
    ∃ m', puregoGemvN intAlu (fun u v => u == v) 1 2 3 0 0 ⟨0, 0⟩ ⟨1000, 0⟩ ⟨2000, 3⟩
      (fun a => (a : Int)) = some m' ∧ t.mem 2008 = 2008 ∧ m' 2008 = 4016 := by
  obtain ⟨m', h1, h2, h3⟩ := gemvN_noColumns intAlu_exact (by decide) rfl (by decide) (by decide) h
  refine ⟨m', h1, by rw [h2]; rfl, (h3 1 (by omega)).trans ?_⟩
  simp [demoSt]

example : ∃ m', MulVecOn intAlu (fun u v => u == v) 1 2 3 0 100 1000
      (fun a => if a < 1000 then (a : Int) else 0) m' ∧
    m' 1008 = 24 * 100 + 32 * 108 + 40 * 116 := by
  obtain ⟨⟨m', h⟩, h2⟩ := mulVec_kernel (rows := 2) (cols := 3) (d := 0) (v := 100) (out := 1000)
    (eqf := fun u v => u == v) intAlu_exact (fun i j hi hj => by omega) (fun i j hi hj => by omega)
    (fun a => if a < 1000 then (a : Int) else 0) (fun i hi => by simp)
  refine ⟨m', h, ((h2 m' h).1 1 (by omega)).trans ?_⟩
  simp [Finset.sum_range_succ]

end Verif.Gonum
