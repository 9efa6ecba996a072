/-
C60: the vector exponential and logarithm on amd64.
-/
import Verif.Model.ExpLog
import Mathlib.Tactic.SplitIfs
import Mathlib.Tactic.Ring
set_option autoImplicit false
set_option linter.unusedSimpArgs false

namespace Verif.ExpLog
open Verif.F32

/-- Elements at different positions of the two slices are different cells: the slices are the same
or have nothing in common. -/
def Safe (n a b : Nat) : Prop := ∀ i j, i < n → j < n → a + i = b + j → i = j

/-- In place, and side by side. -/
example : Safe 5 100 100 ∧ Safe 5 0 5 := ⟨fun i j _ _ h => by omega, fun i j _ _ h => by omega⟩

theorem Safe.mono {n k a b : Nat} (h : Safe n a b) (hk : k ≤ n) : Safe k a b :=
  fun i j hi hj e => h i j (by omega) (by omega) e

theorem blocks_spec {w n a b : Nat} (f : W → W) (hs : Safe n a b) (k : Nat) :
    ∀ (i : Nat) (m : Mem), i + k * w ≤ n → ∀ p,
      blocks w f a b k i m p = if b + i ≤ p ∧ p < b + i + k * w then f (m (a + (p - b))) else m p := by
  induction k with
  | zero => intro i m _ p; simp only [blocks]; rw [if_neg (by omega)]
  | succ k ih =>
    intro i m hn p
    have hkw : (k + 1) * w = k * w + w := by ring
    rw [hkw] at hn
    simp only [blocks]
    rw [ih (i + w) _ (by omega), hkw]
    by_cases h1 : b + (i + w) ≤ p ∧ p < b + (i + w) + k * w
    · rw [if_pos h1, if_pos (by omega)]
      simp only [block]
      rw [if_neg]
      rintro ⟨h2, h3⟩
      have := hs (p - b) (a + (p - b) - b) (by omega) (by omega) (by omega)
      omega
    · rw [if_neg h1]
      simp only [block]
      by_cases h2 : b + i ≤ p ∧ p < b + i + w
      · rw [if_pos h2, if_pos (by omega)]; congr 2; omega
      · rw [if_neg h2, if_neg (by omega)]

theorem scalars_spec {a b : Nat} (f : W → W) (k : Nat) (hs : Safe k a b) (m : Mem) (p : Nat) :
    scalars f a b k m p = if b ≤ p ∧ p < b + k then f (m (a + (p - b))) else m p := by
  induction k generalizing p with
  | zero => simp only [scalars]; rw [if_neg (by omega)]
  | succ k ih =>
    have ih := ih (hs.mono (Nat.le_succ k))
    simp only [scalars]
    by_cases h : p = b + k
    · subst h
      rw [if_pos rfl, if_pos (by omega), ih, if_neg, show b + k - b = k by omega]
      rintro ⟨h2, h3⟩
      have := hs k (a + k - b) (by omega) (by omega) (by omega)
      omega
    · rw [if_neg h, ih]
      by_cases h2 : b ≤ p ∧ p < b + k
      · rw [if_pos h2, if_pos (by omega)]
      · rw [if_neg h2, if_neg (by omega)]

theorem fixup_spec {a b : Nat} (k : Nat) (hs : Safe k a b) (m : Mem) (p : Nat) :
    fixup a b k m p =
      if b ≤ p ∧ p < b + k ∧ isZero (m (a + (p - b))) = true then negInf else m p := by
  induction k generalizing p with
  | zero => simp only [fixup]; rw [if_neg (by omega)]
  | succ k ih =>
    have ih := ih (hs.mono (Nat.le_succ k))
    simp only [fixup]
    have hr : fixup a b k m (a + k) = m (a + k) := by
      rw [ih, if_neg]
      rintro ⟨h2, h3, -⟩
      have := hs k (a + k - b) (by omega) (by omega) (by omega)
      omega
    rw [hr, ih]
    by_cases h : p = b + k
    · subst h
      rw [show b + k - b = k by omega]
      by_cases hz : isZero (m (a + k)) = true
      · rw [if_pos ⟨rfl, hz⟩, if_pos ⟨by omega, by omega, hz⟩]
      · rw [if_neg (fun c => hz c.2), if_neg (by omega), if_neg (fun c => hz c.2.2)]
    · rw [if_neg (fun c => h c.1)]
      by_cases hz : isZero (m (a + (p - b))) = true
      · by_cases h2 : b ≤ p ∧ p < b + k
        · rw [if_pos ⟨h2.1, h2.2, hz⟩, if_pos ⟨h2.1, by omega, hz⟩]
        · rw [if_neg (fun c => h2 ⟨c.1, c.2.1⟩), if_neg (fun c => h2 ⟨c.1, by omega⟩)]
      · rw [if_neg (fun c => hz c.2.2), if_neg (fun c => hz c.2.2)]

/-- The rest of a slice after whole blocks. -/
theorem tail_split (n w : Nat) : n / w * w + n % w = n := by
  rw [Nat.mul_comm]; exact Nat.div_add_mod n w

/-! ### `Exp32`: what is stored where -/

/-- `Exp32` stores at every position the result for the old element at that position: from the
vector routine in the whole blocks, from `math.Exp` in the rest; nothing else is written.  The
slices may be the same (`Sigmoid`, `Softmax`). -/
theorem exp32_spec (w : Nat) (f scalar : W → W) (x y : Sl) (m : Mem)
    (hy : x.len ≤ y.len) (hs : Safe x.len x.base y.base) :
    ∃ m', exp32 w f scalar x y m = some m' ∧
      (∀ i < x.len, m' (y.base + i) =
        if i < x.len / w * w then f (m (x.base + i)) else scalar (m (x.base + i))) ∧
      (∀ p, (∀ i < x.len, p ≠ y.base + i) → m' p = m p) := by
  have hsp := tail_split x.len w
  have hb := fun p => blocks_spec (w := w) f hs (x.len / w) 0 m (by omega) p
  simp only [Nat.add_zero] at hb
  unfold exp32
  by_cases h0 : x.len = 0
  · rw [if_pos h0]
    exact ⟨m, rfl, fun i hi => by omega, fun p _ => rfl⟩
  rw [if_neg h0, if_neg (by omega)]
  by_cases hm : 0 < x.len % w
  · simp only [hm, if_true]
    have ht : x.len - x.len % w = x.len / w * w := by omega
    have hs' : Safe (x.len % w) (x.base + x.len / w * w) (y.base + x.len / w * w) := by
      intro i j hi hj e
      have := hs (x.len / w * w + i) (x.len / w * w + j) (by omega) (by omega) (by omega)
      omega
    refine ⟨_, rfl, ?_, ?_⟩
    · intro i hi
      rw [ht, scalars_spec scalar _ hs' _]
      by_cases hlt : i < x.len / w * w
      · rw [if_neg (by omega), hb, if_pos (by omega), if_pos hlt]
        congr 2; omega
      · rw [if_pos (by omega), hb, if_neg, if_neg hlt]
        · congr 2; omega
        · rintro ⟨h1, h2⟩
          have := hs i (x.base + i - y.base) hi (by omega) (by omega)
          omega
    · intro p hp
      rw [ht, scalars_spec scalar _ hs' _, if_neg, hb, if_neg]
      · rintro ⟨h1, h2⟩; exact hp (p - y.base) (by omega) (by omega)
      · rintro ⟨h1, h2⟩; exact hp (p - y.base) (by omega) (by omega)
  · simp only [hm, if_false]
    refine ⟨_, rfl, ?_, ?_⟩
    · intro i hi
      rw [hb, if_pos (by omega), if_pos (by omega)]
      congr 2; omega
    · intro p hp
      rw [hb, if_neg]
      rintro ⟨h1, h2⟩; exact hp (p - y.base) (by omega) (by omega)

/-- A short output is refused before anything is written. -/
theorem exp32_short (w : Nat) (f scalar : W → W) (x y : Sl) (m : Mem) (hy : y.len < x.len) :
    exp32 w f scalar x y m = none ∧ log32 w f scalar x y m = none ∧ pureFn scalar x y m = none := by
  unfold exp32 log32 pureFn
  rw [if_neg (by omega), if_pos hy, if_neg (by omega), if_pos hy, if_neg (by omega), if_pos hy]
  exact ⟨rfl, rfl, rfl⟩

/-- The portable function. -/
theorem pureFn_spec (scalar : W → W) (x y : Sl) (m : Mem)
    (hy : x.len ≤ y.len) (hs : Safe x.len x.base y.base) :
    ∃ m', pureFn scalar x y m = some m' ∧
      (∀ i < x.len, m' (y.base + i) = scalar (m (x.base + i))) ∧
      (∀ p, (∀ i < x.len, p ≠ y.base + i) → m' p = m p) := by
  unfold pureFn
  by_cases h0 : x.len = 0
  · rw [if_pos h0]; exact ⟨m, rfl, fun i hi => by omega, fun p _ => rfl⟩
  rw [if_neg h0, if_neg (by omega)]
  refine ⟨_, rfl, ?_, ?_⟩
  · intro i hi
    rw [scalars_spec scalar _ hs, if_pos (by omega)]
    congr 2; omega
  · intro p hp
    rw [scalars_spec scalar _ hs, if_neg]
    rintro ⟨h1, h2⟩; exact hp (p - y.base) (by omega) (by omega)

/-! ### `Log32`: what is stored where -/

/-- Is the element at `i` looked at by the correction of zeros?  Only when there is more than one
block (or a rest), and only up to the start of the last possible block. -/
def fixed (w n i : Nat) : Prop := w < n ∧ i + w ≤ n

theorem log32_spec (w : Nat) (f scalar : W → W) (x y : Sl) (m : Mem)
    (hy : x.len ≤ y.len) (hd : ∀ i j, i < x.len → j < x.len → x.base + i ≠ y.base + j) (hw : 0 < w) :
    ∃ m', log32 w f scalar x y m = some m' ∧
      (∀ i < x.len,
        (i < x.len / w * w → fixed w x.len i → isZero (m (x.base + i)) = true →
          m' (y.base + i) = negInf) ∧
        (i < x.len / w * w → (¬ fixed w x.len i ∨ isZero (m (x.base + i)) = false) →
          m' (y.base + i) = f (m (x.base + i))) ∧
        (x.len / w * w ≤ i → m' (y.base + i) = scalar (m (x.base + i)))) ∧
      (∀ p, (∀ i < x.len, p ≠ y.base + i) → m' p = m p) := by
  have hs : Safe x.len x.base y.base := fun i j hi hj e => absurd e (hd i j hi hj)
  have hsp := tail_split x.len w
  have hb := fun p => blocks_spec (w := w) f hs (x.len / w) 0 m (by omega) p
  simp only [Nat.add_zero] at hb
  have hbx : ∀ i < x.len, blocks w f x.base y.base (x.len / w) 0 m (x.base + i) = m (x.base + i) := by
    intro i hi
    rw [hb, if_neg]
    rintro ⟨h1, h2⟩
    exact hd i (x.base + i - y.base) hi (by omega) (by omega)
  -- the memory after the correction of zeros
  obtain ⟨g, hg, hg1, hg2, hg3, hg4⟩ : ∃ g : Mem,
      (if (0:Int) < (x.len : Int) - w then
        fixup x.base y.base (((x.len : Int) - w).toNat + 1) (blocks w f x.base y.base (x.len / w) 0 m)
       else blocks w f x.base y.base (x.len / w) 0 m) = g ∧
      (∀ i < x.len, i < x.len / w * w → fixed w x.len i → isZero (m (x.base + i)) = true →
          g (y.base + i) = negInf) ∧
      (∀ i < x.len, i < x.len / w * w → (¬ fixed w x.len i ∨ isZero (m (x.base + i)) = false) →
          g (y.base + i) = f (m (x.base + i))) ∧
      (∀ i < x.len, g (x.base + i) = m (x.base + i)) ∧
      (∀ p, (∀ i < x.len, p ≠ y.base + i) → g p = m p) := by
    refine ⟨_, rfl, ?_⟩
    by_cases hmx : (0:Int) < (x.len : Int) - w
    · simp only [hmx, if_true]
      have hK : ((x.len : Int) - w).toNat + 1 = x.len - w + 1 := by omega
      rw [hK]
      have hfx := fun p => fixup_spec (x.len - w + 1) (hs.mono (by omega))
        (blocks w f x.base y.base (x.len / w) 0 m) p
      refine ⟨?_, ?_, ?_, ?_⟩
      · intro i hi _ hf hz
        rw [hfx, if_pos]
        obtain ⟨_, h2⟩ := hf
        refine ⟨by omega, by omega, ?_⟩
        rw [show y.base + i - y.base = i by omega, hbx i hi]; exact hz
      · intro i hi hl hc
        rw [hfx, if_neg, hb, if_pos (by omega)]
        · congr 2; omega
        · rintro ⟨h1, h2, h3⟩
          rw [show y.base + i - y.base = i by omega, hbx i hi] at h3
          rcases hc with hc | hc
          · exact hc ⟨by omega, by omega⟩
          · rw [hc] at h3; exact absurd h3 (by decide)
      · intro i hi
        rw [hfx, if_neg, hbx i hi]
        rintro ⟨h1, h2, -⟩
        exact hd i (x.base + i - y.base) hi (by omega) (by omega)
      · intro p hp
        rw [hfx, if_neg, hb, if_neg]
        · rintro ⟨h1, h2⟩; exact hp (p - y.base) (by omega) (by omega)
        · rintro ⟨h1, h2, -⟩; exact hp (p - y.base) (by omega) (by omega)
    · simp only [hmx, if_false]
      refine ⟨?_, ?_, hbx, ?_⟩
      · intro i hi _ hf
        obtain ⟨h1, _⟩ := hf; omega
      · intro i hi hl _
        rw [hb, if_pos (by omega)]
        congr 2; omega
      · intro p hp
        rw [hb, if_neg]
        rintro ⟨h1, h2⟩; exact hp (p - y.base) (by omega) (by omega)
  unfold log32
  by_cases h0 : x.len = 0
  · rw [if_pos h0]
    exact ⟨m, rfl, fun i hi => by omega, fun p _ => rfl⟩
  rw [if_neg h0, if_neg (by omega)]
  simp only [hg]
  by_cases hm : 0 < x.len % w
  · simp only [hm, if_true]
    have ht : x.len - x.len % w = x.len / w * w := by omega
    have hs' : Safe (x.len % w) (x.base + x.len / w * w) (y.base + x.len / w * w) := by
      intro i j hi hj e
      have := hs (x.len / w * w + i) (x.len / w * w + j) (by omega) (by omega) (by omega)
      omega
    have hsc := fun p => scalars_spec scalar _ hs' g p
    refine ⟨_, rfl, ?_, ?_⟩
    · intro i hi
      rw [ht]
      refine ⟨?_, ?_, ?_⟩
      · intro hl hf hz
        rw [hsc, if_neg (by omega), hg1 i hi hl hf hz]
      · intro hl hc
        rw [hsc, if_neg (by omega), hg2 i hi hl hc]
      · intro hl
        rw [hsc, if_pos (by omega),
          show x.base + x.len / w * w + (y.base + i - (y.base + x.len / w * w)) = x.base + i by omega,
          hg3 i hi]
    · intro p hp
      rw [ht, hsc, if_neg, hg4 p hp]
      rintro ⟨h1, h2⟩; exact hp (p - y.base) (by omega) (by omega)
  · simp only [hm, if_false]
    refine ⟨_, rfl, ?_, hg4⟩
    intro i hi
    exact ⟨hg1 i hi, hg2 i hi, fun hl => by omega⟩

/-! ### The lanes -/


/-- The value of a register in terms of the input. -/
inductive Ex
  | x
  | junk (n : Nat)
  | c (w : W)
  | o2 (op : Op2) (a b : Ex)
  | o1 (op : Op1) (a : Ex)
  deriving DecidableEq

def Ex.eval (fp : Fp) (j : Lane) (v : W) : Ex → W
  | .x => v
  | .junk n => j.get n
  | .c w => w
  | .o2 op a b => op.eval fp (a.eval fp j v) (b.eval fp j v)
  | .o1 op a => op.eval fp (a.eval fp j v)

structure SLane where
  r0 : Ex
  r1 : Ex
  r2 : Ex
  r3 : Ex
  r4 : Ex
  r5 : Ex
  r6 : Ex

def SLane.get (l : SLane) : Nat → Ex
  | 0 => l.r0 | 1 => l.r1 | 2 => l.r2 | 3 => l.r3 | 4 => l.r4 | 5 => l.r5 | _ => l.r6

def SLane.set (l : SLane) (d : Nat) (v : Ex) : SLane :=
  match d with
  | 0 => { l with r0 := v } | 1 => { l with r1 := v } | 2 => { l with r2 := v }
  | 3 => { l with r3 := v } | 4 => { l with r4 := v } | 5 => { l with r5 := v }
  | _ => { l with r6 := v }

def Src.sget (l : SLane) : Src → Ex
  | .r n => l.get n
  | .c w => .c w

def sstep (l : SLane) : LIns → SLane
  | .mov s d => l.set d (s.sget l)
  | .v3 op a b d => l.set d (.o2 op (l.get b) (l.get a))
  | .v2 op a d => l.set d (.o2 op (l.get d) (a.sget l))
  | .v1 op s d => l.set d (.o1 op (l.get s))

def SLane.start : SLane := ⟨.x, .junk 1, .junk 2, .junk 3, .junk 4, .junk 5, .junk 6⟩

def sym (p : List LIns) : Ex := (p.foldl sstep SLane.start).get 0

def SLane.evals (fp : Fp) (j : Lane) (v : W) (l : SLane) : Lane :=
  ⟨l.r0.eval fp j v, l.r1.eval fp j v, l.r2.eval fp j v, l.r3.eval fp j v, l.r4.eval fp j v,
   l.r5.eval fp j v, l.r6.eval fp j v⟩

theorem evals_get (fp : Fp) (j : Lane) (v : W) (l : SLane) (n : Nat) :
    (l.evals fp j v).get n = (l.get n).eval fp j v := by
  match n with
  | 0 | 1 | 2 | 3 | 4 | 5 => rfl
  | n + 6 => rfl

theorem evals_set (fp : Fp) (j : Lane) (v : W) (l : SLane) (n : Nat) (e : Ex) :
    (l.evals fp j v).set n (e.eval fp j v) = (l.set n e).evals fp j v := by
  match n with
  | 0 | 1 | 2 | 3 | 4 | 5 => rfl
  | n + 6 => rfl

theorem evals_sget (fp : Fp) (j : Lane) (v : W) (l : SLane) (s : Src) :
    s.get (l.evals fp j v) = (s.sget l).eval fp j v := by
  cases s
  · exact evals_get ..
  · rfl

theorem evals_step (fp : Fp) (j : Lane) (v : W) (l : SLane) (i : LIns) :
    step fp (l.evals fp j v) i = (sstep l i).evals fp j v := by
  cases i with
  | mov s d => simp only [step, sstep, evals_sget, evals_set]
  | v3 op a b d => simp only [step, sstep, evals_get]; exact evals_set fp j v l d (.o2 op _ _)
  | v2 op a d => simp only [step, sstep, evals_get, evals_sget]; exact evals_set fp j v l d (.o2 op _ _)
  | v1 op s d => simp only [step, sstep, evals_get]; exact evals_set fp j v l d (.o1 op _)

theorem evals_exec (fp : Fp) (j : Lane) (v : W) (p : List LIns) (l : SLane) :
    exec fp p (l.evals fp j v) = (p.foldl sstep l).evals fp j v := by
  induction p generalizing l with
  | nil => rfl
  | cons i p ih =>
    simp only [exec, List.foldl_cons] at ih ⊢
    rw [evals_step, ih]

/-- The stored value is the value of the expression of the program. -/
theorem lane_sym (fp : Fp) (p : List LIns) (j : Lane) (v : W) :
    lane fp p j v = (sym p).eval fp j v := by
  have : j.set 0 v = SLane.start.evals fp j v := rfl
  rw [lane, this, evals_exec, evals_get, sym]

def Ex.clean : Ex → Bool
  | .junk _ => false
  | .o2 _ a b => a.clean && b.clean
  | .o1 _ a => a.clean
  | _ => true

theorem Ex.eval_clean (fp : Fp) (j j' : Lane) (v : W) (e : Ex) (h : e.clean = true) :
    e.eval fp j v = e.eval fp j' v := by
  induction e with
  | x => rfl
  | c => rfl
  | junk => simp [Ex.clean] at h
  | o2 op a b iha ihb =>
    simp only [Ex.clean, Bool.and_eq_true] at h
    simp only [Ex.eval, iha h.1, ihb h.2]
  | o1 op a ih => simp only [Ex.clean] at h; simp only [Ex.eval, ih h]

/-- Equality up to swapping the operands of commutative operations. -/
def Ex.ceq : Ex → Ex → Bool
  | .o2 op a b, .o2 op' a' b' =>
    (op == op') && ((a.ceq a' && b.ceq b') ||
      ((op == .add || op == .mul || op == .and || op == .or) && a.ceq b' && b.ceq a'))
  | .o1 op a, .o1 op' a' => op == op' && a.ceq a'
  | .x, .x => true
  | .c w, .c w' => w == w'
  | .junk n, .junk n' => n == n'
  | _, _ => false

theorem Ex.ceq_sound (fp : Fp) (ha : ∀ x y, fp.add x y = fp.add y x)
    (hm : ∀ x y, fp.mul x y = fp.mul y x) (j : Lane) (v : W) (e e' : Ex) (h : e.ceq e' = true) :
    e.eval fp j v = e'.eval fp j v := by
  induction e generalizing e' with
  | x => cases e' <;> simp [Ex.ceq] at h; rfl
  | c => cases e' <;> simp [Ex.ceq] at h; rw [h]
  | junk => cases e' <;> simp [Ex.ceq] at h; rw [h]
  | o1 op a ih =>
    cases e' <;> simp [Ex.ceq] at h
    obtain ⟨rfl, h⟩ := h
    simp only [Ex.eval, ih _ h]
  | o2 op a b iha ihb =>
    cases e' <;> simp [Ex.ceq] at h
    obtain ⟨rfl, h | ⟨⟨h1, h2⟩, h3⟩⟩ := h
    · simp only [Ex.eval, iha _ h.1, ihb _ h.2]
    · simp only [Ex.eval, iha _ h2, ihb _ h3]
      rcases h1 with ((rfl | rfl) | rfl) | rfl
      · exact ha ..
      · exact hm ..
      · exact BitVec.and_comm ..
      · exact BitVec.or_comm ..

/-- What a routine stores does not depend on what the registers held before. -/
theorem lane_junk (fp : Fp) (j j' : Lane) (x : W) :
    ∀ p ∈ [expAVX, expSSE, logAVX, logSSE], lane fp p j x = lane fp p j' x := by
  intro p hp
  rw [lane_sym, lane_sym]
  apply Ex.eval_clean
  have : ∀ p ∈ [expAVX, expSSE, logAVX, logSSE], (sym p).clean = true := by decide +kernel
  exact this p hp

/-- `LogAVX32` and `LogSSE32` give the same bits on every input (addition and multiplication
being commutative), so the result does not depend on the processor. -/
theorem log_avx_eq_sse (fp : Fp) (ha : ∀ x y, fp.add x y = fp.add y x)
    (hm : ∀ x y, fp.mul x y = fp.mul y x) (j j' : Lane) (x : W) :
    lane fp logAVX j x = lane fp logSSE j' x := by
  rw [lane_junk fp j j' x logAVX (by simp), lane_sym, lane_sym]
  apply Ex.ceq_sound fp ha hm
  decide +kernel

theorem exec_split (fp : Fp) (k : Nat) (p : List LIns) (l : Lane) :
    exec fp p l = exec fp (p.drop k) (exec fp (p.take k) l) := by
  rw [exec, exec, exec, ← List.foldl_append, List.take_append_drop]

/-- The input of the exponential after clamping, divided by log 2, plus one half. -/
def scaled (fp : Fp) (x : W) : W :=
  fp.add (fp.mul (maxps (minps x 0x42b0c0a5) 0xc2b0c0a5) 0x3fb8aa3b) 0x3f000000

/-- The same as `ExpSSE32` computes it. -/
def scaled' (fp : Fp) (x : W) : W :=
  fp.add (fp.mul 0x3fb8aa3b (maxps (minps x 0x42b0c0a5) 0xc2b0c0a5)) 0x3f000000

/-- One less if the number is below the given integral number. -/
def lower (fp : Fp) (v r : W) : W := fp.sub r (mask (lt v r) &&& 0x3f800000)

/-- `ExpAVX32` and `ExpSSE32` give the same bits when the two ways to take the integral part
downwards agree on the scaled input. -/
theorem exp_avx_eq_sse (fp : Fp) (ha : ∀ x y, fp.add x y = fp.add y x)
    (hm : ∀ x y, fp.mul x y = fp.mul y x) (j j' : Lane) (x : W)
    (hfl : lower fp (scaled fp x) (fp.floor (scaled fp x)) =
      lower fp (scaled fp x) (fp.ofInt (fp.trunc (scaled fp x)))) :
    lane fp expAVX j x = lane fp expSSE j' x := by
  let x' := maxps (minps x 0x42b0c0a5) 0xc2b0c0a5
  let n := lower fp (scaled fp x) (fp.floor (scaled fp x))
  have hsc : scaled' fp x = scaled fp x := by unfold scaled scaled'; rw [hm]
  let l : Lane := ⟨0, n, 0, fp.floor (scaled fp x),
    mask (lt (scaled fp x) (fp.ofInt (fp.trunc (scaled fp x)))) &&& 0x3f800000, 0, 0⟩
  let s1 : SLane := ⟨.x, .junk 1, .c 0x3f000000, .junk 3, .c 0x3f800000, .c 0, .c 0⟩
  let s2 : SLane := ⟨.x, .junk 1, .c 0x3f000000, .c 0x3f800000, .junk 4, .c 0, .c 0⟩
  rw [lane_junk fp j ⟨0, 0, 0, 0, 0, 0, 0⟩ x expAVX (by simp),
    lane_junk fp j' ⟨0, 0, 0, 0, 0, 0, 0⟩ x expSSE (by simp)]
  have h1 : exec fp (expAVX.take 13) (Lane.set ⟨0, 0, 0, 0, 0, 0, 0⟩ 0 x) = s1.evals fp l x' := rfl
  have h2 : exec fp (expSSE.take 12) (Lane.set ⟨0, 0, 0, 0, 0, 0, 0⟩ 0 x) = s2.evals fp l x' := by
    have : exec fp (expSSE.take 12) (Lane.set ⟨0, 0, 0, 0, 0, 0, 0⟩ 0 x) =
      ⟨x', lower fp (scaled' fp x) (fp.ofInt (fp.trunc (scaled' fp x))), 0x3f000000, 0x3f800000,
        mask (lt (scaled' fp x) (fp.ofInt (fp.trunc (scaled' fp x)))) &&& 0x3f800000, 0, 0⟩ := rfl
    rw [this, hsc, ← hfl]; rfl
  rw [lane, lane, exec_split fp 13 expAVX, exec_split fp 12 expSSE, h1, h2, evals_exec, evals_exec,
    evals_get, evals_get]
  apply Ex.ceq_sound fp ha hm
  decide +kernel

/-- The condition holds, for instance, for the inputs 1, −1, 0.3, −50, NaN and ±Inf. -/
example : ([0x3f800000, 0xbf800000, 0x3e99999a, 0xc2480000, 0x7fc00000, posInf, negInf].all fun x =>
    lower ieee (scaled ieee x) (ieee.floor (scaled ieee x)) ==
      lower ieee (scaled ieee x) (ieee.ofInt (ieee.trunc (scaled ieee x)))) = true := by decide +kernel

/-! ### Special values -/

theorem lane_prefix (fp : Fp) (k : Nat) (p : List LIns) (j : Lane) (x x' : W)
    (h : exec fp (p.take k) (j.set 0 x) = exec fp (p.take k) (j.set 0 x')) :
    lane fp p j x = lane fp p j x' := by
  rw [lane, lane, exec_split fp k p, exec_split fp k p, h]

/-- Above the clamp of the exponential: 88.37626. -/
def expHi : W := 0x42b0c0a5

/-- The smallest normal number. -/
def minNormal : W := 0x00800000

theorem minps_hi (x : W) (h : isNaN x = true ∨ lt expHi x = true) : minps x expHi = expHi := by
  unfold minps
  have : lt x expHi = false := by
    rcases h with h | h
    · simp [lt, h]
    · simp only [lt, Bool.and_eq_true, decide_eq_true_eq] at h
      simp only [lt, Bool.and_eq_false_iff, decide_eq_false_iff_not]
      right; omega
  rw [this]; rfl

/-- **The vector exponential loses NaN**: on a NaN, and on everything above 88.38 including +Inf, it
gives what it gives for 88.38. -/
theorem exp_lane_nan (fp : Fp) (j : Lane) (x : W) (h : isNaN x = true ∨ lt expHi x = true) :
    lane fp expAVX j x = lane fp expAVX j expHi ∧ lane fp expSSE j x = lane fp expSSE j expHi := by
  have e := minps_hi x h
  have e' : minps expHi expHi = expHi := by decide +kernel
  constructor
  · apply lane_prefix fp 2
    show (⟨minps x expHi, _, _, _, _, _, _⟩ : Lane) = ⟨minps expHi expHi, _, _, _, _, _, _⟩
    rw [e, e']; rfl
  · apply lane_prefix fp 1
    show (⟨minps x expHi, _, _, _, _, _, _⟩ : Lane) = ⟨minps expHi expHi, _, _, _, _, _, _⟩
    rw [e, e']; rfl

/-- With IEEE arithmetic that is a finite number, about 2.4e38. -/
theorem exp_lane_hi_ieee (j : Lane) :
    lane ieee expAVX j expHi = 0x7f3504a4 ∧ lane ieee expSSE j expHi = 0x7f3504a4 := by
  rw [lane_junk ieee j ⟨0, 0, 0, 0, 0, 0, 0⟩ expHi expAVX (by simp),
    lane_junk ieee j ⟨0, 0, 0, 0, 0, 0, 0⟩ expHi expSSE (by simp)]
  constructor <;> decide +kernel

theorem max_small (x : W) (h : lt minNormal x = false) : maxps x minNormal = minNormal := by
  simp [maxps, h]

/-- **The vector logarithm loses NaN**: on a NaN, and on every positive subnormal number, it gives
what it gives for the smallest normal number. -/
theorem log_lane_nan (fp : Fp) (j : Lane) (x : W) (h1 : le x 0 = false) (h2 : lt minNormal x = false) :
    lane fp logAVX j x = lane fp logAVX j minNormal ∧
    lane fp logSSE j x = lane fp logSSE j minNormal := by
  have e := max_small x h2
  have e' : maxps minNormal minNormal = minNormal := by decide +kernel
  have l' : le minNormal 0 = false := by decide +kernel
  constructor
  · apply lane_prefix fp 4
    show (⟨maxps x minNormal, mask (le x 0), _, _, _, _, _⟩ : Lane) =
      ⟨maxps minNormal minNormal, mask (le minNormal 0), _, _, _, _, _⟩
    rw [e, e', h1, l']; rfl
  · apply lane_prefix fp 4
    show (⟨maxps x minNormal, mask (le x 0), _, _, _, _, _⟩ : Lane) =
      ⟨maxps minNormal minNormal, mask (le minNormal 0), _, _, _, _, _⟩
    rw [e, e', h1, l']; rfl

theorem nan_cmp (x y : W) (h : isNaN x = true) : le x y = false ∧ lt y x = false := by
  simp [le, lt, h]

/-- With IEEE arithmetic that is −87.33654; and the logarithm of +Inf is 88.72284. -/
theorem log_lane_ieee (j : Lane) :
    lane ieee logAVX j minNormal = 0xc2aeac50 ∧ lane ieee logSSE j minNormal = 0xc2aeac50 ∧
    lane ieee logAVX j posInf = 0x42b17218 ∧ lane ieee logSSE j posInf = 0x42b17218 := by
  rw [lane_junk ieee j ⟨0, 0, 0, 0, 0, 0, 0⟩ minNormal logAVX (by simp),
    lane_junk ieee j ⟨0, 0, 0, 0, 0, 0, 0⟩ minNormal logSSE (by simp),
    lane_junk ieee j ⟨0, 0, 0, 0, 0, 0, 0⟩ posInf logAVX (by simp),
    lane_junk ieee j ⟨0, 0, 0, 0, 0, 0, 0⟩ posInf logSSE (by simp)]
  refine ⟨?_, ?_, ?_, ?_⟩ <;> decide +kernel

/-- On zero and negative numbers the vector logarithm is a NaN with all bits set. -/
theorem log_lane_nonpos (fp : Fp) (j : Lane) (x : W) (h : le x 0 = true) :
    lane fp logAVX j x = 0xffffffff ∧ lane fp logSSE j x = 0xffffffff := by
  have or1 : ∀ w : W, 0xffffffff#32 ||| w = 0xffffffff#32 := fun w => BitVec.allOnes_or
  have or2 : ∀ w : W, w ||| 0xffffffff#32 = 0xffffffff#32 := fun w => BitVec.or_allOnes
  constructor
  · obtain ⟨e, he⟩ : ∃ e, sym logAVX = .o2 .or (.o2 .le .x (.c 0)) e := ⟨_, rfl⟩
    rw [lane_sym, he]
    show mask (le x 0) ||| _ = _
    rw [h]; exact or1 _
  · obtain ⟨e, he⟩ : ∃ e, sym logSSE = .o2 .or e (.o2 .le .x (.c 0)) := ⟨_, rfl⟩
    rw [lane_sym, he]
    show _ ||| mask (le x 0) = _
    rw [h]; exact or2 _

theorem zero_nonpos (x : W) (h : isZero x = true) : le x 0 = true := by
  simp only [isZero, Bool.or_eq_true, beq_iff_eq] at h
  rcases h with rfl | rfl <;> decide +kernel

/-- Ordinary values: e^1, e^-1, log 2, log e, bit for bit the correctly rounded results; e^-Inf is
zero. -/
example : lane ieee expAVX ⟨7, 7, 7, 7, 7, 7, 7⟩ 0x3f800000 = 0x402df854 ∧
    lane ieee expSSE ⟨7, 7, 7, 7, 7, 7, 7⟩ 0xbf800000 = 0x3ebc5ab2 ∧
    lane ieee logAVX ⟨7, 7, 7, 7, 7, 7, 7⟩ 0x40000000 = 0x3f317218 ∧
    lane ieee logSSE ⟨7, 7, 7, 7, 7, 7, 7⟩ 0x402df854 = 0x3f800000 ∧
    lane ieee expAVX ⟨7, 7, 7, 7, 7, 7, 7⟩ negInf = 0 := by
  refine ⟨?_, ?_, ?_, ?_, ?_⟩ <;> decide +kernel

/-! ### The property -/

/-- The two exponential and the two logarithm routines with their widths (exp_amd64.go:16-19,33-35,
log_amd64.go:18-20,40-42). -/
def expKernels (fp : Fp) (j : Lane) : List (Nat × (W → W)) :=
  [(8, lane fp expAVX j), (4, lane fp expSSE j)]
def logKernels (fp : Fp) (j : Lane) : List (Nat × (W → W)) :=
  [(8, lane fp logAVX j), (4, lane fp logSSE j)]

/-- Same result as the portable function, when the routine agrees with `math.Exp` on the elements
that occur. -/
theorem exp32_eq_pure_partial (w : Nat) (f scalar : W → W) (x y : Sl) (m : Mem)
    (hy : x.len ≤ y.len) (hs : Safe x.len x.base y.base)
    (hf : ∀ i < x.len, f (m (x.base + i)) = scalar (m (x.base + i))) :
    exp32 w f scalar x y m = pureFn scalar x y m := by
  obtain ⟨m1, e1, h1, k1⟩ := exp32_spec w f scalar x y m hy hs
  obtain ⟨m2, e2, h2, k2⟩ := pureFn_spec scalar x y m hy hs
  rw [e1, e2]
  congr 1
  funext p
  by_cases hp : ∃ i < x.len, p = y.base + i
  · obtain ⟨i, hi, rfl⟩ := hp
    rw [h1 i hi, h2 i hi]
    split_ifs
    · exact hf i hi
    · rfl
  · have hp' : ∀ i < x.len, p ≠ y.base + i := fun i hi e => hp ⟨i, hi, e⟩
    rw [k1 p hp', k2 p hp']

theorem log32_eq_pure_partial (w : Nat) (hw : 0 < w) (f scalar : W → W) (x y : Sl) (m : Mem)
    (hy : x.len ≤ y.len) (hd : ∀ i j, i < x.len → j < x.len → x.base + i ≠ y.base + j)
    (hf : ∀ i < x.len, isZero (m (x.base + i)) = false ∧ f (m (x.base + i)) = scalar (m (x.base + i))) :
    log32 w f scalar x y m = pureFn scalar x y m := by
  obtain ⟨m1, e1, h1, k1⟩ := log32_spec w f scalar x y m hy hd hw
  obtain ⟨m2, e2, h2, k2⟩ := pureFn_spec scalar x y m hy (fun i j hi hj e => absurd e (hd i j hi hj))
  rw [e1, e2]
  congr 1
  funext p
  by_cases hp : ∃ i < x.len, p = y.base + i
  · obtain ⟨i, hi, rfl⟩ := hp
    obtain ⟨_, a2, a3⟩ := h1 i hi
    rw [h2 i hi]
    by_cases hlt : i < x.len / w * w
    · rw [a2 hlt (.inr (hf i hi).1), (hf i hi).2]
    · exact a3 (by omega)
  · have hp' : ∀ i < x.len, p ≠ y.base + i := fun i hi e => hp ⟨i, hi, e⟩
    rw [k1 p hp', k2 p hp']

/-- **The logarithm of zero depends on the length of the vector**: `Log32` stores −Inf for every
zero exactly when there is no whole block, or only one element is missing to the next whole block.
In all other cases some zeros give NaN. -/
theorem log32_zero_iff (fp : Fp) (j : Lane) (wf : Nat × (W → W)) (hwf : wf ∈ logKernels fp j)
    (scalar : W → W) (hsc : ∀ z, isZero z = true → scalar z = negInf) (n : Nat) :
    (∀ (a b : Nat) (m : Mem), (∀ i j, i < n → j < n → a + i ≠ b + j) →
        ∀ m', log32 wf.1 wf.2 scalar ⟨a, n⟩ ⟨b, n⟩ m = some m' →
          ∀ i < n, isZero (m (a + i)) = true → m' (b + i) = negInf)
      ↔ (n < wf.1 ∨ n % wf.1 = wf.1 - 1) := by
  have hz : ∀ z, isZero z = true → wf.2 z = 0xffffffff := by
    intro z hz
    have := log_lane_nonpos fp j z (zero_nonpos z hz)
    simp only [logKernels, List.mem_cons, List.not_mem_nil, or_false] at hwf
    rcases hwf with rfl | rfl
    · exact this.1
    · exact this.2
  have hw : 2 ≤ wf.1 := by
    simp only [logKernels, List.mem_cons, List.not_mem_nil, or_false] at hwf
    rcases hwf with rfl | rfl
    · show 2 ≤ 8; omega
    · show 2 ≤ 4; omega
  obtain ⟨w, f⟩ := wf
  simp only at hz hw ⊢
  have hsp := tail_split n w
  have hmod : n % w < w := Nat.mod_lt _ (by omega)
  constructor
  · intro h
    by_contra hc
    obtain ⟨hc1, hc2⟩ := not_or.mp hc
    -- a position in the blocks that is not corrected
    have hk : 0 < n / w := Nat.div_pos (by omega) (by omega)
    have hkw : w ≤ n / w * w := Nat.le_mul_of_pos_left w hk
    have hpos : n / w * w - 1 < n / w * w ∧ ¬ fixed w n (n / w * w - 1) := by
      refine ⟨by omega, ?_⟩
      rintro ⟨h1, h2⟩
      omega
    obtain ⟨m', e, g, _⟩ := log32_spec w f scalar ⟨0, n⟩ ⟨n, n⟩ (fun _ => 0) (Nat.le_refl _)
      (fun i j hi hj => by simp only at hi hj ⊢; omega) (by omega)
    have hz0 : isZero ((fun _ => 0 : Mem) (0 + (n / w * w - 1))) = true := rfl
    have := h 0 n (fun _ => 0) (fun i j hi hj => by omega) m' e (n / w * w - 1) (by omega) hz0
    have g2 := (g (n / w * w - 1) (by simp only; omega)).2.1 hpos.1 (.inl hpos.2)
    simp only at g2
    rw [this, hz 0 rfl] at g2
    exact absurd g2 (by decide)
  · intro hc a b m hd m' e i hi hzi
    obtain ⟨m1, e1, g, _⟩ := log32_spec w f scalar ⟨a, n⟩ ⟨b, n⟩ m (Nat.le_refl _) hd (by omega)
    rw [e] at e1
    obtain rfl := Option.some.inj e1
    obtain ⟨a1, _, a3⟩ := g i hi
    simp only at a1 a3
    by_cases hlt : i < n / w * w
    · apply a1 hlt ?_ hzi
      rcases hc with hc | hc
      · rw [Nat.div_eq_of_lt hc] at hlt; omega
      · have : w < n := by
          rcases Nat.lt_or_ge w n with h | h
          · exact h
          · exfalso
            rcases Nat.lt_or_ge n w with h' | h'
            · rw [Nat.div_eq_of_lt h'] at hlt; omega
            · have : n = w := by omega
              subst this; rw [Nat.mod_self] at hc; omega
        exact ⟨this, by omega⟩
    · rw [a3 (by omega), hsc _ hzi]

/-- Both cases occur: 7 and 15 elements are all right, 8 and 16 are not. -/
example : (7 < 8 ∨ 7 % 8 = 8 - 1) ∧ (15 < 8 ∨ 15 % 8 = 8 - 1) ∧ ¬ (8 < 8 ∨ 8 % 8 = 8 - 1) ∧
    ¬ (16 < 8 ∨ 16 % 8 = 8 - 1) := by decide

/-- **Where a NaN stands decides whether it is noticed.**  In every vector with a whole block and a
rest, `Exp32` of all NaN has a finite first and a NaN last element, and so has `Log32`. -/
theorem nan_by_position (j : Lane) (n : Nat) (scalar : W → W)
    (hsc : ∀ z, isNaN z = true → isNaN (scalar z) = true) :
    (∀ wf ∈ expKernels ieee j, wf.1 ≤ n → n % wf.1 ≠ 0 → ∀ nan, isNaN nan = true →
      ∃ m', exp32 wf.1 wf.2 scalar ⟨0, n⟩ ⟨n, n⟩ (fun _ => nan) = some m' ∧
        m' n = 0x7f3504a4 ∧ isNaN (m' (n + (n - 1))) = true) ∧
    (∀ wf ∈ logKernels ieee j, wf.1 ≤ n → n % wf.1 ≠ 0 → ∀ nan, isNaN nan = true →
      ∃ m', log32 wf.1 wf.2 scalar ⟨0, n⟩ ⟨n, n⟩ (fun _ => nan) = some m' ∧
        m' n = 0xc2aeac50 ∧ isNaN (m' (n + (n - 1))) = true) := by
  constructor
  · intro wf hwf hn hmod nan hnan
    have hw : 0 < wf.1 ∧ wf.2 nan = 0x7f3504a4 := by
      have h1 := exp_lane_nan ieee j nan (.inl hnan)
      have h2 := exp_lane_hi_ieee j
      simp only [expKernels, List.mem_cons, List.not_mem_nil, or_false] at hwf
      rcases hwf with rfl | rfl
      · exact ⟨by show 0 < 8; omega, h1.1.trans h2.1⟩
      · exact ⟨by show 0 < 4; omega, h1.2.trans h2.2⟩
    have hsp := tail_split n wf.1
    have hk : 0 < n / wf.1 := Nat.div_pos hn hw.1
    have hkw : wf.1 ≤ n / wf.1 * wf.1 := Nat.le_mul_of_pos_left _ hk
    obtain ⟨m', e, g, _⟩ := exp32_spec wf.1 wf.2 scalar ⟨0, n⟩ ⟨n, n⟩ (fun _ => nan) (Nat.le_refl _)
      (fun i j hi hj => by simp only at hi hj ⊢; omega)
    refine ⟨m', e, ?_, ?_⟩
    · have := g 0 (by simp only; omega)
      simp only [Nat.add_zero] at this
      rw [this, if_pos (by omega)]; exact hw.2
    · have := g (n - 1) (by simp only; omega)
      simp only at this
      rw [this, if_neg (by omega)]; exact hsc _ hnan
  · intro wf hwf hn hmod nan hnan
    have hw : 0 < wf.1 ∧ wf.2 nan = 0xc2aeac50 := by
      have h1 := log_lane_nan ieee j nan (nan_cmp nan 0 hnan).1 (nan_cmp nan minNormal hnan).2
      have h2 := log_lane_ieee j
      simp only [logKernels, List.mem_cons, List.not_mem_nil, or_false] at hwf
      rcases hwf with rfl | rfl
      · exact ⟨by show 0 < 8; omega, h1.1.trans h2.1⟩
      · exact ⟨by show 0 < 4; omega, h1.2.trans h2.2.1⟩
    have hz : isZero nan = false := by
      rw [Bool.eq_false_iff]
      intro h
      have := zero_nonpos nan h
      rw [(nan_cmp nan 0 hnan).1] at this
      exact absurd this (by decide)
    have hsp := tail_split n wf.1
    have hk : 0 < n / wf.1 := Nat.div_pos hn hw.1
    have hkw : wf.1 ≤ n / wf.1 * wf.1 := Nat.le_mul_of_pos_left _ hk
    obtain ⟨m', e, g, _⟩ := log32_spec wf.1 wf.2 scalar ⟨0, n⟩ ⟨n, n⟩ (fun _ => nan) (Nat.le_refl _)
      (fun i j hi hj => by simp only at hi hj ⊢; omega) hw.1
    refine ⟨m', e, ?_, ?_⟩
    · have := (g 0 (by simp only; omega)).2.1 (by simp only; omega) (.inr hz)
      simp only [Nat.add_zero] at this
      rw [this]; exact hw.2
    · have := (g (n - 1) (by simp only; omega)).2.2 (by simp only; omega)
      simp only at this
      rw [this]; exact hsc _ hnan

end Verif.ExpLog
