import Verif.Lemmas.AsmRel
import Verif.Props.AsmKernels
import Verif.Spec.Rounding
import Verif.Lemmas.Nearest
import Mathlib.Algebra.Polynomial.Eval.Degree
import Mathlib.Algebra.Polynomial.Degree.Operations
import Mathlib.Algebra.Ring.Prod
import Mathlib.Tactic.Linarith
import Mathlib.Tactic.Ring
import Mathlib.Tactic.Positivity

set_option autoImplicit false
set_option linter.unusedSimpArgs false
set_option maxRecDepth 10000

/-!
# C79: rounding errors of sums and dot products
-/

namespace Verif.Asm
open Verif.Spec Verif.Spec.Kernels Polynomial

variable {u : ℝ}

/-- The arithmetic of a processor: every operation is rounded once. -/
noncomputable def fl (ρ : Rounding u) : Alu ℝ where
  zero := 0
  op
    | .add, a, b => ρ.rd (a + b)
    | .sub, a, b => ρ.rd (a - b)
    | .mul, a, b => ρ.rd (a * b)
    | .div, a, b => ρ.rd (a / b)
  fma a b c := ρ.rd (a * b + c)

theorem rd_zero (ρ : Rounding u) : ρ.rd 0 = 0 := by
  have := ρ.err 0
  simp only [sub_zero, abs_zero, mul_zero] at this
  exact abs_eq_zero.mp (le_antisymm this (abs_nonneg _))

theorem growth_nonneg (hu : 0 ≤ u) (n : Nat) : 0 ≤ growth u n := by
  unfold growth
  linarith [one_le_pow₀ (show (1 : ℝ) ≤ 1 + u by linarith) (n := n)]

theorem growth_mono (hu : 0 ≤ u) {m n : Nat} (h : m ≤ n) : growth u m ≤ growth u n := by
  unfold growth
  linarith [pow_le_pow_right₀ (show (1 : ℝ) ≤ 1 + u by linarith) h]

theorem growth_zero : growth u 0 = 0 := by simp [growth]

/-- One more rounding. -/
theorem rd_step (hu : 0 ≤ u) (ρ : Rounding u) {a v A : ℝ} {n : Nat} (hv : |v| ≤ A) (h : |a - v| ≤ growth u n * A) :
    |ρ.rd a - v| ≤ growth u (n + 1) * A := by
  have h1 := ρ.err a
  have h2 : |a| ≤ |v| + |a - v| := by
    have := abs_add_le v (a - v); rwa [add_sub_cancel] at this
  have h3 : |ρ.rd a - v| ≤ |ρ.rd a - a| + |a - v| := abs_sub_le _ _ _
  have h4 : u * |a| ≤ u * (A + growth u n * A) := mul_le_mul_of_nonneg_left (by linarith) hu
  have h5 : growth u (n + 1) * A = u * (A + growth u n * A) + growth u n * A := by
    unfold growth; ring
  rw [h5]; linarith

theorem mul_step (hu : 0 ≤ u) {a b v w A B : ℝ} {m n : Nat} (hv : |v| ≤ A) (hw : |w| ≤ B)
    (ha : |a - v| ≤ growth u m * A) (hb : |b - w| ≤ growth u n * B) :
    |a * b - v * w| ≤ growth u (m + n) * (A * B) := by
  have hA : 0 ≤ A := (abs_nonneg v).trans hv
  have hB : 0 ≤ B := (abs_nonneg w).trans hw
  have gm := growth_nonneg hu m
  have gn := growth_nonneg hu n
  have e : a * b - v * w = (a - v) * (b - w) + (a - v) * w + v * (b - w) := by ring
  have h1 : |(a - v) * (b - w)| ≤ (growth u m * A) * (growth u n * B) := by
    rw [abs_mul]; exact mul_le_mul ha hb (abs_nonneg _) (mul_nonneg gm hA)
  have h2 : |(a - v) * w| ≤ (growth u m * A) * B := by
    rw [abs_mul]; exact mul_le_mul ha hw (abs_nonneg _) (mul_nonneg gm hA)
  have h3 : |v * (b - w)| ≤ A * (growth u n * B) := by
    rw [abs_mul]; exact mul_le_mul hv hb (abs_nonneg _) hA
  have h4 : growth u (m + n) * (A * B) =
      (growth u m * A) * (growth u n * B) + (growth u m * A) * B + A * (growth u n * B) := by
    unfold growth; rw [pow_add]; ring
  rw [e, h4]
  exact (abs_add_le _ _).trans (add_le_add ((abs_add_le _ _).trans (add_le_add h1 h2)) h3)

/-! ## The exact run beside the rounded one

The exact run computes with triples: the exact value, the sum of the absolute values of its terms, and a polynomial that
counts the terms by their degree. -/

/-- Elements of the exact run. -/
abbrev Trace := ℝ × ℝ × ℕ[X]

/-- How many roundings the value can have seen: one for every addition of terms and one for every multiplication. -/
noncomputable def steps (p : ℕ[X]) : Nat := p.eval 1 + p.natDegree - 2

theorem eval_pos {p : ℕ[X]} (h : p ≠ 0) : 1 ≤ p.eval 1 := by
  have h1 : p.coeff p.natDegree ≠ 0 := by
    rw [coeff_natDegree]; exact leadingCoeff_ne_zero.mpr h
  rw [eval_eq_sum_range]
  simp only [one_pow, mul_one]
  exact (Nat.one_le_iff_ne_zero.mpr h1).trans
    (Finset.single_le_sum (f := fun i => p.coeff i) (fun _ _ => Nat.zero_le _) (Finset.self_mem_range_succ _))

theorem natDegree_le_add (p q : ℕ[X]) : p.natDegree ≤ (p + q).natDegree := by
  by_cases h : p = 0
  · simp [h]
  · apply le_natDegree_of_ne_zero
    rw [coeff_add]
    have h1 : p.coeff p.natDegree ≠ 0 := by
      rw [coeff_natDegree]; exact leadingCoeff_ne_zero.mpr h
    omega

theorem add_ne_zero_left {p : ℕ[X]} (q : ℕ[X]) (h : p ≠ 0) : p + q ≠ 0 := by
  intro e
  have := congrArg (eval 1) e
  rw [eval_add, eval_zero] at this
  have := eval_pos h
  omega

/-- The rounded value `a` belongs to the exact value `b.1`. -/
def Follows (ρ : Rounding u) (b : Trace) (a : ℝ) : Prop :=
  (b = 0 ∧ a = 0) ∨
  (b.2.2 ≠ 0 ∧ 1 ≤ b.2.2.natDegree ∧ ρ.Fits a ∧ |b.1| ≤ b.2.1 ∧ |a - b.1| ≤ growth u (steps b.2.2) * b.2.1)

/-- An element read from memory. -/
noncomputable def leaf (a : ℝ) : Trace := (a, |a|, X)

theorem leaf_follows (ρ : Rounding u) {a : ℝ} (h : ρ.Fits a) : Follows ρ (leaf a) a := by
  refine .inr ⟨X_ne_zero, by simp [leaf], h, le_rfl, ?_⟩
  simp [leaf, steps, growth_zero]

theorem add_follows (hu : 0 ≤ u) (ρ : Rounding u) {b b' : Trace} {a a' : ℝ} (h : Follows ρ b a) (h' : Follows ρ b' a') :
    Follows ρ (b + b') (ρ.rd (a + a')) := by
  rcases h with ⟨rfl, rfl⟩ | ⟨h1, h2, h3, h4, h5⟩
  · rcases h' with ⟨rfl, rfl⟩ | ⟨h1', h2', h3', h4', h5'⟩
    · left; simp [rd_zero]
    · right; rw [zero_add, zero_add, show ρ.rd a' = a' from h3']; exact ⟨h1', h2', h3', h4', h5'⟩
  · rcases h' with ⟨rfl, rfl⟩ | ⟨h1', h2', h3', h4', h5'⟩
    · right; rw [add_zero, add_zero, show ρ.rd a = a from h3]; exact ⟨h1, h2, h3, h4, h5⟩
    · right
      have c1 := eval_pos h1
      have c2 := eval_pos h1'
      have d1 := natDegree_le_add b.2.2 b'.2.2
      have d2 := natDegree_le_add b'.2.2 b.2.2
      rw [add_comm] at d2
      have hA : 0 ≤ b.2.1 := (abs_nonneg _).trans h4
      have hA' : 0 ≤ b'.2.1 := (abs_nonneg _).trans h4'
      have hs : max (steps b.2.2) (steps b'.2.2) + 1 ≤ steps (b.2.2 + b'.2.2) := by
        unfold steps
        rw [eval_add]
        omega
      refine ⟨add_ne_zero_left _ h1, by simp only [Prod.snd_add]; omega, ρ.idem _, ?_, ?_⟩
      · exact (abs_add_le _ _).trans (add_le_add h4 h4')
      · have hv : |b.1 + b'.1| ≤ b.2.1 + b'.2.1 := (abs_add_le _ _).trans (add_le_add h4 h4')
        have hex : |a + a' - (b.1 + b'.1)| ≤ growth u (max (steps b.2.2) (steps b'.2.2)) * (b.2.1 + b'.2.1) := by
          have e : a + a' - (b.1 + b'.1) = (a - b.1) + (a' - b'.1) := by ring
          rw [e, mul_add]
          refine (abs_add_le _ _).trans (add_le_add (h5.trans ?_) (h5'.trans ?_))
          · exact mul_le_mul_of_nonneg_right (growth_mono hu (le_max_left _ _)) hA
          · exact mul_le_mul_of_nonneg_right (growth_mono hu (le_max_right _ _)) hA'
        exact (rd_step hu ρ hv hex).trans (mul_le_mul_of_nonneg_right (growth_mono hu hs) (add_nonneg hA hA'))

theorem steps_mul {p q : ℕ[X]} (hp : p ≠ 0) (hq : q ≠ 0) (dp : 1 ≤ p.natDegree) (dq : 1 ≤ q.natDegree) :
    steps p + steps q + 1 ≤ steps (p * q) := by
  have c1 := eval_pos hp
  have c2 := eval_pos hq
  unfold steps
  rw [eval_mul, natDegree_mul hp hq]
  have : p.eval 1 + q.eval 1 ≤ p.eval 1 * q.eval 1 + 1 := by
    obtain ⟨x, hx⟩ := Nat.exists_eq_add_of_le c1
    obtain ⟨y, hy⟩ := Nat.exists_eq_add_of_le c2
    rw [hx, hy]; nlinarith
  omega

theorem fma_follows (hu : 0 ≤ u) (ρ : Rounding u) {b b' b'' : Trace} {a a' a'' : ℝ} (h : Follows ρ b a)
    (h' : Follows ρ b' a') (h'' : Follows ρ b'' a'') : Follows ρ (b * b' + b'') (ρ.rd (a * a' + a'')) := by
  have zero : b * b' = 0 → a * a' = 0 → Follows ρ (b * b' + b'') (ρ.rd (a * a' + a'')) := by
    intro e e'
    rw [e, e', zero_add, zero_add]
    rcases h'' with ⟨rfl, rfl⟩ | h''
    · left; exact ⟨rfl, rd_zero ρ⟩
    · right; rw [show ρ.rd a'' = a'' from h''.2.2.1]; exact h''
  rcases h with ⟨rfl, rfl⟩ | ⟨h1, h2, h3, h4, h5⟩
  · exact zero (zero_mul _) (zero_mul _)
  rcases h' with ⟨rfl, rfl⟩ | ⟨h1', h2', h3', h4', h5'⟩
  · exact zero (mul_zero _) (mul_zero _)
  have hA : 0 ≤ b.2.1 := (abs_nonneg _).trans h4
  have hA' : 0 ≤ b'.2.1 := (abs_nonneg _).trans h4'
  have hm := mul_step hu h4 h4' h5 h5'
  have hvm : |b.1 * b'.1| ≤ b.2.1 * b'.2.1 := by rw [abs_mul]; exact mul_le_mul h4 h4' (abs_nonneg _) hA
  have hsm := steps_mul h1 h1' h2 h2'
  have hne : b.2.2 * b'.2.2 ≠ 0 := mul_ne_zero h1 h1'
  have hd : 1 ≤ (b.2.2 * b'.2.2).natDegree := by rw [natDegree_mul h1 h1']; omega
  rcases h'' with ⟨rfl, rfl⟩ | ⟨h1'', h2'', h3'', h4'', h5''⟩
  · rw [add_zero, add_zero]
    refine .inr ⟨hne, hd, ρ.idem _, hvm, ?_⟩
    exact (rd_step hu ρ hvm hm).trans (mul_le_mul_of_nonneg_right (growth_mono hu hsm) (mul_nonneg hA hA'))
  · have hA'' : 0 ≤ b''.2.1 := (abs_nonneg _).trans h4''
    have hv : |b.1 * b'.1 + b''.1| ≤ b.2.1 * b'.2.1 + b''.2.1 := (abs_add_le _ _).trans (add_le_add hvm h4'')
    have c2 := eval_pos h1''
    have d1 := natDegree_le_add (b.2.2 * b'.2.2) b''.2.2
    have d2 := natDegree_le_add b''.2.2 (b.2.2 * b'.2.2)
    rw [add_comm] at d2
    have hs : max (steps b.2.2 + steps b'.2.2) (steps b''.2.2) + 1 ≤ steps (b.2.2 * b'.2.2 + b''.2.2) := by
      have c1 := eval_pos hne
      have e : steps (b.2.2 * b'.2.2) = (b.2.2 * b'.2.2).eval 1 + (b.2.2 * b'.2.2).natDegree - 2 := rfl
      have e'' : steps b''.2.2 = b''.2.2.eval 1 + b''.2.2.natDegree - 2 := rfl
      have e3 : steps (b.2.2 * b'.2.2 + b''.2.2) =
        (b.2.2 * b'.2.2).eval 1 + b''.2.2.eval 1 + (b.2.2 * b'.2.2 + b''.2.2).natDegree - 2 := by
          unfold steps; rw [eval_add]
      omega
    refine .inr ⟨add_ne_zero_left _ hne, hd.trans d1, ρ.idem _, hv, ?_⟩
    have hex : |a * a' + a'' - (b.1 * b'.1 + b''.1)| ≤
        growth u (max (steps b.2.2 + steps b'.2.2) (steps b''.2.2)) * (b.2.1 * b'.2.1 + b''.2.1) := by
      have e : a * a' + a'' - (b.1 * b'.1 + b''.1) = (a * a' - b.1 * b'.1) + (a'' - b''.1) := by ring
      rw [e, mul_add]
      refine (abs_add_le _ _).trans (add_le_add (hm.trans ?_) (h5''.trans ?_))
      · exact mul_le_mul_of_nonneg_right (growth_mono hu (le_max_left _ _)) (mul_nonneg hA hA')
      · exact mul_le_mul_of_nonneg_right (growth_mono hu (le_max_right _ _)) hA''
    exact (rd_step hu ρ hv hex).trans
      (mul_le_mul_of_nonneg_right (growth_mono hu hs) (add_nonneg (mul_nonneg hA hA') hA''))

/-- Exact arithmetic on the triples. -/
noncomputable def exactAlu : Alu Trace where
  zero := 0
  op
    | .add, a, b => a + b
    | .mul, a, b => a * b
    | _, _, _ => 0
  fma a b c := a * b + c

theorem exactAlu_exact : Exact exactAlu := ⟨rfl, fun _ _ => rfl, fun _ _ => rfl, fun _ _ _ => rfl⟩

/-- Additions and multiplications. -/
def ring : Arith → Bool
  | .add | .mul => true
  | _ => false

theorem fl_rel (hu : 0 ≤ u) (ρ : Rounding u) : AluRel (Follows ρ) ring exactAlu (fl ρ) where
  zero := .inl ⟨rfl, rfl⟩
  op o ho a b a' b' ha hb := by
    cases o with
    | add => exact add_follows hu ρ ha hb
    | mul =>
      have := fma_follows hu ρ ha hb (.inl ⟨rfl, rfl⟩)
      rw [add_zero, add_zero] at this
      exact this
    | sub | div => simp [ring] at ho
  fma _ _ _ _ _ _ _ ha hb hc := fma_follows hu ρ ha hb hc

theorem redCode_uses (dot avx : Bool) (sz : Sz) : ∀ x ∈ redCode dot avx sz, x.uses ring = true := by
  cases dot <;> cases avx <;> cases sz <;> decide

theorem leaf_eq (ρ : Rounding u) {a a' : ℝ} (h : Follows ρ (leaf a) a') : a' = a := by
  rcases h with ⟨h, -⟩ | ⟨-, -, -, -, h⟩
  · exact absurd (congrArg (fun b : Trace => b.2.2) h) X_ne_zero
  · simp only [leaf, steps, eval_X, natDegree_X, show 1 + 1 - 2 = 0 from rfl, growth_zero, zero_mul] at h
    exact sub_eq_zero.mp (abs_eq_zero.mp (le_antisymm h (abs_nonneg _)))

theorem sum_trace (l : List Trace) :
    l.sum = ((l.map (·.1)).sum, (l.map (·.2.1)).sum, (l.map (·.2.2)).sum) := by
  induction l with
  | nil => rfl
  | cons a l ih => simp only [List.sum_cons, List.map_cons, ih]; rfl

/-- The exact run that belongs to a state. -/
noncomputable def shadow (s : St ℝ) : St Trace :=
  { r := s.r, zf := s.zf, lt := s.lt, v := fun x l => leaf (s.v x l), mem := fun a => leaf (s.mem a)
    out := s.out.map leaf }

/-- Memory and registers hold numbers of the format. -/
structure Loaded (ρ : Rounding u) (s : St ℝ) : Prop where
  v : ∀ x l, ρ.Fits (s.v x l)
  mem : ∀ a, ρ.Fits (s.mem a)
  out : ∀ a, s.out = some a → ρ.Fits a

theorem shadow_rel {ρ : Rounding u} {s : St ℝ} (h : Loaded ρ s) : StRel (Follows ρ) (shadow s) s where
  r := rfl
  zf := rfl
  lt := rfl
  v x l := leaf_follows ρ (h.v x l)
  mem a := leaf_follows ρ (h.mem a)
  out := by
    cases e : s.out with
    | none => simp [shadow, e]
    | some a => simpa [shadow, e] using leaf_follows ρ (h.out a e)

theorem elems_shadow (es : Nat) (s : St ℝ) (p n : Nat) :
    elems es (shadow s).mem p n = (elems es s.mem p n).map leaf := by
  simp [elems, shadow, Function.comp_def]

theorem sum_leaf (l : List ℝ) : (l.map leaf).sum = (l.sum, (l.map (|·|)).sum, (l.length : ℕ[X]) * X) := by
  induction l with
  | nil => simp; rfl
  | cons a l ih =>
    simp only [List.map_cons, List.sum_cons, ih, leaf, List.length_cons, Prod.mk_add_mk, Nat.cast_add, Nat.cast_one]
    rw [show ((l.length : ℕ[X]) + 1) * X = X + (l.length : ℕ[X]) * X by ring]

theorem dot_leaf : ∀ l k : List ℝ, (List.zipWith (· * ·) (l.map leaf) (k.map leaf)).sum =
    ((List.zipWith (· * ·) l k).sum, (List.zipWith (fun a b => |a * b|) l k).sum,
      ((List.zipWith (· * ·) l k).length : ℕ[X]) * X ^ 2)
  | [], _ => by simp; rfl
  | _ :: _, [] => by simp; rfl
  | a :: l, b :: k => by
    simp only [List.map_cons, List.zipWith_cons_cons, List.sum_cons, dot_leaf l k, leaf, List.length_cons,
      Prod.mk_add_mk, Prod.mk_mul_mk, Nat.cast_add, Nat.cast_one, abs_mul]
    congr 2
    ring

theorem steps_monomial {n : Nat} (hn : n ≠ 0) (d : Nat) : steps ((n : ℕ[X]) * X ^ d) = n + d - 2 := by
  have h : (n : ℕ[X]) = C n := by simp
  unfold steps
  rw [h, natDegree_C_mul_X_pow d n hn]
  simp

/-- What a value that follows a sum of `n` terms of degree `d` is worth. -/
theorem follows_bound {ρ : Rounding u} {v A a : ℝ} {n d : Nat} (h : Follows ρ (v, A, (n : ℕ[X]) * X ^ d) a)
    (h0 : n = 0 → v = 0 ∧ A = 0) : |a - v| ≤ growth u (n + d - 2) * A := by
  by_cases hn : n = 0
  · obtain ⟨rfl, rfl⟩ := h0 hn
    subst hn
    rcases h with ⟨-, rfl⟩ | ⟨h, -⟩
    · simp
    · simp at h
  · have hne : (n : ℕ[X]) * X ^ d ≠ 0 := mul_ne_zero (by simpa using hn) (pow_ne_zero _ X_ne_zero)
    rcases h with ⟨h, -⟩ | ⟨-, -, -, -, h⟩
    · exact absurd (congrArg (fun b : Trace => b.2.2) h) hne
    · simpa only [steps_monomial hn] using h

theorem red_rounding (hu : 0 ≤ u) (ρ : Rounding u) {E : Env Trace} {E' : Env ℝ} (hE : EnvRel (Follows ρ) ring E E')
    {code : List Line} (hc : ∀ x ∈ code, x.uses ring = true) {s : St ℝ} (hs : Loaded ρ s) {S' : St Trace} {b : Trace}
    (hrun : ∀ t, Call E code (shadow s) t ↔ t = S') (hout : S'.out = some b) (hmem : S'.mem = (shadow s).mem) :
    ∃ s' a, (∀ t, Call E' code s t ↔ t = s') ∧ s'.out = some a ∧ Follows ρ b a ∧ s'.mem = s.mem := by
  obtain ⟨t, ht, hrel⟩ := call_rel hE hc ((hrun S').mpr rfl) (shadow_rel hs)
  have ho := hrel.out
  rw [hout] at ho
  cases e : t.out with
  | none => rw [e] at ho; exact ho.elim
  | some a =>
    rw [e] at ho
    refine ⟨t, a, fun t' => ⟨fun h => Run.det h ht, fun h => h ▸ ht⟩, e, ho, ?_⟩
    funext x
    have := hrel.mem x
    rw [hmem] at this
    exact leaf_eq ρ this

theorem dotProdFn_uses (cpu : Cpu) (sz : Sz) : ∀ x ∈ dotProdFn cpu sz, x.uses ring = true := by
  cases sz <;> simp only [dotProdFn] <;> split <;> decide

theorem sumFn_uses (cpu : Cpu) (sz : Sz) : ∀ x ∈ sumFn cpu sz, x.uses ring = true := by
  cases sz <;> simp only [sumFn] <;> split <;> decide

/-- `DotProd` (dotprod_amd64.s, with every processor, every length and every alignment of the operands to their element
size): the result differs from the exact dot product by at most `(1+u)^n - 1` times the sum of the absolute values of the
products. -/
theorem dotProd_rounding (hu : 0 ≤ u) (ρ : Rounding u) (cpu : Cpu) (sz : Sz) {x1 x2 : Sl} (h2 : x1.len ≤ x2.len)
    (hal : x2.base % sz.bytes = 0) {s : St ℝ} (hs : Loaded ρ s) :
    ∃ s' a, (∀ t, Call (frame2 sz.bytes (fl ρ) x1 x2) (dotProdFn cpu sz) s t ↔ t = s') ∧ s'.out = some a ∧
      |a - (List.zipWith (· * ·) (elems sz.bytes s.mem x1.base x1.len) (elems sz.bytes s.mem x2.base x1.len)).sum| ≤
        growth u x1.len * (List.zipWith (fun a b => |a * b|) (elems sz.bytes s.mem x1.base x1.len)
          (elems sz.bytes s.mem x2.base x1.len)).sum ∧
      s'.mem = s.mem := by
  obtain ⟨S', h, ho, hm⟩ := dotProd_kernel cpu sz exactAlu exactAlu_exact h2 hal (shadow s)
  have hE : EnvRel (Follows ρ) ring (frame2 sz.bytes exactAlu x1 x2) (frame2 sz.bytes (fl ρ) x1 x2) :=
    ⟨rfl, rfl, rfl, rfl, .inl ⟨rfl, rfl⟩, fl_rel hu ρ⟩
  obtain ⟨s', a, hr, hout, hf, hmem⟩ := red_rounding hu ρ hE (dotProdFn_uses cpu sz) hs h ho hm
  refine ⟨s', a, hr, hout, ?_, hmem⟩
  rw [elems_shadow, elems_shadow, dot_leaf] at hf
  have hl : (List.zipWith (· * ·) (elems sz.bytes s.mem x1.base x1.len)
    (elems sz.bytes s.mem x2.base x1.len)).length = x1.len := by simp [elems]
  rw [hl] at hf
  exact follows_bound hf (fun h0 => by simp [h0, elems])

/-- `Sum` (sum_amd64.s): at most `(1+u)^(n-1) - 1` times the sum of the absolute values. -/
theorem sum_rounding (hu : 0 ≤ u) (ρ : Rounding u) (cpu : Cpu) (sz : Sz) {x : Sl} (hal : x.base % sz.bytes = 0)
    {s : St ℝ} (hs : Loaded ρ s) :
    ∃ s' a, (∀ t, Call (frame1 sz.bytes (fl ρ) x) (sumFn cpu sz) s t ↔ t = s') ∧ s'.out = some a ∧
      |a - (elems sz.bytes s.mem x.base x.len).sum| ≤
        growth u (x.len - 1) * ((elems sz.bytes s.mem x.base x.len).map (|·|)).sum ∧
      s'.mem = s.mem := by
  obtain ⟨S', h, ho, hm⟩ := sum_kernel cpu sz exactAlu exactAlu_exact hal (shadow s)
  have hE : EnvRel (Follows ρ) ring (frame1 sz.bytes exactAlu x) (frame1 sz.bytes (fl ρ) x) :=
    ⟨rfl, rfl, rfl, rfl, .inl ⟨rfl, rfl⟩, fl_rel hu ρ⟩
  obtain ⟨s', a, hr, hout, hf, hmem⟩ := red_rounding hu ρ hE (sumFn_uses cpu sz) hs h ho hm
  refine ⟨s', a, hr, hout, ?_, hmem⟩
  rw [elems_shadow, sum_leaf] at hf
  have hl : (elems sz.bytes s.mem x.base x.len).length = x.len := by simp [elems]
  rw [hl, ← pow_one (X : ℕ[X])] at hf
  exact follows_bound hf (fun h0 => by simp [h0, elems])

/-! ## The portable loops -/

theorem dotLoop_follows (hu : 0 ≤ u) (ρ : Rounding u) (es x1 x2 : Nat) (m : Nat → ℝ) (hm : ∀ a, ρ.Fits (m a)) :
    ∀ k i Y y, Follows ρ Y y →
      Follows ρ (dotLoop exactAlu es x1 x2 (fun a => leaf (m a)) k i Y) (dotLoop (fl ρ) es x1 x2 m k i y)
  | 0, _, _, _, h => h
  | k + 1, i, _, _, h =>
    dotLoop_follows hu ρ es x1 x2 m hm k (i + 1) _ _
      (add_follows hu ρ h ((fl_rel hu ρ).op .mul rfl _ _ _ _ (leaf_follows ρ (hm _)) (leaf_follows ρ (hm _))))

theorem sumLoop_follows (hu : 0 ≤ u) (ρ : Rounding u) (es x : Nat) (m : Nat → ℝ) (hm : ∀ a, ρ.Fits (m a)) :
    ∀ k i Y y, Follows ρ Y y →
      Follows ρ (sumLoop exactAlu es x (fun a => leaf (m a)) k i Y) (sumLoop (fl ρ) es x m k i y)
  | 0, _, _, _, h => h
  | k + 1, i, _, _, h => sumLoop_follows hu ρ es x m hm k (i + 1) _ _ (add_follows hu ρ h (leaf_follows ρ (hm _)))

/-- The portable `dotProd` (dotprod_purego.go) has the same bound. -/
theorem puregoDot_rounding (hu : 0 ≤ u) (ρ : Rounding u) (es : Nat) {x1 x2 : Sl} (h2 : x1.len ≤ x2.len) {m : Nat → ℝ}
    (hm : ∀ a, ρ.Fits (m a)) :
    ∃ a, puregoDot (fl ρ) es x1 x2 m = some a ∧
      |a - (List.zipWith (· * ·) (elems es m x1.base x1.len) (elems es m x2.base x1.len)).sum| ≤
        growth u x1.len *
          (List.zipWith (fun a b => |a * b|) (elems es m x1.base x1.len) (elems es m x2.base x1.len)).sum := by
  by_cases h0 : x1.len = 0
  · exact ⟨0, by simp [puregoDot, h0]; rfl, by simp [h0, elems]⟩
  refine ⟨_, by rw [puregoDot, if_neg h0, if_neg (by omega)], ?_⟩
  have hf := dotLoop_follows hu ρ es x1.base x2.base m hm x1.len 0 0 0 (.inl ⟨rfl, rfl⟩)
  rw [dotLoop_eq exactAlu_exact, zero_add] at hf
  have e : ((List.range x1.len).map fun j => leaf (m (x1.base + es * (0 + j))) * leaf (m (x2.base + es * (0 + j)))) =
      List.zipWith (· * ·) ((elems es m x1.base x1.len).map leaf) ((elems es m x2.base x1.len).map leaf) := by
    simp [elems, List.zipWith_map, List.zipWith_self]
  rw [e, dot_leaf] at hf
  have hl : (List.zipWith (· * ·) (elems es m x1.base x1.len) (elems es m x2.base x1.len)).length = x1.len := by
    simp [elems]
  rw [hl] at hf
  exact follows_bound hf (fun h0 => by simp [h0, elems])

/-- The portable `sum` (sum_purego.go) has the same bound. -/
theorem puregoSum_rounding (hu : 0 ≤ u) (ρ : Rounding u) (es : Nat) (x : Sl) {m : Nat → ℝ} (hm : ∀ a, ρ.Fits (m a)) :
    |puregoSum (fl ρ) es x m - (elems es m x.base x.len).sum| ≤
      growth u (x.len - 1) * ((elems es m x.base x.len).map (|·|)).sum := by
  have hf := sumLoop_follows hu ρ es x.base m hm x.len 0 0 0 (.inl ⟨rfl, rfl⟩)
  rw [sumLoop_eq exactAlu_exact, zero_add] at hf
  have e : ((List.range x.len).map fun j => leaf (m (x.base + es * (0 + j)))) = (elems es m x.base x.len).map leaf := by
    simp [elems]
  rw [e, sum_leaf] at hf
  have hl : (elems es m x.base x.len).length = x.len := by simp [elems]
  rw [hl, ← pow_one (X : ℕ[X])] at hf
  exact follows_bound hf (fun h0 => by simp [h0, elems])


/-- Two processors, or a processor and the portable loop, may disagree about a dot product, but not by more than twice
the bound. -/
theorem dotProd_agree (hu : 0 ≤ u) (ρ : Rounding u) (cpu cpu' : Cpu) (sz : Sz) {x1 x2 : Sl} (h2 : x1.len ≤ x2.len)
    (hal : x2.base % sz.bytes = 0) {s t t' : St ℝ} (hs : Loaded ρ s)
    (h : Call (frame2 sz.bytes (fl ρ) x1 x2) (dotProdFn cpu sz) s t)
    (h' : Call (frame2 sz.bytes (fl ρ) x1 x2) (dotProdFn cpu' sz) s t') :
    ∃ a a' p, t.out = some a ∧ t'.out = some a' ∧ puregoDot (fl ρ) sz.bytes x1 x2 s.mem = some p ∧
      ∀ x ∈ [a, a', p], ∀ y ∈ [a, a', p], |x - y| ≤ 2 * (growth u x1.len *
        (List.zipWith (fun a b => |a * b|) (elems sz.bytes s.mem x1.base x1.len)
          (elems sz.bytes s.mem x2.base x1.len)).sum) := by
  obtain ⟨s1, a, hr, ho, hb, -⟩ := dotProd_rounding hu ρ cpu sz h2 hal hs
  obtain ⟨s2, a', hr', ho', hb', -⟩ := dotProd_rounding hu ρ cpu' sz h2 hal hs
  obtain ⟨p, hp, hb''⟩ := puregoDot_rounding hu ρ sz.bytes h2 hs.mem
  obtain rfl := (hr t).mp h
  obtain rfl := (hr' t').mp h'
  refine ⟨a, a', p, ho, ho', hp, ?_⟩
  have key : ∀ x ∈ [a, a', p], |x - (List.zipWith (· * ·) (elems sz.bytes s.mem x1.base x1.len)
      (elems sz.bytes s.mem x2.base x1.len)).sum| ≤ growth u x1.len *
        (List.zipWith (fun a b => |a * b|) (elems sz.bytes s.mem x1.base x1.len)
          (elems sz.bytes s.mem x2.base x1.len)).sum := by
    intro x hx
    simp only [List.mem_cons, List.not_mem_nil, or_false] at hx
    rcases hx with rfl | rfl | rfl <;> assumption
  intro x hx y hy
  have hx' := key x hx
  have hy' := key y hy
  rw [abs_sub_comm] at hy'
  have := abs_sub_le x (List.zipWith (· * ·) (elems sz.bytes s.mem x1.base x1.len)
    (elems sz.bytes s.mem x2.base x1.len)).sum y
  linarith

/-- A sum of numbers of the same sign is accurate: the relative error is at most `(1+u)^(n-1) - 1`. -/
theorem sum_relative (hu : 0 ≤ u) (ρ : Rounding u) (cpu : Cpu) (sz : Sz) {x : Sl} (hal : x.base % sz.bytes = 0)
    {s t : St ℝ} {a : ℝ} (hs : Loaded ρ s) (hpos : ∀ v ∈ elems sz.bytes s.mem x.base x.len, 0 ≤ v)
    (h : Call (frame1 sz.bytes (fl ρ) x) (sumFn cpu sz) s t) (ha : t.out = some a) :
    |a - (elems sz.bytes s.mem x.base x.len).sum| ≤
      growth u (x.len - 1) * (elems sz.bytes s.mem x.base x.len).sum := by
  obtain ⟨s', a', hr, ho, hb, -⟩ := sum_rounding hu ρ cpu sz hal hs
  obtain rfl := (hr t).mp h
  rw [ha] at ho; cases ho
  have e : (elems sz.bytes s.mem x.base x.len).map (|·|) = elems sz.bytes s.mem x.base x.len := by
    conv_rhs => rw [← List.map_id (elems sz.bytes s.mem x.base x.len)]
    exact List.map_congr_left fun v hv => abs_of_nonneg (hpos v hv)
  rwa [e] at hb

/-- Nine float32 numbers in memory: the routine for AVX adds them in lanes; the bound allows eight
roundings. -/
example (s : St ℝ) (hv : ∀ x l, s.v x l = 0) (ho : s.out = none) (hm : ∀ a, s.mem a = ((a : ℤ) % 1000 : ℤ)) :
    ∃ s' a, Call (frame1 4 (fl (nearest 24 (by norm_num))) ⟨64, 9⟩) (sumFn ⟨true, true, true, true⟩ .f32) s s' ∧ s'.out = some a ∧
      |a - (elems 4 s.mem 64 9).sum| ≤ growth (2 ^ (-(24 : ℤ))) 8 * ((elems 4 s.mem 64 9).map (|·|)).sum := by
  have hs : Loaded (nearest 24 (by norm_num)) s := by
    refine ⟨fun x l => ?_, fun a => ?_, fun a h => ?_⟩
    · rw [hv]; exact rd_zero _
    · rw [hm]
      refine nearest_int (by norm_num) ?_
      rw [abs_of_nonneg (Int.emod_nonneg _ (by norm_num))]
      have := Int.emod_lt_of_pos (a : ℤ) (show (0 : ℤ) < 1000 by norm_num)
      norm_num; omega
    · rw [ho] at h; cases h
  obtain ⟨s', a, h1, h2, h3, -⟩ := sum_rounding (by positivity) (nearest 24 (by norm_num)) ⟨true, true, true, true⟩ .f32
    (x := ⟨64, 9⟩) rfl hs
  exact ⟨s', a, (h1 s').mpr rfl, h2, h3⟩

end Verif.Asm
