import Verif.Props.SumFinite

set_option autoImplicit false
set_option linter.unusedSimpArgs false
set_option maxRecDepth 10000

/-!
# The assembly dot product of bounded numbers does not overflow

As for the sum (`Props/SumFinite.lean`) a second run counts: how many elements and how many products went into a value, and
whether anything else did.  The arithmetic of the counts is not that of a ring: zero times something unknown is unknown.
-/

namespace Verif.Asm
open Verif.Spec Verif.Spec.Kernels Verif.F32

/-- How many elements, products and other things are in a value. -/
@[ext] structure Counts where
  e : Nat
  n : Nat
  o : Nat

namespace Counts

instance : Zero Counts := ⟨⟨0, 0, 0⟩⟩
instance : Add Counts := ⟨fun a b => ⟨a.e + b.e, a.n + b.n, a.o + b.o⟩⟩

/-- Products of products, and of too many elements, count as something else. -/
instance : Mul Counts := ⟨fun a b => ⟨0, a.e * b.e, a.o + b.o + a.n + b.n + a.e / many + b.e / many⟩⟩

theorem add_def (a b : Counts) : a + b = ⟨a.e + b.e, a.n + b.n, a.o + b.o⟩ := rfl
theorem zero_def : (0 : Counts) = ⟨0, 0, 0⟩ := rfl
theorem mul_def (a b : Counts) : a * b = ⟨0, a.e * b.e, a.o + b.o + a.n + b.n + a.e / many + b.e / many⟩ := rfl

instance : AddCommMonoid Counts where
  add_assoc a b c := by simp only [add_def, Nat.add_assoc]
  zero_add a := by simp only [add_def, zero_def, Nat.zero_add]
  add_zero a := by simp only [add_def, zero_def, Nat.add_zero]
  add_comm a b := by simp only [add_def, Nat.add_comm]
  nsmul := nsmulRec

end Counts

def countsAlu : Alu Counts where
  zero := 0
  op
    | .add, a, b => a + b
    | .mul, a, b => a * b
    | _, _, _ => 0
  fma a b c := a * b + c

theorem countsAlu_exact : Asm.Exact countsAlu := ⟨rfl, fun _ _ => rfl, fun _ _ => rfl, fun _ _ _ => rfl⟩

/-- The bound for a value made of `e` elements and `n` products, of elements up to `K`. -/
noncomputable def sizeOf (K : ℝ) (e n : Nat) : ℝ := if n = 0 then (2 * e - 1) * K else (4 * (e + n) - 2) * K ^ 2

/-- A value that belongs to the counts. -/
def Held (K : ℝ) (c : Counts) (w : F32.W) : Prop :=
  c.o = 0 → c.e + c.n < many →
    F32.Finite w ∧ (c.e + c.n = 0 → val w = 0) ∧ (c.e + c.n ≠ 0 → |val w| ≤ sizeOf K c.e c.n)

section
variable {K : ℝ} (hK : 1 ≤ K) (hK' : K ≤ 2 ^ 50)
include hK

/-- Every bound is one for products. -/
theorem sizeOf_le {e n : Nat} (he : e + n ≠ 0) : sizeOf K e n ≤ (4 * (e + n) - 2) * K ^ 2 := by
  unfold sizeOf; split
  · rename_i h
    have he' : (1 : ℝ) ≤ e := by exact_mod_cast (by omega : 1 ≤ e)
    rw [h, Nat.cast_zero, add_zero]
    have h1 : (2 * (e : ℝ) - 1) * K ≤ (2 * e - 1) * K ^ 2 := mul_le_mul_of_nonneg_left (by nlinarith) (by linarith)
    have h2 : (2 * (e : ℝ) - 1) * K ^ 2 ≤ (4 * e - 2) * K ^ 2 := mul_le_mul_of_nonneg_right (by linarith) (by positivity)
    linarith
  · exact le_rfl

include hK' in
/-- One rounding. -/
theorem round_size {x : ℝ} {w : F32.W} {e n : Nat} (he : e + n ≠ 0) (hm : e + n < many)
    (hx : |x| ≤ sizeOf K e n - (if n = 0 then K else K ^ 2)) (hf : |x| ≤ maxFin → F32.Finite w)
    (hn : F32.Finite w → |val w - x| ≤ slack x) : F32.Finite w ∧ |val w| ≤ sizeOf K e n := by
  have he1 : (1 : ℝ) ≤ e + n := by exact_mod_cast (by omega : 1 ≤ e + n)
  have hle : (e : ℝ) + n ≤ 4194304 := by
    have : e + n ≤ 4194304 := by unfold many at hm; omega
    exact_mod_cast this
  have hK2 : 1 ≤ K ^ 2 := by nlinarith
  have hB1 : 1 ≤ (if n = 0 then K else K ^ 2) := by split <;> assumption
  have hs := sizeOf_le hK he
  have hmax : (4 * ((e : ℝ) + n) - 2) * K ^ 2 ≤ maxFin := by
    have h2 : K ^ 2 ≤ (2 ^ 50) ^ 2 := by gcongr
    calc (4 * ((e : ℝ) + n) - 2) * K ^ 2 ≤ 2 ^ 24 * (2 ^ 50) ^ 2 :=
          mul_le_mul (by norm_num; linarith) h2 (by positivity) (by positivity)
      _ ≤ maxFin := by unfold maxFin; norm_num
  have hw := hf (by linarith)
  refine ⟨hw, ?_⟩
  have h1 := hn hw
  have h2 : slack x ≤ (if n = 0 then K else K ^ 2) := by
    unfold slack
    rw [div_le_iff₀ (by positivity)]
    refine max_le ?_ (le_trans (b := 1) (by norm_num) (by linarith))
    refine hx.trans ?_
    unfold sizeOf
    split
    · have : (2 * (e : ℝ) - 1) * K ≤ 2 ^ 24 * K := mul_le_mul_of_nonneg_right (by norm_num; linarith [(Nat.cast_nonneg n : (0:ℝ) ≤ n)]) (by linarith)
      linarith
    · have : (4 * ((e : ℝ) + n) - 2) * K ^ 2 ≤ 2 ^ 24 * K ^ 2 := mul_le_mul_of_nonneg_right (by norm_num; linarith) (by linarith)
      linarith
  have h3 := abs_sub_abs_le_abs_sub (val w) x
  linarith

/-- The sizes of two parts of a sum leave room for the rounding. -/
theorem sizes_add {e n e' n' : Nat} (he : e + n ≠ 0) (he' : e' + n' ≠ 0) :
    sizeOf K e n + sizeOf K e' n' ≤ sizeOf K (e + e') (n + n') - (if n + n' = 0 then K else K ^ 2) := by
  have s1 := sizeOf_le hK he
  have s2 := sizeOf_le hK he'
  by_cases h : n + n' = 0
  · have e1 : n = 0 := by omega
    have e2 : n' = 0 := by omega
    unfold sizeOf
    rw [if_pos h, if_pos h, if_pos e1, if_pos e2]
    push_cast
    linarith
  · rw [if_neg h]
    have : sizeOf K (e + e') (n + n') = (4 * ((e : ℝ) + n) - 2) * K ^ 2 + (4 * ((e' : ℝ) + n') - 2) * K ^ 2 + 2 * K ^ 2 := by
      unfold sizeOf; rw [if_neg h]; push_cast; ring
    rw [this]
    have hK2 : 0 ≤ K ^ 2 := by positivity
    linarith

/-- The exact product of two sums of elements. -/
theorem size_mul {e e' : Nat} {x y : ℝ} (he : e ≠ 0) (he' : e' ≠ 0) (hx : |x| ≤ sizeOf K e 0) (hy : |y| ≤ sizeOf K e' 0) :
    |x * y| ≤ (4 * (e * e') - 3) * K ^ 2 := by
  have h1 : (1 : ℝ) ≤ e := by exact_mod_cast (by omega : 1 ≤ e)
  have h2 : (1 : ℝ) ≤ e' := by exact_mod_cast (by omega : 1 ≤ e')
  unfold sizeOf at hx hy
  rw [if_pos rfl] at hx hy
  rw [abs_mul]
  have h3 : 0 ≤ (2 * (e : ℝ) - 1) * K := mul_nonneg (by linarith) (by linarith)
  refine (mul_le_mul hx hy (abs_nonneg _) h3).trans ?_
  have : (2 * (e : ℝ) - 1) * K * ((2 * e' - 1) * K) = ((2 * (e : ℝ) - 1) * (2 * e' - 1)) * K ^ 2 := by ring
  rw [this]
  exact mul_le_mul_of_nonneg_right (by nlinarith) (by positivity)

end

theorem clean_mul {a b c d e f : Nat} (h : a + b + c + d + e / many + f / many = 0) :
    a = 0 ∧ b = 0 ∧ c = 0 ∧ d = 0 ∧ e < many ∧ f < many := by
  simp only [Nat.add_eq_zero_iff, Nat.div_eq_zero_iff] at h
  have : many ≠ 0 := by unfold many; omega
  obtain ⟨⟨⟨⟨⟨h1, h2⟩, h3⟩, h4⟩, h5⟩, h6⟩ := h
  exact ⟨h1, h2, h3, h4, h5.resolve_left this, h6.resolve_left this⟩

theorem held_rel {K : ℝ} (hK : 1 ≤ K) (hK' : K ≤ 2 ^ 50) (div : F32.W → F32.W → F32.W) :
    AluRel (Held K) ring countsAlu (F32.alu div) where
  zero _ _ := ⟨by show F32.Finite 0; unfold F32.Finite; decide, fun _ => val_zero, fun h => absurd rfl h⟩
  op o ho a b a' b' ha hb := by
    cases o with
    | add =>
      show Held K (a + b) (addIeee a' b')
      intro ht hm
      rw [Counts.add_def] at ht hm ⊢
      simp only at ht hm ⊢
      obtain ⟨f1, z1, s1⟩ := ha (by omega) (by omega)
      obtain ⟨f2, z2, s2⟩ := hb (by omega) (by omega)
      by_cases h1 : a.e + a.n = 0
      · have v := add_zero_val f1 f2 (.inl (z1 h1))
        rw [z1 h1, zero_add] at v
        have e1 : a.e = 0 := by omega
        have e2 : a.n = 0 := by omega
        rw [v, e1, e2, zero_add, zero_add]
        exact ⟨add_fin f1 f2 (by rw [z1 h1, zero_add]; exact (finite_exact f2).2), z2, s2⟩
      by_cases h2 : b.e + b.n = 0
      · have v := add_zero_val f1 f2 (.inr (z2 h2))
        rw [z2 h2, add_zero] at v
        have e1 : b.e = 0 := by omega
        have e2 : b.n = 0 := by omega
        rw [v, e1, e2, add_zero, add_zero]
        exact ⟨add_fin f1 f2 (by rw [z2 h2, add_zero]; exact (finite_exact f1).2), z1, s1⟩
      have key := round_size hK hK' (x := val a' + val b') (w := addIeee a' b') (e := a.e + b.e) (n := a.n + b.n)
        (by omega) hm ((abs_add_le _ _).trans ((add_le_add (s1 h1) (s2 h2)).trans (sizes_add hK h1 h2))) (add_fin f1 f2) add_near_fin
      exact ⟨key.1, fun h => absurd h (by omega), fun _ => key.2⟩
    | mul =>
      show Held K (a * b) (mulIeee a' b')
      intro ht hm
      rw [Counts.mul_def] at ht hm ⊢
      simp only [zero_add] at ht hm ⊢
      obtain ⟨t1, t2, n1, n2, m1, m2⟩ := clean_mul ht
      obtain ⟨f1, z1, s1⟩ := ha (by omega) (by omega)
      obtain ⟨f2, z2, s2⟩ := hb (by omega) (by omega)
      rw [n1, add_zero] at z1 s1
      rw [n2, add_zero] at z2 s2
      by_cases h0 : a.e * b.e = 0
      · have e : val a' * val b' = 0 := by
          rcases Nat.mul_eq_zero.mp h0 with h | h
          · rw [z1 h, zero_mul]
          · rw [z2 h, mul_zero]
        have := mul_near f1 f2 (by rw [e, abs_zero]; unfold maxFin; positivity)
        rw [e] at this
        exact ⟨this.1.1, fun _ => this.2 exact_zero, fun h => absurd h0 h⟩
      · have h1 : a.e ≠ 0 := fun h => h0 (by rw [h, zero_mul])
        have h2 : b.e ≠ 0 := fun h => h0 (by rw [h, mul_zero])
        have hp := size_mul hK h1 h2 (s1 h1) (s2 h2)
        have key := round_size hK hK' (x := val a' * val b') (w := mulIeee a' b') (e := 0) (n := a.e * b.e)
          (by omega) (by omega) (by
            unfold sizeOf; rw [if_neg h0, if_neg h0]
            push_cast
            linarith) (fun h => (mul_near f1 f2 h).1.1) mul_near_fin
        exact ⟨key.1, fun h => absurd h h0, fun _ => key.2⟩
    | sub | div => simp [ring] at ho
  fma _ a b c a' b' c' ha hb hc := by
    show Held K (a * b + c) (fmaIeee a' b' c')
    intro ht hm
    rw [Counts.mul_def, Counts.add_def] at ht hm ⊢
    simp only [zero_add] at ht hm ⊢
    obtain ⟨ht, ht3⟩ := Nat.add_eq_zero_iff.mp ht
    obtain ⟨t1, t2, n1, n2, m1, m2⟩ := clean_mul ht
    obtain ⟨f1, z1, s1⟩ := ha (by omega) (by omega)
    obtain ⟨f2, z2, s2⟩ := hb (by omega) (by omega)
    obtain ⟨f3, z3, s3⟩ := hc (by omega) (by omega)
    rw [n1, add_zero] at z1 s1
    rw [n2, add_zero] at z2 s2
    by_cases h0 : a.e * b.e = 0
    · have e : val a' * val b' = 0 := by
        rcases Nat.mul_eq_zero.mp h0 with h | h
        · rw [z1 h, zero_mul]
        · rw [z2 h, mul_zero]
      rw [h0, zero_add, fma_zero_val f1 f2 f3 e]
      exact ⟨fma_fin f1 f2 f3 (by rw [e, zero_add]; exact (finite_exact f3).2), z3, s3⟩
    · have h1 : a.e ≠ 0 := fun h => h0 (by rw [h, zero_mul])
      have h2 : b.e ≠ 0 := fun h => h0 (by rw [h, mul_zero])
      have hp := size_mul hK h1 h2 (s1 h1) (s2 h2)
      have hn : a.e * b.e + c.n ≠ 0 := by omega
      have hK2 : 0 ≤ K ^ 2 := by positivity
      have key := round_size hK hK' (x := val a' * val b' + val c') (w := fmaIeee a' b' c') (e := c.e) (n := a.e * b.e + c.n)
        (by omega) (by omega) (by
          have hc' : |val c'| ≤ 4 * (c.e + c.n) * K ^ 2 := by
            by_cases h : c.e + c.n = 0
            · rw [z3 h, abs_zero]; positivity
            · refine ((s3 h).trans (sizeOf_le hK h)).trans (mul_le_mul_of_nonneg_right (by linarith) hK2)
          refine (abs_add_le _ _).trans ((add_le_add hp hc').trans ?_)
          unfold sizeOf; rw [if_neg hn, if_neg hn]
          push_cast
          linarith) (fma_fin f1 f2 f3) fma_near_fin
      exact ⟨key.1, fun h => absurd h (by omega), fun _ => key.2⟩

/-- The counting run. -/
def countedIn (x1 x2 : Sl) (s : St F32.W) : St Counts :=
  { r := s.r, zf := s.zf, lt := s.lt, v := fun _ _ => ⟨0, 0, 1⟩
    mem := fun a => if x1.has 4 a || x2.has 4 a then ⟨1, 0, 0⟩ else ⟨0, 0, 1⟩
    out := s.out.map fun _ => ⟨0, 0, 1⟩ }

theorem countedIn_rel {K : ℝ} {x1 x2 : Sl} {s : St F32.W}
    (h1 : ∀ v ∈ elems 4 s.mem x1.base x1.len, F32.Finite v ∧ |val v| ≤ K)
    (h2 : ∀ v ∈ elems 4 s.mem x2.base x2.len, F32.Finite v ∧ |val v| ≤ K) : StRel (Held K) (countedIn x1 x2 s) s where
  r := rfl
  zf := rfl
  lt := rfl
  v _ _ := fun h => absurd h one_ne_zero
  mem a := by
    show Held K (if x1.has 4 a || x2.has 4 a then ⟨1, 0, 0⟩ else ⟨0, 0, 1⟩) (s.mem a)
    split
    · rename_i h
      intro _ _
      have hv : F32.Finite (s.mem a) ∧ |val (s.mem a)| ≤ K := by
        rcases (Bool.or_eq_true _ _).mp h with h | h
        · simp only [Sl.has, List.any_eq_true, List.mem_range, beq_iff_eq] at h
          obtain ⟨i, hi, rfl⟩ := h
          exact h1 _ (List.mem_map.mpr ⟨i, List.mem_range.mpr hi, rfl⟩)
        · simp only [Sl.has, List.any_eq_true, List.mem_range, beq_iff_eq] at h
          obtain ⟨i, hi, rfl⟩ := h
          exact h2 _ (List.mem_map.mpr ⟨i, List.mem_range.mpr hi, rfl⟩)
      refine ⟨hv.1, fun h => absurd h (by simp), fun _ => ?_⟩
      unfold sizeOf
      rw [if_pos rfl]
      norm_num
      exact hv.2
    · exact fun h => absurd h one_ne_zero
  out := by
    cases e : s.out with
    | none => simp [countedIn, e]
    | some a => simp only [countedIn, e, Option.map_some]; exact fun h => absurd h one_ne_zero

theorem sum_ones (n : Nat) : ((List.range n).map fun _ => (⟨1, 0, 0⟩ : Counts) * ⟨1, 0, 0⟩).sum = ⟨0, n, 0⟩ := by
  have h1 : (⟨1, 0, 0⟩ : Counts) * ⟨1, 0, 0⟩ = ⟨0, 1, 0⟩ := by rw [Counts.mul_def]; simp [many]
  induction n with
  | zero => rfl
  | succ n ih =>
    rw [List.range_succ, List.map_append, List.sum_append, ih]
    simp only [List.map_cons, List.map_nil, List.sum_cons, List.sum_nil, add_zero, h1]
    rfl

/-- **`DotProd32` of up to 2^22 finite numbers up to 2^50 is finite**, so it is within the bound of C79. -/
theorem dot_small (div : F32.W → F32.W → F32.W) (cpu : Cpu) {x1 x2 : Sl} (hl : x1.len ≤ x2.len) (hal : x2.base % 4 = 0)
    (s : St F32.W) (hlen : x1.len ≤ 2 ^ 22) {K : ℝ} (hK : 1 ≤ K) (hK' : K ≤ 2 ^ 50)
    (h1 : ∀ v ∈ elems 4 s.mem x1.base x1.len, F32.Finite v ∧ |val v| ≤ K)
    (h2 : ∀ v ∈ elems 4 s.mem x2.base x2.len, F32.Finite v ∧ |val v| ≤ K) :
    ∃ s' w, (∀ t, Call (frame2 4 (F32.alu div) x1 x2) (dotProdFn cpu .f32) s t ↔ t = s') ∧ s'.out = some w ∧
      s'.mem = s.mem ∧ F32.Finite w ∧
      |val w - (List.zipWith (fun a b => val a * val b) (elems 4 s.mem x1.base x1.len)
          (elems 4 s.mem x2.base x1.len)).sum| ≤
        growth ulp x1.len * (List.zipWith (fun a b => (|val a| + tiny) * (|val b| + tiny))
          (elems 4 s.mem x1.base x1.len) (elems 4 s.mem x2.base x1.len)).sum := by
  obtain ⟨s', w, g1, g2, g3, g4⟩ := dotProd_f32 div cpu hl hal s
  obtain ⟨S', hS, ho, -⟩ := dotProd_kernel cpu .f32 countsAlu countsAlu_exact hl hal (countedIn x1 x2 s)
  have hE : EnvRel (Held K) ring (frame2 4 countsAlu x1 x2) (frame2 4 (F32.alu div) x1 x2) :=
    ⟨rfl, rfl, rfl, rfl, (held_rel hK hK' div).zero, held_rel hK hK' div⟩
  obtain ⟨t, ht, hrel⟩ := call_rel hE (dotProdFn_uses cpu .f32) ((hS S').mpr rfl) (countedIn_rel h1 h2)
  obtain ⟨w', hw', hf⟩ := out_rel hrel ho
  obtain rfl := (g1 t).mp ht
  rw [g2] at hw'; cases hw'
  have hc : List.zipWith (· * ·) (elems Sz.f32.bytes (countedIn x1 x2 s).mem x1.base x1.len)
      (elems Sz.f32.bytes (countedIn x1 x2 s).mem x2.base x1.len) = (List.range x1.len).map fun _ => (⟨1, 0, 0⟩ : Counts) * ⟨1, 0, 0⟩ := by
    unfold elems
    rw [List.zipWith_map, List.zipWith_self]
    refine List.map_congr_left fun i hi => ?_
    have hi' := List.mem_range.mp hi
    have e1 : x1.has 4 (x1.base + 4 * i) = true := Sl.has_of hi'
    have e2 : x2.has 4 (x2.base + 4 * i) = true := Sl.has_of (hi'.trans_le hl)
    simp only [countedIn, Sz.bytes, e1, e2, Bool.true_or, Bool.or_true, if_true]
  rw [hc, sum_ones] at hf
  have hfin := (hf rfl (by simp [many]; omega)).1
  exact ⟨t, w, g1, g2, g3, hfin, (g4 hfin).2⟩

end Verif.Asm
