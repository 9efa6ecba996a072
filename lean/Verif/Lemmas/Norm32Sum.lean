import Verif.Model.Norm32
import Verif.Props.SumPos
import Verif.Lemmas.F32Mono
import Verif.Props.Adam32Frozen

set_option autoImplicit false
set_option linter.unusedSimpArgs false

/-!
# The operations of the normalisation layers as functions, and sums of float32 (C94)
-/

namespace Verif.Norm32
open Verif.F32 Verif.Asm Verif.Spec Verif.Spec.Kernels Verif.Net32 Verif.Rec32 Verif.Att32 Verif.Adam32

theorem addConst_iff (cpu : Cpu) (c : F32.W) (x z : List F32.W) : AddConst cpu c x z ↔ z = x.map fun v => addIeee v c := by
  have main : ∀ (p q : Nat) (s : St F32.W), Apart 4 x.length p q → elems 4 s.mem p x.length = x →
      ∃ t, (∀ t', Call (frameC 4 (F32.alu divIeee) c ⟨p, x.length⟩ ⟨q, x.length⟩) (addConstFn cpu .f32) s t' ↔ t' = t) ∧
        elems 4 t.mem q x.length = x.map fun v => addIeee v c := by
    intro p q s ha hp
    obtain ⟨s₁, c1, e1, -⟩ := addConst_kernel cpu .f32 (F32.alu divIeee) (c := c) (x := ⟨p, x.length⟩)
      (y := ⟨q, x.length⟩) (fun a => F32.add_comm' a c) le_rfl (.inr ha) s
    refine ⟨s₁, c1, ?_⟩
    have e1' : elems 4 s₁.mem q x.length = (elems 4 s.mem p x.length).map fun v => addIeee v c := e1
    rw [e1', hp]
  constructor
  · rintro ⟨p, q, s, t, ha, hp, h1, h3⟩
    obtain ⟨t', g1, g3⟩ := main p q s ha hp
    obtain rfl := (g1 t).mp h1
    rw [← h3, g3]
  · rintro rfl
    have ha : Apart 4 x.length 0 (4 * x.length) := by unfold Apart; omega
    obtain ⟨t, g1, g3⟩ := main 0 (4 * x.length) (stateOf x []) ha (memOf_fst x [])
    exact ⟨0, 4 * x.length, stateOf x [], t, ha, memOf_fst x [], (g1 _).mpr rfl, g3⟩

/-! ### Sums -/

/-- Exact arithmetic in a semiring. -/
def ringAlu (R : Type) [CommSemiring R] : Alu R where
  zero := 0
  op
    | .add, a, b => a + b
    | .mul, a, b => a * b
    | _, _, _ => 0
  fma a b c := a * b + c

theorem ringAlu_exact (R : Type) [CommSemiring R] : Asm.Exact (ringAlu R) := ⟨rfl, fun _ _ => rfl, fun _ _ => rfl, fun _ _ _ => rfl⟩

theorem elems_get {m : Nat → F32.W} {p : Nat} {x : List F32.W} (h : elems 4 m p x.length = x) {i : Nat} (hi : i < x.length) :
    m (p + 4 * i) = x.getD i 0 := by
  have : (elems 4 m p x.length).getD i 0 = m (p + 4 * i) := by
    unfold elems
    rw [List.getD_eq_getElem _ _ (by simpa using hi)]
    simp
  rw [← this, h]

/-- The sum exists and is unique. -/
theorem sum1_exists (cpu : Cpu) (x : List F32.W) : ∃ w, Sum1 cpu x w := by
  obtain ⟨s', w, h1, h2, -⟩ := sum_f32 divIeee cpu (x := ⟨0, x.length⟩) (by norm_num) (stateOf x [])
  exact ⟨w, 0, stateOf x [], s', by norm_num, memOf_fst x [], (h1 _).mpr rfl, h2⟩

/-- Any relation that additions keep holds for the sum. -/
theorem sum1_rel {R : Type} [CommSemiring R] {P : R → F32.W → Prop} (hP : AluRel P adds (ringAlu R) (F32.alu divIeee)) {junk : R}
    (hj : ∀ w, P junk w) {cpu : Cpu} {x : List F32.W} {w : F32.W} (h : Sum1 cpu x w) (f : Nat → R)
    (hf : ∀ i < x.length, P (f i) (x.getD i 0)) : P (∑ i ∈ Finset.range x.length, f i) w := by
  obtain ⟨p, s, t, hp, he, hc, ho⟩ := h
  obtain ⟨s', w', h1, h2, -, h4⟩ := sum_rel (ringAlu_exact R) divIeee hP hj cpu (x := ⟨p, x.length⟩) hp s f
    (fun i hi => by rw [elems_get he hi]; exact hf i hi)
  obtain rfl := (h1 t).mp hc
  rw [h2] at ho; cases ho
  rwa [show ∑ i ∈ Finset.range x.length, f i = ((List.range x.length).map f).sum from rfl]

/-- Two numbers are added without underflow. -/
theorem add_pure {x y : F32.W} (hf : F32.Finite (addIeee x y)) :
    |val (addIeee x y) - (val x + val y)| ≤ |val x + val y| / 2 ^ 24 := by
  by_cases hb : (2 : ℝ) ^ (-126 : Int) ≤ |val x + val y|
  · have := add_near_fin hf
    unfold slack at this
    rwa [max_eq_left hb] at this
  · push Not at hb
    obtain ⟨hx, hy⟩ := add_finite hf
    have multiple : ∀ {z : F32.W}, F32.Finite z → ∃ k : Int, val z = k * (2 : ℝ) ^ (-149 : Int) := by
      intro z hz
      obtain ⟨k, j, e, -, hj⟩ := (finite_exact hz).1
      obtain ⟨d, hd⟩ := Int.le.dest hj
      refine ⟨k * 2 ^ d, ?_⟩
      rw [e, ← hd, zpow_add₀ (by norm_num), zpow_natCast]
      push_cast; ring
    obtain ⟨k, hk⟩ := multiple hx
    obtain ⟨l, hl⟩ := multiple hy
    have hs : val x + val y = ((k + l : Int) : ℝ) * (2 : ℝ) ^ (-149 : Int) := by rw [hk, hl]; push_cast; ring
    have he : F32.Exact (val x + val y) := by
      refine ⟨k + l, -149, hs, ?_, le_rfl⟩
      rw [hs, abs_mul, abs_of_pos (show (0 : ℝ) < (2 : ℝ) ^ (-149 : Int) by positivity),
        show (-126 : Int) = 23 + (-149) by norm_num, zpow_add₀ (by norm_num)] at hb
      have h2 : |((k + l : Int) : ℝ)| < (2 : ℝ) ^ (23 : Int) := lt_of_mul_lt_mul_right hb (by positivity)
      have h3 : ((k + l).natAbs : ℝ) < 8388608 := by
        rw [Nat.cast_natAbs]; push_cast at h2 ⊢; norm_num at h2; exact h2
      have h4 : (k + l).natAbs < 8388608 := by exact_mod_cast h3
      omega
    have h1 := add_le hf he le_rfl
    have h2 := add_ge hf he le_rfl
    rw [le_antisymm h1 h2, sub_self, abs_zero]
    positivity

/-- Numbers up to `2^K`, `n` of them. -/
def Upto (K : Nat) (n : ℕ) (w : F32.W) : Prop := n < many → F32.Finite w ∧ |val w| ≤ n * 2 ^ K

theorem exact_mul {n K : Nat} (h : n < 2 ^ 24) : F32.Exact (n * 2 ^ K : ℝ) :=
  ⟨n, K, by push_cast; rw [zpow_natCast], by simpa using h, by omega⟩

theorem many_pow {n K : Nat} (h : n < many) (hK : K ≤ 100) : (n : ℝ) * 2 ^ K ≤ maxFin := by
  have h1 : (n : ℝ) ≤ 2 ^ 22 := by
    have : n ≤ 2 ^ 22 := by unfold many at h; omega
    exact_mod_cast this
  have h2 : (2 : ℝ) ^ K ≤ 2 ^ 100 := pow_le_pow_right₀ (by norm_num) hK
  calc (n : ℝ) * 2 ^ K ≤ 2 ^ 22 * 2 ^ 100 := mul_le_mul h1 h2 (by positivity) (by positivity)
    _ ≤ maxFin := by unfold maxFin; norm_num

theorem upto_rel {K : Nat} (hK : K ≤ 100) : AluRel (Upto K) adds (ringAlu ℕ) (F32.alu divIeee) where
  zero _ := ⟨by show F32.Finite 0; unfold F32.Finite; decide, by
    show |val 0| ≤ ((0 : ℕ) : ℝ) * 2 ^ K; rw [val_zero]; simp⟩
  fma h := by simp [adds] at h
  op o ho a b a' b' ha hb := by
    cases o with
    | add =>
      intro hlt
      have hlt' : a + b < many := hlt
      obtain ⟨f1, b1⟩ := ha (by omega)
      obtain ⟨f2, b2⟩ := hb (by omega)
      show F32.Finite (addIeee a' b') ∧ |val (addIeee a' b')| ≤ ((a + b : ℕ) : ℝ) * 2 ^ K
      have hm := many_pow hlt' hK
      have hs : |val a' + val b'| ≤ ((a + b : ℕ) : ℝ) * 2 ^ K := by
        push_cast; rw [add_mul]; exact (abs_add_le _ _).trans (add_le_add b1 b2)
      have hf := add_fin f1 f2 (hs.trans hm)
      have he : F32.Exact (((a + b : ℕ) : ℝ) * 2 ^ K) := exact_mul (by unfold many at hlt'; omega)
      refine ⟨hf, abs_le.mpr ⟨?_, add_le hf he (abs_le.mp hs).2⟩⟩
      exact add_ge hf (exact_neg he) (abs_le.mp hs).1
    | mul | sub | div => simp [adds] at ho

theorem sum_upto {cpu : Cpu} {x : List F32.W} {w : F32.W} {K : Nat} (h : Sum1 cpu x w) (hn : x.length ≤ 2 ^ 20) (hK : K ≤ 100)
    (hx : ∀ i < x.length, F32.Finite (x.getD i 0) ∧ |val (x.getD i 0)| ≤ 2 ^ K) :
    F32.Finite w ∧ |val w| ≤ x.length * 2 ^ K := by
  have := sum1_rel (upto_rel hK) (junk := many) (fun w h => absurd h (lt_irrefl _)) h (fun _ => 1)
    (fun i hi _ => ⟨(hx i hi).1, by simpa using (hx i hi).2⟩)
  simp only [Finset.sum_const, Finset.card_range, smul_eq_mul, mul_one] at this
  exact this (by unfold many; omega)

/-- The sum is close to the exact one. -/
theorem sum_near {cpu : Cpu} {x : List F32.W} {w : F32.W} {K : Nat} (h : Sum1 cpu x w) (hn : x.length ≤ 2 ^ 20) (hK : K ≤ 100)
    {X : ℝ} (hX : X ≤ 2 ^ K) (hx : ∀ i < x.length, F32.Finite (x.getD i 0) ∧ |val (x.getD i 0)| ≤ X) :
    F32.Finite w ∧ |val w - ∑ i ∈ Finset.range x.length, val (x.getD i 0)| ≤ x.length / 2 ^ 23 * (x.length * (X + 1 / 2 ^ 63)) := by
  obtain ⟨f, -⟩ := sum_upto h hn hK fun i hi => ⟨(hx i hi).1, (hx i hi).2.trans hX⟩
  refine ⟨f, ?_⟩
  obtain ⟨p, s, t, hp, he, hc, ho⟩ := h
  obtain ⟨s', w', h1, h2, -, h4⟩ := sum_f32 divIeee cpu (x := ⟨p, x.length⟩) hp s
  obtain rfl := (h1 t).mp hc
  rw [h2] at ho; cases ho
  have h5 := (h4 f).2
  simp only [he] at h5
  have e1 : (x.map val).sum = ∑ i ∈ Finset.range x.length, val (x.getD i 0) := by
    rw [sum_range_list]
    congr 1
    apply List.ext_getElem
    · simp
    · intro i h1 h2
      simp only [List.length_map] at h1
      simp only [List.getElem_map, List.getElem_range]
      rw [List.getD_eq_getElem _ _ h1]
  rw [e1] at h5
  refine h5.trans (mul_le_mul ((growth_dot (by omega)).trans ?_) ?_ ?_ (by positivity))
  · rw [div_le_div_iff_of_pos_right (by positivity)]
    exact_mod_cast Nat.sub_le _ _
  · have : ∀ l : List F32.W, (∀ v ∈ l, |val v| ≤ X) → (l.map fun v => |val v| + tiny).sum ≤ l.length * (X + 1 / 2 ^ 63) := by
      intro l
      induction l with
      | nil => simp
      | cons a l ih =>
        intro hl
        have h1 := ih fun v hv => hl v (List.mem_cons_of_mem _ hv)
        have h2 := hl a List.mem_cons_self
        simp only [List.map_cons, List.sum_cons, List.length_cons]
        push_cast
        have : tiny = 1 / 2 ^ 63 := rfl
        rw [this] at h1 ⊢
        rw [add_mul]
        linarith
    refine this x fun v hv => ?_
    obtain ⟨i, hi, rfl⟩ := List.getElem_of_mem hv
    have := (hx i hi).2
    rwa [List.getD_eq_getElem _ _ hi] at this
  · exact List.sum_nonneg fun v hv => by
      simp only [List.mem_map] at hv
      obtain ⟨a, -, rfl⟩ := hv
      exact add_nonneg (abs_nonneg _) tiny_pos.le

/-- Numbers from 0 to `2^K`, `p.1` of them with the exact sum `p.2.1`; `p.2.2` of them from `t` on. -/
def Heap (K : Nat) (t : ℝ) (p : ℕ × ℝ × ℕ) (w : F32.W) : Prop :=
  p.1 < many → F32.Finite w ∧ 0 ≤ val w ∧ val w ≤ p.1 * 2 ^ K ∧ (p.1 = 0 → val w = 0 ∧ p.2.1 = 0) ∧ 0 ≤ p.2.1 ∧
    p.2.1 * (1 - 1 / 2 ^ 24) ^ p.1 ≤ val w ∧ val w ≤ p.2.1 * (1 + 1 / 2 ^ 24) ^ p.1 ∧ (p.2.2 ≠ 0 → t ≤ val w)

theorem heap_rel {K : Nat} {t : ℝ} (hK : K ≤ 100) (ht : F32.Exact t) : AluRel (Heap K t) adds (ringAlu (ℕ × ℝ × ℕ)) (F32.alu divIeee) where
  zero _ := ⟨by show F32.Finite 0; unfold F32.Finite; decide, by show 0 ≤ val 0; rw [val_zero], by
    show val 0 ≤ ((0 : ℕ) : ℝ) * 2 ^ K; rw [val_zero]; simp, fun _ => ⟨val_zero, rfl⟩, le_rfl, by
    show (0 : ℝ) * _ ≤ val 0; rw [val_zero]; simp, by show val 0 ≤ (0 : ℝ) * _; rw [val_zero]; simp, fun h => absurd rfl h⟩
  fma h := by simp [adds] at h
  op o ho a b a' b' ha hb := by
    cases o with
    | add =>
      intro hlt
      obtain ⟨n, r, k⟩ := a
      obtain ⟨m, q, l⟩ := b
      have hlt' : n + m < many := hlt
      obtain ⟨f1, z1, u1, c1, r1, lo1, hi1, t1⟩ := ha (by show n < many; omega)
      obtain ⟨f2, z2, u2, c2, r2, lo2, hi2, t2⟩ := hb (by show m < many; omega)
      simp only at u1 u2 c1 c2 r1 r2 lo1 lo2 hi1 hi2 t1 t2
      show F32.Finite (addIeee a' b') ∧ 0 ≤ val (addIeee a' b') ∧ val (addIeee a' b') ≤ ((n + m : ℕ) : ℝ) * 2 ^ K ∧
        (n + m = 0 → val (addIeee a' b') = 0 ∧ r + q = 0) ∧ 0 ≤ r + q ∧
        (r + q) * (1 - 1 / 2 ^ 24) ^ (n + m) ≤ val (addIeee a' b') ∧
        val (addIeee a' b') ≤ (r + q) * (1 + 1 / 2 ^ 24) ^ (n + m) ∧ (k + l ≠ 0 → t ≤ val (addIeee a' b'))
      have hm := many_pow hlt' hK
      have hs : val a' + val b' ≤ ((n + m : ℕ) : ℝ) * 2 ^ K := by push_cast; rw [add_mul]; linarith
      have hf : F32.Finite (addIeee a' b') := add_fin f1 f2 (by rw [abs_of_nonneg (by linarith)]; linarith)
      have he : F32.Exact (((n + m : ℕ) : ℝ) * 2 ^ K) := exact_mul (by unfold many at hlt'; omega)
      have hp := add_pure hf
      rw [abs_of_nonneg (show 0 ≤ val a' + val b' by linarith)] at hp
      have hp1 := (abs_le.mp hp).1
      have hp2 := (abs_le.mp hp).2
      have hthr : k + l ≠ 0 → t ≤ val (addIeee a' b') := by
        intro h
        refine add_ge hf ht ?_
        by_cases hk : k = 0
        · have := t2 (by omega); linarith
        · have := t1 hk; linarith
      have hzero : n + m = 0 → val (addIeee a' b') = 0 ∧ r + q = 0 := by
        intro h
        obtain ⟨e1, e2⟩ := c1 (by omega)
        obtain ⟨e3, e4⟩ := c2 (by omega)
        rw [add_zero_val f1 f2 (.inl e1), e1, e3, e2, e4]; simp
      refine ⟨hf, add_ge hf zero_exact (by linarith), add_le hf he hs, hzero, by linarith, ?_, ?_, hthr⟩
      · by_cases h1 : n = 0
        · obtain ⟨e1, e2⟩ := c1 h1
          rw [add_zero_val f1 f2 (.inl e1), e1, e2, h1]; simpa using lo2
        by_cases h2 : m = 0
        · obtain ⟨e1, e2⟩ := c2 h2
          rw [add_zero_val f1 f2 (.inr e1), e1, e2, h2]; simpa using lo1
        have g1 : r * (1 - 1 / 2 ^ 24) ^ (n + m - 1) ≤ val a' :=
          le_trans (mul_le_mul_of_nonneg_left (pow_le_pow_of_le_one (by norm_num) (by norm_num) (by omega)) r1) lo1
        have g2 : q * (1 - 1 / 2 ^ 24) ^ (n + m - 1) ≤ val b' :=
          le_trans (mul_le_mul_of_nonneg_left (pow_le_pow_of_le_one (by norm_num) (by norm_num) (by omega)) r2) lo2
        have e : (1 - 1 / 2 ^ 24 : ℝ) ^ (n + m) = (1 - 1 / 2 ^ 24) ^ (n + m - 1) * (1 - 1 / 2 ^ 24) := by
          rw [← pow_succ]; congr 1; omega
        rw [e]
        have : (r + q) * ((1 - 1 / 2 ^ 24 : ℝ) ^ (n + m - 1) * (1 - 1 / 2 ^ 24)) ≤ (val a' + val b') * (1 - 1 / 2 ^ 24) := by
          rw [← mul_assoc]
          refine mul_le_mul_of_nonneg_right ?_ (by norm_num)
          rw [add_mul]; linarith
        linarith
      · by_cases h1 : n = 0
        · obtain ⟨e1, e2⟩ := c1 h1
          rw [add_zero_val f1 f2 (.inl e1), e1, e2, h1]; simpa using hi2
        by_cases h2 : m = 0
        · obtain ⟨e1, e2⟩ := c2 h2
          rw [add_zero_val f1 f2 (.inr e1), e1, e2, h2]; simpa using hi1
        have g1 : val a' ≤ r * (1 + 1 / 2 ^ 24) ^ (n + m - 1) :=
          hi1.trans (mul_le_mul_of_nonneg_left (pow_le_pow_right₀ (by norm_num) (by omega)) r1)
        have g2 : val b' ≤ q * (1 + 1 / 2 ^ 24) ^ (n + m - 1) :=
          hi2.trans (mul_le_mul_of_nonneg_left (pow_le_pow_right₀ (by norm_num) (by omega)) r2)
        have e : (1 + 1 / 2 ^ 24 : ℝ) ^ (n + m) = (1 + 1 / 2 ^ 24) ^ (n + m - 1) * (1 + 1 / 2 ^ 24) := by
          rw [← pow_succ]; congr 1; omega
        rw [e]
        have : (val a' + val b') * (1 + 1 / 2 ^ 24) ≤ (r + q) * ((1 + 1 / 2 ^ 24 : ℝ) ^ (n + m - 1) * (1 + 1 / 2 ^ 24)) := by
          rw [← mul_assoc]
          refine mul_le_mul_of_nonneg_right ?_ (by norm_num)
          rw [add_mul]; linarith
        linarith
    | mul | sub | div => simp [adds] at ho

theorem pow_low (n : Nat) : 1 - (n : ℝ) / 2 ^ 24 ≤ (1 - 1 / 2 ^ 24 : ℝ) ^ n := by
  have := one_add_mul_le_pow (a := (-(1 / 2 ^ 24) : ℝ)) (by norm_num) n
  calc 1 - (n : ℝ) / 2 ^ 24 = 1 + n * -(1 / 2 ^ 24) := by ring
    _ ≤ _ := this
    _ = _ := by rw [← sub_eq_add_neg]

/-- A sum of numbers that are not negative: the relative error, and no less than any of them. -/
theorem sum_heap {cpu : Cpu} {x : List F32.W} {w : F32.W} {K : Nat} (h : Sum1 cpu x w) (hn : x.length ≤ 2 ^ 20) (hK : K ≤ 100)
    (hx : ∀ i < x.length, F32.Finite (x.getD i 0) ∧ 0 ≤ val (x.getD i 0) ∧ val (x.getD i 0) ≤ 2 ^ K) :
    F32.Finite w ∧ 0 ≤ val w ∧ val w ≤ x.length * 2 ^ K ∧ (∀ i < x.length, val (x.getD i 0) ≤ val w) ∧
      |val w - ∑ i ∈ Finset.range x.length, val (x.getD i 0)| ≤ x.length / 2 ^ 23 * ∑ i ∈ Finset.range x.length, val (x.getD i 0) := by
  have key : ∀ t : ℝ, F32.Exact t → Heap K t (∑ i ∈ Finset.range x.length, (1, val (x.getD i 0),
      if t ≤ val (x.getD i 0) then 1 else 0)) w := by
    intro t ht
    refine sum1_rel (heap_rel hK ht) (junk := (many, 0, 0)) (fun w h => absurd h (lt_irrefl _)) h _ fun i hi _ => ?_
    obtain ⟨h1, h2, h3⟩ := hx i hi
    refine ⟨h1, h2, by simpa using h3, fun h => by simp at h, h2, ?_, ?_, fun h => ?_⟩
    · simp only [pow_one]; nlinarith
    · simp only [pow_one]; nlinarith
    · simp only at h
      by_contra hc
      exact h (if_neg hc)
  have fsts : ∀ t : ℝ, (∑ i ∈ Finset.range x.length, ((1, val (x.getD i 0), if t ≤ val (x.getD i 0) then 1 else 0) : ℕ × ℝ × ℕ)) =
      (x.length, ∑ i ∈ Finset.range x.length, val (x.getD i 0),
        ∑ i ∈ Finset.range x.length, if t ≤ val (x.getD i 0) then 1 else 0) := by
    intro t
    refine Prod.ext ?_ (Prod.ext ?_ ?_)
    · rw [Prod.fst_sum]; simp
    · rw [Prod.snd_sum, Prod.fst_sum]
    · rw [Prod.snd_sum, Prod.snd_sum]
  have hlen : x.length < many := by unfold many; omega
  have k0 := key 0 zero_exact
  rw [fsts] at k0
  obtain ⟨g1, g2, g3, -, g5, g6, g7, -⟩ := k0 hlen
  simp only at g3 g5 g6 g7
  refine ⟨g1, g2, g3, fun i hi => ?_, ?_⟩
  · have k1 := key (val (x.getD i 0)) (finite_exact (hx i hi).1).1
    rw [fsts] at k1
    obtain ⟨-, -, -, -, -, -, -, g8⟩ := k1 hlen
    refine g8 fun h0 => ?_
    simp only at h0
    rw [Finset.sum_eq_zero_iff] at h0
    have := h0 i (Finset.mem_range.mpr hi)
    simp at this
  · generalize (∑ i ∈ Finset.range x.length, val (x.getD i 0)) = r at *
    have h1 := pow_low x.length
    have h2 : (1 + 1 / 2 ^ 24 : ℝ) ^ x.length ≤ 1 + x.length / 2 ^ 23 := by
      have := growth_dot hn
      unfold growth Asm.ulp at this
      linarith
    have h3 : (x.length : ℝ) / 2 ^ 24 ≤ x.length / 2 ^ 23 :=
      div_le_div_of_nonneg_left (Nat.cast_nonneg _) (by norm_num) (by norm_num)
    have h4 := mul_le_mul_of_nonneg_left h1 g5
    have h5 := mul_le_mul_of_nonneg_left h2 g5
    have h6 := mul_le_mul_of_nonneg_left h3 g5
    rw [abs_le]
    constructor <;> nlinarith

end Verif.Norm32
