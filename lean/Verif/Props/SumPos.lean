import Verif.Props.SumFinite
import Verif.Props.RoundingDense

set_option autoImplicit false
set_option linter.unusedSimpArgs false

/-!
# The assembly sum of positive numbers, and of infinities

For numbers of one sign the error is relative to the sum, however small or large they are.
-/

namespace Verif.Asm
open Verif.Spec Verif.Spec.Kernels Verif.F32

/-- A second run of `Sum32` over any semiring follows it, when its additions follow those of float32; about `junk` nothing
need be known. -/
theorem sum_rel {R : Type} [CommSemiring R] {P : R → F32.W → Prop} {A : Alu R} (hex : Asm.Exact A)
    (div : F32.W → F32.W → F32.W) (hP : AluRel P adds A (F32.alu div)) {junk : R} (hj : ∀ w, P junk w) (cpu : Cpu) {x : Sl}
    (hal : x.base % 4 = 0) (s : St F32.W) (f : Nat → R) (hf : ∀ i < x.len, P (f i) (s.mem (x.base + 4 * i))) :
    ∃ s' w, (∀ t, Call (frame1 4 (F32.alu div) x) (sumFn cpu .f32) s t ↔ t = s') ∧ s'.out = some w ∧
      s'.mem = s.mem ∧ P ((List.range x.len).map f).sum w := by
  obtain ⟨s', w, h1, h2, h3, -⟩ := sum_f32 div cpu hal s
  let S : St R := { r := s.r, zf := s.zf, lt := s.lt, v := fun _ _ => junk,
                    mem := fun a => if x.has 4 a then f ((a - x.base) / 4) else junk, out := s.out.map fun _ => junk }
  obtain ⟨S', hS, ho, -⟩ := sum_kernel cpu .f32 A hex hal S
  have hE : EnvRel P adds (frame1 4 A x) (frame1 4 (F32.alu div) x) := ⟨rfl, rfl, rfl, rfl, hP.zero, hP⟩
  have hrel₀ : StRel P S s := by
    refine ⟨rfl, rfl, rfl, fun _ _ => hj _, fun a => ?_, ?_⟩
    · show P (if x.has 4 a then f ((a - x.base) / 4) else junk) (s.mem a)
      split
      · rename_i h
        simp only [Sl.has, List.any_eq_true, List.mem_range, beq_iff_eq] at h
        obtain ⟨i, hi, rfl⟩ := h
        rw [show (x.base + 4 * i - x.base) / 4 = i by omega]
        exact hf i hi
      · exact hj _
    · cases e : s.out with
      | none => simp [S, e]
      | some a => simp only [S, e, Option.map_some]; exact hj _
  obtain ⟨t, ht, hrel⟩ := call_rel hE (sumFn_adds cpu .f32) ((hS S').mpr rfl) hrel₀
  obtain ⟨w', hw', hr⟩ := out_rel hrel ho
  obtain rfl := (h1 t).mp ht
  rw [h2] at hw'; cases hw'
  refine ⟨t, w, h1, h2, h3, ?_⟩
  have hc : elems Sz.f32.bytes S.mem x.base x.len = (List.range x.len).map f := by
    unfold elems
    refine List.map_congr_left fun i hi => ?_
    show (if x.has 4 (x.base + 4 * i) then f ((x.base + 4 * i - x.base) / 4) else junk) = f i
    rw [if_pos, show (x.base + 4 * i - x.base) / 4 = i by omega]
    simp only [Sl.has, List.any_eq_true, List.mem_range, beq_iff_eq]
    exact ⟨i, List.mem_range.mp hi, rfl⟩
  rw [hc] at hr
  exact hr

/-! ## Positive numbers -/

/-- The value and the number of elements. -/
noncomputable def posAlu : Alu (ℝ × ℕ) where
  zero := 0
  op
    | .add, a, b => a + b
    | .mul, a, b => a * b
    | _, _, _ => 0
  fma a b c := a * b + c

theorem posAlu_exact : Asm.Exact posAlu := ⟨rfl, fun _ _ => rfl, fun _ _ => rfl, fun _ _ _ => rfl⟩

/-- A sum `p.1` of `p.2` positive numbers, as far as it does not come near the largest float32. -/
def Pos (p : ℝ × ℕ) (w : F32.W) : Prop :=
  0 ≤ p.1 ∧ (p.2 < many → p.1 ≤ 2 ^ 124 → F32.Finite w ∧ (p.2 = 0 → p.1 = 0 ∧ val w = 0) ∧
    (p.2 ≠ 0 → (2 : ℝ) ^ (-125 : Int) ≤ p.1 ∧ |val w - p.1| ≤ growth ulp (p.2 - 1) * p.1))

theorem growth_many {n : Nat} (h : n ≤ 2 ^ 22) : growth ulp n ≤ 1 / 2 := by
  have h1 := Dense.growth_le ulp_nonneg (n := n) (by
    have : (n : ℝ) ≤ 2 ^ 22 := by exact_mod_cast h
    unfold ulp; linarith)
  have h2 : (n : ℝ) * ulp ≤ 1 / 4 := by
    have : (n : ℝ) ≤ 2 ^ 22 := by exact_mod_cast h
    unfold ulp; linarith
  refine h1.trans ?_
  rw [div_le_iff₀ (by linarith)]
  linarith

theorem pos_rel (div : F32.W → F32.W → F32.W) : AluRel Pos adds posAlu (F32.alu div) where
  zero := ⟨le_rfl, fun _ _ => ⟨by show F32.Finite 0; unfold F32.Finite; decide, fun _ => ⟨rfl, val_zero⟩, fun h => absurd rfl h⟩⟩
  fma h := by simp [adds] at h
  op o ho a b a' b' ha hb := by
    cases o with
    | add =>
      obtain ⟨v, n⟩ := a
      obtain ⟨u, m⟩ := b
      obtain ⟨hv0, ha⟩ := ha
      obtain ⟨hu0, hb⟩ := hb
      simp only at hv0 hu0 ha hb
      show 0 ≤ v + u ∧ (n + m < many → v + u ≤ 2 ^ 124 → F32.Finite (addIeee a' b') ∧
        (n + m = 0 → v + u = 0 ∧ val (addIeee a' b') = 0) ∧
        (n + m ≠ 0 → (2 : ℝ) ^ (-125 : Int) ≤ v + u ∧ |val (addIeee a' b') - (v + u)| ≤ growth ulp (n + m - 1) * (v + u)))
      refine ⟨by linarith, fun hlt hle => ?_⟩
      obtain ⟨f1, z1, s1⟩ := ha (by omega) (by linarith)
      obtain ⟨f2, z2, s2⟩ := hb (by omega) (by linarith)
      by_cases h1 : n = 0
      · obtain ⟨e1, e2⟩ := z1 h1
        have hw := add_zero_val f1 f2 (.inl e2)
        rw [e2, zero_add] at hw
        rw [hw]
        subst h1
        subst e1
        simp only [zero_add]
        refine ⟨add_fin f1 f2 ?_, z2, s2⟩
        rw [e2, zero_add]; exact (finite_exact f2).2
      by_cases h2 : m = 0
      · obtain ⟨e1, e2⟩ := z2 h2
        have hw := add_zero_val f1 f2 (.inr e2)
        rw [e2, add_zero] at hw
        rw [hw]
        subst h2
        subst e1
        simp only [add_zero]
        refine ⟨add_fin f1 f2 ?_, z1, s1⟩
        rw [e2, add_zero]; exact (finite_exact f1).2
      obtain ⟨l1, d1⟩ := s1 h1
      obtain ⟨l2, d2⟩ := s2 h2
      have hN : n + m - 2 ≤ 2 ^ 22 := by unfold many at hlt; omega
      have g1 : growth ulp (n - 1) ≤ growth ulp (n + m - 2) := growth_mono ulp_nonneg (by omega)
      have g2 : growth ulp (m - 1) ≤ growth ulp (n + m - 2) := growth_mono ulp_nonneg (by omega)
      have gh := growth_many hN
      have g0 := growth_nonneg ulp_nonneg (n + m - 2)
      have hs : |val a' + val b' - (v + u)| ≤ growth ulp (n + m - 2) * (v + u) := by
        have e : val a' + val b' - (v + u) = (val a' - v) + (val b' - u) := by ring
        rw [e]
        refine (abs_add_le _ _).trans ((add_le_add d1 d2).trans ?_)
        nlinarith [mul_le_mul_of_nonneg_right g1 hv0, mul_le_mul_of_nonneg_right g2 hu0]
      obtain ⟨hlo, hhi⟩ := abs_le.mp hs
      have hvu : (2 : ℝ) ^ (-125 : Int) ≤ v + u := by linarith
      have hpos : (0 : ℝ) < (2 : ℝ) ^ (-125 : Int) := by positivity
      have hgu : growth ulp (n + m - 2) * (v + u) ≤ 1 / 2 * (v + u) := mul_le_mul_of_nonneg_right gh (by linarith)
      have hfin : F32.Finite (addIeee a' b') := by
        refine add_fin f1 f2 ?_
        rw [abs_le]
        unfold maxFin
        constructor
        · norm_num at hpos ⊢; linarith
        · norm_num at hle ⊢; linarith
      refine ⟨hfin, fun h => absurd h (by omega), fun _ => ⟨hvu, ?_⟩⟩
      have hn := add_near_fin hfin
      have hS : |val a' + val b'| = val a' + val b' := abs_of_nonneg (by linarith)
      have hsl : slack (val a' + val b') = ulp * (val a' + val b') := by
        unfold slack ulp
        rw [hS, max_eq_left]
        · ring
        · have : (2 : ℝ) ^ (-125 : Int) = 2 * (2 : ℝ) ^ (-126 : Int) := by norm_num
          rw [this] at hvu
          linarith
      rw [hsl] at hn
      have hgs : growth ulp (n + m - 1) = (1 + ulp) * growth ulp (n + m - 2) + ulp := by
        rw [show n + m - 1 = (n + m - 2) + 1 by omega]
        unfold growth
        rw [pow_succ]; ring
      have e : val (addIeee a' b') - (v + u) =
          (val (addIeee a' b') - (val a' + val b')) + (val a' + val b' - (v + u)) := by ring
      rw [e, hgs]
      refine (abs_add_le _ _).trans ((add_le_add hn hs).trans ?_)
      have hu := ulp_nonneg
      nlinarith [mul_le_mul_of_nonneg_left hhi hu]
    | mul | sub | div => simp [adds] at ho

/-- **`Sum32` of positive normal numbers whose sum is not near the largest float32 is finite, and the error is relative to
the sum.** -/
theorem sum_pos (div : F32.W → F32.W → F32.W) (cpu : Cpu) {x : Sl} (hal : x.base % 4 = 0) (s : St F32.W)
    (hlen : x.len ≤ 2 ^ 22) (hne : 0 < x.len)
    (hx : ∀ i < x.len, F32.Finite (s.mem (x.base + 4 * i)) ∧ (2 : ℝ) ^ (-125 : Int) ≤ val (s.mem (x.base + 4 * i)))
    (hS : ((List.range x.len).map fun i => val (s.mem (x.base + 4 * i))).sum ≤ 2 ^ 124) :
    ∃ s' w, (∀ t, Call (frame1 4 (F32.alu div) x) (sumFn cpu .f32) s t ↔ t = s') ∧ s'.out = some w ∧
      s'.mem = s.mem ∧ F32.Finite w ∧
      |val w - ((List.range x.len).map fun i => val (s.mem (x.base + 4 * i))).sum| ≤
        growth ulp (x.len - 1) * ((List.range x.len).map fun i => val (s.mem (x.base + 4 * i))).sum := by
  obtain ⟨s', w, h1, h2, h3, h4⟩ := sum_rel posAlu_exact div (pos_rel div) (junk := (0, many))
    (fun w => ⟨le_rfl, fun h => absurd h (lt_irrefl _)⟩) cpu hal s (fun i => (val (s.mem (x.base + 4 * i)), 1))
    (fun i hi => ⟨(show (0 : ℝ) ≤ (2 : ℝ) ^ (-125 : Int) by positivity).trans (hx i hi).2, fun _ _ =>
      ⟨(hx i hi).1, fun h => absurd h one_ne_zero, fun _ => ⟨(hx i hi).2, by simp [growth]⟩⟩⟩)
  have e : ((List.range x.len).map fun i => (val (s.mem (x.base + 4 * i)), 1)).sum =
      (((List.range x.len).map fun i => val (s.mem (x.base + 4 * i))).sum, x.len) := by
    have : ∀ l : List Nat, (l.map fun i => ((val (s.mem (x.base + 4 * i)), 1) : ℝ × ℕ)).sum =
        ((l.map fun i => val (s.mem (x.base + 4 * i))).sum, l.length) := by
      intro l
      induction l with
      | nil => rfl
      | cons a l ih =>
        simp only [List.map_cons, List.sum_cons, ih, List.length_cons, Prod.mk_add_mk]
        rw [Nat.add_comm 1 l.length]
    rw [this, List.length_range]
  rw [e] at h4
  obtain ⟨-, h5⟩ := h4
  obtain ⟨f1, -, f2⟩ := h5 (by simp only [many]; omega) hS
  exact ⟨s', w, h1, h2, h3, f1, (f2 (by simp only; omega)).2⟩

/-! ## Infinities -/

/-- A sum of `n` infinities. -/
def AllInf (n : ℕ) (w : F32.W) : Prop := (n = 0 → w = 0) ∧ (n ≠ 0 → n < many → w = posInf)

theorem allInf_rel (div : F32.W → F32.W → F32.W) : AluRel AllInf adds countAlu (F32.alu div) where
  zero := ⟨fun _ => rfl, fun h => absurd rfl h⟩
  fma h := by simp [adds] at h
  op o ho a b a' b' ha hb := by
    cases o with
    | add =>
      show (a + b = 0 → addIeee a' b' = 0) ∧ (a + b ≠ 0 → a + b < many → addIeee a' b' = posInf)
      have key : addIeee 0 0 = 0 ∧ addIeee posInf 0 = posInf ∧ addIeee 0 posInf = posInf ∧
          addIeee posInf posInf = posInf := by decide +kernel
      refine ⟨fun h => ?_, fun h hlt => ?_⟩
      · rw [ha.1 (by omega), hb.1 (by omega)]; exact key.1
      · by_cases h1 : a = 0
        · rw [ha.1 h1, hb.2 (by omega) (by omega)]; exact key.2.2.1
        · by_cases h2 : b = 0
          · rw [hb.1 h2, ha.2 h1 (by omega)]; exact key.2.1
          · rw [ha.2 h1 (by omega), hb.2 h2 (by omega)]; exact key.2.2.2
    | mul | sub | div => simp [adds] at ho

theorem sum_inf (div : F32.W → F32.W → F32.W) (cpu : Cpu) {x : Sl} (hal : x.base % 4 = 0) (s : St F32.W)
    (hlen : x.len ≤ 2 ^ 22) (hne : 0 < x.len) (hx : ∀ i < x.len, s.mem (x.base + 4 * i) = posInf) :
    ∃ s', (∀ t, Call (frame1 4 (F32.alu div) x) (sumFn cpu .f32) s t ↔ t = s') ∧ s'.out = some posInf ∧
      s'.mem = s.mem := by
  obtain ⟨s', w, h1, h2, h3, h4⟩ := sum_rel countAlu_exact div (allInf_rel div) (junk := many)
    (fun w => ⟨fun h => absurd h (by simp [many]), fun _ h => absurd h (lt_irrefl _)⟩) cpu hal s (fun _ => 1)
    (fun i hi => ⟨fun h => absurd h one_ne_zero, fun _ _ => hx i hi⟩)
  have : w = posInf := h4.2 (by simp; omega) (by simp [many]; omega)
  exact ⟨s', h1, by rw [h2, this], h3⟩

end Verif.Asm
