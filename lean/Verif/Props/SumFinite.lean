import Verif.Props.RoundingF32
import Verif.Lemmas.F32Div

set_option autoImplicit false
set_option linter.unusedSimpArgs false
set_option maxRecDepth 10000

/-!
# The assembly sum of small numbers does not overflow

A second run of the routine counts how many elements went into every value.  What does not belong to the slice counts as
more than there can be, and nothing is said about it.
-/

namespace Verif.Asm
open Verif.Spec Verif.Spec.Kernels Verif.F32

/-- More than the elements of any slice we look at. -/
def many : Nat := 2 ^ 22 + 1

/-- Additions only. -/
def adds : Arith → Bool
  | .add => true
  | _ => false

def countAlu : Alu ℕ where
  zero := 0
  op
    | .add, a, b => a + b
    | .mul, a, b => a * b
    | _, _, _ => 0
  fma a b c := a * b + c

theorem countAlu_exact : Asm.Exact countAlu := ⟨rfl, fun _ _ => rfl, fun _ _ => rfl, fun _ _ _ => rfl⟩

/-- A sum of `n` numbers up to 2. -/
def Small (n : ℕ) (w : F32.W) : Prop :=
  n < many → F32.Finite w ∧ (n = 0 → val w = 0) ∧ (n ≠ 0 → |val w| ≤ 4 * n - 2)

theorem small_rel (div : F32.W → F32.W → F32.W) : AluRel Small adds countAlu (F32.alu div) where
  zero _ := ⟨by show F32.Finite 0; unfold F32.Finite; decide, fun _ => val_zero, fun h => absurd rfl h⟩
  fma h := by simp [adds] at h
  op o ho a b a' b' ha hb := by
    cases o with
    | add =>
      intro hlt
      have hlt' : a + b < many := hlt
      obtain ⟨f1, z1, s1⟩ := ha (by omega)
      obtain ⟨f2, z2, s2⟩ := hb (by omega)
      show F32.Finite (addIeee a' b') ∧ (a + b = 0 → val (addIeee a' b') = 0) ∧
        (a + b ≠ 0 → |val (addIeee a' b')| ≤ 4 * ((a + b : ℕ) : ℝ) - 2)
      by_cases h1 : a = 0
      · have v := add_zero_val f1 f2 (.inl (z1 h1))
        rw [z1 h1, zero_add] at v
        rw [v]
        subst h1
        simp only [zero_add]
        refine ⟨add_fin f1 f2 ?_, z2, s2⟩
        rw [z1 rfl, zero_add]; exact (finite_exact f2).2
      by_cases h2 : b = 0
      · have v := add_zero_val f1 f2 (.inr (z2 h2))
        rw [z2 h2, add_zero] at v
        rw [v]
        subst h2
        simp only [add_zero]
        refine ⟨add_fin f1 f2 ?_, z1, s1⟩
        rw [z2 rfl, add_zero]; exact (finite_exact f1).2
      have b1 := s1 h1
      have b2 := s2 h2
      have hab := (abs_add_le (val a') (val b')).trans (add_le_add b1 b2)
      have hn : ((a + b : ℕ) : ℝ) ≤ 2 ^ 22 := by
        have : a + b ≤ 2 ^ 22 := by unfold many at hlt'; omega
        exact_mod_cast this
      have hn1 : (1 : ℝ) ≤ ((a + b : ℕ) : ℝ) := by exact_mod_cast (by omega : 1 ≤ a + b)
      push_cast at hn hn1
      have hf : F32.Finite (addIeee a' b') := add_fin f1 f2 (by unfold maxFin; norm_num; linarith)
      refine ⟨hf, fun h => absurd h (by omega), fun _ => ?_⟩
      have hs := add_near_fin hf
      have hsl : slack (val a' + val b') ≤ 2 := by
        unfold slack
        rw [div_le_iff₀ (by positivity)]
        refine max_le (by linarith) (le_trans (b := 1) ?_ (by norm_num))
        norm_num
      have h3 := abs_sub_abs_le_abs_sub (val (addIeee a' b')) (val a' + val b')
      push_cast
      linarith
    | mul | sub | div => simp [adds] at ho

theorem sumFn_adds (cpu : Cpu) (sz : Sz) : ∀ x ∈ sumFn cpu sz, x.uses adds = true := by
  cases sz <;> simp only [sumFn] <;> split <;> decide

/-- The counting run. -/
def counted (x : Sl) (s : St F32.W) : St ℕ :=
  { r := s.r, zf := s.zf, lt := s.lt, v := fun _ _ => many, mem := fun a => if x.has 4 a then 1 else many
    out := s.out.map fun _ => many }

theorem counted_rel {x : Sl} {s : St F32.W}
    (hx : ∀ v ∈ elems 4 s.mem x.base x.len, F32.Finite v ∧ |val v| ≤ 2) : StRel Small (counted x s) s where
  r := rfl
  zf := rfl
  lt := rfl
  v _ _ := fun h => absurd h (lt_irrefl _)
  mem a := by
    show Small (if x.has 4 a then 1 else many) (s.mem a)
    split
    · rename_i h
      intro _
      simp only [Sl.has, List.any_eq_true, List.mem_range, beq_iff_eq] at h
      obtain ⟨i, hi, rfl⟩ := h
      obtain ⟨h1, h2⟩ := hx (s.mem (x.base + 4 * i)) (List.mem_map.mpr ⟨i, List.mem_range.mpr hi, rfl⟩)
      exact ⟨h1, fun h => absurd h one_ne_zero, fun _ => by norm_num; exact h2⟩
    · exact fun h => absurd h (lt_irrefl _)
  out := by
    cases e : s.out with
    | none => simp [counted, e]
    | some a => simp only [counted, e, Option.map_some]; exact fun h => absurd h (lt_irrefl _)

/-- **`Sum32` of up to 2^22 finite numbers up to 2 is finite**, so it is within the bound of C79. -/
theorem sum_small (div : F32.W → F32.W → F32.W) (cpu : Cpu) {x : Sl} (hal : x.base % 4 = 0) (s : St F32.W)
    (hlen : x.len ≤ 2 ^ 22) (hx : ∀ v ∈ elems 4 s.mem x.base x.len, F32.Finite v ∧ |val v| ≤ 2) :
    ∃ s' w, (∀ t, Call (frame1 4 (F32.alu div) x) (sumFn cpu .f32) s t ↔ t = s') ∧ s'.out = some w ∧
      s'.mem = s.mem ∧ F32.Finite w ∧
      |val w - ((elems 4 s.mem x.base x.len).map val).sum| ≤
        growth ulp (x.len - 1) * ((elems 4 s.mem x.base x.len).map fun v => |val v| + tiny).sum := by
  obtain ⟨s', w, h1, h2, h3, h4⟩ := sum_f32 div cpu hal s
  obtain ⟨S', hS, ho, -⟩ := sum_kernel cpu .f32 countAlu countAlu_exact hal (counted x s)
  have hE : EnvRel Small adds (frame1 4 countAlu x) (frame1 4 (F32.alu div) x) :=
    ⟨rfl, rfl, rfl, rfl, (small_rel div).zero, small_rel div⟩
  obtain ⟨t, ht, hrel⟩ := call_rel hE (sumFn_adds cpu .f32) ((hS S').mpr rfl) (counted_rel hx)
  obtain ⟨w', hw', hf⟩ := out_rel hrel ho
  obtain rfl := (h1 t).mp ht
  rw [h2] at hw'; cases hw'
  have hc : (elems Sz.f32.bytes (counted x s).mem x.base x.len) = (List.range x.len).map fun _ => 1 := by
    unfold elems
    refine List.map_congr_left fun i hi => ?_
    show (if x.has 4 (x.base + 4 * i) then 1 else many) = 1
    rw [if_pos]
    simp only [Sl.has, List.any_eq_true, List.mem_range, beq_iff_eq]
    exact ⟨i, List.mem_range.mp hi, rfl⟩
  rw [hc] at hf
  have hfin := (hf (by simp [many]; omega)).1
  exact ⟨t, w, h1, h2, h3, hfin, (h4 hfin).2⟩

end Verif.Asm
