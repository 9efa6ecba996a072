import Verif.Lemmas.F32Mono
import Verif.Model.CrossEntropy32
import Verif.Spec.CrossEntropy32
import Verif.Props.Softmax32
import Verif.Props.SumPos
import Mathlib.Analysis.Complex.ExponentialBounds

set_option autoImplicit false
set_option linter.unusedSimpArgs false

/-!
# The steps of the cross entropy on float32 (C87)
-/

namespace Verif.CrossEntropy32
open Verif.F32 Verif.Asm Verif.Spec Verif.Spec.Kernels Verif.Spec.Softmax32 Verif.Spec.CrossEntropy32 Verif.Softmax32

/-! ## The maximum -/

theorem lt_irrefl_word (v : F32.W) : lt v v = false := by
  unfold lt
  cases isNaN v <;> simp

theorem argMaxLoop_get {data : List F32.W} : ∀ (l : List F32.W) (i k : Nat) (m : F32.W), data.drop i = l → data[k]? = some m →
    data[argMaxLoop i k m l]? = some (maxLoop m l)
  | [], i, k, m, _, hk => hk
  | v :: l, i, k, m, hd, hk => by
    have hv : data[i]? = some v := by
      have := congrArg (fun l => l[0]?) hd
      simpa using this
    have hd' : data.drop (i + 1) = l := by
      have := congrArg (List.drop 1) hd
      simpa [List.drop_drop, Nat.add_comm] using this
    unfold argMaxLoop maxLoop
    by_cases h : lt m v = true
    · rw [if_pos h, if_pos h]; exact argMaxLoop_get l (i + 1) i v hd' hv
    · rw [if_neg h, if_neg h]; exact argMaxLoop_get l (i + 1) k m hd' hk

theorem reduceMax_eq (l : List F32.W) : reduceMax32 l = max32 l := by
  cases l with
  | nil => rfl
  | cons v l =>
    unfold reduceMax32 argMax32 max32
    simp only [Option.bind_eq_bind, Option.bind_some]
    rw [argMaxLoop_get (v :: l) 0 0 v rfl rfl]
    show some (maxLoop (if lt v v = true then v else v) l) = _
    simp

/-! ## Scalars -/

theorem log1_iff (cpu : Cpu) (j : ExpLog.Lane) (f : F32.W → F32.W) (w a : F32.W) : Log1 cpu j f w a ↔ a = f w := by
  have key : ∀ (k : Nat) (g : F32.W → F32.W) (m : ExpLog.Mem), 1 < k →
      ∃ m', ExpLog.log32 k g f ⟨0, 1⟩ ⟨1, 1⟩ m = some m' ∧ m' 1 = f (m 0) := by
    intro k g m hk
    obtain ⟨m', h1, h2, -⟩ := ExpLog.log32_spec k g f ⟨0, 1⟩ ⟨1, 1⟩ m le_rfl (fun i j hi hj => by simp only at hi hj ⊢; omega)
      (by omega)
    refine ⟨m', h1, ?_⟩
    have := (h2 0 (by simp)).2.2 (by simp [Nat.div_eq_of_lt hk])
    simpa using this
  have hk : 1 < (if cpu.avx2 then 8 else 4) := by split <;> norm_num
  constructor
  · rintro ⟨m, rfl, m', h1, rfl⟩
    obtain ⟨m'', e1, e2⟩ := key _ (ExpLog.lane ieee (if cpu.avx2 then ExpLog.logAVX else ExpLog.logSSE) j) m hk
    rw [h1] at e1; cases e1
    exact e2
  · rintro rfl
    obtain ⟨m', e1, e2⟩ := key _ (ExpLog.lane ieee (if cpu.avx2 then ExpLog.logAVX else ExpLog.logSSE) j) (fun _ => w) hk
    exact ⟨fun _ => w, rfl, m', e1, e2⟩

theorem add1_iff (cpu : Cpu) (a b c : F32.W) : Add1 cpu a b c ↔ c = addIeee a b := by
  have key : ∀ s : St F32.W, ∃ s', (∀ t, Call (frame3 4 (F32.alu divIeee) ⟨0, 1⟩ ⟨4, 1⟩ ⟨8, 1⟩) (addFn cpu .f32) s t ↔ t = s') ∧
      s'.mem 8 = addIeee (s.mem 0) (s.mem 4) := by
    intro s
    obtain ⟨s', h1, h2, -⟩ := add_kernel cpu .f32 (F32.alu divIeee) (x1 := ⟨0, 1⟩) (x2 := ⟨4, 1⟩) (y := ⟨8, 1⟩) le_rfl le_rfl
      (by decide) (.inr fun i j hi hj => by simp only [Sz.bytes] at hi hj ⊢; omega)
      (.inr fun i j hi hj => by simp only [Sz.bytes] at hi hj ⊢; omega) s
    refine ⟨s', h1, ?_⟩
    simp only [elems, List.range_one, List.map_cons, List.map_nil, List.zipWith_cons_cons, List.zipWith_nil_left, mul_zero,
      add_zero, List.cons.injEq, and_true] at h2
    exact h2
  constructor
  · rintro ⟨s, t, rfl, rfl, h, rfl⟩
    obtain ⟨s', h1, h2⟩ := key s
    obtain rfl := (h1 t).mp h
    exact h2
  · rintro rfl
    let s : St F32.W := { r := fun _ => 0, zf := false, lt := false, v := fun _ _ => 0,
                          mem := fun i => if i = 0 then a else b, out := none }
    obtain ⟨s', h1, h2⟩ := key s
    refine ⟨s, s', rfl, rfl, (h1 s').mpr rfl, h2⟩

/-! ## The exponentials -/

/-- `Exp32` from one slice to another, on the bytes. -/
theorem exp_between (cpu : Cpu) (j : ExpLog.Lane) (scalar : F32.W → F32.W) {x y : Asm.Sl} (hx : x.base % 4 = 0)
    (hy : y.base % 4 = 0) (hlen : x.len ≤ y.len) (hap : Apart 4 x.len x.base y.base) (m : Nat → F32.W) :
    ∃ m', ExpLog.exp32 (expKernel cpu j).1 (expKernel cpu j).2 scalar ⟨x.base / 4, x.len⟩ ⟨y.base / 4, y.len⟩
        (words m) = some m' ∧
      (∀ i < x.len, putWords m m' (y.base + 4 * i) =
        (if i < x.len / (expKernel cpu j).1 * (expKernel cpu j).1 then (expKernel cpu j).2 else scalar)
          (m (x.base + 4 * i))) ∧
      OnlyAt 4 y.base x.len m (putWords m m') := by
  obtain ⟨m', h1, h2, h3⟩ := ExpLog.exp32_spec (expKernel cpu j).1 (expKernel cpu j).2 scalar ⟨x.base / 4, x.len⟩
    ⟨y.base / 4, y.len⟩ (words m) hlen (fun a b ha hb h => absurd (show x.base + 4 * a = y.base + 4 * b by
      simp only at h; omega) (hap a b ha hb))
  refine ⟨m', h1, fun i hi => ?_, fun a ha => ?_⟩
  · have := h2 i hi
    unfold putWords
    rw [if_pos (by omega), show (y.base + 4 * i) / 4 = y.base / 4 + i by omega, this]
    simp only [words]
    rw [show 4 * (x.base / 4 + i) = x.base + 4 * i by omega]
    split <;> rfl
  · unfold putWords
    split
    · rename_i h4
      rw [h3 (a / 4) fun i hi hc => ha i hi (by simp only at hc; omega)]
      show m (4 * (a / 4)) = m a
      congr 1; omega
    · rfl

theorem zero_word {z : F32.W} (hf : F32.Finite z) (h : val z = 0) : z = 0 ∨ z = 0x80000000 := by
  have h1 : (unpack z).2.1 = 0 := by
    unfold val at h
    have e : ((2 : ℝ) ^ (unpack z).2.2) ≠ 0 := by positivity
    rcases mul_eq_zero.mp h with h | h
    · rcases mul_eq_zero.mp h with h | h
      · split at h <;> norm_num at h
      · exact_mod_cast h
    · exact absurd h e
  unfold unpack at h1
  simp only at h1
  have hlt := z.isLt
  have : z.toNat = 0 ∨ z.toNat = 0x80000000 := by
    split at h1 <;> omega
  rcases this with h | h
  · left; exact BitVec.eq_of_toNat_eq h
  · right; exact BitVec.eq_of_toNat_eq h

theorem one_kernel (cpu : Cpu) (j : ExpLog.Lane) : ExpOne (expKernel cpu j).2 := by
  have hone : (0x3f800000 : F32.W) = 0x3f800000 := rfl
  have key : ∀ z : F32.W, z = 0 ∨ z = 0x80000000 → (expKernel cpu j).2 z = 0x3f800000 := by
    intro z hz
    unfold expKernel
    split
    · show ExpLog.lane ieee ExpLog.expAVX j z = _
      rw [ExpLog.lane_junk ieee j ⟨0, 0, 0, 0, 0, 0, 0⟩ z _ List.mem_cons_self]
      rcases hz with rfl | rfl <;> decide +kernel
    · show ExpLog.lane ieee ExpLog.expSSE j z = _
      rw [ExpLog.lane_junk ieee j ⟨0, 0, 0, 0, 0, 0, 0⟩ z _ (by simp)]
      rcases hz with rfl | rfl <;> decide +kernel
  intro z hf h
  rw [key z (zero_word hf h)]
  exact one_word

/-! ## The sum -/

/-- The number of the elements, and of those equal to 1. -/
def pairAlu : Alu (ℕ × ℕ) where
  zero := 0
  op
    | .add, a, b => a + b
    | .mul, a, b => a * b
    | _, _, _ => 0
  fma a b c := a * b + c

theorem pairAlu_exact : Asm.Exact pairAlu := ⟨rfl, fun _ _ => rfl, fun _ _ => rfl, fun _ _ _ => rfl⟩

/-- A sum of `p.1` numbers between 0 and 4, of which `p.2` are from 1 on. -/
def FromOne (p : ℕ × ℕ) (w : F32.W) : Prop :=
  p.1 < many → F32.Finite w ∧ 0 ≤ val w ∧ val w ≤ 4 * p.1 ∧ (p.2 ≠ 0 → 1 ≤ val w)

theorem exact_nat {k : Nat} (h : k < 2 ^ 24) {j : Nat} : F32.Exact (2 ^ j * k : ℝ) :=
  ⟨k, j, by push_cast; rw [zpow_natCast]; ring, by simpa using h, by omega⟩

theorem fromOne_rel (div : F32.W → F32.W → F32.W) : AluRel FromOne adds pairAlu (F32.alu div) where
  zero _ := ⟨by show F32.Finite 0; unfold F32.Finite; decide, by show 0 ≤ val 0; rw [val_zero], by
    show val 0 ≤ 4 * ((0 : ℕ) : ℝ); rw [val_zero]; simp, fun h => absurd rfl h⟩
  fma h := by simp [adds] at h
  op o ho a b a' b' ha hb := by
    cases o with
    | add =>
      intro hlt
      obtain ⟨n, k⟩ := a
      obtain ⟨m, l⟩ := b
      have hlt' : n + m < many := hlt
      obtain ⟨f1, z1, u1, o1⟩ := ha (by simp only; omega)
      obtain ⟨f2, z2, u2, o2⟩ := hb (by simp only; omega)
      simp only at u1 u2 o1 o2
      show F32.Finite (addIeee a' b') ∧ 0 ≤ val (addIeee a' b') ∧ val (addIeee a' b') ≤ 4 * ((n + m : ℕ) : ℝ) ∧
        (k + l ≠ 0 → 1 ≤ val (addIeee a' b'))
      have hm : n + m < 2 ^ 24 := by unfold many at hlt'; omega
      have hm' : ((n + m : ℕ) : ℝ) < 2 ^ 24 := by exact_mod_cast hm
      have hf : F32.Finite (addIeee a' b') := by
        refine add_fin f1 f2 ?_
        rw [abs_of_nonneg (by linarith)]
        unfold maxFin
        push_cast at hm'
        norm_num at hm' ⊢
        linarith
      refine ⟨hf, add_ge hf Asm.exact_zero (by linarith), ?_, fun h => ?_⟩
      · have := exact_nat hm (j := 2)
        norm_num at this
        refine add_le hf (a := 4 * ((n + m : ℕ) : ℝ)) (by push_cast; exact this) ?_
        push_cast; linarith
      · have h1 : F32.Exact (1 : ℝ) := by
          have := exact_nat (k := 1) (by norm_num) (j := 0)
          norm_num at this
          exact this
        refine add_ge hf h1 ?_
        by_cases hk : k = 0
        · have := o2 (by omega); linarith
        · have := o1 hk; linarith
    | mul | sub | div => simp [adds] at ho

theorem sum_from_one (div : F32.W → F32.W → F32.W) (cpu : Cpu) {x : Asm.Sl} (hal : x.base % 4 = 0) (s : St F32.W)
    (hlen : x.len ≤ 2 ^ 22)
    (hx : ∀ i < x.len, F32.Finite (s.mem (x.base + 4 * i)) ∧ 0 ≤ val (s.mem (x.base + 4 * i)) ∧
      val (s.mem (x.base + 4 * i)) ≤ 4) (h1 : ∃ i < x.len, 1 ≤ val (s.mem (x.base + 4 * i))) :
    ∃ s' w, (∀ t, Call (frame1 4 (F32.alu div) x) (sumFn cpu .f32) s t ↔ t = s') ∧ s'.out = some w ∧ 1 ≤ val w := by
  classical
  obtain ⟨s', w, a1, a2, a3, a4⟩ := sum_rel pairAlu_exact div (fromOne_rel div) (junk := (many, 0))
    (fun w h => absurd h (lt_irrefl _)) cpu hal s
    (fun i => (1, if 1 ≤ val (s.mem (x.base + 4 * i)) then 1 else 0))
    (fun i hi _ => ⟨(hx i hi).1, (hx i hi).2.1, by simpa using (hx i hi).2.2, fun h => by
      simp only at h
      by_contra hc
      exact h (if_neg hc)⟩)
  have e : ((List.range x.len).map fun i => ((1, if 1 ≤ val (s.mem (x.base + 4 * i)) then 1 else 0) : ℕ × ℕ)).sum =
      (x.len, ((List.range x.len).map fun i => if 1 ≤ val (s.mem (x.base + 4 * i)) then 1 else 0).sum) := by
    have : ∀ l : List Nat, (l.map fun i => ((1, if 1 ≤ val (s.mem (x.base + 4 * i)) then 1 else 0) : ℕ × ℕ)).sum =
        (l.length, (l.map fun i => if 1 ≤ val (s.mem (x.base + 4 * i)) then 1 else 0).sum) := by
      intro l
      induction l with
      | nil => rfl
      | cons a l ih =>
        simp only [List.map_cons, List.sum_cons, ih, List.length_cons, Prod.mk_add_mk]
        rw [Nat.add_comm 1 l.length]
    rw [this, List.length_range]
  rw [e] at a4
  refine ⟨s', w, a1, a2, (a4 (by simp only [many]; omega)).2.2.2 ?_⟩
  simp only
  obtain ⟨i, hi, h⟩ := h1
  intro h0
  rw [List.sum_eq_zero_iff] at h0
  have := h0 1 (List.mem_map.mpr ⟨i, List.mem_range.mpr hi, if_pos h⟩)
  exact one_ne_zero this

end Verif.CrossEntropy32
