import Verif.Props.Norm32Overflow

set_option autoImplicit false
set_option linter.unusedSimpArgs false

/-!
# Layer normalisation of a constant vector (C94)

The mean of seven equal numbers need not be that number: 1/7 is rounded before the sum is multiplied with it.  All deviations are then the
same tiny number instead of 0, and the division blows them up.
-/

namespace Verif.Norm32
open Verif.F32 Verif.Asm Verif.Spec Verif.Spec.Kernels Verif.Net32 Verif.Rec32 Verif.Att32 Verif.Adam32 Verif.Spec.Norm32
open Verif.Spec.Rec32 (vals Within)

/-- The multiples of a number, up to seven. -/
def Times (t : List F32.W) (k : ℕ) (w : F32.W) : Prop := k ≤ 7 → w = t.getD k 0

theorem times_rel {t : List F32.W} (h0 : t.getD 0 0 = 0) (ht : ∀ a < 8, ∀ b < 8, a + b < 8 →
    addIeee (t.getD a 0) (t.getD b 0) = t.getD (a + b) 0) : AluRel (Times t) adds (ringAlu ℕ) (F32.alu divIeee) where
  zero _ := by show 0 = t.getD 0 0; rw [h0]
  fma h := by simp [adds] at h
  op o ho a b a' b' ha hb := by
    cases o with
    | add =>
      intro hle
      have hle' : a + b ≤ 7 := hle
      rw [ha (by omega), hb (by omega)]
      exact ht a (by omega) b (by omega) (by omega)
    | mul | sub | div => simp [adds] at ho

theorem sum_seven {t : List F32.W} (h0 : t.getD 0 0 = 0) (ht : ∀ a < 8, ∀ b < 8, a + b < 8 →
    addIeee (t.getD a 0) (t.getD b 0) = t.getD (a + b) 0) {cpu : Cpu} {w : F32.W} (h : Sum1 cpu (List.replicate 7 (t.getD 1 0)) w) :
    w = t.getD 7 0 := by
  have := sum1_rel (times_rel h0 ht) (junk := 8) (fun w h => absurd h (by norm_num)) h (fun _ => 1) (fun i hi _ => by
    rw [List.getD_eq_getElem _ _ hi, List.getElem_replicate])
  simp only [List.length_replicate, Finset.sum_const, Finset.card_range, smul_eq_mul, mul_one] at this
  exact this le_rfl

/-- 0, 1, ... 7 times 3·2²². -/
def bigs : List F32.W := [0, 0x4b400000, 0x4bc00000, 0x4c100000, 0x4c400000, 0x4c700000, 0x4c900000, 0x4ca80000]

/-- 0, 1, ... 7. -/
def ones : List F32.W := [0, 0x3f800000, 0x40000000, 0x40400000, 0x40800000, 0x40a00000, 0x40c00000, 0x40e00000]

/-- 0, 3, ... 21. -/
def threes : List F32.W := [0, 0x40400000, 0x40c00000, 0x41100000, 0x41400000, 0x41700000, 0x41900000, 0x41a80000]

/-- 0, 1, ... 7 times 2⁻⁴⁴. -/
def tinies : List F32.W := [0, 0x29800000, 0x2a000000, 0x2a400000, 0x2a800000, 0x2aa00000, 0x2ac00000, 0x2ae00000]

theorem dev_seven {t : List F32.W} (h0 : t.getD 0 0 = 0) (ht : ∀ a < 8, ∀ b < 8, a + b < 8 →
    addIeee (t.getD a 0) (t.getD b 0) = t.getD (a + b) 0) {cpu : Cpu} {dev : List F32.W} (h : Dev cpu (List.replicate 7 (t.getD 1 0)) dev) :
    dev = List.replicate 7 (addIeee (t.getD 1 0) (F32.flip (mulIeee (t.getD 7 0) (invCount 7)))) := by
  obtain ⟨m, ⟨s, hs, hm⟩, hd⟩ := h
  rw [sum_seven h0 ht hs, scaleIn_iff] at hm
  simp only [List.map_cons, List.map_nil, List.cons.injEq, and_true, List.length_replicate] at hm
  unfold SubConst at hd
  rw [addConst_iff, hm] at hd
  rw [hd, List.map_replicate]

theorem meanSq_seven {t : List F32.W} (h0 : t.getD 0 0 = 0) (ht : ∀ a < 8, ∀ b < 8, a + b < 8 →
    addIeee (t.getD a 0) (t.getD b 0) = t.getD (a + b) 0) {cpu : Cpu} {v d : F32.W} (hd : mulIeee d d = t.getD 1 0)
    (h : MeanSq cpu (List.replicate 7 d) v) : v = mulIeee (t.getD 7 0) (invCount 7) := by
  obtain ⟨sq, ⟨-, rfl⟩, s, hs, hm⟩ := h
  rw [List.zipWith_replicate, hd] at hs hm
  rw [show min 7 7 = 7 from rfl] at hs hm
  rw [sum_seven h0 ht hs, scaleIn_iff] at hm
  simpa using hm

/-- **The normalisation of seven equal numbers is not 0**: LayerNorm, with weight 1 and bias 0 and epsilon `1e-5`, of seven times
12582912 gives seven times -0.999995, on every processor. -/
theorem layerNorm_const (cpu : Cpu) {z : List F32.W}
    (h : LayerNorm cpu (List.replicate 7 0x3f800000) (List.replicate 7 0) 0x3727c5ac (List.replicate 7 0x4b400000) z) :
    z = List.replicate 7 0xbf7fffac := by
  obtain ⟨dev, v, ve, y, p, hd, hv, hve, hy, hp, hz⟩ := h
  have e1 := dev_seven (t := bigs) rfl (by decide +kernel) hd
  have e2 : addIeee (bigs.getD 1 0) (F32.flip (mulIeee (bigs.getD 7 0) (invCount 7))) = 0xbf800000 := by decide +kernel
  rw [e2] at e1
  subst e1
  have e3 := meanSq_seven (t := ones) rfl (by decide +kernel) (by decide +kernel) hv
  rw [addNew_iff] at hve
  obtain ⟨-, hve⟩ := hve
  simp only [List.zipWith_cons_cons, List.zipWith_nil_left, List.cons.injEq, and_true] at hve
  rw [e3] at hve
  unfold DivConst at hy
  rw [scale_iff, hve] at hy
  obtain ⟨-, hp⟩ := hp
  rw [addNew_iff] at hz
  rw [hz.2, hp, hy]
  decide +kernel

/-- **LayerNormSimple of seven times 3** gives seven times -0.99958. -/
theorem layerNormSimple_const (cpu : Cpu) {y : List F32.W} (h : LayerNormSimple cpu (List.replicate 7 0x40400000) y) :
    y = List.replicate 7 0xbf7fe487 := by
  obtain ⟨dev, v, d, hd, hv, hve, hy⟩ := h
  have e1 := dev_seven (t := threes) rfl (by decide +kernel) hd
  have e2 : addIeee (threes.getD 1 0) (F32.flip (mulIeee (threes.getD 7 0) (invCount 7))) = 0xb4800000 := by decide +kernel
  rw [e2] at e1
  subst e1
  have e3 := meanSq_seven (t := tinies) rfl (by decide +kernel) (by decide +kernel) hv
  rw [addNew_iff] at hve
  obtain ⟨-, hve⟩ := hve
  simp only [List.zipWith_cons_cons, List.zipWith_nil_left, List.cons.injEq, and_true] at hve
  rw [e3] at hve
  unfold DivConst at hy
  rw [scale_iff, hve] at hy
  rw [hy]
  decide +kernel

/-- The exact normalisation of a constant vector is 0. -/
theorem layer_const {n : Nat} (h1 : 1 ≤ n) (eps c : ℝ) (i : Nat) : layer n eps (fun _ => c) i = 0 ∧ simple n (fun _ => c) i = 0 := by
  have hm : mean n (fun _ => c) = c := by
    unfold mean
    have : (n : ℝ) ≠ 0 := by exact_mod_cast (show n ≠ 0 by omega)
    simp [this]
  unfold layer simple
  rw [hm]
  simp

end Verif.Norm32
