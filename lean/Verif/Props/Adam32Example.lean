import Verif.Props.Adam32Frozen

set_option autoImplicit false
set_option linter.unusedSimpArgs false

/-!
# C93: examples

The default settings of the code (optimizers/adam/adam.go:60-67), for parameters up to 2¹⁹; with `Lambda` = 0.01, up to 2¹⁰.
-/

namespace Verif.Adam32.Example
open Verif.F32 Verif.Asm Verif.Spec Verif.Net32 Verif.Adam32 Verif.Spec.Adam32

/-- 0.9, 0.1, 0.999, 0.001, 1e-8. -/
def o : Settings := ⟨0x3f666666, 0x3dcccccd, 0x3f7fbe77, 0x3a83126f, 0x322bcc77, none⟩

/-- With the weight decay 0.01. -/
def ow : Settings := { o with decay := some 0x3c23d70a }

theorem b1 : val 0x3f666666 = 7549747 / 8388608 := by simp [val, unpack]; norm_num
theorem b1c : val 0x3dcccccd = 13421773 / 134217728 := by simp [val, unpack]; norm_num
theorem b2 : val 0x3f7fbe77 = 16760439 / 16777216 := by simp [val, unpack]; norm_num
theorem b2c : val 0x3a83126f = 8589935 / 8589934592 := by simp [val, unpack]; norm_num
theorem eps : val 0x322bcc77 = 11258999 / 1125899906842624 := by simp [val, unpack]; norm_num
theorem lam : val 0x3c23d70a = 5368709 / 536870912 := by simp [val, unpack]; norm_num

/-- The default settings are such settings, with ratio 8. -/
theorem sane : Sane o 8 where
  b1_fin := by unfold F32.Finite; decide
  b1c_fin := by unfold F32.Finite; decide
  b2_fin := by unfold F32.Finite; decide
  b2c_fin := by unfold F32.Finite; decide
  eps_fin := by unfold F32.Finite; decide
  b1_nonneg := by simp only [o, b1]; norm_num
  b1_le := by simp only [o, b1]; norm_num
  b1c_nonneg := by simp only [o, b1c]; norm_num
  b1_sum := by simp only [o, b1, b1c]; norm_num
  b2_pos := by simp only [o, b2]; norm_num
  b2_le := by simp only [o, b2]; norm_num
  b2c_pos := by simp only [o, b2c]; norm_num
  b2_sum := by simp only [o, b2, b2c]; norm_num
  eps_ge := by simp only [o, eps]; norm_num
  eps_le := by simp only [o, eps]; norm_num
  K_ge := by norm_num
  K_le := by norm_num
  ratio := by simp only [o, b1, b1c, b2, b2c]; norm_num

theorem sanew : Sane ow 8 := { sane with }

theorem room : Room o (1 / 600) 8 19 := by
  refine ⟨by norm_num, by norm_num, by norm_num, ?_⟩
  simp only [o]; norm_num

theorem roomw : Room ow (1 / 600) 8 10 := by
  refine ⟨by norm_num, by norm_num, by norm_num, ?_⟩
  simp only [ow]
  refine ⟨by unfold F32.Finite; decide, ?_, ?_, ?_, ?_⟩ <;> rw [lam] <;> norm_num

/-- Gradients 1 and -2 with `Alpha` 0.001. -/
def p : F32.W × List F32.W := (0x3a83126f, [0x3f800000, 0xc0000000])

theorem g1 : val 0x3f800000 = 1 := by simp [val, unpack]; norm_num
theorem g2 : val 0xc0000000 = -2 := by simp [val, unpack]; norm_num
theorem g3 : val 0x60000000 = 2 ^ 65 := by simp [val, unpack]; norm_num

theorem feeds : Feeds 2 (1 / 600) 2 p := by
  refine ⟨by unfold F32.Finite; decide, ?_, ?_, rfl, ?_⟩
  · simp only [p, b2c]; norm_num
  · simp only [p, b2c]; norm_num
  · intro i hi
    have : i = 0 ∨ i = 1 := by omega
    rcases this with rfl | rfl
    · exact ⟨by unfold F32.Finite; decide, by simp only [p, List.getD_cons_zero, List.getD_cons_succ, g1]; norm_num⟩
    · exact ⟨by unfold F32.Finite; decide, by simp only [p, List.getD_cons_zero, List.getD_cons_succ, g2]; norm_num⟩

theorem start : ∀ i < 2, F32.Finite (([0x3f800000, 0xc0000000] : List F32.W).getD i 0) ∧
    |val (([0x3f800000, 0xc0000000] : List F32.W).getD i 0)| ≤ 2 := by
  intro i hi
  have : i = 0 ∨ i = 1 := by omega
  rcases this with rfl | rfl
  · exact ⟨by unfold F32.Finite; decide, by simp only [List.getD_cons_zero, List.getD_cons_succ, g1]; norm_num⟩
  · exact ⟨by unfold F32.Finite; decide, by simp only [List.getD_cons_zero, List.getD_cons_succ, g2]; norm_num⟩

/-- A thousand steps. -/
example (cpu : Cpu) : ∃ w' s', Train cpu o (List.replicate 1000 p) [0x3f800000, 0xc0000000] w' s' ∧
    Close o 8 2 19 2 (List.replicate 1000 p) w' s' := by
  obtain ⟨⟨w', s', h⟩, h2⟩ := adam_close cpu sane room (G := 2) (n := 2) (w := [0x3f800000, 0xc0000000]) (by norm_num) (by norm_num)
    (l := List.replicate 1000 p) (fun q hq => by rw [List.eq_of_mem_replicate hq]; exact feeds) rfl
    (fun i hi => ⟨(start i hi).1, (start i hi).2.trans (by norm_num)⟩)
  exact ⟨w', s', h, h2 w' s' h⟩

/-- A thousand steps of AdamW. -/
example (cpu : Cpu) : ∃ w' s', Train cpu ow (List.replicate 1000 p) [0x3f800000, 0xc0000000] w' s' ∧
    Close ow 8 2 10 2 (List.replicate 1000 p) w' s' := by
  obtain ⟨⟨w', s', h⟩, h2⟩ := adam_close cpu sanew roomw (G := 2) (n := 2) (w := [0x3f800000, 0xc0000000]) (by norm_num) (by norm_num)
    (l := List.replicate 1000 p) (fun q hq => by rw [List.eq_of_mem_replicate hq]; exact feeds) rfl
    (fun i hi => ⟨(start i hi).1, (start i hi).2.trans (by norm_num)⟩)
  exact ⟨w', s', h, h2 w' s' h⟩

/-- The first step after a thousand. -/
example {cpu : Cpu} {w₁ w₂ : List F32.W} {s₁ s₂ : State}
    (h : Train cpu o (List.replicate 1000 p) [0x3f800000, 0xc0000000] w₁ s₁) (hs : Step cpu o p.1 w₁ p.2 s₁ w₂ s₂) :
    StepClose o 8 2 p.1 w₁ w₂ s₂ ∧ ∀ i < 2, |val (w₂.getD i 0) - val (w₁.getD i 0)| ≤
      val p.1 * 8 * (1 + 1 / 2 ^ 17) + |val (w₁.getD i 0)| / 2 ^ 24 + (2 : ℝ) ^ (-148 : Int) :=
  ⟨adam_step sane room (G := 2) (n := 2) (w := [0x3f800000, 0xc0000000]) (by norm_num) (by norm_num) (fun q hq => by rw [List.eq_of_mem_replicate hq]; exact feeds) rfl
    (fun i hi => ⟨(start i hi).1, (start i hi).2.trans (by norm_num)⟩) h feeds hs,
  adam_step_bound sane room (G := 2) (n := 2) (w := [0x3f800000, 0xc0000000]) (by norm_num) (by norm_num) rfl (fun q hq => by rw [List.eq_of_mem_replicate hq]; exact feeds) rfl
    (fun i hi => ⟨(start i hi).1, (start i hi).2.trans (by norm_num)⟩) h feeds hs⟩

/-- A gradient of 2⁶⁵ for the first element. -/
def q : F32.W × List F32.W := (0x3a83126f, [0x60000000, 0xc0000000])

theorem feeds' : Feeds 2 (1 / 600) (2 ^ 120) q := by
  refine ⟨by unfold F32.Finite; decide, ?_, ?_, rfl, ?_⟩
  · simp only [q, b2c]; norm_num
  · simp only [q, b2c]; norm_num
  · intro i hi
    have : i = 0 ∨ i = 1 := by omega
    rcases this with rfl | rfl
    · exact ⟨by unfold F32.Finite; decide, by simp only [q, List.getD_cons_zero, g3]; norm_num⟩
    · exact ⟨by unfold F32.Finite; decide, by simp only [q, List.getD_cons_zero, List.getD_cons_succ, g2]; norm_num⟩

theorem feeds_mono {n : Nat} {A G G' : ℝ} (h : G ≤ G') {p : F32.W × List F32.W} (hp : Feeds n A G p) : Feeds n A G' p :=
  ⟨hp.1, hp.2.1, hp.2.2.1, hp.2.2.2.1, fun i hi => ⟨(hp.2.2.2.2 i hi).1, (hp.2.2.2.2 i hi).2.trans h⟩⟩

/-- Ten steps, the large gradient, and a thousand more steps with usual gradients: the first element is as it was before. -/
example {cpu : Cpu} {w₁ w₂ : List F32.W} {s₁ s₂ : State}
    (h : Train cpu o (List.replicate 10 p) [0x3f800000, 0xc0000000] w₁ s₁)
    (h' : Steps cpu o (q :: List.replicate 1000 p) w₁ s₁ w₂ s₂) : val (w₂.getD 0 0) = val (w₁.getD 0 0) :=
  (adam_frozen sane room (n := 2) (w := [0x3f800000, 0xc0000000]) rfl (fun r hr => by rw [List.eq_of_mem_replicate hr]; exact feeds_mono (by norm_num) feeds) rfl
    (fun i hi => ⟨(start i hi).1, (start i hi).2.trans (by norm_num)⟩) h feeds' (i := 0) (by norm_num)
    (by simp only [List.getD_cons_zero, g3]; norm_num)
    (fun r hr => by rw [List.eq_of_mem_replicate hr]; exact feeds_mono (by norm_num) feeds) h').2

/-- Both exist. -/
example (cpu : Cpu) : ∃ w₁ s₁ w₂ s₂, Train cpu o (List.replicate 10 p) [0x3f800000, 0xc0000000] w₁ s₁ ∧
    Steps cpu o (q :: List.replicate 1000 p) w₁ s₁ w₂ s₂ := by
  obtain ⟨w₁, s₁, h⟩ := steps_exists cpu o (n := 2) (List.replicate 10 p) (newState_fit [0x3f800000, 0xc0000000])
    (fun r hr => by rw [List.eq_of_mem_replicate hr]; rfl)
  obtain ⟨w₂, s₂, h'⟩ := steps_exists cpu o (n := 2) (q :: List.replicate 1000 p) (steps_cell _ (newState_fit _) h).2.1
    (fun r hr => by
      rcases List.mem_cons.mp hr with rfl | hr
      · rfl
      · rw [List.eq_of_mem_replicate hr]; rfl)
  exact ⟨w₁, s₁, w₂, s₂, h, h'⟩

/-- One step on the bits: the gradient 1 and `Alpha` 0.001. -/
example : (step1 o 0x3a83126f 0x3f800000 ⟨0x3f800000, 0, 0⟩).w = 0x3f7f30c2 ∧
    (step1 o 0x3a83126f 0x3f800000 ⟨0x3f800000, 0, 0⟩).v = 0x3dcccccd ∧
    (step1 o 0x3a83126f 0x3f800000 ⟨0x3f800000, 0, 0⟩).m = 0x3a83126f := by decide +kernel

end Verif.Adam32.Example
