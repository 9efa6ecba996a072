import Verif.Props.Opt32Stall
import Verif.Props.Opt32Ada
import Verif.Props.Adam32Example

set_option autoImplicit false
set_option linter.unusedSimpArgs false

/-!
# C95: examples
-/

namespace Verif.Opt32.Example
open Verif.F32 Verif.Asm Verif.Spec Verif.Net32 Verif.Opt32 Verif.Spec.Opt32
open Verif.Adam32.Example (b1 b2c eps g1 g2 g3 p q feeds feeds' feeds_mono start)
open Verif.Spec.Adam32 (Feeds)

theorem mu1 : val 0x3ff33333 = 15938355 / 8388608 := by simp [val, unpack]; norm_num

/-- Momentum 0.9 and 1.9. -/
def o : Mode := .nesterov 0x3f666666 0x3ff33333

theorem saneMode : SaneMode o :=
  ⟨by unfold F32.Finite; decide, by rw [b1]; norm_num, by rw [b1]; norm_num, by unfold F32.Finite; decide, by rw [mu1]; norm_num,
    by rw [mu1]; norm_num⟩

theorem pushes : Pushes 2 ((1 - mu o) / 2 * 1) p := by
  refine ⟨by unfold F32.Finite; decide, rfl, fun i hi => ?_⟩
  have hm : mu o = 7549747 / 8388608 := b1
  rw [hm]
  have : i = 0 ∨ i = 1 := by omega
  rcases this with rfl | rfl
  · exact ⟨by unfold F32.Finite; decide, by simp only [p, List.getD_cons_zero, List.getD_cons_succ, g1, b2c]; norm_num [abs_of_pos]⟩
  · exact ⟨by unfold F32.Finite; decide, by simp only [p, List.getD_cons_zero, List.getD_cons_succ, g2, b2c]; norm_num [abs_of_neg]⟩

/-- Any number of steps of SGD with Nesterov momentum, rate 0.001 and gradients 1 and -2. -/
example (cpu : Cpu) (N : Nat) : ∃ w' v', Train (Sgd cpu o) (List.replicate N p) [0x3f800000, 0xc0000000] w' v' ∧
    SgdClose o 1 27 2 (List.replicate N p) [0x3f800000, 0xc0000000] w' v' := by
  obtain ⟨⟨w', v', h⟩, h2⟩ := sgd_close cpu saneMode (B := 1) (P := 27) (n := 2) (w := [0x3f800000, 0xc0000000]) (by norm_num) (by norm_num)
    (by norm_num) rfl (fun i hi => ⟨(start i hi).1, (start i hi).2.trans (by norm_num)⟩) (List.replicate N p)
    (fun q hq => by rw [List.eq_of_mem_replicate hq]; exact pushes)
  exact ⟨w', v', h, h2 w' v' h⟩

theorem tiny : val 0x35800000 = 1 / 2 ^ 20 := by simp [val, unpack]; norm_num

/-- Gradient 2⁻²⁰ with rate 0.001. -/
def r : F32.W × List F32.W := (0x3a83126f, [0x35800000])

theorem pushes_r : Pushes 1 ((1 - mu .plain) / 2 * (1 / 2 ^ 28)) r := by
  refine ⟨by unfold F32.Finite; decide, rfl, fun i hi => ?_⟩
  have : i = 0 := by omega
  subst this
  refine ⟨by unfold F32.Finite; decide, ?_⟩
  simp only [r, List.getD_cons_zero, tiny, b2c, mu]
  norm_num [abs_of_pos]

/-- A parameter of 1 is never changed by them. -/
example {cpu : Cpu} (N : Nat) {w' v' : List F32.W} (h : Train (Sgd cpu .plain) (List.replicate N r) [0x3f800000] w' v') :
    val (w'.getD 0 0) = 1 := by
  rw [← g1]
  exact (sgd_stalls (o := .plain) trivial (B := 1 / 2 ^ 28) (p := 0) (by norm_num) (by norm_num) (by norm_num) (by norm_num) (n := 1)
    (w := [0x3f800000]) rfl (fun q hq => by rw [List.eq_of_mem_replicate hq]; exact pushes_r) h (i := 0) (by norm_num)
    (by unfold F32.Finite; decide) (by simp only [List.getD_cons_zero, g1]; norm_num) (by simp only [List.getD_cons_zero, g1]; norm_num)).2

example (cpu : Cpu) (N : Nat) : ∃ w' v', Train (Sgd cpu .plain) (List.replicate N r) [0x3f800000] w' v' :=
  steps_exists (sgd_cellwise cpu .plain) (n := 1) _ rfl rfl (fun q hq => by rw [List.eq_of_mem_replicate hq]; rfl)

/-! ### AdaGrad with epsilon 1e-8 and rates up to 1/600 -/

theorem saneEps : SaneEps 0x322bcc77 := ⟨by unfold F32.Finite; decide, by rw [eps]; norm_num, by rw [eps]; norm_num⟩

theorem roomy : Roomy (1 / 600) (1 + 1 / 2 ^ 20) 19 := ⟨by norm_num, by norm_num, by norm_num, by norm_num⟩

theorem feeds1 : Feeds 2 (1 / 600) (2 ^ 1) p := by rw [pow_one]; exact feeds

theorem starts : ∀ i < 2, F32.Finite (([0x3f800000, 0xc0000000] : List F32.W).getD i 0) ∧
    |val (([0x3f800000, 0xc0000000] : List F32.W).getD i 0)| ≤ (2 : ℝ) ^ (19 : Int) :=
  fun i hi => ⟨(start i hi).1, (start i hi).2.trans (by norm_num)⟩

example (cpu : Cpu) (N : Nat) : ∃ w' m', Train (AdaGrad cpu 0x322bcc77) (List.replicate N p) [0x3f800000, 0xc0000000] w' m' ∧
    AdaClose 1 19 2 (List.replicate N p) w' m' := by
  obtain ⟨⟨w', m', h⟩, h2⟩ := ada_close cpu saneEps roomy (q := 1) (by norm_num) (n := 2) (w := [0x3f800000, 0xc0000000]) rfl starts
    (l := List.replicate N p) (fun q hq => by rw [List.eq_of_mem_replicate hq]; exact feeds1)
  exact ⟨w', m', h, h2 w' m' h⟩

example {cpu : Cpu} {w₁ m₁ w₂ m₂ : List F32.W} (h : Train (AdaGrad cpu 0x322bcc77) (List.replicate 1000 p) [0x3f800000, 0xc0000000] w₁ m₁)
    (hs : AdaGrad cpu 0x322bcc77 p.1 w₁ p.2 m₁ w₂ m₂) : RuleClose 0x322bcc77 (1 + 1 / 2 ^ 20) 2 p.1 p.2 w₁ w₂ m₂ :=
  ada_step saneEps roomy (q := 1) (by norm_num) (n := 2) (w := [0x3f800000, 0xc0000000]) rfl starts
    (fun q hq => by rw [List.eq_of_mem_replicate hq]; exact feeds1) h feeds1 hs

/-- After enough gradients of -2 the sum of squares is more than a million too small. -/
example (cpu : Cpu) : ∃ N, ∀ N' ≥ N, ∀ w' m', Train (AdaGrad cpu 0x322bcc77) (List.replicate N' p) [0x3f800000, 0xc0000000] w' m' →
    val (m'.getD 1 0) + 1000000 < squares (List.replicate N' p) 1 :=
  ada_stalls cpu saneEps roomy (q := 1) (by norm_num) (n := 2) (w := [0x3f800000, 0xc0000000]) rfl starts feeds1 (i := 1) (by norm_num)
    (by simp only [p, List.getD_cons_zero, List.getD_cons_succ, g2]; norm_num) 1000000

example {cpu : Cpu} {w₁ m₁ w₂ m₂ : List F32.W} (h : Train (AdaGrad cpu 0x322bcc77) (List.replicate 10 p) [0x3f800000, 0xc0000000] w₁ m₁)
    (h' : Steps (AdaGrad cpu 0x322bcc77) (q :: List.replicate 1000 p) w₁ m₁ w₂ m₂) : val (w₂.getD 0 0) = val (w₁.getD 0 0) :=
  (ada_frozen saneEps roomy (q := 1) (by norm_num) (n := 2) (w := [0x3f800000, 0xc0000000]) rfl starts
    (fun r hr => by rw [List.eq_of_mem_replicate hr]; exact feeds1) h feeds' (i := 0) (by norm_num)
    (by simp only [List.getD_cons_zero, g3]; norm_num)
    (fun r hr => by rw [List.eq_of_mem_replicate hr]; exact feeds_mono (by norm_num) feeds) h').2

/-! ### RMSProp with the default settings, 0.95, 0.05 and 1e-8 -/

theorem d1 : val 0x3f733333 = 15938355 / 16777216 := by simp [val, unpack]; norm_num
theorem d2 : val 0x3d4ccccd = 13421773 / 268435456 := by simp [val, unpack]; norm_num

theorem saneRms : SaneRms 0x3f733333 0x3d4ccccd 0x322bcc77 5 where
  decay_fin := by unfold F32.Finite; decide
  rest_fin := by unfold F32.Finite; decide
  eps_fin := by unfold F32.Finite; decide
  decay_pos := by rw [d1]; norm_num
  decay_le := by rw [d1]; norm_num
  rest_pos := by rw [d2]; norm_num
  sum := by rw [d1, d2]; norm_num
  eps_ge := by rw [eps]; norm_num
  eps_le := by rw [eps]; norm_num
  K_ge := by norm_num
  K_le := by norm_num
  ratio := by rw [d2]; norm_num

theorem roomy5 : Roomy (1 / 600) 5 19 := ⟨by norm_num, by norm_num, by norm_num, by norm_num⟩

example (cpu : Cpu) (N : Nat) : ∃ w' m', Train (RMSProp cpu 0x3f733333 0x3d4ccccd 0x322bcc77) (List.replicate N p) [0x3f800000, 0xc0000000] w' m' ∧
    RmsClose 0x3f733333 0x3d4ccccd 2 19 2 (List.replicate N p) w' m' := by
  obtain ⟨⟨w', m', h⟩, h2⟩ := rms_close cpu saneRms roomy5 (G := 2) (by norm_num) (by norm_num) (n := 2) (w := [0x3f800000, 0xc0000000]) rfl
    starts (l := List.replicate N p) (fun q hq => by rw [List.eq_of_mem_replicate hq]; exact feeds)
  exact ⟨w', m', h, h2 w' m' h⟩

example {cpu : Cpu} {w₁ m₁ w₂ m₂ : List F32.W}
    (h : Train (RMSProp cpu 0x3f733333 0x3d4ccccd 0x322bcc77) (List.replicate 1000 p) [0x3f800000, 0xc0000000] w₁ m₁)
    (hs : RMSProp cpu 0x3f733333 0x3d4ccccd 0x322bcc77 p.1 w₁ p.2 m₁ w₂ m₂) : RuleClose 0x322bcc77 5 2 p.1 p.2 w₁ w₂ m₂ :=
  rms_step saneRms roomy5 (G := 2) (by norm_num) (by norm_num) (n := 2) (w := [0x3f800000, 0xc0000000]) rfl starts
    (fun q hq => by rw [List.eq_of_mem_replicate hq]; exact feeds) h feeds hs

example {cpu : Cpu} {w₁ m₁ w₂ m₂ : List F32.W}
    (h : Train (RMSProp cpu 0x3f733333 0x3d4ccccd 0x322bcc77) (List.replicate 10 p) [0x3f800000, 0xc0000000] w₁ m₁)
    (h' : Steps (RMSProp cpu 0x3f733333 0x3d4ccccd 0x322bcc77) (q :: List.replicate 1000 p) w₁ m₁ w₂ m₂) :
    val (w₂.getD 0 0) = val (w₁.getD 0 0) :=
  (rms_frozen saneRms roomy5 (n := 2) (w := [0x3f800000, 0xc0000000]) rfl starts
    (fun r hr => by rw [List.eq_of_mem_replicate hr]; exact feeds_mono (by norm_num) feeds) h feeds' (i := 0) (by norm_num)
    (by simp only [List.getD_cons_zero, g3]; norm_num)
    (fun r hr => by rw [List.eq_of_mem_replicate hr]; exact feeds_mono (by norm_num) feeds) h').2

end Verif.Opt32.Example
