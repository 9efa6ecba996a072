import Verif.Lemmas.Ziggurat
import Verif.Model.Ziggurat

/-!
# The ziggurat tables cover the density

A rational check of a table, its soundness, and the check of the two tables of the code.
-/

set_option autoImplicit false
set_option linter.unusedSimpArgs false

namespace Verif.Zig

/-- The relative error of a rounding to `float32`. -/
def ulp : ℚ := 1 / 2 ^ 24

/-- `x` is the rounding of the (positive) decimal `q`. -/
def Near (x : ℝ) (q : ℚ) : Prop := (q * (1 - ulp) : ℚ) ≤ x ∧ x ≤ (q * (1 + ulp) : ℚ)

/-- One strip: its end and width, its height and that of its predecessor. -/
def checkStrip (t : ℚ → ℚ) (M v ε η k w fp f : ℚ) : Bool :=
  decide (0 < w) && decide (0 ≤ k) && decide (0 < f) && decide (f * (1 + ulp) < fp * (1 - ulp)) &&
  decide (t (k * (w * (1 + ulp))) ≤ 8) &&
  decide (fp * (1 + ulp) * expHi (t (k * (w * (1 + ulp)))) ≤ 1 + η) &&
  decide (1 - η ≤ f * (1 - ulp) * expLo (t (M * (w * (1 - ulp))))) &&
  decide ((1 - ε) * (fp * (1 + ulp) - f * (1 - ulp)) * (M * (w * (1 + ulp))) ≤ v) &&
  decide (v ≤ (1 + ε) * (fp * (1 - ulp) - f * (1 + ulp)) * (M * (w * (1 - ulp))))

/-- The base strip. -/
def checkBase (t : ℚ → ℚ) (M v ε η k w fn f0 : ℚ) : Bool :=
  decide (0 < w) && decide (0 ≤ k) && decide (k ≤ M) && decide (0 < fn) &&
  decide (t (k * (w * (1 + ulp))) ≤ 8) &&
  decide (fn * (1 + ulp) * expHi (t (k * (w * (1 + ulp)))) ≤ 1 + η) &&
  decide (1 - η ≤ f0 * (1 - ulp)) &&
  decide ((1 - ε) * (fn * (1 + ulp)) * (M * (w * (1 + ulp))) ≤ v) &&
  decide (v ≤ (1 + ε) * (fn * (1 - ulp)) * (M * (w * (1 - ulp))))

/-- The whole table, with `n + 1` strips. -/
def check (t : ℚ → ℚ) (M v ε η : ℚ) (n : Nat) (k w f : Nat → ℚ) : Bool :=
  checkBase t M v ε η (k 0) (w 0) (f n) (f 0) &&
  (List.range n).all fun i => checkStrip t M v ε η (k (i + 1)) (w (i + 1)) (f i) (f (i + 1))

theorem Near.pos {x : ℝ} {q : ℚ} (h : Near x q) (hq : 0 < q) : 0 < x := by
  have : (0 : ℝ) < (q * (1 - ulp) : ℚ) := by
    have : 0 < q * (1 - ulp) := mul_pos hq (by norm_num [ulp])
    exact_mod_cast this
  exact this.trans_le h.1

/-- The exponent as a rational and as a real function. -/
structure Expo (t : ℚ → ℚ) (τ : ℝ → ℝ) : Prop where
  cast : ∀ q : ℚ, τ q = t q
  mono : ∀ x y, 0 ≤ x → x ≤ y → τ x ≤ τ y
  nonneg : ∀ q : ℚ, 0 ≤ q → 0 ≤ t q
  real : ∀ x, 0 ≤ x → 0 ≤ τ x

theorem inner_of {t : ℚ → ℚ} {τ : ℝ → ℝ} (e : Expo t τ) {k w fp η : ℚ} {w' fp' : ℝ} (hw : Near w' w) (hf : Near fp' fp)
    (w0 : 0 < w) (k0 : 0 ≤ k) (h8 : t (k * (w * (1 + ulp))) ≤ 8)
    (h : fp * (1 + ulp) * expHi (t (k * (w * (1 + ulp)))) ≤ 1 + η) :
    fp' ≤ Real.exp (-τ (k * w')) * (1 + η) := by
  have hw' := hw.pos w0
  have k0' : (0 : ℝ) ≤ k := by exact_mod_cast k0
  have u0 : (0 : ℚ) ≤ k * (w * (1 + ulp)) := mul_nonneg k0 (mul_nonneg w0.le (by norm_num [ulp]))
  have h1 : τ (k * w') ≤ (t (k * (w * (1 + ulp))) : ℝ) := by
    rw [← e.cast]
    refine e.mono _ _ (mul_nonneg k0' hw'.le) ?_
    rw [Rat.cast_mul]
    exact mul_le_mul_of_nonneg_left hw.2 k0'
  have h2 := (Real.exp_le_exp.mpr h1).trans (le_expHi (e.nonneg _ u0) h8)
  have hh : (((fp * (1 + ulp) : ℚ)) : ℝ) * expHi (t (k * (w * (1 + ulp)))) ≤ 1 + (η : ℝ) := by
    have : (((fp * (1 + ulp) * expHi (t (k * (w * (1 + ulp)))) : ℚ)) : ℝ) ≤ ((1 + η : ℚ) : ℝ) := Rat.cast_le.mpr h
    rw [Rat.cast_mul] at this
    rw [Rat.cast_add, Rat.cast_one] at this
    exact this
  have hE := Real.exp_pos (τ (k * w'))
  rw [Real.exp_neg, inv_mul_eq_div, le_div_iff₀ hE]
  rcases le_or_gt fp' 0 with hn | hp
  · have h3 : (0 : ℝ) ≤ 1 + η := by
      by_cases h4 : 0 ≤ fp * (1 + ulp)
      · have h5 : (0 : ℝ) ≤ expHi (t (k * (w * (1 + ulp)))) := hE.le.trans h2
        have h6 : (0 : ℝ) ≤ ((fp * (1 + ulp) : ℚ) : ℝ) := by exact_mod_cast h4
        exact (mul_nonneg h6 h5).trans hh
      · exfalso
        have h7 : fp < 0 := by
          by_contra h8
          exact h4 (mul_nonneg (not_lt.mp h8) (by norm_num [ulp]))
        have := hf.1.trans hf.2
        have : fp * (1 - ulp) ≤ fp * (1 + ulp) := by exact_mod_cast this
        have h9 : (0 : ℚ) < ulp := by norm_num [ulp]
        nlinarith
    exact (mul_nonpos_of_nonpos_of_nonneg hn hE.le).trans h3
  · calc fp' * Real.exp (τ (k * w')) ≤ ((fp * (1 + ulp) : ℚ) : ℝ) * expHi (t (k * (w * (1 + ulp)))) :=
        mul_le_mul hf.2 h2 hE.le (hp.le.trans hf.2)
      _ ≤ _ := hh

theorem outer_of {t : ℚ → ℚ} {τ : ℝ → ℝ} (e : Expo t τ) {M w f η : ℚ} {w' f' : ℝ} (hw : Near w' w) (hf : Near f' f)
    (w0 : 0 < w) (f0 : 0 < f) (M0 : 0 ≤ M)
    (h : 1 - η ≤ f * (1 - ulp) * expLo (t (M * (w * (1 - ulp))))) :
    Real.exp (-τ (M * w')) * (1 - η) ≤ f' := by
  have M0' : (0 : ℝ) ≤ M := by exact_mod_cast M0
  have u0 : (0 : ℚ) ≤ M * (w * (1 - ulp)) := mul_nonneg M0 (mul_nonneg w0.le (by norm_num [ulp]))
  have h1 : (t (M * (w * (1 - ulp))) : ℝ) ≤ τ (M * w') := by
    rw [← e.cast]
    refine e.mono _ _ (by exact_mod_cast u0) ?_
    rw [Rat.cast_mul]
    exact mul_le_mul_of_nonneg_left hw.1 M0'
  have h2 := (expLo_le (e.nonneg _ u0)).trans (Real.exp_le_exp.mpr h1)
  have hh : 1 - (η : ℝ) ≤ ((f * (1 - ulp) : ℚ) : ℝ) * expLo (t (M * (w * (1 - ulp)))) := by
    have : ((1 - η : ℚ) : ℝ) ≤ ((f * (1 - ulp) * expLo (t (M * (w * (1 - ulp)))) : ℚ) : ℝ) := Rat.cast_le.mpr h
    rw [Rat.cast_mul, Rat.cast_sub, Rat.cast_one] at this
    exact this
  have hE := Real.exp_pos (τ (M * w'))
  rw [Real.exp_neg, inv_mul_eq_div, div_le_iff₀ hE]
  have f1 : (0 : ℝ) ≤ ((f * (1 - ulp) : ℚ) : ℝ) := by
    have : 0 ≤ f * (1 - ulp) := mul_nonneg f0.le (by norm_num [ulp])
    exact_mod_cast this
  calc _ ≤ ((f * (1 - ulp) : ℚ) : ℝ) * expLo (t (M * (w * (1 - ulp)))) := hh
    _ ≤ ((f * (1 - ulp) : ℚ) : ℝ) * Real.exp (τ (M * w')) := mul_le_mul_of_nonneg_left h2 f1
    _ ≤ _ := mul_le_mul_of_nonneg_right hf.1 hE.le

/-- A product of a height in `[a, b]` and a width compared with the area. -/
theorem area_of {M v ε w dlo dhi : ℚ} {w' d : ℝ} (hw : Near w' w) (w0 : 0 < w) (M0 : 0 < M) (he : 0 ≤ ε ∧ ε ≤ 1)
    (h1 : (dlo : ℝ) ≤ d) (h2 : d ≤ dhi) (hlo : 0 ≤ dlo)
    (hA : (1 - ε) * dhi * (M * (w * (1 + ulp))) ≤ v) (hB : v ≤ (1 + ε) * dlo * (M * (w * (1 - ulp)))) :
    (1 - (ε : ℝ)) * d ≤ v / (M * w') ∧ v / (M * w') ≤ (1 + ε) * d := by
  have hw' := hw.pos w0
  have M0' : (0 : ℝ) < M := by exact_mod_cast M0
  have e0 : (0 : ℝ) ≤ ε := by exact_mod_cast he.1
  have e1 : (ε : ℝ) ≤ 1 := by exact_mod_cast he.2
  have lo0 : (0 : ℝ) ≤ dlo := by exact_mod_cast hlo
  have hA' : (1 - (ε : ℝ)) * dhi * (M * ((w * (1 + ulp) : ℚ) : ℝ)) ≤ v := by
    have := (Rat.cast_le (K := ℝ)).mpr hA
    rw [Rat.cast_mul, Rat.cast_mul, Rat.cast_mul (p := M), Rat.cast_sub, Rat.cast_one] at this
    exact this
  have hB' : (v : ℝ) ≤ (1 + (ε : ℝ)) * dlo * (M * ((w * (1 - ulp) : ℚ) : ℝ)) := by
    have := (Rat.cast_le (K := ℝ)).mpr hB
    rw [Rat.cast_mul, Rat.cast_mul, Rat.cast_mul (p := M), Rat.cast_add, Rat.cast_one] at this
    exact this
  have hp : 0 < M * w' := mul_pos M0' hw'
  constructor
  · rw [le_div_iff₀ hp]
    refine le_trans ?_ hA'
    refine mul_le_mul (mul_le_mul_of_nonneg_left h2 (by linarith)) (mul_le_mul_of_nonneg_left hw.2 M0'.le) hp.le ?_
    exact mul_nonneg (by linarith) (by linarith)
  · rw [div_le_iff₀ hp]
    refine hB'.trans ?_
    have : (0 : ℝ) ≤ ((w * (1 - ulp) : ℚ) : ℝ) := by
      have : 0 ≤ w * (1 - ulp) := mul_nonneg w0.le (by norm_num [ulp])
      exact_mod_cast this
    refine mul_le_mul (mul_le_mul_of_nonneg_left h1 (by linarith)) (mul_le_mul_of_nonneg_left hw.1 M0'.le)
      (mul_nonneg M0'.le this) ?_
    exact mul_nonneg (by linarith) (by linarith)

/-- **The check is sound.** -/
theorem cover_of_check {t : ℚ → ℚ} {τ : ℝ → ℝ} (e : Expo t τ) {M v ε η : ℚ} {n : Nat} {k w f : Nat → ℚ}
    {W F : Nat → ℝ} (hc : check t M v ε η n k w f = true) (hM : 0 < M) (he : 0 ≤ ε ∧ ε ≤ 1) (hη : 0 ≤ η ∧ η ≤ 1)
    (hW : ∀ i ≤ n, Near (W i) (w i)) (hF : ∀ i ≤ n, Near (F i) (f i)) :
    Cover n (fun i => M * W i) (fun i => k i * W i) F (fun x => Real.exp (-τ x)) v ε η := by
  simp only [check, Bool.and_eq_true, List.all_eq_true, List.mem_range, checkBase, checkStrip, decide_eq_true_eq] at hc
  obtain ⟨⟨⟨⟨⟨⟨⟨⟨⟨b1, b2⟩, b3⟩, b4⟩, b5⟩, b6⟩, b7⟩, b8⟩, b9⟩, hs⟩ := hc
  have e0 : (0 : ℝ) ≤ ε ∧ (ε : ℝ) ≤ 1 := by exact_mod_cast he
  have η0 : (0 : ℝ) ≤ η ∧ (η : ℝ) ≤ 1 := by exact_mod_cast hη
  have M0 : (0 : ℝ) < M := by exact_mod_cast hM
  have wpos : ∀ i ≤ n, 0 < w i := by
    intro i hi
    rcases Nat.eq_zero_or_pos i with rfl | h
    · exact b1
    · obtain ⟨⟨⟨⟨⟨⟨⟨⟨s1, -⟩, -⟩, -⟩, -⟩, -⟩, -⟩, -⟩, -⟩ := hs (i - 1) (by omega)
      rwa [Nat.sub_add_cancel h] at s1
  have kpos : ∀ i ≤ n, 0 ≤ k i := by
    intro i hi
    rcases Nat.eq_zero_or_pos i with rfl | h
    · exact b2
    · obtain ⟨⟨⟨⟨⟨⟨⟨⟨-, s1⟩, -⟩, -⟩, -⟩, -⟩, -⟩, -⟩, -⟩ := hs (i - 1) (by omega)
      rwa [Nat.sub_add_cancel h] at s1
  refine ⟨fun x y hx hxy => ?_, fun i hi => ?_, fun i hi => ?_, fun i hi => ?_, fun i hi => ?_, fun i hi => ?_,
    fun i hi => ?_, ?_, ?_, fun x hx => ?_, e0, η0, fun x => (Real.exp_pos _).le, ?_⟩
  · exact Real.exp_le_exp.mpr (neg_le_neg (e.mono x y hx hxy))
  · obtain ⟨⟨⟨⟨⟨⟨⟨⟨-, -⟩, -⟩, s4⟩, -⟩, -⟩, -⟩, -⟩, -⟩ := hs i hi
    have s4' : ((f (i + 1) * (1 + ulp) : ℚ) : ℝ) < ((f i * (1 - ulp) : ℚ) : ℝ) := Rat.cast_lt.mpr s4
    exact ((hF (i + 1) hi).2.trans_lt s4').trans_le (hF i hi.le).1
  · exact mul_nonneg (by exact_mod_cast kpos i hi) ((hW i hi).pos (wpos i hi)).le
  · exact mul_pos M0 ((hW i hi).pos (wpos i hi))
  · obtain ⟨⟨⟨⟨⟨⟨⟨⟨s1, s2⟩, s3⟩, s4⟩, s5⟩, s6⟩, -⟩, -⟩, -⟩ := hs i hi
    exact inner_of e (hW _ hi) (hF i hi.le) s1 s2 s5 s6
  · obtain ⟨⟨⟨⟨⟨⟨⟨⟨s1, s2⟩, s3⟩, s4⟩, s5⟩, s6⟩, s7⟩, -⟩, -⟩ := hs i hi
    exact outer_of e (hW _ hi) (hF _ hi) s1 s3 hM.le s7
  · obtain ⟨⟨⟨⟨⟨⟨⟨⟨s1, s2⟩, s3⟩, s4⟩, s5⟩, s6⟩, s7⟩, s8⟩, s9⟩ := hs i hi
    have f1 := hF i hi.le
    have f2 := hF (i + 1) hi
    refine area_of (hW _ hi) s1 hM he ?_ ?_ (sub_nonneg.mpr s4.le) s8 s9
    · rw [Rat.cast_sub]; exact sub_le_sub f1.1 f2.2
    · rw [Rat.cast_sub]; exact sub_le_sub f1.2 f2.1
  · exact area_of (hW 0 (Nat.zero_le _)) b1 hM he (hF n le_rfl).1 (hF n le_rfl).2
      (mul_nonneg b4.le (by norm_num [ulp])) b8 b9
  · exact inner_of e (hW 0 (Nat.zero_le _)) (hF n le_rfl) b1 b2 b5 b6
  · have h1 : Real.exp (-τ x) ≤ 1 := Real.exp_le_one_iff.mpr (neg_nonpos.mpr (e.real x hx))
    have h2 : (1 - (η : ℝ)) ≤ F 0 := by
      have := (Rat.cast_le (K := ℝ)).mpr b7
      rw [Rat.cast_sub, Rat.cast_one] at this
      exact this.trans (hF 0 (Nat.zero_le _)).1
    refine le_trans ?_ h2
    exact (mul_le_mul_of_nonneg_right h1 (by linarith)).trans (one_mul _).le
  · exact mul_le_mul_of_nonneg_right (by exact_mod_cast b3) ((hW 0 (Nat.zero_le _)).pos b1).le

/-! ## The two tables -/

open Verif.Rand

/-- The tables as rational numbers. -/
def kn (i : Nat) : ℚ := (knTab.getD i 0 : Nat)
def wn (i : Nat) : ℚ := (wnTab.getD i 0 : Nat) / 10 ^ 17
def fn (i : Nat) : ℚ := (fnTab.getD i 0 : Nat) / 10 ^ 10
def ke (i : Nat) : ℚ := (keTab.getD i 0 : Nat)
def we (i : Nat) : ℚ := (weTab.getD i 0 : Nat) / 10 ^ 18
def fe (i : Nat) : ℚ := (feTab.getD i 0 : Nat) / 10 ^ 11

/-- The area of the strips of the normal table, 9.91256303526217e-3. -/
def vn : ℚ := 991256303526217 / 10 ^ 17
/-- The area of the strips of the exponential table, 3.949659822581557e-3. -/
def ve : ℚ := 3949659822581557 / 10 ^ 18

theorem checkNorm : check (fun x => x * x / 2) (2 ^ 31) vn (3 / 10 ^ 5) (2 / 10 ^ 6) 127 kn wn fn = true := by
  decide +kernel

theorem checkExp : check (fun x => x) (2 ^ 32) ve (3 / 10 ^ 5) (2 / 10 ^ 6) 255 ke we fe = true := by
  decide +kernel

end Verif.Zig
