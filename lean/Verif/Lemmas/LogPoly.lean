import Mathlib.Analysis.SpecialFunctions.Log.Deriv
import Mathlib.Analysis.Calculus.Deriv.MeanValue
import Mathlib.Analysis.Calculus.Deriv.Pow
import Mathlib.Tactic.Linarith
import Mathlib.Tactic.NormNum

set_option autoImplicit false
set_option linter.unusedSimpArgs false

/-!
# The polynomial of the logarithm

`t - t²/2 + t³ P(t)` against `log (1 + t)`: the derivative of the difference is `t² H(t) / (1 + t)` for a polynomial
`H`, which is bounded on small intervals by its expansion around their centres, computed with rational numbers.
-/

namespace Verif.LogPoly

/-- Horner's rule, the constant coefficient first. -/
noncomputable def ev : List ℚ → ℝ → ℝ
  | [], _ => 0
  | c :: cs, x => c + x * ev cs x

/-- The same with absolute values. -/
def evAbs : List ℚ → ℚ → ℚ
  | [], _ => 0
  | c :: cs, r => |c| + r * evAbs cs r

theorem ev_abs (cs : List ℚ) {s : ℝ} {r : ℚ} (h : |s| ≤ r) : |ev cs s| ≤ evAbs cs r := by
  have hr : (0 : ℝ) ≤ r := (abs_nonneg _).trans h
  induction cs with
  | nil => simp [ev, evAbs]
  | cons c cs ih =>
    simp only [ev, evAbs]
    refine (abs_add_le _ _).trans ?_
    rw [abs_mul]
    push_cast
    exact add_le_add le_rfl (mul_le_mul h ih (abs_nonneg _) hr)

/-- Times `(c + s)`, plus `a`. -/
def step (c : ℚ) (a : ℚ) : List ℚ → ℚ → List ℚ
  | [], prev => [a + prev]
  | v :: vs, prev => (a + prev + c * v) :: step c 0 vs v

theorem ev_step (c : ℚ) (vs : List ℚ) : ∀ (a prev : ℚ) (s : ℝ),
    ev (step c a vs prev) s = a + prev + (c + s) * ev vs s := by
  induction vs with
  | nil => intro a prev s; simp [step, ev]
  | cons v vs ih =>
    intro a prev s
    simp only [step, ev, ih]
    push_cast; ring

/-- The expansion around `c`. -/
def shift (c : ℚ) : List ℚ → List ℚ
  | [] => []
  | a :: as => step c a (shift c as) 0

theorem ev_shift (c : ℚ) (as : List ℚ) (s : ℝ) : ev (shift c as) s = ev as (c + s) := by
  induction as with
  | nil => rfl
  | cons a as ih => simp only [shift, ev, ev_step, ih]; push_cast; ring

/-- Small intervals. -/
theorem cover {lo w x : ℝ} (hlo : lo ≤ x) : ∀ n : Nat, x ≤ lo + w * n → 0 ≤ w → ∃ i < n + 1, |x - (lo + w * i - w / 2)| ≤ w / 2 ∧ (i = 0 → x = lo)
  | 0, h, hw => ⟨0, by omega, by
      have : x = lo := le_antisymm (by simpa using h) hlo
      subst this
      refine ⟨?_, fun _ => rfl⟩
      have : x - (x + w * ((0 : ℕ) : ℝ) - w / 2) = w / 2 := by push_cast; ring
      rw [this, abs_of_nonneg (by linarith)]⟩
  | n + 1, h, hw => by
    by_cases hc : x ≤ lo + w * n
    · obtain ⟨i, hi, h⟩ := cover hlo n hc hw
      exact ⟨i, by omega, h⟩
    · refine ⟨n + 1, by omega, ?_, by omega⟩
      push_cast at h ⊢
      rw [abs_le]
      constructor <;> linarith

/-- The coefficients of `H`. -/
def H : List ℚ :=
  [-1 / 16777216, 3 / 16777216, 603 / 16777216, -801 / 16777216, -176551 / 67108864, 257789 / 67108864,
    3846585 / 67108864, -6746531 / 67108864, -50642471 / 134217728, 103904009 / 134217728]

/-- The centre of the `i`-th interval. -/
def centre (i : Nat) : ℚ := -2929 / 10000 + (70712 / 2400000) * i - 70712 / 4800000

theorem check : ∀ i : Fin 25, i.val = 0 ∨
    evAbs (shift (centre i.val) H) (70712 / 4800000) ≤ (202 / 100000000) * (1 + centre i.val - 70712 / 4800000) := by
  decide +kernel

theorem H_bound {t : ℝ} (h1 : -2929 / 10000 ≤ t) (h2 : t ≤ 41422 / 100000) : |ev H t| ≤ (202 / 100000000) * (1 + t) := by
  -- the left end belongs to the first interval
  obtain ⟨i, hi, hc, h0⟩ := cover (w := 70712 / 2400000) h1 24 (by norm_num; linarith) (by norm_num)
  have key : ∀ i : Nat, i < 25 → i ≠ 0 → |t - (-2929 / 10000 + 70712 / 2400000 * (i : ℝ) - 70712 / 2400000 / 2)| ≤ 70712 / 2400000 / 2 →
      |ev H t| ≤ (202 / 100000000) * (1 + t) := by
    intro i hi h0 hc
    have hk := (check ⟨i, hi⟩).resolve_left h0
    have e : ((centre i : ℚ) : ℝ) = -2929 / 10000 + 70712 / 2400000 * (i : ℝ) - 70712 / 2400000 / 2 := by
      unfold centre; push_cast; ring
    rw [← e] at hc
    have hs := ev_abs (shift (centre i) H) (s := t - centre i) (r := 70712 / 4800000) (hc.trans (by norm_num))
    rw [ev_shift, add_sub_cancel] at hs
    have hk' : ((evAbs (shift (centre i) H) (70712 / 4800000) : ℚ) : ℝ) ≤
        (202 / 100000000) * (1 + centre i - 70712 / 4800000) := by
      have := (Rat.cast_le (K := ℝ)).mpr hk
      push_cast at this
      exact this
    refine hs.trans (hk'.trans ?_)
    have := (abs_le.mp hc).1
    linarith
  by_cases hz : i = 0
  · refine key 1 (by norm_num) (by norm_num) ?_
    rw [h0 hz, abs_le]
    constructor <;> norm_num
  · exact key i (by omega) hz hc

/-- The polynomial `P` of the routine. -/
noncomputable def P (t : ℝ) : ℝ :=
  5592405 / 16777216 + t * (-(4194303 / 16777216) + t * (3355563 / 16777216 + t * (-(699109 / 4194304) +
    t * (9562559 / 67108864 + t * (-(16670031 / 134217728) + t * (7836301 / 67108864 + t * (-(1931831 / 16777216) +
    t * (9445819 / 134217728))))))))

noncomputable def Q (t : ℝ) : ℝ := t - t ^ 2 / 2 + t ^ 3 * P t

theorem hasDerivAt_Q (t : ℝ) (ht : 0 < 1 + t) : HasDerivAt (fun t => Q t - Real.log (1 + t)) (t ^ 2 * ev H t / (1 + t)) t := by
  have e : Q = fun t : ℝ => t - t ^ 2 / 2 + 5592405 / 16777216 * t ^ 3 + -(4194303 / 16777216) * t ^ 4 +
      3355563 / 16777216 * t ^ 5 + -(699109 / 4194304) * t ^ 6 + 9562559 / 67108864 * t ^ 7 +
      -(16670031 / 134217728) * t ^ 8 + 7836301 / 67108864 * t ^ 9 + -(1931831 / 16777216) * t ^ 10 +
      9445819 / 134217728 * t ^ 11 := by
    funext t; unfold Q P; ring
  have h := ((((((((((hasDerivAt_id t).sub ((hasDerivAt_pow 2 t).div_const 2)).add
    ((hasDerivAt_pow 3 t).const_mul (5592405 / 16777216 : ℝ))).add
    ((hasDerivAt_pow 4 t).const_mul (-(4194303 / 16777216) : ℝ))).add
    ((hasDerivAt_pow 5 t).const_mul (3355563 / 16777216 : ℝ))).add
    ((hasDerivAt_pow 6 t).const_mul (-(699109 / 4194304) : ℝ))).add
    ((hasDerivAt_pow 7 t).const_mul (9562559 / 67108864 : ℝ))).add
    ((hasDerivAt_pow 8 t).const_mul (-(16670031 / 134217728) : ℝ))).add
    ((hasDerivAt_pow 9 t).const_mul (7836301 / 67108864 : ℝ))).add
    ((hasDerivAt_pow 10 t).const_mul (-(1931831 / 16777216) : ℝ))).add
    ((hasDerivAt_pow 11 t).const_mul (9445819 / 134217728 : ℝ))
  have hl : HasDerivAt (fun t : ℝ => Real.log (1 + t)) (1 / (1 + t)) t :=
    ((hasDerivAt_id t).const_add 1).log ht.ne'
  rw [e]
  refine (h.sub hl).congr_deriv ?_
  rw [eq_div_iff ht.ne', sub_mul, div_mul_cancel₀ _ ht.ne']
  simp only [ev, H]
  push_cast
  ring

/-- **The polynomial is the logarithm up to a relative error of the third order.** -/
theorem Q_log {t : ℝ} (h1 : -2929 / 10000 ≤ t) (h2 : t ≤ 41422 / 100000) :
    |Q t - Real.log (1 + t)| ≤ (68 / 100000000) * |t| ^ 3 := by
  have hmono : ∀ σ : ℝ, |σ| = 1 → MonotoneOn (fun t => (68 / 100000000) * t ^ 3 - σ * (Q t - Real.log (1 + t)))
      (Set.Icc (-2929 / 10000) (41422 / 100000)) := by
    intro σ hσ
    have hd : ∀ s ∈ Set.Icc (-2929 / 10000 : ℝ) (41422 / 100000), HasDerivAt (fun t => (68 / 100000000) * t ^ 3 -
        σ * (Q t - Real.log (1 + t))) ((68 / 100000000) * (3 * s ^ 2) - σ * (s ^ 2 * ev H s / (1 + s))) s := by
      intro s hs
      have hp : 0 < 1 + s := by have := hs.1; norm_num at this ⊢; linarith
      have h3 := (hasDerivAt_pow 3 s).const_mul (68 / 100000000 : ℝ)
      have := h3.sub ((hasDerivAt_Q s hp).const_mul σ)
      refine HasDerivAt.congr_deriv this ?_
      norm_num
    apply monotoneOn_of_deriv_nonneg (convex_Icc _ _)
    · exact fun s hs => (hd s hs).continuousAt.continuousWithinAt
    · exact fun s hs => (hd s (interior_subset hs)).differentiableAt.differentiableWithinAt
    · intro s hs
      have hs' := interior_subset hs
      rw [(hd s hs').deriv]
      have hp : 0 < 1 + s := by have := hs'.1; norm_num at this ⊢; linarith
      have hb := H_bound hs'.1 hs'.2
      have hq : |ev H s / (1 + s)| ≤ 202 / 100000000 := by
        rw [abs_div, abs_of_pos hp, div_le_iff₀ hp]; exact hb
      have hq2 : σ * (ev H s / (1 + s)) ≤ 202 / 100000000 := by
        refine (le_abs_self _).trans ?_
        rw [abs_mul, hσ, one_mul]; exact hq
      have e : (68 / 100000000) * (3 * s ^ 2) - σ * (s ^ 2 * ev H s / (1 + s)) =
          s ^ 2 * (3 * (68 / 100000000) - σ * (ev H s / (1 + s))) := by ring
      rw [e]
      exact mul_nonneg (sq_nonneg s) (by linarith)
  have hz : Q 0 - Real.log (1 + 0) = 0 := by simp [Q]
  have a := hmono 1 (by norm_num)
  have b := hmono (-1) (by norm_num)
  have m0 : (0 : ℝ) ∈ Set.Icc (-2929 / 10000 : ℝ) (41422 / 100000) := by constructor <;> norm_num
  have mt : t ∈ Set.Icc (-2929 / 10000 : ℝ) (41422 / 100000) := ⟨h1, h2⟩
  rcases le_total 0 t with h | h
  · have a := a m0 mt h
    have b := b m0 mt h
    simp only [hz] at a b
    rw [abs_of_nonneg h, abs_le]
    constructor <;> linarith
  · have a := a mt m0 h
    have b := b mt m0 h
    simp only [hz] at a b
    rw [abs_of_nonpos h, abs_le]
    have : (-t) ^ 3 = -t ^ 3 := by ring
    rw [this]
    constructor <;> linarith

end Verif.LogPoly
