import Verif.Props.Back32
import Verif.Props.Acts32
import Mathlib.Analysis.SpecialFunctions.Trigonometric.DerivHyp

set_option autoImplicit false
set_option linter.unusedSimpArgs false

/-!
# C96: the slopes of ReLU, of the logistic function and of the hyperbolic tangent, and the gradient of the squared error
-/

namespace Verif.Back32
open Verif.F32 Verif.Asm Verif.Spec Verif.Spec.Kernels Verif.Spec.Net32 Verif.Net32 Verif.Rec32 Verif.Att32 Verif.Spec.Back32

theorem sig_eq (x : ℝ) : Spec.Sigmoid32.sigmoid x = Real.sigmoid x := by
  unfold Spec.Sigmoid32.sigmoid; rw [Real.sigmoid_def, one_div]

theorem sig_unit (x : ℝ) : 0 ≤ Spec.Sigmoid32.sigmoid x ∧ Spec.Sigmoid32.sigmoid x ≤ 1 := by
  rw [sig_eq]; exact ⟨Real.sigmoid_nonneg x, Real.sigmoid_le_one x⟩

theorem bump {p q : ℝ} (hp : 0 ≤ p ∧ p ≤ 1) (hq : 0 ≤ q ∧ q ≤ 1) : |p * (1 - p) - q * (1 - q)| ≤ |p - q| := by
  have e : p * (1 - p) - q * (1 - q) = (p - q) * (1 - p - q) := by ring
  rw [e, abs_mul]
  have : |1 - p - q| ≤ 1 := abs_le.mpr ⟨by linarith, by linarith⟩
  nlinarith [abs_nonneg (p - q)]

theorem tanh_abs (x : ℝ) : |Real.tanh x| ≤ 1 := (Real.abs_tanh_lt_one x).le

theorem tanh_der (x : ℝ) : HasDerivAt Real.tanh (1 - Real.tanh x ^ 2) x := by
  have h := (Real.hasDerivAt_sinh x).div (Real.hasDerivAt_cosh x) (Real.cosh_pos x).ne'
  have e : Real.tanh = fun x => Real.sinh x / Real.cosh x := by funext y; exact Real.tanh_eq_sinh_div_cosh y
  rw [e]
  refine h.congr_deriv ?_
  have := (Real.cosh_pos x).ne'
  field_simp

theorem relu_der {u : ℝ} (h : u ≠ 0) : HasDerivAt (fun x : ℝ => max 0 x) (if 0 ≤ u then 1 else 0) u := by
  rcases lt_or_gt_of_ne h with h | h
  · rw [if_neg (not_le.mpr h)]
    refine (hasDerivAt_const u (0 : ℝ)).congr_of_eventuallyEq ?_
    filter_upwards [gt_mem_nhds h] with x hx
    exact max_eq_left (le_of_lt hx)
  · rw [if_pos h.le]
    refine (hasDerivAt_id u).congr_of_eventuallyEq ?_
    filter_upwards [lt_mem_nhds h] with x hx
    exact max_eq_right (le_of_lt hx)

theorem reluSlope_val {v : F32.W} (hv : F32.Finite v) : F32.Finite (reluSlope v) ∧ val (reluSlope v) = if 0 ≤ val v then 1 else 0 := by
  have h0 : F32.Finite 0 := by unfold F32.Finite; decide
  have h1 : F32.Finite 0x3f800000 := by unfold F32.Finite; decide
  unfold reluSlope
  rw [hv.not_nan]
  simp only [Bool.not_false, Bool.true_and, Bool.not_eq_true']
  have key : lt v 0 = false ↔ 0 ≤ val v := by
    rw [← Bool.not_eq_true, lt_iff hv h0, val_zero, not_lt]
  by_cases h : 0 ≤ val v
  · rw [if_pos (key.mpr h), if_pos h]
    exact ⟨h1, by simp [val, unpack]; norm_num⟩
  · rw [if_neg fun h' => h (key.mp h'), if_neg h]
    exact ⟨h0, val_zero⟩

/-- **C96: the slopes.** -/
theorem slopes_good (cpu : Cpu) (j : ExpLog.Lane) {lib : Lib} (h : GoodLib lib) {sl : Slopes} (hs : GoodSlopeLib sl) :
    GoodSlopes (slopes cpu j lib sl) real slope steepest slopeErr safeAt where
  ends a x hx := by
    cases a with
    | relu => exact ⟨_, rfl⟩
    | sigmoid =>
      obtain ⟨y, hy⟩ := (Sigmoid32.sigmoid_close cpu j h.exp hx).1
      exact ⟨_, y, hy, rfl⟩
    | tanh => exact ⟨_, rfl⟩
  near a x d hx hd := by
    cases a with
    | relu =>
      rw [show d = x.map reluSlope from hd]
      refine ⟨by simp, fun i hi => ?_⟩
      have hm : F32.Finite (x.getD i 0) := by rw [List.getD_eq_getElem _ _ hi]; exact hx _ (List.getElem_mem hi)
      rw [Adam32.mget _ hi]
      obtain ⟨f, e⟩ := reluSlope_val hm
      refine ⟨f, fun E u h1 h2 => ?_⟩
      rw [e]
      have h2' : E < |u| := h2
      obtain ⟨h3, h4⟩ := abs_le.mp h1
      show |_ - (if 0 ≤ u then (1 : ℝ) else 0)| ≤ 0
      by_cases hu : 0 ≤ u
      · rw [abs_of_nonneg hu] at h2'
        rw [if_pos hu, if_pos (by linarith)]; simp
      · rw [abs_of_neg (not_le.mp hu)] at h2'
        rw [if_neg hu, if_neg (by linarith)]; simp
    | sigmoid =>
      obtain ⟨y, hy, rfl⟩ := hd
      obtain ⟨h1, h2⟩ := (Sigmoid32.sigmoid_close cpu j h.exp hx).2 y hy
      refine ⟨by simpa using h1, fun i hi => ?_⟩
      rw [Adam32.mget _ (by rw [h1]; exact hi)]
      obtain ⟨f, p0, p1, e⟩ := h2 i hi
      obtain ⟨f', e'⟩ := hs.logistic _ f p0 p1
      refine ⟨f', fun E u hu _ => ?_⟩
      show |_ - Spec.Sigmoid32.sigmoid u * (1 - Spec.Sigmoid32.sigmoid u)| ≤ 1 / 4 * E + 1 / 2 ^ 19
      have l := sigmoid_lip (val (x.getD i 0)) u
      have b1 := bump ⟨p0, p1⟩ (sig_unit (val (x.getD i 0)))
      have b2 := bump (sig_unit (val (x.getD i 0))) (sig_unit u)
      generalize val (sl.logistic (y.getD i 0)) = Z at *
      generalize val (y.getD i 0) = Y at *
      generalize val (x.getD i 0) = X at *
      have t1 := abs_sub_le Z (Y * (1 - Y)) (Spec.Sigmoid32.sigmoid X * (1 - Spec.Sigmoid32.sigmoid X))
      have t2 := abs_sub_le Z (Spec.Sigmoid32.sigmoid X * (1 - Spec.Sigmoid32.sigmoid X)) (Spec.Sigmoid32.sigmoid u * (1 - Spec.Sigmoid32.sigmoid u))
      have t3 : (1 : ℝ) / 2 ^ 20 + 1 / 2 ^ 23 ≤ 1 / 2 ^ 19 := by norm_num
      linarith
    | tanh =>
      rw [show d = x.map sl.tanh from hd]
      refine ⟨by simp, fun i hi => ?_⟩
      have hm : F32.Finite (x.getD i 0) := by rw [List.getD_eq_getElem _ _ hi]; exact hx _ (List.getElem_mem hi)
      rw [Adam32.mget _ hi]
      obtain ⟨f, e⟩ := hs.tanh _ hm
      refine ⟨f, fun E u hu _ => ?_⟩
      show |_ - (1 - Real.tanh u ^ 2)| ≤ 2 * E + 1 / 2 ^ 23
      have l := tanh_lip (val (x.getD i 0)) u
      generalize val (sl.tanh (x.getD i 0)) = Z at *
      generalize val (x.getD i 0) = X at *
      have t1 := abs_sub_le Z (1 - Real.tanh X ^ 2) (1 - Real.tanh u ^ 2)
      have t2 : |(1 - Real.tanh X ^ 2) - (1 - Real.tanh u ^ 2)| ≤ 2 * |Real.tanh X - Real.tanh u| := by
        have e2 : (1 - Real.tanh X ^ 2) - (1 - Real.tanh u ^ 2) = (Real.tanh X - Real.tanh u) * -(Real.tanh X + Real.tanh u) := by ring
        rw [e2, abs_mul, abs_neg]
        have := abs_add_le (Real.tanh X) (Real.tanh u)
        nlinarith [tanh_abs X, tanh_abs u, abs_nonneg (Real.tanh X - Real.tanh u)]
      linarith
  der a E u hE hu := by
    cases a with
    | relu =>
      have hu' : E < |u| := hu
      exact relu_der fun h0 => by rw [h0, abs_zero] at hu'; linarith
    | sigmoid =>
      show HasDerivAt (fun x => Spec.Sigmoid32.sigmoid x) (Spec.Sigmoid32.sigmoid u * (1 - Spec.Sigmoid32.sigmoid u)) u
      have e : (fun x => Spec.Sigmoid32.sigmoid x) = Real.sigmoid := funext sig_eq
      rw [e, sig_eq]
      exact Real.hasDerivAt_sigmoid u
    | tanh => exact tanh_der u
  size a u := by
    cases a with
    | relu =>
      show |if 0 ≤ u then (1 : ℝ) else 0| ≤ 1
      split <;> simp
    | sigmoid =>
      obtain ⟨h1, h2⟩ := sig_unit u
      show |Spec.Sigmoid32.sigmoid u * (1 - Spec.Sigmoid32.sigmoid u)| ≤ 1 / 4
      rw [abs_of_nonneg (mul_nonneg h1 (by linarith))]
      nlinarith [sq_nonneg (Spec.Sigmoid32.sigmoid u - 1 / 2)]
    | tanh =>
      show |1 - Real.tanh u ^ 2| ≤ 1
      have := abs_le.mp (tanh_abs u)
      have h2 : Real.tanh u ^ 2 ≤ 1 := by nlinarith
      exact abs_le.mpr ⟨by linarith, by nlinarith [sq_nonneg (Real.tanh u)]⟩
  pos a E hE := by
    cases a with
    | relu => exact ⟨zero_le_one, le_rfl⟩
    | sigmoid => exact ⟨by show (0 : ℝ) ≤ 1 / 4; norm_num, by show (0 : ℝ) ≤ 1 / 4 * E + 1 / 2 ^ 19; positivity⟩
    | tanh => exact ⟨zero_le_one, by show (0 : ℝ) ≤ 2 * E + 1 / 2 ^ 23; positivity⟩

/-! ### The squared error -/

theorem subNew_iff (cpu : Cpu) (a b z : List F32.W) :
    SubNew cpu a b z ↔ a.length = b.length ∧ z = List.zipWith (fun u v => addIeee u (F32.flip v)) a b := by
  have main : ∀ (p q r : Nat) (s : St F32.W), q % 4 = 0 → Apart 4 a.length p r → Apart 4 a.length q r →
      elems 4 s.mem p a.length = a → elems 4 s.mem q a.length = b →
      ∃ s', (∀ t, Call (frame3 4 (F32.alu divIeee) ⟨p, a.length⟩ ⟨q, a.length⟩ ⟨r, a.length⟩)
        (subFn cpu .f32) s t ↔ t = s') ∧ elems 4 s'.mem r a.length = List.zipWith (fun u v => addIeee u (F32.flip v)) a b := by
    intro p q r s hq h1 h2 h3 h4
    obtain ⟨s', g1, g2, -⟩ := sub_kernel cpu .f32 (F32.alu divIeee) (x1 := ⟨p, a.length⟩) (x2 := ⟨q, a.length⟩)
      (y := ⟨r, a.length⟩) le_rfl le_rfl hq (.inr h1) (.inr h2) s
    refine ⟨s', g1, ?_⟩
    have := g2
    simp only [Sz.bytes, h3, h4] at this
    exact this
  constructor
  · rintro ⟨hl, p, q, r, s, t, hq, h1, h2, h3, h4, h5, h6⟩
    obtain ⟨s', g1, g2⟩ := main p q r s hq h1 h2 h3 h4
    obtain rfl := (g1 t).mp h5
    exact ⟨hl, by rw [← h6, g2]⟩
  · rintro ⟨hl, rfl⟩
    have h2 : elems 4 (stateOf a b).mem (4 * a.length) a.length = b := by
      rw [show elems 4 (stateOf a b).mem (4 * a.length) a.length = elems 4 (memOf a b) (4 * a.length) b.length by rw [hl]; rfl]
      exact memOf_snd a b
    have ha : Apart 4 a.length 0 (8 * a.length) := by unfold Apart; omega
    have hb : Apart 4 a.length (4 * a.length) (8 * a.length) := by unfold Apart; omega
    obtain ⟨s', g1, g2⟩ := main 0 (4 * a.length) (8 * a.length) (stateOf a b) (by omega) ha hb (memOf_fst a b) h2
    exact ⟨hl, 0, 4 * a.length, 8 * a.length, stateOf a b, s', by omega, ha, hb, memOf_fst a b, h2, (g1 s').mpr rfl, g2⟩

theorem half_val : val half = 1 / 2 := by unfold half; simp [val, unpack]; norm_num

/-- One element of the gradient. -/
theorem mse_cell {r t y : F32.W} (hr : F32.Finite r) (ht : F32.Finite t) (hy : F32.Finite y) (h1 : |val r| ≤ 1) {X : ℝ}
    (hX : |val y| + |val t| ≤ X) (hX' : X ≤ 2 ^ 100) :
    let h := mulIeee (addIeee y (F32.flip t)) (mulIeee r half)
    F32.Finite (addIeee h h) ∧ |val (addIeee h h) - val r * (val y - val t)| ≤ (X + (2 : ℝ) ^ (-126 : Int)) / 2 ^ 21 := by
  intro h
  have hh : h = mulIeee (addIeee y (F32.flip t)) (mulIeee r half) := rfl
  clear_value h
  have s0 : (0 : ℝ) < (2 : ℝ) ^ (-126 : Int) := by positivity
  have s1 : (2 : ℝ) ^ (-126 : Int) ≤ 1 / 4 := by norm_num
  have hX0 : 0 ≤ X := le_trans (by positivity) hX
  have fh : F32.Finite half := by unfold half F32.Finite; decide
  have hyt : |val y + val (F32.flip t)| ≤ X := by
    rw [flip_val]
    have := abs_sub (val y) (val t)
    rw [← sub_eq_add_neg]
    linarith
  obtain ⟨fd, ed⟩ := Opt32.add_in hy (flip_finite ht) hyt (hX'.trans (by norm_num))
  have hrh : |val r * val half| ≤ 1 / 2 := by rw [half_val, abs_mul, abs_of_pos (by norm_num : (0 : ℝ) < 1 / 2)]; linarith
  obtain ⟨fc, ec⟩ := Opt32.mul_in hr fh (B := 1 / 2) hrh (by linarith) (by norm_num)
  rw [half_val] at ec
  rw [flip_val] at ed
  have bd : |val (addIeee y (F32.flip t))| ≤ X + X / 2 ^ 24 := by
    have := abs_sub_abs_le_abs_sub (val (addIeee y (F32.flip t))) (val y + -val t)
    rw [flip_val] at hyt
    linarith
  have bc : |val (mulIeee r half)| ≤ 17 / 32 := by
    have := abs_sub_abs_le_abs_sub (val (mulIeee r half)) (val r * (1 / 2))
    rw [half_val] at hrh
    have : (1 : ℝ) / 2 / 2 ^ 24 ≤ 1 / 32 := by norm_num
    linarith
  have bX : X + X / 2 ^ 24 ≤ 17 / 16 * X := by
    have : X / 2 ^ 24 ≤ X / 2 ^ 4 := div_le_div_of_nonneg_left hX0 (by norm_num) (by norm_num)
    have e : X / 2 ^ 4 = 1 / 16 * X := by ring
    linarith
  generalize hd : addIeee y (F32.flip t) = d at *
  generalize hc : mulIeee r half = c at *
  have bdc : |val d * val c| ≤ 19 / 32 * X + (2 : ℝ) ^ (-126 : Int) := by
    rw [abs_mul]
    have := mul_le_mul (bd.trans bX) bc (abs_nonneg _) (by positivity)
    nlinarith
  obtain ⟨fm, em⟩ := Opt32.mul_in fd fc bdc (by nlinarith) (by
    have : (19 : ℝ) / 32 * 2 ^ 100 + 1 / 4 ≤ 2 ^ 127 := by norm_num
    linarith)
  rw [hh]
  clear hh
  generalize mulIeee d c = m at *
  have bm : |val m| ≤ 5 / 8 * X + 2 * (2 : ℝ) ^ (-126 : Int) := by
    have := abs_sub_abs_le_abs_sub (val m) (val d * val c)
    have e : (19 / 32 * X + (2 : ℝ) ^ (-126 : Int)) / 2 ^ 24 ≤ (19 / 32 * X + (2 : ℝ) ^ (-126 : Int)) / 2 ^ 5 :=
      div_le_div_of_nonneg_left (by positivity) (by norm_num) (by norm_num)
    have e' : (19 / 32 * X + (2 : ℝ) ^ (-126 : Int)) / 2 ^ 5 = 19 / 1024 * X + (2 : ℝ) ^ (-126 : Int) / 32 := by ring
    linarith
  have b2 : |val m + val m| ≤ 5 / 4 * X + 4 * (2 : ℝ) ^ (-126 : Int) := by
    have := abs_add_le (val m) (val m)
    linarith
  obtain ⟨fz, ez⟩ := Opt32.add_in fm fm b2 (by
    have : (5 : ℝ) / 4 * 2 ^ 100 + 4 * (1 / 4) ≤ 2 ^ 127 := by norm_num
    linarith)
  refine ⟨fz, ?_⟩
  generalize val (addIeee m m) = Z at *
  have hdc : |val d * val c - val r * (1 / 2) * (val y - val t)| ≤ 17 / 16 * X * (1 / 2 / 2 ^ 24) + 1 / 2 * (X / 2 ^ 24) := by
    have e : val d * val c - val r * (1 / 2) * (val y - val t) = val d * (val c - val r * (1 / 2)) + val r * (1 / 2) * (val d - (val y + -val t)) := by ring
    rw [e]
    have a1 := abs_add_le (val d * (val c - val r * (1 / 2))) (val r * (1 / 2) * (val d - (val y + -val t)))
    have a2 : |val d * (val c - val r * (1 / 2))| ≤ 17 / 16 * X * (1 / 2 / 2 ^ 24) := by
      rw [abs_mul]; exact mul_le_mul (bd.trans bX) ec (abs_nonneg _) (by positivity)
    have a3 : |val r * (1 / 2) * (val d - (val y + -val t))| ≤ 1 / 2 * (X / 2 ^ 24) := by
      rw [abs_mul]; rw [half_val] at hrh; exact mul_le_mul hrh ed (abs_nonneg _) (by norm_num)
    linarith
  have e : Z - val r * (val y - val t) = (Z - (val m + val m)) + 2 * (val m - val d * val c) + 2 * (val d * val c - val r * (1 / 2) * (val y - val t)) := by ring
  rw [e]
  have a1 := abs_add_le ((Z - (val m + val m)) + 2 * (val m - val d * val c)) (2 * (val d * val c - val r * (1 / 2) * (val y - val t)))
  have a2 := abs_add_le (Z - (val m + val m)) (2 * (val m - val d * val c))
  rw [abs_mul, abs_two] at a1 a2
  generalize (2 : ℝ) ^ (-126 : Int) = τ at *
  have f1 : (X + τ) / 2 ^ 21 = 8 * (X / 2 ^ 24) + 8 * (τ / 2 ^ 24) := by ring
  have f2 : (5 / 4 * X + 4 * τ) / 2 ^ 24 = 5 / 4 * (X / 2 ^ 24) + 4 * (τ / 2 ^ 24) := by ring
  have f3 : (19 / 32 * X + τ) / 2 ^ 24 = 19 / 32 * (X / 2 ^ 24) + τ / 2 ^ 24 := by ring
  have f4 : 17 / 16 * X * (1 / 2 / 2 ^ 24) = 17 / 32 * (X / 2 ^ 24) := by ring
  have p1 : 0 ≤ X / 2 ^ 24 := by positivity
  have p2 : 0 ≤ τ / 2 ^ 24 := by positivity
  rw [f1]; rw [f2] at ez; rw [f3] at em; rw [f4] at hdc
  linarith

/-- **C96: the squared error.**  The gradient of `losses.MSE` is good: for `r` of 1 it is that of the sum. -/
theorem mse_good (cpu : Cpu) {r : F32.W} {t : List F32.W} {n : Nat} {v : Nat → ℝ} {M E T : ℝ} (hr : F32.Finite r) (h1 : |val r| ≤ 1)
    (htl : t.length = n) (ht : ∀ i < n, F32.Finite (t.getD i 0) ∧ |val (t.getD i 0)| ≤ T) (hX : M + E + T ≤ 2 ^ 100) :
    GoodLoss (MseGrad cpu r t) n v (fun i => val r * (v i - val (t.getD i 0))) M E (M + T) (mseErr E (M + E + T)) := by
  intro y hyl hy
  have cell : ∀ i < n, F32.Finite (y.getD i 0) ∧ |val (y.getD i 0)| + |val (t.getD i 0)| ≤ M + E + T := fun i hi => by
    obtain ⟨f, e, b⟩ := hy i hi
    have := abs_sub_abs_le_abs_sub (val (y.getD i 0)) (v i)
    exact ⟨f, by linarith [(ht i hi).2]⟩
  have iff : ∀ g, MseGrad cpu r t y g ↔ g = (List.zipWith addIeee
      (List.zipWith mulIeee (List.zipWith (fun u v => addIeee u (F32.flip v)) y t) ((List.replicate y.length r).map fun v => mulIeee v half))
      (List.zipWith mulIeee (List.zipWith (fun u v => addIeee u (F32.flip v)) y t) ((List.replicate y.length r).map fun v => mulIeee v half))) := by
    intro g
    constructor
    · rintro ⟨c, d, h, hc, hd, ⟨-, rfl⟩, hg⟩
      rw [scale_iff] at hc
      rw [subNew_iff] at hd
      rw [addIn_iff] at hg
      rw [hg.2, hc, hd.2]
    · rintro rfl
      exact ⟨_, _, _, (scale_iff ..).mpr rfl, (subNew_iff ..).mpr ⟨by rw [hyl, htl], rfl⟩, ⟨by simp [hyl, htl], rfl⟩, (addIn_iff ..).mpr ⟨rfl, rfl⟩⟩
  refine ⟨⟨_, (iff _).mpr rfl⟩, fun g hg => ?_⟩
  rw [iff] at hg
  have hl1 : (List.zipWith (fun u v => addIeee u (F32.flip v)) y t).length = n := by simp [hyl, htl]
  have hl2 : ((List.replicate y.length r).map fun v => mulIeee v half).length = n := by simp [hyl]
  have hl3 : (List.zipWith mulIeee (List.zipWith (fun u v => addIeee u (F32.flip v)) y t) ((List.replicate y.length r).map fun v => mulIeee v half)).length = n := by
    rw [List.length_zipWith, hl1, hl2]; simp
  refine ⟨by rw [hg, List.length_zipWith, hl3]; simp, fun i hi => ?_⟩
  rw [hg, getD_zip hl3 hl3 hi, getD_zip hl1 hl2 hi, getD_zip (f := fun u v => addIeee u (F32.flip v)) hyl htl hi, Adam32.mget _ (by simp [hyl, hi]),
    rep_get (by rw [hyl]; exact hi)]
  obtain ⟨f, b⟩ := cell i hi
  obtain ⟨k1, k2⟩ := mse_cell hr (ht i hi).1 f h1 b hX
  obtain ⟨-, e, bv⟩ := hy i hi
  refine ⟨k1, ?_, ?_⟩
  · beta_reduce
    unfold mseErr
    generalize val (addIeee _ _) = Z at *
    generalize val (y.getD i 0) = Y at *
    generalize val (t.getD i 0) = Tv at *
    have e1 : Z - val r * (v i - Tv) = (Z - val r * (Y - Tv)) + val r * (Y - v i) := by ring
    rw [e1]
    have a1 := abs_add_le (Z - val r * (Y - Tv)) (val r * (Y - v i))
    have a2 : |val r * (Y - v i)| ≤ 1 * E := by rw [abs_mul]; exact mul_le_mul h1 e (abs_nonneg _) zero_le_one
    linarith
  · beta_reduce
    rw [abs_mul]
    have a1 := abs_sub (v i) (val (t.getD i 0))
    have a2 : |v i - val (t.getD i 0)| ≤ M + T := by linarith [(ht i hi).2]
    calc _ ≤ 1 * (M + T) := mul_le_mul h1 a2 (abs_nonneg _) zero_le_one
      _ = _ := one_mul _

theorem squared_grad (n : Nat) (ρ : ℝ) (t v : Nat → ℝ) : IsGrad n (squared n ρ t) v (fun i => ρ * (v i - t i)) := by
  intro c c' s hs hc
  unfold squared
  have h : HasDerivAt (fun x => ∑ i ∈ Finset.range n, (c x i - t i) ^ 2 / 2) (∑ i ∈ Finset.range n, (v i - t i) * c' i) s := by
    refine HasDerivAt.fun_sum fun i hi => ?_
    have h1 := (((hc i (Finset.mem_range.mp hi)).sub_const (t i)).pow 2).div_const 2
    refine h1.congr_deriv ?_
    rw [show c s i = v i by rw [hs]]
    simp
    ring
  refine (h.const_mul ρ).congr_deriv ?_
  rw [Finset.mul_sum]
  exact Finset.sum_congr rfl fun i _ => by ring

/-- **C96: networks with these activations, trained on the squared error.**  `r` is 1 for the sum, and `float32(1 / n)` for the mean: the
gradients are those of the squared error with the factor `r`. -/
theorem backward_mse (cpu : Cpu) (j : ExpLog.Lane) {lib : Lib} (h : GoodLib lib) {sl : Slopes} (hs : GoodSlopeLib sl) {r : F32.W}
    (hr : F32.Finite r) (h1 : |val r| ≤ 1) {ls : List (Layer Act)} {x t : List F32.W} {u : Nat → ℝ} {M E T : ℝ} (hM : 0 ≤ M) (hE : 0 ≤ E)
    (hT : 0 ≤ T) (hfit : Fits real lipOf actErr ls x.length M E)
    (hback : FitsBack real lipOf actErr steepest slopeErr safeAt (ranges real lipOf ls M + T)
      (mseErr (errors real lipOf actErr ls M E) (ranges real lipOf ls M + errors real lipOf actErr ls M E + T)) ls x.length u M E)
    (hx : ∀ i < x.length, F32.Finite (x.getD i 0) ∧ |val (x.getD i 0) - u i| ≤ E ∧ |u i| ≤ M)
    (htl : t.length = width ls x.length) (ht : ∀ i < t.length, F32.Finite (t.getD i 0) ∧ |val (t.getD i 0)| ≤ T)
    (hX : ranges real lipOf ls M + errors real lipOf actErr ls M E + T ≤ 2 ^ 100) :
    (∃ z ps, Back cpu (acts cpu j lib) (slopes cpu j lib sl) (MseGrad cpu r t) ls x z ps) ∧
      ∀ z ps, Back cpu (acts cpu j lib) (slopes cpu j lib sl) (MseGrad cpu r t) ls x z ps →
        ∀ pre rows cols w b post, ls = pre ++ .lin rows cols w b :: post → ∃ gw gb, ps[pre.length]? = some (some (gw, gb)) ∧
          gw.length = rows * cols ∧ gb.length = rows ∧ ∀ i < rows, ∀ k < cols, F32.Finite (gw.getD (i * cols + k) 0) ∧
            ∃ δ, HasDerivAt (fun s => squared t.length (val r) (fun i => val (t.getD i 0))
                (network real post (nudged rows cols w b i k (network real pre u) s))) δ 0 ∧
              |val (gw.getD (i * cols + k) 0) - δ| ≤ weightErr (ranges real lipOf pre M) (errors real lipOf actErr pre M E)
                (size steepest (ranges real lipOf ls M + T) post)
                (off real lipOf actErr steepest slopeErr (ranges real lipOf ls M + T)
                  (mseErr (errors real lipOf actErr ls M E) (ranges real lipOf ls M + errors real lipOf actErr ls M E + T)) post
                  (range real lipOf (.lin rows cols w b) (ranges real lipOf pre M))
                  (error lipOf actErr (.lin rows cols w b : Layer Act) (ranges real lipOf pre M) (errors real lipOf actErr pre M E))) := by
  have hF := acts_good cpu j h
  have hL : ∀ a, 0 ≤ lipOf a := fun a => (hF.pos a).1
  have hε : ∀ a, 0 ≤ actErr a := fun a => (hF.pos a).2
  obtain ⟨hR, hEr, -⟩ := fits_append ls (ls := []) hL hε hM hE (by rw [List.append_nil]; exact hfit) (by rw [List.append_nil]; exact hback)
  have hP : 0 ≤ ranges real lipOf ls M + T := add_nonneg hR hT
  have hH : 0 ≤ mseErr (errors real lipOf actErr ls M E) (ranges real lipOf ls M + errors real lipOf actErr ls M E + T) := by
    unfold mseErr; positivity
  rw [htl] at ht
  obtain ⟨b1, b2⟩ := backward_close cpu hF (slopes_good cpu j h hs) (J := squared t.length (val r) fun i => val (t.getD i 0)) hP hH hM hE hfit hback hx
    (mse_good cpu hr h1 htl ht hX) (by rw [← htl]; exact squared_grad _ _ _ _)
  refine ⟨b1, fun z ps hz pre rows cols w b post hls => ?_⟩
  obtain ⟨gw, gb, p1, l1, l2, w1, -⟩ := (b2 z ps hz).2 pre rows cols w b post hls
  exact ⟨gw, gb, p1, l1, l2, w1⟩

end Verif.Back32
