import Verif.Lemmas.Norm32Den
import Verif.Spec.Norm32
import Mathlib.Algebra.Order.Chebyshev

set_option autoImplicit false
set_option linter.unusedSimpArgs false

/-!
# Quotients, means and affine functions of the normalisation layers on float32 (C94)
-/

namespace Verif.Norm32
open Verif.F32 Verif.Asm Verif.Spec Verif.Spec.Kernels Verif.Net32 Verif.Rec32 Verif.Att32 Verif.Adam32 Verif.Spec.Norm32

/-! ### The quotient -/

theorem quot_ok {n : Nat} (hn : n ≤ 2 ^ 20) {d : Nat → ℝ} {m D : ℝ} (hm : 1 ≤ m) {q : F32.W} (h : Den n d m D q) {i : Nat} (hi : i < n)
    {z : F32.W} (hz : F32.Finite z) (hd : d i = val z) (hb : |val z| ≤ 2 ^ 50) :
    F32.Finite (mulIeee z (divIeee one q)) ∧ |val (mulIeee z (divIeee one q))| ≤ Real.sqrt m * (1 + 1 / 2 ^ 16) ∧
      |val (mulIeee z (divIeee one q)) - d i / D| ≤ Real.sqrt m * (n + 23) / 2 ^ 23 + 1 / 2 ^ 150 := by
  obtain ⟨fq, q1, q2, hD, eD, gq⟩ := h
  have hg := gq i hi
  rw [hd] at hg ⊢
  have hq0 : 0 < val q := lt_of_lt_of_le (by positivity) q1
  have hm0 : 0 ≤ m := by linarith
  have hk : 1 ≤ Real.sqrt m := Real.le_sqrt_of_sq_le (by simpa using hm)
  have hkk := Real.mul_self_sqrt hm0
  generalize Real.sqrt m = k at *
  have hlo : 1 / 2 ^ 62 ≤ 1 / val q := one_div_le_one_div_of_le hq0 q2
  have hhi : 1 / val q ≤ 2 ^ 35 := by
    rw [div_le_iff₀ hq0]
    have : (2 : ℝ) ^ 35 * (1 / 2 ^ 35) ≤ 2 ^ 35 * val q := mul_le_mul_of_nonneg_left q1 (by positivity)
    norm_num at this ⊢
    linarith
  have hr0 : 0 < 1 / val q := by positivity
  obtain ⟨fr, er⟩ := div_near one_fin fq (by rw [one_val]; norm_num) hq0.ne'
    (by rw [one_val, abs_of_pos hr0]; exact hhi.trans (by norm_num))
    (by rw [one_val, abs_of_pos hr0]; exact le_trans (by norm_num) hlo)
  rw [one_val, abs_of_pos hr0] at er
  generalize divIeee one q = r at *
  -- |z| / q
  have hzq : |val z| / val q ≤ k * (1 + 1 / 2 ^ 18) := by
    rw [div_le_iff₀ hq0]
    have h1 : |val z| * |val z| * (1 - 1 / 2 ^ 18) ≤ k * val q * (k * val q) := by
      rw [abs_mul_abs_self]
      calc _ ≤ _ := hg
        _ = _ := by rw [← hkk]; ring
    have h2 : 0 ≤ k * val q := by positivity
    by_contra hc
    push Not at hc
    have h3 : k * (1 + 1 / 2 ^ 18) * val q = k * val q * (1 + 1 / 2 ^ 18) := by ring
    rw [h3] at hc
    have h4 := mul_self_lt_mul_self (mul_nonneg h2 (by norm_num)) hc
    have h5 : k * val q * (k * val q) ≤ k * val q * (1 + 1 / 2 ^ 18) * (k * val q * (1 + 1 / 2 ^ 18)) * (1 - 1 / 2 ^ 18) := by
      calc k * val q * (k * val q) = k * val q * (k * val q) * 1 := by ring
        _ ≤ k * val q * (k * val q) * ((1 + 1 / 2 ^ 18) * (1 + 1 / 2 ^ 18) * (1 - 1 / 2 ^ 18)) :=
          mul_le_mul_of_nonneg_left (by norm_num) (mul_self_nonneg _)
        _ = _ := by ring
    have h6 := mul_lt_mul_of_pos_right h4 (show (0 : ℝ) < 1 - 1 / 2 ^ 18 by norm_num)
    linarith
  have hz0 : 0 ≤ |val z| / val q := by positivity
  -- z * r
  have e1 : |val z * val r - val z / val q| ≤ |val z| / val q / 2 ^ 23 := by
    have : val z * val r - val z / val q = val z * (val r - 1 / val q) := by ring
    rw [this, abs_mul]
    calc _ ≤ |val z| * (1 / val q / 2 ^ 23) := mul_le_mul_of_nonneg_left er (abs_nonneg _)
      _ = _ := by ring
  have e2 : |val z / val q| = |val z| / val q := by rw [abs_div, abs_of_pos hq0]
  have e3 : |val z * val r| ≤ 2 * (|val z| / val q) := by
    have := abs_sub_abs_le_abs_sub (val z * val r) (val z / val q)
    have : |val z| / val q / 2 ^ 23 ≤ |val z| / val q := div_le_self hz0 (by norm_num)
    rw [e2] at *
    linarith
  have hzq' : |val z| / val q ≤ 2 ^ 85 := by
    calc |val z| / val q = |val z| * (1 / val q) := by ring
      _ ≤ 2 ^ 50 * 2 ^ 35 := mul_le_mul hb hhi hr0.le (by positivity)
      _ = 2 ^ 85 := by norm_num
  have fm : F32.Finite (mulIeee z r) := by
    refine mul_fin hz fr (e3.trans (lt127 ?_))
    norm_num at hzq' ⊢
    linarith
  have em := mul_rel fm
  have t150 : (2 : ℝ) ^ (-150 : Int) = 1 / 2 ^ 150 := by norm_num
  rw [t150] at em
  have e4 : |val (mulIeee z r) - val z / val q| ≤ 2 * (|val z| / val q / 2 ^ 23) + 1 / 2 ^ 150 := by
    have a1 := abs_sub_le (val (mulIeee z r)) (val z * val r) (val z / val q)
    have a2 : |val z * val r| / 2 ^ 24 ≤ 2 * (|val z| / val q) / 2 ^ 24 := div_le_div_of_nonneg_right e3 (by positivity)
    have a3 : 2 * (|val z| / val q) / 2 ^ 24 = |val z| / val q / 2 ^ 23 := by ring
    rw [a3] at a2
    linarith
  refine ⟨fm, ?_, ?_⟩
  · have a1 := abs_sub_abs_le_abs_sub (val (mulIeee z r)) (val z / val q)
    rw [e2] at a1
    have a2 : 2 * (|val z| / val q / 2 ^ 23) ≤ 2 * (k * (1 + 1 / 2 ^ 18) / 2 ^ 23) :=
      mul_le_mul_of_nonneg_left (div_le_div_of_nonneg_right hzq (by positivity)) (by norm_num)
    have a3 : (1 : ℝ) / 2 ^ 150 ≤ k / 2 ^ 23 :=
      le_trans (by norm_num) (div_le_div_of_nonneg_right hk (show (0 : ℝ) ≤ 2 ^ 23 by positivity))
    have a4 : k * (1 + 1 / 2 ^ 18) + 2 * (k * (1 + 1 / 2 ^ 18) / 2 ^ 23) + k / 2 ^ 23 ≤ k * (1 + 1 / 2 ^ 16) := by
      have : k * (1 + 1 / 2 ^ 18) + 2 * (k * (1 + 1 / 2 ^ 18) / 2 ^ 23) + k / 2 ^ 23 =
        k * (1 + 1 / 2 ^ 18 + 2 * ((1 + 1 / 2 ^ 18) / 2 ^ 23) + 1 / 2 ^ 23) := by ring
      rw [this]
      exact mul_le_mul_of_nonneg_left (by norm_num) (by linarith)
    linarith
  · have a1 := abs_sub_le (val (mulIeee z r)) (val z / val q) (val z / D)
    have a2 : |val z / val q - val z / D| ≤ |val z| / val q * ((n + 16) / 2 ^ 23) := by
      have : val z / val q - val z / D = val z / val q * ((D - val q) / D) := by field_simp
      rw [this, abs_mul, e2]
      refine mul_le_mul_of_nonneg_left ?_ hz0
      rw [abs_div, abs_of_pos hD, div_le_iff₀ hD, abs_sub_comm]
      exact eD
    have a3 : |val z| / val q * ((n + 18) / 2 ^ 23) ≤ k * (1 + 1 / 2 ^ 18) * ((n + 18) / 2 ^ 23) :=
      mul_le_mul_of_nonneg_right hzq (by positivity)
    have a4 : |val z| / val q * ((n + 18) / 2 ^ 23) = |val z| / val q * ((n + 16) / 2 ^ 23) + 2 * (|val z| / val q / 2 ^ 23) := by ring
    rw [a4] at a3
    have hnr : (n : ℝ) ≤ 1048576 := by exact_mod_cast hn
    have a5 : k * (1 + 1 / 2 ^ 18) * ((n + 18) / 2 ^ 23) ≤ k * (n + 23) / 2 ^ 23 := by
      have : k * (n + 23) / 2 ^ 23 = k * ((n + 23) / 2 ^ 23) := by ring
      rw [this, mul_assoc]
      refine mul_le_mul_of_nonneg_left ?_ (by linarith)
      rw [← mul_div_assoc]
      refine div_le_div_of_nonneg_right ?_ (by positivity)
      have : (1 : ℝ) / 2 ^ 18 * (n + 18) ≤ 5 := by norm_num; linarith
      linarith
    linarith

/-! ### The affine function -/

theorem aff_ok {y w b : F32.W} {k N e : ℝ} (hk : 1 ≤ k) (hk' : k ≤ 2 ^ 10) (fy : F32.Finite y) (by' : |val y| ≤ k * (1 + 1 / 2 ^ 16))
    (ey : |val y - N| ≤ e) (fw : F32.Finite w) (bw : |val w| ≤ 2 ^ 60) (fb : F32.Finite b) (bb : |val b| ≤ 2 ^ 60) :
    F32.Finite (addIeee (mulIeee y w) b) ∧
      |val (addIeee (mulIeee y w) b)| ≤ (k * |val w| + |val b|) * (1 + 1 / 2 ^ 15) + 1 / 2 ^ 149 ∧
      |val (addIeee (mulIeee y w) b) - (N * val w + val b)| ≤ affErr k (val w) (val b) e := by
  have t150 : (2 : ℝ) ^ (-150 : Int) = 1 / 2 ^ 150 := by norm_num
  have p1 : |val y * val w| ≤ k * |val w| * (1 + 1 / 2 ^ 16) := by
    rw [abs_mul]
    calc _ ≤ k * (1 + 1 / 2 ^ 16) * |val w| := mul_le_mul_of_nonneg_right by' (abs_nonneg _)
      _ = _ := by ring
  have p2 : k * |val w| ≤ 2 ^ 70 := by
    calc k * |val w| ≤ 2 ^ 10 * 2 ^ 60 := mul_le_mul hk' bw (abs_nonneg _) (by positivity)
      _ = 2 ^ 70 := by norm_num
  have p0 : 0 ≤ k * |val w| := mul_nonneg (by linarith) (abs_nonneg _)
  have p3 : |val y * val w| ≤ 2 * 2 ^ 70 := by
    refine p1.trans ?_
    have : k * |val w| * (1 + 1 / 2 ^ 16) ≤ k * |val w| * 2 := mul_le_mul_of_nonneg_left (by norm_num) p0
    linarith
  have f1 : F32.Finite (mulIeee y w) := mul_fin fy fw (p3.trans (lt127 (by norm_num)))
  have e1 := mul_rel f1
  rw [t150] at e1
  have e1' : |val y * val w| / 2 ^ 24 ≤ k * |val w| * (1 + 1 / 2 ^ 16) / 2 ^ 24 := div_le_div_of_nonneg_right p1 (by positivity)
  have p4 : |val (mulIeee y w)| ≤ k * |val w| * (1 + 1 / 2 ^ 16) * (1 + 1 / 2 ^ 24) + 1 / 2 ^ 150 := by
    have := abs_sub_abs_le_abs_sub (val (mulIeee y w)) (val y * val w)
    have e : k * |val w| * (1 + 1 / 2 ^ 16) * (1 + 1 / 2 ^ 24) = k * |val w| * (1 + 1 / 2 ^ 16) + k * |val w| * (1 + 1 / 2 ^ 16) / 2 ^ 24 := by ring
    rw [e]; linarith
  have p5 : |val (mulIeee y w) + val b| ≤ k * |val w| * (1 + 1 / 2 ^ 16) * (1 + 1 / 2 ^ 24) + 1 / 2 ^ 150 + |val b| :=
    (abs_add_le _ _).trans (by linarith)
  have p6 : k * |val w| * (1 + 1 / 2 ^ 16) * (1 + 1 / 2 ^ 24) ≤ k * |val w| * 2 := by
    rw [mul_assoc]; exact mul_le_mul_of_nonneg_left (by norm_num) p0
  have f2 : F32.Finite (addIeee (mulIeee y w) b) := by
    refine add_fin f1 fb (p5.trans (lt127 ?_))
    norm_num at p2 p6 bb ⊢
    linarith
  have e2 := add_pure f2
  have e2' := e2.trans (div_le_div_of_nonneg_right p5 (by positivity))
  have hb0 := abs_nonneg (val b)
  have hw0 := abs_nonneg (val w)
  refine ⟨f2, ?_, ?_⟩
  · have a := abs_sub_abs_le_abs_sub (val (addIeee (mulIeee y w) b)) (val (mulIeee y w) + val b)
    generalize k * |val w| = A at *
    generalize |val b| = B at *
    have : A * (1 + 1 / 2 ^ 16) * (1 + 1 / 2 ^ 24) + 1 / 2 ^ 150 + B + (A * (1 + 1 / 2 ^ 16) * (1 + 1 / 2 ^ 24) + 1 / 2 ^ 150 + B) / 2 ^ 24 =
      A * ((1 + 1 / 2 ^ 16) * (1 + 1 / 2 ^ 24) * (1 + 1 / 2 ^ 24)) + B * (1 + 1 / 2 ^ 24) + 1 / 2 ^ 150 * (1 + 1 / 2 ^ 24) := by ring
    have b1 : A * ((1 + 1 / 2 ^ 16) * (1 + 1 / 2 ^ 24) * (1 + 1 / 2 ^ 24)) ≤ A * (1 + 1 / 2 ^ 15) :=
      mul_le_mul_of_nonneg_left (by norm_num) p0
    have b2 : B * (1 + 1 / 2 ^ 24) ≤ B * (1 + 1 / 2 ^ 15) := mul_le_mul_of_nonneg_left (by norm_num) hb0
    have b3 : (1 : ℝ) / 2 ^ 150 * (1 + 1 / 2 ^ 24) ≤ 1 / 2 ^ 149 := by norm_num
    rw [add_mul]
    linarith
  · have a1 : |val y * val w - N * val w| ≤ |val w| * e := by
      rw [← sub_mul, abs_mul, mul_comm]; exact mul_le_mul_of_nonneg_left ey hw0
    have e : val (addIeee (mulIeee y w) b) - (N * val w + val b) =
        (val (addIeee (mulIeee y w) b) - (val (mulIeee y w) + val b)) + ((val (mulIeee y w) - val y * val w) +
          (val y * val w - N * val w)) := by ring
    rw [e]
    refine (abs_add_le _ _).trans ((add_le_add e2' ((abs_add_le _ _).trans (add_le_add (e1.trans (add_le_add e1' le_rfl)) a1))).trans ?_)
    unfold affErr
    generalize k * |val w| = A at *
    generalize |val b| = B at *
    have e3 : (A * (1 + 1 / 2 ^ 16) * (1 + 1 / 2 ^ 24) + 1 / 2 ^ 150 + B) / 2 ^ 24 =
      A * ((1 + 1 / 2 ^ 16) * (1 + 1 / 2 ^ 24) / 2 ^ 24) + 1 / 2 ^ 150 / 2 ^ 24 + B / 2 ^ 24 := by ring
    have e4 : A * (1 + 1 / 2 ^ 16) / 2 ^ 24 = A * ((1 + 1 / 2 ^ 16) / 2 ^ 24) := by ring
    have e5 : (A + B) / 2 ^ 22 = A * (1 / 2 ^ 22) + B / 2 ^ 22 := by ring
    have b1 : A * ((1 + 1 / 2 ^ 16) * (1 + 1 / 2 ^ 24) / 2 ^ 24) ≤ A * (1 / 2 ^ 23) := mul_le_mul_of_nonneg_left (by norm_num) p0
    have b2 : A * ((1 + 1 / 2 ^ 16) / 2 ^ 24) ≤ A * (1 / 2 ^ 23) := mul_le_mul_of_nonneg_left (by norm_num) p0
    have b3 : A * (1 / 2 ^ 22) = A * (1 / 2 ^ 23) + A * (1 / 2 ^ 23) := by ring
    have b4 : B / 2 ^ 24 ≤ B / 2 ^ 22 := div_le_div_of_nonneg_left hb0 (by norm_num) (by norm_num)
    have b5 : (1 : ℝ) / 2 ^ 150 / 2 ^ 24 + 1 / 2 ^ 150 ≤ 1 / 2 ^ 149 := by norm_num
    rw [e3, e4, e5]
    linarith

/-! ### The mean -/

theorem meanSq_nonneg (n : Nat) (x : Nat → ℝ) : 0 ≤ meanSq n x :=
  div_nonneg (Finset.sum_nonneg fun i _ => mul_self_nonneg _) (Nat.cast_nonneg _)

/-- The triangle inequality of the root mean square, with one constant vector. -/
theorem rms_le {n : Nat} (h1 : 1 ≤ n) {p q : Nat → ℝ} {e : ℝ} (he : 0 ≤ e) (hp : ∀ i < n, 0 ≤ p i) (hq : ∀ i < n, 0 ≤ q i)
    (h : ∀ i < n, p i ≤ e + q i) : Real.sqrt (meanSq n p) ≤ e + Real.sqrt (meanSq n q) := by
  have hn0 : (0 : ℝ) < n := by exact_mod_cast h1
  have hs := Real.sqrt_nonneg (meanSq n q)
  rw [Real.sqrt_le_left (by linarith)]
  have h2 := Real.mul_self_sqrt (meanSq_nonneg n q)
  have c : (∑ i ∈ Finset.range n, q i) ≤ n * Real.sqrt (meanSq n q) := by
    have c1 := sq_sum_le_card_mul_sum_sq (s := Finset.range n) (f := q)
    rw [Finset.card_range] at c1
    have c2 : ∑ i ∈ Finset.range n, q i ^ 2 = n * meanSq n q := by
      unfold meanSq
      rw [mul_div_cancel₀ _ hn0.ne']
      exact Finset.sum_congr rfl fun i _ => by ring
    rw [c2] at c1
    refine abs_le_of_sq_le_sq' ?_ (by positivity) |>.2
    calc _ ≤ _ := c1
      _ = _ := by rw [mul_pow, sq (Real.sqrt _), h2]; ring
  have d : meanSq n p ≤ e * e + 2 * e * ((∑ i ∈ Finset.range n, q i) / n) + meanSq n q := by
    have d1 : ∑ i ∈ Finset.range n, p i * p i ≤ ∑ i ∈ Finset.range n, (e * e + 2 * e * q i + q i * q i) := by
      refine Finset.sum_le_sum fun i hi => ?_
      have hi' := Finset.mem_range.mp hi
      have := mul_self_le_mul_self (hp i hi') (h i hi')
      nlinarith
    rw [Finset.sum_add_distrib, Finset.sum_add_distrib, ← Finset.mul_sum _ _ (2 * e), Finset.sum_const, Finset.card_range, nsmul_eq_mul] at d1
    unfold meanSq
    rw [div_le_iff₀ hn0]
    refine d1.trans (le_of_eq ?_)
    field_simp
  have d2 : (∑ i ∈ Finset.range n, q i) / n ≤ Real.sqrt (meanSq n q) := by rw [div_le_iff₀ hn0]; linarith
  have d3 : 2 * e * ((∑ i ∈ Finset.range n, q i) / n) ≤ 2 * e * Real.sqrt (meanSq n q) := mul_le_mul_of_nonneg_left d2 (by positivity)
  nlinarith

theorem meanSq_abs (n : Nat) (x : Nat → ℝ) : meanSq n (fun i => |x i|) = meanSq n x := by
  unfold meanSq; congr 1; exact Finset.sum_congr rfl fun i _ => abs_mul_abs_self _

theorem meanSq_scale (n : Nat) (c : ℝ) (hc : 0 ≤ c) (x : Nat → ℝ) : Real.sqrt (meanSq n fun i => c * x i) = c * Real.sqrt (meanSq n x) := by
  have : meanSq n (fun i => c * x i) = c * c * meanSq n x := by
    unfold meanSq
    rw [← mul_div_assoc, Finset.mul_sum]
    congr 1; exact Finset.sum_congr rfl fun i _ => by ring
  rw [this, Real.sqrt_mul (mul_self_nonneg _), Real.sqrt_mul_self hc]

/-- Vectors that are close have close root mean squares. -/
theorem rms_close {n : Nat} (h1 : 1 ≤ n) {p q : Nat → ℝ} {e u : ℝ} (he : 0 ≤ e) (hu : 0 ≤ u) (hu1 : u ≤ 1)
    (h : ∀ i < n, |p i - q i| ≤ e + u * |q i|) :
    |Real.sqrt (meanSq n p) - Real.sqrt (meanSq n q)| ≤ e + u * Real.sqrt (meanSq n q) := by
  have a := rms_le h1 (p := fun i => |p i|) (q := fun i => (1 + u) * |q i|) he (fun i _ => abs_nonneg _)
    (fun i _ => by positivity) (fun i hi => by
      have := abs_sub_abs_le_abs_sub (p i) (q i)
      have := h i hi
      linarith)
  have b := rms_le h1 (p := fun i => (1 - u) * |q i|) (q := fun i => |p i|) he (fun i _ => mul_nonneg (by linarith) (abs_nonneg _))
    (fun i _ => abs_nonneg _) (fun i hi => by
      have := abs_sub_abs_le_abs_sub (q i) (p i)
      rw [abs_sub_comm] at this
      have := h i hi
      linarith)
  rw [meanSq_scale n (1 + u) (by linarith) fun i => |q i|, meanSq_abs, meanSq_abs] at a
  rw [meanSq_scale n (1 - u) (by linarith) fun i => |q i|, meanSq_abs, meanSq_abs] at b
  rw [abs_le]
  constructor <;> linarith

/-- No element is larger than `√n` times the root mean square. -/
theorem elem_le {n : Nat} {x : Nat → ℝ} {i : Nat} (hi : i < n) : |x i| ≤ Real.sqrt n * Real.sqrt (meanSq n x) := by
  have hn0 : (0 : ℝ) < n := by exact_mod_cast (by omega : 0 < n)
  rw [← Real.sqrt_mul hn0.le, ← Real.sqrt_sq_eq_abs]
  refine Real.sqrt_le_sqrt ?_
  unfold meanSq
  rw [mul_div_cancel₀ _ hn0.ne', sq]
  exact Finset.single_le_sum (f := fun j => x j * x j) (fun j _ => mul_self_nonneg _) (Finset.mem_range.mpr hi)

theorem ratio_shift {s s' d d' e k u : ℝ} (hs : 0 < s) (hs' : 0 < s') (hu : 0 ≤ u) (hk : 0 ≤ k) (hd' : |d'| ≤ k * s')
    (hd : |d| ≤ k * s) (h1 : |s' - s| ≤ e + u * s) (h2 : |d' - d| ≤ e + u * |d|) :
    |d' / s' - d / s| ≤ (k + 1) * e / s + 2 * u * k := by
  have e1 : d' / s' - d / s = d' / s' * ((s - s') / s) + (d' - d) / s := by field_simp; ring
  rw [e1]
  have a1 : |d' / s'| ≤ k := by rw [abs_div, abs_of_pos hs', div_le_iff₀ hs']; exact hd'
  have a2 : |(s - s') / s| ≤ (e + u * s) / s := by
    rw [abs_div, abs_of_pos hs, abs_sub_comm]; exact div_le_div_of_nonneg_right h1 hs.le
  have a3 : |(d' - d) / s| ≤ (e + u * (k * s)) / s := by
    rw [abs_div, abs_of_pos hs]
    exact div_le_div_of_nonneg_right (h2.trans (by linarith [mul_le_mul_of_nonneg_left hd hu])) hs.le
  have a4 : |d' / s' * ((s - s') / s)| ≤ k * ((e + u * s) / s) := by
    rw [abs_mul]; exact mul_le_mul a1 a2 (abs_nonneg _) hk
  refine (abs_add_le _ _).trans ((add_le_add a4 a3).trans (le_of_eq ?_))
  field_simp; ring

theorem sqrt_shift {a b eps : ℝ} (ha : 0 ≤ a) (hb : 0 ≤ b) (he : 0 < eps) :
    |Real.sqrt (a + eps) - Real.sqrt (b + eps)| ≤ |Real.sqrt a - Real.sqrt b| := by
  have h1 : 0 < Real.sqrt (a + eps) := Real.sqrt_pos.mpr (by linarith)
  have h2 : 0 < Real.sqrt (b + eps) := Real.sqrt_pos.mpr (by linarith)
  have h3 : Real.sqrt a ≤ Real.sqrt (a + eps) := Real.sqrt_le_sqrt (by linarith)
  have h4 : Real.sqrt b ≤ Real.sqrt (b + eps) := Real.sqrt_le_sqrt (by linarith)
  have e1 := Real.mul_self_sqrt (show 0 ≤ a + eps by linarith)
  have e2 := Real.mul_self_sqrt (show 0 ≤ b + eps by linarith)
  have e3 := Real.mul_self_sqrt ha
  have e4 := Real.mul_self_sqrt hb
  have g1 := Real.sqrt_nonneg a
  have g2 := Real.sqrt_nonneg b
  generalize Real.sqrt (a + eps) = A at *
  generalize Real.sqrt (b + eps) = B at *
  generalize Real.sqrt a = p at *
  generalize Real.sqrt b = q at *
  have key : |A - B| * (A + B) = |p - q| * (p + q) := by
    have c1 : |A - B| * (A + B) = |(A - B) * (A + B)| := by rw [abs_mul, abs_of_pos (show 0 < A + B by linarith)]
    have c2 : |p - q| * (p + q) = |(p - q) * (p + q)| := by rw [abs_mul, abs_of_nonneg (show 0 ≤ p + q by linarith)]
    rw [c1, c2]
    congr 1
    linear_combination e1 - e2 - e3 + e4
  have : |p - q| * (p + q) ≤ |p - q| * (A + B) := mul_le_mul_of_nonneg_left (by linarith) (abs_nonneg _)
  rw [← key] at this
  exact le_of_mul_le_mul_right this (by linarith)

/-- The deviations from the mean. -/
theorem dev_ok {cpu : Cpu} {x dev : List F32.W} (h : Dev cpu x dev) (h1 : 1 ≤ x.length) (hn : x.length ≤ 2 ^ 20) {X : ℝ}
    (hX : X ≤ 2 ^ 48) (hx : ∀ i < x.length, F32.Finite (x.getD i 0) ∧ |val (x.getD i 0)| ≤ X) :
    dev.length = x.length ∧ ∀ i < x.length, F32.Finite (dev.getD i 0) ∧ |val (dev.getD i 0)| ≤ 2 ^ 50 ∧
      |vals' dev i - (vals' x i - mean x.length (vals' x))| ≤
        (x.length + 5) / 2 ^ 23 * (X + 1 / 2 ^ 63) + 1 / 2 ^ 24 * |vals' x i - mean x.length (vals' x)| := by
  obtain ⟨m, hm, hd⟩ := h
  unfold SubConst at hd
  rw [addConst_iff] at hd
  subst hd
  obtain ⟨fm, em⟩ := mean_ok hm h1 hn (hX.trans (by norm_num)) hx
  refine ⟨by simp, fun i hi => ?_⟩
  have hX0 : 0 ≤ X := (abs_nonneg _).trans (hx i hi).2
  rw [mget _ hi]
  show _ ∧ _ ∧ |val (((x.map fun v => addIeee v (F32.flip m))).getD i 0) - _| ≤ _
  rw [mget _ hi]
  obtain ⟨fx, bx⟩ := hx i hi
  have hmu : |mean x.length (vals' x)| ≤ X := by
    have hn0 : (0 : ℝ) < x.length := by exact_mod_cast h1
    unfold mean
    rw [abs_div, abs_of_pos hn0, div_le_iff₀ hn0]
    refine (Finset.abs_sum_le_sum_abs _ _).trans ((Finset.sum_le_sum fun i hi => (hx i (Finset.mem_range.mp hi)).2).trans ?_)
    simp [mul_comm]
  have em' : |val m - mean x.length (vals' x)| ≤ (x.length + 4) / 2 ^ 23 * (X + 1 / 2 ^ 63) := em
  show _ ∧ _ ∧ |_ - (val (x.getD i 0) - mean x.length (vals' x))| ≤ _ + 1 / 2 ^ 24 * |val (x.getD i 0) - mean x.length (vals' x)|
  generalize mean x.length (vals' x) = μ at *
  generalize x.getD i 0 = a at *
  obtain ⟨k0, k1⟩ := kappa hn (k := 4) (by norm_num) (by norm_num)
  have hfl : val (F32.flip m) = -val m := flip_val m
  obtain ⟨Y, hY⟩ : ∃ Y, Y = X + 1 / 2 ^ 63 := ⟨_, rfl⟩
  rw [← hY] at em' ⊢
  have hY0 : 0 ≤ Y := by rw [hY]; positivity
  have hYX : X ≤ Y := by rw [hY]; linarith [show (0 : ℝ) < 1 / 2 ^ 63 by positivity]
  have hYu : Y ≤ 2 ^ 49 := by rw [hY]; norm_num at hX ⊢; linarith
  have em2 : |val m - μ| ≤ 1 / 7 * Y := em'.trans (mul_le_mul_of_nonneg_right k1 hY0)
  have d1 : |val a - val m| ≤ |val a - μ| + |val m - μ| := by
    have := abs_sub_le (val a) μ (val m)
    rwa [abs_sub_comm μ] at this
  have d2 : |val a - μ| ≤ 2 * X := (abs_sub _ _).trans (by linarith)
  have d3 : |val a + val (F32.flip m)| ≤ 3 * 2 ^ 48 := by
    rw [hfl, ← sub_eq_add_neg]
    norm_num at hX hYu ⊢
    norm_num at hY
    linarith
  have fd : F32.Finite (addIeee a (F32.flip m)) := add_fin fx (flip_finite fm) (d3.trans (lt127 (by norm_num)))
  have ed := add_pure fd
  have hsum : val a + val (F32.flip m) = val a - val m := by rw [hfl]; ring
  rw [hsum] at ed d3
  refine ⟨fd, ?_, ?_⟩
  · have a1 := abs_sub_abs_le_abs_sub (val (addIeee a (F32.flip m))) (val a - val m)
    have a2 : |val a - val m| / 2 ^ 24 ≤ 3 * 2 ^ 48 / 2 ^ 24 := div_le_div_of_nonneg_right d3 (by positivity)
    norm_num at a2 d3 ⊢
    linarith
  · have a1 := abs_sub_le (val (addIeee a (F32.flip m))) (val a - val m) (val a - μ)
    have a2 : |val a - val m - (val a - μ)| = |val m - μ| := by
      rw [show val a - val m - (val a - μ) = -(val m - μ) by ring, abs_neg]
    rw [a2] at a1
    have a3 : |val a - val m| / 2 ^ 24 ≤ (|val a - μ| + |val m - μ|) / 2 ^ 24 := div_le_div_of_nonneg_right d1 (by positivity)
    have a4 : (|val a - μ| + |val m - μ|) / 2 ^ 24 = 1 / 2 ^ 24 * |val a - μ| + |val m - μ| / 2 ^ 24 := by ring
    have a5 : |val m - μ| / 2 ^ 24 ≤ 1 / 7 * Y / 2 ^ 24 := div_le_div_of_nonneg_right em2 (by positivity)
    have a6 : (x.length + 5) / 2 ^ 23 * Y = (x.length + 4) / 2 ^ 23 * Y + Y / 2 ^ 23 := by ring
    have a7 : 1 / 7 * Y / 2 ^ 24 ≤ Y / 2 ^ 23 := by
      have : 1 / 7 * Y / 2 ^ 24 = 1 / 14 * (Y / 2 ^ 23) := by ring
      rw [this]
      have : 0 ≤ Y / 2 ^ 23 := by positivity
      linarith
    rw [a6]
    linarith

end Verif.Norm32
