import Verif.Spec.Adam32
import Verif.Lemmas.Adam32

set_option autoImplicit false
set_option linter.unusedSimpArgs false

/-!
# One element of Adam: bounds
-/

namespace Verif.Adam32
open Verif.F32 Verif.Asm Verif.Spec Verif.Spec.Kernels Verif.Net32 Verif.Rec32 Verif.Att32 Verif.Spec.Adam32

theorem tiny126 : (2 : ℝ) ^ (-126 : Int) ≤ 1 := by norm_num

theorem big_fin {r : ℝ} (h : r ≤ 2 ^ 127) : r ≤ maxFin := h.trans (by unfold maxFin; norm_num)

/-- A product with a bound. -/
theorem mul_to {x y : F32.W} (hx : F32.Finite x) (hy : F32.Finite y) {B : ℝ} (h : |val x * val y| ≤ B) (h1 : 1 ≤ B) (h2 : B ≤ 2 ^ 127) :
    F32.Finite (mulIeee x y) ∧ |val (mulIeee x y) - val x * val y| ≤ B / 2 ^ 24 := by
  have hf := mul_fin hx hy (h.trans (big_fin h2))
  exact ⟨hf, (mul_near_fin hf).trans (slack_le h (tiny126.trans h1))⟩

theorem add_to {x y : F32.W} (hx : F32.Finite x) (hy : F32.Finite y) {B : ℝ} (h : |val x + val y| ≤ B) (h1 : 1 ≤ B) (h2 : B ≤ 2 ^ 127) :
    F32.Finite (addIeee x y) ∧ |val (addIeee x y) - (val x + val y)| ≤ B / 2 ^ 24 := by
  have hf := add_fin hx hy (h.trans (big_fin h2))
  exact ⟨hf, (add_near_fin hf).trans (slack_le h (tiny126.trans h1))⟩

theorem zero_exact : F32.Exact (0 : ℝ) := ⟨0, 0, by simp, by norm_num, by norm_num⟩

theorem mul_nonneg' {x y : F32.W} (hf : F32.Finite (mulIeee x y)) (h : 0 ≤ val x * val y) : 0 ≤ val (mulIeee x y) := by
  obtain ⟨hx, hy⟩ := mul_finite hf
  obtain ⟨z, v, e, h1, h2⟩ := mulIeee_rnd hx hy
  rw [h1] at hf ⊢
  exact rnd_ge z v e hf zero_exact (by rw [h2]; exact h)

/-- **The first moment.** -/
theorem v1_ok {o : Settings} {K : ℝ} (ho : Sane o K) {g v : F32.W} {G : ℝ} (hG : 1 ≤ G) (hG' : G ≤ 2 ^ 120) (hg : F32.Finite g)
    (hv : F32.Finite v) (hgG : |val g| ≤ G) (hvG : |val v| ≤ 2 * G) :
    F32.Finite (v1 o g v) ∧ |val (v1 o g v)| ≤ 2 * G ∧ |val (v1 o g v) - (val o.b1 * val v + val o.b1c * val g)| ≤ 6 * G / 2 ^ 24 := by
  have b1 := ho.b1_nonneg
  have b2 := ho.b1_le
  have b3 := ho.b1c_nonneg
  have b4 := ho.b1_sum
  have hx0 : |val v * val o.b1| ≤ val o.b1 * (2 * G) := by
    rw [abs_mul, abs_of_nonneg b1, mul_comm]; exact mul_le_mul_of_nonneg_left hvG b1
  have hy0 : |val g * val o.b1c| ≤ val o.b1c * G := by
    rw [abs_mul, abs_of_nonneg b3, mul_comm]; exact mul_le_mul_of_nonneg_left hgG b3
  have e1 : val o.b1 * (2 * G) ≤ 2 * G := by nlinarith
  have e2 : val o.b1c * G ≤ 2 * G := by
    have : val o.b1c ≤ 2 := by norm_num at b4; linarith
    nlinarith
  have e3 : val o.b1 * (2 * G) + val o.b1c * G ≤ 2 * G - G / 2 ^ 13 := by
    have h1 : val o.b1 * G ≤ (1 - 1 / 2 ^ 12) * G := mul_le_mul_of_nonneg_right b2 (by linarith)
    have h2 : (val o.b1 + val o.b1c) * G ≤ (1 + 1 / 2 ^ 20) * G := mul_le_mul_of_nonneg_right b4 (by linarith)
    norm_num at h1 h2 ⊢; nlinarith
  obtain ⟨fx, nx⟩ := mul_to hv ho.b1_fin (hx0.trans e1) (by linarith) (by norm_num at hG' ⊢; linarith)
  obtain ⟨fy, ny⟩ := mul_to hg ho.b1c_fin (hy0.trans e2) (by linarith) (by norm_num at hG' ⊢; linarith)
  have hs : |val (mulIeee v o.b1) + val (mulIeee g o.b1c)| ≤ 2 * G - G / 2 ^ 14 := by
    rw [abs_le] at nx ny hx0 hy0 ⊢
    norm_num at nx ny e3 ⊢
    constructor <;> linarith [nx.1, nx.2, ny.1, ny.2, hx0.1, hx0.2, hy0.1, hy0.2]
  obtain ⟨fz, nz⟩ := add_to fx fy (hs.trans (show _ ≤ 2 * G by linarith [show 0 ≤ G / 2 ^ 14 by positivity])) (by linarith)
    (by norm_num at hG' ⊢; linarith)
  have e4 : |val (v1 o g v) - (val (mulIeee v o.b1) + val (mulIeee g o.b1c))| ≤ 2 * G / 2 ^ 24 := nz
  refine ⟨fz, ?_, ?_⟩
  · rw [abs_le] at e4 hs ⊢
    norm_num at e4 hs ⊢
    constructor <;> linarith [e4.1, e4.2, hs.1, hs.2]
  · rw [abs_le] at e4 nx ny ⊢
    have c1 := mul_comm (val v) (val o.b1)
    have c2 := mul_comm (val g) (val o.b1c)
    norm_num at e4 nx ny ⊢
    constructor <;> linarith [e4.1, e4.2, nx.1, nx.2, ny.1, ny.2]

/-- **The second moment.** -/
theorem m1_ok {o : Settings} {K : ℝ} (ho : Sane o K) {g m : F32.W} {G : ℝ} (hG : 1 ≤ G) (hG' : G ≤ 2 ^ 60) (hg : F32.Finite g)
    (hm : F32.Finite m) (hgG : |val g| ≤ G) (hm0 : 0 ≤ val m) (hmG : val m ≤ 2 * G ^ 2) :
    F32.Finite (m1 o g m) ∧ 0 ≤ val (m1 o g m) ∧ val (m1 o g m) ≤ 2 * G ^ 2 ∧
      |val (m1 o g m) - (val o.b2 * val m + val o.b2c * val g ^ 2)| ≤ 7 * G ^ 2 / 2 ^ 24 := by
  have b1 := ho.b2_pos
  have b2 := ho.b2_le
  have b3 := ho.b2c_pos
  have b4 := ho.b2_sum
  have hH : 1 ≤ G ^ 2 := one_le_pow₀ hG
  have hH' : G ^ 2 ≤ 2 ^ 120 := by
    calc G ^ 2 ≤ (2 ^ 60) ^ 2 := pow_le_pow_left₀ (by linarith) hG' 2
      _ = 2 ^ 120 := by norm_num
  have hgg : |val g * val g| ≤ G ^ 2 := by
    rw [abs_mul, ← sq]; exact pow_le_pow_left₀ (abs_nonneg _) hgG 2
  generalize hHe : G ^ 2 = H at *
  have hq0 : 0 ≤ val g * val g := mul_self_nonneg _
  obtain ⟨fs, ns⟩ := mul_to hg hg hgg hH (by norm_num at hH' ⊢; linarith)
  have hs0 := mul_nonneg' fs hq0
  have hs1 : val (mulIeee g g) ≤ H + H / 2 ^ 24 := by
    rw [abs_le] at ns; rw [abs_of_nonneg hq0] at hgg; linarith [ns.2]
  have hbc : val o.b2c ≤ 1 + 1 / 2 ^ 20 := by linarith
  have hx0 : |val m * val o.b2| ≤ val o.b2 * (2 * H) := by
    rw [abs_of_nonneg (mul_nonneg hm0 b1.le), mul_comm]; exact mul_le_mul_of_nonneg_left hmG b1.le
  have hy0 : |val (mulIeee g g) * val o.b2c| ≤ val o.b2c * (H + H / 2 ^ 24) := by
    rw [abs_of_nonneg (mul_nonneg hs0 b3.le), mul_comm]; exact mul_le_mul_of_nonneg_left hs1 b3.le
  have e1 : val o.b2 * (2 * H) ≤ 2 * H := by nlinarith
  have e2 : val o.b2c * (H + H / 2 ^ 24) ≤ 3 / 2 * H := by
    have : val o.b2c ≤ 1 + 1 / 1000 := by norm_num at hbc; linarith
    have h2 : H + H / 2 ^ 24 ≤ (1 + 1 / 1000) * H := by norm_num; linarith
    calc val o.b2c * (H + H / 2 ^ 24) ≤ (1 + 1 / 1000) * ((1 + 1 / 1000) * H) := mul_le_mul this h2 (by positivity) (by norm_num)
      _ ≤ _ := by norm_num; linarith
  have e5 : val o.b2c * (H / 2 ^ 24) ≤ 3 / 2 * (H / 2 ^ 24) :=
    mul_le_mul_of_nonneg_right (by norm_num at hbc ⊢; linarith) (by positivity)
  have e3 : val o.b2 * (2 * H) + val o.b2c * H ≤ 2 * H - H / 2 ^ 13 := by
    have h1 : val o.b2 * H ≤ (1 - 1 / 2 ^ 12) * H := mul_le_mul_of_nonneg_right b2 (by linarith)
    have h2 : (val o.b2 + val o.b2c) * H ≤ (1 + 1 / 2 ^ 20) * H := mul_le_mul_of_nonneg_right b4 (by linarith)
    norm_num at h1 h2 ⊢; nlinarith
  obtain ⟨fx, nx⟩ := mul_to hm ho.b2_fin (hx0.trans e1) (by linarith) (by norm_num at hH' ⊢; linarith)
  obtain ⟨fy, ny⟩ := mul_to fs ho.b2c_fin (hy0.trans e2) (by linarith) (by norm_num at hH' ⊢; linarith)
  have x0 := mul_nonneg' fx (mul_nonneg hm0 b1.le)
  have y0 := mul_nonneg' fy (mul_nonneg hs0 b3.le)
  have e6 : val o.b2c * (H + H / 2 ^ 24) = val o.b2c * H + val o.b2c * (H / 2 ^ 24) := by ring
  have hs : |val (mulIeee m o.b2) + val (mulIeee (mulIeee g g) o.b2c)| ≤ 2 * H - H / 2 ^ 14 := by
    rw [abs_of_nonneg (by linarith)]
    rw [abs_le] at nx ny hx0 hy0
    rw [e6] at hy0
    norm_num at nx ny e3 e5 hy0 ⊢
    linarith [nx.2, ny.2, hx0.2, hy0.2]
  obtain ⟨fz, nz⟩ := add_to fx fy (hs.trans (show _ ≤ 2 * H by linarith [show 0 ≤ H / 2 ^ 14 by positivity])) (by linarith)
    (by norm_num at hH' ⊢; linarith)
  have e4 : |val (m1 o g m) - (val (mulIeee m o.b2) + val (mulIeee (mulIeee g g) o.b2c))| ≤ 2 * H / 2 ^ 24 := nz
  refine ⟨fz, ?_, ?_, ?_⟩
  · exact add_ge fz zero_exact (by linarith)
  · rw [abs_le] at e4 hs
    norm_num at e4 hs ⊢
    linarith [e4.2, hs.2]
  · have e7 : |val o.b2c * (val (mulIeee g g) - val g * val g)| ≤ 3 / 2 * (H / 2 ^ 24) := by
      rw [abs_mul, abs_of_pos b3]
      exact (mul_le_mul_of_nonneg_left ns b3.le).trans e5
    rw [abs_le] at e4 nx ny e7 ⊢
    have c1 := mul_comm (val m) (val o.b2)
    have c2 : val (mulIeee g g) * val o.b2c = val o.b2c * (val (mulIeee g g) - val g * val g) + val o.b2c * val g ^ 2 := by ring
    norm_num at e4 nx ny e7 ⊢
    constructor <;> linarith [e4.1, e4.2, nx.1, nx.2, ny.1, ny.2, e7.1, e7.2]

/-- Relative and absolute error. -/
theorem mul_rel {x y : F32.W} (hf : F32.Finite (mulIeee x y)) :
    |val (mulIeee x y) - val x * val y| ≤ |val x * val y| / 2 ^ 24 + (2 : ℝ) ^ (-150 : Int) := (mul_near_fin hf).trans (slack_split _)

theorem add_rel {x y : F32.W} (hf : F32.Finite (addIeee x y)) :
    |val (addIeee x y) - (val x + val y)| ≤ |val x + val y| / 2 ^ 24 + (2 : ℝ) ^ (-150 : Int) := (add_near_fin hf).trans (slack_split _)

/-- The inequality of Cauchy and Schwarz for two terms. -/
theorem cauchy {b c p q K s g : ℝ} (hp : 0 < p) (hq : 0 < q) :
    (b * K * s + c * g) ^ 2 ≤ (b ^ 2 * K ^ 2 / p + c ^ 2 / q) * (p * s ^ 2 + q * g ^ 2) := by
  have h : (b ^ 2 * K ^ 2 / p + c ^ 2 / q) * (p * s ^ 2 + q * g ^ 2) - (b * K * s + c * g) ^ 2 =
      (b * K * q * g - c * p * s) ^ 2 / (p * q) := by
    field_simp; ring
  have : 0 ≤ (b * K * q * g - c * p * s) ^ 2 / (p * q) := by positivity
  linarith

/-- The ratio of the moments, on numbers. -/
theorem ratio_real {b c p q K m g m' v v' t : ℝ} (hb : 0 ≤ b) (hb' : b ≤ 1 - 1 / 2 ^ 12) (hc : 0 ≤ c) (hp : 0 < p) (hq : 0 < q)
    (hK : 1 ≤ K) (hK' : K ≤ 2 ^ 9) (hS : b ^ 2 * K ^ 2 / p + c ^ 2 / q ≤ K ^ 2 * (1 - 1 / 2 ^ 20)) (hm : 0 ≤ m) (hm' : 0 ≤ m')
    (ht : 0 ≤ t) (ht' : t ≤ 1 / 2 ^ 150)
    (hv : |v| ≤ K * Real.sqrt m + 1 / 2 ^ 50) (h1 : |v'| ≤ (1 + 1 / 2 ^ 22) * (b * |v| + c * |g|) + 4 * t)
    (h2 : (1 - 1 / 2 ^ 22) * (p * m + q * g ^ 2) - 6 * t ≤ m') :
    |v'| ≤ K * Real.sqrt m' + 1 / 2 ^ 50 := by
  have hsm := Real.sq_sqrt hm
  have hX : p * m + q * g ^ 2 ≤ (1 + 1 / 2 ^ 21) * (m' + 6 * t) := by
    have h0 : 0 ≤ p * m + q * g ^ 2 := by positivity
    norm_num at h2 ⊢; nlinarith
  have hC := cauchy (b := b) (c := c) (K := K) (s := Real.sqrt m) (g := |g|) hp hq
  rw [hsm, sq_abs] at hC
  have hD : (b * K * Real.sqrt m + c * |g|) ^ 2 ≤ (K * (1 - 1 / 2 ^ 22) * Real.sqrt (m' + 6 * t)) ^ 2 := by
    rw [mul_pow, Real.sq_sqrt (by positivity)]
    have hX0 : 0 ≤ p * m + q * g ^ 2 := by positivity
    have hK2 : 0 ≤ K ^ 2 := by positivity
    calc _ ≤ _ := hC
      _ ≤ K ^ 2 * (1 - 1 / 2 ^ 20) * ((1 + 1 / 2 ^ 21) * (m' + 6 * t)) :=
        mul_le_mul hS hX hX0 (mul_nonneg hK2 (by norm_num))
      _ = K ^ 2 * (m' + 6 * t) * ((1 - 1 / 2 ^ 20) * (1 + 1 / 2 ^ 21)) := by ring
      _ ≤ K ^ 2 * (m' + 6 * t) * (1 - 1 / 2 ^ 22) ^ 2 := mul_le_mul_of_nonneg_left (by norm_num) (by positivity)
      _ = _ := by ring
  have hE : b * K * Real.sqrt m + c * |g| ≤ K * (1 - 1 / 2 ^ 22) * Real.sqrt (m' + 6 * t) :=
    le_of_sq_le_sq hD (by have : (0 : ℝ) ≤ 1 - 1 / 2 ^ 22 := by norm_num
                          positivity)
  have hF : Real.sqrt (m' + 6 * t) ≤ Real.sqrt m' + 1 / 2 ^ 73 := by
    have h6 : Real.sqrt (6 * t) ≤ 1 / 2 ^ 73 := by
      rw [Real.sqrt_le_left (by positivity)]
      norm_num at ht' ⊢; linarith
    have h7 := Real.sq_sqrt (show 0 ≤ 6 * t by positivity)
    have h8 := Real.sq_sqrt hm'
    have h9 : Real.sqrt (m' + 6 * t) ≤ Real.sqrt m' + Real.sqrt (6 * t) := by
      rw [Real.sqrt_le_left (by positivity), add_sq, h7, h8]
      have : 0 ≤ 2 * Real.sqrt m' * Real.sqrt (6 * t) := by positivity
      linarith
    linarith
  have hsm' : 0 ≤ Real.sqrt m' := Real.sqrt_nonneg _
  have hG : b * |v| + c * |g| ≤ K * (1 - 1 / 2 ^ 22) * (Real.sqrt m' + 1 / 2 ^ 73) + (1 - 1 / 2 ^ 12) * (1 / 2 ^ 50) := by
    have g1 : b * |v| ≤ b * (K * Real.sqrt m + 1 / 2 ^ 50) := mul_le_mul_of_nonneg_left hv hb
    have g2 : K * (1 - 1 / 2 ^ 22) * Real.sqrt (m' + 6 * t) ≤ K * (1 - 1 / 2 ^ 22) * (Real.sqrt m' + 1 / 2 ^ 73) :=
      mul_le_mul_of_nonneg_left hF (mul_nonneg (by linarith) (by norm_num))
    have g3 : b * (1 / 2 ^ 50) ≤ (1 - 1 / 2 ^ 12) * (1 / 2 ^ 50) := mul_le_mul_of_nonneg_right hb' (by positivity)
    have g4 : b * (K * Real.sqrt m + 1 / 2 ^ 50) = b * K * Real.sqrt m + b * (1 / 2 ^ 50) := by ring
    linarith
  have hI : (1 + 1 / 2 ^ 22) * (K * (1 - 1 / 2 ^ 22) * (Real.sqrt m' + 1 / 2 ^ 73)) ≤ K * Real.sqrt m' + 1 / 2 ^ 64 := by
    have : (1 + 1 / 2 ^ 22) * (K * (1 - 1 / 2 ^ 22) * (Real.sqrt m' + 1 / 2 ^ 73)) =
      (K * (Real.sqrt m' + 1 / 2 ^ 73)) * ((1 + 1 / 2 ^ 22) * (1 - 1 / 2 ^ 22)) := by ring
    rw [this]
    have h0 : 0 ≤ K * (Real.sqrt m' + 1 / 2 ^ 73) := mul_nonneg (by linarith) (by positivity)
    have h3 : (K * (Real.sqrt m' + 1 / 2 ^ 73)) * ((1 + 1 / 2 ^ 22) * (1 - 1 / 2 ^ 22)) ≤ (K * (Real.sqrt m' + 1 / 2 ^ 73)) * 1 :=
      mul_le_mul_of_nonneg_left (by norm_num) h0
    have h4 : K * (1 / 2 ^ 73) ≤ 2 ^ 9 * (1 / 2 ^ 73) := mul_le_mul_of_nonneg_right hK' (by positivity)
    norm_num at h3 h4 ⊢; linarith
  generalize Real.sqrt m' = y at *
  generalize K * (1 - 1 / 2 ^ 22) * (y + 1 / 2 ^ 73) = z at *
  generalize b * |v| + c * |g| = u at *
  norm_num at h1 hG hI ht' ⊢
  linarith

/-- The second moment is no less than its two parts. -/
theorem m1_low {o : Settings} {K : ℝ} (ho : Sane o K) {g m : F32.W} (fm : F32.Finite (m1 o g m)) (hm0 : 0 ≤ val m) :
    (1 - 1 / 2 ^ 22) * (val o.b2 * val m + val o.b2c * val g ^ 2) - 6 * (2 : ℝ) ^ (-150 : Int) ≤ val (m1 o g m) := by
  have ht : (0 : ℝ) ≤ (2 : ℝ) ^ (-150 : Int) := by positivity
  have ht' : (2 : ℝ) ^ (-150 : Int) ≤ 1 / 2 ^ 150 := by norm_num
  have f1 := (add_finite fm).1
  have f2 := (add_finite fm).2
  have f3 := (mul_finite f2).1
  have n1 := mul_rel f1
  have n2 := mul_rel f2
  have n3 := mul_rel f3
  have n4 := add_rel fm
  change |val (m1 o g m) - _| ≤ _ at n4
  have hq0 : 0 ≤ val g * val g := mul_self_nonneg _
  have s0 := mul_nonneg' f3 hq0
  have q0 := mul_nonneg s0 ho.b2c_pos.le
  have p0 := mul_nonneg hm0 ho.b2_pos.le
  have y0 := mul_nonneg' f2 q0
  have x0 := mul_nonneg' f1 p0
  rw [abs_of_nonneg p0] at n1
  rw [abs_of_nonneg q0] at n2
  rw [abs_of_nonneg hq0] at n3
  rw [abs_of_nonneg (add_nonneg x0 y0)] at n4
  have hbc : val o.b2c ≤ 2 := by have := ho.b2_sum; have := ho.b2_pos; norm_num at *; linarith
  have k3 : val o.b2c * (val g ^ 2 * (1 - 1 / 2 ^ 24)) - 2 * (2 : ℝ) ^ (-150 : Int) ≤ val (mulIeee g g) * val o.b2c := by
    have e : val g ^ 2 * (1 - 1 / 2 ^ 24) - (2 : ℝ) ^ (-150 : Int) ≤ val (mulIeee g g) := by
      rw [abs_le] at n3; rw [sq]; linarith [n3.1]
    have e2 := mul_le_mul_of_nonneg_left e ho.b2c_pos.le
    have e3 : val o.b2c * (2 : ℝ) ^ (-150 : Int) ≤ 2 * (2 : ℝ) ^ (-150 : Int) := mul_le_mul_of_nonneg_right hbc ht
    rw [mul_sub] at e2
    linarith [mul_comm (val o.b2c) (val (mulIeee g g))]
  have c1 := mul_comm (val m) (val o.b2)
  have z1 : 0 ≤ val o.b2 * val m := by linarith
  have z2 : 0 ≤ val o.b2c * val g ^ 2 := mul_nonneg ho.b2c_pos.le (sq_nonneg _)
  rw [← mul_assoc] at k3
  rw [c1] at n1
  generalize val o.b2c * val g ^ 2 = B at *
  generalize val o.b2 * val m = C at *
  generalize val (mulIeee g g) * val o.b2c = D at *
  generalize (2 : ℝ) ^ (-150 : Int) = t at *
  have w1 := (abs_le.mp n1).1
  have w2 := (abs_le.mp n2).1
  have w4 := (abs_le.mp n4).1
  norm_num at w1 w2 w4 k3 ht' ⊢
  linarith

/-- **The ratio of the moments stays bounded.** -/
theorem ratio_ok {o : Settings} {K : ℝ} (ho : Sane o K) {g v m : F32.W} (fv : F32.Finite (v1 o g v)) (fm : F32.Finite (m1 o g m))
    (hm0 : 0 ≤ val m) (hm1 : 0 ≤ val (m1 o g m)) (h : |val v| ≤ K * Real.sqrt (val m) + 1 / 2 ^ 50) :
    |val (v1 o g v)| ≤ K * Real.sqrt (val (m1 o g m)) + 1 / 2 ^ 50 := by
  have ht : (0 : ℝ) ≤ (2 : ℝ) ^ (-150 : Int) := by positivity
  have ht' : (2 : ℝ) ^ (-150 : Int) ≤ 1 / 2 ^ 150 := by norm_num
  refine ratio_real (t := (2 : ℝ) ^ (-150 : Int)) ho.b1_nonneg ho.b1_le ho.b1c_nonneg ho.b2_pos ho.b2c_pos ho.K_ge ho.K_le ho.ratio
    hm0 hm1 ht ht' h (g := val g) ?_ ?_
  · have f1 := (add_finite fv).1
    have f2 := (add_finite fv).2
    have n1 := mul_rel f1
    have n2 := mul_rel f2
    have n3 := add_rel fv
    change |val (v1 o g v) - _| ≤ _ at n3
    have a1 : |val v * val o.b1| = val o.b1 * |val v| := by rw [abs_mul, abs_of_nonneg ho.b1_nonneg, mul_comm]
    have a2 : |val g * val o.b1c| = val o.b1c * |val g| := by rw [abs_mul, abs_of_nonneg ho.b1c_nonneg, mul_comm]
    have p1 : 0 ≤ val o.b1 * |val v| := mul_nonneg ho.b1_nonneg (abs_nonneg _)
    have p2 : 0 ≤ val o.b1c * |val g| := mul_nonneg ho.b1c_nonneg (abs_nonneg _)
    have k1 := abs_sub_abs_le_abs_sub (val (mulIeee v o.b1)) (val v * val o.b1)
    have k2 := abs_sub_abs_le_abs_sub (val (mulIeee g o.b1c)) (val g * val o.b1c)
    have k3 := abs_sub_abs_le_abs_sub (val (v1 o g v)) (val (mulIeee v o.b1) + val (mulIeee g o.b1c))
    have k4 := abs_add_le (val (mulIeee v o.b1)) (val (mulIeee g o.b1c))
    rw [a1] at n1 k1
    rw [a2] at n2 k2
    generalize (2 : ℝ) ^ (-150 : Int) = t at *
    norm_num at n1 n2 n3 ⊢
    linarith
  · exact m1_low ho fm hm0

end Verif.Adam32
