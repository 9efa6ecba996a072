/-
C61: the Zipf generator draws from the distribution its documentation states.
-/
import Verif.Model.Zipf
import Verif.Spec.Zipf
import Mathlib.Analysis.SpecialFunctions.Pow.Deriv
import Mathlib.Analysis.Convex.SpecificFunctions.Basic
import Mathlib.Analysis.Convex.SpecificFunctions.Pow
import Mathlib.Analysis.Convex.Deriv
import Mathlib.MeasureTheory.Measure.Lebesgue.Basic
import Mathlib.Analysis.SpecificLimits.Basic
set_option autoImplicit false
set_option linter.unusedSimpArgs false

namespace Verif.Zipf
open Real Set

/-! ### The primitive of `a ^ (-q)` -/

/-- `H q a = a^(1-q)/(1-q)`. -/
noncomputable def H (q a : ℝ) : ℝ := a ^ (1 - q) / (1 - q)

theorem h_eq {v q x : ℝ} (hx : 0 < v + x) : h v (1 - q) (1 / (1 - q)) x = H q (v + x) := by
  rw [h, H, rpow_def_of_pos hx, mul_comm (1 - q)]; ring

variable {q : ℝ}

theorem H_neg (hq : 1 < q) {a : ℝ} (ha : 0 < a) : H q a < 0 :=
  div_neg_of_pos_of_neg (rpow_pos_of_pos ha _) (by linarith)

theorem H_deriv (hq : 1 < q) {a : ℝ} (ha : 0 < a) : HasDerivAt (H q) (a ^ (-q)) a := by
  have := (Real.hasDerivAt_rpow_const (x := a) (p := 1 - q) (Or.inl ha.ne')).div_const (1 - q)
  have e : (1 - q) * a ^ (1 - q - 1) / (1 - q) = a ^ (-q) := by
    have hne : 1 - q ≠ 0 := by linarith
    rw [show 1 - q - 1 = -q by ring]; field_simp
  rw [e] at this
  exact this

theorem H_mono (hq : 1 < q) : StrictMonoOn (H q) (Ioi 0) := by
  apply strictMonoOn_of_deriv_pos (convex_Ioi 0)
  · intro a ha
    exact (H_deriv hq ha).continuousAt.continuousWithinAt
  · intro a ha
    rw [interior_Ioi] at ha
    rw [(H_deriv hq ha).deriv]
    exact rpow_pos_of_pos ha _

theorem H_lt (hq : 1 < q) {a b : ℝ} (ha : 0 < a) (hb : 0 < b) : H q a < H q b ↔ a < b :=
  (H_mono hq).lt_iff_lt ha hb

theorem H_le (hq : 1 < q) {a b : ℝ} (ha : 0 < a) (hb : 0 < b) : H q a ≤ H q b ↔ a ≤ b :=
  (H_mono hq).le_iff_le ha hb

/-- `hinv` inverts `h`. -/
theorem hinv_spec (hq : 1 < q) (v : ℝ) {u : ℝ} (hu : u < 0) :
    0 < v + hinv v (1 - q) (1 / (1 - q)) u ∧ H q (v + hinv v (1 - q) (1 / (1 - q)) u) = u := by
  have hne : 1 - q ≠ 0 := by linarith
  have hpos : 0 < (1 - q) * u := mul_pos_of_neg_of_neg (by linarith) hu
  have e : v + hinv v (1 - q) (1 / (1 - q)) u = ((1 - q) * u) ^ (1 / (1 - q)) := by
    rw [hinv, rpow_def_of_pos hpos, mul_comm (1 / (1 - q))]; ring
  rw [e]
  refine ⟨rpow_pos_of_pos hpos _, ?_⟩
  rw [H, ← rpow_mul hpos.le, one_div_mul_cancel hne, rpow_one]
  field_simp

theorem hinv_H (hq : 1 < q) (v : ℝ) {a : ℝ} (ha : 0 < a) :
    v + hinv v (1 - q) (1 / (1 - q)) (H q a) = a := by
  obtain ⟨h1, h2⟩ := hinv_spec hq v (H_neg hq ha)
  exact (H_mono hq).injOn h1 ha h2

/-! ### Convexity -/

theorem rpow_neg_convex (hq : 1 < q) : StrictConvexOn ℝ (Ioi 0) (fun a : ℝ => a ^ (-q)) :=
  by
  have hd : ∀ a ∈ Ioi (0:ℝ), HasDerivAt (fun a : ℝ => a ^ (-q)) (-q * a ^ (-q - 1)) a := fun a ha =>
    Real.hasDerivAt_rpow_const (Or.inl (ne_of_gt ha))
  apply StrictMonoOn.strictConvexOn_of_deriv (convex_Ioi 0)
  · intro a ha; exact (hd a ha).continuousAt.continuousWithinAt
  · rw [interior_Ioi]
    intro a ha b hb hab
    rw [(hd a ha).deriv, (hd b hb).deriv]
    have := Real.rpow_lt_rpow_of_neg ha hab (show -q - 1 < 0 by linarith)
    nlinarith

/-- The area under `a^(-q)` over an interval of length one exceeds the value in the middle. -/
theorem area_gt (hq : 1 < q) {a : ℝ} (ha : 1 / 2 < a) :
    a ^ (-q) < H q (a + 1 / 2) - H q (a - 1 / 2) := by
  let g : ℝ → ℝ := fun t => H q (a + t) - H q (a - t) - 2 * t * a ^ (-q)
  have hder : ∀ t ∈ Icc (0:ℝ) (1 / 2),
      HasDerivAt g ((a + t) ^ (-q) + (a - t) ^ (-q) - 2 * a ^ (-q)) t := by
    intro t ht
    have h1 := (H_deriv hq (show 0 < a + t by linarith [ht.1])).comp t
      ((hasDerivAt_id t).const_add a)
    have h2 := (H_deriv hq (show 0 < a - t by linarith [ht.2])).comp t
      ((hasDerivAt_id t).const_sub a)
    have h3 := ((hasDerivAt_id t).const_mul 2).mul_const (a ^ (-q))
    have := (h1.sub h2).sub h3
    have e : (a + t) ^ (-q) * 1 - (a - t) ^ (-q) * -1 - 2 * 1 * a ^ (-q) =
        (a + t) ^ (-q) + (a - t) ^ (-q) - 2 * a ^ (-q) := by ring
    rw [e] at this
    exact this
  have hm : StrictMonoOn g (Icc 0 (1 / 2)) := by
    apply strictMonoOn_of_deriv_pos (convex_Icc _ _)
    · intro t ht; exact (hder t ht).continuousAt.continuousWithinAt
    · intro t ht
      rw [interior_Icc] at ht
      rw [(hder t ⟨ht.1.le, ht.2.le⟩).deriv]
      have := (rpow_neg_convex hq).2 (show a + t ∈ Ioi (0:ℝ) from by
          show 0 < a + t; linarith [ht.1]) (show a - t ∈ Ioi (0:ℝ) from by
          show 0 < a - t; linarith [ht.2]) (by linarith [ht.1]) (show (0:ℝ) < 1 / 2 by norm_num)
        (show (0:ℝ) < 1 / 2 by norm_num) (by norm_num)
      simp only [smul_eq_mul] at this
      rw [show 1 / 2 * (a + t) + 1 / 2 * (a - t) = a by ring] at this
      linarith
  have := hm (show (0:ℝ) ∈ Icc 0 (1/2) by constructor <;> norm_num)
    (show (1/2:ℝ) ∈ Icc 0 (1/2) by constructor <;> norm_num) (by norm_num)
  simp only [g] at this
  simp at this ⊢
  linarith

theorem H_scale (hq : 1 < q) {a t : ℝ} (ha : 0 < a) (ht : 0 < 1 + t / a) :
    H q (a + t) = a ^ (-q) * (a * H q (1 + t / a)) := by
  have e : a + t = a * (1 + t / a) := by field_simp
  rw [e, H, mul_rpow ha.le ht.le, H, show (1 - q) = 1 + -q by ring, rpow_add ha, rpow_one]
  ring

/-- The quick test is safe: when the area over `[a₁ - s, a₁ + 1/2]` is the value at `a₁`, then for
larger `a` the area over `[a - s, a + 1/2]` is at most the value at `a`. -/
theorem quick_ok (hq : 1 < q) {a₁ a s : ℝ} (h1 : 1 ≤ a₁) (ha : a₁ ≤ a) (hs1 : -(1 / 2) ≤ s)
    (hs2 : s ≤ 1 / 2) (heq : H q (a₁ + 1 / 2) - H q (a₁ - s) = a₁ ^ (-q)) :
    H q (a + 1 / 2) - H q (a - s) ≤ a ^ (-q) := by
  have hp1 : 0 < a₁ := by linarith
  have hp : 0 < a := by linarith
  have pos1 : ∀ t, -(1/2) ≤ t → 0 < 1 + t / a₁ := by
    intro t ht
    rw [show 1 + t / a₁ = (a₁ + t) / a₁ by field_simp]
    exact div_pos (by linarith) hp1
  have pos : ∀ t, -(1/2) ≤ t → 0 < 1 + t / a := by
    intro t ht
    rw [show 1 + t / a = (a + t) / a by field_simp]
    exact div_pos (by linarith) hp
  let l := a₁ / a
  have hl0 : 0 < l := div_pos hp1 hp
  have hl1 : l ≤ 1 := (div_le_one hp).mpr ha
  let F : ℝ → ℝ := fun t => (1 - l) * t + l * (a₁ * H q (1 + t / a₁)) - a * H q (1 + t / a)
  have hder : ∀ t ∈ Icc (-s) (1 / 2),
      HasDerivAt F ((1 - l) + l * (1 + t / a₁) ^ (-q) - (1 + t / a) ^ (-q)) t := by
    intro t ht
    have i1 : HasDerivAt (fun t => 1 + t / a₁) (1 / a₁) t :=
      ((hasDerivAt_id t).div_const a₁).const_add 1
    have i2 : HasDerivAt (fun t => 1 + t / a) (1 / a) t :=
      ((hasDerivAt_id t).div_const a).const_add 1
    have d1 := (H_deriv hq (pos1 t (by linarith [ht.1]))).comp t i1
    have d2 := (H_deriv hq (pos t (by linarith [ht.1]))).comp t i2
    have d3 := (hasDerivAt_id t).const_mul (1 - l)
    have := (d3.add ((d1.const_mul a₁).const_mul l)).sub (d2.const_mul a)
    have e : (1 - l) * 1 + l * (a₁ * ((1 + t / a₁) ^ (-q) * (1 / a₁))) -
        a * ((1 + t / a) ^ (-q) * (1 / a)) = (1 - l) + l * (1 + t / a₁) ^ (-q) - (1 + t / a) ^ (-q) := by
      have c1 : a₁ * ((1 + t / a₁) ^ (-q) * (1 / a₁)) = (1 + t / a₁) ^ (-q) := by
        rw [mul_left_comm, mul_one_div_cancel hp1.ne', mul_one]
      have c2 : a * ((1 + t / a) ^ (-q) * (1 / a)) = (1 + t / a) ^ (-q) := by
        rw [mul_left_comm, mul_one_div_cancel hp.ne', mul_one]
      rw [c1, c2, mul_one]
    rw [e] at this
    exact this
  have hm : MonotoneOn F (Icc (-s) (1 / 2)) := by
    apply monotoneOn_of_deriv_nonneg (convex_Icc _ _)
    · intro t ht; exact (hder t ht).continuousAt.continuousWithinAt
    · intro t ht
      rw [interior_Icc] at ht
      exact (hder t ⟨ht.1.le, ht.2.le⟩).differentiableAt.differentiableWithinAt
    · intro t ht
      rw [interior_Icc] at ht
      rw [(hder t ⟨ht.1.le, ht.2.le⟩).deriv]
      have hc := (rpow_neg_convex hq).convexOn.2 (show (1:ℝ) ∈ Ioi 0 by show (0:ℝ) < 1; norm_num)
        (show 1 + t / a₁ ∈ Ioi (0:ℝ) from pos1 t (by linarith [ht.1]))
        (show 0 ≤ 1 - l by linarith) hl0.le (by ring)
      simp only [smul_eq_mul, one_rpow, mul_one] at hc
      have e : 1 - l + l * (1 + t / a₁) = 1 + t / a := by
        simp only [l]; field_simp; ring
      rw [e] at hc
      linarith
  have hle := hm (show -s ∈ Icc (-s) (1/2) by constructor <;> linarith)
    (show (1/2:ℝ) ∈ Icc (-s) (1/2) by constructor <;> linarith) (by linarith)
  simp only [F] at hle
  -- the given equality, scaled
  have k1 := H_scale hq hp1 (pos1 (1/2) (by norm_num))
  have k2 := H_scale hq hp1 (pos1 (-s) (by linarith))
  have k3 := H_scale hq hp (pos (1/2) (by norm_num))
  have k4 := H_scale hq hp (pos (-s) (by linarith))
  rw [← sub_eq_add_neg] at k2 k4
  have p1 : 0 < a₁ ^ (-q) := rpow_pos_of_pos hp1 _
  have p2 : 0 < a ^ (-q) := rpow_pos_of_pos hp _
  rw [k1, k2, ← mul_sub] at heq
  have heq' : a₁ * H q (1 + 1 / 2 / a₁) - a₁ * H q (1 + -s / a₁) = 1 := by
    have := mul_left_cancel₀ p1.ne' (heq.trans (mul_one _).symm)
    exact this
  rw [k3, k4, ← mul_sub]
  have : a * H q (1 + 1 / 2 / a) - a * H q (1 + -s / a) ≤ 1 := by nlinarith
  calc _ ≤ a ^ (-q) * 1 := mul_le_mul_of_nonneg_left this p2.le
    _ = _ := mul_one _

/-! ### The generator -/

/-- The fields of a generator in terms of `H`. -/
theorem newZipf_some {s v : ℝ} {imax : ℕ} {z : Zipf} (hz : newZipf s v imax = some z) :
    1 < s ∧ 1 ≤ v ∧ z.v = v ∧ z.q = s ∧ z.oneminusQ = 1 - s ∧ z.oneminusQinv = 1 / (1 - s) ∧
    z.hxm = H s (v + imax + 1 / 2) ∧
    z.hx0minusHxm = H s (v + 1 / 2) - v ^ (-s) - H s (v + imax + 1 / 2) ∧
    -(1 / 2) < z.s ∧ z.s < 1 / 2 ∧ H s (v + 1 + 1 / 2) - H s (v + 1 - z.s) = (v + 1) ^ (-s) := by
  unfold newZipf at hz
  split_ifs at hz with hc
  obtain ⟨hs, hv⟩ := not_or.mp hc
  have hs : 1 < s := not_le.mp hs
  have hv : 1 ≤ v := not_lt.mp hv
  obtain rfl := Option.some.inj hz
  simp only
  have him : (0:ℝ) ≤ imax := Nat.cast_nonneg _
  have e1 : h v (1 - s) (1 / (1 - s)) (imax + 0.5) = H s (v + imax + 1 / 2) := by
    rw [h_eq (by norm_num; linarith)]; congr 1; norm_num; ring
  have e2 : h v (1 - s) (1 / (1 - s)) 0.5 = H s (v + 1 / 2) := by
    rw [h_eq (by norm_num; linarith)]; congr 1; norm_num
  have e3 : h v (1 - s) (1 / (1 - s)) 1.5 = H s (v + 1 + 1 / 2) := by
    rw [h_eq (by norm_num; linarith)]; congr 1; norm_num; ring
  have e4 : Real.exp (Real.log v * (-s)) = v ^ (-s) := by
    rw [rpow_def_of_pos (by linarith)]
  have e5 : Real.exp (-s * Real.log (v + 1)) = (v + 1) ^ (-s) := by
    rw [rpow_def_of_pos (by linarith), mul_comm]
  rw [e1, e2, e3, e4, e5]
  set u := H s (v + 1 + 1 / 2) - (v + 1) ^ (-s) with hu
  have hpw : 0 < (v + 1) ^ (-s) := rpow_pos_of_pos (by linarith) _
  have hneg : H s (v + 1 + 1 / 2) < 0 := H_neg hs (by linarith)
  have hu0 : u < 0 := by linarith
  obtain ⟨p1, p2⟩ := hinv_spec hs v hu0
  set x := hinv v (1 - s) (1 / (1 - s)) u with hx
  have ex : v + 1 - (1 - x) = v + x := by ring
  refine ⟨hs, hv, trivial, trivial, trivial, trivial, rfl, rfl, ?_, ?_, ?_⟩
  · have : H s (v + x) < H s (v + 1 + 1 / 2) := by rw [p2]; linarith
    have := (H_lt hs p1 (by linarith)).mp this
    linarith
  · have a := area_gt hs (show (1:ℝ) / 2 < v + 1 by linarith)
    have : H s (v + 1 - 1 / 2) < H s (v + x) := by rw [p2]; linarith
    have := (H_lt hs (by linarith) p1).mp this
    linarith
  · rw [ex, p2]; linarith

/-- The requirements of the documentation decide whether there is a generator. -/
theorem newZipf_isSome (s v : ℝ) (imax : ℕ) : (newZipf s v imax).isSome ↔ 1 < s ∧ 1 ≤ v := by
  unfold newZipf
  split_ifs with hc
  · simp only [Option.isSome_none, Bool.false_eq_true, false_iff]
    rintro ⟨h1, h2⟩
    rcases hc with hc | hc <;> linarith
  · obtain ⟨h1, h2⟩ := not_or.mp hc
    simp only [Option.isSome_some, true_iff]
    exact ⟨not_le.mp h1, not_lt.mp h2⟩

/-- The points of the uniform number that give the value `k`. -/
noncomputable def lo (s v : ℝ) (imax : ℕ) (k : ℕ) : ℝ := H s (v + imax + 1 / 2) - H s (v + k + 1 / 2)

/-- The length of the interval of `ur`. -/
noncomputable def len (s v : ℝ) (imax : ℕ) : ℝ := H s (v + imax + 1 / 2) - H s (v + 1 / 2) + v ^ (-s)

theorem len_pos {s v : ℝ} (hs : 1 < s) (hv : 1 ≤ v) (imax : ℕ) : 0 < len s v imax := by
  have him : (0:ℝ) ≤ imax := Nat.cast_nonneg _
  have h1 : H s (v + 1 / 2) ≤ H s (v + imax + 1 / 2) :=
    (H_le hs (by linarith) (by linarith)).mpr (by linarith)
  have h2 : 0 < v ^ (-s) := rpow_pos_of_pos (by linarith) _
  unfold len; linarith

theorem step_iff {s v : ℝ} {imax : ℕ} {z : Zipf} (hz : newZipf s v imax = some z) {r : ℝ}
    (h0 : 0 ≤ r) (h1 : r < 1) (j : ℤ) :
    step z r = some j ↔ ∃ k : ℕ, k ≤ imax ∧ j = k ∧
      lo s v imax k < r * len s v imax ∧ r * len s v imax ≤ lo s v imax k + (v + k) ^ (-s) := by
  obtain ⟨hs, hv, ev, eq, eo, ei, em, e0, s1, s2, es⟩ := newZipf_some hz
  have him : (0:ℝ) ≤ imax := Nat.cast_nonneg _
  have hlen := len_pos hs hv imax
  set L := len s v imax with hL
  set T := H s (v + imax + 1 / 2) with hT
  have hTneg : T < 0 := H_neg hs (by linarith)
  have hur : z.hxm + r * z.hx0minusHxm = T - r * L := by
    rw [em, e0, hL, len]; ring
  have hrL : 0 ≤ r * L := mul_nonneg h0 hlen.le
  have hrL1 : r * L < L := by nlinarith
  set u := T - r * L with hu
  have hu0 : u < 0 := by linarith
  obtain ⟨p1, p2⟩ := hinv_spec hs v hu0
  -- bounds of x
  have hpv : 0 < v ^ (-s) := rpow_pos_of_pos (by linarith) _
  have hlow : H s (v + 1 / 2) - v ^ (-s) < u := by
    have : L = T - H s (v + 1 / 2) + v ^ (-s) := rfl
    linarith
  have ha0 := area_gt hs (show (1:ℝ) / 2 < v by linarith)
  set x := hinv v (1 - s) (1 / (1 - s)) u with hx
  have hx1 : -(1 / 2) < x := by
    have : H s (v - 1 / 2) < H s (v + x) := by rw [p2]; linarith
    have := (H_lt hs (by linarith) p1).mp this
    linarith
  have hx2 : x ≤ imax + 1 / 2 := by
    have : H s (v + x) ≤ T := by rw [p2]; linarith
    have := (H_le hs p1 (by linarith)).mp this
    linarith
  -- the step in these terms
  have hst : step z r = if ((⌊x + 1 / 2⌋ : ℤ) : ℝ) - x ≤ z.s then some ⌊x + 1 / 2⌋
      else if u ≥ H s (v + ⌊x + 1 / 2⌋ + 1 / 2) - (v + ⌊x + 1 / 2⌋) ^ (-s) then some ⌊x + 1 / 2⌋
      else none := by
    have hfl : (0:ℝ) ≤ ⌊x + 1 / 2⌋ := by
      have : (0:ℤ) ≤ ⌊x + 1 / 2⌋ := Int.floor_nonneg.mpr (by linarith)
      exact_mod_cast this
    unfold step
    simp only [hur, ev, eo, ei, eq, ← hx]
    rw [show (0.5:ℝ) = 1 / 2 by norm_num]
    rw [h_eq (by linarith)]
    rw [show Real.exp (-Real.log (↑⌊x + 1 / 2⌋ + v) * s) = (v + ↑⌊x + 1 / 2⌋) ^ (-s) by
      rw [rpow_def_of_pos (by linarith), add_comm v]; congr 1; ring]
    rw [show v + (↑⌊x + 1 / 2⌋ + 1 / 2) = v + ↑⌊x + 1 / 2⌋ + 1 / 2 by ring]
  -- the value as a natural number
  obtain ⟨k, hk⟩ : ∃ k : ℕ, ⌊x + 1 / 2⌋ = k :=
    Int.eq_ofNat_of_zero_le (Int.floor_nonneg.mpr (by linarith))
  rw [hk] at hst
  simp only [Int.cast_natCast] at hst
  have hk0 : (0:ℝ) ≤ k := Nat.cast_nonneg _
  have hk1 : (k:ℝ) ≤ x + 1 / 2 := by
    have := Int.floor_le (x + 1 / 2); rw [hk] at this; exact_mod_cast this
  have hk2 : x + 1 / 2 < k + 1 := by
    have := Int.lt_floor_add_one (x + 1 / 2); rw [hk] at this; exact_mod_cast this
  have hkar := area_gt hs (show (1:ℝ) / 2 < v + k by linarith)
  have hub : u < H s (v + k + 1 / 2) := by
    rw [← p2]; exact (H_lt hs p1 (by linarith)).mpr (by linarith)
  have hlb : H s (v + k - 1 / 2) ≤ u := by
    rw [← p2]; exact (H_le hs (by linarith) p1).mpr (by linarith)
  -- accepted exactly when the second test succeeds
  have hacc : step z r = if u ≥ H s (v + k + 1 / 2) - (v + k) ^ (-s) then some (k : ℤ) else none := by
    rw [hst]
    by_cases hq : (k:ℝ) - x ≤ z.s
    · rw [if_pos hq, if_pos]
      rcases Nat.eq_zero_or_pos k with hk00 | hkp
      · rw [hk00]; simp only [Nat.cast_zero, add_zero]; linarith
      · have hk1' : (1:ℝ) ≤ k := by exact_mod_cast hkp
        have := quick_ok hs (show 1 ≤ v + 1 by linarith) (show v + 1 ≤ v + k by linarith)
          s1.le s2.le es
        have h5 : H s (v + k - z.s) ≤ H s (v + x) := (H_le hs (by linarith) p1).mpr (by linarith)
        rw [p2] at h5
        linarith
    · rw [if_neg hq]
  rw [hacc]
  constructor
  · intro h
    split_ifs at h with hge
    have hj : j = k := (Option.some.inj h).symm
    refine ⟨k, ?_, hj, ?_, ?_⟩
    · -- k = imax + 1 is rejected
      by_contra hgt
      have hgt' : (imax:ℝ) + 1 ≤ k := by exact_mod_cast Nat.lt_of_not_le hgt
      have : H s (v + k - 1 / 2) ≥ T := (H_le hs (by linarith) (by linarith)).mpr (by linarith)
      linarith
    · unfold lo; linarith
    · unfold lo; linarith
  · rintro ⟨k', hk', rfl, g1, g2⟩
    unfold lo at g1 g2
    have hk0' : (0:ℝ) ≤ k' := Nat.cast_nonneg _
    have har' := area_gt hs (show (1:ℝ) / 2 < v + k' by linarith)
    -- then x rounds to k'
    have b1 : H s (v + x) < H s (v + k' + 1 / 2) := by rw [p2]; linarith
    have b2 : H s (v + k' - 1 / 2) < H s (v + x) := by rw [p2]; linarith
    have c1 := (H_lt hs p1 (by linarith)).mp b1
    have c2 := (H_lt hs (by linarith) p1).mp b2
    have hkk : k = k' := by
      have d1 : (k:ℝ) < k' + 1 := by linarith
      have d2 : (k':ℝ) < k + 1 := by linarith
      have d1 : k < k' + 1 := by exact_mod_cast d1
      have d2 : k' < k + 1 := by exact_mod_cast d2
      omega
    subst hkk
    rw [if_pos (by linarith)]

/-- **Range.**  Whatever the uniform numbers, a returned value lies in `[0, imax]`. -/
theorem zipf_range {s v : ℝ} {imax : ℕ} {z : Zipf} (hz : newZipf s v imax = some z) (r : ℕ → ℝ)
    (hr : ∀ i, 0 ≤ r i ∧ r i < 1) {n : ℕ} {k : ℤ} (h : Returns z r n k) : 0 ≤ k ∧ k ≤ imax := by
  obtain ⟨k', h1, rfl, -⟩ := (step_iff hz (hr n).1 (hr n).2 k).mp h.2
  exact ⟨Int.natCast_nonneg _, by exact_mod_cast h1⟩

/-! ### Probabilities -/

open MeasureTheory Verif.Spec.Zipf

/-- The uniform numbers for which one round returns `k`. -/
def Acc (z : Zipf) (k : ℕ) : Set ℝ := {r | (0 ≤ r ∧ r < 1) ∧ step z r = some (k : ℤ)}

/-- The uniform numbers for which one round goes on. -/
def Rej (z : Zipf) : Set ℝ := {r | (0 ≤ r ∧ r < 1) ∧ step z r = none}

section
variable {s v : ℝ} {imax : ℕ} {z : Zipf}

theorem acc_eq (hz : newZipf s v imax = some z) {k : ℕ} (hk : k ≤ imax) :
    Acc z k = {r | (0 ≤ r ∧ r < 1) ∧ (lo s v imax k < r * len s v imax ∧
      r * len s v imax ≤ lo s v imax k + weight s v k)} := by
  ext r
  constructor
  · rintro ⟨hr, h⟩
    obtain ⟨k', _, e, h⟩ := (step_iff hz hr.1 hr.2 _).mp h
    obtain rfl : k = k' := by exact_mod_cast e
    exact ⟨hr, h⟩
  · rintro ⟨hr, h⟩
    exact ⟨hr, (step_iff hz hr.1 hr.2 _).mpr ⟨k, hk, rfl, h⟩⟩

theorem acc_meas (hz : newZipf s v imax = some z) {k : ℕ} (hk : k ≤ imax) :
    MeasurableSet (Acc z k) := by
  rw [acc_eq hz hk]
  have m : Measurable fun r : ℝ => r * len s v imax := measurable_id.mul_const _
  exact ((measurableSet_le measurable_const measurable_id).inter
    (measurableSet_lt measurable_id measurable_const)).inter
    ((measurableSet_lt measurable_const m).inter (measurableSet_le m measurable_const))

/-- **One round returns `k` with a probability proportional to `(v + k)^(-s)`.** -/
theorem acc_volume (hz : newZipf s v imax = some z) {k : ℕ} (hk : k ≤ imax) :
    volume (Acc z k) = ENNReal.ofReal (weight s v k / len s v imax) := by
  obtain ⟨hs, hv, -⟩ := newZipf_some hz
  have hk' : (k:ℝ) ≤ imax := by exact_mod_cast hk
  have hk0 : (0:ℝ) ≤ k := Nat.cast_nonneg _
  have hL := len_pos hs hv imax
  have hlo : 0 ≤ lo s v imax k := by
    have := (H_le hs (show 0 < v + k + 1 / 2 by linarith) (show 0 < v + imax + 1 / 2 by linarith)).mpr
      (by linarith)
    unfold lo; linarith
  have hhi : lo s v imax k + weight s v k ≤ len s v imax := by
    unfold lo len weight
    rcases Nat.eq_zero_or_pos k with rfl | hkp
    · simp only [Nat.cast_zero, add_zero]; linarith
    · have hk1 : (1:ℝ) ≤ k := by exact_mod_cast hkp
      have a := area_gt hs (show (1:ℝ) / 2 < v + k by linarith)
      have b := (H_le hs (show 0 < v + 1 / 2 by linarith) (show 0 < v + k - 1 / 2 by linarith)).mpr
        (by linarith)
      have c : 0 < v ^ (-s) := rpow_pos_of_pos (by linarith) _
      linarith
  have hd : (lo s v imax k + weight s v k) / len s v imax - lo s v imax k / len s v imax =
      weight s v k / len s v imax := by ring
  apply le_antisymm
  · rw [← hd, ← Real.volume_Ioc]
    apply measure_mono
    rw [acc_eq hz hk]
    rintro r ⟨_, h1, h2⟩
    exact ⟨(div_lt_iff₀ hL).mpr h1, (le_div_iff₀ hL).mpr h2⟩
  · rw [← hd, ← Real.volume_Ioo]
    apply measure_mono
    rw [acc_eq hz hk]
    rintro r ⟨h1, h2⟩
    refine ⟨⟨?_, ?_⟩, (div_lt_iff₀ hL).mp h1, ((lt_div_iff₀ hL).mp h2).le⟩
    · exact (div_nonneg hlo hL.le).trans h1.le
    · exact h2.trans_le ((div_le_one hL).mpr hhi)

theorem rej_eq (hz : newZipf s v imax = some z) :
    Rej z = Ico 0 1 \ ⋃ k ∈ Finset.range (imax + 1), Acc z k := by
  ext r
  constructor
  · rintro ⟨hr, h⟩
    refine ⟨hr, ?_⟩
    simp only [mem_iUnion, not_exists]
    rintro k _ ⟨_, h'⟩
    rw [h] at h'; exact absurd h' (by simp)
  · rintro ⟨hr, h⟩
    refine ⟨hr, ?_⟩
    simp only [mem_iUnion, not_exists] at h
    cases e : step z r with
    | none => rfl
    | some j =>
      obtain ⟨k, hk, rfl, _⟩ := (step_iff hz hr.1 hr.2 j).mp e
      exact absurd ⟨hr, e⟩ (h k (Finset.mem_range.mpr (by omega)))

theorem total_pos (hs : 1 < s) (hv : 1 ≤ v) : 0 < total s v imax := by
  apply Finset.sum_pos
  · intro k _
    have hk0 : (0:ℝ) ≤ k := Nat.cast_nonneg _
    exact rpow_pos_of_pos (by linarith) _
  · exact ⟨0, by simp⟩

theorem union_volume (hz : newZipf s v imax = some z) :
    volume (⋃ k ∈ Finset.range (imax + 1), Acc z k) =
      ENNReal.ofReal (total s v imax / len s v imax) := by
  obtain ⟨hs, hv, -⟩ := newZipf_some hz
  have hL := len_pos hs hv imax
  rw [measure_biUnion_finset]
  · rw [total, Finset.sum_div, ENNReal.ofReal_sum_of_nonneg]
    · apply Finset.sum_congr rfl
      intro k hk
      exact acc_volume hz (by have := Finset.mem_range.mp hk; omega)
    · intro k _
      have hk0 : (0:ℝ) ≤ k := Nat.cast_nonneg _
      exact div_nonneg (rpow_nonneg (by linarith) _) hL.le
  · intro a _ b _ hab
    refine Set.disjoint_left.mpr ?_
    rintro r ⟨_, h1⟩ ⟨_, h2⟩
    rw [h1] at h2
    exact hab (by exact_mod_cast Option.some.inj h2)
  · intro k hk
    exact acc_meas hz (by have := Finset.mem_range.mp hk; omega)

theorem union_sub : (⋃ k ∈ Finset.range (imax + 1), Acc z k) ⊆ Ico 0 1 := by
  intro r hr
  simp only [mem_iUnion] at hr
  obtain ⟨k, _, h, _⟩ := hr
  exact h

theorem total_le_len (hz : newZipf s v imax = some z) : total s v imax / len s v imax ≤ 1 := by
  have h := measure_mono (μ := volume) (union_sub (z := z) (imax := imax))
  rw [union_volume hz, Real.volume_Ico] at h
  norm_num at h
  exact h

theorem rej_volume (hz : newZipf s v imax = some z) :
    volume (Rej z) = 1 - ENNReal.ofReal (total s v imax / len s v imax) := by
  have hm : MeasurableSet (⋃ k ∈ Finset.range (imax + 1), Acc z k) :=
    Finset.measurableSet_biUnion _ fun k hk =>
      acc_meas hz (by have := Finset.mem_range.mp hk; omega)
  rw [rej_eq hz, measure_diff union_sub hm.nullMeasurableSet, union_volume hz, Real.volume_Ico]
  · norm_num
  · rw [union_volume hz]; exact ENNReal.ofReal_ne_top

/-- The sequences of `n + 1` uniform numbers with which `Uint64` returns `k` in the round `n`. -/
def Ret (z : Zipf) (n k : ℕ) : Set (Fin (n + 1) → ℝ) :=
  {ρ | (∀ i, 0 ≤ ρ i ∧ ρ i < 1) ∧ (∀ i : Fin (n + 1), i.val < n → step z (ρ i) = none) ∧
    step z (ρ (Fin.last n)) = some (k : ℤ)}

theorem ret_volume (hz : newZipf s v imax = some z) {k : ℕ} (hk : k ≤ imax) (n : ℕ) :
    volume (Ret z n k) = (1 - ENNReal.ofReal (total s v imax / len s v imax)) ^ n *
      ENNReal.ofReal (weight s v k / len s v imax) := by
  have e : Ret z n k = Set.pi Set.univ (fun i : Fin (n + 1) => if i.val < n then Rej z else Acc z k) := by
    ext ρ
    simp only [Set.mem_pi, Set.mem_univ, true_implies, Ret, Set.mem_setOf_eq]
    constructor
    · rintro ⟨h1, h2, h3⟩ i
      by_cases hi : i.val < n
      · rw [if_pos hi]; exact ⟨h1 i, h2 i hi⟩
      · rw [if_neg hi]
        have : i = Fin.last n := Fin.ext (by have := i.2; simp; omega)
        rw [this]; exact ⟨h1 _, h3⟩
    · intro h
      refine ⟨fun i => ?_, fun i hi => ?_, ?_⟩
      · have := h i
        split_ifs at this
        · exact this.1
        · exact this.1
      · have := h i
        rw [if_pos hi] at this
        exact this.2
      · have := h (Fin.last n)
        rw [if_neg (by simp)] at this
        exact this.2
  rw [e, volume_pi_pi, Fin.prod_univ_castSucc]
  congr 1
  · rw [Finset.prod_congr rfl (g := fun _ => 1 - ENNReal.ofReal (total s v imax / len s v imax))]
    · simp
    · intro i _
      rw [if_pos (by simp)]; exact rej_volume hz
  · rw [if_neg (by simp)]; exact acc_volume hz hk

/-- **The distribution.**  The probability that `Uint64` ends and returns `k`, over all numbers of
rounds, is `(v + k)^(-s)` divided by the sum of these weights over `0 … imax`. -/
theorem zipf_distribution (hz : newZipf s v imax = some z) {k : ℕ} (hk : k ≤ imax) :
    ∑' n, volume (Ret z n k) = ENNReal.ofReal (weight s v k / total s v imax) := by
  obtain ⟨hs, hv, -⟩ := newZipf_some hz
  have hL := len_pos hs hv imax
  have hT := total_pos (imax := imax) hs hv
  have hA1 := total_le_len hz
  have hA0 : 0 < total s v imax / len s v imax := div_pos hT hL
  simp_rw [ret_volume hz hk]
  rw [ENNReal.tsum_mul_right, ENNReal.tsum_geometric, ENNReal.sub_sub_cancel ENNReal.one_ne_top,
    ← ENNReal.ofReal_inv_of_pos hA0, ← ENNReal.ofReal_mul (inv_nonneg.mpr hA0.le)]
  · congr 1
    field_simp
  · rw [ENNReal.ofReal_le_one]; exact hA1

/-- **Termination.**  The probability that `Uint64` ends is one. -/
theorem zipf_terminates (hz : newZipf s v imax = some z) :
    ∑ k ∈ Finset.range (imax + 1), ∑' n, volume (Ret z n k) = 1 := by
  obtain ⟨hs, hv, -⟩ := newZipf_some hz
  have hT := total_pos (imax := imax) hs hv
  rw [Finset.sum_congr rfl (g := fun k => ENNReal.ofReal (weight s v k / total s v imax)),
    ← ENNReal.ofReal_sum_of_nonneg, ← Finset.sum_div]
  · rw [show ∑ k ∈ Finset.range (imax + 1), weight s v k = total s v imax from rfl,
      div_self hT.ne', ENNReal.ofReal_one]
  · intro k _
    have hk0 : (0:ℝ) ≤ k := Nat.cast_nonneg _
    exact div_nonneg (rpow_nonneg (by linarith) _) hT.le
  · intro k hk
    exact zipf_distribution hz (by have := Finset.mem_range.mp hk; omega)

/-- There are generators: `s = 2`, `v = 1`, values `0 … 9`. -/
example : ∃ z, newZipf 2 1 9 = some z := Option.isSome_iff_exists.mp
  ((newZipf_isSome 2 1 9).mpr ⟨by norm_num, le_refl _⟩)

end

end Verif.Zipf
