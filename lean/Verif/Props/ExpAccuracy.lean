import Verif.Lemmas.F32Approx
import Verif.Props.ExpLog
import Mathlib.Analysis.Complex.ExponentialBounds

set_option autoImplicit false
set_option linter.unusedSimpArgs false

/-!
# C60: how accurate the vector exponential is

The arithmetic is `ieee`.  The vector routine reduces the argument by a multiple `N` of log 2, evaluates a
polynomial of degree seven and scales by `2^N`; both routines give the exponential up to the relative error `2^-21`.
-/

namespace Verif.ExpLog
open Verif.F32

/-! ### Constants -/

/-- The input after the two comparisons with the bounds. -/
def clamp (x : W) : W := maxps (minps x 0x42b0c0a5) 0xc2b0c0a5

theorem fin_hi : Finite 0x42b0c0a5 ∧ val 0x42b0c0a5 = 11583653 / 131072 := by
  constructor
  · unfold F32.Finite; decide
  · simp [val, unpack]; norm_num

theorem fin_lo : Finite 0xc2b0c0a5 ∧ val 0xc2b0c0a5 = -(11583653 / 131072) := by
  constructor
  · unfold F32.Finite; decide
  · simp [val, unpack]; norm_num

theorem fin_log2e : Finite 0x3fb8aa3b ∧ val 0x3fb8aa3b = 12102203 / 8388608 := by
  constructor
  · unfold F32.Finite; decide
  · simp [val, unpack]; norm_num

theorem fin_half : Finite 0x3f000000 ∧ val 0x3f000000 = 1 / 2 := by
  constructor
  · unfold F32.Finite; decide
  · simp [val, unpack]; norm_num

theorem fin_one : Finite 0x3f800000 ∧ val 0x3f800000 = 1 := by
  constructor
  · unfold F32.Finite; decide
  · simp [val, unpack]; norm_num

theorem fin_c1 : Finite 0xbf318000 ∧ val 0xbf318000 = -(355 / 512) := by
  constructor
  · unfold F32.Finite; decide
  · simp [val, unpack]; norm_num

theorem fin_c2 : Finite 0x395e8083 ∧ val 0x395e8083 = 14581891 / 68719476736 := by
  constructor
  · unfold F32.Finite; decide
  · simp [val, unpack]; norm_num

theorem fin_p7 : Finite 0x39506967 ∧ val 0x39506967 = 13658471 / 68719476736 := by
  constructor
  · unfold F32.Finite; decide
  · simp [val, unpack]; norm_num

theorem fin_p6 : Finite 0x3ab743ce ∧ val 0x3ab743ce = 6005223 / 4294967296 := by
  constructor
  · unfold F32.Finite; decide
  · simp [val, unpack]; norm_num

theorem fin_p5 : Finite 0x3c088908 ∧ val 0x3c088908 = 1118497 / 134217728 := by
  constructor
  · unfold F32.Finite; decide
  · simp [val, unpack]; norm_num

theorem fin_p4 : Finite 0x3d2aa9c1 ∧ val 0x3d2aa9c1 = 11184577 / 268435456 := by
  constructor
  · unfold F32.Finite; decide
  · simp [val, unpack]; norm_num

theorem fin_p3 : Finite 0x3e2aaaaa ∧ val 0x3e2aaaaa = 5592405 / 33554432 := by
  constructor
  · unfold F32.Finite; decide
  · simp [val, unpack]; norm_num

/-! ### Clamping -/

theorem minps_of_lt {x y : W} (hx : Finite x) (hy : Finite y) (h : val x < val y) : minps x y = x := by
  unfold minps; rw [if_pos ((lt_iff hx hy).mpr h)]

theorem minps_of_ge {x y : W} (hx : Finite x) (hy : Finite y) (h : val y ≤ val x) : minps x y = y := by
  unfold minps; rw [if_neg (fun hc => absurd ((lt_iff hx hy).mp hc) (not_lt.mpr h))]

theorem maxps_of_lt {x y : W} (hx : Finite x) (hy : Finite y) (h : val y < val x) : maxps x y = x := by
  unfold maxps; rw [if_pos ((lt_iff hy hx).mpr h)]

theorem maxps_of_ge {x y : W} (hx : Finite x) (hy : Finite y) (h : val x ≤ val y) : maxps x y = y := by
  unfold maxps; rw [if_neg (fun hc => absurd ((lt_iff hy hx).mp hc) (not_lt.mpr h))]

/-- **Whatever comes in, also a NaN or an infinity, goes on as a number between the bounds.** -/
theorem clamp_range (x : W) : Finite (clamp x) ∧ |val (clamp x)| ≤ 11583653 / 131072 := by
  obtain ⟨fh, vh⟩ := fin_hi
  obtain ⟨fl, vl⟩ := fin_lo
  have hhi : maxps 0x42b0c0a5 0xc2b0c0a5 = 0x42b0c0a5 := by decide +kernel
  unfold clamp
  by_cases h1 : lt x 0x42b0c0a5 = true
  · have e1 : minps x 0x42b0c0a5 = x := by unfold minps; rw [if_pos h1]
    rw [e1]
    by_cases h2 : lt 0xc2b0c0a5 x = true
    · have e2 : maxps x 0xc2b0c0a5 = x := by unfold maxps; rw [if_pos h2]
      rw [e2]
      have k1 : key x < key 0x42b0c0a5 := by
        unfold lt at h1
        simp only [Bool.and_eq_true, decide_eq_true_eq] at h1
        exact h1.2
      have k2 : key 0xc2b0c0a5 < key x := by
        unfold lt at h2
        simp only [Bool.and_eq_true, decide_eq_true_eq] at h2
        exact h2.2
      have hf : Finite x := by
        unfold F32.Finite
        have a : key 0x42b0c0a5 = 0x42b0c0a5 := by decide +kernel
        have b : key 0xc2b0c0a5 = -0x42b0c0a5 := by decide +kernel
        rw [a] at k1; rw [b] at k2
        unfold key at k1 k2
        have := x.isLt
        split at k1 <;> omega
      refine ⟨hf, ?_⟩
      have v1 := (key_lt _ _).mp k1
      have v2 := (key_lt _ _).mp k2
      rw [vh] at v1; rw [vl] at v2
      rw [abs_le]; constructor <;> linarith
    · have e2 : maxps x 0xc2b0c0a5 = 0xc2b0c0a5 := by unfold maxps; rw [if_neg h2]
      rw [e2, vl]
      exact ⟨fl, by norm_num⟩
  · have e1 : minps x 0x42b0c0a5 = 0x42b0c0a5 := by unfold minps; rw [if_neg h1]
    rw [e1, hhi, vh]
    exact ⟨fh, by norm_num⟩

/-- Between the bounds the number does not change. -/
theorem clamp_id {x : W} (hx : Finite x) (h : |val x| ≤ 11583653 / 131072) : val (clamp x) = val x := by
  obtain ⟨fh, vh⟩ := fin_hi
  obtain ⟨fl, vl⟩ := fin_lo
  obtain ⟨h1, h2⟩ := abs_le.mp h
  unfold clamp
  rcases lt_or_eq_of_le h2 with h2 | h2
  · rw [minps_of_lt hx fh (by rw [vh]; exact h2)]
    rcases lt_or_eq_of_le h1 with h1 | h1
    · rw [maxps_of_lt hx fl (by rw [vl]; exact h1)]
    · rw [maxps_of_ge hx fl (by rw [vl]; exact h1.symm.le), vl, h1]
  · rw [minps_of_ge hx fh (by rw [vh]; exact h2.symm.le), maxps_of_lt fh fl (by rw [vh, vl]; norm_num), vh, h2]

/-- Below the lower bound. -/
theorem clamp_low {x : W} (hx : Finite x) (h : val x ≤ -(11583653 / 131072)) : clamp x = 0xc2b0c0a5 := by
  obtain ⟨fh, vh⟩ := fin_hi
  obtain ⟨fl, vl⟩ := fin_lo
  unfold clamp
  rw [minps_of_lt hx fh (by rw [vh]; linarith), maxps_of_ge hx fl (by rw [vl]; exact h)]

/-! ### The integral part -/

theorem scaled_eq (fp : Fp) (x : W) : scaled fp x = fp.add (fp.mul (clamp x) 0x3fb8aa3b) 0x3f000000 := rfl

theorem scaled_approx (x : W) :
    Approx (scaled ieee x) (val (clamp x) * (12102203 / 8388608) + 1 / 2) (1525 / 10 ^ 8) := by
  obtain ⟨hf, hb⟩ := clamp_range x
  rw [scaled_eq]
  obtain ⟨h1, h2⟩ := abs_le.mp hb
  have m := (Approx.const hf rfl).mul (Approx.const fin_log2e.1 fin_log2e.2) (Bx := 884 / 10) (By := 12102203 / 8388608)
    (E := 761 / 10 ^ 8) (hb.trans (by norm_num)) (by rw [abs_of_pos (by norm_num)]) (by norm_num) (by norm_num)
  refine m.add (Approx.const fin_half.1 fin_half.2) (B := 12804 / 100) ?_ (by norm_num) (by norm_num)
  rw [abs_le]; constructor <;> linarith

theorem exact_int {t : Int} (h : |t| < 2 ^ 24) : Exact (t : ℝ) :=
  ⟨t, 0, by simp, by
    have : (t.natAbs : Int) < 2 ^ 24 := by rw [Int.natCast_natAbs]; exact h
    exact_mod_cast this, by norm_num⟩

theorem int_le_maxFin {t : Int} (h : |t| < 2 ^ 24) : |(t : ℝ)| ≤ maxFin := by
  have h2 : |(t : ℝ)| < 2 ^ 24 := by exact_mod_cast h
  exact h2.le.trans (by unfold maxFin; norm_num)

/-- Subtracting the masked one: the integer below. -/
theorem lower_val {z r : W} {t : Int} (hz : Finite z) (hr : Finite r) (ht : |t| < 2 ^ 23) (hv : val r = t) :
    Finite (lower ieee z r) ∧ val (lower ieee z r) = ((if val z < t then t - 1 else t : Int) : ℝ) := by
  unfold lower
  have hb := abs_lt.mp ht
  by_cases h : val z < t
  · have hl : lt z r = true := (lt_iff hz hr).mpr (by rw [hv]; exact h)
    have e : mask (lt z r) &&& 0x3f800000 = 0x3f800000 := by rw [hl]; decide +kernel
    rw [e, if_pos h]
    have ht' : |t - 1| < 2 ^ 24 := by rw [abs_lt]; constructor <;> omega
    have e2 : val r - val 0x3f800000 = ((t - 1 : Int) : ℝ) := by rw [hv, fin_one.2]; push_cast; ring
    obtain ⟨h1, h2⟩ := sub_near hr fin_one.1 (by rw [e2]; exact int_le_maxFin ht')
    exact ⟨h1.1, (h2 (by rw [e2]; exact exact_int ht')).trans e2⟩
  · have hl : lt z r = false := by
      rw [← Bool.not_eq_true, lt_iff hz hr, hv]; exact h
    have e : mask (lt z r) &&& 0x3f800000 = 0 := by rw [hl]; decide +kernel
    rw [e, if_neg h]
    have ht' : |t| < 2 ^ 24 := by rw [abs_lt]; constructor <;> omega
    have e2 : val r - val 0 = (t : ℝ) := by rw [hv, val_zero]; ring
    obtain ⟨h1, h2⟩ := sub_near hr zero_finite.1 (by rw [e2]; exact int_le_maxFin ht')
    exact ⟨h1.1, (h2 (by rw [e2]; exact exact_int ht')).trans e2⟩

theorem floor_abs' {v : ℝ} (h : |v| < 2 ^ 20) : |⌊v⌋| < 2 ^ 23 := by
  obtain ⟨h1, h2⟩ := abs_lt.mp h
  have a := Int.floor_le v
  have b := Int.lt_floor_add_one v
  rw [abs_lt]
  constructor
  · have : ((-(2 ^ 23) : Int) : ℝ) < (⌊v⌋ : ℝ) := by push_cast; linarith
    exact_mod_cast this
  · have : (⌊v⌋ : ℝ) < ((2 ^ 23 : Int) : ℝ) := by push_cast; linarith
    exact_mod_cast this

/-- `VROUNDPS` and the correction after it. -/
theorem lower_floor {z : W} (hz : Finite z) (h : |val z| < 2 ^ 20) :
    Finite (lower ieee z (ieee.floor z)) ∧ val (lower ieee z (ieee.floor z)) = ⌊val z⌋ := by
  obtain ⟨hf, hv⟩ := floor_spec hz (h.trans (by norm_num))
  have := lower_val hz hf (floor_abs' h) hv
  rwa [if_neg (not_lt.mpr (Int.floor_le _))] at this

/-- `CVTTPS2PL`, back, and the correction after it. -/
theorem lower_trunc {z : W} (hz : Finite z) (h : |val z| < 2 ^ 20) :
    Finite (lower ieee z (ieee.ofInt (ieee.trunc z))) ∧ val (lower ieee z (ieee.ofInt (ieee.trunc z))) = ⌊val z⌋ := by
  have h23 : |val z| < 2 ^ 23 := h.trans (by norm_num)
  rw [trunc_spec hz h23]
  obtain ⟨hf, hv⟩ := ofInt_spec (trunc_abs h23)
  have hb : |truncInt z| < 2 ^ 23 := by
    rw [truncInt_eq]
    split
    · rw [abs_neg]; exact floor_abs' (by rwa [abs_neg])
    · exact floor_abs' h
  have := lower_val hz hf hb hv
  rw [truncInt_eq] at this ⊢
  refine ⟨this.1, this.2.trans ?_⟩
  congr 1
  by_cases hneg : val z < 0
  · rw [if_pos hneg]
    have a := Int.floor_le (-val z)
    have b := Int.lt_floor_add_one (-val z)
    split
    · rename_i hc
      push_cast at hc
      symm
      rw [Int.floor_eq_iff]
      push_cast
      constructor <;> linarith
    · rename_i hc
      push_cast at hc
      symm
      rw [Int.floor_eq_iff]
      push_cast
      constructor <;> linarith
  · rw [if_neg hneg, if_neg (not_lt.mpr (Int.floor_le _))]

/-- The scaled input is not the negative zero. -/
theorem scaled_zero {m : W} (hm : Finite m) (hb : |val m| ≤ 2 ^ 20) (h : val (ieee.add m 0x3f000000) = 0) :
    ieee.add m 0x3f000000 = 0 := by
  have e : |val m + val 0x3f000000| ≤ maxFin := by
    rw [fin_half.2]
    have := abs_add_le (val m) (1 / 2)
    have h2 : |(1 / 2 : ℝ)| = 1 / 2 := by norm_num
    refine le_trans (b := 2 ^ 20 + 1 / 2) (by linarith) (by unfold maxFin; norm_num)
  obtain ⟨hn, -⟩ := add_near hm fin_half.1 e
  have h0 : val (addIeee m 0x3f000000) = 0 := h
  have h1 := hn.2
  rw [h0, fin_half.2, zero_sub, abs_neg] at h1
  have h2 : |val m + 1 / 2| < 1 / 2 ^ 40 := by
    rcases le_total |val m + 1 / 2| ((2 : ℝ) ^ (-126 : Int)) with hc | hc
    · rw [max_eq_right hc] at h1
      exact lt_of_le_of_lt h1 (by norm_num)
    · rw [max_eq_left hc] at h1
      have hp := abs_nonneg (val m + 1 / 2)
      have : |val m + 1 / 2| = 0 := by
        rw [le_div_iff₀ (by positivity)] at h1
        nlinarith
      rw [this]; positivity
  obtain ⟨h3, h4⟩ := abs_lt.mp h2
  have k1 : key m < key 0xbeffffff := by
    rw [key_lt]
    have : val 0xbeffffff = -(16777215 / 33554432) := by simp [val, unpack]; norm_num
    rw [this]; norm_num at h4 ⊢; linarith
  have k2 : key 0xbf000001 < key m := by
    rw [key_lt]
    have : val 0xbf000001 = -(8388609 / 16777216) := by simp [val, unpack]; norm_num
    rw [this]; norm_num at h3 ⊢; linarith
  have a : key 0xbeffffff = -0x3effffff := by decide +kernel
  have b : key 0xbf000001 = -0x3f000001 := by decide +kernel
  rw [a] at k1; rw [b] at k2
  have : m = 0xbf000000 := by
    unfold key at k1 k2
    have := m.isLt
    apply BitVec.eq_of_toNat_eq
    show m.toNat = 0xbf000000
    split at k1 <;> omega
  rw [this]
  decide +kernel

theorem scaled_range (x : W) : Finite (scaled ieee x) ∧ |val (scaled ieee x)| < 2 ^ 20 := by
  have h := scaled_approx x
  obtain ⟨-, hb⟩ := clamp_range x
  obtain ⟨h1, h2⟩ := abs_le.mp hb
  obtain ⟨h3, h4⟩ := abs_le.mp h.2
  refine ⟨h.1, ?_⟩
  rw [abs_lt]
  constructor <;> norm_num at h3 h4 ⊢ <;> linarith

/-- **The two ways to take the integral part agree on what the routines compute**, for every input. -/
theorem lower_agree (x : W) : lower ieee (scaled ieee x) (ieee.floor (scaled ieee x)) =
    lower ieee (scaled ieee x) (ieee.ofInt (ieee.trunc (scaled ieee x))) := by
  obtain ⟨hf, hb⟩ := scaled_range x
  obtain ⟨-, v1⟩ := lower_floor hf hb
  obtain ⟨-, v2⟩ := lower_trunc hf hb
  by_cases h0 : ⌊val (scaled ieee x)⌋ = 0
  · have hz : scaled ieee x = 0 ∨ (0 < val (scaled ieee x)) := by
      rcases lt_or_eq_of_le (Int.floor_nonneg.mp h0.symm.le) with h | h
      · exact .inr h
      · left
        obtain ⟨hc, hcb⟩ := clamp_range x
        rw [scaled_eq] at h ⊢
        have m := (Approx.const hc rfl).mul (Approx.const fin_log2e.1 fin_log2e.2) (Bx := 884 / 10) (By := 12102203 / 8388608)
          (E := 761 / 10 ^ 8) (hcb.trans (by norm_num)) (by rw [abs_of_pos (by norm_num)]) (by norm_num) (by norm_num)
        refine scaled_zero m.1 ?_ h.symm
        obtain ⟨a1, a2⟩ := abs_le.mp m.2
        obtain ⟨b1, b2⟩ := abs_le.mp hcb
        rw [abs_le]
        constructor <;> linarith
    rcases hz with hz | hz
    · rw [hz]; decide +kernel
    · revert hz h0 hf hb
      generalize scaled ieee x = z
      intro hf hb h0 hz
      have hs : z.toNat < 0x80000000 := by
        by_contra hc
        rw [val_eq, if_pos (by omega)] at hz
        have := magVal_nonneg (z.toNat % 0x80000000)
        linarith
      have e1 : ieee.floor z = 0 := by
        show (if isNaN z then qNaN else if isInf z then z else
          if floorInt z = 0 then (if 0x80000000 ≤ z.toNat then 0x80000000 else 0)
          else round (floorInt z < 0) (floorInt z).natAbs 0) = 0
        rw [hf.not_nan, hf.not_inf, floorInt_eq, if_pos h0]
        simp only [Bool.false_eq_true, if_false]
        rw [if_neg (not_le.mpr hs)]
      have e2 : ieee.ofInt (ieee.trunc z) = 0 := by
        rw [trunc_spec hf (hb.trans (by norm_num)), truncInt_eq, if_neg (not_lt.mpr hz.le), h0]
        decide +kernel
      rw [e1, e2]
  · refine val_inj (v1.trans v2.symm) ?_
    rw [v1]
    exact_mod_cast h0

/-- **`ExpAVX32` and `ExpSSE32` give the same bits** for every input, whatever the registers hold. -/
theorem exp_avx_eq_sse_ieee (j j' : Lane) (x : W) : lane ieee expAVX j x = lane ieee expSSE j' x :=
  exp_avx_eq_sse ieee add_comm' mul_comm' j j' x (lower_agree x)

/-! ### The value stored -/

/-- The reduced argument. -/
def reduced (fp : Fp) (a n : W) : W := fp.add (fp.add a (fp.mul n 0xbf318000)) (fp.mul n 0x395e8083)

/-- The polynomial, by Horner's rule. -/
def poly (fp : Fp) (r : W) : W :=
  fp.add (fp.mul r (fp.add (fp.mul r (fp.add (fp.mul r (fp.add (fp.mul r (fp.add (fp.mul r 0x39506967)
    0x3ab743ce)) 0x3c088908)) 0x3d2aa9c1)) 0x3e2aaaaa)) 0x3f000000

/-- Before the scaling. -/
def unscaled (fp : Fp) (r : W) : W := fp.add (fp.add r (fp.mul (fp.mul r r) (poly fp r))) 0x3f800000

theorem exp_lane_eq (fp : Fp) (j : Lane) (x : W) :
    let n := lower fp (scaled fp x) (fp.floor (scaled fp x))
    lane fp expAVX j x =
      fp.mul (unscaled fp (reduced fp (clamp x) n)) ((fp.trunc n <<< 0x17) + 0x3f800000) := by
  intro n
  rw [lane_junk fp j ⟨0, 0, 0, 0, 0, 0, 0⟩ x expAVX (by simp), lane, exec_split fp 13 expAVX]
  have h1 : exec fp (expAVX.take 13) (Lane.set ⟨0, 0, 0, 0, 0, 0, 0⟩ 0 x) =
    ⟨clamp x, n, 0x3f000000, fp.floor (scaled fp x), 0x3f800000, 0, 0⟩ := rfl
  rw [h1]
  generalize fp.floor (scaled fp x) = f
  generalize n = n
  generalize clamp x = a
  rw [exec_split fp 6 (expAVX.drop 13)]
  have h2 : exec fp ((expAVX.drop 13).take 6) ⟨a, n, 0x3f000000, f, 0x3f800000, 0, 0⟩ =
    ⟨reduced fp a n, n, 0x3f000000, fp.mul n 0xbf318000, 0x3f800000, fp.mul n 0x395e8083, 0⟩ := rfl
  rw [h2]
  generalize reduced fp a n = r
  generalize fp.mul n 0xbf318000 = f
  generalize fp.mul n 0x395e8083 = g
  rfl

/-! ### The errors -/

theorem log2_near : |Real.log 2 - 287209 / 414355| ≤ 1 / 10 ^ 10 := Real.log_two_near_10

/-- The argument is reduced to half of log 2. -/
theorem reduce_bound {A : ℝ} {v : ℝ} (hv : |v - (A * (12102203 / 8388608) + 1 / 2)| ≤ 1525 / 10 ^ 8) (hA : |A| ≤ 11583653 / 131072) :
    |(⌊v⌋ : ℝ)| ≤ 128 ∧ |A - ⌊v⌋ * Real.log 2| ≤ 3466 / 10000 := by
  obtain ⟨v1, v2⟩ := abs_le.mp hv
  obtain ⟨a1, a2⟩ := abs_le.mp hA
  obtain ⟨l1, l2⟩ := abs_le.mp log2_near
  have f1 := Int.floor_le v
  have f2 := Int.lt_floor_add_one v
  have hup : ⌊v⌋ ≤ 128 := by
    have : (⌊v⌋ : ℝ) < ((129 : Int) : ℝ) := by push_cast; linarith
    have : ⌊v⌋ < 129 := by exact_mod_cast this
    omega
  have hlo : -128 ≤ ⌊v⌋ := by
    have : ((-129 : Int) : ℝ) < (⌊v⌋ : ℝ) := by push_cast; linarith
    have : -129 < ⌊v⌋ := by exact_mod_cast this
    omega
  have hup' : (⌊v⌋ : ℝ) ≤ 128 := by exact_mod_cast hup
  have hlo' : (-128 : ℝ) ≤ (⌊v⌋ : ℝ) := by exact_mod_cast hlo
  refine ⟨abs_le.mpr ⟨hlo', hup'⟩, ?_⟩
  generalize (⌊v⌋ : ℝ) = N at *
  generalize Real.log 2 = l at *
  have h1 : A - N * l = (A - N * (8388608 / 12102203)) + N * (8388608 / 12102203 - l) := by ring
  have h2 : |N * (8388608 / 12102203 - l)| ≤ 128 * (1 / 10 ^ 8) := by
    rw [abs_mul]
    refine mul_le_mul (abs_le.mpr ⟨hlo', hup'⟩) ?_ (abs_nonneg _) (by norm_num)
    rw [abs_le]; constructor <;> norm_num at * <;> linarith
  have h3 : |A - N * (8388608 / 12102203)| ≤ 346585 / 1000000 := by
    rw [abs_le]; constructor <;> norm_num at * <;> linarith
  rw [h1]
  refine (abs_add_le _ _).trans ?_
  norm_num at *; linarith

/-- The reduced argument as computed. -/
theorem reduced_approx {a n : W} {N : Int} (ha : Finite a) (hn : Finite n) (hN : val n = N) (hN' : |(N : ℝ)| ≤ 128)
    (hr : |val a - N * Real.log 2| ≤ 3466 / 10000) :
    Approx (reduced ieee a n) (val a - N * Real.log 2) (5745 / 10 ^ 11) := by
  obtain ⟨l1, l2⟩ := abs_le.mp log2_near
  obtain ⟨n1, n2⟩ := abs_le.mp hN'
  have hn24 : N.natAbs < 2 ^ 24 ∧ (N * (-355)).natAbs < 2 ^ 24 := by
    have h1 : N ≤ 128 := by exact_mod_cast n2
    have h2 : -128 ≤ N := by exact_mod_cast n1
    constructor <;> norm_num <;> omega
  -- the first product is exact
  have g1 : Approx (ieee.mul n 0xbf318000) (N * -(355 / 512)) 0 := by
    have e : val n * val 0xbf318000 = N * -(355 / 512) := by rw [hN, fin_c1.2]
    obtain ⟨h1, h2⟩ := mul_near hn fin_c1.1 (by
      rw [e, abs_mul]
      refine le_trans (mul_le_mul hN' (le_refl _) (abs_nonneg _) (by norm_num)) ?_
      unfold maxFin; norm_num)
    refine ⟨h1.1, ?_⟩
    have := h2 ⟨N * (-355), -9, by rw [e]; push_cast; norm_num; ring, hn24.2, by norm_num⟩
    show |val (mulIeee n 0xbf318000) - _| ≤ 0
    rw [this, e]; simp
  have g2 : Approx (ieee.mul n 0x395e8083) (N * (14581891 / 68719476736)) (1619 / 10 ^ 12) :=
    (Approx.const hn hN).mul (Approx.const fin_c2.1 fin_c2.2) (Bx := 128) (By := 14581891 / 68719476736) hN'
      (by rw [abs_of_pos (by norm_num)]) (by norm_num) (by norm_num)
  generalize hl : Real.log 2 = l at *
  obtain ⟨r1, r2⟩ := abs_le.mp hr
  have d1 : |(N : ℝ) * (l - 355 / 512)| ≤ 128 * (213 / 10 ^ 6) := by
    rw [abs_mul]
    refine mul_le_mul hN' ?_ (abs_nonneg _) (by norm_num)
    rw [abs_le]; constructor <;> norm_num at * <;> linarith
  have d2 : |(N : ℝ) * (l - 355 / 512 + 14581891 / 68719476736)| ≤ 128 * (10057 / 10 ^ 14) := by
    rw [abs_mul]
    refine mul_le_mul hN' ?_ (abs_nonneg _) (by norm_num)
    rw [abs_le]; constructor <;> norm_num at * <;> linarith
  have a1 := (Approx.const ha rfl).add g1 (B := 3739 / 10000) (E := 2229 / 10 ^ 11) (by
    have : val a + N * -(355 / 512) = (val a - N * l) + N * (l - 355 / 512) := by ring
    rw [this]
    refine (abs_add_le _ _).trans ?_
    norm_num at *; linarith) (by norm_num) (by norm_num)
  have a2 := a1.add g2 (B := 34661 / 100000) (E := 44569 / 10 ^ 12) (by
    have : val a + N * -(355 / 512) + N * (14581891 / 68719476736) =
      (val a - N * l) + N * (l - 355 / 512 + 14581891 / 68719476736) := by ring
    rw [this]
    refine (abs_add_le _ _).trans ?_
    norm_num at *; linarith) (by norm_num) (by norm_num)
  refine a2.shift ?_
  have : val a + N * -(355 / 512) + N * (14581891 / 68719476736) - (val a - N * l) =
      N * (l - 355 / 512 + 14581891 / 68719476736) := by ring
  rw [this]
  norm_num at *; linarith

/-- The polynomial of the routine. -/
noncomputable def polyR (t : ℝ) : ℝ :=
  1 / 2 + t * (5592405 / 33554432 + t * (11184577 / 268435456 + t * (1118497 / 134217728 + t * (6005223 / 4294967296 +
    t * (13658471 / 68719476736)))))

theorem poly_approx {r : W} {t : ℝ} (hr : Approx r t (5745 / 10 ^ 11)) (ht : |t| ≤ 3466 / 10000) :
    Approx (poly ieee r) (polyR t) (533 / 10 ^ 10) ∧ |polyR t| ≤ 56315 / 100000 := by
  obtain ⟨h1, b1⟩ := hr.horner (Approx.const fin_p7.1 fin_p7.2) (Approx.const fin_p6.1 fin_p6.2) (Br := 3466 / 10000)
    (Bp := 1988 / 10 ^ 7) (B := 14672 / 10 ^ 7) (E := 11 / 10 ^ 11) ht
    (by rw [abs_of_pos (by norm_num)]; norm_num) (by rw [abs_of_pos (by norm_num)]; norm_num) (by norm_num) (by norm_num) (by norm_num)
  obtain ⟨h2, b2⟩ := hr.horner h1 (Approx.const fin_p5.1 fin_p5.2) (Br := 3466 / 10000)
    (B := 88421 / 10 ^ 7) (E := 69 / 10 ^ 11) ht b1 (by rw [abs_of_pos (by norm_num)]; norm_num) (by norm_num) (by norm_num) (by norm_num)
  obtain ⟨h3, b3⟩ := hr.horner h2 (Approx.const fin_p4.1 fin_p4.2) (Br := 3466 / 10000)
    (B := 44731 / 10 ^ 6) (E := 361 / 10 ^ 11) ht b2 (by rw [abs_of_pos (by norm_num)]; norm_num) (by norm_num) (by norm_num) (by norm_num)
  obtain ⟨h4, b4⟩ := hr.horner h3 (Approx.const fin_p3.1 fin_p3.2) (Br := 3466 / 10000)
    (B := 182171 / 10 ^ 6) (E := 1561 / 10 ^ 11) ht b3 (by rw [abs_of_pos (by norm_num)]; norm_num) (by norm_num) (by norm_num) (by norm_num)
  exact hr.horner h4 (Approx.const fin_half.1 fin_half.2) (Br := 3466 / 10000)
    ht b4 (by rw [abs_of_pos (by norm_num)]; norm_num) (by norm_num) (by norm_num) (by norm_num)

/-- The polynomial against the exponential. -/
theorem polyR_exp {t : ℝ} (ht : |t| ≤ 3466 / 10000) : |1 + t + t * t * polyR t - Real.exp t| ≤ 36 / 10 ^ 9 := by
  have h := Real.exp_bound (x := t) (ht.trans (by norm_num)) (n := 8) (by norm_num)
  have hb : ∀ k : Nat, |t ^ k| ≤ (3466 / 10000) ^ k := fun k => by
    rw [abs_pow]; exact pow_le_pow_left₀ (abs_nonneg _) ht k
  have hr : |t| ^ 8 * ((Nat.succ 8 : ℕ) / ((Nat.factorial 8 : ℕ) * (8 : ℕ)) : ℝ) ≤ 6 / 10 ^ 9 := by
    have h8 : |t| ^ 8 ≤ (3466 / 10000) ^ 8 := pow_le_pow_left₀ (abs_nonneg _) ht 8
    have e : ((Nat.succ 8 : ℕ) / ((Nat.factorial 8 : ℕ) * (8 : ℕ)) : ℝ) = 9 / 322560 := by norm_num [Nat.factorial]
    rw [e]
    refine (mul_le_mul_of_nonneg_right h8 (by norm_num)).trans (by norm_num)
  have h := h.trans hr
  have e : ∑ m ∈ Finset.range 8, t ^ m / (m.factorial : ℝ) =
      1 + t + t ^ 2 / 2 + t ^ 3 / 6 + t ^ 4 / 24 + t ^ 5 / 120 + t ^ 6 / 720 + t ^ 7 / 5040 := by
    simp [Finset.sum_range_succ, Nat.factorial]
  rw [e] at h
  have p : 1 + t + t * t * polyR t = 1 + t + t ^ 2 * (1 / 2) + t ^ 3 * (5592405 / 33554432) + t ^ 4 * (11184577 / 268435456) +
      t ^ 5 * (1118497 / 134217728) + t ^ 6 * (6005223 / 4294967296) + t ^ 7 * (13658471 / 68719476736) := by
    unfold polyR; ring
  rw [p]
  obtain ⟨x1, x2⟩ := abs_le.mp h
  obtain ⟨a3, b3⟩ := abs_le.mp (hb 3)
  obtain ⟨a4, b4⟩ := abs_le.mp (hb 4)
  obtain ⟨a5, b5⟩ := abs_le.mp (hb 5)
  obtain ⟨a6, b6⟩ := abs_le.mp (hb 6)
  obtain ⟨a7, b7⟩ := abs_le.mp (hb 7)
  clear hb h hr e p ht
  generalize t ^ 3 = t3 at *
  generalize t ^ 4 = t4 at *
  generalize t ^ 5 = t5 at *
  generalize t ^ 6 = t6 at *
  generalize t ^ 7 = t7 at *
  generalize Real.exp t = ex at *
  norm_num at *
  rw [abs_le]
  constructor <;> linarith

theorem unscaled_approx {r : W} {t : ℝ} (hr : Approx r t (5745 / 10 ^ 11)) (ht : |t| ≤ 3466 / 10000) :
    Approx (unscaled ieee r) (Real.exp t) (2395 / 10 ^ 10) := by
  obtain ⟨hp, bp⟩ := poly_approx hr ht
  have hq := hr.mul hr ht ht (E := 4700 / 10 ^ 11) (by norm_num) (by norm_num)
  have bq : |t * t| ≤ 120132 / 10 ^ 6 := by
    rw [abs_mul]; exact (mul_le_mul ht ht (abs_nonneg _) (by norm_num)).trans (by norm_num)
  have hqp := hq.mul hp bq bp (E := 3700 / 10 ^ 11) (by norm_num) (by norm_num)
  have bqp : |t * t * polyR t| ≤ 67653 / 10 ^ 6 := by
    rw [abs_mul]; exact (mul_le_mul bq bp (abs_nonneg _) (by norm_num)).trans (by norm_num)
  have hs := hr.add hqp (B := 414253 / 10 ^ 6) (E := 11915 / 10 ^ 11)
    ((abs_add_le _ _).trans (by norm_num at *; linarith)) (by norm_num) (by norm_num)
  have bs : |t + t * t * polyR t| ≤ 414253 / 10 ^ 6 := (abs_add_le _ _).trans (by norm_num at *; linarith)
  have hf := hs.add (Approx.const fin_one.1 fin_one.2) (B := 1414253 / 10 ^ 6) (E := 20345 / 10 ^ 11) (by
    refine (abs_add_le _ _).trans ?_
    rw [abs_one]; norm_num at *; linarith) (by norm_num) (by norm_num)
  refine hf.shift ?_
  have h := polyR_exp ht
  have e : t + t * t * polyR t + 1 - Real.exp t = 1 + t + t * t * polyR t - Real.exp t := by ring
  rw [e]
  norm_num at *; linarith

/-! ### The exponent -/

theorem near_hi : ∀ i : Fin 64, floorInt (ieee.add (ieee.mul (BitVec.ofNat 32 (0x42b0c0a5 - i.val)) 0x3fb8aa3b) 0x3f000000) = 127 := by
  decide +kernel

theorem near_lo : ∀ i : Fin 64, floorInt (ieee.add (ieee.mul (BitVec.ofNat 32 (0xc2b0c0a5 - i.val)) 0x3fb8aa3b) 0x3f000000) = -127 := by
  decide +kernel

/-- **The exponent of the scaling stays between −127 and 127** for every input; beyond, the shifted bits would be an
infinity or a number of the other sign. -/
theorem exponent_range (x : W) : -127 ≤ ⌊val (scaled ieee x)⌋ ∧ ⌊val (scaled ieee x)⌋ ≤ 127 := by
  have h := scaled_approx x
  obtain ⟨h3, h4⟩ := abs_le.mp h.2
  obtain ⟨hf, hb⟩ := clamp_range x
  obtain ⟨h1, h2⟩ := abs_le.mp hb
  rw [scaled_eq] at h3 h4 ⊢
  generalize clamp x = a at *
  have k1 : key a ≤ 0x42b0c0a5 := by
    have := (key_lt 0x42b0c0a5 a).not.mpr (not_lt.mpr (by rw [fin_hi.2]; exact h2))
    have e : key 0x42b0c0a5 = 0x42b0c0a5 := by decide +kernel
    omega
  have k2 : -0x42b0c0a5 ≤ key a := by
    have := (key_lt a 0xc2b0c0a5).not.mpr (not_lt.mpr (by rw [fin_lo.2]; exact h1))
    have e : key 0xc2b0c0a5 = -0x42b0c0a5 := by decide +kernel
    omega
  rw [← floorInt_eq]
  by_cases c1 : 0x42b0c0a5 - 64 < key a
  · obtain ⟨i, hi⟩ : ∃ i : Fin 64, a = BitVec.ofNat 32 (0x42b0c0a5 - i.val) := by
      unfold key at c1 k1
      have := a.isLt
      split at c1
      · refine ⟨⟨0x42b0c0a5 - a.toNat, by omega⟩, ?_⟩
        apply BitVec.eq_of_toNat_eq
        rw [BitVec.toNat_ofNat]
        simp only
        omega
      · omega
    have := near_hi i
    rw [← hi] at this
    omega
  by_cases c2 : key a < -0x42b0c0a5 + 64
  · obtain ⟨i, hi⟩ : ∃ i : Fin 64, a = BitVec.ofNat 32 (0xc2b0c0a5 - i.val) := by
      unfold key at c2 k2
      have := a.isLt
      split at c2
      · omega
      · refine ⟨⟨0xc2b0c0a5 - a.toNat, by omega⟩, ?_⟩
        apply BitVec.eq_of_toNat_eq
        rw [BitVec.toNat_ofNat]
        simp only
        omega
    have := near_lo i
    rw [← hi] at this
    omega
  rw [floorInt_eq]
  have v1 : val a ≤ 8837578 / 100000 := by
    have e : key 0x42b0c065 = 0x42b0c0a5 - 64 := by decide +kernel
    have := not_lt.mp ((key_lt 0x42b0c065 a).not.mp (by omega))
    have e2 : val 0x42b0c065 = 11583589 / 131072 := by simp [val, unpack]; norm_num
    rw [e2] at this
    exact this.trans (by norm_num)
  have v2 : -(8837578 / 100000) ≤ val a := by
    have e : key 0xc2b0c065 = -0x42b0c0a5 + 64 := by decide +kernel
    have := not_lt.mp ((key_lt a 0xc2b0c065).not.mp (by omega))
    have e2 : val 0xc2b0c065 = -(11583589 / 131072) := by simp [val, unpack]; norm_num
    rw [e2] at this
    exact le_trans (by norm_num) this
  generalize val (ieee.add (ieee.mul a 0x3fb8aa3b) 0x3f000000) = v at *
  have f1 := Int.floor_le v
  have f2 := Int.lt_floor_add_one v
  constructor
  · have : ((-128 : Int) : ℝ) < (⌊v⌋ : ℝ) := by push_cast; linarith
    have : -128 < ⌊v⌋ := by exact_mod_cast this
    omega
  · have : (⌊v⌋ : ℝ) < ((128 : Int) : ℝ) := by push_cast; linarith
    have : ⌊v⌋ < 128 := by exact_mod_cast this
    omega

/-! ### The theorems -/

theorem exp_upper {t : ℝ} (ht : |t| ≤ 3466 / 10000) : Real.exp t ≤ 14143 / 10000 := by
  have h := polyR_exp ht
  obtain ⟨h1, h2⟩ := abs_le.mp h
  have hb : ∀ k : Nat, |t ^ k| ≤ (3466 / 10000) ^ k := fun k => by
    rw [abs_pow]; exact pow_le_pow_left₀ (abs_nonneg _) ht k
  have p : 1 + t + t * t * polyR t = 1 + t + t ^ 2 * (1 / 2) + t ^ 3 * (5592405 / 33554432) + t ^ 4 * (11184577 / 268435456) +
      t ^ 5 * (1118497 / 134217728) + t ^ 6 * (6005223 / 4294967296) + t ^ 7 * (13658471 / 68719476736) := by
    unfold polyR; ring
  rw [p] at h1
  have b1 := (abs_le.mp ht).2
  have b2 := (abs_le.mp (hb 2)).2
  have b3 := (abs_le.mp (hb 3)).2
  have b4 := (abs_le.mp (hb 4)).2
  have b5 := (abs_le.mp (hb 5)).2
  have b6 := (abs_le.mp (hb 6)).2
  have b7 := (abs_le.mp (hb 7)).2
  clear hb h p h2
  generalize t ^ 2 = t2 at *
  generalize t ^ 3 = t3 at *
  generalize t ^ 4 = t4 at *
  generalize t ^ 5 = t5 at *
  generalize t ^ 6 = t6 at *
  generalize t ^ 7 = t7 at *
  generalize Real.exp t = ex at *
  norm_num at *
  linarith

theorem exp_lower {t : ℝ} (ht : |t| ≤ 3466 / 10000) : 707 / 1000 ≤ Real.exp t := by
  have h := exp_upper (t := -t) (by rwa [abs_neg])
  rw [Real.exp_neg] at h
  have hp := Real.exp_pos t
  have h2 : 1 ≤ 14143 / 10000 * Real.exp t := by
    calc 1 = (Real.exp t)⁻¹ * Real.exp t := (inv_mul_cancel₀ hp.ne').symm
      _ ≤ _ := mul_le_mul_of_nonneg_right h hp.le
  linarith

theorem exp_split (A : ℝ) (N : Int) : Real.exp A = Real.exp (A - N * Real.log 2) * (2 : ℝ) ^ N := by
  have : (2 : ℝ) ^ N = Real.exp (N * Real.log 2) := by
    rw [mul_comm, ← Real.rpow_def_of_pos (by norm_num), Real.rpow_intCast]
  rw [this, ← Real.exp_add]
  congr 1; ring

/-- The value stored, for the clamped argument. -/
theorem exp_clamped (j : Lane) (x : W) :
    F32.Finite (lane ieee expAVX j x) ∧
    (-126 ≤ ⌊val (scaled ieee x)⌋ →
      |val (lane ieee expAVX j x) - Real.exp (val (clamp x))| ≤ Real.exp (val (clamp x)) / 2 ^ 21) ∧
    (⌊val (scaled ieee x)⌋ = -127 →
      val (lane ieee expAVX j x) = 0 ∧ Real.exp (val (clamp x)) ≤ (2 : ℝ) ^ (-126 : Int)) := by
  obtain ⟨e1, e2⟩ := exponent_range x
  obtain ⟨zf, zb⟩ := scaled_range x
  obtain ⟨nf, nv⟩ := lower_floor zf zb
  obtain ⟨cf, cb⟩ := clamp_range x
  obtain ⟨hN, hρ⟩ := reduce_bound (scaled_approx x).2 cb
  have hr := reduced_approx cf nf nv hN hρ
  have hu := unscaled_approx hr hρ
  have hsplit := exp_split (val (clamp x)) ⌊val (scaled ieee x)⌋
  rw [exp_lane_eq ieee j x]
  have ht : ieee.trunc (lower ieee (scaled ieee x) (ieee.floor (scaled ieee x))) = BitVec.ofInt 32 ⌊val (scaled ieee x)⌋ := by
    rw [trunc_spec nf (by rw [nv]; exact lt_of_le_of_lt hN (by norm_num)), truncInt_int nv]
  rw [ht]
  have hup := exp_upper hρ
  have hlo := exp_lower hρ
  generalize unscaled ieee (reduced ieee (clamp x) (lower ieee (scaled ieee x) (ieee.floor (scaled ieee x)))) = p at *
  generalize val (clamp x) = A at *
  generalize ⌊val (scaled ieee x)⌋ = N at *
  generalize Real.exp (A - N * Real.log 2) = ex at *
  obtain ⟨pf, pe⟩ := hu
  obtain ⟨p1, p2⟩ := abs_le.mp pe
  by_cases hc : -126 ≤ N
  · obtain ⟨wf, wv⟩ := pow_spec hc e2
    have hpos : (0 : ℝ) < (2 : ℝ) ^ N := by positivity
    have hpp : 0 < val p := by norm_num at *; linarith
    have hab : |val p * (2 : ℝ) ^ N| = val p * (2 : ℝ) ^ N := abs_of_pos (mul_pos hpp hpos)
    have h127 : (2 : ℝ) ^ N ≤ (2 : ℝ) ^ (127 : Int) := zpow_le_zpow_right₀ (by norm_num) e2
    have h126 : (2 : ℝ) ^ (-126 : Int) ≤ (2 : ℝ) ^ N := zpow_le_zpow_right₀ (by norm_num) hc
    obtain ⟨hn, -⟩ := mul_near pf wf (by
      rw [wv, hab]
      calc val p * (2 : ℝ) ^ N ≤ (1415 / 1000) * (2 : ℝ) ^ (127 : Int) :=
            mul_le_mul (by norm_num at *; linarith) h127 hpos.le (by norm_num)
        _ ≤ maxFin := by unfold maxFin; norm_num)
    rw [wv] at hn
    refine ⟨hn.1, fun _ => ?_, fun h => by omega⟩
    have hm : max |val p * (2 : ℝ) ^ N| ((2 : ℝ) ^ (-126 : Int)) / 2 ^ 24 ≤ (ex / 2 ^ 21 - 2395 / 10 ^ 10) * (2 : ℝ) ^ N := by
      rw [hab]
      rcases le_total (val p * (2 : ℝ) ^ N) ((2 : ℝ) ^ (-126 : Int)) with h | h
      · rw [max_eq_right h]
        calc (2 : ℝ) ^ (-126 : Int) / 2 ^ 24 ≤ (2 : ℝ) ^ N / 2 ^ 24 := by gcongr
          _ = (1 / 2 ^ 24) * (2 : ℝ) ^ N := by ring
          _ ≤ _ := mul_le_mul_of_nonneg_right (by norm_num at *; linarith) hpos.le
      · rw [max_eq_left h]
        calc val p * (2 : ℝ) ^ N / 2 ^ 24 = (val p / 2 ^ 24) * (2 : ℝ) ^ N := by ring
          _ ≤ _ := mul_le_mul_of_nonneg_right (by norm_num at *; linarith) hpos.le
    have h1 := hn.2.trans hm
    have h2 : |val p * (2 : ℝ) ^ N - ex * (2 : ℝ) ^ N| ≤ (2395 / 10 ^ 10) * (2 : ℝ) ^ N := by
      rw [← sub_mul, abs_mul, abs_of_pos hpos]
      exact mul_le_mul_of_nonneg_right pe hpos.le
    rw [hsplit]
    have h3 : val (ieee.mul p (BitVec.ofInt 32 N <<< 0x17 + 0x3f800000)) - ex * (2 : ℝ) ^ N =
        (val (mulIeee p (BitVec.ofInt 32 N <<< 0x17 + 0x3f800000)) - val p * (2 : ℝ) ^ N) +
        (val p * (2 : ℝ) ^ N - ex * (2 : ℝ) ^ N) := by
      show val (mulIeee p (BitVec.ofInt 32 N <<< 0x17 + 0x3f800000)) - ex * (2 : ℝ) ^ N = _
      ring
    rw [h3]
    refine (abs_add_le _ _).trans ((add_le_add h1 h2).trans (le_of_eq ?_))
    ring
  · have hN' : N = -127 := by omega
    subst hN'
    have hw : (BitVec.ofInt 32 (-127) <<< 0x17 + 0x3f800000 : W) = 0 := by decide +kernel
    rw [hw]
    obtain ⟨hn, hx⟩ := mul_near pf zero_finite.1 (by
      rw [val_zero, mul_zero, abs_zero]; unfold maxFin; norm_num)
    refine ⟨hn.1, fun h => absurd h hc, fun _ => ⟨?_, ?_⟩⟩
    · have := hx ⟨0, 0, by rw [val_zero]; simp, by norm_num, by norm_num⟩
      rw [val_zero, mul_zero] at this
      exact this
    · rw [hsplit]
      have : (2 : ℝ) ^ (-126 : Int) = 2 * (2 : ℝ) ^ (-127 : Int) := by norm_num
      rw [this]
      exact mul_le_mul_of_nonneg_right (by linarith) (by positivity)

/-- **The vector exponential is accurate to 21 bits**: for numbers from −87.68 to 88.376 (the bits `0x42b0c0a5`), both
routines give `e^x` up to the relative error `2^-21`, whatever the registers hold. -/
theorem exp_accurate (j : Lane) {x : W} (hx : Finite x) (hlo : -(8768 / 100) ≤ val x) (hhi : val x ≤ 11583653 / 131072) :
    |val (lane ieee expAVX j x) - Real.exp (val x)| ≤ Real.exp (val x) / 2 ^ 21 ∧
    |val (lane ieee expSSE j x) - Real.exp (val x)| ≤ Real.exp (val x) / 2 ^ 21 := by
  rw [← exp_avx_eq_sse_ieee j j x]
  have hc : val (clamp x) = val x := clamp_id hx (abs_le.mpr ⟨le_trans (by norm_num) hlo, hhi⟩)
  have h := (exp_clamped j x).2.1
  rw [hc] at h
  have hs := (scaled_approx x).2
  rw [hc] at hs
  obtain ⟨h1, h2⟩ := abs_le.mp hs
  have hN : -126 ≤ ⌊val (scaled ieee x)⌋ := by
    rw [Int.le_floor]; push_cast; linarith
  exact ⟨h hN, h hN⟩

/-- **Below, the result is flushed to zero**: for every number up to 88.376 the absolute error is at most the relative
part and the smallest normal number. -/
theorem exp_accurate_below (j : Lane) {x : W} (hx : Finite x) (hhi : val x ≤ 11583653 / 131072) :
    |val (lane ieee expAVX j x) - Real.exp (val x)| ≤ Real.exp (val x) / 2 ^ 21 + (2 : ℝ) ^ (-126 : Int) ∧
    |val (lane ieee expSSE j x) - Real.exp (val x)| ≤ Real.exp (val x) / 2 ^ 21 + (2 : ℝ) ^ (-126 : Int) := by
  rw [← exp_avx_eq_sse_ieee j j x]
  suffices h : |val (lane ieee expAVX j x) - Real.exp (val x)| ≤ Real.exp (val x) / 2 ^ 21 + (2 : ℝ) ^ (-126 : Int) from ⟨h, h⟩
  have hp := Real.exp_pos (val x)
  have ht : (0 : ℝ) < (2 : ℝ) ^ (-126 : Int) := by positivity
  obtain ⟨-, ha, hb⟩ := exp_clamped j x
  have hN := exponent_range x
  by_cases hlo : -(11583653 / 131072) ≤ val x
  · rw [clamp_id hx (abs_le.mpr ⟨hlo, hhi⟩)] at ha hb
    by_cases hc : -126 ≤ ⌊val (scaled ieee x)⌋
    · exact (ha hc).trans (by linarith)
    · obtain ⟨h1, h2⟩ := hb (by omega)
      rw [h1, zero_sub, abs_neg, abs_of_pos hp]
      exact h2.trans (le_add_of_nonneg_left (by positivity))
  · have hl : clamp x = 0xc2b0c0a5 := clamp_low hx (not_le.mp hlo).le
    rw [hl] at hb
    have hf : ⌊val (scaled ieee x)⌋ = -127 := by
      rw [scaled_eq, hl, ← floorInt_eq]
      exact near_lo 0
    obtain ⟨h1, h2⟩ := hb hf
    rw [fin_lo.2] at h2
    have h3 : Real.exp (val x) ≤ Real.exp (-(11583653 / 131072)) := Real.exp_le_exp.mpr (not_le.mp hlo).le
    rw [h1, zero_sub, abs_neg, abs_of_pos hp]
    exact (h3.trans h2).trans (le_add_of_nonneg_left (by positivity))

/-- The result is a finite number for every input; the exponential never gives an infinity or a NaN. -/
theorem exp_finite (j : Lane) (x : W) : F32.Finite (lane ieee expAVX j x) ∧ F32.Finite (lane ieee expSSE j x) := by
  rw [← exp_avx_eq_sse_ieee j j x]
  exact ⟨(exp_clamped j x).1, (exp_clamped j x).1⟩

/-- **Above, it is wrong**: from 88.5 on both routines give less than 92 % of `e^x`, although `e^x` is below the
largest number up to 88.72. -/
theorem exp_saturates (j : Lane) {x : W} (hx : Finite x) (h : 885 / 10 ≤ val x) :
    val (lane ieee expAVX j x) ≤ 92 / 100 * Real.exp (val x) ∧ val (lane ieee expSSE j x) ≤ 92 / 100 * Real.exp (val x) := by
  have hgt : lt expHi x = true := (lt_iff fin_hi.1 hx).mpr (by rw [fin_hi.2]; exact lt_of_lt_of_le (by norm_num) h)
  obtain ⟨h1, h2⟩ := exp_lane_nan ieee j x (.inr hgt)
  obtain ⟨h3, h4⟩ := exp_lane_hi_ieee j
  rw [h1, h2, h3, h4]
  suffices hs : val 0x7f3504a4 ≤ 92 / 100 * Real.exp (val x) from ⟨hs, hs⟩
  have hv : val 0x7f3504a4 = 11863204 * 2 ^ 104 := by simp [val, unpack]
  have he : (777 / 1000 : ℝ) * 2 ^ 128 ≤ Real.exp (val x) := by
    refine le_trans ?_ (Real.exp_le_exp.mpr h)
    rw [exp_split _ 128]
    have : (777 / 1000 : ℝ) ≤ Real.exp (885 / 10 - (128 : Int) * Real.log 2) := by
      refine le_trans ?_ (Real.add_one_le_exp _)
      have := Real.log_two_lt_d9
      push_cast; linarith
    have h2 : (2 : ℝ) ^ (128 : Int) = 2 ^ 128 := by norm_cast
    rw [h2]
    exact mul_le_mul_of_nonneg_right this (by positivity)
  rw [hv]
  refine le_trans ?_ (mul_le_mul_of_nonneg_left he (by norm_num))
  norm_num

/-- 88.5 is such a number. -/
example : Finite 0x42b10000 ∧ 885 / 10 ≤ val 0x42b10000 := by
  constructor
  · unfold F32.Finite; decide
  · simp [val, unpack]; norm_num

/-- One and −50 are in the accurate range, and the bits stored for one are `0x402df854` (2.7182817). -/
example : Finite 0xc2480000 ∧ -(8768 / 100) ≤ val 0xc2480000 ∧ val 0xc2480000 ≤ 11583653 / 131072 := by
  refine ⟨?_, ?_, ?_⟩
  · unfold F32.Finite; decide
  · simp [val, unpack]; norm_num
  · simp [val, unpack]; norm_num

end Verif.ExpLog
