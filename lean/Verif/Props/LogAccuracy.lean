import Verif.Props.ExpAccuracy
import Verif.Lemmas.LogPoly

set_option autoImplicit false
set_option linter.unusedSimpArgs false

/-!
# C60: how accurate the vector logarithm is

The arithmetic is `ieee`.  A normal positive number is split into exponent and fraction; a polynomial of degree eleven
gives the logarithm of the fraction.  Both routines give the logarithm up to the relative error `2^-21`, also near one.
-/

namespace Verif.ExpLog
open Verif.F32

/-! ### Constants -/

theorem fin_const {w : W} {r : ℝ} (h : w.toNat % 0x80000000 < 0x7f800000) (hv : val w = r) : Approx w r 0 := Approx.const h hv

theorem l_m1 : Approx 0xbf800000 (-1) 0 := fin_const (by decide) (by simp [val, unpack]; norm_num)
theorem l_c0 : Approx 0x3d9021bb (9445819 / 134217728) 0 := fin_const (by decide) (by simp [val, unpack]; norm_num)
theorem l_c1 : Approx 0xbdebd1b8 (-(1931831 / 16777216)) 0 := fin_const (by decide) (by simp [val, unpack]; norm_num)
theorem l_c2 : Approx 0x3def251a (7836301 / 67108864) 0 := fin_const (by decide) (by simp [val, unpack]; norm_num)
theorem l_c3 : Approx 0xbdfe5d4f (-(16670031 / 134217728)) 0 := fin_const (by decide) (by simp [val, unpack]; norm_num)
theorem l_c4 : Approx 0x3e11e9bf (9562559 / 67108864) 0 := fin_const (by decide) (by simp [val, unpack]; norm_num)
theorem l_c5 : Approx 0xbe2aae50 (-(699109 / 4194304)) 0 := fin_const (by decide) (by simp [val, unpack]; norm_num)
theorem l_c6 : Approx 0x3e4cceac (3355563 / 16777216) 0 := fin_const (by decide) (by simp [val, unpack]; norm_num)
theorem l_c7 : Approx 0xbe7ffffc (-(4194303 / 16777216)) 0 := fin_const (by decide) (by simp [val, unpack]; norm_num)
theorem l_c8 : Approx 0x3eaaaaaa (5592405 / 16777216) 0 := fin_const (by decide) (by simp [val, unpack]; norm_num)
theorem l_q1 : Approx 0xb95e8083 (-(14581891 / 68719476736)) 0 := fin_const (by decide) (by simp [val, unpack]; norm_num)
theorem l_q2 : Approx 0x3f318000 (355 / 512) 0 := fin_const (by decide) (by simp [val, unpack]; norm_num)
theorem l_mh : Approx 0xbf000000 (-(1 / 2)) 0 := fin_const (by decide) (by simp [val, unpack]; norm_num)
theorem l_sqrt : Approx 0x3f3504f3 (11863283 / 16777216) 0 := fin_const (by decide) (by simp [val, unpack]; norm_num)

theorem Approx.val_eq {w : W} {r : ℝ} (h : Approx w r 0) : val w = r :=
  sub_eq_zero.mp (abs_eq_zero.mp (le_antisymm h.2 (abs_nonneg _)))

/-! ### The value stored -/

/-- Exponent, and fraction in [1/2, 1). -/
def exponent (fp : Fp) (y : W) : W := fp.add (fp.ofInt ((y >>> 0x17) + 0xffffff81)) 0x3f800000
def fraction (y : W) : W := (y &&& 0x807fffff) ||| 0x3f000000

/-- The fraction is below the square root of one half. -/
def small (m : W) : W := mask (lt m 0x3f3504f3)

def arg (fp : Fp) (m : W) : W := fp.add (fp.add m 0xbf800000) (small m &&& m)
def expo (fp : Fp) (e m : W) : W := fp.sub e (small m &&& 0x3f800000)

def logPoly (fp : Fp) (f : W) : W :=
  fp.add (fp.mul f (fp.add (fp.mul f (fp.add (fp.mul f (fp.add (fp.mul f (fp.add (fp.mul f (fp.add (fp.mul f
    (fp.add (fp.mul f (fp.add (fp.mul f 0x3d9021bb) 0xbdebd1b8)) 0x3def251a)) 0xbdfe5d4f)) 0x3e11e9bf)) 0xbe2aae50))
    0x3e4cceac)) 0xbe7ffffc)) 0x3eaaaaaa

/-- The correction to `f`. -/
def corr (fp : Fp) (f e : W) : W :=
  fp.add (fp.add (fp.mul (fp.mul f f) (fp.mul f (logPoly fp f))) (fp.mul e 0xb95e8083)) (fp.mul (fp.mul f f) 0xbf000000)

def logCore (fp : Fp) (f e : W) : W := fp.add (fp.mul e 0x3f318000) (fp.add f (corr fp f e))

theorem log_lane_eq (fp : Fp) (j : Lane) (x : W) :
    let y := maxps x 0x00800000
    let m := fraction y
    lane fp logAVX j x = mask (le x 0) ||| logCore fp (arg fp m) (expo fp (exponent fp y) m) := by
  intro y m
  rw [lane_junk fp j ⟨0, 0, 0, 0, 0, 0, 0⟩ x logAVX (by simp), lane, exec_split fp 14 logAVX]
  have h1 : exec fp (logAVX.take 14) (Lane.set ⟨0, 0, 0, 0, 0, 0, 0⟩ 0 x) =
    ⟨m, mask (le x 0), exponent fp y, 0x3f800000, 0xffffff81, 0, 0⟩ := rfl
  rw [h1]
  generalize mask (le x 0) = k
  generalize exponent fp y = e
  generalize m = m
  rw [exec_split fp 8 (logAVX.drop 14)]
  have h2 : exec fp ((logAVX.drop 14).take 8) ⟨m, k, e, 0x3f800000, 0xffffff81, 0, 0⟩ =
    ⟨arg fp m, k, expo fp e m, small m &&& 0x3f800000, small m, small m &&& m, 0xbf800000⟩ := rfl
  rw [h2]
  generalize arg fp m = f
  generalize expo fp e m = e
  generalize small m &&& 0x3f800000 = a
  generalize small m &&& m = b
  generalize small m = c
  rfl

/-! ### Splitting the number -/

/-- A positive normal number. -/
def Normal (x : W) : Prop := 0x00800000 ≤ x.toNat ∧ x.toNat < 0x7f800000

/-- The number 3. -/
example : Normal 0x40400000 := by unfold Normal; decide

theorem Normal.finite {x : W} (h : Normal x) : Finite x := by
  unfold Normal at h; unfold F32.Finite; omega

theorem Normal.max {x : W} (h : Normal x) : maxps x 0x00800000 = x := by
  have hf : Finite (0x00800000 : W) := by unfold F32.Finite; decide
  unfold Normal at h
  unfold maxps
  by_cases hc : lt 0x00800000 x = true
  · rw [if_pos hc]
  · rw [if_neg hc]
    have : ¬ key 0x00800000 < key x := by
      intro hk
      apply hc
      rw [lt_iff hf (Normal.finite h), ← key_lt]; exact hk
    have e : key 0x00800000 = 0x00800000 := by decide +kernel
    unfold key at this e
    rw [e, if_pos (by omega)] at this
    apply BitVec.eq_of_toNat_eq
    show 0x00800000 = x.toNat
    omega

theorem Normal.pos {x : W} (h : Normal x) : le x 0 = false := by
  rw [← Bool.not_eq_true, le_iff h.finite zero_finite.1, val_zero, not_le, val_eq]
  unfold Normal at h
  rw [if_neg (by omega), one_mul]
  exact magVal_pos (by omega)

theorem Normal.val {x : W} (h : Normal x) :
    val x = ((x.toNat % 0x800000 + 0x800000 : Nat) : ℝ) / 2 ^ 24 * (2 : ℝ) ^ (((x.toNat / 0x800000 : Nat) : Int) - 126) := by
  unfold Normal at h
  rw [val_eq, if_neg (by omega), one_mul, Nat.mod_eq_of_lt (show x.toNat < 0x80000000 by omega)]
  unfold magVal
  rw [if_neg (by omega)]
  have : ((x.toNat / 0x800000 : Nat) : Int) - 126 = (((x.toNat / 0x800000 : Nat) : Int) - 150) + 24 := by ring
  rw [this, zpow_add₀ (by norm_num)]
  have e : (2 : ℝ) ^ (24 : Int) = 2 ^ 24 := by norm_cast
  rw [e]
  field_simp

theorem fraction_toNat {x : W} (h : Normal x) : (fraction x).toNat = x.toNat % 0x800000 + 0x3f000000 := by
  unfold Normal at h
  show (x.toNat &&& 0x807fffff) ||| 0x3f000000 = _
  have e1 : (0x807fffff : Nat) = 2 ^ 31 ||| (2 ^ 23 - 1) := by decide +kernel
  have e2 : x.toNat &&& 0x807fffff = x.toNat % 2 ^ 23 := by
    rw [e1, Nat.and_or_distrib_left, Nat.and_two_pow_sub_one_eq_mod]
    have : x.toNat &&& 2 ^ 31 = 0 := by
      apply Nat.eq_of_testBit_eq
      intro i
      rw [Nat.testBit_and, Nat.testBit_two_pow, Nat.zero_testBit]
      by_cases hi : 31 = i
      · subst hi
        rw [Nat.testBit_lt_two_pow (by omega)]; rfl
      · simp [hi]
    rw [this, Nat.zero_or]
  rw [e2, Nat.or_comm]
  have e3 : (0x3f000000 : Nat) = 2 ^ 23 * 126 := by norm_num
  rw [e3, ← Nat.two_pow_add_eq_or_of_lt (Nat.mod_lt _ (by norm_num))]
  norm_num
  omega

theorem fraction_val {x : W} (h : Normal x) :
    Finite (fraction x) ∧ val (fraction x) = ((x.toNat % 0x800000 + 0x800000 : Nat) : ℝ) / 2 ^ 24 := by
  have ht := fraction_toNat h
  have hlt : x.toNat % 0x800000 < 0x800000 := Nat.mod_lt _ (by norm_num)
  refine ⟨by unfold F32.Finite; rw [ht]; omega, ?_⟩
  rw [val_eq, ht, if_neg (by omega), one_mul, Nat.mod_eq_of_lt (by omega)]
  unfold magVal
  have d : (x.toNat % 0x800000 + 0x3f000000) / 0x800000 = 126 := by omega
  have r : (x.toNat % 0x800000 + 0x3f000000) % 0x800000 = x.toNat % 0x800000 := by omega
  rw [d, r, if_neg (by norm_num)]
  have : (2 : ℝ) ^ (((126 : Nat) : Int) - 150) = 1 / 2 ^ 24 := by norm_num
  rw [this]
  ring

theorem exponent_bits : ∀ k : Fin 255, (BitVec.ofNat 32 k.val + 0xffffff81 : W) = BitVec.ofInt 32 ((k.val : Int) - 127) := by
  decide +kernel

theorem exponent_val {x : W} (h : Normal x) :
    Finite (exponent ieee x) ∧ val (exponent ieee x) = (((x.toNat / 0x800000 : Nat) : Int) - 126 : Int) := by
  unfold Normal at h
  have hk : x.toNat / 0x800000 < 255 := by omega
  have e1 : x >>> 0x17 = BitVec.ofNat 32 (x.toNat / 0x800000) := by
    apply BitVec.eq_of_toNat_eq
    rw [BitVec.toNat_ushiftRight, Nat.shiftRight_eq_div_pow, BitVec.toNat_ofNat, Nat.mod_eq_of_lt (by omega)]
  have e2 := exponent_bits ⟨_, hk⟩
  simp only at e2
  unfold exponent
  rw [e1, e2]
  obtain ⟨hf, hv⟩ := ofInt_spec (t := ((x.toNat / 0x800000 : Nat) : Int) - 127) (by rw [abs_lt]; constructor <;> omega)
  have e3 : val (ieee.ofInt (BitVec.ofInt 32 (((x.toNat / 0x800000 : Nat) : Int) - 127))) + val 0x3f800000 =
      ((((x.toNat / 0x800000 : Nat) : Int) - 126 : Int) : ℝ) := by
    rw [hv, fin_one.2]; push_cast; ring
  have hb : |((x.toNat / 0x800000 : Nat) : Int) - 126| < 2 ^ 24 := by rw [abs_lt]; constructor <;> omega
  obtain ⟨hn, hx⟩ := add_near hf fin_one.1 (by rw [e3]; exact int_le_maxFin hb)
  exact ⟨hn.1, (hx (by rw [e3]; exact exact_int hb)).trans e3⟩

theorem split_core {m e : W} {k b : Nat} {v : ℝ} (hk1 : 0x800000 ≤ k) (hk2 : k < 0x1000000) (hb : b < 255 ∧ 1 ≤ b)
    (mf : Finite m) (mv : val m = (k : ℝ) / 2 ^ 24) (ef : Finite e) (evl : val e = ((b : Int) - 126 : Int))
    (hx : v = (k : ℝ) / 2 ^ 24 * (2 : ℝ) ^ ((b : Int) - 126)) : ∃ (f : ℝ) (E : Int),
    Approx (arg ieee m) f 0 ∧ Approx (expo ieee e m) E 0 ∧
    v = (1 + f) * (2 : ℝ) ^ E ∧ -(292894 / 1000000) ≤ f ∧ f ≤ 414214 / 1000000 ∧ |E| ≤ 128 ∧
    (f ≠ 0 → 1 / 2 ^ 24 ≤ |f|) := by
  have k1 : (8388608 : ℝ) ≤ k := by exact_mod_cast hk1
  have k2 : (k : ℝ) ≤ 16777215 := by
    have : k ≤ 16777215 := by omega
    exact_mod_cast this
  -- the subtraction of one
  have a1 : Approx (ieee.add m 0xbf800000) ((k : ℝ) / 2 ^ 24 - 1) 0 := by
    have e1 : val m + val 0xbf800000 = (k : ℝ) / 2 ^ 24 - 1 := by rw [mv, Approx.val_eq l_m1]; ring
    obtain ⟨hn, hx⟩ := add_near mf l_m1.1 (by
      rw [e1]
      refine le_trans (b := 1) ?_ (by unfold maxFin; norm_num)
      rw [abs_le]; constructor <;> norm_num <;> linarith)
    refine Approx.const hn.1 ((hx ?_).trans e1)
    refine ⟨(k : Int) - 0x1000000, -24, ?_, by omega, by norm_num⟩
    rw [e1]; push_cast; norm_num; ring
  have hlt' := lt_iff mf l_sqrt.1
  rw [mv, Approx.val_eq l_sqrt] at hlt'
  by_cases hc : (k : ℝ) / 2 ^ 24 < 11863283 / 16777216
  · have hs : small m = 0xffffffff := by unfold small; rw [hlt'.mpr hc]; rfl
    have hm : small m &&& m = m := by
      have e : (0xffffffff : W) = BitVec.allOnes 32 := by decide +kernel
      rw [hs, e, BitVec.allOnes_and]
    have ho : small m &&& 0x3f800000 = 0x3f800000 := by rw [hs]; decide +kernel
    refine ⟨2 * ((k : ℝ) / 2 ^ 24) - 1, (b : Int) - 127, ?_, ?_, ?_, ?_, ?_, ?_, ?_⟩
    · unfold arg
      rw [hm]
      have e1 : val (ieee.add m 0xbf800000) + val m = 2 * ((k : ℝ) / 2 ^ 24) - 1 := by
        rw [Approx.val_eq a1, mv]; ring
      obtain ⟨hn, hx⟩ := add_near a1.1 mf (by
        rw [e1]
        refine le_trans (b := 1) ?_ (by unfold maxFin; norm_num)
        rw [abs_le]; constructor <;> norm_num <;> linarith)
      refine Approx.const hn.1 ((hx ?_).trans e1)
      refine ⟨2 * (k : Int) - 0x1000000, -24, ?_, by omega, by norm_num⟩
      rw [e1]; push_cast; norm_num; ring
    · unfold expo
      rw [ho]
      have e1 : val e - val 0x3f800000 = (((b : Int) - 127 : Int) : ℝ) := by
        rw [evl, fin_one.2]; push_cast; ring
      have hbb : |(b : Int) - 127| < 2 ^ 24 := by rw [abs_lt]; constructor <;> omega
      obtain ⟨hn, hx⟩ := sub_near ef fin_one.1 (by rw [e1]; exact int_le_maxFin hbb)
      exact Approx.const hn.1 ((hx (by rw [e1]; exact exact_int hbb)).trans e1)
    · rw [hx]
      have : (b : Int) - 126 = ((b : Int) - 127) + 1 := by ring
      rw [this, zpow_add₀ (by norm_num)]
      norm_num; ring
    · norm_num; linarith
    · norm_num at hc ⊢; linarith
    · rw [abs_le]; constructor <;> omega
    · intro hne
      have e : 2 * ((k : ℝ) / 2 ^ 24) - 1 = ((2 * (k : Int) - 0x1000000 : Int) : ℝ) / 2 ^ 24 := by push_cast; ring
      rw [e, abs_div, abs_of_pos (show (0 : ℝ) < 2 ^ 24 by positivity)]
      gcongr
      have hz : (2 * (k : Int) - 0x1000000) ≠ 0 := by
        intro hz; apply hne; rw [e, hz]; simp
      have := Int.one_le_abs hz
      exact_mod_cast this
  · have hl : lt m 0x3f3504f3 = false := by rw [← Bool.not_eq_true, hlt']; exact hc
    have hs : small m = 0 := by unfold small; rw [hl]; rfl
    have hm : small m &&& m = 0 := by rw [hs]; exact BitVec.zero_and
    have ho : small m &&& 0x3f800000 = 0 := by rw [hs]; rfl
    have hc := not_lt.mp hc
    refine ⟨(k : ℝ) / 2 ^ 24 - 1, (b : Int) - 126, ?_, ?_, ?_, ?_, ?_, ?_, ?_⟩
    · unfold arg
      rw [hm]
      have e1 : val (ieee.add m 0xbf800000) + val 0 = (k : ℝ) / 2 ^ 24 - 1 := by
        rw [Approx.val_eq a1, val_zero, add_zero]
      obtain ⟨hn, hx⟩ := add_near a1.1 zero_finite.1 (by
        rw [e1]
        refine le_trans (b := 1) ?_ (by unfold maxFin; norm_num)
        rw [abs_le]; constructor <;> norm_num <;> linarith)
      refine Approx.const hn.1 ((hx ?_).trans e1)
      refine ⟨(k : Int) - 0x1000000, -24, ?_, by omega, by norm_num⟩
      rw [e1]; push_cast; norm_num; ring
    · unfold expo
      rw [ho]
      have e1 : val e - val 0 = (((b : Int) - 126 : Int) : ℝ) := by
        rw [evl, val_zero, sub_zero]
      have hbb : |(b : Int) - 126| < 2 ^ 24 := by rw [abs_lt]; constructor <;> omega
      obtain ⟨hn, hx⟩ := sub_near ef zero_finite.1 (by rw [e1]; exact int_le_maxFin hbb)
      exact Approx.const hn.1 ((hx (by rw [e1]; exact exact_int hbb)).trans e1)
    · rw [hx]; ring
    · norm_num at hc ⊢; linarith
    · norm_num; linarith
    · rw [abs_le]; constructor <;> omega
    · intro hne
      have e : (k : ℝ) / 2 ^ 24 - 1 = (((k : Int) - 0x1000000 : Int) : ℝ) / 2 ^ 24 := by push_cast; ring
      rw [e, abs_div, abs_of_pos (show (0 : ℝ) < 2 ^ 24 by positivity)]
      gcongr
      have hz : ((k : Int) - 0x1000000) ≠ 0 := by
        intro hz; apply hne; rw [e, hz]; simp
      have := Int.one_le_abs hz
      exact_mod_cast this

/-- **Argument and exponent**: exact, `x = (1 + f) 2^E` with `1 + f` between the square roots of one half and of two. -/
theorem split_spec {x : W} (h : Normal x) : ∃ (f : ℝ) (E : Int),
    Approx (arg ieee (fraction x)) f 0 ∧ Approx (expo ieee (exponent ieee x) (fraction x)) E 0 ∧
    val x = (1 + f) * (2 : ℝ) ^ E ∧ -(292894 / 1000000) ≤ f ∧ f ≤ 414214 / 1000000 ∧ |E| ≤ 128 ∧
    (f ≠ 0 → 1 / 2 ^ 24 ≤ |f|) := by
  obtain ⟨mf, mv⟩ := fraction_val h
  obtain ⟨ef, evl⟩ := exponent_val h
  have hx := h.val
  have hlt : x.toNat % 0x800000 < 0x800000 := Nat.mod_lt _ (by norm_num)
  unfold Normal at h
  exact split_core (by omega) (by omega) (by omega) mf mv ef evl hx

/-! ### The errors -/

theorem logPoly_approx {fw : W} {f : ℝ} (hf : Approx fw f 0) (h : |f| ≤ 41422 / 100000) :
    Approx (logPoly ieee fw) (LogPoly.P f) (576 / 10 ^ 10) ∧ |LogPoly.P f| ≤ 489654 / 10 ^ 6 := by
  obtain ⟨h1, b1⟩ := hf.horner l_c0 l_c1 (Br := 41422 / 100000) (Bp := 70377 / 10 ^ 6) (B := 144299 / 10 ^ 6)
    (E := 1035 / 10 ^ 11) h (by rw [abs_of_pos (by norm_num)]; norm_num)
    (by rw [abs_neg, abs_of_pos (by norm_num)]; norm_num) (by norm_num) (by norm_num) (by norm_num)
  obtain ⟨h2, b2⟩ := hf.horner h1 l_c2 (Br := 41422 / 100000) (B := 176543 / 10 ^ 6) (E := 1838 / 10 ^ 11) h b1
    (by rw [abs_of_pos (by norm_num)]; norm_num) (by norm_num) (by norm_num) (by norm_num)
  obtain ⟨h3, b3⟩ := hf.horner h2 l_c3 (Br := 41422 / 100000) (B := 197330 / 10 ^ 6) (E := 2374 / 10 ^ 11) h b2
    (by rw [abs_neg, abs_of_pos (by norm_num)]; norm_num) (by norm_num) (by norm_num) (by norm_num)
  obtain ⟨h4, b4⟩ := hf.horner h3 l_c4 (Br := 41422 / 100000) (B := 224232 / 10 ^ 6) (E := 2808 / 10 ^ 11) h b3
    (by rw [abs_of_pos (by norm_num)]; norm_num) (by norm_num) (by norm_num) (by norm_num)
  obtain ⟨h5, b5⟩ := hf.horner h4 l_c5 (Br := 41422 / 100000) (B := 259563 / 10 ^ 6) (E := 3266 / 10 ^ 11) h b4
    (by rw [abs_neg, abs_of_pos (by norm_num)]; norm_num) (by norm_num) (by norm_num) (by norm_num)
  obtain ⟨h6, b6⟩ := hf.horner h5 l_c6 (Br := 41422 / 100000) (B := 307524 / 10 ^ 6) (E := 3828 / 10 ^ 11) h b5
    (by rw [abs_of_pos (by norm_num)]; norm_num) (by norm_num) (by norm_num) (by norm_num)
  obtain ⟨h7, b7⟩ := hf.horner h6 l_c7 (Br := 41422 / 100000) (B := 377384 / 10 ^ 6) (E := 4596 / 10 ^ 11) h b6
    (by rw [abs_neg, abs_of_pos (by norm_num)]; norm_num) (by norm_num) (by norm_num) (by norm_num)
  exact hf.horner h7 l_c8 (Br := 41422 / 100000) h b7
    (by rw [abs_of_pos (by norm_num)]; norm_num) (by norm_num) (by norm_num) (by norm_num)

/-- The terms of second and third order. -/
theorem terms_approx {fw : W} {f F : ℝ} (hf : Approx fw f 0) (h : |f| ≤ F) (hF : 1 / 2 ^ 30 ≤ F) (hF' : F ≤ 41422 / 100000) :
    Approx (ieee.mul (ieee.mul fw fw) (ieee.mul fw (logPoly ieee fw))) (f * f * (f * LogPoly.P f)) (F ^ 3 * (1454 / 10 ^ 10)) ∧
    |f * f * (f * LogPoly.P f)| ≤ F ^ 3 * (4897 / 10000) ∧
    Approx (ieee.mul (ieee.mul fw fw) 0xbf000000) (f * f * -(1 / 2)) (F ^ 2 * (597 / 10 ^ 10)) ∧
    |f * f * -(1 / 2)| ≤ F ^ 2 / 2 := by
  obtain ⟨hp, bp⟩ := logPoly_approx hf (h.trans hF')
  have hF0 : 0 ≤ F := (abs_nonneg _).trans h
  have hF2 : 1 / 2 ^ 60 ≤ F ^ 2 := by
    have := pow_le_pow_left₀ (by positivity) hF 2
    exact le_trans (by norm_num) this
  have hF3 : 1 / 2 ^ 90 ≤ F ^ 3 := by
    have := pow_le_pow_left₀ (by positivity) hF 3
    exact le_trans (by norm_num) this
  have hF2' : F ^ 2 ≤ 2 := (pow_le_one₀ hF0 (by linarith)).trans (by norm_num)
  have hF3' : F ^ 3 ≤ 2 := (pow_le_one₀ hF0 (by linarith)).trans (by norm_num)
  have bff : |f * f| ≤ F ^ 2 := by
    rw [abs_mul, sq]; exact mul_le_mul h h (abs_nonneg _) hF0
  have bfp : |f * LogPoly.P f| ≤ F * (489654 / 10 ^ 6) := by
    rw [abs_mul]; exact mul_le_mul h bp (abs_nonneg _) hF0
  have hz : Approx (ieee.mul fw fw) (f * f) (F ^ 2 * (597 / 10 ^ 10)) := by
    refine hf.mul hf h h ?_ ?_
    · have : F * 0 + F * 0 + 0 * 0 + (F + 0) * (F + 0) / 2 ^ 24 + 1 / 2 ^ 150 = F ^ 2 / 2 ^ 24 + 1 / 2 ^ 150 := by ring
      rw [this]; norm_num at *; linarith
    · have : (F + 0) * (F + 0) = F ^ 2 := by ring
      rw [this]; norm_num at *; linarith
  have hy1 : Approx (ieee.mul fw (logPoly ieee fw)) (f * LogPoly.P f) (F * (869 / 10 ^ 10)) := by
    refine hf.mul hp h bp ?_ ?_
    · norm_num at *; linarith
    · norm_num at *; linarith
  have hy2 := hz.mul hy1 bff bfp (E := F ^ 3 * (1454 / 10 ^ 10)) (by
    have : F ^ 2 * (F * (869 / 10 ^ 10)) + F * (489654 / 10 ^ 6) * (F ^ 2 * (597 / 10 ^ 10)) +
        F ^ 2 * (597 / 10 ^ 10) * (F * (869 / 10 ^ 10)) +
        (F ^ 2 + F ^ 2 * (597 / 10 ^ 10)) * (F * (489654 / 10 ^ 6) + F * (869 / 10 ^ 10)) / 2 ^ 24 + 1 / 2 ^ 150 =
        F ^ 3 * (869 / 10 ^ 10 + 489654 / 10 ^ 6 * (597 / 10 ^ 10) + 597 / 10 ^ 10 * (869 / 10 ^ 10) +
          (1 + 597 / 10 ^ 10) * (489654 / 10 ^ 6 + 869 / 10 ^ 10) / 2 ^ 24) + 1 / 2 ^ 150 := by ring
    rw [this]; norm_num at *; linarith) (by
    have : (F ^ 2 + F ^ 2 * (597 / 10 ^ 10)) * (F * (489654 / 10 ^ 6) + F * (869 / 10 ^ 10)) =
        F ^ 3 * ((1 + 597 / 10 ^ 10) * (489654 / 10 ^ 6 + 869 / 10 ^ 10)) := by ring
    rw [this]; norm_num at *; linarith)
  refine ⟨hy2, ?_, ?_, ?_⟩
  · rw [abs_mul]
    refine (mul_le_mul bff bfp (abs_nonneg _) (by positivity)).trans ?_
    have : F ^ 2 * (F * (489654 / 10 ^ 6)) = F ^ 3 * (489654 / 10 ^ 6) := by ring
    rw [this]; norm_num at *; linarith
  · refine hz.mul l_mh bff (By := 1 / 2) (by rw [abs_neg, abs_of_pos (by norm_num)]) ?_ ?_
    · norm_num at *; linarith
    · norm_num at *; linarith
  · rw [abs_mul]
    have : |(-(1 / 2) : ℝ)| = 1 / 2 := by norm_num
    rw [this]; linarith

theorem log_sqrt_two {y : ℝ} (h1 : 0 < y) (h2 : y ≤ 141422 / 100000) : Real.log y ≤ 3466 / 10000 := by
  have h3 : Real.log (y * y / 2) ≤ y * y / 2 - 1 := Real.log_le_sub_one_of_pos (by positivity)
  rw [Real.log_div (by positivity) (by norm_num), Real.log_mul h1.ne' h1.ne'] at h3
  have h4 : y * y ≤ 141422 / 100000 * (141422 / 100000) := mul_le_mul h2 h2 h1.le (by norm_num)
  have := Real.log_two_lt_d9
  norm_num at *; linarith

theorem log_frac {f : ℝ} (h1 : -(292894 / 1000000) ≤ f) (h2 : f ≤ 414214 / 1000000) :
    |Real.log (1 + f)| ≤ 3466 / 10000 ∧ 7 / 10 * |f| ≤ |Real.log (1 + f)| := by
  have hp : 0 < 1 + f := by linarith
  constructor
  · rw [abs_le]
    constructor
    · have : -Real.log (1 + f) ≤ 3466 / 10000 := by
        rw [← Real.log_inv]
        apply log_sqrt_two (inv_pos.mpr hp)
        rw [inv_le_comm₀ hp (by norm_num)]
        norm_num; linarith
      linarith
    · exact log_sqrt_two hp (by linarith)
  · rcases le_total 0 f with h | h
    · have := Real.one_sub_inv_le_log_of_pos hp
      have h3 : 7 / 10 * f ≤ 1 - (1 + f)⁻¹ := by
        have e : 1 - (1 + f)⁻¹ = f / (1 + f) := by field_simp; ring
        rw [e, le_div_iff₀ hp]
        nlinarith
      rw [abs_of_nonneg h, abs_of_nonneg (by nlinarith)]
      linarith
    · have := Real.log_le_sub_one_of_pos hp
      rw [abs_of_nonpos h, abs_of_nonpos (by linarith)]
      linarith

theorem exact_val {w : W} (_h : Finite w) : Exact (val w) := by
  have hm : (unpack w).2.1 < 2 ^ 24 ∧ -149 ≤ (unpack w).2.2 := by
    unfold unpack
    simp only
    split <;> constructor <;> omega
  refine ⟨(if (unpack w).1 then -((unpack w).2.1 : Int) else (unpack w).2.1), (unpack w).2.2, ?_, ?_, hm.2⟩
  · unfold val
    split <;> push_cast <;> ring
  · split <;> omega

/-- Adding a zero. -/
theorem Approx.add_zero {x y : W} {X E : ℝ} (hx : Approx x X E) (hy : Approx y 0 0) (hb : |val x| ≤ maxFin) :
    Approx (ieee.add x y) X E ∧ Approx (ieee.add y x) X E := by
  have e : val x + val y = val x := by rw [Approx.val_eq hy]; ring
  obtain ⟨hn, hv⟩ := add_near hx.1 hy.1 (by rw [e]; exact hb)
  have hv : val (ieee.add x y) = val x := (hv (by rw [e]; exact exact_val hx.1)).trans e
  have h1 : Approx (ieee.add x y) X E := ⟨hn.1, by rw [hv]; exact hx.2⟩
  exact ⟨h1, by rw [add_comm' y x]; exact h1⟩

theorem Approx.val_le {x : W} {X E B : ℝ} (hx : Approx x X E) (hB : |X| ≤ B) (h : B + E ≤ 2 ^ 100) : |val x| ≤ maxFin := by
  have : val x = X + (val x - X) := by ring
  rw [this]
  exact ((abs_add_le _ _).trans (add_le_add hB hx.2)).trans (lt127 h)

/-- Times an exponent: the exact product. -/
theorem expo_mul {ew : W} {E : Int} (he : Approx ew E 0) (hE : |E| ≤ 128) :
    Approx (ieee.mul ew 0x3f318000) (E * (355 / 512)) 0 := by
  have e : val ew * val 0x3f318000 = E * (355 / 512) := by rw [Approx.val_eq he, Approx.val_eq l_q2]
  have hb := abs_le.mp hE
  have hE' : |(E : ℝ)| ≤ 128 := by exact_mod_cast hE
  obtain ⟨h1, h2⟩ := mul_near he.1 l_q2.1 (by
    rw [e, abs_mul]
    refine le_trans (mul_le_mul hE' (le_refl _) (abs_nonneg _) (by norm_num)) ?_
    unfold maxFin; norm_num)
  exact Approx.const h1.1 ((h2 ⟨E * 355, -9, by rw [e]; push_cast; norm_num; ring, by norm_num; omega, by norm_num⟩).trans e)

/-- Away from one. -/
theorem logCore_far {fw ew : W} {f : ℝ} {E : Int} (hf : Approx fw f 0) (he : Approx ew E 0)
    (h1 : -(292894 / 1000000) ≤ f) (h2 : f ≤ 414214 / 1000000) (hE : |E| ≤ 128) (hE0 : E ≠ 0) :
    F32.Finite (logCore ieee fw ew) ∧ |val (logCore ieee fw ew) - (E * Real.log 2 + Real.log (1 + f))| ≤
      |E * Real.log 2 + Real.log (1 + f)| / 2 ^ 21 := by
  have hF : |f| ≤ 41422 / 100000 := abs_le.mpr ⟨by linarith, by linarith⟩
  have hE' : |(E : ℝ)| ≤ 128 := by exact_mod_cast hE
  obtain ⟨hy, by', hz, bz⟩ := terms_approx hf hF (by norm_num) le_rfl
  have hq := LogPoly.Q_log (t := f) (by linarith) (by linarith)
  have hf3 : |f| ^ 3 ≤ (41422 / 100000) ^ 3 := pow_le_pow_left₀ (abs_nonneg _) hF 3
  obtain ⟨lb, -⟩ := log_frac h1 h2
  obtain ⟨d1, d2⟩ := abs_le.mp log2_near
  have he1 := he.mul l_q1 (Bx := 128) (By := 14581891 / 68719476736) (E := 162 / 10 ^ 11) hE'
    (by rw [abs_neg, abs_of_pos (by norm_num)]) (by norm_num) (by norm_num)
  have be1 : |(E : ℝ) * -(14581891 / 68719476736)| ≤ 2717 / 100000 := by
    rw [abs_mul, abs_neg, abs_of_pos (show (0 : ℝ) < 14581891 / 68719476736 by norm_num)]
    refine (mul_le_mul_of_nonneg_right hE' (by norm_num)).trans (by norm_num)
  have hs1 := hy.add he1 (B := 6198 / 100000) (E := 157 / 10 ^ 10)
    ((abs_add_le _ _).trans ((add_le_add by' be1).trans (by norm_num))) (by norm_num) (by norm_num)
  have hs2 := hs1.add hz (B := 1478 / 10000) (E := 348 / 10 ^ 10)
    ((abs_add_le _ _).trans ((add_le_add ((abs_add_le _ _).trans (add_le_add by' be1)) bz).trans (by norm_num)))
    (by norm_num) (by norm_num)
  have eS : f + (f * f * (f * LogPoly.P f) + E * -(14581891 / 68719476736) + f * f * -(1 / 2)) =
      (LogPoly.Q f - Real.log (1 + f)) + Real.log (1 + f) + E * -(14581891 / 68719476736) := by
    unfold LogPoly.Q; ring
  have hs3 := hf.add hs2 (B := 375 / 1000) (E := 572 / 10 ^ 10) (by
    rw [eS]
    refine (abs_add_le _ _).trans ((add_le_add ((abs_add_le _ _).trans (add_le_add hq lb)) be1).trans ?_)
    norm_num at *; linarith) (by norm_num) (by norm_num)
  rw [eS] at hs3
  have hm := expo_mul he hE
  obtain ⟨L, hL⟩ : ∃ L, L = E * Real.log 2 + Real.log (1 + f) := ⟨_, rfl⟩
  have hlow : 3465 / 10000 ≤ |L| := by
    have a : |(E : ℝ) * Real.log 2| ≤ |L| + |Real.log (1 + f)| := by
      have : (E : ℝ) * Real.log 2 = L + -Real.log (1 + f) := by rw [hL]; ring
      rw [this]
      refine (abs_add_le _ _).trans ?_
      rw [abs_neg]
    have b : Real.log 2 ≤ |(E : ℝ) * Real.log 2| := by
      rw [abs_mul, abs_of_pos (Real.log_pos (by norm_num))]
      have : (1 : ℝ) ≤ |(E : ℝ)| := by exact_mod_cast Int.one_le_abs hE0
      have hp := Real.log_pos (show (1 : ℝ) < 2 by norm_num)
      nlinarith
    norm_num at *; linarith
  -- the sum of the two parts
  have eV : E * (355 / 512) + ((LogPoly.Q f - Real.log (1 + f)) + Real.log (1 + f) + E * -(14581891 / 68719476736)) - L =
      (LogPoly.Q f - Real.log (1 + f)) + E * (355 / 512 - 14581891 / 68719476736 - Real.log 2) := by rw [hL]; ring
  have hV : |E * (355 / 512) + ((LogPoly.Q f - Real.log (1 + f)) + Real.log (1 + f) + E * -(14581891 / 68719476736)) - L| ≤
      614 / 10 ^ 10 := by
    rw [eV]
    refine (abs_add_le _ _).trans ?_
    have c : |(E : ℝ) * (355 / 512 - 14581891 / 68719476736 - Real.log 2)| ≤ 128 * (101 / 10 ^ 12) := by
      rw [abs_mul]
      refine mul_le_mul hE' ?_ (abs_nonneg _) (by norm_num)
      rw [abs_le]; constructor <;> norm_num at * <;> linarith
    have := hq.trans (mul_le_mul_of_nonneg_left hf3 (by norm_num))
    norm_num at *; linarith
  generalize (LogPoly.Q f - Real.log (1 + f)) + Real.log (1 + f) + E * -(14581891 / 68719476736) = S at *
  have hVB : |E * (355 / 512) + S| ≤ |L| + 614 / 10 ^ 10 := by
    have : E * (355 / 512) + S = L + (E * (355 / 512) + S - L) := by ring
    rw [this]
    exact (abs_add_le _ _).trans (add_le_add le_rfl hV)
  have hup : |L| ≤ 100 := by
    rw [hL]
    refine (abs_add_le _ _).trans ?_
    rw [abs_mul, abs_of_pos (Real.log_pos (by norm_num))]
    have : |(E : ℝ)| * Real.log 2 ≤ 128 * (7 / 10) := mul_le_mul hE' (by
      have := Real.log_two_lt_d9; linarith) (Real.log_pos (by norm_num)).le (by norm_num)
    linarith
  have hr := hm.add hs3 (E := 572 / 10 ^ 10 + (|L| + 1200 / 10 ^ 10) / 2 ^ 24 + 1 / 2 ^ 150) hVB
    (by norm_num at *; linarith) (by norm_num at *; linarith)
  refine ⟨hr.1, ?_⟩
  rw [← hL]
  have hr2 := hr.2
  show |val (ieee.add (ieee.mul ew 0x3f318000) (ieee.add fw (corr ieee fw ew))) - L| ≤ |L| / 2 ^ 21
  have e : val (ieee.add (ieee.mul ew 0x3f318000) (ieee.add fw (corr ieee fw ew))) - L =
      (val (ieee.add (ieee.mul ew 0x3f318000) (ieee.add fw (corr ieee fw ew))) - (E * (355 / 512) + S)) +
      ((E * (355 / 512) + S) - L) := by ring
  rw [e]
  refine (abs_add_le _ _).trans ((add_le_add hr2 hV).trans ?_)
  clear hr2 hr e hV hVB
  norm_num at *; linarith

/-- Near one. -/
theorem logCore_near {fw ew : W} {f : ℝ} (hf : Approx fw f 0) (he : Approx ew 0 0)
    (h1 : -(292894 / 1000000) ≤ f) (h2 : f ≤ 414214 / 1000000) (h0 : 1 / 2 ^ 24 ≤ |f|) :
    F32.Finite (logCore ieee fw ew) ∧ |val (logCore ieee fw ew) - Real.log (1 + f)| ≤ |Real.log (1 + f)| / 2 ^ 21 := by
  obtain ⟨F, hF⟩ : ∃ F, F = |f| := ⟨_, rfl⟩
  have hF' : F ≤ 41422 / 100000 := by rw [hF]; exact abs_le.mpr ⟨by linarith, by linarith⟩
  rw [← hF] at h0
  obtain ⟨hy, by', hz, bz⟩ := terms_approx hf hF.symm.le (le_trans (by norm_num) h0) hF'
  have hq := LogPoly.Q_log (t := f) (by linarith) (by linarith)
  obtain ⟨lb, ll⟩ := log_frac h1 h2
  rw [← hF] at hq ll
  have hF0 : 0 < F := lt_of_lt_of_le (by norm_num) h0
  have hF2 : 0 < F ^ 2 := by positivity
  have hF2l : 1 / 2 ^ 48 ≤ F ^ 2 := le_trans (by norm_num) (pow_le_pow_left₀ (by norm_num) h0 2)
  have hF32 : F ^ 3 ≤ 41422 / 100000 * F ^ 2 := by
    have : F ^ 3 = F * F ^ 2 := by ring
    rw [this]; exact mul_le_mul_of_nonneg_right hF' hF2.le
  have hF21 : F ^ 2 ≤ 41422 / 100000 * F := by
    rw [sq]; exact mul_le_mul_of_nonneg_right hF' hF0.le
  -- the terms with the exponent are zero
  have z1 : Approx (ieee.mul ew 0xb95e8083) 0 0 := by
    have e : val ew * val 0xb95e8083 = 0 := by rw [Approx.val_eq he, zero_mul]
    obtain ⟨a, b⟩ := mul_near he.1 l_q1.1 (by rw [e, abs_zero]; unfold maxFin; norm_num)
    exact Approx.const a.1 ((b ⟨0, 0, by rw [e]; simp, by norm_num, by norm_num⟩).trans e)
  have z2 : Approx (ieee.mul ew 0x3f318000) 0 0 := by
    have := expo_mul (E := 0) (by simpa using he) (by norm_num)
    simpa using this
  have hs1 := (Approx.add_zero hy z1 (Approx.val_le hy by' (by norm_num at *; linarith))).1
  have hs2 := hs1.add hz (B := F ^ 3 * (4897 / 10000) + F ^ 2 / 2) (E := F ^ 2 * (162 / 10 ^ 9))
    ((abs_add_le _ _).trans (add_le_add by' bz)) (by norm_num at *; linarith) (by norm_num at *; linarith)
  have eS : f + (f * f * (f * LogPoly.P f) + f * f * -(1 / 2)) = LogPoly.Q f := by unfold LogPoly.Q; ring
  have hV : |LogPoly.Q f| ≤ |Real.log (1 + f)| + 68 / 100000000 * F ^ 3 := by
    have : LogPoly.Q f = Real.log (1 + f) + (LogPoly.Q f - Real.log (1 + f)) := by ring
    rw [this]
    exact (abs_add_le _ _).trans (add_le_add le_rfl hq)
  have hs3 := hf.add hs2 (B := |Real.log (1 + f)| + 68 / 100000000 * F ^ 3)
    (E := F ^ 2 * (163 / 10 ^ 9) + |Real.log (1 + f)| / 2 ^ 24) (by rw [eS]; exact hV)
    (by norm_num at *; linarith) (by norm_num at *; linarith)
  rw [eS] at hs3
  have hr := (Approx.add_zero hs3 z2 (Approx.val_le hs3 hV (by norm_num at *; linarith))).2
  have hr' : Approx (logCore ieee fw ew) (LogPoly.Q f) (F ^ 2 * (163 / 10 ^ 9) + |Real.log (1 + f)| / 2 ^ 24) := hr
  refine ⟨hr'.1, ?_⟩
  have e : val (logCore ieee fw ew) - Real.log (1 + f) =
      (val (logCore ieee fw ew) - LogPoly.Q f) + (LogPoly.Q f - Real.log (1 + f)) := by ring
  rw [e]
  refine (abs_add_le _ _).trans ((add_le_add hr'.2 hq).trans ?_)
  clear hr' hr hs3 hs2 hs1 hy hz e hV eS
  norm_num at *; linarith

/-! ### The theorem -/

theorem log_one (j : Lane) : lane ieee logAVX j 0x3f800000 = 0 := by
  rw [lane_junk ieee j ⟨0, 0, 0, 0, 0, 0, 0⟩ _ logAVX (by simp)]
  decide +kernel

/-- **The vector logarithm is accurate to 21 bits**: for every positive normal number both routines give the natural
logarithm up to the relative error `2^-21`, whatever the registers hold. -/
theorem log_accurate (j : Lane) {x : W} (h : Normal x) :
    |val (lane ieee logAVX j x) - Real.log (val x)| ≤ |Real.log (val x)| / 2 ^ 21 ∧
    |val (lane ieee logSSE j x) - Real.log (val x)| ≤ |Real.log (val x)| / 2 ^ 21 := by
  rw [← log_avx_eq_sse ieee add_comm' mul_comm' j j x]
  suffices hs : |val (lane ieee logAVX j x) - Real.log (val x)| ≤ |Real.log (val x)| / 2 ^ 21 from ⟨hs, hs⟩
  obtain ⟨f, E, hf, he, hx, h1, h2, hE, hne⟩ := split_spec h
  have hp : 0 < 1 + f := by linarith
  have hlog : Real.log (val x) = E * Real.log 2 + Real.log (1 + f) := by
    rw [hx, Real.log_mul hp.ne' (by positivity), Real.log_zpow]; ring
  by_cases hone : E = 0 ∧ f = 0
  · obtain ⟨rfl, rfl⟩ := hone
    have hv : val x = 1 := by rw [hx]; simp
    have hx1 : x = 0x3f800000 := val_inj (hv.trans fin_one.2.symm) (by rw [hv]; norm_num)
    rw [hv, Real.log_one, hx1, log_one, val_zero]
    simp
  · have hl := log_lane_eq ieee j x
    simp only at hl
    rw [h.max, h.pos] at hl
    have hz : ∀ w : W, mask false ||| w = w := fun w => BitVec.zero_or
    rw [hz] at hl
    rw [hl, hlog]
    by_cases hE0 : E = 0
    · subst hE0
      have hf0 : f ≠ 0 := fun hc => hone ⟨rfl, hc⟩
      have := (logCore_near hf (by simpa using he) h1 h2 (hne hf0)).2
      simpa using this
    · exact (logCore_far hf he h1 h2 hE hE0).2

/-- **Below the smallest normal number it is wrong**: every positive denormal gives the logarithm of `2^-126`, as bits
`0xc2aeac50`, −87.33655. -/
theorem log_denormal (j : Lane) {x : W} (h1 : 0 < x.toNat) (h2 : x.toNat < 0x00800000) :
    lane ieee logAVX j x = 0xc2aeac50 ∧ lane ieee logSSE j x = 0xc2aeac50 := by
  rw [← log_avx_eq_sse ieee add_comm' mul_comm' j j x]
  suffices hs : lane ieee logAVX j x = 0xc2aeac50 from ⟨hs, hs⟩
  have hf : Finite x := by unfold F32.Finite; omega
  have hm : maxps x 0x00800000 = 0x00800000 := by
    apply maxps_of_ge hf (by unfold F32.Finite; decide)
    have := (key_lt 0x00800000 x).not.mp (by
      have e : key 0x00800000 = 0x00800000 := by decide +kernel
      rw [e]; unfold key; rw [if_pos (by omega)]; omega)
    exact not_lt.mp this
  have hp : le x 0 = false := by
    rw [← Bool.not_eq_true, le_iff hf zero_finite.1, val_zero, not_le, val_eq, if_neg (by omega), one_mul]
    exact magVal_pos (by omega)
  have hl := log_lane_eq ieee j x
  simp only at hl
  rw [hm, hp] at hl
  rw [hl]
  decide +kernel

/-- A denormal is wrong by up to 16: the smallest has the logarithm −103.28. -/
example : Real.log (val 0x00000001) < -103 := by
  have : val 0x00000001 = (2 : ℝ) ^ (-149 : Int) := by simp [val, unpack]
  rw [this, Real.log_zpow]
  have := Real.log_two_gt_d9
  push_cast; linarith

/-! ### The functions on vectors -/

/-- `w` is `r` up to the relative error `2^-21`. -/
def Good (w : W) (r : ℝ) : Prop := |val w - r| ≤ |r| / 2 ^ 21

/-- The numbers the exponential is accurate for. -/
def ExpRange (x : W) : Prop := Finite x ∧ -(8768 / 100) ≤ val x ∧ val x ≤ 11583653 / 131072

/-- **`Exp32` is accurate**: on numbers between −87.68 and 88.376, for every length, on both instruction sets, in place
or not, every element stored is the exponential of the old one up to the relative error `2^-21`, provided `math.Exp`,
rounded to 32 bits, is that accurate.  Missing: numbers above 88.376, where the vector routine saturates
(`exp_saturates`), and below −87.68, where it flushes to zero (`exp_accurate_below`). -/
theorem exp32_accurate_partial (j : Lane) (wf : Nat × (W → W)) (hwf : wf ∈ expKernels ieee j) (scalar : W → W)
    (hsc : ∀ z, ExpRange z → Good (scalar z) (Real.exp (val z))) (x y : Sl) (m : Mem)
    (hy : x.len ≤ y.len) (hs : Safe x.len x.base y.base) (hx : ∀ i < x.len, ExpRange (m (x.base + i))) :
    ∃ m', exp32 wf.1 wf.2 scalar x y m = some m' ∧
      (∀ i < x.len, Good (m' (y.base + i)) (Real.exp (val (m (x.base + i))))) ∧
      (∀ p, (∀ i < x.len, p ≠ y.base + i) → m' p = m p) := by
  have hk : ∀ z, ExpRange z → Good (wf.2 z) (Real.exp (val z)) := by
    intro z hz
    have := exp_accurate j hz.1 hz.2.1 hz.2.2
    unfold Good
    rw [abs_of_pos (Real.exp_pos _)]
    simp only [expKernels, List.mem_cons, List.not_mem_nil, or_false] at hwf
    rcases hwf with rfl | rfl
    · exact this.1
    · exact this.2
  obtain ⟨m', e, h1, h2⟩ := exp32_spec wf.1 wf.2 scalar x y m hy hs
  refine ⟨m', e, fun i hi => ?_, h2⟩
  rw [h1 i hi]
  split
  · exact hk _ (hx i hi)
  · exact hsc _ (hx i hi)

/-- **`Log32` is accurate**: on positive normal numbers, for every length and on both instruction sets, every element
stored is the natural logarithm of the old one up to the relative error `2^-21`, provided `math.Log` is.  Missing:
denormals (`log_denormal`), zeros (`log32_zero_iff`) and infinities. -/
theorem log32_accurate_partial (j : Lane) (wf : Nat × (W → W)) (hwf : wf ∈ logKernels ieee j) (scalar : W → W)
    (hsc : ∀ z, Normal z → Good (scalar z) (Real.log (val z))) (x y : Sl) (m : Mem)
    (hy : x.len ≤ y.len) (hd : ∀ i j, i < x.len → j < x.len → x.base + i ≠ y.base + j)
    (hx : ∀ i < x.len, Normal (m (x.base + i))) :
    ∃ m', log32 wf.1 wf.2 scalar x y m = some m' ∧
      (∀ i < x.len, Good (m' (y.base + i)) (Real.log (val (m (x.base + i))))) ∧
      (∀ p, (∀ i < x.len, p ≠ y.base + i) → m' p = m p) := by
  have hk : 0 < wf.1 ∧ ∀ z, Normal z → Good (wf.2 z) (Real.log (val z)) := by
    simp only [logKernels, List.mem_cons, List.not_mem_nil, or_false] at hwf
    rcases hwf with rfl | rfl
    · exact ⟨by norm_num, fun z hz => (log_accurate j hz).1⟩
    · exact ⟨by norm_num, fun z hz => (log_accurate j hz).2⟩
  obtain ⟨m', e, h1, h2⟩ := log32_spec wf.1 wf.2 scalar x y m hy hd hk.1
  refine ⟨m', e, fun i hi => ?_, h2⟩
  obtain ⟨-, a2, a3⟩ := h1 i hi
  have hz : isZero (m (x.base + i)) = false := by
    have := hx i hi
    unfold Normal at this
    rw [Bool.eq_false_iff]
    intro hc
    unfold isZero at hc
    simp only [Bool.or_eq_true, beq_iff_eq] at hc
    rcases hc with hc | hc
    · rw [hc] at this; exact absurd this (by decide)
    · rw [hc] at this; exact absurd this (by decide)
  by_cases hlt : i < x.len / wf.1 * wf.1
  · rw [a2 hlt (.inr hz)]; exact hk.2 _ (hx i hi)
  · rw [a3 (by omega)]; exact hsc _ (hx i hi)

/-- Ten elements equal to one meet the conditions of both. -/
example : (∀ i < 10, ExpRange ((fun _ => 0x3f800000 : Mem) i)) ∧ ∀ i < 10, Normal ((fun _ => 0x3f800000 : Mem) i) := by
  refine ⟨fun i _ => ⟨fin_one.1, ?_, ?_⟩, fun i _ => ?_⟩
  · show _ ≤ val 0x3f800000
    rw [fin_one.2]; norm_num
  · show val 0x3f800000 ≤ _
    rw [fin_one.2]; norm_num
  · show Normal 0x3f800000
    unfold Normal; decide

end Verif.ExpLog
