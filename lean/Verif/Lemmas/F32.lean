import Verif.Model.F32
import Mathlib.Analysis.SpecialFunctions.Log.Basic
import Mathlib.Tactic.Linarith
import Mathlib.Tactic.Ring
import Mathlib.Tactic.Positivity
import Mathlib.Tactic.NormNum

set_option autoImplicit false
set_option linter.unusedSimpArgs false

/-!
# The rounding errors of `ieee`

Every finite word is a real number; sum and product are the exact ones up to half a unit in the last place.
-/

namespace Verif.F32

/-- Neither NaN nor infinite. -/
def Finite (x : W) : Prop := x.toNat % 0x80000000 < 0x7f800000

/-- The number a finite word stands for. -/
noncomputable def val (x : W) : ℝ :=
  (if (unpack x).1 then -1 else 1) * ((unpack x).2.1 : ℝ) * (2 : ℝ) ^ (unpack x).2.2

theorem Finite.not_nan {x : W} (h : Finite x) : isNaN x = false := by
  unfold Finite at h; simp [isNaN]; omega

theorem Finite.not_inf {x : W} (h : Finite x) : isInf x = false := by
  unfold Finite at h; simp [isInf]; omega

/-- A word made of sign and magnitude bits. -/
theorem val_bits {neg : Bool} {q : Int} {m' : Nat} (hq : 0 ≤ q + 149) (hm : m' ≤ 0x1000000)
    (hn : 0x800000 ≤ m' ∨ q = -149) (hb : (q + 149).toNat * 0x800000 + m' < 0x7f800000) :
    let w := BitVec.ofNat 32 ((if neg then 0x80000000 else 0) + min ((q + 149).toNat * 0x800000 + m') 0x7f800000)
    Finite w ∧ val w = (if neg then -1 else 1) * (m' : ℝ) * (2 : ℝ) ^ q := by
  intro w
  obtain ⟨p, hp⟩ := Int.eq_ofNat_of_zero_le hq
  have hq' : q = (p : Int) - 149 := by omega
  subst hq'
  have hp' : ((p : Int) - 149 + 149).toNat = p := by omega
  have hw : w.toNat = (if neg then 0x80000000 else 0) + (p * 0x800000 + m') := by
    show (BitVec.ofNat 32 _).toNat = _
    rw [BitVec.toNat_ofNat, Nat.min_eq_left hb.le, hp']
    rw [hp'] at hb
    apply Nat.mod_eq_of_lt
    cases neg <;> simp <;> omega
  rw [hp'] at hb
  have hmag : w.toNat % 0x80000000 = p * 0x800000 + m' := by
    rw [hw]; cases neg <;> simp <;> omega
  have hsg : decide (0x80000000 ≤ w.toNat) = neg := by
    rw [hw]; cases neg <;> simp <;> omega
  refine ⟨by unfold Finite; omega, ?_⟩
  unfold val unpack
  simp only [hmag, hsg]
  rw [mul_assoc, mul_assoc]
  congr 1
  rcases Nat.lt_or_ge m' 0x800000 with h1 | h1
  · have hp0 : p = 0 := by rcases hn with h | h <;> omega
    subst hp0
    have e1 : (0 * 0x800000 + m') / 0x800000 = 0 := by omega
    have e2 : (0 * 0x800000 + m') % 0x800000 = m' := by omega
    rw [e1, e2]; simp
  · rcases Nat.lt_or_ge m' 0x1000000 with h2 | h2
    · have e1 : (p * 0x800000 + m') / 0x800000 = p + 1 := by omega
      have e2 : (p * 0x800000 + m') % 0x800000 = m' - 0x800000 := by omega
      rw [e1, e2, if_neg (by omega), if_neg (by omega), Nat.sub_add_cancel h1]
      congr 2; push_cast; ring
    · have : m' = 0x1000000 := by omega
      subst this
      have e1 : (p * 0x800000 + 0x1000000) / 0x800000 = p + 2 := by omega
      have e2 : (p * 0x800000 + 0x1000000) % 0x800000 = 0 := by omega
      rw [e1, e2, if_neg (by omega), if_neg (by omega)]
      have : (((p + 2 : Nat) : Int) - 150) = ((p : Int) - 149) + 1 := by push_cast; ring
      rw [this, zpow_add₀ (by norm_num)]
      push_cast; ring

/-- The integer nearest to `m / 2 ^ sh`. -/
def nearest (m : Nat) (sh : Int) : Nat :=
  if sh ≤ 0 then m * 2 ^ (-sh).toNat
  else
    let d := 2 ^ sh.toNat
    let lo := m / d
    let r := m % d
    if 2 * r < d then lo else if 2 * r = d then lo + lo % 2 else lo + 1

theorem nearest_err (m : Nat) (sh : Int) : |(nearest m sh : ℝ) * (2 : ℝ) ^ sh - m| ≤ (2 : ℝ) ^ sh / 2 := by
  unfold nearest
  split
  · rename_i h
    obtain ⟨k, hk⟩ := Int.eq_ofNat_of_zero_le (show 0 ≤ -sh by omega)
    have : sh = -(k : Int) := by omega
    subst this
    have e : (-(-(k : Int))).toNat = k := by omega
    rw [e, zpow_neg, zpow_natCast]
    push_cast
    rw [mul_assoc, mul_inv_cancel₀ (by positivity)]
    simp only [mul_one, sub_self, abs_zero]
    positivity
  · rename_i h
    obtain ⟨k, hk⟩ := Int.eq_ofNat_of_zero_le (show 0 ≤ sh by omega)
    subst hk
    simp only [Int.ofNat_eq_natCast, Int.toNat_natCast, zpow_natCast]
    have hm : m = 2 ^ k * (m / 2 ^ k) + m % 2 ^ k := (Nat.div_add_mod _ _).symm
    have hlt : m % 2 ^ k < 2 ^ k := Nat.mod_lt _ (by positivity)
    have hm' : (m : ℝ) = 2 ^ k * ((m / 2 ^ k : Nat) : ℝ) + ((m % 2 ^ k : Nat) : ℝ) := by exact_mod_cast hm
    rw [hm']
    generalize m / 2 ^ k = lo at *
    generalize m % 2 ^ k = r at *
    have hr0 : (0 : ℝ) ≤ r := Nat.cast_nonneg r
    have hr1 : (r : ℝ) < 2 ^ k := by exact_mod_cast hlt
    split
    · rename_i h2
      have h2 : 2 * (r : ℝ) < 2 ^ k := by exact_mod_cast h2
      rw [abs_le]; constructor <;> linarith
    · split
      · rename_i h1 h2
        have h2 : 2 * (r : ℝ) = 2 ^ k := by exact_mod_cast h2
        rcases Nat.mod_two_eq_zero_or_one lo with h | h <;> rw [h] <;> push_cast <;> rw [abs_le] <;> constructor <;> linarith
      · rename_i h1 h2
        have h2 : (2 : ℝ) ^ k < 2 * r := by exact_mod_cast (show 2 ^ k < 2 * r by omega)
        push_cast; rw [abs_le]; constructor <;> linarith

theorem nearest_le {m : Nat} {sh : Int} {B : Nat} (h : (m : ℝ) ≤ B * (2 : ℝ) ^ sh) : nearest m sh ≤ B := by
  have := nearest_err m sh
  have hp : (0 : ℝ) < 2 ^ sh := by positivity
  have h1 : (nearest m sh : ℝ) * 2 ^ sh ≤ B * 2 ^ sh + 2 ^ sh / 2 := by linarith [(abs_le.mp this).2]
  have h2 : (nearest m sh : ℝ) ≤ B + 1 / 2 := by
    by_contra hc
    have := mul_lt_mul_of_pos_right (not_le.mp hc) hp
    linarith
  have h3 : (nearest m sh : ℝ) < (B + 1 : Nat) := by push_cast; linarith
  exact Nat.lt_succ_iff.mp (by exact_mod_cast h3)

theorem le_nearest {m : Nat} {sh : Int} {B : Nat} (h : B * (2 : ℝ) ^ sh ≤ m) : B ≤ nearest m sh := by
  have := nearest_err m sh
  have hp : (0 : ℝ) < 2 ^ sh := by positivity
  have h1 : B * (2 : ℝ) ^ sh - 2 ^ sh / 2 ≤ nearest m sh * 2 ^ sh := by linarith [(abs_le.mp this).1]
  have h2 : (B : ℝ) - 1 / 2 ≤ nearest m sh := by
    by_contra hc
    have := mul_lt_mul_of_pos_right (not_le.mp hc) hp
    linarith
  have h3 : (B : ℝ) < (nearest m sh + 1 : Nat) := by push_cast; linarith
  exact Nat.lt_succ_iff.mp (by exact_mod_cast h3)

/-- The exponent of the last place of `m * 2 ^ e`. -/
def place (m : Nat) (e : Int) : Int := max ((Nat.log2 m : Int) + e - 23) (-149)

theorem round_eq {neg : Bool} {m : Nat} {e : Int} (h : m ≠ 0) : round neg m e =
    BitVec.ofNat 32 ((if neg then 0x80000000 else 0) +
      min ((place m e + 149).toNat * 0x800000 + nearest m (place m e - e)) 0x7f800000) := by
  unfold round
  rw [if_neg h]
  rfl

theorem log2_real {m : Nat} (h : m ≠ 0) : (2 : ℝ) ^ (Nat.log2 m : Int) ≤ m ∧ (m : ℝ) < (2 : ℝ) ^ ((Nat.log2 m : Int) + 1) := by
  constructor
  · rw [zpow_natCast]; exact_mod_cast Nat.log2_self_le h
  · have : m < 2 ^ (Nat.log2 m + 1) := Nat.lt_log2_self
    have : (m : ℝ) < 2 ^ (Nat.log2 m + 1) := by exact_mod_cast this
    exact_mod_cast this

/-- The largest finite number. -/
noncomputable def maxFin : ℝ := (2 ^ 24 - 1) * (2 : ℝ) ^ (104 : Int)

/-- **Rounding.** Up to the largest number the result is finite, `k * 2^q` for the integer `k` nearest to the number divided by `2^q`,
where `q` is the place. -/
theorem round_val (neg : Bool) {m : Nat} {e : Int} (h : m ≠ 0) (hlt : (m : ℝ) * (2 : ℝ) ^ e ≤ maxFin) :
    Finite (round neg m e) ∧
    val (round neg m e) = (if neg then -1 else 1) * (nearest m (place m e - e) : ℝ) * (2 : ℝ) ^ place m e := by
  obtain ⟨h1, h2⟩ := log2_real h
  have hpl : (-149 : Int) ≤ place m e := le_max_right _ _
  have hle : (Nat.log2 m : Int) + e < 128 := by
    have : (2 : ℝ) ^ ((Nat.log2 m : Int) + e) < 2 ^ (128 : Int) := by
      rw [zpow_add₀ (by norm_num)]
      exact lt_of_le_of_lt (mul_le_mul_of_nonneg_right h1 (by positivity)) (lt_of_le_of_lt hlt (by unfold maxFin; norm_num))
    exact (zpow_lt_zpow_iff_right₀ (by norm_num)).mp this
  have hq : place m e ≤ 104 := by unfold place; omega
  have htop : place m e = 104 → nearest m (place m e - e) ≤ 0xffffff := by
    intro h104
    apply nearest_le
    have hp : (0 : ℝ) < (2 : ℝ) ^ e := by positivity
    have : (m : ℝ) * (2 : ℝ) ^ e ≤ (((0xffffff : Nat) : ℝ) * (2 : ℝ) ^ (place m e - e)) * (2 : ℝ) ^ e := by
      rw [mul_assoc, ← zpow_add₀ (by norm_num), sub_add_cancel, h104]
      refine hlt.trans (le_of_eq ?_)
      unfold maxFin; norm_num
    exact le_of_mul_le_mul_right this hp
  have hup : nearest m (place m e - e) ≤ 0x1000000 := by
    apply nearest_le
    refine h2.le.trans ?_
    have e24 : ((0x1000000 : Nat) : ℝ) = (2 : ℝ) ^ (24 : Int) := by norm_num
    rw [e24, ← zpow_add₀ (by norm_num)]
    apply zpow_le_zpow_right₀ (by norm_num)
    have : (Nat.log2 m : Int) + e - 23 ≤ place m e := le_max_left _ _
    omega
  rw [round_eq h]
  refine val_bits (by omega) hup ?_ ?_
  · rcases le_total ((Nat.log2 m : Int) + e - 23) (-149) with hc | hc
    · exact .inr (max_eq_right hc)
    · left
      have hpe : place m e = (Nat.log2 m : Int) + e - 23 := max_eq_left hc
      apply le_nearest
      refine le_trans ?_ h1
      have e23 : ((0x800000 : Nat) : ℝ) = (2 : ℝ) ^ (23 : Int) := by norm_num
      rw [e23, ← zpow_add₀ (by norm_num)]
      apply zpow_le_zpow_right₀ (by norm_num)
      omega
  · omega

/-- Half a unit in the last place. -/
theorem round_err (neg : Bool) {m : Nat} {e : Int} (h : m ≠ 0) (hlt : (m : ℝ) * (2 : ℝ) ^ e ≤ maxFin) :
    |val (round neg m e) - (if neg then -1 else 1) * (m * (2 : ℝ) ^ e)| ≤ (2 : ℝ) ^ place m e / 2 := by
  rw [(round_val neg h hlt).2]
  have e1 : (if neg then (-1 : ℝ) else 1) * (nearest m (place m e - e) : ℝ) * (2 : ℝ) ^ place m e -
      (if neg then -1 else 1) * (m * (2 : ℝ) ^ e) =
      (if neg then (-1 : ℝ) else 1) * (((nearest m (place m e - e) : ℝ) * (2 : ℝ) ^ (place m e - e) - m) * (2 : ℝ) ^ e) := by
    have : (2 : ℝ) ^ place m e = (2 : ℝ) ^ (place m e - e) * (2 : ℝ) ^ e := by
      rw [← zpow_add₀ (by norm_num)]; congr 1; ring
    rw [this]; ring
  have e2 : |(if neg then (-1 : ℝ) else 1)| = 1 := by cases neg <;> simp
  have hp : (0 : ℝ) < (2 : ℝ) ^ e := by positivity
  rw [e1, abs_mul, e2, one_mul, abs_mul, abs_of_pos hp]
  calc _ ≤ (2 : ℝ) ^ (place m e - e) / 2 * (2 : ℝ) ^ e := mul_le_mul_of_nonneg_right (nearest_err _ _) hp.le
    _ = (2 : ℝ) ^ (place m e - e) * (2 : ℝ) ^ e / 2 := by ring
    _ = _ := by rw [← zpow_add₀ (by norm_num)]; congr 2; ring

/-- `w` is `R` correctly rounded. -/
def Near (w : W) (R : ℝ) : Prop := Finite w ∧ |val w - R| ≤ max |R| ((2 : ℝ) ^ (-126 : Int)) / 2 ^ 24

/-- `R` is a number of 24 bits. -/
def Exact (R : ℝ) : Prop := ∃ (k : Int) (j : Int), R = k * (2 : ℝ) ^ j ∧ k.natAbs < 2 ^ 24 ∧ -149 ≤ j

theorem sign_abs (neg : Bool) (r : ℝ) (h : 0 ≤ r) : |(if neg then -1 else 1) * r| = r := by
  cases neg <;> simp [abs_of_nonneg h]

theorem round_near (neg : Bool) {m : Nat} {e : Int} (h : m ≠ 0) (hlt : (m : ℝ) * (2 : ℝ) ^ e ≤ maxFin) :
    Near (round neg m e) ((if neg then -1 else 1) * (m * (2 : ℝ) ^ e)) := by
  refine ⟨(round_val neg h hlt).1, (round_err neg h hlt).trans ?_⟩
  rw [sign_abs _ _ (by positivity)]
  obtain ⟨h1, -⟩ := log2_real h
  unfold place
  rcases le_total ((Nat.log2 m : Int) + e - 23) (-149) with hc | hc
  · rw [max_eq_right hc]
    calc (2 : ℝ) ^ (-149 : Int) / 2 = (2 : ℝ) ^ (-126 : Int) / 2 ^ 24 := by norm_num
      _ ≤ _ := by gcongr; exact le_max_right _ _
  · rw [max_eq_left hc]
    have : (2 : ℝ) ^ ((Nat.log2 m : Int) + e - 23) / 2 = (2 : ℝ) ^ (Nat.log2 m : Int) * (2 : ℝ) ^ e / 2 ^ 24 := by
      rw [zpow_sub₀ (by norm_num), zpow_add₀ (by norm_num)]; norm_num; ring
    rw [this]
    gcongr
    exact (mul_le_mul_of_nonneg_right h1 (by positivity)).trans (le_max_left _ _)

theorem round_exact (neg : Bool) {m : Nat} {e : Int} (h : m ≠ 0) (hlt : (m : ℝ) * (2 : ℝ) ^ e ≤ maxFin)
    (hx : Exact ((if neg then -1 else 1) * (m * (2 : ℝ) ^ e))) :
    val (round neg m e) = (if neg then -1 else 1) * (m * (2 : ℝ) ^ e) := by
  obtain ⟨k, j, hk, hkb, hj⟩ := hx
  obtain ⟨h1, -⟩ := log2_real h
  have hab : (m : ℝ) * (2 : ℝ) ^ e = (k.natAbs : ℝ) * (2 : ℝ) ^ j := by
    have := congrArg abs hk
    rw [sign_abs _ _ (by positivity), abs_mul, abs_of_pos (show (0 : ℝ) < 2 ^ j by positivity)] at this
    rw [this, Nat.cast_natAbs, Int.cast_abs]
  have hpl : place m e ≤ j := by
    unfold place
    refine max_le ?_ hj
    have : (2 : ℝ) ^ ((Nat.log2 m : Int) + e) < (2 : ℝ) ^ (24 + j) := by
      rw [zpow_add₀ (by norm_num), zpow_add₀ (by norm_num)]
      calc (2 : ℝ) ^ (Nat.log2 m : Int) * (2 : ℝ) ^ e ≤ m * (2 : ℝ) ^ e := mul_le_mul_of_nonneg_right h1 (by positivity)
        _ = (k.natAbs : ℝ) * (2 : ℝ) ^ j := hab
        _ < (2 : ℝ) ^ (24 : Int) * (2 : ℝ) ^ j := by
          have : (k.natAbs : ℝ) < 2 ^ 24 := by exact_mod_cast hkb
          exact mul_lt_mul_of_pos_right (by exact_mod_cast this) (by positivity)
    have := (zpow_lt_zpow_iff_right₀ (by norm_num)).mp this
    omega
  obtain ⟨i, hi⟩ := Int.eq_ofNat_of_zero_le (show 0 ≤ j - place m e by omega)
  have hj' : j = place m e + i := by have : j - place m e = i := hi; omega
  have hm : (m : ℝ) * (2 : ℝ) ^ e = ((k.natAbs * 2 ^ i : Nat) : ℝ) * (2 : ℝ) ^ place m e := by
    rw [hab, hj', zpow_add₀ (by norm_num), zpow_natCast]; push_cast; ring
  have herr := round_err neg h hlt
  rw [(round_val neg h hlt).2] at herr ⊢
  have hp : (0 : ℝ) < (2 : ℝ) ^ place m e := by positivity
  rw [mul_assoc, hm, ← mul_sub, ← sub_mul, abs_mul, abs_mul, abs_of_pos hp] at herr
  have e2 : |(if neg then (-1 : ℝ) else 1)| = 1 := by cases neg <;> simp
  rw [e2, one_mul] at herr
  have h3 : |(nearest m (place m e - e) : ℝ) - ((k.natAbs * 2 ^ i : Nat) : ℝ)| ≤ 1 / 2 := by
    by_contra hc
    have := mul_lt_mul_of_pos_right (not_le.mp hc) hp
    linarith
  have h4 : nearest m (place m e - e) = k.natAbs * 2 ^ i := by
    have h5 : |((nearest m (place m e - e) : Int) - ((k.natAbs * 2 ^ i : Nat) : Int) : ℝ)| < 1 := by
      refine lt_of_le_of_lt ?_ (show (1 / 2 : ℝ) < 1 by norm_num)
      exact_mod_cast h3
    have h6 : |(nearest m (place m e - e) : Int) - ((k.natAbs * 2 ^ i : Nat) : Int)| < 1 := by exact_mod_cast h5
    have := Int.abs_lt_one_iff.mp h6
    omega
  rw [h4, mul_assoc, hm]

/-! ### Sums and products -/

theorem zero_finite : Finite 0 ∧ Finite 0x80000000 := by constructor <;> (unfold Finite; decide)

theorem val_zero : val 0 = 0 := by simp [val, unpack]
theorem val_negZero : val 0x80000000 = 0 := by simp [val, unpack]

theorem max_pos (R : ℝ) : 0 ≤ max |R| ((2 : ℝ) ^ (-126 : Int)) / 2 ^ 24 :=
  div_nonneg (le_trans (abs_nonneg _) (le_max_left _ _)) (by positivity)

/-- **The sum is the exact one, rounded.** -/
theorem add_near {x y : W} (hx : Finite x) (hy : Finite y) (hlt : |val x + val y| ≤ maxFin) :
    Near (addIeee x y) (val x + val y) ∧ (Exact (val x + val y) → val (addIeee x y) = val x + val y) := by
  unfold addIeee
  rw [hx.not_nan, hy.not_nan, hx.not_inf, hy.not_inf]
  have vx : val x = (if (unpack x).1 then -1 else 1) * ((unpack x).2.1 : ℝ) * (2 : ℝ) ^ (unpack x).2.2 := rfl
  have vy : val y = (if (unpack y).1 then -1 else 1) * ((unpack y).2.1 : ℝ) * (2 : ℝ) ^ (unpack y).2.2 := rfl
  rw [vx, vy] at hlt ⊢
  clear vx vy
  revert hlt
  generalize unpack x = ux
  generalize unpack y = uy
  obtain ⟨sx, mx, ex⟩ := ux
  obtain ⟨sy, my, ey⟩ := uy
  intro hlt
  simp only [Bool.or_self, Bool.false_eq_true, if_false] at hlt ⊢
  generalize hv : ((if sx = true then -((mx * 2 ^ (ex - min ex ey).toNat : Nat) : Int) else ((mx * 2 ^ (ex - min ex ey).toNat : Nat) : Int)) +
    if sy = true then -((my * 2 ^ (ey - min ex ey).toNat : Nat) : Int) else ((my * 2 ^ (ey - min ex ey).toNat : Nat) : Int)) = v
  have hz : ∀ (m : Nat) (a b : Int), b ≤ a → ((m * 2 ^ (a - b).toNat : Nat) : ℝ) * (2 : ℝ) ^ b = m * (2 : ℝ) ^ a := by
    intro m a b hab
    obtain ⟨k, hk⟩ := Int.eq_ofNat_of_zero_le (show 0 ≤ a - b by omega)
    have hk' : a = k + b := by have : a - b = k := hk; omega
    have e : (a - b).toNat = k := by rw [hk]; rfl
    rw [e, hk', zpow_add₀ (by norm_num), zpow_natCast]; push_cast; ring
  have hval : (if sx = true then (-1 : ℝ) else 1) * mx * (2 : ℝ) ^ ex + (if sy = true then -1 else 1) * my * (2 : ℝ) ^ ey =
      v * (2 : ℝ) ^ min ex ey := by
    rw [mul_assoc, mul_assoc, ← hz mx ex (min ex ey) (min_le_left _ _), ← hz my ey (min ex ey) (min_le_right _ _), ← hv]
    cases sx <;> cases sy <;> simp <;> ring
  rw [hval] at hlt ⊢
  by_cases h0 : v = 0
  · subst h0
    rw [if_pos rfl]
    simp only [Int.cast_zero, zero_mul]
    have hw : ∀ w : W, (w = 0x80000000 ∨ w = 0) → Near w 0 ∧ (Exact 0 → val w = 0) := by
      rintro w (rfl | rfl)
      · exact ⟨⟨zero_finite.2, by rw [val_negZero, sub_zero, abs_zero]; positivity⟩, fun _ => val_negZero⟩
      · exact ⟨⟨zero_finite.1, by rw [val_zero, sub_zero, abs_zero]; positivity⟩, fun _ => val_zero⟩
    exact hw _ (by split <;> simp)
  · rw [if_neg h0]
    have hm : v.natAbs ≠ 0 := by omega
    have hsv : (if decide (v < 0) = true then (-1 : ℝ) else 1) * (v.natAbs * (2 : ℝ) ^ min ex ey) = v * (2 : ℝ) ^ min ex ey := by
      rw [← mul_assoc]; congr 1
      by_cases hneg : v < 0
      · simp only [hneg, decide_true, if_true]
        rw [Nat.cast_natAbs, Int.cast_abs, abs_of_neg (by exact_mod_cast hneg)]; ring
      · simp only [hneg, decide_false, Bool.false_eq_true, if_false]
        rw [Nat.cast_natAbs, Int.cast_abs, abs_of_nonneg (by exact_mod_cast not_lt.mp hneg)]; ring
    have hlt' : (v.natAbs : ℝ) * (2 : ℝ) ^ min ex ey ≤ maxFin := by
      rw [← hsv, sign_abs _ _ (by positivity)] at hlt
      exact hlt
    rw [← hsv]
    exact ⟨round_near _ hm hlt', round_exact _ hm hlt'⟩

/-- **The product is the exact one, rounded.** -/
theorem mul_near {x y : W} (hx : Finite x) (hy : Finite y) (hlt : |val x * val y| ≤ maxFin) :
    Near (mulIeee x y) (val x * val y) ∧ (Exact (val x * val y) → val (mulIeee x y) = val x * val y) := by
  unfold mulIeee
  rw [hx.not_nan, hy.not_nan, hx.not_inf, hy.not_inf]
  have vx : val x = (if (unpack x).1 then -1 else 1) * ((unpack x).2.1 : ℝ) * (2 : ℝ) ^ (unpack x).2.2 := rfl
  have vy : val y = (if (unpack y).1 then -1 else 1) * ((unpack y).2.1 : ℝ) * (2 : ℝ) ^ (unpack y).2.2 := rfl
  rw [vx, vy] at hlt ⊢
  clear vx vy
  revert hlt
  generalize unpack x = ux
  generalize unpack y = uy
  obtain ⟨sx, mx, ex⟩ := ux
  obtain ⟨sy, my, ey⟩ := uy
  intro hlt
  simp only [Bool.or_self, Bool.false_eq_true, if_false] at hlt ⊢
  have hval : (if sx = true then (-1 : ℝ) else 1) * mx * (2 : ℝ) ^ ex * ((if sy = true then -1 else 1) * my * (2 : ℝ) ^ ey) =
      (if (sx != sy) = true then -1 else 1) * (((mx * my : Nat) : ℝ) * (2 : ℝ) ^ (ex + ey)) := by
    rw [zpow_add₀ (by norm_num)]
    cases sx <;> cases sy <;> simp <;> ring
  rw [hval] at hlt ⊢
  by_cases h0 : mx * my = 0
  · have hw : ∀ w : W, (w = 0x80000000 ∨ w = 0) → Near w 0 ∧ (Exact 0 → val w = 0) := by
      rintro w (rfl | rfl)
      · exact ⟨⟨zero_finite.2, by rw [val_negZero, sub_zero, abs_zero]; positivity⟩, fun _ => val_negZero⟩
      · exact ⟨⟨zero_finite.1, by rw [val_zero, sub_zero, abs_zero]; positivity⟩, fun _ => val_zero⟩
    rw [h0]
    simp only [Nat.cast_zero, zero_mul, mul_zero]
    apply hw
    unfold round
    rw [if_pos rfl]
    cases (sx != sy) <;> simp
  · have hlt' : ((mx * my : Nat) : ℝ) * (2 : ℝ) ^ (ex + ey) ≤ maxFin := by
      rw [sign_abs _ _ (by positivity)] at hlt
      exact hlt
    exact ⟨round_near _ h0 hlt', round_exact _ h0 hlt'⟩

end Verif.F32
