import Verif.Lemmas.F32

set_option autoImplicit false
set_option linter.unusedSimpArgs false

/-!
# Order, integral parts and powers of two of `ieee`
-/

namespace Verif.F32

/-- The value of magnitude bits. -/
noncomputable def magVal (n : Nat) : ℝ :=
  if n / 0x800000 = 0 then (n % 0x800000 : Nat) * (2 : ℝ) ^ (-149 : Int)
  else ((n % 0x800000 + 0x800000 : Nat) : ℝ) * (2 : ℝ) ^ (((n / 0x800000 : Nat) : Int) - 150)

theorem val_eq (x : W) : val x = (if 0x80000000 ≤ x.toNat then -1 else 1) * magVal (x.toNat % 0x80000000) := by
  unfold val unpack magVal
  simp only [decide_eq_true_eq]
  rw [mul_assoc]
  congr 1
  split <;> rfl

theorem magVal_strictMono : StrictMono magVal := by
  refine strictMono_nat_of_lt_succ fun n => ?_
  have hp : ∀ e : Int, (0 : ℝ) < (2 : ℝ) ^ e := fun e => by positivity
  unfold magVal
  by_cases h : (n + 1) % 0x800000 = 0
  · obtain ⟨k, hk⟩ : ∃ k, n + 1 = 0x800000 * (k + 1) := ⟨n / 0x800000, by omega⟩
    have e1 : (n + 1) / 0x800000 = k + 1 := by omega
    have e2 : n / 0x800000 = k := by omega
    have e3 : n % 0x800000 = 0x7fffff := by omega
    rw [e1, e2, e3, h, if_neg (Nat.succ_ne_zero k)]
    by_cases hk0 : k = 0
    · rw [if_pos hk0, hk0]
      norm_num
    · rw [if_neg hk0]
      have : (((k + 1 : Nat) : Int) - 150) = ((k : Int) - 150) + 1 := by push_cast; ring
      rw [this, zpow_add₀ (by norm_num)]
      have := hp ((k : Int) - 150)
      norm_num
      linarith
  · have e1 : (n + 1) / 0x800000 = n / 0x800000 := by omega
    have e2 : (n + 1) % 0x800000 = n % 0x800000 + 1 := by omega
    rw [e1, e2]
    split
    · have := hp (-149)
      push_cast
      linarith
    · have := hp (((n / 0x800000 : Nat) : Int) - 150)
      refine mul_lt_mul_of_pos_right ?_ this
      push_cast; linarith

theorem magVal_zero : magVal 0 = 0 := by simp [magVal]

theorem magVal_nonneg (n : Nat) : 0 ≤ magVal n := by
  rw [← magVal_zero]; exact magVal_strictMono.monotone (Nat.zero_le n)

theorem magVal_pos {n : Nat} (h : 0 < n) : 0 < magVal n := by
  rw [← magVal_zero]; exact magVal_strictMono h

/-- The order of the keys is the order of the values. -/
theorem key_lt (x y : W) : key x < key y ↔ val x < val y := by
  rw [val_eq, val_eq]
  unfold key
  have hx := magVal_nonneg (x.toNat % 0x80000000)
  have hy := magVal_nonneg (y.toNat % 0x80000000)
  by_cases sx : 0x80000000 ≤ x.toNat <;> by_cases sy : 0x80000000 ≤ y.toNat
  · rw [if_neg (by omega), if_neg (by omega), if_pos sx, if_pos sy]
    rw [show (-1 : ℝ) * magVal (x.toNat % 0x80000000) < -1 * magVal (y.toNat % 0x80000000) ↔
      magVal (y.toNat % 0x80000000) < magVal (x.toNat % 0x80000000) by constructor <;> intro h <;> linarith,
      magVal_strictMono.lt_iff_lt]
    omega
  · rw [if_neg (by omega), if_pos (by omega), if_pos sx, if_neg sy]
    have e2 : y.toNat % 0x80000000 = y.toNat := by omega
    rw [e2] at hy ⊢
    constructor
    · intro h
      rcases Nat.eq_zero_or_pos (x.toNat % 0x80000000) with h0 | h0
      · rw [h0, magVal_zero]
        have := magVal_pos (n := y.toNat) (by omega)
        linarith
      · have := magVal_pos h0; linarith
    · intro h
      by_contra hc
      have h1 : x.toNat % 0x80000000 = 0 := by omega
      have h2 : y.toNat = 0 := by omega
      rw [h1, h2, magVal_zero] at h
      simp at h
  · rw [if_pos (by omega), if_neg (by omega), if_neg sx, if_pos sy]
    constructor
    · intro h; omega
    · intro h; linarith
  · rw [if_pos (by omega), if_pos (by omega), if_neg sx, if_neg sy]
    have e1 : x.toNat % 0x80000000 = x.toNat := by omega
    have e2 : y.toNat % 0x80000000 = y.toNat := by omega
    rw [e1, e2, one_mul, one_mul, magVal_strictMono.lt_iff_lt]
    omega

theorem lt_iff {x y : W} (hx : Finite x) (hy : Finite y) : lt x y = true ↔ val x < val y := by
  unfold lt
  rw [hx.not_nan, hy.not_nan, ← key_lt]
  simp

theorem le_iff {x y : W} (hx : Finite x) (hy : Finite y) : le x y = true ↔ val x ≤ val y := by
  unfold le
  rw [hx.not_nan, hy.not_nan]
  have := key_lt y x
  simp only [Bool.not_false, Bool.and_self, Bool.true_and, decide_eq_true_eq]
  rw [← not_lt, ← not_lt, this]

/-- Different words stand for different numbers, but for the two zeros. -/
theorem val_inj {x y : W} (h : val x = val y) (h0 : val x ≠ 0) : x = y := by
  have h1 : key x = key y := by
    have a := (key_lt x y).not.mpr (by rw [h]; exact lt_irrefl _)
    have b := (key_lt y x).not.mpr (by rw [h]; exact lt_irrefl _)
    omega
  have h2 : x.toNat % 0x80000000 ≠ 0 := by
    intro hz
    rw [val_eq, hz, magVal_zero, mul_zero] at h0
    exact h0 rfl
  unfold key at h1
  apply BitVec.eq_of_toNat_eq
  have := x.isLt; have := y.isLt
  split at h1 <;> split at h1 <;> omega

theorem val_eq_zero {x : W} (h : val x = 0) : x = 0 ∨ x = 0x80000000 := by
  rw [val_eq] at h
  have hm : x.toNat % 0x80000000 = 0 := by
    by_contra hc
    have := magVal_pos (Nat.pos_of_ne_zero hc)
    split at h <;> linarith
  have := x.isLt
  have : x.toNat = 0 ∨ x.toNat = 0x80000000 := by omega
  rcases this with h | h
  · left; apply BitVec.eq_of_toNat_eq; rw [h]; rfl
  · right; apply BitVec.eq_of_toNat_eq; rw [h]; rfl

/-! ### Negation -/

theorem flip_toNat (x : W) : (flip x).toNat = if 0x80000000 ≤ x.toNat then x.toNat - 0x80000000 else x.toNat + 0x80000000 := by
  have h : (flip x).toNat = x.toNat ^^^ 2 ^ 31 := BitVec.toNat_xor ..
  have h1 := @Nat.xor_mod_two_pow x.toNat (2 ^ 31) 31
  have h2 := @Nat.xor_div_two_pow x.toNat (2 ^ 31) 31
  rw [← h] at h1 h2
  have := x.isLt
  have e1 : 2 ^ 31 % 2 ^ 31 = 0 := by norm_num
  have e2 : 2 ^ 31 / 2 ^ 31 = 1 := by norm_num
  rw [e1, Nat.xor_zero] at h1
  rw [e2] at h2
  have : x.toNat / 2 ^ 31 = 0 ∨ x.toNat / 2 ^ 31 = 1 := by omega
  rcases this with h | h <;> rw [h] at h2 <;> simp at h2 h1 h <;> split <;> omega

theorem flip_finite {x : W} (h : Finite x) : Finite (flip x) := by
  unfold Finite at *
  rw [flip_toNat]
  split <;> omega

theorem flip_val (x : W) : val (flip x) = -val x := by
  rw [val_eq, val_eq, flip_toNat]
  have := x.isLt
  by_cases h : 0x80000000 ≤ x.toNat
  · rw [if_pos h, if_neg (by omega), if_pos h]
    have : (x.toNat - 0x80000000) % 0x80000000 = x.toNat % 0x80000000 := by omega
    rw [this]; ring
  · rw [if_neg h, if_pos (by omega), if_neg h]
    have : (x.toNat + 0x80000000) % 0x80000000 = x.toNat % 0x80000000 := by omega
    rw [this]; ring

/-- **The difference is the exact one, rounded.** -/
theorem sub_near {x y : W} (hx : Finite x) (hy : Finite y) (hlt : |val x - val y| ≤ maxFin) :
    Near (ieee.sub x y) (val x - val y) ∧ (Exact (val x - val y) → val (ieee.sub x y) = val x - val y) := by
  have := add_near hx (flip_finite hy)
  rw [flip_val, ← sub_eq_add_neg] at this
  exact this hlt

/-! ### Integral parts -/

theorem div_split (m k : Nat) : ∃ (q : Nat) (f : ℝ), m / 2 ^ k = q ∧ (m : ℝ) / (2 : ℝ) ^ k = q + f ∧ 0 ≤ f ∧ f < 1 ∧
    (m % 2 ^ k = 0 ↔ f = 0) := by
  have hp : (0 : ℝ) < 2 ^ k := by positivity
  have hm : m = 2 ^ k * (m / 2 ^ k) + m % 2 ^ k := (Nat.div_add_mod _ _).symm
  have hlt : m % 2 ^ k < 2 ^ k := Nat.mod_lt _ (by positivity)
  have hm' : (m : ℝ) = 2 ^ k * ((m / 2 ^ k : Nat) : ℝ) + ((m % 2 ^ k : Nat) : ℝ) := by exact_mod_cast hm
  obtain ⟨q, hq⟩ : ∃ q, q = m / 2 ^ k := ⟨_, rfl⟩
  obtain ⟨r, hr⟩ : ∃ r, r = m % 2 ^ k := ⟨_, rfl⟩
  rw [← hq, ← hr] at hm'
  rw [← hr] at hlt
  refine ⟨q, r / 2 ^ k, hq.symm, ?_, by positivity, ?_, ?_⟩
  · rw [hm']; field_simp
  · rw [div_lt_one hp]; exact_mod_cast hlt
  · rw [← hr, div_eq_zero_iff]
    constructor
    · intro h; left; exact_mod_cast h
    · rintro (h | h)
      · exact_mod_cast h
      · exact absurd h hp.ne'

theorem truncInt_eq (x : W) : truncInt x = if val x < 0 then -⌊-val x⌋ else ⌊val x⌋ := by
  unfold truncInt
  have vx : val x = (if (unpack x).1 then -1 else 1) * ((unpack x).2.1 : ℝ) * (2 : ℝ) ^ (unpack x).2.2 := rfl
  rw [vx]
  clear vx
  generalize unpack x = u
  obtain ⟨s, m, e⟩ := u
  simp only
  have hfl : ⌊(m : ℝ) * (2 : ℝ) ^ e⌋ = ((if 0 ≤ e then m * 2 ^ e.toNat else m / 2 ^ (-e).toNat : Nat) : Int) := by
    split
    · rename_i h
      obtain ⟨k, rfl⟩ := Int.eq_ofNat_of_zero_le h
      have : (m : ℝ) * (2 : ℝ) ^ (k : Int) = ((m * 2 ^ k : Nat) : ℝ) := by rw [zpow_natCast]; push_cast; ring
      rw [this, Int.floor_natCast]; rfl
    · rename_i h
      obtain ⟨k, hk⟩ := Int.eq_ofNat_of_zero_le (show 0 ≤ -e by omega)
      have he : e = -(k : Int) := by omega
      subst he
      have e2 : (-(-(k : Int))).toNat = k := by omega
      have : (m : ℝ) * (2 : ℝ) ^ (-(k : Int)) = (m : ℝ) / (2 : ℝ) ^ k := by
        rw [zpow_neg, zpow_natCast]; rfl
      obtain ⟨q, f, h1, h2, h3, h4, -⟩ := div_split m k
      rw [this, e2, h1, h2, Int.floor_eq_iff]
      push_cast
      constructor <;> linarith
  have hnn : (0 : ℝ) ≤ (m : ℝ) * (2 : ℝ) ^ e := by positivity
  cases s
  · simp only [Bool.false_eq_true, if_false, one_mul]
    rw [if_neg (not_lt.mpr hnn), hfl]
  · simp only [if_true, mul_assoc]
    rw [show (-1 : ℝ) * ((m : ℝ) * (2 : ℝ) ^ e) = -((m : ℝ) * (2 : ℝ) ^ e) by ring, neg_neg, hfl]
    by_cases h : -((m : ℝ) * (2 : ℝ) ^ e) < 0
    · rw [if_pos h]
    · rw [if_neg h]
      have h0 : (m : ℝ) * (2 : ℝ) ^ e = 0 := by linarith
      rw [h0, Int.floor_zero] at hfl
      rw [h0, neg_zero, Int.floor_zero, ← hfl]
      rfl

theorem floorInt_eq (x : W) : floorInt x = ⌊val x⌋ := by
  unfold floorInt
  rw [truncInt_eq]
  have vx : val x = (if (unpack x).1 then -1 else 1) * ((unpack x).2.1 : ℝ) * (2 : ℝ) ^ (unpack x).2.2 := rfl
  rw [vx]
  clear vx
  generalize unpack x = u
  obtain ⟨s, m, e⟩ := u
  simp only
  have hnn : (0 : ℝ) ≤ (m : ℝ) * (2 : ℝ) ^ e := by positivity
  cases s
  · simp only [Bool.false_eq_true, if_false, one_mul, Bool.false_and]
    rw [if_neg (not_lt.mpr hnn)]
  · simp only [if_true, mul_assoc, Bool.true_and]
    rw [show (-1 : ℝ) * ((m : ℝ) * (2 : ℝ) ^ e) = -((m : ℝ) * (2 : ℝ) ^ e) by ring, neg_neg]
    by_cases he : e < 0
    · obtain ⟨k, hk⟩ := Int.eq_ofNat_of_zero_le (show 0 ≤ -e by omega)
      have he' : e = -(k : Int) := by omega
      subst he'
      have e2 : (-(-(k : Int))).toNat = k := by omega
      have hv : (m : ℝ) * (2 : ℝ) ^ (-(k : Int)) = (m : ℝ) / (2 : ℝ) ^ k := by
        rw [zpow_neg, zpow_natCast]; rfl
      obtain ⟨q, f, h1, hm', h3, h4, h5⟩ := div_split m k
      rw [hv, e2]
      by_cases hr : m % 2 ^ k = 0
      · simp only [he, decide_true, Bool.true_and, hr, bne_self_eq_false, Bool.false_eq_true, if_false]
        rw [h5.mp hr, add_zero] at hm'
        rw [hm', ← Int.cast_natCast, ← Int.cast_neg, Int.floor_intCast, Int.floor_intCast]
        split
        · rfl
        · rename_i hn
          have : (0 : Int) ≤ -(q : Int) := by exact_mod_cast not_lt.mp hn
          omega
      · have hb : ((decide (-(k : Int) < 0)) && (m % 2 ^ k != 0)) = true := by simp [hr]; omega
        rw [hb, if_pos rfl]
        have hf : 0 < f := lt_of_le_of_ne h3 fun h => hr (h5.mpr h.symm)
        have f1 : ⌊(m : ℝ) / 2 ^ k⌋ = (q : Int) := by
          rw [hm', Int.floor_eq_iff]; push_cast; constructor <;> linarith
        have f2 : ⌊-((m : ℝ) / 2 ^ k)⌋ = -(q : Int) - 1 := by
          rw [hm', Int.floor_eq_iff]; push_cast; constructor <;> linarith
        have hneg : -((m : ℝ) / 2 ^ k) < 0 := by
          rw [hm']
          have : (0 : ℝ) ≤ (q : ℝ) := Nat.cast_nonneg _
          linarith
        rw [if_pos hneg, f1, f2]
    · simp only [he, decide_false, Bool.false_and, Bool.false_eq_true, if_false]
      obtain ⟨k, rfl⟩ := Int.eq_ofNat_of_zero_le (show 0 ≤ e by omega)
      have : (m : ℝ) * (2 : ℝ) ^ (k : Int) = ((m * 2 ^ k : Nat) : ℝ) := by rw [zpow_natCast]; push_cast; ring
      rw [this, ← Int.cast_natCast, ← Int.cast_neg, Int.floor_intCast, Int.floor_intCast]
      split
      · rfl
      · rename_i hn
        have : (0 : Int) ≤ -((m * 2 ^ k : Nat) : Int) := by exact_mod_cast not_lt.mp hn
        omega

theorem round_int {t : Int} (h0 : t ≠ 0) (ht : |t| < 2 ^ 24) :
    Finite (round (t < 0) t.natAbs 0) ∧ val (round (t < 0) t.natAbs 0) = t := by
  have hm : t.natAbs ≠ 0 := by omega
  have hs : (if decide (t < 0) = true then (-1 : ℝ) else 1) * (t.natAbs * (2 : ℝ) ^ (0 : Int)) = t := by
    rw [zpow_zero, mul_one]
    by_cases hneg : t < 0
    · simp only [hneg, decide_true, if_true]
      rw [Nat.cast_natAbs, Int.cast_abs, abs_of_neg (by exact_mod_cast hneg)]; ring
    · simp only [hneg, decide_false, Bool.false_eq_true, if_false]
      rw [Nat.cast_natAbs, Int.cast_abs, abs_of_nonneg (by exact_mod_cast not_lt.mp hneg)]; ring
  have hb : t.natAbs < 2 ^ 24 := by
    have : (t.natAbs : Int) < 2 ^ 24 := by rw [Int.natCast_natAbs]; exact ht
    exact_mod_cast this
  have hlt : (t.natAbs : ℝ) * (2 : ℝ) ^ (0 : Int) ≤ maxFin := by
    rw [zpow_zero, mul_one]
    have : (t.natAbs : ℝ) < 2 ^ 24 := by exact_mod_cast hb
    exact this.le.trans (by unfold maxFin; norm_num)
  refine ⟨(round_val _ hm hlt).1, ?_⟩
  have hex : Exact ((if decide (t < 0) = true then (-1 : ℝ) else 1) * (t.natAbs * (2 : ℝ) ^ (0 : Int))) := by
    rw [hs]; exact ⟨t, 0, by simp, hb, by norm_num⟩
  rw [round_exact _ hm hlt hex, hs]

theorem ofInt_spec {t : Int} (ht : |t| < 2 ^ 24) :
    Finite (ieee.ofInt (BitVec.ofInt 32 t)) ∧ val (ieee.ofInt (BitVec.ofInt 32 t)) = t := by
  have hb := abs_lt.mp ht
  have hi : (BitVec.ofInt 32 t).toInt = t := by
    rw [BitVec.toInt_ofInt]
    unfold Int.bmod
    norm_num at hb ⊢
    omega
  show Finite (round ((BitVec.ofInt 32 t).toInt < 0) (BitVec.ofInt 32 t).toInt.natAbs 0) ∧
    val (round ((BitVec.ofInt 32 t).toInt < 0) (BitVec.ofInt 32 t).toInt.natAbs 0) = t
  rw [hi]
  by_cases h0 : t = 0
  · subst h0
    have : round (decide ((0 : Int) < 0)) (Int.natAbs 0) 0 = 0 := by simp [round]
    rw [this]
    exact ⟨zero_finite.1, by rw [val_zero]; simp⟩
  · exact round_int h0 ht

theorem floor_abs {r : ℝ} (h : |r| < 2 ^ 23) : |⌊r⌋| < 2 ^ 24 := by
  obtain ⟨h1, h2⟩ := abs_lt.mp h
  have a := Int.floor_le r
  have b := Int.lt_floor_add_one r
  rw [abs_lt]
  constructor
  · have : ((-(2 ^ 24) : Int) : ℝ) < (⌊r⌋ : ℝ) := by push_cast; linarith
    exact_mod_cast this
  · have : (⌊r⌋ : ℝ) < ((2 ^ 24 : Int) : ℝ) := by push_cast; linarith
    exact_mod_cast this

/-- **ROUNDPS gives the integral part.** -/
theorem floor_spec {z : W} (hz : Finite z) (h : |val z| < 2 ^ 23) :
    Finite (ieee.floor z) ∧ val (ieee.floor z) = ⌊val z⌋ := by
  have hab := floor_abs h
  show Finite (if isNaN z then qNaN else if isInf z then z else
      if floorInt z = 0 then (if 0x80000000 ≤ z.toNat then 0x80000000 else 0)
      else round (floorInt z < 0) (floorInt z).natAbs 0) ∧
    val (if isNaN z then qNaN else if isInf z then z else
      if floorInt z = 0 then (if 0x80000000 ≤ z.toNat then 0x80000000 else 0)
      else round (floorInt z < 0) (floorInt z).natAbs 0) = ⌊val z⌋
  rw [hz.not_nan, hz.not_inf, floorInt_eq]
  simp only [Bool.false_eq_true, if_false]
  by_cases h0 : ⌊val z⌋ = 0
  · rw [if_pos h0, h0]
    split
    · exact ⟨zero_finite.2, by rw [val_negZero]; simp⟩
    · exact ⟨zero_finite.1, by rw [val_zero]; simp⟩
  · rw [if_neg h0]
    exact round_int h0 hab

theorem trunc_abs {z : W} (h : |val z| < 2 ^ 23) : |truncInt z| < 2 ^ 24 := by
  rw [truncInt_eq]
  split
  · rw [abs_neg]; exact floor_abs (by rwa [abs_neg])
  · exact floor_abs h

/-- **CVTTPS2DQ gives the integral part towards zero.** -/
theorem trunc_spec {z : W} (hz : Finite z) (h : |val z| < 2 ^ 23) : ieee.trunc z = BitVec.ofInt 32 (truncInt z) := by
  have hab := abs_lt.mp (trunc_abs h)
  show (if isNaN z || isInf z then 0x80000000 else
    if truncInt z < -0x80000000 ∨ 0x7fffffff < truncInt z then 0x80000000 else BitVec.ofInt 32 (truncInt z)) = _
  rw [hz.not_nan, hz.not_inf]
  simp only [Bool.or_self, Bool.false_eq_true, if_false]
  rw [if_neg]
  norm_num at hab
  omega

theorem truncInt_int {z : W} {t : Int} (h : val z = t) : truncInt z = t := by
  rw [truncInt_eq, h, ← Int.cast_neg, Int.floor_intCast, Int.floor_intCast]
  split
  · ring
  · rfl

theorem pow_bits : ∀ i : Fin 254, (BitVec.ofInt 32 ((i.val : Int) - 126) <<< 0x17) + 0x3f800000 =
    BitVec.ofNat 32 ((i.val + 1) * 0x800000) := by decide +kernel

/-- **The exponent bits make a power of two.** -/
theorem pow_spec {t : Int} (h1 : -126 ≤ t) (h2 : t ≤ 127) :
    Finite ((BitVec.ofInt 32 t <<< 0x17) + 0x3f800000) ∧ val ((BitVec.ofInt 32 t <<< 0x17) + 0x3f800000) = (2 : ℝ) ^ t := by
  obtain ⟨i, hi⟩ := Int.eq_ofNat_of_zero_le (show 0 ≤ t + 126 by omega)
  have hi : t = (i : Int) - 126 := by have : t + 126 = i := hi; omega
  have hlt : i < 254 := by omega
  have := pow_bits ⟨i, hlt⟩
  simp only at this
  rw [hi, this]
  have hn : (BitVec.ofNat 32 ((i + 1) * 0x800000)).toNat = (i + 1) * 0x800000 := by
    rw [BitVec.toNat_ofNat]; apply Nat.mod_eq_of_lt; omega
  refine ⟨by unfold Finite; rw [hn]; omega, ?_⟩
  rw [val_eq, hn, if_neg (by omega), one_mul]
  unfold magVal
  have e0 : (i + 1) * 0x800000 % 0x80000000 = (i + 1) * 0x800000 := by omega
  have e1 : (i + 1) * 0x800000 / 0x800000 = i + 1 := by omega
  have e2 : (i + 1) * 0x800000 % 0x800000 = 0 := by omega
  rw [e0, e1, e2, if_neg (Nat.succ_ne_zero i)]
  have e3 : (((0 + 0x800000 : Nat)) : ℝ) = (2 : ℝ) ^ (23 : Int) := by norm_num
  rw [e3, ← zpow_add₀ (by norm_num)]
  congr 1
  push_cast; ring

/-! ### Commutativity -/

theorem add_comm' (x y : W) : ieee.add x y = ieee.add y x := by
  show addIeee x y = addIeee y x
  unfold addIeee
  rw [Bool.or_comm (isNaN x)]
  by_cases hn : (isNaN y || isNaN x) = true
  · rw [if_pos hn, if_pos hn]
  rw [if_neg hn, if_neg hn]
  by_cases hx : isInf x = true <;> by_cases hy : isInf y = true
  · rw [if_pos hx, if_pos hy, hx, hy]
    by_cases e : x = y
    · rw [e]
    · have h1 : (x != y) = true := by simpa using e
      have h2 : (y != x) = true := by simpa using fun h => e h.symm
      rw [h1, h2]; rfl
  · rw [if_pos hx, if_neg hy, if_pos hx, Bool.not_eq_true _ |>.mp hy]; rfl
  · rw [if_neg hx, if_pos hy, if_pos hy, Bool.not_eq_true _ |>.mp hx]; rfl
  · rw [if_neg hx, if_neg hy, if_neg hy, if_neg hx]
    generalize unpack x = u
    generalize unpack y = v
    obtain ⟨sx, mx, ex⟩ := u
    obtain ⟨sy, my, ey⟩ := v
    simp only
    rw [min_comm ex ey, add_comm, Bool.and_comm]

theorem mul_comm' (x y : W) : ieee.mul x y = ieee.mul y x := by
  show mulIeee x y = mulIeee y x
  unfold mulIeee
  rw [Bool.or_comm (isNaN x), Bool.or_comm (isInf x), Bool.or_comm (isZero x)]
  generalize unpack x = u
  generalize unpack y = v
  obtain ⟨sx, mx, ex⟩ := u
  obtain ⟨sy, my, ey⟩ := v
  simp only
  rw [mul_comm mx, add_comm ex, bne_comm]

end Verif.F32
