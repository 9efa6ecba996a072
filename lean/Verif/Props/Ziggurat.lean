import Verif.Props.Rand
import Verif.Lemmas.ZigguratTab
import Mathlib.Analysis.Complex.ExponentialBounds

/-!
# C73: runs of NormFloat64 and ExpFloat64

For every source of words: what one round does, which numbers can be returned, when an infinite number or 0 is
returned; for the library's generator: the loops end.
-/

set_option autoImplicit false
set_option linter.unusedSimpArgs false

namespace Verif.Rand

open Verif.Zig

/-- The `float32` tables of normal.go are roundings of the decimals. -/
def NormTables (T : Tables) : Prop := ∀ i < 128, Near (T.w i) (Zig.wn i) ∧ Near (T.f i) (Zig.fn i)

/-- The `float32` tables of exp.go are roundings of the decimals. -/
def ExpTables (T : Tables) : Prop := ∀ i < 256, Near (T.w i) (Zig.we i) ∧ Near (T.f i) (Zig.fe i)

/-- The fraction `Float64` makes of a word: its lower 53 bits. -/
noncomputable def frac (w : Word) : ℝ := (w.toNat % 2 ^ 53 : Nat) / 2 ^ 53

/-- The signed number `int32(Uint32())`: the upper half of a word. -/
def half (w : Word) : Int := (BitVec.ofNat 32 (w.toNat / 2 ^ 32)).toInt

theorem frac_nonneg (w : Word) : 0 ≤ frac w := by unfold frac; positivity

theorem frac_lt (w : Word) : frac w < 1 := by
  have h1 : w.toNat % 2 ^ 53 < 2 ^ 53 := Nat.mod_lt _ (by norm_num)
  have h2 : ((w.toNat % 2 ^ 53 : Nat) : ℝ) < 2 ^ 53 := by exact_mod_cast h1
  rw [frac, div_lt_one (by positivity)]
  exact h2

section

variable {S : Type} (next : S → Word × S)

theorem float64_frac (s : S) : ∃ q : ℚ, float64 next s = some (q, (next s).2) ∧ (q : ℝ) = frac (next s).1 :=
  ⟨_, float64_eq next s, by unfold frac; push_cast; rfl⟩

theorem frac_pos {w : Word} (h : w.toNat % 2 ^ 53 ≠ 0) : 1 / 2 ^ 53 ≤ frac w := by
  have : 1 ≤ w.toNat % 2 ^ 53 := by omega
  have : (1 : ℝ) ≤ (w.toNat % 2 ^ 53 : Nat) := by exact_mod_cast this
  unfold frac
  gcongr

theorem frac_eq_zero {w : Word} : frac w = 0 ↔ w.toNat % 2 ^ 53 = 0 := by
  constructor
  · intro h
    by_contra h0
    have := frac_pos h0
    rw [h] at this
    norm_num at this
  · intro h
    rw [frac, h]; simp

theorem negLog_frac (w : Word) : (w.toNat % 2 ^ 53 = 0 ∧ negLog (frac w) = none) ∨
    ∃ y, negLog (frac w) = some y ∧ y = -Real.log (frac w) ∧ 0 < y ∧ y ≤ 53 * Real.log 2 := by
  by_cases h : w.toNat % 2 ^ 53 = 0
  · exact .inl ⟨h, by rw [negLog, if_pos (frac_eq_zero.mpr h)]⟩
  · have h1 := frac_pos h
    have h0 : 0 < frac w := lt_of_lt_of_le (by positivity) h1
    refine .inr ⟨-Real.log (frac w), by rw [negLog, if_neg h0.ne'], rfl, ?_, ?_⟩
    · have := Real.log_neg h0 (frac_lt w); linarith
    · have := Real.log_le_log (by positivity) h1
      rw [one_div, Real.log_inv, Real.log_pow] at this
      push_cast at this
      linarith

/-! ## One round -/

theorem index_norm (j : BitVec 32) : (j &&& 0x7F).toNat = (j.toInt % 128).toNat ∧ (j &&& 0x7F).toNat < 128 := by
  have h1 : (j &&& 0x7F).toNat = j.toNat % 128 := by
    rw [BitVec.toNat_and, show (0x7F : BitVec 32).toNat = 2 ^ 7 - 1 by decide, Nat.and_two_pow_sub_one_eq_mod]
  have := j.isLt
  rw [h1, BitVec.toInt_eq_toNat_cond]
  constructor
  · split <;> omega
  · omega

theorem index_exp (j : BitVec 32) : (j &&& 0xFF).toNat = j.toNat % 256 := by
  rw [BitVec.toNat_and, show (0xFF : BitVec 32).toNat = 2 ^ 8 - 1 by decide, Nat.and_two_pow_sub_one_eq_mod]

theorem absInt32_eq (j : BitVec 32) : absInt32 j = j.toInt.natAbs := by
  have := j.isLt
  unfold absInt32
  rw [BitVec.toNat_neg, BitVec.toInt_eq_toNat_cond]
  split <;> split <;> omega

theorem uint32_half (s : S) : (uint32 next s).1.toInt = half (next s).1 ∧
    (uint32 next s).1.toNat = (next s).1.toNat / 2 ^ 32 ∧ (uint32 next s).2 = (next s).2 := by
  have h1 := (uint32_spec next s).1
  refine ⟨?_, h1, rfl⟩
  have : (uint32 next s).1 = BitVec.ofNat 32 ((next s).1.toNat / 2 ^ 32) := by
    apply BitVec.eq_of_toNat_eq
    rw [h1, BitVec.toNat_ofNat, Nat.mod_eq_of_lt]
    have := (next s).1.isLt
    omega
  rw [this]; rfl

theorem tab_length : knTab.length = 128 ∧ keTab.length = 256 := by decide +kernel

theorem knTab_get {i : Nat} (h : i < 128) : knTab[i]? = some (knTab.getD i 0) := by
  have : i < knTab.length := tab_length.1 ▸ h
  rw [List.getD_eq_getElem?_getD, List.getElem?_eq_getElem this]; rfl

theorem keTab_get {i : Nat} (h : i < 256) : keTab[i]? = some (keTab.getD i 0) := by
  have : i < keTab.length := tab_length.2 ▸ h
  rw [List.getD_eq_getElem?_getD, List.getElem?_eq_getElem this]; rfl

/-- The signs of the tail. -/
noncomputable def signed (j : Int) (t : ℝ) : ℝ := if 0 < j then rn + t else -rn - t

open Classical in
/-- **C73.** One round of `NormFloat64`. The upper half `j` of the next word, read as a signed number, chooses the strip
`i = j mod 128`, always an entry of the tables, and the point `j * wn[i]`. -/
theorem norm_round (T : Tables) (s : S) :
    let j := half (next s).1
    let i := (j % 128).toNat
    i < 128 ∧ normFloat64 next T s =
      if j.natAbs < knTab.getD i 0 then some (some (j * T.w i), (next s).2)
      else if i = 0 then (normTail next (next s).2).map fun t => (t.1.map (signed j), t.2)
      else if normSlow T i (j * T.w i) (frac (next (next s).2).1) then some (some (j * T.w i), (next (next s).2).2)
      else normFloat64 next T (next (next s).2).2 := by
  intro j i
  have hi := index_norm (uint32 next s).1
  have hj := uint32_half next s
  rw [hj.1] at hi
  refine ⟨by omega, ?_⟩
  obtain ⟨q, hq, hq'⟩ := float64_frac next (next s).2
  rw [normFloat64]
  simp only [Option.bind_eq_bind, hi.1, hj.1, hj.2.2, absInt32_eq, knTab_get (i := (half (next s).1 % 128).toNat) (by omega),
    Option.bind_some, hq, hq']
  change (if j.natAbs < knTab.getD i 0 then _ else if i = 0 then _ else _) = _
  by_cases h1 : j.natAbs < knTab.getD i 0
  · rw [if_pos h1, if_pos h1]
  rw [if_neg h1, if_neg h1]
  by_cases h2 : i = 0
  · rw [if_pos h2, if_pos h2]
    cases normTail next (next s).2 with
    | none => rfl
    | some t => rfl
  · rw [if_neg h2, if_neg h2]

open Classical in
/-- **C73.** One round of `ExpFloat64`. -/
theorem exp_round (T : Tables) (s : S) :
    let j := (next s).1.toNat / 2 ^ 32
    let i := j % 256
    expFloat64 next T s =
      if j < keTab.getD i 0 then some (some (j * T.w i), (next s).2)
      else if i = 0 then some ((negLog (frac (next (next s).2).1)).map (re + ·), (next (next s).2).2)
      else if expSlow T i (j * T.w i) (frac (next (next s).2).1) then some (some (j * T.w i), (next (next s).2).2)
      else expFloat64 next T (next (next s).2).2 := by
  intro j i
  have hj := uint32_half next s
  obtain ⟨q, hq, hq'⟩ := float64_frac next (next s).2
  rw [expFloat64]
  simp only [Option.bind_eq_bind, index_exp, hj.2.1, hj.2.2, keTab_get (Nat.mod_lt _ (by norm_num : 256 > 0)),
    Option.bind_some, hq, hq']
  rfl

theorem tail_round (s : S) :
    let x := (negLog (frac (next s).1)).map (· * (1 / rn))
    let y := negLog (frac (next (next s).2).1)
    normTail next s = if tailAccept x y then some (x, (next (next s).2).2) else normTail next (next (next s).2).2 := by
  intro x y
  obtain ⟨q, hq, hq'⟩ := float64_frac next s
  obtain ⟨p, hp, hp'⟩ := float64_frac next (next s).2
  rw [normTail]
  simp only [Option.bind_eq_bind, hq, hq', hp, hp', Option.bind_some]
  rfl

/-! ## What is returned -/

theorem rn_pos : 0 < rn := by norm_num [rn]

/-- The word number `k` makes `Float64` return 0. -/
def Zero (s : S) (k : Nat) : Prop := (draw next s k).toNat % 2 ^ 53 = 0

theorem normTail_spec {s : S} {r : Option ℝ × S} (h : normTail next s = some r) :
    (r.1 = none ∧ ∃ k, Zero next s k ∧ Zero next s (k + 1)) ∨
      ∃ x, r.1 = some x ∧ 0 < x ∧ x ≤ 53 * Real.log 2 / rn := by
  revert s r
  apply normTail.partial_correctness (next := next)
    (motive := fun s r => (r.1 = none ∧ ∃ k, Zero next s k ∧ Zero next s (k + 1)) ∨
      ∃ x, r.1 = some x ∧ 0 < x ∧ x ≤ 53 * Real.log 2 / rn)
  intro f ih s r h
  obtain ⟨q, hq, hq'⟩ := float64_frac next s
  obtain ⟨p, hp, hp'⟩ := float64_frac next (next s).2
  simp only [Option.bind_eq_bind, hq, hq', hp, hp', Option.bind_some] at h
  split at h
  · rename_i ha
    obtain rfl := (Option.some.inj h).symm
    rcases negLog_frac (next s).1 with ⟨h0, h1⟩ | ⟨x, h1, -, h2, h3⟩
    · left
      refine ⟨by simp [h1], 0, h0, ?_⟩
      rcases negLog_frac (next (next s).2).1 with ⟨g0, g1⟩ | ⟨y, g1, -⟩
      · exact g0
      · rw [h1, g1] at ha
        simp [tailAccept] at ha
    · right
      have := rn_pos
      refine ⟨x * (1 / rn), by simp [h1], by positivity, ?_⟩
      rw [mul_one_div]
      gcongr
  · rcases ih _ _ h with ⟨h1, k, h2, h3⟩ | h1
    · exact .inl ⟨h1, k + 2, h2, h3⟩
    · exact .inr h1

theorem wn_width : ∀ i < 128, i ≠ 0 → Zig.wn i * (1 + ulp) * 2 ^ 31 ≤ 34427 / 10 ^ 4 := by decide +kernel
theorem kn_base : Zig.kn 0 * (Zig.wn 0 * (1 + ulp)) ≤ 34427 / 10 ^ 4 := by decide +kernel
theorem wn_pos : ∀ i < 128, 0 < Zig.wn i := by decide +kernel
theorem we_width : ∀ i < 256, i ≠ 0 → Zig.we i * (1 + ulp) * 2 ^ 32 ≤ 76972 / 10 ^ 4 := by decide +kernel
theorem ke_base : Zig.ke 0 * (Zig.we 0 * (1 + ulp)) ≤ 76972 / 10 ^ 4 := by decide +kernel
theorem we_pos : ∀ i < 256, 0 < Zig.we i := by decide +kernel

theorem half_bound (w : Word) : (half w).natAbs ≤ 2 ^ 31 := by
  unfold half
  have := (BitVec.ofNat 32 (w.toNat / 2 ^ 32)).isLt
  rw [BitVec.toInt_eq_toNat_cond]
  split <;> omega

theorem abs_int (j : Int) : |(j : ℝ)| = (j.natAbs : ℝ) := by rw [Nat.cast_natAbs, Int.cast_abs]

theorem point_bound {T : Tables} (hT : NormTables T) (j : Int) {i : Nat} (hi : i < 128) (hj : j.natAbs ≤ 2 ^ 31)
    (h : i ≠ 0 ∨ j.natAbs < knTab.getD i 0) : |(j : ℝ) * T.w i| ≤ 34427 / 10 ^ 4 := by
  have hw := (hT i hi).1
  have hp := hw.pos (wn_pos i hi)
  have hj' : |(j : ℝ)| ≤ 2 ^ 31 := by
    rw [abs_int]
    exact_mod_cast hj
  rw [abs_mul, abs_of_pos hp]
  by_cases h0 : i = 0
  · subst h0
    have hk := h.resolve_left (by simp)
    have hk' : |(j : ℝ)| ≤ Zig.kn 0 := by
      rw [abs_int]
      unfold Zig.kn
      exact_mod_cast hk.le
    calc |(j : ℝ)| * T.w 0 ≤ (Zig.kn 0 : ℝ) * ((Zig.wn 0 * (1 + ulp) : ℚ) : ℝ) :=
          mul_le_mul hk' hw.2 hp.le ((abs_nonneg _).trans hk')
      _ ≤ _ := by
        have := (Rat.cast_le (K := ℝ)).mpr kn_base
        rw [Rat.cast_mul] at this
        refine this.trans ?_
        norm_num
  · calc |(j : ℝ)| * T.w i ≤ 2 ^ 31 * ((Zig.wn i * (1 + ulp) : ℚ) : ℝ) :=
          mul_le_mul hj' hw.2 hp.le (by positivity)
      _ ≤ _ := by
        have := (Rat.cast_le (K := ℝ)).mpr (wn_width i hi h0)
        rw [Rat.cast_mul, mul_comm] at this
        refine le_trans (le_of_eq ?_) (this.trans ?_) <;> norm_num

/-- **C73.** Every number `NormFloat64` returns is at most 3.4427 in absolute value, or comes from the tail and lies
between `rn` and `rn + 53 log 2 / rn`; it is infinite only if two consecutive words make `Float64` return 0. -/
theorem norm_range {T : Tables} (hT : NormTables T) {s s' : S} {v : Option ℝ}
    (h : normFloat64 next T s = some (v, s')) :
    (v = none ∧ ∃ k, Zero next s k ∧ Zero next s (k + 1)) ∨
      ∃ x, v = some x ∧ (|x| ≤ 34427 / 10 ^ 4 ∨ (rn < |x| ∧ |x| ≤ rn + 53 * Real.log 2 / rn)) := by
  classical
  suffices H : ∀ s r, normFloat64 next T s = some r → (r.1 = none ∧ ∃ k, Zero next s k ∧ Zero next s (k + 1)) ∨
      ∃ x, r.1 = some x ∧ (|x| ≤ 34427 / 10 ^ 4 ∨ (rn < |x| ∧ |x| ≤ rn + 53 * Real.log 2 / rn)) from H _ _ h
  apply normFloat64.partial_correctness (next := next) (T := T)
    (motive := fun s r => (r.1 = none ∧ ∃ k, Zero next s k ∧ Zero next s (k + 1)) ∨
      ∃ x, r.1 = some x ∧ (|x| ≤ 34427 / 10 ^ 4 ∨ (rn < |x| ∧ |x| ≤ rn + 53 * Real.log 2 / rn)))
  intro f ih s r h
  have hi := index_norm (uint32 next s).1
  have hj := uint32_half next s
  rw [hj.1] at hi
  obtain ⟨q, hq, hq'⟩ := float64_frac next (next s).2
  simp only [Option.bind_eq_bind, hi.1, hj.1, hj.2.2, absInt32_eq, knTab_get (i := (half (next s).1 % 128).toNat) (by omega),
    Option.bind_some, hq, hq'] at h
  have hlt : (half (next s).1 % 128).toNat < 128 := by omega
  have hb := half_bound (next s).1
  generalize half (next s).1 = j at h hlt hb
  split at h
  · rename_i hk
    obtain rfl := (Option.some.inj h).symm
    exact .inr ⟨_, rfl, .inl (point_bound hT j hlt hb (.inr hk))⟩
  split at h
  · obtain ⟨t, ht, h⟩ := Option.bind_eq_some_iff.mp h
    obtain rfl := (Option.some.inj h).symm
    rcases normTail_spec next ht with ⟨h1, k, h2, h3⟩ | ⟨x, h1, h2, h3⟩
    · exact .inl ⟨by simp [h1], k + 1, h2, h3⟩
    · refine .inr ⟨if 0 < j then rn + x else -rn - x, by simp only [h1, Option.map_some], .inr ?_⟩
      have h0 := rn_pos
      have : |if 0 < j then rn + x else -rn - x| = rn + x := by
        split
        · exact abs_of_pos (by linarith)
        · rw [show -rn - x = -(rn + x) by ring, abs_neg, abs_of_pos (by linarith)]
      rw [this]
      exact ⟨by linarith, by linarith⟩
  · rename_i hk h0
    split at h
    · obtain rfl := (Option.some.inj h).symm
      exact .inr ⟨_, rfl, .inl (point_bound hT j hlt hb (.inl h0))⟩
    · rcases ih _ _ h with ⟨h1, k, h2, h3⟩ | h1
      · exact .inl ⟨h1, k + 2, h2, h3⟩
      · exact .inr h1

/-- **C73.** A finite result is below 14.2 in absolute value. -/
theorem norm_bound {T : Tables} (hT : NormTables T) {s s' : S} {x : ℝ}
    (h : normFloat64 next T s = some (some x, s')) : |x| < 142 / 10 := by
  rcases norm_range next hT h with ⟨h1, -⟩ | ⟨y, h1, h2⟩
  · cases h1
  · obtain rfl := Option.some.inj h1
    have h0 := rn_pos
    have := Real.log_two_lt_d9
    rcases h2 with h2 | ⟨-, h2⟩
    · norm_num at h2 ⊢; linarith
    · have h3 : 53 * Real.log 2 / rn < 107 / 10 := by
        rw [div_lt_iff₀ h0]; norm_num [rn] at *; linarith
      have : rn < 35 / 10 := by norm_num [rn]
      linarith

/-- **C73.** Every number `ExpFloat64` returns is at most 7.6972, or comes from the tail and lies between `re` and
`re + 53 log 2`; it is infinite only if a word makes `Float64` return 0, and 0 only if the upper half of a word is 0. -/
theorem exp_range {T : Tables} (hT : ExpTables T) {s s' : S} {v : Option ℝ}
    (h : expFloat64 next T s = some (v, s')) :
    (v = none ∧ ∃ k, Zero next s k) ∨
      ∃ x, v = some x ∧ 0 ≤ x ∧ (x = 0 → ∃ k, (draw next s k).toNat / 2 ^ 32 = 0) ∧
        (x ≤ 76972 / 10 ^ 4 ∨ (re < x ∧ x ≤ re + 53 * Real.log 2)) := by
  classical
  suffices H : ∀ s r, expFloat64 next T s = some r → (r.1 = none ∧ ∃ k, Zero next s k) ∨
      ∃ x, r.1 = some x ∧ 0 ≤ x ∧ (x = 0 → ∃ k, (draw next s k).toNat / 2 ^ 32 = 0) ∧
        (x ≤ 76972 / 10 ^ 4 ∨ (re < x ∧ x ≤ re + 53 * Real.log 2)) from H _ _ h
  apply expFloat64.partial_correctness (next := next) (T := T)
    (motive := fun s r => (r.1 = none ∧ ∃ k, Zero next s k) ∨
      ∃ x, r.1 = some x ∧ 0 ≤ x ∧ (x = 0 → ∃ k, (draw next s k).toNat / 2 ^ 32 = 0) ∧
        (x ≤ 76972 / 10 ^ 4 ∨ (re < x ∧ x ≤ re + 53 * Real.log 2)))
  intro f ih s r h
  have hj := uint32_half next s
  obtain ⟨q, hq, hq'⟩ := float64_frac next (next s).2
  simp only [Option.bind_eq_bind, index_exp, hj.2.1, hj.2.2, keTab_get (Nat.mod_lt _ (by norm_num : 256 > 0)),
    Option.bind_some, hq, hq'] at h
  have hlt : (next s).1.toNat / 2 ^ 32 % 256 < 256 := Nat.mod_lt _ (by norm_num)
  have hb : (next s).1.toNat / 2 ^ 32 < 2 ^ 32 := by
    have := (next s).1.isLt
    omega
  have hd : draw next s 0 = (next s).1 := rfl
  have hw := (hT _ hlt).1
  have hp := hw.pos (we_pos _ hlt)
  generalize hjj : (next s).1.toNat / 2 ^ 32 = j at h hlt hb hw hp
  have hpt : j % 256 ≠ 0 ∨ j < keTab.getD (j % 256) 0 → (j : ℝ) * T.w (j % 256) ≤ 76972 / 10 ^ 4 := by
    intro hh
    by_cases h0 : j % 256 = 0
    · have hk := hh.resolve_left (by simp [h0])
      rw [h0] at hk hw hp ⊢
      have hk' : (j : ℝ) ≤ Zig.ke 0 := by unfold Zig.ke; exact_mod_cast hk.le
      calc (j : ℝ) * T.w 0 ≤ (Zig.ke 0 : ℝ) * ((Zig.we 0 * (1 + ulp) : ℚ) : ℝ) :=
            mul_le_mul hk' hw.2 hp.le ((Nat.cast_nonneg _).trans hk')
        _ ≤ _ := by
          have := (Rat.cast_le (K := ℝ)).mpr ke_base
          rw [Rat.cast_mul] at this
          refine this.trans ?_
          norm_num
    · have hj' : (j : ℝ) ≤ 2 ^ 32 := by exact_mod_cast hb.le
      calc (j : ℝ) * T.w (j % 256) ≤ 2 ^ 32 * ((Zig.we (j % 256) * (1 + ulp) : ℚ) : ℝ) :=
            mul_le_mul hj' hw.2 hp.le (by positivity)
        _ ≤ _ := by
          have := (Rat.cast_le (K := ℝ)).mpr (we_width _ hlt h0)
          rw [Rat.cast_mul, mul_comm] at this
          refine le_trans (le_of_eq ?_) (this.trans ?_) <;> norm_num
  have hz : (j : ℝ) * T.w (j % 256) = 0 → ∃ k, (draw next s k).toNat / 2 ^ 32 = 0 := by
    intro hh
    refine ⟨0, ?_⟩
    rw [hd, hjj]
    have := (mul_eq_zero.mp hh).resolve_right hp.ne'
    exact_mod_cast this
  have hnn : 0 ≤ (j : ℝ) * T.w (j % 256) := mul_nonneg (Nat.cast_nonneg _) hp.le
  split at h
  · rename_i hk
    obtain rfl := (Option.some.inj h).symm
    exact .inr ⟨_, rfl, hnn, hz, .inl (hpt (.inr hk))⟩
  split at h
  · obtain rfl := (Option.some.inj h).symm
    rcases negLog_frac (next (next s).2).1 with ⟨h0, h1⟩ | ⟨y, h1, -, h2, h3⟩
    · exact .inl ⟨by simp [h1], 1, h0⟩
    · have hre : 0 < re := by norm_num [re]
      refine .inr ⟨re + y, by simp [h1], by linarith, fun h => by linarith, .inr ⟨by linarith, by linarith⟩⟩
  · rename_i hk h0
    split at h
    · obtain rfl := (Option.some.inj h).symm
      exact .inr ⟨_, rfl, hnn, hz, .inl (hpt (.inl h0))⟩
    · rcases ih _ _ h with ⟨h1, k, h2⟩ | ⟨x, h1, h2, h3, h4⟩
      · exact .inl ⟨h1, k + 2, h2⟩
      · exact .inr ⟨x, h1, h2, fun hx => (h3 hx).elim fun k hk => ⟨k + 2, hk⟩, h4⟩

/-- **C73, violation.** The documented range of `ExpFloat64` is (0, MaxFloat64], but 0 is returned whenever the upper
half of the first word is 0. -/
theorem exp_zero (T : Tables) {s : S} (h : (next s).1.toNat / 2 ^ 32 = 0) :
    expFloat64 next T s = some (some 0, (next s).2) := by
  have := exp_round next T s
  rw [h] at this
  rw [this, if_pos (by decide)]
  simp

/-- **C73, violation.** And `+Inf` is returned whenever the first word chooses the tail and the second makes `Float64`
return 0. -/
theorem exp_infinite (T : Tables) {s : S} (h : (next s).1.toNat / 2 ^ 32 % 256 = 0)
    (h1 : keTab.getD 0 0 ≤ (next s).1.toNat / 2 ^ 32) (h2 : Zero next s 1) :
    expFloat64 next T s = some (none, stateAt next s 2) := by
  have := exp_round next T s
  simp only [h] at this
  rw [this, if_neg (by omega), if_pos trivial]
  have hz : frac (next (next s).2).1 = 0 := frac_eq_zero.mpr h2
  rw [hz, negLog, if_pos rfl]
  rfl

/-- **C73, violation.** The documented range of `NormFloat64` is that of the finite numbers, but an infinite number is
returned whenever the first word chooses the tail and the next two make `Float64` return 0. -/
theorem norm_infinite (T : Tables) {s : S} (h : half (next s).1 % 128 = 0)
    (h1 : knTab.getD 0 0 ≤ (half (next s).1).natAbs) (h2 : Zero next s 1) (h3 : Zero next s 2) :
    normFloat64 next T s = some (none, stateAt next s 3) := by
  obtain ⟨-, this⟩ := norm_round next T s
  simp only [h, Int.toNat_zero] at this
  rw [this, if_neg (by omega), if_pos trivial, tail_round]
  have hz : frac (next (next s).2).1 = 0 := frac_eq_zero.mpr h2
  have hz' : frac (next (next (next s).2).2).1 = 0 := frac_eq_zero.mpr h3
  rw [hz, hz', negLog, if_pos rfl]
  rfl

end

/-! ## The loops end -/

/-- A word which ends every loop: returned at once by both functions, and accepted as either number of the tail. -/
def Good (w : Word) : Prop :=
  (half w).natAbs < knTab.getD (half w % 128).toNat 0 ∧ w.toNat / 2 ^ 32 < keTab.getD (w.toNat / 2 ^ 32 % 256) 0 ∧
  2 ^ 52 ≤ w.toNat % 2 ^ 53 ∧ w.toNat % 2 ^ 53 ≤ 2 ^ 53 * 9 / 10

instance (w : Word) : Decidable (Good w) := by unfold Good; infer_instance

/-- Three good words in succession. -/
def goodState : PCG := ⟨BitVec.ofNat 64 311538645625138037072, 16⟩

theorem goodState_good : Good goodState.output ∧ Good goodState.advance.output ∧
    Good goodState.advance.advance.output := by decide +kernel

theorem good_ahead (p : PCG) : ∃ k, Good (draw PCG.uint64 p k) ∧ Good (draw PCG.uint64 p (k + 1)) ∧
    Good (draw PCG.uint64 p (k + 2)) := by
  obtain ⟨k, -, hk⟩ := pcg_reaches p goodState
  refine ⟨k, ?_⟩
  have h : ∀ j, draw PCG.uint64 p j = (PCG.advance^[j + 1] p).output := stream_eq p
  rw [h, h, h, Function.iterate_succ_apply' _ (k + 2), Function.iterate_succ_apply' _ (k + 1), hk]
  exact goodState_good

section

variable {S : Type} (next : S → Word × S)

theorem good_accept {a b : Word} (ha : Good a) (hb : Good b) :
    tailAccept ((negLog (frac a)).map (· * (1 / rn))) (negLog (frac b)) = true := by
  obtain ⟨-, -, ha, -⟩ := ha
  obtain ⟨-, -, hb1, hb⟩ := hb
  have a1 : 1 / 2 ≤ frac a := by
    have : ((2 ^ 52 : Nat) : ℝ) ≤ (a.toNat % 2 ^ 53 : Nat) := by exact_mod_cast ha
    unfold frac
    rw [le_div_iff₀ (by positivity)]
    refine le_trans (le_of_eq ?_) this
    norm_num
  have b0 : 0 < frac b := lt_of_lt_of_le (by positivity) (frac_pos (w := b) (by omega))
  have b1 : frac b ≤ 9 / 10 := by
    have : b.toNat % 2 ^ 53 * 10 ≤ 2 ^ 53 * 9 := by omega
    have : ((b.toNat % 2 ^ 53 : Nat) : ℝ) * 10 ≤ 2 ^ 53 * 9 := by exact_mod_cast this
    unfold frac
    rw [div_le_iff₀ (by positivity)]
    norm_num at this ⊢
    linarith
  rw [negLog, negLog, if_neg (by linarith), if_neg b0.ne']
  simp only [Option.map_some, tailAccept, decide_eq_true_eq]
  have hl := Real.log_two_lt_d9
  have h1 : -Real.log (frac a) ≤ Real.log 2 := by
    have := Real.log_le_log (by norm_num) a1
    rw [one_div, Real.log_inv] at this
    linarith
  have h2 : 0 ≤ -Real.log (frac a) := by
    have := Real.log_nonpos (by linarith) (frac_lt a).le
    linarith
  have h3 : 1 / 10 ≤ -Real.log (frac b) := by
    have := Real.log_le_sub_one_of_pos b0
    linarith
  have h4 : (1 / rn : ℝ) ≤ 3 / 10 := by norm_num [rn]
  have h5 : 0 ≤ (1 / rn : ℝ) := by have := rn_pos; positivity
  have h6 : -Real.log (frac a) * (1 / rn) ≤ 7 / 10 * (3 / 10) := mul_le_mul (by linarith) h4 h5 (by norm_num)
  have h7 : 0 ≤ -Real.log (frac a) * (1 / rn) := mul_nonneg h2 h5
  nlinarith

theorem normTail_ends : ∀ (k : Nat) (s : S), (Good (draw next s k) ∧ Good (draw next s (k + 1)) ∧
    Good (draw next s (k + 2))) → ∃ r, normTail next s = some r
  | 0, s, ⟨h1, h2, _⟩ => by
    exact ⟨_, (tail_round next s).trans (if_pos (good_accept h1 h2))⟩
  | 1, s, ⟨h1, h2, h3⟩ => by
    rw [tail_round]
    split
    · exact ⟨_, rfl⟩
    · exact ⟨_, (tail_round next _).trans (if_pos (good_accept h2 h3))⟩
  | k + 2, s, h => by
    rw [tail_round]
    split
    · exact ⟨_, rfl⟩
    · exact normTail_ends k _ h

theorem norm_quick (T : Tables) {s : S} (h : Good (next s).1) : ∃ r, normFloat64 next T s = some r := by
  rw [(norm_round next T s).2, if_pos h.1]
  exact ⟨_, rfl⟩

theorem exp_quick (T : Tables) {s : S} (h : Good (next s).1) : ∃ r, expFloat64 next T s = some r := by
  rw [exp_round next T s, if_pos h.2.1]
  exact ⟨_, rfl⟩

/-- If the tail loop always ends and two good words are ahead, `NormFloat64` returns. -/
theorem norm_ends (T : Tables) (hall : ∀ s, ∃ r, normTail next s = some r) : ∀ (k : Nat) (s : S),
    Good (draw next s k) ∧ Good (draw next s (k + 1)) → ∃ r, normFloat64 next T s = some r
  | 0, s, ⟨h1, _⟩ => norm_quick next T h1
  | k + 1, s, h => by
    classical
    rw [(norm_round next T s).2]
    split
    · exact ⟨_, rfl⟩
    split
    · obtain ⟨r, hr⟩ := hall (next s).2
      rw [hr]; exact ⟨_, rfl⟩
    split
    · exact ⟨_, rfl⟩
    · match k, h with
      | 0, h => exact norm_quick next T h.2
      | k + 1, h => exact norm_ends T hall k _ h

theorem exp_ends (T : Tables) : ∀ (k : Nat) (s : S),
    Good (draw next s k) ∧ Good (draw next s (k + 1)) → ∃ r, expFloat64 next T s = some r
  | 0, s, ⟨h1, _⟩ => exp_quick next T h1
  | k + 1, s, h => by
    classical
    rw [exp_round next T s]
    split
    · exact ⟨_, rfl⟩
    split
    · exact ⟨_, rfl⟩
    split
    · exact ⟨_, rfl⟩
    · match k, h with
      | 0, h => exact exp_quick next T h.2
      | k + 1, h => exact exp_ends T k _ h

end

/-- **C73.** With the library's generator both functions return, from every state. -/
theorem zig_total (T : Tables) (p : PCG) :
    (∃ r, normFloat64 PCG.uint64 T p = some r) ∧ ∃ r, expFloat64 PCG.uint64 T p = some r := by
  obtain ⟨k, h1, h2, -⟩ := good_ahead p
  refine ⟨norm_ends _ T (fun s => ?_) k p ⟨h1, h2⟩, exp_ends _ T k p ⟨h1, h2⟩⟩
  obtain ⟨m, hm⟩ := good_ahead s
  exact normTail_ends _ m s hm

end Verif.Rand
