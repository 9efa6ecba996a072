import Verif.Props.PCG
import Mathlib.Data.List.Perm.Basic
import Mathlib.Data.List.Nodup
import Mathlib.Data.Nat.Prime.Basic
import Mathlib.Algebra.Order.Field.Basic
import Mathlib.Tactic.FieldSimp
import Mathlib.Tactic.Positivity

/-!
# C40: what is derived from a source of random words

For every source: ranges, permutations, bytes. "Uniform" is stated by counting: every result comes from the same number
of draws.
-/

set_option autoImplicit false
set_option linter.unusedSimpArgs false

namespace Verif.Rand

/-! ## The words drawn -/

section

variable {S : Type} (next : S → Word × S)

/-- The state after `k` draws. -/
def stateAt (s : S) (k : Nat) : S := (fun s => (next s).2)^[k] s

/-- The `k`-th word drawn, from 0. -/
def draw (s : S) (k : Nat) : Word := (next (stateAt next s k)).1

theorem stateAt_succ (s : S) (k : Nat) : stateAt next s (k + 1) = stateAt next (next s).2 k := rfl

theorem stateAt_succ' (s : S) (k : Nat) : stateAt next s (k + 1) = (next (stateAt next s k)).2 :=
  Function.iterate_succ_apply' _ _ _

theorem draw_succ (s : S) (k : Nat) : draw next s (k + 1) = draw next (next s).2 k := rfl

/-! ## Uint64n -/

/-- The words from which a number below `n` may be made: those below the greatest multiple of `n`. -/
def Accepts (n v : Word) : Prop := v.toNat < 2 ^ 64 / n.toNat * n.toNat

instance (n v : Word) : Decidable (Accepts n v) := inferInstanceAs (Decidable (_ < _))

theorem toNat_sub_one {n : Word} (h : n ≠ 0) : (n - 1).toNat = n.toNat - 1 := by
  have h0 : n.toNat ≠ 0 := fun h0 => h (BitVec.eq_of_toNat_eq h0)
  have := n.isLt
  rw [BitVec.toNat_sub]
  have h1 : (1 : Word).toNat = 1 := rfl
  rw [h1]
  omega

theorem pow_of_mask {n : Word} (h : n ≠ 0) (hm : n &&& (n - 1) = 0) : ∃ k ≤ 64, n.toNat = 2 ^ k := by
  have h0 : n.toNat ≠ 0 := fun h0 => h (BitVec.eq_of_toNat_eq h0)
  have := congrArg BitVec.toNat hm
  rw [BitVec.toNat_and, toNat_sub_one h] at this
  obtain ⟨k, hk⟩ := (Nat.and_sub_one_eq_zero_iff_isPowerOfTwo h0).1 this
  refine ⟨k, ?_, hk⟩
  have := n.isLt
  rw [hk] at this
  exact (Nat.pow_lt_pow_iff_right (by norm_num)).1 this |>.le

theorem mask_of_pow {n : Word} (h : n ≠ 0) {k : Nat} (hk : n.toNat = 2 ^ k) : n &&& (n - 1) = 0 := by
  have h0 : n.toNat ≠ 0 := fun h0 => h (BitVec.eq_of_toNat_eq h0)
  apply BitVec.eq_of_toNat_eq
  rw [BitVec.toNat_and, toNat_sub_one h]
  exact (Nat.and_sub_one_eq_zero_iff_isPowerOfTwo h0).2 ⟨k, hk⟩

theorem redraw_spec {c v : Word} {s : S} {r : Word × S} (h : redraw next c v s = some r) :
    (v < c ∧ r = (v, s)) ∨
      (c ≤ v ∧ ∃ k, (∀ j < k, c ≤ draw next s j) ∧ draw next s k < c ∧
        r = (draw next s k, stateAt next s (k + 1))) := by
  revert v s r
  apply redraw.partial_correctness (next := next) (ceiling := c)
    (motive := fun v s r => (v < c ∧ r = (v, s)) ∨
      (c ≤ v ∧ ∃ k, (∀ j < k, c ≤ draw next s j) ∧ draw next s k < c ∧
        r = (draw next s k, stateAt next s (k + 1))))
  intro f ih v s r h
  split at h
  · rename_i hc
    right
    refine ⟨hc, ?_⟩
    rcases ih _ _ _ h with ⟨h1, h2⟩ | ⟨h1, k, h2, h3, h4⟩
    · exact ⟨0, by omega, h1, h2⟩
    · refine ⟨k + 1, ?_, h3, h4⟩
      intro j hj
      cases j with
      | zero => exact h1
      | succ j => exact h2 j (by omega)
  · rename_i hc
    left
    exact ⟨BitVec.not_le.1 hc, (Option.some.inj h).symm⟩

theorem ceiling_toNat {n : Word} (h : n ≠ 0) (hm : n &&& (n - 1) ≠ 0) :
    (maxUint64 - maxUint64 % n).toNat = 2 ^ 64 / n.toNat * n.toNat := by
  have h0 : n.toNat ≠ 0 := fun h0 => h (BitVec.eq_of_toNat_eq h0)
  have hmax : maxUint64.toNat = 2 ^ 64 - 1 := by decide
  have hle : maxUint64 % n ≤ maxUint64 := by
    rw [BitVec.le_def, BitVec.toNat_umod]
    exact Nat.mod_le _ _
  rw [BitVec.toNat_sub_of_le hle, BitVec.toNat_umod, hmax]
  have hnd : ¬ n.toNat ∣ 2 ^ 64 := by
    intro hd
    obtain ⟨k, _, hk⟩ := (Nat.dvd_prime_pow Nat.prime_two).1 hd
    exact hm (mask_of_pow h hk)
  have e1 := Nat.div_add_mod (2 ^ 64 - 1) n.toNat
  have e2 : (2 ^ 64 - 1) / n.toNat = 2 ^ 64 / n.toNat := by
    have h3 := Nat.succ_div_of_not_dvd (a := 2 ^ 64 - 1) (b := n.toNat) hnd
    exact h3.symm
  rw [← e2, Nat.mul_comm]
  exact Nat.sub_eq_of_eq_add e1.symm

theorem uint64n_redraw {n : Word} (h : n ≠ 0) (hm : n &&& (n - 1) ≠ 0) (s : S) :
    uint64n next n s
      = (redraw next (maxUint64 - maxUint64 % n) (next s).1 (next s).2).map fun r => (r.1 % n, r.2) := by
  have h0 : n.toNat ≠ 0 := fun h0 => h (BitVec.eq_of_toNat_eq h0)
  have hmax : maxUint64.toNat = 2 ^ 64 - 1 := by decide
  unfold uint64n
  rw [if_neg hm]
  by_cases hv : (next s).1 > maxUint64 - n
  · simp only [hv, if_true]
    cases redraw next (maxUint64 - maxUint64 % n) (next s).1 (next s).2 <;> rfl
  · have : (next s).1 < maxUint64 - maxUint64 % n := by
      have h1 : (next s).1 ≤ maxUint64 - n := BitVec.not_lt.1 hv
      have hle : maxUint64 % n ≤ maxUint64 := by
        rw [BitVec.le_def, BitVec.toNat_umod]
        exact Nat.mod_le _ _
      have hle2 : n ≤ maxUint64 := by
        rw [BitVec.le_def, hmax]
        have := n.isLt
        omega
      rw [BitVec.le_def, BitVec.toNat_sub_of_le hle2] at h1
      rw [BitVec.lt_def, BitVec.toNat_sub_of_le hle, BitVec.toNat_umod]
      have h2 := Nat.mod_lt maxUint64.toNat (Nat.pos_of_ne_zero h0)
      have h3 := Nat.mod_le maxUint64.toNat n.toNat
      rw [BitVec.le_def] at hle2
      omega
    rw [redraw, if_neg (BitVec.not_le.2 this)]
    simp only [hv, if_false]
    rfl

/-- One draw of `Uint64n`: an accepted word gives its residue, another is thrown away. -/
theorem uint64n_step {n : Word} (h : n ≠ 0) (s : S) :
    uint64n next n s = if Accepts n (next s).1 then some ((next s).1 % n, (next s).2)
      else uint64n next n (next s).2 := by
  have h0 : n.toNat ≠ 0 := fun h0 => h (BitVec.eq_of_toNat_eq h0)
  by_cases hm : n &&& (n - 1) = 0
  · obtain ⟨k, hk, hn⟩ := pow_of_mask h hm
    have hacc : ∀ v : Word, Accepts n v := by
      intro v
      unfold Accepts
      rw [hn, Nat.div_mul_cancel (pow_dvd_pow 2 hk)]
      exact v.isLt
    rw [if_pos (hacc _), uint64n, if_pos hm, if_neg h]
    congr 2
    apply BitVec.eq_of_toNat_eq
    rw [BitVec.toNat_and, BitVec.toNat_umod, toNat_sub_one h, hn, Nat.and_two_pow_sub_one_eq_mod]
  · have hc := ceiling_toNat h hm
    rw [uint64n_redraw next h hm, uint64n_redraw next h hm, redraw]
    have ha : Accepts n (next s).1 ↔ ¬ (next s).1 ≥ maxUint64 - maxUint64 % n := by
      unfold Accepts
      rw [ge_iff_le, BitVec.le_def, hc]
      omega
    by_cases hv : (next s).1 ≥ maxUint64 - maxUint64 % n
    · rw [if_pos hv, if_neg (fun h => ha.1 h hv)]
    · rw [if_neg hv, if_pos (ha.2 hv)]
      rfl

/-- **C40.** `Uint64n` panics for 0; otherwise its result is the residue of the first accepted word, and it returns
exactly if there is one. -/
theorem uint64n_spec (n : Word) (s : S) (r : Word) (s' : S) :
    uint64n next n s = some (r, s') ↔
      n ≠ 0 ∧ ∃ k, (∀ j < k, ¬ Accepts n (draw next s j)) ∧ Accepts n (draw next s k) ∧
        r = draw next s k % n ∧ s' = stateAt next s (k + 1) := by
  constructor
  · intro h
    by_cases hn : n = 0
    · subst hn
      simp [uint64n] at h
    refine ⟨hn, ?_⟩
    by_cases hm : n &&& (n - 1) = 0
    · rw [uint64n_step next hn] at h
      obtain ⟨k, hk, hp⟩ := pow_of_mask hn hm
      have hacc : Accepts n (next s).1 := by
        unfold Accepts
        rw [hp, Nat.div_mul_cancel (pow_dvd_pow 2 hk)]
        exact (next s).1.isLt
      rw [if_pos hacc] at h
      obtain ⟨rfl, rfl⟩ := Prod.mk.inj (Option.some.inj h)
      exact ⟨0, by omega, hacc, rfl, rfl⟩
    · rw [uint64n_redraw next hn hm, Option.map_eq_some_iff] at h
      obtain ⟨q, hq, he⟩ := h
      obtain ⟨rfl, rfl⟩ := Prod.mk.inj he
      have hc := ceiling_toNat hn hm
      have ha : ∀ v : Word, Accepts n v ↔ v < maxUint64 - maxUint64 % n := by
        intro v; unfold Accepts; rw [BitVec.lt_def, hc]
      rcases redraw_spec next hq with ⟨h1, rfl⟩ | ⟨h1, k, h2, h3, rfl⟩
      · exact ⟨0, by omega, (ha _).2 h1, rfl, rfl⟩
      · refine ⟨k + 1, ?_, (ha _).2 h3, rfl, rfl⟩
        intro j hj
        rw [ha, BitVec.not_lt]
        cases j with
        | zero => exact h1
        | succ j => exact h2 j (by omega)
  · rintro ⟨hn, k, h1, h2, rfl, rfl⟩
    induction k generalizing s with
    | zero =>
      change Accepts n (next s).1 at h2
      rw [uint64n_step next hn, if_pos h2]
      rfl
    | succ k ih =>
      have h0 : ¬ Accepts n (next s).1 := h1 0 (by omega)
      rw [uint64n_step next hn, if_neg h0]
      exact ih _ (fun j hj => h1 (j + 1) (by omega)) h2

/-- **C40.** `Uint64n(n) < n`. -/
theorem uint64n_lt {n : Word} {s : S} {r : Word} {s' : S} (h : uint64n next n s = some (r, s')) : r < n := by
  obtain ⟨hn, k, _, _, rfl, _⟩ := (uint64n_spec next n s r s').1 h
  have h0 : n.toNat ≠ 0 := fun h0 => hn (BitVec.eq_of_toNat_eq h0)
  rw [BitVec.lt_def, BitVec.toNat_umod]
  exact Nat.mod_lt _ (by omega)

/-- **C40.** Every number below `n` is made of the same number of accepted words. -/
theorem uint64n_uniform (n : Word) (r : Word) (hr : r < n) :
    Nat.card {v : Word // Accepts n v ∧ v % n = r} = 2 ^ 64 / n.toNat := by
  rw [BitVec.lt_def] at hr
  have hn : 0 < n.toNat := by omega
  have hpow : 2 ^ 64 / n.toNat * n.toNat ≤ 2 ^ 64 := Nat.div_mul_le_self _ _
  generalize hK : 2 ^ 64 / n.toNat = K at *
  have hacc : ∀ v : Word, Accepts n v ↔ v.toNat < K * n.toNat := by
    intro v; unfold Accepts; rw [hK]
  have hlt : ∀ i : Fin K, i.1 * n.toNat + r.toNat < K * n.toNat := by
    intro i
    calc i.1 * n.toNat + r.toNat < i.1 * n.toNat + n.toNat := by omega
      _ = (i.1 + 1) * n.toNat := by ring
      _ ≤ K * n.toNat := Nat.mul_le_mul_right _ i.2
  have e : {v : Word // Accepts n v ∧ v % n = r} ≃ Fin K :=
    { toFun := fun v => ⟨v.1.toNat / n.toNat, by
        have h1 := (hacc _).1 v.2.1
        exact Nat.div_lt_of_lt_mul (by rwa [Nat.mul_comm])⟩
      invFun := fun i => ⟨BitVec.ofNat 64 (i.1 * n.toNat + r.toNat), by
        have h1 := hlt i
        have h2 : (BitVec.ofNat 64 (i.1 * n.toNat + r.toNat)).toNat = i.1 * n.toNat + r.toNat := by
          rw [BitVec.toNat_ofNat, Nat.mod_eq_of_lt (by omega)]
        constructor
        · rw [hacc, h2]
          exact h1
        · apply BitVec.eq_of_toNat_eq
          rw [BitVec.toNat_umod, h2, Nat.mul_comm, Nat.mul_add_mod, Nat.mod_eq_of_lt hr]⟩
      left_inv := by
        rintro ⟨v, h1, rfl⟩
        apply Subtype.ext
        apply BitVec.eq_of_toNat_eq
        simp only [BitVec.toNat_ofNat, BitVec.toNat_umod]
        rw [Nat.div_add_mod', Nat.mod_eq_of_lt v.isLt]
      right_inv := by
        intro i
        apply Fin.ext
        have h1 := hlt i
        simp only [BitVec.toNat_ofNat]
        rw [Nat.mod_eq_of_lt (by omega), Nat.mul_comm, Nat.mul_add_div hn, Nat.div_eq_of_lt hr, Nat.add_zero] }
  rw [Nat.card_congr e, Nat.card_eq_fintype_card, Fintype.card_fin]

/-- Five is not a power of two: of the words 2^64-1 is thrown away, the others give each residue 2^64/5 times. -/
example : ¬ Accepts 5 (BitVec.ofNat 64 (2 ^ 64 - 1)) ∧ Accepts 5 (BitVec.ofNat 64 (2 ^ 64 - 2)) ∧
    Nat.card {v : Word // Accepts 5 v ∧ v % 5 = 3} = 2 ^ 64 / 5 :=
  ⟨by decide, by decide, uint64n_uniform 5 3 (by decide)⟩

/-- **C40.** With the library's generator `Uint64n` always returns. -/
theorem uint64n_total {n : Word} (hn : n ≠ 0) (p : PCG) : ∃ r, uint64n PCG.uint64 n p = some r := by
  have h0 : n.toNat ≠ 0 := fun h0 => hn (BitVec.eq_of_toNat_eq h0)
  have hz : Accepts n 0 := by
    unfold Accepts
    have h1 : 0 < 2 ^ 64 / n.toNat := Nat.div_pos n.isLt.le (by omega)
    exact Nat.mul_pos h1 (by omega)
  have hex : ∃ k, Accepts n (draw PCG.uint64 p k) := by
    obtain ⟨k, _, hk⟩ := pcg_reaches p ⟨0, 0⟩
    refine ⟨k, ?_⟩
    have : draw PCG.uint64 p k = (PCG.advance^[k + 1] p).output := stream_eq p k
    rw [this, hk]
    exact hz
  classical
  have hmin := Nat.find_spec hex
  exact ⟨_, (uint64n_spec PCG.uint64 n p _ _).2
    ⟨hn, Nat.find hex, fun j hj => Nat.find_min hex hj, hmin, rfl, rfl⟩⟩

/-! ## The other ranges -/

/-- **C40.** `Intn(n)` and `Int63n(n)` panic unless `n` is positive; otherwise the result is below `n`. -/
theorem intn_lt {n : Int} {s : S} {r : Nat} {s' : S} (hn : n < 2 ^ 63) (h : intn next n s = some (r, s')) :
    0 < n ∧ (r : Int) < n := by
  unfold intn at h
  split at h
  · simp at h
  · rename_i hp
    simp only [Option.bind_eq_bind, Option.bind_eq_some_iff, Option.some.injEq, Prod.mk.injEq] at h
    obtain ⟨q, hq, rfl, rfl⟩ := h
    have h1 := uint64n_lt next hq
    rw [BitVec.lt_def, BitVec.toNat_ofInt] at h1
    omega

theorem intn_eq {n : Nat} (h0 : 0 < n) (hn : n < 2 ^ 63) (s : S) :
    intn next n s = (uint64n next (BitVec.ofNat 64 n) s).map fun r => (r.1.toNat, r.2) := by
  unfold intn
  rw [if_neg (by omega), BitVec.ofInt_natCast]
  cases uint64n next (BitVec.ofNat 64 n) s <;> rfl

theorem intn_total {n : Int} (h0 : 0 < n) (hn : n < 2 ^ 63) (p : PCG) : ∃ r, intn PCG.uint64 n p = some r := by
  obtain ⟨n, rfl⟩ := Int.eq_ofNat_of_zero_le h0.le
  have hne : BitVec.ofNat 64 n ≠ 0 := by
    intro h
    have := congrArg BitVec.toNat h
    rw [BitVec.toNat_ofNat] at this
    have h1 : (0 : Word).toNat = 0 := rfl
    rw [h1] at this
    omega
  obtain ⟨r, hr⟩ := uint64n_total hne p
  rw [intn_eq PCG.uint64 (by omega) (by omega), hr]
  exact ⟨_, rfl⟩

/-- **C40.** `Int31n` is `Int63n` where it is applicable. -/
theorem int31n_eq {n : Int} (hn : n < 2 ^ 31) (s : S) : int31n next n s = intn next n s := by
  unfold int31n intn
  split
  · rfl
  · rename_i hp
    cases hq : uint64n next (BitVec.ofInt 64 n) s with
    | none => rfl
    | some q =>
      have h1 := uint64n_lt next (r := q.1) (s' := q.2) hq
      rw [BitVec.lt_def, BitVec.toNat_ofInt] at h1
      have h2 : toInt32 (q.1.toNat : Int) = q.1.toNat := by
        unfold toInt32
        rw [BitVec.toInt_ofInt, Int.bmod_eq_of_le] <;> omega
      simp only [Option.bind_eq_bind, Option.bind_some, h2, Int.toNat_natCast]

/-- **C40.** `Int63`, `Int`: the lower 63 bits. -/
theorem int63_spec (s : S) : (int63 next s).1.toNat = (next s).1.toNat % 2 ^ 63 ∧ int next s = int63 next s := by
  have h : (int63 next s).1 = (next s).1 <<< 1 >>> 1 := by
    unfold int63
    apply BitVec.eq_of_getLsbD_eq
    intro i hi
    simp only [BitVec.getLsbD_and, BitVec.getLsbD_not, BitVec.getLsbD_shiftLeft, BitVec.getLsbD_ushiftRight]
    by_cases h : i = 63
    · subst h
      simp
    · have h1 : i < 63 := by omega
      have h2 : 1 + i < 64 := by omega
      simp [h1, h2, hi, Nat.add_sub_cancel_left]
  refine ⟨?_, ?_⟩
  · rw [h, BitVec.toNat_ushiftRight, BitVec.toNat_shiftLeft, Nat.shiftLeft_eq, Nat.shiftRight_eq_div_pow]
    omega
  · unfold int
    rw [← h]
    rfl

/-- **C40.** `Uint32` and `Int31`: the upper bits. -/
theorem uint32_spec (s : S) : (uint32 next s).1.toNat = (next s).1.toNat / 2 ^ 32 ∧
    (int31 next s).1.toNat = (next s).1.toNat / 2 ^ 33 := by
  have := (next s).1.isLt
  unfold uint32 int31
  simp only [BitVec.toNat_setWidth, BitVec.toNat_ushiftRight, Nat.shiftRight_eq_div_pow]
  constructor <;> omega

/-- **C40.** `Float64` never fails: the lower 53 bits of one word, as a fraction. -/
theorem float64_eq (s : S) :
    float64 next s = some ((((next s).1.toNat % 2 ^ 53 : Nat) : ℚ) / 2 ^ 53, (next s).2) := by
  have hu : uint64n next ((1 : Word) <<< 53) s = some ((next s).1 &&& ((1 : Word) <<< 53 - 1), (next s).2) := by
    rw [uint64n, if_pos (by decide), if_neg (by decide)]
  have hm : ((next s).1 &&& ((1 : Word) <<< 53 - 1)).toNat = (next s).1.toNat % 2 ^ 53 := by
    rw [BitVec.toNat_and, show ((1 : Word) <<< 53 - 1).toNat = 2 ^ 53 - 1 by decide, Nat.and_two_pow_sub_one_eq_mod]
  rw [float64, hu]
  simp only [Option.bind_eq_bind, Option.bind_some, hm]
  rw [if_neg]
  have h1 : (next s).1.toNat % 2 ^ 53 < 2 ^ 53 := Nat.mod_lt _ (by norm_num)
  have h2 : (((next s).1.toNat % 2 ^ 53 : Nat) : ℚ) < 2 ^ 53 := by exact_mod_cast h1
  rw [div_eq_one_iff_eq (by positivity)]
  exact h2.ne

/-- **C40.** `Float64` is in [0,1). -/
theorem float64_range {s : S} {f : ℚ} {s' : S} (h : float64 next s = some (f, s')) : 0 ≤ f ∧ f < 1 := by
  rw [float64_eq] at h
  obtain ⟨rfl, _⟩ := Prod.mk.inj (Option.some.inj h)
  refine ⟨by positivity, ?_⟩
  rw [div_lt_one (by positivity)]
  have h1 : (next s).1.toNat % 2 ^ 53 < 2 ^ 53 := Nat.mod_lt _ (by norm_num)
  exact_mod_cast h1

/-- **C40.** `Float32` is in [0,1) for every way of rounding which keeps the order and 0 and 1. -/
theorem float32_range {rnd : ℚ → ℚ} (hm : Monotone rnd) (h0 : rnd 0 = 0) (h1 : rnd 1 = 1) {s : S} {f : ℚ} {s' : S}
    (h : float32 next rnd s = some (f, s')) : 0 ≤ f ∧ f < 1 := by
  have key : ∀ s r, float32 next rnd s = some r → 0 ≤ r.1 ∧ r.1 < 1 := by
    apply float32.partial_correctness
    intro g ih s r hg
    simp only [Option.bind_eq_bind, Option.bind_eq_some_iff] at hg
    obtain ⟨q, hq, hr⟩ := hg
    obtain ⟨b1, b2⟩ := float64_range next (f := q.1) (s' := q.2) hq
    have c1 : 0 ≤ rnd q.1 := by rw [← h0]; exact hm b1
    have c2 : rnd q.1 ≤ 1 := by rw [← h1]; exact hm b2.le
    split at hr
    · exact ih _ _ hr
    · rename_i hne
      obtain rfl := Option.some.inj hr
      exact ⟨c1, lt_of_le_of_ne c2 hne⟩
  exact key s _ h

end

end Verif.Rand
