import Verif.Model.Rand
import Mathlib.Algebra.Field.GeomSum
import Mathlib.Algebra.Ring.GeomSum
import Mathlib.Algebra.BigOperators.Intervals
import Mathlib.Data.Int.ModEq
import Mathlib.Data.Fintype.EquivFin
import Mathlib.SetTheory.Cardinal.Finite
import Mathlib.Data.Int.GCD
import Mathlib.RingTheory.Coprime.Lemmas
import Mathlib.Logic.Function.Iterate
import Mathlib.Tactic.Ring
import Mathlib.Tactic.Linarith
import Mathlib.Tactic.LinearCombination
import Mathlib.Tactic.IntervalCases
import Mathlib.Tactic.NormNum

/-!
# C41: the generator

The state is one number below 2^128, `PCG.value`. The specification is the recurrence `s ↦ (a·s + c) mod 2^128` and
what follows for its orbits and for the words put out.
-/

set_option autoImplicit false
set_option linter.unusedSimpArgs false

namespace Verif.Rand

/-- The state as one 128-bit number. -/
def PCG.value (p : PCG) : Nat := p.high.toNat * 2 ^ 64 + p.low.toNat

/-- The state with a given number. -/
def PCG.ofValue (n : Nat) : PCG := ⟨BitVec.ofNat 64 n, BitVec.ofNat 64 (n / 2 ^ 64)⟩

theorem PCG.value_lt (p : PCG) : p.value < 2 ^ 128 := by
  have := p.high.isLt; have := p.low.isLt; unfold value; omega

theorem PCG.value_inj {p q : PCG} (h : p.value = q.value) : p = q := by
  have := p.high.isLt; have := p.low.isLt; have := q.high.isLt; have := q.low.isLt
  unfold value at h
  ext1
  · exact BitVec.eq_of_toNat_eq (by omega)
  · exact BitVec.eq_of_toNat_eq (by omega)

theorem PCG.value_ofValue {n : Nat} (h : n < 2 ^ 128) : (PCG.ofValue n).value = n := by
  simp only [ofValue, value, BitVec.toNat_ofNat]
  omega

theorem mul_words : mulHigh.toNat * 2 ^ 64 + mulLow.toNat = multiplier := by decide

theorem inc_words : incHigh.toNat * 2 ^ 64 + incLow.toNat = increment := by decide

theorem pow64 : 2 ^ 64 = 18446744073709551616 := by norm_num

theorem pow128 : 2 ^ 128 = 340282366920938463463374607431768211456 := by norm_num

theorem add_words (h l ih il : Word) {c : Nat} (hc : ih.toNat * 2 ^ 64 + il.toNat = c) :
    (add64 h ih (add64 l il 0).2).1.toNat * 2 ^ 64 + (add64 l il 0).1.toNat
      = (h.toNat * 2 ^ 64 + l.toNat + c) % 2 ^ 128 := by
  have h1 := h.isLt; have h2 := l.isLt; have h3 := ih.isLt; have h4 := il.isLt
  have h0 : (0 : Word).toNat = 0 := rfl
  simp only [add64, BitVec.toNat_add, BitVec.toNat_ofNat, h0, Nat.add_zero, Nat.mod_mod]
  rw [pow64] at *
  rw [pow128]
  generalize h.toNat = h at *
  generalize l.toNat = l at *
  generalize ih.toNat = ih at *
  generalize il.toNat = il at *
  have : (l + il) / 18446744073709551616 % 18446744073709551616 = (l + il) / 18446744073709551616 := by omega
  rw [this]
  subst hc
  omega

theorem PCG.value_add (p : PCG) : p.add.value = (p.value + increment) % 2 ^ 128 :=
  add_words p.high p.low incHigh incLow inc_words

theorem carry_spec {B : Nat} (hB : 0 < B) (x y w : Nat) :
    (x / B + y) % B * B + x % B = (B * B * w + y * B + x) % (B * B) := by
  have e : B * B * w + y * B + x = x % B + B * (B * w + (x / B + y)) := by
    conv_lhs => rw [← Nat.div_add_mod x B]
    ring
  rw [Nat.mod_mul, e, Nat.add_mul_mod_self_left, Nat.mod_mod, Nat.add_mul_div_left _ _ hB,
    Nat.div_eq_of_lt (Nat.mod_lt _ hB), Nat.zero_add, Nat.mul_add_mod]
  ring

theorem mul_words_spec (h l mh ml : Word) {c : Nat} (hc : mh.toNat * 2 ^ 64 + ml.toNat = c) :
    ((mul64 l ml).1 + h * ml + l * mh).toNat * 2 ^ 64 + (mul64 l ml).2.toNat
      = c * (h.toNat * 2 ^ 64 + l.toNat) % 2 ^ 128 := by
  simp only [mul64, BitVec.toNat_add, BitVec.toNat_mul, BitVec.toNat_ofNat, Nat.mod_add_mod, Nat.add_mod_mod]
  rw [pow64] at *
  rw [pow128]
  generalize h.toNat = h at *
  generalize l.toNat = l at *
  generalize mh.toNat = mh at *
  generalize ml.toNat = ml at *
  have e : c * (h * 18446744073709551616 + l) = 340282366920938463463374607431768211456 * (mh * h)
      + (h * ml + l * mh) * 18446744073709551616 + l * ml := by
    rw [← hc]; ring
  rw [e, Nat.add_assoc (_ / _)]
  exact carry_spec (B := 18446744073709551616) (by norm_num) _ _ _

theorem PCG.value_multiply (p : PCG) : p.multiply.value = multiplier * p.value % 2 ^ 128 :=
  mul_words_spec p.high p.low mulHigh mulLow mul_words

theorem step_parts {a c v w x : Nat} (hw : w = a * v % 2 ^ 128) (hx : x = (w + c) % 2 ^ 128) :
    x = (a * v + c) % 2 ^ 128 := by
  rw [hx, hw, Nat.mod_add_mod]

/-- **C41.** The two-word arithmetic implements `s ↦ a·s + c` modulo 2^128. -/
theorem pcg_recurrence (p : PCG) : p.uint64.2.value = (multiplier * p.value + increment) % 2 ^ 128 := by
  exact step_parts (PCG.value_multiply p) (PCG.value_add p.multiply)

example : (PCG.seed 1).uint64.2.value
    = (47026247687942121848144207491837523525 * (2 ^ 64 + 1) + 117397592171526113268558934119004209487) % 2 ^ 128 :=
  pcg_recurrence _

/-! ## The period -/

/-- Geometric sums of a number which is 1 modulo 4 are divisible by the same powers of two as their length. -/
theorem two_pow_dvd_geom {a : ℤ} (ha : (4 : ℤ) ∣ a - 1) (n : Nat) :
    ∀ k : Nat, (2 : ℤ) ^ n ∣ ∑ i ∈ Finset.range k, a ^ i ↔ (2 : ℤ) ^ n ∣ (k : ℤ) := by
  have odd : ∀ j : Nat, (4 : ℤ) ∣ a ^ j - 1 := fun j => ha.trans (sub_one_dvd_pow_sub_one a j)
  have par : ∀ k : Nat, (2 : ℤ) ∣ (∑ i ∈ Finset.range k, a ^ i) - k := by
    intro k
    induction k with
    | zero => simp
    | succ k ih =>
      rw [Finset.sum_range_succ]
      have h := odd k
      push_cast
      omega
  induction n with
  | zero => intro k; simp
  | succ n ih =>
    intro k
    rcases Nat.even_or_odd' k with ⟨j, rfl | rfl⟩
    · have h2 : (∑ i ∈ Finset.range (2 * j), a ^ i)
          = (1 + a ^ j) * ∑ i ∈ Finset.range j, a ^ i := by
        rw [two_mul, Finset.sum_range_add, add_mul, one_mul, Finset.mul_sum]
        simp only [pow_add]
      obtain ⟨u, hu⟩ : ∃ u : ℤ, 1 + a ^ j = 2 * (2 * u + 1) := by
        obtain ⟨u, hu⟩ := odd j
        exact ⟨u, by linarith⟩
      rw [h2, hu, pow_succ', _root_.mul_assoc, Nat.cast_mul, Nat.cast_ofNat,
        mul_dvd_mul_iff_left (by norm_num), mul_dvd_mul_iff_left (by norm_num), ← ih]
      refine ⟨fun h => ?_, fun h => h.mul_left _⟩
      refine IsCoprime.dvd_of_dvd_mul_left ?_ h
      exact IsCoprime.pow_left ⟨-u, 1, by ring⟩
    · have hp := par (2 * j + 1)
      have h1 : ¬ (2 : ℤ) ^ (n + 1) ∣ ((2 * j + 1 : Nat) : ℤ) := by
        intro h
        have := (Dvd.intro_left _ (pow_succ (2 : ℤ) n).symm).trans h
        push_cast at this
        omega
      have h2 : ¬ (2 : ℤ) ^ (n + 1) ∣ ∑ i ∈ Finset.range (2 * j + 1), a ^ i := by
        intro h
        have := (Dvd.intro_left _ (pow_succ (2 : ℤ) n).symm).trans h
        push_cast at hp this
        omega
      exact iff_of_false h2 h1

/-- Where `k` steps lead. -/
theorem PCG.value_iterate (k : Nat) (p : PCG) :
    ((PCG.advance^[k] p).value : ℤ) ≡
      multiplier ^ k * p.value + increment * ∑ i ∈ Finset.range k, (multiplier : ℤ) ^ i [ZMOD 2 ^ 128] := by
  induction k with
  | zero => simp
  | succ k ih =>
    rw [Function.iterate_succ_apply']
    have h : ((PCG.advance (PCG.advance^[k] p)).value : ℤ)
        ≡ multiplier * (PCG.advance^[k] p).value + increment [ZMOD 2 ^ 128] := by
      have := pcg_recurrence (PCG.advance^[k] p)
      change (PCG.advance _).value = _ at this
      rw [this]
      push_cast
      exact Int.mod_modEq _ _
    refine h.trans (((ih.mul_left _).add_right _).trans ?_)
    have e : ∑ i ∈ Finset.range (k + 1), (multiplier : ℤ) ^ i
        = multiplier * (∑ i ∈ Finset.range k, (multiplier : ℤ) ^ i) + 1 := by
      rw [Finset.sum_range_succ', Finset.mul_sum]
      simp [pow_succ']
    rw [e]
    apply congrArg (· % (2 : ℤ) ^ 128)
    ring

/-- **C41.** From any state, the generator is back at that state after exactly the multiples of 2^128 steps. -/
theorem pcg_period (p : PCG) (k : Nat) : PCG.advance^[k] p = p ↔ 2 ^ 128 ∣ k := by
  have ha : (4 : ℤ) ∣ (multiplier : ℤ) - 1 := by decide
  have hodd : IsCoprime ((2 : ℤ) ^ 128) ((multiplier - 1) * p.value + increment) := by
    apply IsCoprime.pow_left
    obtain ⟨m, hm⟩ := ha
    have : ∃ c : ℤ, (increment : ℤ) = 2 * c + 1 := ⟨increment / 2, by decide⟩
    obtain ⟨c, hc⟩ := this
    exact ⟨-(2 * m * p.value + c), 1, by rw [hm, hc]; ring⟩
  have key : PCG.advance^[k] p = p ↔
      (2 : ℤ) ^ 128 ∣ ((multiplier - 1) * p.value + increment) * ∑ i ∈ Finset.range k, (multiplier : ℤ) ^ i := by
    have e : ((multiplier - 1) * p.value + increment) * ∑ i ∈ Finset.range k, (multiplier : ℤ) ^ i
        = (multiplier ^ k * p.value + increment * ∑ i ∈ Finset.range k, (multiplier : ℤ) ^ i) - p.value := by
      have := geom_sum_mul (multiplier : ℤ) k
      linear_combination (p.value : ℤ) * this
    rw [e, ← Int.modEq_iff_dvd]
    constructor
    · intro h
      have := PCG.value_iterate k p
      rwa [h] at this
    · intro h
      apply PCG.value_inj
      have h2 := (PCG.value_iterate k p).trans h.symm
      have h3 : (PCG.advance^[k] p).value ≡ p.value [MOD 2 ^ 128] := by
        rw [← Int.natCast_modEq_iff]; exact_mod_cast h2
      exact Nat.ModEq.eq_of_lt_of_lt h3 (PCG.value_lt _) (PCG.value_lt _)
  rw [key]
  constructor
  · intro h
    have := (two_pow_dvd_geom ha 128 k).1 (IsCoprime.dvd_of_dvd_mul_left hodd h)
    exact_mod_cast this
  · intro h
    refine Dvd.dvd.mul_left ((two_pow_dvd_geom ha 128 k).2 ?_) _
    exact_mod_cast h

theorem injective_of_period {A : Type} {f : A → A} {N : Nat} (hN : 0 < N) (h : ∀ p, f^[N] p = p) :
    Function.Injective f := by
  obtain ⟨M, rfl⟩ : ∃ M, N = M + 1 := ⟨N - 1, by omega⟩
  have hl : Function.LeftInverse (f^[M]) f := by
    intro p
    rw [← Function.iterate_succ_apply]
    exact h p
  exact hl.injective

theorem PCG.advance_injective : Function.Injective PCG.advance :=
  injective_of_period (N := 2 ^ 128) (Nat.two_pow_pos _) fun p => (pcg_period p _).2 (dvd_refl _)

/-- Within a period no state comes twice. -/
theorem pcg_no_repeat (p : PCG) {i j : Nat} (hi : i < 2 ^ 128) (hj : j < 2 ^ 128)
    (h : PCG.advance^[i] p = PCG.advance^[j] p) : i = j := by
  wlog hij : i ≤ j generalizing i j
  · exact (this hj hi h.symm (by omega)).symm
  have h2 : PCG.advance^[i] (PCG.advance^[j - i] p) = PCG.advance^[i] p := by
    rw [← Function.iterate_add_apply, show i + (j - i) = j by omega, h]
  have h3 := (pcg_period p (j - i)).1 (PCG.advance_injective.iterate i h2)
  have := Nat.eq_zero_of_dvd_of_lt h3 (by omega)
  omega

/-- The states of a period, numbered by the steps leading to them. -/
noncomputable def orbitEquiv (p : PCG) : Fin (2 ^ 128) ≃ PCG := by
  refine Equiv.ofBijective (fun k => PCG.advance^[k.1 + 1] p) ?_
  have hinj : Function.Injective (fun k : Fin (2 ^ 128) => PCG.advance^[k.1 + 1] p) := by
    intro i j h
    apply Fin.ext
    apply pcg_no_repeat p i.2 j.2
    simp only [Function.iterate_succ_apply'] at h
    exact PCG.advance_injective h
  refine ⟨hinj, ?_⟩
  let f : Fin (2 ^ 128) → Fin (2 ^ 128) := fun k => ⟨(PCG.advance^[k.1 + 1] p).value, PCG.value_lt _⟩
  have hf : Function.Injective f := by
    intro i j h
    exact hinj (PCG.value_inj (Fin.mk.inj h))
  have hs := Finite.injective_iff_surjective.1 hf
  intro q
  obtain ⟨k, hk⟩ := hs ⟨q.value, PCG.value_lt q⟩
  exact ⟨k, PCG.value_inj (Fin.mk.inj hk)⟩

/-- **C41.** Every state is reached from every other, by between 1 and 2^128 steps. -/
theorem pcg_reaches (p q : PCG) : ∃ k < 2 ^ 128, PCG.advance^[k + 1] p = q := by
  obtain ⟨k, hk⟩ := (orbitEquiv p).surjective q
  exact ⟨k.1, k.2, hk⟩

/-! ## The words put out -/

theorem rotateLeft64_getLsbD (x : Word) (k : Int) (i : Nat) (hi : i < 64) :
    (rotateLeft64 x k).getLsbD i = x.getLsbD (((i : Int) - k) % 64).toNat := by
  unfold rotateLeft64
  have h1 : (k % 64).toNat < 64 := by omega
  generalize hs : (k % 64).toNat = s at h1
  have e : (((i : Int) - k) % 64).toNat = if i < s then 64 + i - s else i - s := by
    split <;> omega
  rw [e]
  simp only [BitVec.getLsbD_or, BitVec.getLsbD_shiftLeft, BitVec.getLsbD_ushiftRight, hi, decide_true, Bool.true_and]
  by_cases h : i < s
  · simp only [h, decide_true, Bool.not_true, Bool.false_and, Bool.false_or, if_true]
    congr 1; omega
  · simp only [h, decide_false, Bool.not_false, Bool.true_and, if_false]
    by_cases hz : s = 0
    · subst hz
      simp
    · have : x.getLsbD (64 - s + i) = false := BitVec.getLsbD_of_ge _ _ (by omega)
      rw [this, Bool.or_false]

/-- Rotating back. -/
theorem rotateLeft64_neg (x : Word) (k : Int) : rotateLeft64 (rotateLeft64 x k) (-k) = x := by
  apply BitVec.eq_of_getLsbD_eq
  intro i hi
  rw [rotateLeft64_getLsbD _ _ _ hi, rotateLeft64_getLsbD _ _ _ (by omega)]
  congr 1
  omega

/-- For each upper half of the state and each word there is exactly one lower half for which the word is put out. -/
def outputEquiv (w : Word) : {p : PCG // p.output = w} ≃ Word where
  toFun p := p.1.high
  invFun h := ⟨⟨h ^^^ rotateLeft64 w ((h >>> 58).toNat : Int), h⟩, by
    have := rotateLeft64_neg w ((h >>> 58).toNat : Int)
    simp only [PCG.output, ← BitVec.xor_assoc, BitVec.xor_self, BitVec.zero_xor, this]⟩
  left_inv p := by
    obtain ⟨p, rfl⟩ := p
    have := rotateLeft64_neg (p.high ^^^ p.low) (-((p.high >>> 58).toNat : Int))
    rw [neg_neg] at this
    simp only [PCG.output, this, ← BitVec.xor_assoc, BitVec.xor_self, BitVec.zero_xor]
  right_inv h := rfl

/-- The `k`-th word (from 0) drawn from the generator in state `p`. -/
def stream (p : PCG) (k : Nat) : Word := (PCG.uint64 ((fun q => (PCG.uint64 q).2)^[k] p)).1

theorem stream_eq (p : PCG) (k : Nat) : stream p k = (PCG.advance^[k + 1] p).output := by
  rw [Function.iterate_succ_apply']
  rfl

/-- **C41.** The stream repeats with period 2^128. -/
theorem stream_periodic (p : PCG) (k j : Nat) (hj : 2 ^ 128 ∣ j) : stream p (k + j) = stream p k := by
  rw [stream_eq, stream_eq, show k + j + 1 = (k + 1) + j by omega, Function.iterate_add_apply,
    (pcg_period p _).2 hj]

/-- **C41.** Over a period every 64-bit word is drawn exactly 2^64 times. -/
theorem stream_equidistributed (p : PCG) (w : Word) :
    Nat.card {k : Fin (2 ^ 128) // stream p k = w} = 2 ^ 64 := by
  have e : {k : Fin (2 ^ 128) // stream p k = w} ≃ {q : PCG // q.output = w} :=
    (orbitEquiv p).subtypeEquiv fun k => by rw [stream_eq]; rfl
  rw [Nat.card_congr (e.trans (outputEquiv w))]
  have e2 : Word ≃ Fin (2 ^ 64) := ⟨BitVec.toFin, BitVec.ofFin, fun _ => rfl, fun _ => rfl⟩
  rw [Nat.card_congr e2, Nat.card_eq_fintype_card, Fintype.card_fin]

/-! ## Saving and restoring -/

theorem getUint64_putUint64 (v : Word) (rest : List (BitVec 8)) : getUint64 (putUint64 v ++ rest) = some v := by
  simp only [putUint64, List.map_cons, List.map_nil, List.cons_append, List.nil_append, getUint64, Option.some.injEq]
  apply BitVec.eq_of_getLsbD_eq
  intro i hi
  interval_cases i <;> simp

/-- **C41.** Restoring a saved state, into whatever follows it, gives the same state, hence the same stream. -/
theorem unmarshal_marshal (p : PCG) (rest : List (BitVec 8)) : PCG.unmarshal (p.marshal ++ rest) = some p := by
  have h1 : p.marshal.length = 16 := by simp [PCG.marshal, putUint64]
  have h8 : ∀ v : Word, (putUint64 v).length = 8 := fun v => by simp [putUint64]
  have hd : (p.marshal ++ rest).drop 8 = putUint64 p.low ++ rest := by
    rw [PCG.marshal, List.append_assoc, List.drop_left' (h8 p.high)]
  have ht : (p.marshal ++ rest).take 8 = putUint64 p.high ++ [] := by
    rw [PCG.marshal, List.append_assoc, List.take_left' (h8 p.high), List.append_nil]
  rw [PCG.unmarshal, if_neg (by simp [h1]), hd, ht, getUint64_putUint64, getUint64_putUint64]
  rfl

/-- **C41.** Fewer than sixteen bytes are refused, sixteen accepted. -/
theorem unmarshal_isSome (data : List (BitVec 8)) : (PCG.unmarshal data).isSome ↔ 16 ≤ data.length := by
  unfold PCG.unmarshal
  split
  · simp; omega
  · rename_i h
    match data, h with
    | a0 :: a1 :: a2 :: a3 :: a4 :: a5 :: a6 :: a7 :: b0 :: b1 :: b2 :: b3 :: b4 :: b5 :: b6 :: b7 :: l, h =>
      simp [getUint64]
    | [], h => simp at h
    | [_], h => simp at h
    | [_, _], h => simp at h
    | [_, _, _], h => simp at h
    | [_, _, _, _], h => simp at h
    | [_, _, _, _, _], h => simp at h
    | [_, _, _, _, _, _], h => simp at h
    | [_, _, _, _, _, _, _], h => simp at h
    | [_, _, _, _, _, _, _, _], h => simp at h
    | [_, _, _, _, _, _, _, _, _], h => simp at h
    | [_, _, _, _, _, _, _, _, _, _], h => simp at h
    | [_, _, _, _, _, _, _, _, _, _, _], h => simp at h
    | [_, _, _, _, _, _, _, _, _, _, _, _], h => simp at h
    | [_, _, _, _, _, _, _, _, _, _, _, _, _], h => simp at h
    | [_, _, _, _, _, _, _, _, _, _, _, _, _, _], h => simp at h
    | [_, _, _, _, _, _, _, _, _, _, _, _, _, _, _], h => simp at h

/-- Saving after `k` draws and restoring continues the stream. -/
theorem restored_stream (p : PCG) (k j : Nat) {q : PCG}
    (h : PCG.unmarshal (PCG.advance^[k] p).marshal = some q) : stream q j = stream p (k + j) := by
  have := unmarshal_marshal (PCG.advance^[k] p) []
  rw [List.append_nil, h] at this
  obtain rfl := Option.some.inj this
  rw [stream_eq, stream_eq, ← Function.iterate_add_apply]
  congr 2
  omega

/-- The first words of the regression test (regress_test.go:31-36), seed 1. -/
example : (List.range 4).map (stream (PCG.seed 1))
    = [0x34e936394905d167, 0x817c0ef62fe4c731, 0x937987e6e24f5a40, 0x0c0a8307fe226199] := by decide

end Verif.Rand
