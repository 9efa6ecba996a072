import Verif.Props.RandPerm
import Mathlib.Algebra.Order.BigOperators.Group.List
import Mathlib.Algebra.BigOperators.Group.List.Basic
import Mathlib.Data.Finset.Card
import Mathlib.Data.Int.Interval
import Mathlib.Order.Interval.Finset.Nat

/-!
# C40: bytes and selections; C49: weighted choices
-/

set_option autoImplicit false
set_option linter.unusedSimpArgs false

namespace Verif.Rand

section

variable {S : Type} (next : S → Word × S)

/-! ## Read -/

/-- The `k`-th byte to come: what is left of the word being read, then the words of the source, lowest byte first. -/
def byteAt (r : State S) (k : Nat) : BitVec 8 :=
  if k < r.readPos then (r.readVal >>> (8 * k)).setWidth 8
  else (draw next r.src ((k - r.readPos) / 8) >>> (8 * ((k - r.readPos) % 8))).setWidth 8

theorem readByte_spec (r : State S) (k : Nat) :
    (readByte next r).1 = byteAt next r 0 ∧ byteAt next (readByte next r).2 k = byteAt next r (k + 1) := by
  unfold readByte byteAt
  by_cases h : r.readPos = 0
  · simp only [h, if_true, lt_irrefl, if_false, Nat.sub_zero, Nat.zero_div, Nat.zero_mod, Nat.mul_zero,
      BitVec.ushiftRight_zero, Nat.not_lt_zero]
    refine ⟨rfl, ?_⟩
    by_cases hk : k < 8 - 1
    · simp only [hk, if_true]
      rw [Nat.div_eq_of_lt (by omega), Nat.mod_eq_of_lt (by omega), ← BitVec.shiftRight_add,
        show 8 + 8 * k = 8 * (k + 1) by omega]
      rfl
    · simp only [hk, if_false]
      rw [show (k + 1) / 8 = (k - (8 - 1)) / 8 + 1 by omega, draw_succ, show (k + 1) % 8 = (k - (8 - 1)) % 8 by omega]
  · have h0 : 0 < r.readPos := by omega
    simp only [h, if_false, h0, if_true, Nat.mul_zero, BitVec.ushiftRight_zero]
    refine ⟨trivial, ?_⟩
    by_cases hk : k < r.readPos - 1
    · rw [if_pos hk, if_pos (by omega), ← BitVec.shiftRight_add, show 8 + 8 * k = 8 * (k + 1) by omega]
    · rw [if_neg hk, if_neg (by omega), show k + 1 - r.readPos = k - (r.readPos - 1) by omega]

/-- **C40.** `Read` delivers the bytes of the words of the source, lowest byte first, continuing within a word. -/
theorem read_bytes (n : Nat) (r : State S) : (read next n r).1 = (List.range n).map (byteAt next r) := by
  induction n generalizing r with
  | zero => rfl
  | succ n ih =>
    rw [read, List.range_succ_eq_map, List.map_cons, List.map_map]
    simp only [ih, (readByte_spec next r 0).1]
    congr 1
    apply List.map_congr_left
    intro k _
    exact (readByte_spec next r k).2

/-- **C40.** How reads are split does not matter. -/
theorem read_split (m n : Nat) (r : State S) :
    read next (m + n) r = ((read next m r).1 ++ (read next n (read next m r).2).1, (read next n (read next m r).2).2) := by
  induction m generalizing r with
  | zero => simp [read]
  | succ m ih =>
    rw [show m + 1 + n = (m + n) + 1 by omega, read, read]
    simp only [ih, List.cons_append]

/-- **C40.** After `Seed` the bytes depend on the seed only. -/
theorem read_seed (srcSeed : Word → S) (w : Word) (r : State S) (n : Nat) :
    (read next n (r.seed srcSeed w)).1
      = (List.range n).map fun k => (draw next (srcSeed w) (k / 8) >>> (8 * (k % 8))).setWidth 8 := by
  rw [read_bytes]
  apply List.map_congr_left
  intro k _
  simp [byteAt, State.seed]

/-- Twelve bytes of a source, read in pieces of five and seven. -/
example (r : State PCG) : (read PCG.uint64 5 r).1 ++ (read PCG.uint64 7 (read PCG.uint64 5 r).2).1
    = (read PCG.uint64 12 r).1 := by rw [show 12 = 5 + 7 from rfl, read_split]

/-! ## GetUniqueRandomInt and GetUniqueRandomIndices -/

theorem foldlM_range_inv {X : Type} {f : X → Nat → Option X} {P : Nat → X → Prop} {n : Nat} {a b : X} (h0 : P 0 a)
    (hs : ∀ i < n, ∀ x y, P i x → f x i = some y → P (i + 1) y) (h : (List.range n).foldlM f a = some b) : P n b := by
  induction n generalizing b with
  | zero => obtain rfl : a = b := by simpa using h
            exact h0
  | succ n ih =>
    rw [List.range_succ, List.foldlM_append] at h
    obtain ⟨c, hc, hb⟩ := Option.bind_eq_some_iff.1 h
    simp only [List.foldlM_cons, List.foldlM_nil, Option.bind_eq_bind] at hb
    obtain ⟨d, hd, he⟩ := Option.bind_eq_some_iff.1 hb
    obtain rfl := Option.some.inj he
    exact hs n (by omega) c _ (ih (fun i hi => hs i (by omega)) hc) hd

theorem uniqueLoop_spec {max : Int} (hmax : max < 2 ^ 63) {valid : Int → Bool} {a : List Int} {r : Int} {s : S}
    {q : Int × S} (hr : 0 ≤ r ∧ r < max) (h : uniqueLoop next max valid a r s = some q) :
    valid q.1 = true ∧ q.1 ∉ a ∧ 0 ≤ q.1 ∧ q.1 < max := by
  have key : ∀ r s q, uniqueLoop next max valid a r s = some q → 0 ≤ r ∧ r < max →
      valid q.1 = true ∧ q.1 ∉ a ∧ 0 ≤ q.1 ∧ q.1 < max := by
    apply uniqueLoop.partial_correctness
    intro f ih r s q hf hr
    split at hf
    · obtain ⟨d, hd, hq⟩ := Option.bind_eq_some_iff.1 hf
      have := intn_lt next (r := d.1) (s' := d.2) hmax hd
      exact ih _ _ _ hq ⟨by omega, this.2⟩
    · rename_i hc
      obtain rfl := Option.some.inj hf
      simp only [Bool.or_eq_true, Bool.not_eq_true', not_or, List.contains_iff_mem] at hc
      simp only [Bool.not_eq_false] at hc
      exact ⟨hc.1, hc.2, hr⟩
  exact key r s q h hr

/-- The list while it is being filled: distinct acceptable numbers, then zeros. -/
def Filled (n : Nat) (ok : Int → Prop) (i : Nat) (a : List Int) : Prop :=
  ∃ b : List Int, a = b ++ List.replicate (n - i) 0 ∧ b.length = i ∧ b.Nodup ∧ ∀ x ∈ b, ok x ∧ x ≠ 0

theorem Filled.step {n : Nat} {ok : Int → Prop} {i : Nat} {a : List Int} (hi : i < n) (h : Filled n ok i a) {x : Int}
    (hx : ok x) (hxa : x ∉ a) : Filled n ok (i + 1) (a.set i x) := by
  obtain ⟨b, rfl, hl, hn, hb⟩ := h
  have h0 : x ≠ 0 := by
    rintro rfl
    apply hxa
    rw [List.mem_append, List.mem_replicate]
    right
    exact ⟨by omega, rfl⟩
  refine ⟨b ++ [x], ?_, by simp [hl], ?_, ?_⟩
  · rw [show n - i = (n - (i + 1)) + 1 by omega, List.replicate_succ, List.set_append_right _ _ (by omega), hl,
      Nat.sub_self, List.set_cons_zero]
    simp
  · rw [List.nodup_append]
    refine ⟨hn, List.nodup_singleton _, ?_⟩
    intro y hy z hz
    rw [List.mem_singleton] at hz
    rintro rfl
    exact hxa (List.mem_append_left _ (hz ▸ hy))
  · intro y hy
    rcases List.mem_append.1 hy with h | h
    · exact hb y h
    · rw [List.mem_singleton] at h
      subst h
      exact ⟨hx, h0⟩

/-- **C40.** `GetUniqueRandomInt` returns `n` distinct valid numbers below `max`, none of which is 0. -/
theorem unique_spec {n : Nat} {max : Int} (hmax : max < 2 ^ 63) {valid : Int → Bool} {s s' : S} {a : List Int}
    (h : getUniqueRandomInt next n max valid s = some (a, s')) :
    a.length = n ∧ a.Nodup ∧ ∀ x ∈ a, valid x = true ∧ 0 < x ∧ x < max := by
  have := foldlM_range_inv (P := fun i x => Filled n (fun x => valid x = true ∧ 0 ≤ x ∧ x < max) i x.1)
    (b := (a, s')) (by exact ⟨[], by simp, rfl, List.nodup_nil, by simp⟩) ?_ h
  · obtain ⟨b, rfl, hl, hn, hb⟩ := this
    simp only [Nat.sub_self, List.replicate_zero, List.append_nil]
    refine ⟨hl, hn, fun x hx => ?_⟩
    have := hb x hx
    exact ⟨this.1.1, by omega, this.1.2.2⟩
  · intro i hi x y hP hf
    simp only [Option.bind_eq_bind, Option.bind_eq_some_iff, Option.some.injEq] at hf
    obtain ⟨d, hd, r, hr, rfl⟩ := hf
    have hlt := intn_lt next (r := d.1) (s' := d.2) hmax hd
    obtain ⟨h1, h2, h3, h4⟩ := uniqueLoop_spec next hmax ⟨by omega, hlt.2⟩ hr
    exact hP.step hi ⟨h1, h3, h4⟩ h2

/-- **C40 (violated).** Zero is never selected: where it is needed, because there are not enough other valid numbers
below `max`, the function never returns, whatever the source. -/
theorem unique_diverges {n : Nat} {max : Int} (hmax : max < 2 ^ 63) {valid : Int → Bool} (s : S)
    (hfew : ((Finset.Ioo 0 max).filter fun x => valid x = true).card < n) :
    getUniqueRandomInt next n max valid s = none := by
  cases h : getUniqueRandomInt next n max valid s with
  | none => rfl
  | some r =>
    obtain ⟨h1, h2, h3⟩ := unique_spec next hmax (a := r.1) (s' := r.2) h
    exfalso
    have hsub : r.1.toFinset ⊆ (Finset.Ioo 0 max).filter fun x => valid x = true := by
      intro x hx
      have := h3 x (List.mem_toFinset.1 hx)
      simp [this]
    have := Finset.card_le_card hsub
    rw [List.toFinset_card_of_nodup h2, h1] at this
    omega

/-- All `n` numbers below `n`: asked for, they never come. -/
theorem unique_all_diverges {n : Nat} (h0 : 0 < n) (hn : n < 2 ^ 63) (s : S) :
    getUniqueRandomInt next n n (fun _ => true) s = none := by
  apply unique_diverges next (by omega)
  simp
  omega

theorem uniqueIdxLoop_spec {valid : Int → Bool} {a indices : List Int} (hlen : indices.length < 2 ^ 63) {r : Int} {s : S}
    {q : Int × List Int × S} (hr : r ∈ indices) (h : uniqueIdxLoop next valid a r indices s = some q) :
    valid q.1 = true ∧ q.1 ∉ a ∧ q.1 ∈ indices ∧ q.2.1.Perm indices := by
  have key : ∀ r l s q, uniqueIdxLoop next valid a r l s = some q → l.Perm indices → r ∈ indices →
      valid q.1 = true ∧ q.1 ∉ a ∧ q.1 ∈ indices ∧ q.2.1.Perm indices := by
    apply uniqueIdxLoop.partial_correctness
    intro f ih r l s q hf hl hr
    split at hf
    · simp only [Option.bind_eq_bind, Option.bind_eq_some_iff] at hf
      obtain ⟨d, hd, x, hx, hq⟩ := hf
      have hp := shuffle_perm next (ys := d.1) (s' := d.2) (by rw [hl.length_eq]; exact hlen) hd
      exact ih _ _ _ _ hq (hp.trans hl) ((hp.trans hl).mem_iff.1 (List.mem_of_getElem? hx))
    · rename_i hc
      obtain rfl := Option.some.inj hf
      simp only [Bool.or_eq_true, Bool.not_eq_true', not_or, List.contains_iff_mem] at hc
      simp only [Bool.not_eq_false] at hc
      exact ⟨hc.1, hc.2, hr, hl⟩
  exact key r indices s q h (List.Perm.refl _) hr

/-- **C40.** `GetUniqueRandomIndices` returns `n` distinct valid elements of `indices`, none of which is 0, and permutes
`indices`. -/
theorem uniqueIdx_spec {n : Nat} {indices : List Int} (hlen : indices.length < 2 ^ 63) {valid : Int → Bool} {s s' : S}
    {a rest : List Int} (h : getUniqueRandomIndices next n indices valid s = some (a, rest, s')) :
    a.length = n ∧ a.Nodup ∧ (∀ x ∈ a, valid x = true ∧ x ∈ indices ∧ x ≠ 0) ∧ rest.Perm indices := by
  have := foldlM_range_inv
    (P := fun i x => Filled n (fun x => valid x = true ∧ x ∈ indices) i x.1 ∧ x.2.1.Perm indices)
    (b := (a, rest, s')) (by exact ⟨⟨[], by simp, rfl, List.nodup_nil, by simp⟩, List.Perm.refl _⟩) ?_ h
  · obtain ⟨⟨b, rfl, hl, hn, hb⟩, hp⟩ := this
    simp only [Nat.sub_self, List.replicate_zero, List.append_nil]
    exact ⟨hl, hn, fun x hx => ⟨(hb x hx).1.1, (hb x hx).1.2, (hb x hx).2⟩, hp⟩
  · rintro i hi x y ⟨hP, hl⟩ hf
    simp only [Option.bind_eq_bind, Option.bind_eq_some_iff, Option.some.injEq] at hf
    obtain ⟨d, hd, z, hz, r, hr, rfl⟩ := hf
    have hp := shuffle_perm next (ys := d.1) (s' := d.2) (by rw [hl.length_eq]; exact hlen) hd
    obtain ⟨h1, h2, h3, h4⟩ := uniqueIdxLoop_spec next (by rw [(hp.trans hl).length_eq]; exact hlen)
      (List.mem_of_getElem? hz) hr
    exact ⟨hP.step hi ⟨h1, (hp.trans hl).mem_iff.1 h3⟩ h2, h4.trans (hp.trans hl)⟩

end

/-! ## C49: WeightedChoice -/

section choice

variable {F : Type} [Field F] [LinearOrder F] [IsStrictOrderedRing F]

theorem weightedLoop_spec (rnd : F) (dist : List F) (i : Nat) (cum : F) (hcum : cum ≤ rnd) :
    (rnd < cum + dist.sum → ∃ k < dist.length, weightedLoop rnd dist i cum = i + k ∧
      cum + (dist.take k).sum ≤ rnd ∧ rnd < cum + (dist.take (k + 1)).sum) ∧
    ((∀ p ∈ dist, 0 ≤ p) → cum + dist.sum ≤ rnd → weightedLoop rnd dist i cum = 0) := by
  induction dist generalizing i cum with
  | nil => 
    refine ⟨fun h => ?_, fun _ _ => rfl⟩
    rw [List.sum_nil, add_zero] at h
    exact absurd h (not_lt.2 hcum)
  | cons p dist ih =>
    rw [weightedLoop]
    by_cases h : rnd < cum + p
    · rw [if_pos h]
      refine ⟨fun _ => ⟨0, by simp, rfl, by simpa using hcum, by simpa using h⟩, fun hp hs => ?_⟩
      exfalso
      have : 0 ≤ dist.sum := List.sum_nonneg fun q hq => hp q (List.mem_cons_of_mem _ hq)
      rw [List.sum_cons] at hs
      linarith
    · rw [if_neg h]
      obtain ⟨h1, h2⟩ := ih (i + 1) (cum + p) (not_lt.1 h)
      refine ⟨fun hs => ?_, fun hp hs => h2 (fun q hq => hp q (List.mem_cons_of_mem _ hq)) ?_⟩
      · rw [List.sum_cons, ← add_assoc] at hs
        obtain ⟨k, hk, e, b1, b2⟩ := h1 hs
        refine ⟨k + 1, by simpa using hk, by rw [e]; omega, ?_, ?_⟩
        · simpa [add_assoc] using b1
        · simpa [add_assoc] using b2
      · rw [List.sum_cons, ← add_assoc] at hs
        exact hs

/-- **C49.** For non-negative weights the index `i` is chosen exactly for the numbers in an interval of length `dist[i]`,
provided the number drawn is below the sum of the weights. -/
theorem weightedChoice_spec (dist : List F) (hp : ∀ p ∈ dist, 0 ≤ p) (rnd : F) (h0 : 0 ≤ rnd) (h1 : rnd < dist.sum)
    (i : Nat) (hi : i < dist.length) :
    weightedChoice dist rnd = i ↔ (dist.take i).sum ≤ rnd ∧ rnd < (dist.take i).sum + dist[i] := by
  obtain ⟨k, hk, e, b1, b2⟩ := (weightedLoop_spec rnd dist 0 0 h0).1 (by simpa using h1)
  rw [zero_add] at b1 b2 e
  have hsucc : ∀ j (hj : j < dist.length), (dist.take (j + 1)).sum = (dist.take j).sum + dist[j] := by
    intro j hj
    rw [List.take_succ_eq_append_getElem hj, List.sum_append, List.sum_singleton]
  have hmono : ∀ a b, a ≤ b → (dist.take a).sum ≤ (dist.take b).sum := by
    intro a b hab
    obtain ⟨c, rfl⟩ := Nat.exists_eq_add_of_le hab
    rw [List.take_add, List.sum_append]
    have : 0 ≤ ((dist.drop a).take c).sum :=
      List.sum_nonneg fun q hq => hp q (List.mem_of_mem_drop (List.mem_of_mem_take hq))
    linarith
  unfold weightedChoice
  rw [e, ← hsucc i hi]
  constructor
  · rintro rfl
    exact ⟨b1, b2⟩
  · rintro ⟨c1, c2⟩
    by_contra hne
    rcases Nat.lt_or_gt_of_ne hne with h | h
    · have := hmono (k + 1) i h
      linarith
    · have := hmono (i + 1) k h
      linarith

/-- **C49.** In particular, when the weights sum to 1 and the number drawn is in [0,1), only an index of positive weight
is chosen. -/
theorem weightedChoice_positive (dist : List F) (hp : ∀ p ∈ dist, 0 ≤ p) (hs : dist.sum = 1) (rnd : F) (h0 : 0 ≤ rnd)
    (h1 : rnd < 1) : ∃ h : weightedChoice dist rnd < dist.length, 0 < dist[weightedChoice dist rnd] := by
  obtain ⟨k, hk, e, _, _⟩ := (weightedLoop_spec rnd dist 0 0 h0).1 (by rw [hs]; simpa using h1)
  have e' : weightedChoice dist rnd = k := by unfold weightedChoice; omega
  have hb := (weightedChoice_spec dist hp rnd h0 (by rw [hs]; exact h1) k hk).1 e'
  have hlt : weightedChoice dist rnd < dist.length := by omega
  refine ⟨hlt, ?_⟩
  have : dist[weightedChoice dist rnd] = dist[k] := by simp only [e']
  rw [this]
  linarith

/-- **C49 (violated for weights which sum to less).** If the sum of the weights is not above the number drawn, which
rounding makes possible, index 0 is chosen, whatever its weight. -/
theorem weightedChoice_short (dist : List F) (hp : ∀ p ∈ dist, 0 ≤ p) (rnd : F) (h0 : 0 ≤ rnd) (h1 : dist.sum ≤ rnd) :
    weightedChoice dist rnd = 0 :=
  (weightedLoop_spec rnd dist 0 0 h0).2 hp (by simpa using h1)

example : weightedChoice [0, 1/2, 1/4, 1/4] (3/5 : ℚ) = 2 :=
  (weightedChoice_spec _ (by decide +kernel) (3/5) (by norm_num) (by norm_num) 2 (by decide)).2 (by norm_num)

end choice

end Verif.Rand
