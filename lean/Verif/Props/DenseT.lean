import Verif.Lemmas.Dense
import Mathlib.Dynamics.PeriodicPts.Defs

set_option autoImplicit false
set_option linter.unusedSimpArgs false

/-!
# C12, C13: transposition
-/

namespace Verif.Dense
open GoSlice
variable {R : Type}

/-- **C12.** `T` never fails; its result has the swapped dimensions and at `(j, i)` the element
at `(i, j)`, for all integers `i`, `j` (access outside the matrix fails in both). -/
theorem T_spec [Zero R] {d : Dense R} (h : d.WF) :
    ∃ t, d.T = some t ∧ t.WF ∧ t.rows = d.cols ∧ t.cols = d.rows ∧
      ∀ i j : Int, t.at2 j i = d.at2 i j := by
  have key : ∀ t : Dense R, t.WF → t.rows = d.cols → t.cols = d.rows →
      (∀ i j : Nat, i < d.rows → j < d.cols →
        t.data[j * d.rows + i]? = d.data[i * d.cols + j]?) →
      ∀ i j : Int, t.at2 j i = d.at2 i j := by
    intro t _ hr hc hel i j
    refine at2_ext (P := fun j i => d.at2 i j) ?_ (fun _ _ h => at2_neg_right _ _ h)
      (fun _ _ h => at2_neg_left _ _ h) j i
    intro j i
    by_cases hi : i < d.rows <;> by_cases hj : j < d.cols <;>
      simp only [at2_nat, hr, hc, hi, hj, and_true, and_false, true_and, if_true, if_false]
    exact hel i j hi hj
  unfold T
  by_cases hv : d.isVector
  · refine ⟨⟨d.cols, d.rows, d.data⟩, ?_, by rw [WF, h, Nat.mul_comm], rfl, rfl, ?_⟩
    · simp only [hv, if_true]
      rw [copy_eq (by rw [List.length_replicate, h, Nat.mul_comm])]
    · apply key _ (by rw [WF, h, Nat.mul_comm]) rfl rfl
      intro i j hi hj
      simp only [isVector, Bool.or_eq_true, beq_iff_eq] at hv
      congr 1
      rcases hv with hv | hv
      · rw [hv] at hi ⊢
        have : i = 0 := by omega
        subst this; simp
      · rw [hv] at hj ⊢
        have : j = 0 := by omega
        subst this; simp
  · simp only [hv, if_false, List.length_replicate]
    have e : d.cols * d.rows = d.rows * d.cols := Nat.mul_comm _ _
    have e0 : (0 : Nat) = cycleNext d.rows d.cols 0 := by simp [cycleNext]
    rw [e]
    have hloop := tLoop_eq (rows := d.rows) (cols := d.cols) d.data 0
      (List.replicate (d.rows * d.cols) (0 : R)) (by rw [Nat.zero_add, h])
    rw [← e0] at hloop
    have hmem : ∀ {p : Nat × R}, p ∈ (d.data.zipIdx 0).map (fun p => (cycleNext d.rows d.cols p.2, p.1)) ↔
        ∃ k, k < d.rows * d.cols ∧ d.data[k]? = some p.2 ∧ p.1 = cycleNext d.rows d.cols k := by
      intro p
      simp only [List.mem_map, List.mem_zipIdx_iff_getElem?, Prod.exists]
      constructor
      · rintro ⟨v, k, hk, rfl⟩
        refine ⟨k, ?_, by simpa using hk, rfl⟩
        rw [← h]
        exact (List.getElem?_eq_some_iff.mp (by simpa using hk)).1
      · rintro ⟨k, _, hk, hp⟩
        exact ⟨p.2, k, by simpa using hk, by rw [← hp]⟩
    obtain ⟨r, h1, h2, h3, -⟩ := foldlM_set
      ((d.data.zipIdx 0).map fun p => (cycleNext d.rows d.cols p.2, p.1))
      (List.replicate (d.rows * d.cols) (0 : R))
      (by
        intro w hw
        obtain ⟨k, hk, _, hp⟩ := hmem.mp hw
        rw [List.length_replicate, hp]
        exact cycleNext_lt hk)
      (by
        rw [List.map_map]
        have : (Prod.fst ∘ fun p : R × Nat => (cycleNext d.rows d.cols p.2, p.1)) =
            cycleNext d.rows d.cols ∘ Prod.snd := rfl
        rw [this, ← List.map_map, List.zipIdx_map_snd]
        refine List.Nodup.map_on ?_ (List.nodup_range' (s := 0))
        intro a ha b hb hab
        have hh : d.data.length = d.rows * d.cols := h
        simp only [List.mem_range'] at ha hb
        obtain ⟨x, hx, rfl⟩ := ha
        obtain ⟨y, hy, rfl⟩ := hb
        exact cycleNext_inj (by omega) (by omega) hab)
    rw [hloop, h1]
    rw [List.length_replicate] at h2
    refine ⟨⟨d.cols, d.rows, r⟩, rfl, by rw [WF, h2, Nat.mul_comm], rfl, rfl, ?_⟩
    apply key _ (by rw [WF, h2, Nat.mul_comm]) rfl rfl
    intro i j hi hj
    have hk := idx_lt hi hj
    have hk' : i * d.cols + j < d.data.length := by rw [h]; exact hk
    have := h3 (cycleNext d.rows d.cols (i * d.cols + j), d.data[i * d.cols + j])
      (hmem.mpr ⟨_, hk, by simp, rfl⟩)
    rw [cycleNext_idx hj] at this
    rw [List.getElem?_eq_getElem hk']
    exact this

/-- **C12, involution.** -/
theorem T_involutive [Zero R] {d t : Dense R} (h : d.WF) (ht : d.T = some t) : t.T = some d := by
  obtain ⟨t', h1, h2, h3, h4, h5⟩ := T_spec h
  rw [ht] at h1
  cases h1
  obtain ⟨u, g1, g2, g3, g4, g5⟩ := T_spec h2
  rw [g1]
  congr 1
  refine ext_at g2 h (g3.trans h4) (g4.trans h3) ?_
  intro i j _ _
  rw [g5, h5]

/-! ### the cycles of the in-place algorithm -/

section Cycle
variable {rows cols : Nat}
local notation "φ" => cycleNext rows cols

theorem iter_lt {i : Nat} (hi : i < rows * cols) (k : Nat) : φ^[k] i < rows * cols := by
  induction k with
  | zero => exact hi
  | succ k ih => rw [Function.iterate_succ_apply']; exact cycleNext_lt ih

theorem iter_cancel {i p : Nat} (hi : i < rows * cols) (a : Nat) (h : φ^[a] i = φ^[a + p] i) :
    φ^[p] i = i := by
  induction a with
  | zero => simpa using h.symm
  | succ a ih =>
    apply ih
    rw [show a + 1 + p = a + p + 1 by omega, Function.iterate_succ_apply',
      Function.iterate_succ_apply'] at h
    exact cycleNext_inj (iter_lt hi _) (iter_lt hi _) h

theorem period_exists {i : Nat} (hi : i < rows * cols) :
    ∃ p, 0 < p ∧ p ≤ rows * cols ∧ φ^[p] i = i := by
  obtain ⟨a, ha, b, hb, hne, hab⟩ := Finset.exists_ne_map_eq_of_card_lt_of_maps_to
    (s := Finset.range (rows * cols + 1)) (t := Finset.range (rows * cols))
    (by simp) (f := fun k => φ^[k] i) (by intro k _; simpa using iter_lt hi k)
  simp only [Finset.mem_range] at ha hb
  rcases lt_or_gt_of_ne hne with h | h
  · refine ⟨b - a, by omega, by omega, iter_cancel hi a ?_⟩
    rw [show a + (b - a) = b by omega]; exact hab
  · refine ⟨a - b, by omega, by omega, iter_cancel hi b ?_⟩
    rw [show b + (a - b) = a by omega]; exact hab.symm

/-- The number of steps after which both inner loops stop. -/
theorem stop_exists {i : Nat} (hi : i < rows * cols) :
    ∃ K, 0 < K ∧ K ≤ rows * cols ∧ φ^[K] i ≤ i ∧ ∀ k, 0 < k → k < K → i < φ^[k] i := by
  classical
  obtain ⟨p, hp, hpN, hpi⟩ := period_exists hi
  have hex : ∃ k, 0 < k ∧ φ^[k] i ≤ i := ⟨p, hp, hpi.le⟩
  refine ⟨Nat.find hex, (Nat.find_spec hex).1,
    (Nat.find_min' hex ⟨hp, hpi.le⟩).trans hpN, (Nat.find_spec hex).2, ?_⟩
  intro k hk hlt
  have := Nat.find_min hex hlt
  simp only [not_and, not_le] at this
  exact this hk

theorem isLeader_eq {i K : Nat} (hle : φ^[K] i ≤ i)
    (hmin : ∀ k, 0 < k → k < K → i < φ^[k] i) (fuel m : Nat) (hm : m < K) (hf : K ≤ m + fuel) :
    isLeader rows cols i fuel (φ^[m] i) = some (decide (φ^[K] i = i)) := by
  induction fuel generalizing m with
  | zero => omega
  | succ fuel ih =>
    have hunf : ∀ j, isLeader rows cols i (fuel + 1) j = if φ j = i then some true
      else if φ j < i then some false else isLeader rows cols i fuel (φ j) := fun _ => rfl
    rw [hunf, ← Function.iterate_succ_apply' φ]
    by_cases hK : m + 1 = K
    · simp only [Nat.succ_eq_add_one, hK]
      by_cases h : φ^[K] i = i
      · simp [h]
      · simp [h, lt_of_le_of_ne hle h]
    · have := hmin (m + 1) (by omega) (by omega)
      simp only [Nat.succ_eq_add_one]
      rw [if_neg (by omega), if_neg (by omega)]
      exact ih (m + 1) (by omega) (by omega)

theorem rotateCycle_eq {i K : Nat} (hi : i < rows * cols) (hK : φ^[K] i = i)
    (hmin : ∀ k, 0 < k → k < K → i < φ^[k] i) {D : List R} (hD : D.length = rows * cols) {vi : R}
    (hvi : D[i]? = some vi) (fuel m : Nat) (hm : m < K) (hf : K ≤ m + fuel) (data : List R)
    (hlen : data.length = rows * cols)
    (hdata : ∀ x, (∃ k, k < m ∧ x = φ^[k] i) ∧ data[x]? = D[φ x]? ∨
      (∀ k, k < m → x ≠ φ^[k] i) ∧ data[x]? = D[x]?) :
    ∃ r, rotateCycle rows cols i vi fuel (φ^[m] i) data = some r ∧ r.length = rows * cols ∧
      ∀ x, (∃ k, k < K ∧ x = φ^[k] i) ∧ r[x]? = D[φ x]? ∨
        (∀ k, k < K → x ≠ φ^[k] i) ∧ r[x]? = D[x]? := by
  have hdist : ∀ a b, a < b → b < K → φ^[a] i ≠ φ^[b] i := by
    intro a b hab hb h
    have := iter_cancel (p := b - a) hi a (by rw [show a + (b - a) = b by omega]; exact h)
    have := hmin (b - a) (by omega) (by omega)
    omega
  induction fuel generalizing m data with
  | zero => omega
  | succ fuel ih =>
    have hunf : ∀ j, rotateCycle rows cols i vi (fuel + 1) j data =
        (if φ j = i then some vi else data[φ j]?).bind fun v =>
          (GoSlice.set data j v).bind fun data =>
            if φ j ≤ i then some data else rotateCycle rows cols i vi fuel (φ j) data := fun _ => rfl
    rw [hunf, ← Function.iterate_succ_apply' φ]
    have hv : (if φ^[m + 1] i = i then some vi else data[φ^[m + 1] i]?) = D[φ^[m + 1] i]? := by
      by_cases h : φ^[m + 1] i = i
      · rw [if_pos h, h, hvi]
      · rw [if_neg h]
        have hmK : m + 1 < K := by
          rcases Nat.lt_or_ge (m + 1) K with h' | h'
          · exact h'
          · exfalso; apply h; rw [show m + 1 = K by omega, hK]
        rcases hdata (φ^[m + 1] i) with ⟨⟨k, hk, he⟩, _⟩ | ⟨_, h2⟩
        · exact absurd he.symm (hdist k (m + 1) (by omega) hmK)
        · exact h2
    have hlt := iter_lt (rows := rows) (cols := cols) hi (m + 1)
    have hlt' := iter_lt (rows := rows) (cols := cols) hi m
    obtain ⟨v, hv'⟩ : ∃ v, D[φ^[m + 1] i]? = some v :=
      ⟨_, List.getElem?_eq_getElem (by rw [hD]; exact hlt)⟩
    simp only [Nat.succ_eq_add_one, hv, hv', Option.bind_eq_bind, Option.bind_some,
      GoSlice.set, hlen, hlt', if_true]
    have hnew : ∀ x, (∃ k, k < m + 1 ∧ x = φ^[k] i) ∧ (data.set (φ^[m] i) v)[x]? = D[φ x]? ∨
        (∀ k, k < m + 1 → x ≠ φ^[k] i) ∧ (data.set (φ^[m] i) v)[x]? = D[x]? := by
      intro x
      by_cases hx : x = φ^[m] i
      · left
        refine ⟨⟨m, by omega, hx⟩, ?_⟩
        subst hx
        rw [← Function.iterate_succ_apply' φ, hv']
        simp [hlen, hlt']
      · rw [List.getElem?_set_ne (Ne.symm hx)]
        rcases hdata x with ⟨⟨k, hk, he⟩, h2⟩ | ⟨h1, h2⟩
        · exact Or.inl ⟨⟨k, by omega, he⟩, h2⟩
        · refine Or.inr ⟨?_, h2⟩
          intro k hk
          rcases Nat.lt_or_ge k m with h | h
          · exact h1 k h
          · rw [show k = m by omega]; exact hx
    by_cases hmK : m + 1 = K
    · rw [hmK, hK, if_pos le_rfl]
      rw [hmK] at hnew
      exact ⟨_, rfl, by simpa using hlen, hnew⟩
    · rw [if_neg (by have := hmin (m + 1) (by omega) (by omega); omega)]
      exact ih (m + 1) (by omega) (by omega) _ (by simpa using hlen) hnew

theorem orbit_back {x m k : Nat} (hx : x < rows * cols) (h : φ^[k] x = m) :
    ∃ l, x = φ^[l] m := by
  obtain ⟨p, hp, -, hpx⟩ := period_exists (rows := rows) (cols := cols) hx
  have hper : Function.IsPeriodicPt φ p x := hpx
  refine ⟨p - k % p, ?_⟩
  rw [← h, ← hper.iterate_mod_apply k, ← Function.iterate_add_apply,
    Nat.sub_add_cancel (Nat.mod_lt _ hp).le]
  exact hpx.symm

theorem rectLoop_eq {old : List R} (hold : old.length = rows * cols) {fuel : Nat}
    (hfuel : rows * cols ≤ fuel) (n m : Nat) (hm : m + n = rows * cols) (data : List R)
    (hlen : data.length = rows * cols)
    (hdata : ∀ x, x < rows * cols → (∃ k, φ^[k] x < m) ∧ data[x]? = old[φ x]? ∨
      (∀ k, m ≤ φ^[k] x) ∧ data[x]? = old[x]?) :
    ∃ r, rectLoop rows cols fuel (List.range' m n) data = some r ∧ r.length = rows * cols ∧
      ∀ x, x < rows * cols → r[x]? = old[φ x]? := by
  induction n generalizing m data with
  | zero =>
    refine ⟨data, rfl, hlen, ?_⟩
    intro x hx
    rcases hdata x hx with ⟨_, h⟩ | ⟨h, _⟩
    · exact h
    · have := h 0; simp only [Function.iterate_zero, id_eq] at this; omega
  | succ n ih =>
    have hmN : m < rows * cols := by omega
    obtain ⟨K, hK0, hKN, hKle, hKmin⟩ := stop_exists (rows := rows) (cols := cols) hmN
    have hl := isLeader_eq hKle hKmin fuel 0 hK0 (by omega)
    simp only [Function.iterate_zero, id_eq] at hl
    rw [List.range'_succ]
    simp only [rectLoop, hl, Option.bind_eq_bind, Option.bind_some]
    by_cases hKm : φ^[K] m = m
    · simp only [hKm, decide_true, if_true]
      have hper : Function.IsPeriodicPt φ K m := hKm
      have hmin : ∀ k, m ≤ φ^[k] m := by
        intro k
        rw [← hper.iterate_mod_apply k]
        rcases Nat.eq_zero_or_pos (k % K) with h | h
        · rw [h]; exact le_rfl
        · exact (hKmin _ h (Nat.mod_lt _ hK0)).le
      have hvi : data[m]? = some (data[m]'(by omega)) := List.getElem?_eq_getElem _
      rw [hvi]
      simp only [Option.bind_some]
      obtain ⟨r, h1, h2, h3⟩ := rotateCycle_eq (D := data) hmN hKm hKmin hlen hvi fuel 0 hK0
        (by omega) data hlen (fun x => Or.inr ⟨by intro k hk; omega, rfl⟩)
      simp only [Function.iterate_zero, id_eq] at h1
      rw [h1]
      simp only [Option.bind_some]
      refine ih (m + 1) (by omega) r h2 ?_
      intro x hx
      rcases h3 x with ⟨⟨k, hk, he⟩, h⟩ | ⟨hno, h⟩
      · left
        refine ⟨⟨K - k, ?_⟩, ?_⟩
        · rw [he, ← Function.iterate_add_apply, Nat.sub_add_cancel hk.le, hKm]; omega
        · rw [h]
          have hfx : φ x = φ^[k + 1] m := by rw [he, Function.iterate_succ_apply']
          rcases hdata (φ x) (cycleNext_lt hx) with ⟨⟨l, hl⟩, _⟩ | ⟨_, h'⟩
          · rw [hfx, ← Function.iterate_add_apply] at hl
            have := hmin (l + (k + 1)); omega
          · exact h'
      · rcases hdata x hx with ⟨⟨k, hk⟩, h'⟩ | ⟨hk, h'⟩
        · exact Or.inl ⟨⟨k, by omega⟩, h.trans h'⟩
        · refine Or.inr ⟨?_, h.trans h'⟩
          intro k
          rcases Nat.lt_or_ge m (φ^[k] x) with hlt | hge
          · exact hlt
          · exfalso
            have heq : φ^[k] x = m := le_antisymm hge (hk k)
            obtain ⟨l, hl⟩ := orbit_back hx heq
            refine hno (l % K) (Nat.mod_lt _ hK0) ?_
            rw [hper.iterate_mod_apply]; exact hl
    · simp only [hKm, decide_false, Bool.false_eq_true, if_false]
      refine ih (m + 1) (by omega) data hlen ?_
      intro x hx
      rcases hdata x hx with ⟨⟨k, hk⟩, h'⟩ | ⟨hk, h'⟩
      · exact Or.inl ⟨⟨k, by omega⟩, h'⟩
      · refine Or.inr ⟨?_, h'⟩
        intro k
        rcases Nat.lt_or_ge m (φ^[k] x) with hlt | hge
        · exact hlt
        · exfalso
          have heq : φ^[k] x = m := le_antisymm hge (hk k)
          have := hk (K + k)
          rw [Function.iterate_add_apply, heq] at this
          omega

end Cycle

theorem mem_squareSwaps {n : Nat} {p : Nat × Nat} : p ∈ squareSwaps n ↔
    ∃ i j, i < j ∧ j < n ∧ p = (i * n + j, j * n + i) := by
  simp only [squareSwaps, List.mem_flatMap, List.mem_range, List.mem_map, List.mem_filter,
    decide_eq_true_eq]
  constructor
  · rintro ⟨i, _, j, ⟨hj, hij⟩, rfl⟩
    exact ⟨i, j, hij, hj, rfl⟩
  · rintro ⟨i, j, hij, hj, rfl⟩
    exact ⟨i, by omega, j, ⟨hj, hij⟩, rfl⟩

theorem squareSwaps_pairwise (n : Nat) : (squareSwaps n).Pairwise fun p q =>
    p.1 ≠ q.1 ∧ p.1 ≠ q.2 ∧ p.2 ≠ q.1 ∧ p.2 ≠ q.2 := by
  have hnd : (squareSwaps n).Nodup := by
    unfold squareSwaps
    rw [List.nodup_flatMap]
    constructor
    · intro i hi
      refine List.Nodup.map_on ?_ (List.nodup_range.filter _)
      intro a ha b hb hab
      simp only [Prod.mk.injEq] at hab
      omega
    · refine List.nodup_range.pairwise_of_forall_ne ?_
      intro a ha b hb hab p hp hq
      simp only [List.mem_map, List.mem_filter, List.mem_range, decide_eq_true_eq] at hp hq
      obtain ⟨j, ⟨hj, _⟩, rfl⟩ := hp
      obtain ⟨j', ⟨hj', _⟩, he⟩ := hq
      simp only [Prod.mk.injEq] at he
      have := idx_inj hj' hj he.1
      exact hab this.1.symm
  refine hnd.pairwise_of_forall_ne ?_
  intro p hp q hq hne
  obtain ⟨i, j, hij, hj, rfl⟩ := mem_squareSwaps.mp hp
  obtain ⟨a, b, hab, hb, rfl⟩ := mem_squareSwaps.mp hq
  have hi : i < n := by omega
  have ha : a < n := by omega
  refine ⟨?_, ?_, ?_, ?_⟩ <;> intro h
  · obtain ⟨rfl, rfl⟩ := idx_inj hj hb h; exact hne rfl
  · obtain ⟨rfl, rfl⟩ := idx_inj hj ha h; omega
  · obtain ⟨rfl, rfl⟩ := idx_inj hi hb h; omega
  · obtain ⟨rfl, rfl⟩ := idx_inj hi ha h; exact hne rfl

/-- **C13.** `TransposeInPlace` never fails, its inner loops stop after at most as many rounds as
there are elements, and it leaves the matrix with the dimensions and elements of `T`. -/
theorem transposeInPlace_eq_T [Zero R] {d : Dense R} (h : d.WF) {fuel : Nat}
    (hfuel : d.data.length ≤ fuel) : d.transposeInPlace fuel = d.T := by
  obtain ⟨t, ht, hWF, htr, htc, hat⟩ := T_spec h
  have hh : d.data.length = d.rows * d.cols := h
  have key : ∀ r : List R, r.length = d.cols * d.rows →
      (∀ x, x < d.cols * d.rows → r[x]? = d.data[cycleNext d.cols d.rows x]?) →
      (⟨d.cols, d.rows, r⟩ : Dense R) = t := by
    intro r hr hel
    refine ext_at hr hWF htr.symm htc.symm ?_
    intro i j hi hj
    simp only at hi hj
    rw [hat, at2_some d hj hi, at2_some _ hi hj]
    simp only
    rw [hel _ (idx_lt hi hj), cycleNext_idx hj]
  rw [ht]
  unfold transposeInPlace
  by_cases hv : d.isVector ∨ d.data.length ≤ 1
  · simp only [hv, if_true]
    congr 1
    apply key _ (by rw [hh, Nat.mul_comm])
    intro x hx
    congr 1
    rcases hv with hv | hv
    · simp only [isVector, Bool.or_eq_true, beq_iff_eq] at hv
      rcases hv with hv | hv
      · simp [cycleNext, hv, Nat.mod_one]
      · rw [hv, Nat.one_mul] at hx
        simp [cycleNext, hv, Nat.mod_eq_of_lt hx, Nat.div_eq_of_lt hx]
    · rw [hh, Nat.mul_comm] at hv
      have : x = 0 := by omega
      subst this
      simp [cycleNext]
  · simp only [hv, if_false]
    by_cases hsq : d.cols = d.rows
    · simp only [hsq, if_true, doSwaps]
      have hb : ∀ p ∈ squareSwaps d.rows, p.1 < d.data.length ∧ p.2 < d.data.length := by
        intro p hp
        obtain ⟨i, j, hij, hj, rfl⟩ := mem_squareSwaps.mp hp
        rw [hh, hsq]
        exact ⟨idx_lt (by omega) hj, idx_lt hj (by omega)⟩
      obtain ⟨r, h1, h2, h3, h4⟩ := foldlM_swap (squareSwaps d.rows) d.data hb
        (squareSwaps_pairwise _)
      rw [h1]
      simp only [Option.bind_eq_bind, Option.bind_some]
      congr 1
      have := key r (by rw [h2, hh, Nat.mul_comm]) ?_
      · rw [← this, hsq]
      · intro x hx
        rw [hsq] at hx ⊢
        obtain ⟨i, j, hi, hj, rfl⟩ := idx_split hx
        rw [cycleNext_idx hj]
        rcases Nat.lt_trichotomy i j with hij | rfl | hij
        · exact (h3 _ (mem_squareSwaps.mpr ⟨i, j, hij, hj, rfl⟩)).1
        · refine h4 _ ?_
          intro p hp
          obtain ⟨a, b, hab, hb', rfl⟩ := mem_squareSwaps.mp hp
          constructor <;> intro he
          · have := idx_inj hj hb' he; omega
          · have := idx_inj hj (by omega) he; omega
        · exact (h3 _ (mem_squareSwaps.mpr ⟨j, i, hij, hi, rfl⟩)).2
    · simp only [hsq, if_false]
      have hN : d.data.length = d.cols * d.rows := by rw [hh, Nat.mul_comm]
      have hrange : (List.range d.data.length).drop 1 = List.range' 1 (d.data.length - 1) := by
        rw [List.range_eq_range', List.drop_range']
      obtain ⟨r, h1, h2, h3⟩ := rectLoop_eq (rows := d.cols) (cols := d.rows) hN (fuel := fuel)
        (by omega) (d.data.length - 1) 1 (by push Not at hv; omega) d.data hN (by
          intro x hx
          have h0 : cycleNext d.cols d.rows 0 = 0 := by simp [cycleNext]
          by_cases hx0 : x = 0
          · subst hx0
            exact Or.inl ⟨⟨0, by simp⟩, by rw [h0]⟩
          · refine Or.inr ⟨?_, rfl⟩
            intro k
            rcases Nat.eq_zero_or_pos ((cycleNext d.cols d.rows)^[k] x) with h | h
            · exfalso
              obtain ⟨l, hl⟩ := orbit_back hx h
              apply hx0
              rw [hl]
              exact Function.iterate_fixed h0 l
            · exact h)
      rw [hrange, h1]
      simp only [Option.bind_eq_bind, Option.bind_some]
      congr 1
      exact key r h2 h3

/-- a 2×3 matrix: both routes give its transpose -/
example : (⟨2, 3, [1, 2, 3, 4, 5, 6]⟩ : Dense Int).WF ∧
    (⟨2, 3, [1, 2, 3, 4, 5, 6]⟩ : Dense Int).T = some ⟨3, 2, [1, 4, 2, 5, 3, 6]⟩ ∧
    (⟨2, 3, [1, 2, 3, 4, 5, 6]⟩ : Dense Int).transposeInPlace 6 =
      some ⟨3, 2, [1, 4, 2, 5, 3, 6]⟩ := by decide

end Verif.Dense
