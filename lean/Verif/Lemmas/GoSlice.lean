import Verif.Model.GoSlice
import Mathlib.Data.List.Nodup
import Mathlib.Tactic.Ring
import Mathlib.Tactic.Linarith

set_option autoImplicit false
set_option linter.unusedSimpArgs false

namespace Verif.GoSlice
variable {R : Type}

theorem divmod {c : Nat} (i : Nat) {j : Nat} (hj : j < c) :
    (i * c + j) / c = i ∧ (i * c + j) % c = j := by
  constructor
  · rw [Nat.add_comm, Nat.add_mul_div_right _ _ (by omega), Nat.div_eq_of_lt hj, Nat.zero_add]
  · rw [Nat.add_comm, Nat.add_mul_mod_self_right, Nat.mod_eq_of_lt hj]

theorem idx_lt {r c i j : Nat} (hi : i < r) (hj : j < c) : i * c + j < r * c := by
  have : (i + 1) * c ≤ r * c := Nat.mul_le_mul_right _ hi
  have h2 : (i + 1) * c = i * c + c := by ring
  omega

theorem idx_inj {c i j i' j' : Nat} (hj : j < c) (hj' : j' < c) (h : i * c + j = i' * c + j') :
    i = i' ∧ j = j' := by
  have h1 := divmod i hj
  have h2 := divmod i' hj'
  rw [h] at h1
  exact ⟨h1.1.symm.trans h2.1, h1.2.symm.trans h2.2⟩

theorem idx_split {r c k : Nat} (hk : k < r * c) : ∃ i j, i < r ∧ j < c ∧ k = i * c + j := by
  have hc : 0 < c := by
    rcases Nat.eq_zero_or_pos c with h | h
    · simp [h] at hk
    · exact h
  refine ⟨k / c, k % c, (Nat.div_lt_iff_lt_mul hc).mpr hk, Nat.mod_lt _ hc, ?_⟩
  rw [Nat.mul_comm]; exact (Nat.div_add_mod k c).symm

theorem sub_eq_some {l : List R} {a b : Nat} (h : a ≤ b) (h' : b ≤ l.length) :
    sub l a b = some ((l.take b).drop a) := by
  simp [sub, h, h']

theorem length_copy (dst src : List R) : (copy dst src).length = dst.length := by
  simp only [copy, List.length_append, List.length_take, List.length_drop]; omega

theorem copy_eq {dst src : List R} (h : dst.length = src.length) : copy dst src = src := by
  simp [copy, h]

theorem copyRange_eq {dst src : List R} {a b : Nat} (h : a + src.length = b) (h' : b ≤ dst.length) :
    copyRange dst a b src = some (dst.take a ++ src ++ dst.drop b) := by
  unfold copyRange
  rw [sub_eq_some (by omega) h']
  simp only [Option.bind_eq_bind, Option.bind_some]
  rw [copy_eq]
  simp only [List.length_drop, List.length_take]; omega

/-- Reading after `copy` into a range. -/
theorem getElem?_copyRange {dst src : List R} {a b : Nat} (h : a + src.length = b)
    (h' : b ≤ dst.length) (i : Nat) :
    (dst.take a ++ src ++ dst.drop b)[i]? =
      if a ≤ i ∧ i < b then src[i - a]? else dst[i]? := by
  rw [List.append_assoc, List.getElem?_append]
  simp only [List.length_take]
  rw [Nat.min_eq_left (by omega)]
  by_cases h1 : i < a
  · rw [if_pos h1, if_neg (by omega), List.getElem?_take_of_lt h1]
  · rw [if_neg h1, List.getElem?_append]
    by_cases h2 : i < b
    · rw [if_pos (by omega), if_pos (by omega)]
    · rw [if_neg (by omega), if_neg (by omega), List.getElem?_drop]
      congr 1; omega

theorem length_copyRange {dst src : List R} {a b : Nat} (h : a + src.length = b)
    (h' : b ≤ dst.length) : (dst.take a ++ src ++ dst.drop b).length = dst.length := by
  simp only [List.length_append, List.length_take, List.length_drop]; omega

/-- A loop that writes each position at most once. -/
theorem foldlM_set (ws : List (Nat × R)) (out : List R) (hb : ∀ w ∈ ws, w.1 < out.length)
    (nd : (ws.map Prod.fst).Nodup) :
    ∃ r, ws.foldlM (fun o w => set o w.1 w.2) out = some r ∧ r.length = out.length ∧
      (∀ w ∈ ws, r[w.1]? = some w.2) ∧ ∀ i, i ∉ ws.map Prod.fst → r[i]? = out[i]? := by
  induction ws generalizing out with
  | nil => exact ⟨out, rfl, rfl, by simp, by simp⟩
  | cons w ws ih =>
    have hw := hb w (by simp)
    simp only [List.map_cons, List.nodup_cons] at nd
    obtain ⟨r, h1, h2, h3, h4⟩ := ih (out.set w.1 w.2)
      (by intro v hv; simpa using hb v (by simp [hv])) nd.2
    refine ⟨r, ?_, by simpa using h2, ?_, ?_⟩
    · simp only [List.foldlM_cons, set, if_pos hw, Option.bind_eq_bind, Option.bind_some]
      exact h1
    · intro v hv
      rcases List.mem_cons.mp hv with rfl | hv
      · rw [h4 _ nd.1]; simp [hw]
      · exact h3 v hv
    · intro i hi
      simp only [List.map_cons, List.mem_cons, not_or] at hi
      rw [h4 i hi.2, List.getElem?_set_ne (Ne.symm hi.1)]

theorem swap_eq {l : List R} {a b : Nat} (ha : a < l.length) (hb : b < l.length) :
    swap l a b = some ((l.set a l[b]).set b l[a]) := by
  simp [swap, ha, hb]

theorem getElem?_swap {l : List R} {a b : Nat} (ha : a < l.length) (hb : b < l.length) (i : Nat) :
    ((l.set a l[b]).set b l[a])[i]? = if i = b then l[a]? else if i = a then l[b]? else l[i]? := by
  by_cases h1 : i = b
  · subst h1; simp [ha, hb]
  · rw [if_neg h1, List.getElem?_set_ne (Ne.symm h1)]
    by_cases h2 : i = a
    · subst h2; simp [ha, hb]
    · rw [if_neg h2, List.getElem?_set_ne (Ne.symm h2)]

/-- A loop of swaps of pairwise disjoint pairs (each pair may be degenerate). -/
theorem foldlM_swap (ps : List (Nat × Nat)) (data : List R)
    (hb : ∀ p ∈ ps, p.1 < data.length ∧ p.2 < data.length)
    (nd : ps.Pairwise fun p q => p.1 ≠ q.1 ∧ p.1 ≠ q.2 ∧ p.2 ≠ q.1 ∧ p.2 ≠ q.2) :
    ∃ r, ps.foldlM (fun data p => swap data p.1 p.2) data = some r ∧ r.length = data.length ∧
      (∀ p ∈ ps, r[p.1]? = data[p.2]? ∧ r[p.2]? = data[p.1]?) ∧
      ∀ i, (∀ p ∈ ps, i ≠ p.1 ∧ i ≠ p.2) → r[i]? = data[i]? := by
  induction ps generalizing data with
  | nil => exact ⟨data, rfl, rfl, by simp, by simp⟩
  | cons p ps ih =>
    obtain ⟨ha, hb'⟩ := hb p (by simp)
    rw [List.pairwise_cons] at nd
    obtain ⟨r, h1, h2, h3, h4⟩ := ih ((data.set p.1 data[p.2]).set p.2 data[p.1])
      (by intro v hv; simpa using hb v (by simp [hv])) nd.2
    have hg := getElem?_swap ha hb'
    refine ⟨r, ?_, by simpa using h2, ?_, ?_⟩
    · simp only [List.foldlM_cons, swap_eq ha hb', Option.bind_eq_bind, Option.bind_some]
      exact h1
    · intro v hv
      rcases List.mem_cons.mp hv with rfl | hv
      · have e1 := h4 v.1 (fun q hq => ⟨(nd.1 q hq).1, (nd.1 q hq).2.1⟩)
        have e2 := h4 v.2 (fun q hq => ⟨(nd.1 q hq).2.2.1, (nd.1 q hq).2.2.2⟩)
        rw [e1, e2, hg, hg]
        constructor
        · by_cases h : v.1 = v.2
          · simp [h]
          · simp [h]
        · simp
      · have hn := nd.1 v hv
        obtain ⟨e1, e2⟩ := h3 v hv
        rw [e1, e2, hg, hg, if_neg (Ne.symm hn.2.2.2), if_neg (Ne.symm hn.2.1),
          if_neg (Ne.symm hn.2.2.1), if_neg (Ne.symm hn.1)]
        exact ⟨rfl, rfl⟩
    · intro i hi
      have h := hi p (by simp)
      rw [h4 i (fun q hq => hi q (by simp [hq])), hg, if_neg h.2, if_neg h.1]

end Verif.GoSlice
