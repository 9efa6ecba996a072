import Verif.Model.BiRNNSched
import Verif.Props.Recurrent
import Verif.Props.DenseShape

set_option autoImplicit false
set_option linter.unusedSimpArgs false

/-! # C36: bidirectional networks -/

namespace Verif.BiRNN
open Recurrent Dense
open GradFn hiding forward

/-! ### `reversed` -/

theorem reverseLoop_get {X : Type} (n : Nat) : ∀ (k i : Nat) (r : List X), r.length = n → 2 * (i + k) ≤ n →
    (reverseLoop n k i r).length = n ∧ ∀ j < n, (reverseLoop n k i r)[j]? =
      if (i ≤ j ∧ j < i + k) ∨ (n - i - k ≤ j ∧ j < n - i) then r[n - 1 - j]? else r[j]?
  | 0, i, r, hr, _ => by
    refine ⟨hr, fun j hj => ?_⟩
    rw [if_neg (by omega)]; rfl
  | k + 1, i, r, hr, hk => by
    have h1 : i < r.length := by omega
    have h2 : n - i - 1 < r.length := by omega
    rw [reverseLoop, List.getElem?_eq_getElem h1, List.getElem?_eq_getElem h2]
    obtain ⟨e1, e2⟩ := reverseLoop_get n k (i + 1) ((r.set i r[n - i - 1]).set (n - i - 1) r[i]) (by simp [hr]) (by omega)
    refine ⟨e1, fun j hj => ?_⟩
    simp only
    rw [e2 j hj]
    simp only [List.getElem?_set, List.length_set]
    by_cases hj1 : j = i
    · subst hj1
      rw [if_neg (by omega), if_neg (by omega), if_pos rfl, if_pos h1, if_pos (by omega),
        show n - 1 - j = n - j - 1 by omega, List.getElem?_eq_getElem h2]
    · by_cases hj2 : j = n - i - 1
      · subst hj2
        rw [if_neg (by omega), if_pos rfl, if_pos (by simpa using h2), if_pos (by omega),
          show n - 1 - (n - i - 1) = i by omega, List.getElem?_eq_getElem h1]
      · by_cases hj3 : (i + 1 ≤ j ∧ j < i + 1 + k) ∨ (n - (i + 1) - k ≤ j ∧ j < n - (i + 1))
        · rw [if_pos hj3, if_neg (by omega), if_neg (by omega), if_pos (by omega)]
        · rw [if_neg hj3, if_neg (by omega), if_neg (by omega), if_neg (by omega)]

/-- **C36.** `reversed` reverses. -/
theorem reversed_eq {X : Type} (l : List X) : reversed l = l.reverse := by
  obtain ⟨h1, h2⟩ := reverseLoop_get l.length (l.length / 2) 0 l rfl (by omega)
  refine List.ext_getElem? fun j => ?_
  by_cases hj : j < l.length
  · rw [reversed, h2 j hj, List.getElem?_reverse hj]
    split
    · rfl
    · rename_i hn
      rw [show l.length - 1 - j = j by omega]
  · rw [List.getElem?_eq_none (by rw [reversed, h1]; omega), List.getElem?_eq_none (by simp; omega)]

/-! ### the merging loop -/

theorem mergeLoop_spec {mode : Merge} {pos neg : List (Dense ℝ)} : ∀ {is : List Nat} {zs : List (Dense ℝ)},
    mergeLoop mode pos neg is = some zs → zs.length = is.length ∧ ∀ (k i : Nat), is[k]? = some i →
      ∃ a b z, pos[i]? = some a ∧ neg[pos.length - 1 - i]? = some b ∧ zs[k]? = some z ∧ merge mode a b = some z
  | [], zs, h => by obtain rfl := Option.some.inj h; simp
  | i :: is, zs, h => by
    simp only [mergeLoop, Option.bind_eq_bind, Option.bind_eq_some_iff] at h
    obtain ⟨a, h1, b, h2, y, h3, ys, h4, h5⟩ := h
    obtain rfl := Option.some.inj h5
    obtain ⟨h6, h7⟩ := mergeLoop_spec h4
    refine ⟨by simp [h6], fun k i' hk => ?_⟩
    cases k with
    | zero =>
      simp only [List.getElem?_cons_zero, Option.some.injEq] at hk
      subst hk
      exact ⟨a, b, y, h1, h2, rfl, h3⟩
    | succ k =>
      simp only [List.getElem?_cons_succ] at hk ⊢
      exact h7 k i' hk

theorem forward_length {S X Y : Type} {next : Option S → X → Option S} {out : S → Y} {xs : List X} {zs : List Y}
    (h : forward next out xs = some zs) : zs.length = xs.length := by
  simp only [forward, Option.bind_eq_bind, Option.bind_eq_some_iff] at h
  obtain ⟨r, h1, h2⟩ := h
  rw [← Option.some.inj h2, run_length h1]

/-- Output `i` is the last output for the first `i + 1` inputs. -/
theorem forward_at {S X Y : Type} {next : Option S → X → Option S} {out : S → Y} {xs : List X} {zs : List Y}
    (h : forward next out xs = some zs) {i : Nat} (hi : i < xs.length) :
    ∃ p, forward next out (xs.take (i + 1)) = some p ∧ p.getLast? = zs[i]? := by
  have hl := forward_length h
  rw [← List.take_append_drop (i + 1) xs] at h
  refine ⟨_, forward_prefix h, ?_⟩
  have hlen : (xs.take (i + 1)).length = i + 1 := by simp; omega
  rw [hlen, List.getLast?_eq_getElem?, List.length_take, List.getElem?_take]
  rw [show min (i + 1) zs.length - 1 = i by omega, if_pos (by omega)]

/-- **C36.** Output `i` of a bidirectional network merges the output of the forward network after the
inputs `0, …, i` with the output of the backward network after the inputs `n-1, …, i`. -/
theorem birnn_aligned {X S T : Type} {nextP : Option S → X → Option S} {outP : S → Dense ℝ}
    {nextN : Option T → X → Option T} {outN : T → Dense ℝ} {mode : Merge} {xs : List X} {zs : List (Dense ℝ)}
    (h : birnn (forward nextP outP) (forward nextN outN) mode xs = some zs) :
    zs.length = xs.length ∧ ∀ i < xs.length, ∃ ps ns a b z,
      forward nextP outP (xs.take (i + 1)) = some ps ∧ ps.getLast? = some a ∧
      forward nextN outN (xs.drop i).reverse = some ns ∧ ns.getLast? = some b ∧
      zs[i]? = some z ∧ merge mode a b = some z := by
  simp only [birnn, Option.bind_eq_bind, Option.bind_eq_some_iff, reversed_eq] at h
  obtain ⟨pos, h1, neg, h2, h3⟩ := h
  have hlp := forward_length h1
  have hln := forward_length h2
  rw [List.length_reverse] at hln
  obtain ⟨h4, h5⟩ := mergeLoop_spec h3
  rw [List.length_range, hlp] at h4
  refine ⟨h4, fun i hi => ?_⟩
  obtain ⟨a, b, z, ha, hb, hz, hm⟩ := h5 i i (by simp [hlp, hi])
  obtain ⟨ps, hp1, hp2⟩ := forward_at h1 hi
  obtain ⟨ns, hn1, hn2⟩ := forward_at h2 (i := xs.length - 1 - i) (by simp; omega)
  have ht : xs.reverse.take (xs.length - 1 - i + 1) = (xs.drop i).reverse := by
    rw [List.take_reverse]; congr 2; omega
  rw [ht] at hn1
  exact ⟨ps, ns, a, b, z, hp1, hp2.trans ha, hn1, by rw [hn2, ← hlp]; exact hb, hz, hm⟩

/-- **C36.** If both directions succeed with as many outputs as inputs and the merges succeed, the network
succeeds. -/
theorem birnn_isSome {X : Type} {p q : List X → Option (List (Dense ℝ))} {mode : Merge} {xs : List X}
    {ps ns : List (Dense ℝ)} (hp : p xs = some ps) (hn : q xs.reverse = some ns) (hl : ps.length = ns.length)
    (hm : ∀ a ∈ ps, ∀ b ∈ ns, (merge mode a b).isSome) : (birnn p q mode xs).isSome := by
  simp only [birnn, reversed_eq, hp, hn, Option.bind_eq_bind, Option.bind_some]
  have aux : ∀ is : List Nat, (∀ i ∈ is, i < ps.length) → (mergeLoop mode ps ns is).isSome := by
    intro is
    induction is with
    | nil => intro _; rfl
    | cons i is ih =>
      intro h
      have h1 : i < ps.length := h i (by simp)
      have h2 : ps.length - 1 - i < ns.length := by omega
      obtain ⟨z, hz⟩ := Option.isSome_iff_exists.mp (hm _ (List.getElem_mem h1) _ (List.getElem_mem h2))
      obtain ⟨zs, hzs⟩ := Option.isSome_iff_exists.mp (ih fun j hj => h j (by simp [hj]))
      simp [mergeLoop, List.getElem?_eq_getElem h1, List.getElem?_eq_getElem h2, hz, hzs]
  exact aux _ fun i hi => List.mem_range.mp hi

/-- **C36.** The merge modes on column vectors. -/
theorem merge_sum (n : Nat) (u v : Nat → ℝ) : merge .sum (col n u) (col n v) = some (col n fun i => u i + v i) :=
  add_col n u v
theorem merge_prod (n : Nat) (u v : Nat → ℝ) : merge .prod (col n u) (col n v) = some (col n fun i => u i * v i) :=
  prod_col n u v
theorem merge_avg (n : Nat) (u v : Nat → ℝ) : merge .avg (col n u) (col n v) = some (col n fun i => (u i + v i) / 2) := by
  simp only [merge, add_col, Option.bind_eq_bind, Option.bind_some, prodScalar_col]
  exact congrArg some (col_congr fun i _ => by norm_num; ring)
theorem merge_concat (n m : Nat) (u v : Nat → ℝ) :
    merge .concat (col n u) (col m v) = some (col (n + m) fun i => if i < n then u i else v (i - n)) := by
  simp only [merge, GradFn.concat, concatV]
  rw [if_pos (by simp [isVector])]
  simp only [List.map_cons, List.map_nil, col_length, List.sum_cons, List.sum_nil, Nat.add_zero, List.flatten_cons,
    List.flatten_nil, List.append_nil, Option.some.injEq]
  simp only [col, Dense.mk.injEq, true_and]
  refine List.ext_getElem (by simp) fun i h1 h2 => ?_
  simp only [List.length_append, List.length_map, List.length_range] at h1
  by_cases h : i < n
  · rw [List.getElem_append_left (by simpa using h)]; simp [h]
  · rw [List.getElem_append_right (by simpa using h)]; simp [h]

/-! ### every schedule of the goroutines -/

section Sched
variable {X Y : Type} {P N : Net X Y}

/-- Feed inputs to a network. -/
def Net.exec (n : Net X Y) (xs : List X) : Option (n.S × List Y) :=
  xs.foldlM (fun st x => do
    let r ← n.step st.1 x
    some (r.1, st.2 ++ [r.2])) (n.s₀, [])

theorem Net.exec_succ (n : Net X Y) {xs : List X} {i : Nat} {x : X} (h : xs[i]? = some x) {st : n.S × List Y}
    (hs : n.exec (xs.take i) = some st) :
    n.exec (xs.take (i + 1)) = (do
      let r ← n.step st.1 x
      some (r.1, st.2 ++ [r.2])) := by
  rw [List.take_succ, h]
  unfold Net.exec at hs ⊢
  rw [List.foldlM_append, hs]
  simp

theorem Net.exec_none (n : Net X Y) {xs ys : List X} (h : n.exec xs = none) : n.exec (xs ++ ys) = none := by
  unfold Net.exec at h ⊢
  rw [List.foldlM_append, h]; rfl

/-- Both directions without panic. -/
def Total (P N : Net X Y) (xs : List X) : Prop := (P.exec xs).isSome ∧ (N.exec xs.reverse).isSome

/-- What holds in every reachable state. -/
structure Inv (xs : List X) (st : State X Y P N) : Prop where
  shared : st.shared = xs
  a : match st.a with
    | .reading s outs => outs.length ≤ xs.length ∧ P.exec (xs.take outs.length) = some (s, outs)
    | _ => ∃ s outs, P.exec xs = some (s, outs) ∧ st.pos = some outs
  b : match st.b with
    | .start => True
    | .swapping r i => r = .copy ∧ i ≤ xs.length / 2 ∧
        st.copy.length = xs.length ∧ ∀ j < xs.length, st.copy[j]? =
          if j < i ∨ xs.length - i ≤ j then xs[xs.length - 1 - j]? else xs[j]?
    | .reading r s outs => r = .copy ∧ st.copy = xs.reverse ∧ outs.length ≤ xs.length ∧
        N.exec (xs.reverse.take outs.length) = some (s, outs)
    | _ => ∃ s outs, N.exec xs.reverse = some (s, outs) ∧ st.neg = some outs
  wg : st.wg = (match st.a with | .done => 0 | _ => 1) + (match st.b with | .done => 0 | _ => 1)
  crashed : st.crashed = true → ¬ Total P N xs
  result : ∀ r, st.result = some r → ∃ s outs t outs', P.exec xs = some (s, outs) ∧ N.exec xs.reverse = some (t, outs') ∧
    r = (some outs, some outs')

theorem inv_init (xs : List X) : Inv xs (init P N xs) := by
  refine ⟨rfl, ⟨by simp, by simp [Net.exec]⟩, trivial, rfl, by simp [init], by simp [init]⟩

theorem not_total_left {xs : List X} {i : Nat} {x : X} {s : P.S} {outs : List Y} (h : xs[i]? = some x)
    (hs : P.exec (xs.take i) = some (s, outs)) (hn : P.step s x = none) : P.exec xs = none := by
  have := P.exec_succ h hs
  simp only [hn, Option.bind_eq_bind, Option.bind_none] at this
  have := P.exec_none (ys := xs.drop (i + 1)) this
  rwa [List.take_append_drop] at this

theorem inv_stepA {xs : List X} {st st' : State X Y P N} (h : Inv xs st) (hs : stepA st = some st') : Inv xs st' := by
  obtain ⟨h1, ha, hb, hw, hc, hr⟩ := h
  unfold stepA at hs
  cases hst : st.a with
  | reading s outs =>
    rw [hst] at ha hw
    simp only [hst] at hs
    obtain ⟨ha1, ha2⟩ := ha
    cases hx : st.shared[outs.length]? with
    | some x =>
      rw [hx] at hs
      simp only at hs
      rw [h1] at hx
      cases hn : P.step s x with
      | none =>
        rw [hn] at hs
        obtain rfl := Option.some.inj hs
        refine ⟨h1, ⟨ha1, ha2⟩, hb, hw, fun _ => ?_, hr⟩
        rintro ⟨ht, -⟩
        rw [not_total_left hx ha2 hn] at ht
        cases ht
      | some r =>
        rw [hn] at hs
        obtain rfl := Option.some.inj hs
        have hlt : outs.length < xs.length := by
          by_contra hge
          rw [List.getElem?_eq_none (by omega)] at hx; cases hx
        refine ⟨h1, ⟨by simp; omega, ?_⟩, hb, hw, hc, hr⟩
        rw [List.length_append, List.length_singleton, P.exec_succ hx ha2, hn]
        rfl
    | none =>
      rw [hx] at hs
      obtain rfl := Option.some.inj hs
      rw [h1, List.getElem?_eq_none_iff] at hx
      refine ⟨h1, ⟨s, outs, ?_, rfl⟩, hb, hw, hc, hr⟩
      rwa [List.take_of_length_le hx] at ha2
  | wrote =>
    rw [hst] at ha hw
    simp only [hst] at hs
    obtain rfl := Option.some.inj hs
    refine ⟨h1, ha, hb, ?_, hc, hr⟩
    simp only [hw]; omega
  | done => simp only [hst] at hs; cases hs

theorem inv_stepB {xs : List X} {st st' : State X Y P N} (h : Inv xs st) (hs : stepB st = some st') : Inv xs st' := by
  obtain ⟨h1, ha, hb, hw, hc, hr⟩ := h
  unfold stepB at hs
  cases hst : st.b with
  | start =>
    rw [hst] at hb hw
    simp only [hst] at hs
    obtain rfl := Option.some.inj hs
    refine ⟨h1, ha, ⟨rfl, by omega, by simp [h1], fun j hj => ?_⟩, hw, hc, hr⟩
    rw [if_neg (by omega), h1]
  | swapping r i =>
    rw [hst] at hb hw
    simp only [hst] at hs
    obtain ⟨rfl, hi, hl, hj⟩ := hb
    by_cases hlt : i < (st.get .copy).length / 2
    · rw [if_pos hlt] at hs
      change i < st.copy.length / 2 at hlt
      simp only [State.get, swapAt] at hs
      have g1 : i < st.copy.length := by omega
      have g2 : st.copy.length - i - 1 < st.copy.length := by omega
      rw [List.getElem?_eq_getElem g1, List.getElem?_eq_getElem g2] at hs
      obtain rfl := Option.some.inj hs
      have e1 := hj i (by omega)
      have e2 := hj (xs.length - i - 1) (by omega)
      rw [if_neg (by omega)] at e1 e2
      rw [List.getElem?_eq_getElem g1] at e1
      have g2' : xs.length - i - 1 < st.copy.length := by omega
      rw [List.getElem?_eq_getElem g2'] at e2
      refine ⟨h1, ha, ⟨rfl, by omega, by simp [State.put, hl], fun j hjl => ?_⟩, hw, hc, hr⟩
      simp only [State.put, List.getElem?_set, List.length_set]
      by_cases hj1 : j = i
      · subst hj1
        rw [if_neg (by omega), if_pos rfl, if_pos g1, if_pos (by omega),
          show xs.length - 1 - j = xs.length - j - 1 by omega, ← e2]
        simp only [hl]
      · by_cases hj2 : j = xs.length - i - 1
        · rw [if_pos (by omega), if_pos (by omega), if_pos (by omega), hj2,
            show xs.length - 1 - (xs.length - i - 1) = i by omega, ← e1]
        · rw [if_neg (by omega), if_neg (by omega), hj j hjl]
          by_cases hj3 : j < i ∨ xs.length - i ≤ j
          · rw [if_pos hj3, if_pos (by omega)]
          · rw [if_neg hj3, if_neg (by omega)]
    · rw [if_neg hlt] at hs
      change ¬ i < st.copy.length / 2 at hlt
      obtain rfl := Option.some.inj hs
      refine ⟨h1, ha, ⟨rfl, ?_, by simp, by simp [Net.exec]⟩, hw, hc, hr⟩
      refine List.ext_getElem? fun j => ?_
      by_cases hjl : j < xs.length
      · rw [hj j hjl, List.getElem?_reverse hjl]
        split
        · rfl
        · rw [show xs.length - 1 - j = j by omega]
      · rw [List.getElem?_eq_none (by simp only; omega), List.getElem?_eq_none (by simp; omega)]
  | reading r s outs =>
    rw [hst] at hb hw
    simp only [hst] at hs
    obtain ⟨rfl, hcp, hl, he⟩ := hb
    simp only [State.get] at hs
    cases hx : st.copy[outs.length]? with
    | some x =>
      rw [hx] at hs
      simp only at hs
      rw [hcp] at hx
      cases hn : N.step s x with
      | none =>
        rw [hn] at hs
        obtain rfl := Option.some.inj hs
        refine ⟨h1, ha, ⟨rfl, hcp, hl, he⟩, hw, fun _ => ?_, hr⟩
        rintro ⟨-, ht⟩
        rw [not_total_left hx he hn] at ht
        cases ht
      | some q =>
        rw [hn] at hs
        obtain rfl := Option.some.inj hs
        have hlt : outs.length < xs.length := by
          by_contra hge
          rw [List.getElem?_eq_none (by simp; omega)] at hx; cases hx
        refine ⟨h1, ha, ⟨rfl, hcp, by simp; omega, ?_⟩, hw, hc, hr⟩
        rw [List.length_append, List.length_singleton, N.exec_succ hx he, hn]
        rfl
    | none =>
      rw [hx] at hs
      obtain rfl := Option.some.inj hs
      rw [hcp, List.getElem?_eq_none_iff] at hx
      refine ⟨h1, ha, ⟨s, outs, ?_, rfl⟩, hw, hc, hr⟩
      rwa [List.take_of_length_le hx] at he
  | wrote =>
    rw [hst] at hb hw
    simp only [hst] at hs
    obtain rfl := Option.some.inj hs
    refine ⟨h1, ha, hb, ?_, hc, hr⟩
    simp only [hw]; omega
  | done => simp only [hst] at hs; cases hs

theorem inv_stepMain {xs : List X} {st st' : State X Y P N} (h : Inv xs st) (hs : stepMain st = some st') :
    Inv xs st' := by
  obtain ⟨h1, ha, hb, hw, hc, hr⟩ := h
  unfold stepMain at hs
  split at hs
  swap
  · cases hs
  split at hs
  swap
  · cases hs
  rename_i h0
  obtain rfl := Option.some.inj hs
  rw [h0] at hw
  refine ⟨h1, ha, hb, by rw [h0]; exact hw, hc, ?_⟩
  intro r hr'
  cases hsa : st.a with
  | reading _ _ => rw [hsa] at hw; simp at hw; omega
  | wrote => rw [hsa] at hw; simp at hw; omega
  | done =>
    rw [hsa] at ha hw
    obtain ⟨s, outs, e1, e2⟩ := ha
    cases hsb : st.b with
    | start => rw [hsb] at hw; simp at hw
    | swapping _ _ => rw [hsb] at hw; simp at hw
    | reading _ _ _ => rw [hsb] at hw; simp at hw
    | wrote => rw [hsb] at hw; simp at hw
    | done =>
      rw [hsb] at hb
      obtain ⟨t, outs', e3, e4⟩ := hb
      refine ⟨s, outs, t, outs', e1, e3, ?_⟩
      rw [← Option.some.inj hr', e2, e4]

theorem inv_reach {xs : List X} {st : State X Y P N} (h : Reach P N xs st) : Inv xs st := by
  induction h with
  | init => exact inv_init xs
  | step _ hs ih =>
    unfold step at hs
    split at hs
    · cases hs
    · split at hs
      · exact inv_stepA ih hs
      · exact inv_stepB ih hs
      · exact inv_stepMain ih hs

/-- **C36.** Whatever the schedule, when the caller goes on after `wg.Wait` it sees in `pos` all outputs of
the positive network on the inputs, and in `neg` all outputs of the negative network on the reversed
inputs. -/
theorem result_correct {xs : List X} {st : State X Y P N} (h : Reach P N xs st)
    {r : Option (List Y) × Option (List Y)} (hr : st.result = some r) :
    ∃ s outs t outs', P.exec xs = some (s, outs) ∧ N.exec xs.reverse = some (t, outs') ∧
      r = (some outs, some outs') := (inv_reach h).result r hr

/-- **C36.** The inputs are never changed by `reversed`. -/
theorem inputs_unchanged {xs : List X} {st : State X Y P N} (h : Reach P N xs st) : st.shared = xs :=
  (inv_reach h).shared

/-- **C36.** The process crashes only if a direction panics on its sequence. -/
theorem no_crash {xs : List X} {st : State X Y P N} (h : Reach P N xs st) (ht : Total P N xs) : st.crashed = false := by
  cases hc : st.crashed with
  | false => rfl
  | true => exact absurd ht ((inv_reach h).crashed hc)

/-- **C36.** No deadlock: as long as the caller has no result (and nothing has crashed) some thread can
step. -/
theorem progress {xs : List X} {st : State X Y P N} (h : Reach P N xs st) (hc : st.crashed = false)
    (hr : st.result = none) : ∃ t st', step st t = some st' := by
  by_cases hA : (stepA st).isSome
  · obtain ⟨st', h'⟩ := Option.isSome_iff_exists.mp hA
    exact ⟨.a, st', by simp [step, hc, h']⟩
  by_cases hB : (stepB st).isSome
  · obtain ⟨st', h'⟩ := Option.isSome_iff_exists.mp hB
    exact ⟨.b, st', by simp [step, hc, h']⟩
  have h0 : st.wg = 0 := by
    rw [(inv_reach h).wg]
    cases hsa : st.a with
    | reading s outs =>
      exfalso; apply hA; unfold stepA; rw [hsa]; simp only
      split
      · split <;> rfl
      · rfl
    | wrote => exfalso; apply hA; unfold stepA; rw [hsa]; rfl
    | done =>
      cases hsb : st.b with
      | start => exfalso; apply hB; unfold stepB; rw [hsb]; rfl
      | swapping r i =>
        exfalso; apply hB; unfold stepB; rw [hsb]; simp only
        split
        · split <;> rfl
        · rfl
      | reading r s outs =>
        exfalso; apply hB; unfold stepB; rw [hsb]; simp only
        split
        · split <;> rfl
        · rfl
      | wrote => exfalso; apply hB; unfold stepB; rw [hsb]; rfl
      | done => rfl
  exact ⟨.main, _, by simp [step, hc, stepMain, hr, h0]; rfl⟩

/-- The remaining work. -/
def fuel (st : State X Y P N) : Nat :=
  (match st.a with
    | .reading _ outs => st.shared.length - outs.length + 2
    | .wrote => 1
    | .done => 0) +
  (match st.b with
    | .start => st.shared.length + st.shared.length / 2 + 4
    | .swapping r i => (st.get r).length + ((st.get r).length / 2 - i) + 3
    | .reading r _ outs => (st.get r).length - outs.length + 2
    | .wrote => 1
    | .done => 0) + (if st.result = none then 1 else 0) + (if st.crashed then 0 else 1)

/-- **C36.** Every schedule ends: each step uses up work, so at most `fuel` steps can be taken. -/
theorem step_decreases {xs : List X} {st st' : State X Y P N} {t : Thread} (h : Reach P N xs st)
    (hs : step st t = some st') : fuel st' < fuel st := by
  have hi := inv_reach h
  unfold step at hs
  split at hs
  · cases hs
  rename_i hcr
  cases t with
  | a =>
    simp only [stepA] at hs
    have ha := hi.a
    cases hst : st.a with
    | reading s outs =>
      simp only [hst] at hs
      cases hx : st.shared[outs.length]? with
      | some x =>
        have hlt : outs.length < st.shared.length := by
          by_contra hge
          rw [List.getElem?_eq_none (by omega)] at hx; cases hx
        rw [hx] at hs
        cases hn : P.step s x with
        | none =>
          simp only [hn] at hs
          obtain rfl := Option.some.inj hs
          simp only [fuel, hst, hcr, State.get, if_true, Bool.false_eq_true, if_false]; cases st.b <;> simp <;> omega
        | some q =>
          simp only [hn] at hs
          obtain rfl := Option.some.inj hs
          simp only [fuel, hst, List.length_append, List.length_singleton]
          cases st.b <;> simp [State.get] <;> omega
      | none =>
        rw [hx] at hs
        obtain rfl := Option.some.inj hs
        simp only [fuel, hst]
        cases st.b <;> simp [State.get] <;> omega
    | wrote =>
      simp only [hst] at hs
      obtain rfl := Option.some.inj hs
      simp only [fuel, hst]
      cases st.b <;> simp [State.get] <;> omega
    | done => simp only [hst] at hs; cases hs
  | b =>
    simp only [stepB] at hs
    have hb := hi.b
    cases hst : st.b with
    | start =>
      simp only [hst] at hs
      obtain rfl := Option.some.inj hs
      simp only [fuel, hst, State.get]
      omega
    | swapping r i =>
      simp only [hst] at hs
      rw [hst] at hb
      obtain ⟨rfl, -, -, -⟩ := hb
      split at hs
      · rename_i hlt
        simp only [State.get] at hlt
        split at hs
        · rename_i l hl
          have hll : l.length = st.copy.length := by
            simp only [State.get, swapAt] at hl
            split at hl
            · rw [← Option.some.inj hl]; simp
            · cases hl
          obtain rfl := Option.some.inj hs
          simp only [fuel, hst, State.get, State.put, hll]
          omega
        · obtain rfl := Option.some.inj hs
          simp only [fuel, hst, State.get, hcr, if_true, Bool.false_eq_true, if_false]; omega
      · obtain rfl := Option.some.inj hs
        simp only [fuel, hst, State.get, List.length_nil]
        omega
    | reading r s outs =>
      simp only [hst] at hs
      cases hx : (st.get r)[outs.length]? with
      | some x =>
        have hlt : outs.length < (st.get r).length := by
          by_contra hge
          rw [List.getElem?_eq_none (by omega)] at hx; cases hx
        rw [hx] at hs
        cases hn : N.step s x with
        | none =>
          simp only [hn] at hs
          obtain rfl := Option.some.inj hs
          simp only [fuel, hst, hcr, if_true, Bool.false_eq_true, if_false, State.get]; omega
        | some q =>
          simp only [hn] at hs
          obtain rfl := Option.some.inj hs
          cases r <;> simp only [fuel, hst, List.length_append, List.length_singleton, State.get] at hlt ⊢ <;> omega
      | none =>
        rw [hx] at hs
        obtain rfl := Option.some.inj hs
        simp only [fuel, hst]
        omega
    | wrote =>
      simp only [hst] at hs
      obtain rfl := Option.some.inj hs
      simp only [fuel, hst]
      omega
    | done => simp only [hst] at hs; cases hs
  | main =>
    simp only [stepMain] at hs
    split at hs
    swap
    · cases hs
    rename_i hn
    split at hs
    swap
    · cases hs
    obtain rfl := Option.some.inj hs
    simp only [fuel, hn, if_true, reduceCtorEq, if_false, State.get]
    omega

end Sched

/-! ### back to `birnn` -/

theorem exec_run {S X Y : Type} (next : Option S → X → Option S) (out : S → Y) (xs : List X) :
    ((netOf next out).exec xs).map Prod.snd = forward next out xs := by
  have aux : ∀ (xs : List X) (s : Option S) (acc : List Y),
      (xs.foldlM (fun (st : Option S × List Y) x => do
        let r ← (netOf next out).step st.1 x
        some (r.1, st.2 ++ [r.2])) (s, acc)) = (run next out s xs).map fun r => (r.2, acc ++ r.1) := by
    intro xs
    induction xs with
    | nil => intro s acc; simp [run]
    | cons x xs ih =>
      intro s acc
      simp only [List.foldlM_cons, netOf, Option.bind_eq_bind] at ih ⊢
      cases hx : next s x with
      | none => simp [run, hx]
      | some s' =>
        simp only [Option.bind_some]
        rw [ih]
        simp only [run, hx, Option.bind_eq_bind, Option.bind_some]
        cases run next out (some s') xs <;> simp
  have h1 : (netOf next out).exec xs = (run next out none xs).map fun r => (r.2, [] ++ r.1) := aux xs none []
  rw [h1, forward]
  cases run next out none xs <;> rfl

/-- **C36.** Under every schedule, the value the caller computes from `pos` and `neg` is `birnn`. -/
theorem birnn_any_schedule {X S T : Type} {nextP : Option S → X → Option S} {outP : S → Dense ℝ}
    {nextN : Option T → X → Option T} {outN : T → Dense ℝ} {xs : List X}
    {st : State X (Dense ℝ) (netOf nextP outP) (netOf nextN outN)} (h : Reach _ _ xs st)
    {p n : Option (List (Dense ℝ))} (hr : st.result = some (p, n)) (mode : Merge) :
    ∃ pos neg, p = some pos ∧ n = some neg ∧
      mergeLoop mode pos neg (List.range pos.length) = birnn (forward nextP outP) (forward nextN outN) mode xs := by
  obtain ⟨s, outs, t, outs', h1, h2, h3⟩ := result_correct h hr
  have e1 := exec_run nextP outP xs
  have e2 := exec_run nextN outN xs.reverse
  rw [h1] at e1
  rw [h2] at e2
  obtain ⟨rfl, rfl⟩ := Prod.mk.inj h3
  refine ⟨outs, outs', rfl, rfl, ?_⟩
  simp only [birnn, reversed_eq, ← e1, ← e2, Option.map_some, Option.bind_eq_bind, Option.bind_some]

section Examples

/-- a sequence of two inputs -/
noncomputable def exInputs : List (Dense ℝ) := [⟨2, 1, [1, 5]⟩, ⟨2, 1, [-4, 7]⟩]

theorem exInputs_ok : ∀ x ∈ exInputs, x.WF ∧ x.rows = 2 ∧ x.cols = 1 := by simp [exInputs, WF]

/-- two inputs through an SRN in each direction -/
example : ∃ zs, birnn (forward (srnNext exGate) id) (forward (srnNext exGate) id) .concat exInputs = some zs ∧
    zs.length = 2 := by
  obtain ⟨ps, h1, h2, h3⟩ := srn_outputs exGate_ok exInputs_ok
  obtain ⟨ns, h4, h5, h6⟩ := srn_outputs exGate_ok (xs := exInputs.reverse)
    (fun x hx => exInputs_ok x (List.mem_reverse.mp hx))
  have hs := birnn_isSome (p := forward (srnNext exGate) id) (q := forward (srnNext exGate) id) (mode := .concat)
    (xs := exInputs) (ps := ps) (ns := ns) h1 h4 (by rw [h2, h5, List.length_reverse]) (by
      intro a ha b hb
      obtain ⟨a1, a2, a3, -⟩ := h3 a ha
      obtain ⟨b1, b2, b3, -⟩ := h6 b hb
      rw [eq_col a1 a3, eq_col b1 b3, merge_concat]; rfl)
  obtain ⟨zs, hz⟩ := Option.isSome_iff_exists.mp hs
  exact ⟨zs, hz, (birnn_aligned hz).1⟩

/-- Follow a schedule. -/
def play {X Y : Type} {P N : Net X Y} : List Thread → State X Y P N → Option (State X Y P N)
  | [], st => some st
  | t :: ts, st => do
    let st' ← step st t
    play ts st'

theorem play_reach {X Y : Type} {P N : Net X Y} {xs : List X} : ∀ (ts : List Thread) {st st' : State X Y P N},
    Reach P N xs st → play ts st = some st' → Reach P N xs st'
  | [], st, st', h, he => by obtain rfl := Option.some.inj he; exact h
  | t :: ts, st, st', h, he => by
    simp only [play, Option.bind_eq_bind, Option.bind_eq_some_iff] at he
    obtain ⟨s, h1, h2⟩ := he
    exact play_reach ts (.step h h1) h2

/-- networks that return the running sum -/
def sumNet : Net Nat Nat := ⟨Nat, 0, fun s (x : Nat) => some (Nat.add s x, Nat.add s x)⟩

/-- the negative goroutine makes its copy first, then the positive one reads: the result is reached -/
example : ∃ st : State Nat Nat sumNet sumNet, Reach sumNet sumNet [3, 5] st ∧
    st.result = some (some [3, 8], some [5, 8]) := by
  have h : (play [.b, .a, .b, .b, .b, .a, .b, .b, .b, .a, .a, .main] (init sumNet sumNet [3, 5])).bind State.result =
      some (some [3, 8], some [5, 8]) := by rfl
  obtain ⟨st, h1, h2⟩ := Option.bind_eq_some_iff.mp h
  exact ⟨st, play_reach _ .init h1, h2⟩

end Examples
end Verif.BiRNN
