import Verif.Props.Crf32Scalars
import Verif.Lemmas.Softmax32

set_option autoImplicit false
set_option linter.unusedSimpArgs false

/-!
# C85: long sentences overflow

`totalScore` keeps the logarithm of a sum of exponentials, but takes the exponential of the whole score of the sentence so
far in every step, without subtracting a maximum as `ag.LogSumExp` does.
-/

namespace Verif.Crf32
open Verif.F32 Verif.Asm Verif.Spec Verif.Spec.Kernels Verif.Spec.Crf32 CrfSpec Loop Dense

/-- At least `r`, or infinite. -/
def LB (w : F32.W) (r : ℝ) : Prop := w = posInf ∨ F32.Finite w ∧ r ≤ val w

theorem LB.mono {w : F32.W} {r q : ℝ} (h : LB w r) (hq : q ≤ r) : LB w q := h.imp_right fun h => ⟨h.1, hq.trans h.2⟩

theorem add_pos_overflow {x y : F32.W} (hx : F32.Finite x) (hy : F32.Finite y) (h : 0 ≤ val x + val y)
    (hf : ¬ F32.Finite (addIeee x y)) : addIeee x y = posInf := by
  obtain ⟨z, v, e, h1, h2⟩ := addIeee_rnd hx hy
  rw [h1] at hf ⊢
  have hp : (0 : ℝ) < (2 : ℝ) ^ e := by positivity
  unfold rnd at hf ⊢
  by_cases h0 : v = 0
  · exfalso; apply hf
    rw [if_pos h0]; cases z <;> (unfold F32.Finite; decide)
  · rw [if_neg h0] at hf ⊢
    have hv : ¬ v < 0 := by
      intro hv
      have : (v : ℝ) < 0 := by exact_mod_cast hv
      have := mul_neg_of_neg_of_pos this hp
      linarith
    rw [round_inf _ _ _ hf]
    simp [hv]

theorem inf_add {y : F32.W} (hy : y = posInf ∨ F32.Finite y) : addIeee posInf y = posInf := by
  rcases hy with rfl | hy
  · decide +kernel
  · unfold addIeee
    rw [hy.not_nan, hy.not_inf]
    simp [isNaN, isInf, posInf]

theorem add_inf {x : F32.W} (hx : x = posInf ∨ F32.Finite x) : addIeee x posInf = posInf := by
  have := F32.add_comm' x posInf
  exact this.trans (inf_add hx)

theorem LB.add {a b : F32.W} {r q : ℝ} (ha : LB a r) (hb : LB b q) (h : (2 : ℝ) ^ (-126 : Int) ≤ r + q) :
    LB (addIeee a b) ((r + q) * (1 - 1 / 2 ^ 24)) := by
  rcases ha with rfl | ⟨fa, va⟩
  · exact .inl (inf_add (hb.imp_right And.left))
  rcases hb with rfl | ⟨fb, vb⟩
  · exact .inl (add_inf (.inr fa))
  have hp : (0 : ℝ) < (2 : ℝ) ^ (-126 : Int) := by positivity
  have hS : (2 : ℝ) ^ (-126 : Int) ≤ val a + val b := h.trans (by linarith)
  have hS0 : 0 ≤ val a + val b := hp.le.trans hS
  by_cases hf : F32.Finite (addIeee a b)
  · refine .inr ⟨hf, ?_⟩
    have hn := add_near_fin hf
    unfold slack at hn
    rw [abs_of_nonneg hS0, max_eq_left hS] at hn
    have := (abs_le.mp hn).1
    have h2 : (r + q) * (1 - 1 / 2 ^ 24) ≤ (val a + val b) * (1 - 1 / 2 ^ 24) :=
      mul_le_mul_of_nonneg_right (by linarith) (by norm_num)
    linarith
  · exact .inl (add_pos_overflow fa fb hS0 hf)

theorem LB.exp {exp log : F32.W → F32.W} (hs : Scalars exp log) {z : F32.W} {r : ℝ} (h : LB z r) (hr : 0 ≤ r) :
    LB (exp z) (Real.exp r * (1 - 1 / 2 ^ 23)) := by
  rcases h with rfl | ⟨hf, hv⟩
  · exact .inl hs.exp_inf
  have hmono : Real.exp r * (1 - 1 / 2 ^ 23) ≤ Real.exp (val z) * (1 - 1 / 2 ^ 23) :=
    mul_le_mul_of_nonneg_right (Real.exp_le_exp.mpr hv) (by norm_num)
  have key : F32.Finite (exp z) ∧ |val (exp z) - Real.exp (val z)| ≤ Real.exp (val z) / 2 ^ 23 →
      LB (exp z) (Real.exp r * (1 - 1 / 2 ^ 23)) := fun ⟨h1, h2⟩ =>
    .inr ⟨h1, by have := (abs_le.mp h2).1; linarith⟩
  rcases le_total (val z) 88 with h88 | h88
  · exact key (hs.exp_near z hf (by linarith) h88)
  · rcases hs.exp_above z hf h88 with h1 | h1
    · exact .inl h1
    · exact key h1

theorem LB.over {exp log : F32.W → F32.W} (hs : Scalars exp log) {z : F32.W} (h : LB z 89) : exp z = posInf := by
  rcases h with rfl | ⟨hf, hv⟩
  · exact hs.exp_inf
  · exact hs.exp_over z hf hv

theorem LB.log {exp log : F32.W → F32.W} (hs : Scalars exp log) {w : F32.W} {ρ : ℝ} (h : LB w (Real.exp ρ)) (hρ : 0 ≤ ρ) :
    LB (log w) (ρ * (1 - 1 / 2 ^ 23) - 1 / 2 ^ 23) := by
  rcases h with rfl | ⟨hf, hv⟩
  · exact .inl hs.log_inf
  have h1 : (1 : ℝ) ≤ Real.exp ρ := Real.one_le_exp hρ
  have hpos : 0 < val w := by linarith
  obtain ⟨lf, ln⟩ := hs.log_near w hf (le_trans (by norm_num) (h1.trans hv))
  have hl : ρ ≤ Real.log (val w) := by rw [Real.le_log_iff_exp_le hpos]; exact hv
  rw [abs_of_nonneg (show 0 ≤ Real.log (val w) by linarith)] at ln
  have ht : (2 : ℝ) ^ (-126 : Int) ≤ 1 / 2 ^ 23 := by norm_num
  have hm : ρ * (1 - 1 / 2 ^ 23) ≤ Real.log (val w) * (1 - 1 / 2 ^ 23) := mul_le_mul_of_nonneg_right hl (by norm_num)
  refine .inr ⟨lf, ?_⟩
  have := (abs_le.mp ln).1
  linarith

/-- A sum from the left of numbers that are at least 1/2. -/
theorem LB.foldl : ∀ (l : List F) {a : F} {c : ℝ} (k : Nat), LB a.w (c * (1 - k / 2 ^ 24)) → 1 / 2 ≤ c →
    (∀ b ∈ l, LB b.w (1 / 2)) → k + l.length ≤ 2 ^ 10 →
    LB (l.foldl (· + ·) a).w (c * (1 - ((k + l.length : Nat) : ℝ) / 2 ^ 24))
  | [], a, c, k, ha, _, _, _ => by simpa using ha
  | b :: l, a, c, k, ha, hc, hl, hk => by
    have hk' : ((k : ℝ)) / 2 ^ 24 ≤ 1 / 4 := by
      have : (k : ℝ) ≤ 2 ^ 10 := by exact_mod_cast (by simp at hk; omega : k ≤ 2 ^ 10)
      linarith
    have hk0 : (0 : ℝ) ≤ (k : ℝ) / 2 ^ 24 := by positivity
    have h1 : LB (a + b).w (c * (1 - ((k + 1 : Nat) : ℝ) / 2 ^ 24)) := by
      have hc0 : 1 / 4 ≤ c * (1 - k / 2 ^ 24) := by nlinarith
      refine (LB.add ha ((hl b (by simp)).mono (show (0 : ℝ) ≤ 1 / 2 by norm_num)) (le_trans (by norm_num) (le_of_le_of_eq hc0 (by ring)))).mono ?_
      push_cast
      nlinarith
    have := LB.foldl l (k + 1) h1 hc (fun x hx => hl x (by simp [hx])) (by simp at hk; omega)
    rw [show k + (b :: l).length = k + 1 + l.length by simp; omega]
    exact this

/-- All emission scores are numbers from 1 on, all transition scores numbers from 0 on. -/
structure Grows (n : Nat) (tr : Dense F) (xs : List (Dense F)) : Prop where
  tr : ∀ i j, i ≤ n → j ≤ n → F32.Finite (tw tr i j).w ∧ 0 ≤ tv tr i j
  ems : ∀ x ∈ xs, ∀ i < n, F32.Finite (ew x i).w ∧ 1 ≤ ev x i

theorem Grows.tail {n : Nat} {tr x : Dense F} {xs : List (Dense F)} (h : Grows n tr (x :: xs)) : Grows n tr xs :=
  ⟨h.tr, fun y hy => h.ems y (by simp [hy])⟩

/-- Two additions. -/
theorem LB.two {a e t : F} {r : ℝ} (ha : LB a.w r) (hr : 0 ≤ r) (hr' : r ≤ 90) (he : F32.Finite e.w ∧ 1 ≤ val e.w)
    (ht : F32.Finite t.w ∧ 0 ≤ val t.w) : LB (a + e + t).w (r + 99 / 100) := by
  have h1 : LB (a + e).w _ := LB.add ha (.inr he) (le_trans (by norm_num) (by linarith : (1 : ℝ) ≤ r + 1))
  have h2 : LB (a + e + t).w _ := LB.add h1 (.inr ht) (by
    refine le_trans (by norm_num : (2 : ℝ) ^ (-126 : Int) ≤ 1 / 2) ?_
    norm_num
    linarith)
  refine h2.mono ?_
  norm_num
  linarith

theorem grow_step {exp log : F32.W → F32.W} (hs : Scalars exp log) {n : Nat} (hn : 0 < n) (hn' : n ≤ 2 ^ 10) {tot t : Nat → F} {e : F}
    {r : ℝ} (hr : 0 ≤ r) (hr' : r ≤ 90) (ht : ∀ i < n, LB (tot i).w r) (he : F32.Finite e.w ∧ 1 ≤ val e.w)
    (htr : ∀ i < n, F32.Finite (t i).w ∧ 0 ≤ val (t i).w) (z : F) :
    LB (lift log (acc z ((List.range n).map fun i => lift exp (tot i + e + t i)))).w (r + 1 / 2) := by
  have hterm : ∀ i < n, LB (lift exp (tot i + e + t i)).w (Real.exp (r + 99 / 100) * (1 - 1 / 2 ^ 23)) := fun i hi =>
    LB.exp hs (LB.two (ht i hi) hr hr' he (htr i hi)) (by linarith)
  have h1 : (1 : ℝ) ≤ Real.exp (r + 99 / 100) := Real.one_le_exp (by linarith)
  obtain ⟨m, rfl⟩ : ∃ m, n = m + 1 := ⟨n - 1, by omega⟩
  have hsum : LB (acc z ((List.range (m + 1)).map fun i => lift exp (tot i + e + t i))).w
      (Real.exp (r + 99 / 100) * (1 - 1 / 2 ^ 23) * (1 - ((0 + m : Nat) : ℝ) / 2 ^ 24)) := by
    rw [List.range_succ_eq_map, List.map_cons, List.map_map]
    have := LB.foldl ((List.range m).map ((fun i => lift exp (tot i + e + t i)) ∘ Nat.succ)) (a := lift exp (tot 0 + e + t 0))
      (c := Real.exp (r + 99 / 100) * (1 - 1 / 2 ^ 23)) 0 (by simpa using hterm 0 hn) (by nlinarith) (by
        intro b hb
        obtain ⟨i, hi, rfl⟩ := List.mem_map.mp hb
        have := List.mem_range.mp hi
        exact (hterm (i + 1) (by omega)).mono (by nlinarith)) (by simp; omega)
    simpa [acc] using this
  have hm : ((0 + m : Nat) : ℝ) / 2 ^ 24 ≤ 1 / 2 ^ 14 := by
    have : ((0 + m : Nat) : ℝ) ≤ 2 ^ 10 := by exact_mod_cast (by omega : 0 + m ≤ 2 ^ 10)
    linarith
  have hlow : Real.exp (r + 98 / 100) ≤
      Real.exp (r + 99 / 100) * (1 - 1 / 2 ^ 23) * (1 - ((0 + m : Nat) : ℝ) / 2 ^ 24) := by
    have h2 : Real.exp (-(1 / 100)) ≤ (1 - 1 / 2 ^ 23) * (1 - 1 / 2 ^ 14) := by
      have := exp_neg_le (x := 1 / 200) (by norm_num) (by norm_num)
      norm_num at this ⊢
      linarith
    have h3 : (1 - 1 / 2 ^ 23 : ℝ) * (1 - 1 / 2 ^ 14) ≤ (1 - 1 / 2 ^ 23) * (1 - ((0 + m : Nat) : ℝ) / 2 ^ 24) :=
      mul_le_mul_of_nonneg_left (by linarith) (by norm_num)
    rw [show r + 98 / 100 = (r + 99 / 100) + -(1 / 100) by ring, Real.exp_add, _root_.mul_assoc]
    exact mul_le_mul_of_nonneg_left (h2.trans h3) (Real.exp_pos _).le
  refine (LB.log hs (hsum.mono hlow) (by linarith)).mono ?_
  norm_num
  linarith

theorem grow_loop {exp log : F32.W → F32.W} (hs : Scalars exp log) {n : Nat} (hn : 0 < n) (hn' : n ≤ 2 ^ 10) {tr : Dense F} :
    ∀ {xs : List (Dense F)}, Fit n tr xs → Grows n tr xs → ∀ (tot : Nat → F) (k : Nat),
    (∀ i < n, LB (tot i).w (Min.min ((k : ℝ) / 2) 90)) →
    ∃ tot' : Nat → F, Crf.totalLoop (lift exp) (lift log) n tr xs ((List.range n).map tot) = some ((List.range n).map tot') ∧
      ∀ i < n, LB (tot' i).w (Min.min (((k + xs.length : Nat) : ℝ) / 2) 90)
  | [], _, _, tot, k, ht => ⟨tot, rfl, by simpa using ht⟩
  | x :: xs, h, hg, tot, k, ht => by
    have hr : (0 : ℝ) ≤ Min.min ((k : ℝ) / 2) 90 := le_min (by positivity) (by norm_num)
    obtain ⟨tot', h1, h2⟩ := grow_loop hs hn hn' h.tail hg.tail
      (fun j => lift log (acc (0 : F) ((List.range n).map fun i => lift exp (tot i + ew x j + tw tr (i + 1) (j + 1))))) (k + 1)
      (fun j hj => (grow_step hs hn hn' hr (min_le_right _ _) ht (hg.ems x (by simp) j hj)
        (fun i hi => hg.tr (i + 1) (j + 1) (by omega) (by omega)) (0 : F)).mono (by
          push_cast
          rcases le_total ((k : ℝ) / 2) 90 with h | h
          · rw [min_eq_left h]; exact (min_le_left _ _).trans (by linarith)
          · rw [min_eq_right h]; exact (min_le_right _ _).trans (by norm_num)))
    refine ⟨tot', ?_, ?_⟩
    · simp only [Crf.totalLoop, separate_eq (h.len (by simp : x ∈ x :: xs)) (h.at1_x (by simp : x ∈ x :: xs)),
        Option.bind_eq_bind, Option.bind_some, step_eq (lift exp) (lift log) hn h.at_tr tot (ew x) 0, h1]
    · rw [show k + (x :: xs).length = k + 1 + xs.length by simp; omega]
      exact h2

/-- The first position. -/
theorem LB.one {e t : F} (he : F32.Finite e.w ∧ 1 ≤ val e.w) (ht : F32.Finite t.w ∧ 0 ≤ val t.w) : LB (e + t).w (1 / 2) := by
  have h1 : LB (e + t).w _ := LB.add (.inr he) (.inr ht) (le_trans (by norm_num) (le_of_eq (by norm_num : (1 : ℝ) = 1 + 0)))
  exact h1.mono (by norm_num)

theorem forward_inf {exp log : F32.W → F32.W} (hs : Scalars exp log) {n : Nat} (hn : 0 < n) (hn' : n ≤ 2 ^ 10)
    {tr : Dense F} {xs : List (Dense F)} (h : Fit n tr xs) (hg : Grows n tr xs) (hlen : 180 ≤ xs.length) :
    forward (lift exp) (lift log) n tr xs = some (List.replicate n ⟨posInf⟩) := by
  cases xs with
  | nil => simp at hlen
  | cons x xs =>
    obtain ⟨tot', h1, h2⟩ := grow_loop hs hn hn' h.tail hg.tail (fun i => ew x i + tw tr 0 (i + 1)) 1
      (fun i hi => (LB.one (hg.ems x (by simp) i hi) (hg.tr 0 (i + 1) (Nat.zero_le n) (by omega))).mono
        ((min_le_left _ _).trans (by norm_num)))
    have hends : (List.range n).map (fun i => lift exp (tot' i + tw tr (i + 1) 0)) = List.replicate n ⟨posInf⟩ := by
      rw [List.eq_replicate_iff]
      refine ⟨by simp, fun b hb => ?_⟩
      obtain ⟨i, hi, rfl⟩ := List.mem_map.mp hb
      have hi := List.mem_range.mp hi
      have hL : (180 : ℝ) ≤ ((1 + xs.length : Nat) : ℝ) := by
        exact_mod_cast (by simp at hlen; omega : 180 ≤ 1 + xs.length)
      have h3 : LB (tot' i).w 90 := (h2 i hi).mono (le_min (by linarith) le_rfl)
      have h4 : LB (tot' i + tw tr (i + 1) 0).w _ := LB.add h3 (.inr (hg.tr (i + 1) 0 (by omega) (Nat.zero_le n)))
        (le_trans (by norm_num : (2 : ℝ) ^ (-126 : Int) ≤ 1) (by norm_num))
      show lift exp _ = _
      unfold lift
      rw [LB.over hs (h4.mono (by norm_num))]
    simp only [forward, start_eq h.at_tr (h.at1_x (by simp : x ∈ x :: xs)), h1, end_eq (lift exp) h.at_tr tot',
      Option.bind_eq_bind, Option.bind_some, hends]

/-- The score of the target is a number, or infinite too. -/
theorem gold_grows {n : Nat} {tr : Dense F} : ∀ {xs : List (Dense F)}, Fit n tr xs → Grows n tr xs →
    ∀ (ys : List Nat), xs.length = ys.length → (∀ y ∈ ys, y < n) → ∀ (prev : Nat), prev ≤ n →
    ∀ (s : F), LB s.w (1 / 2) → ∃ r : Nat × F, Crf.goldLoop tr xs ys prev s = some r ∧ r.1 ≤ n ∧ LB r.2.w (1 / 2)
  | [], _, _, ys, hl, _, prev, hp, s, hs => by
    have : ys = [] := List.eq_nil_of_length_eq_zero (by simpa using hl.symm)
    subst this
    exact ⟨(prev, s), rfl, hp, hs⟩
  | x :: xs, h, hg, [], hl, _, prev, hp, s, hs => by simp at hl
  | x :: xs, h, hg, y :: ys, hl, hy, prev, hp, s, hs => by
    have hyn := hy y (by simp)
    obtain ⟨r, h1, h2, h3⟩ := gold_grows h.tail hg.tail ys (by simpa using hl) (fun z hz => hy z (by simp [hz]))
      (y + 1) (by omega) (s + ew x y + tw tr prev (y + 1))
      ((LB.two hs (by norm_num) (by norm_num) (hg.ems x (by simp) y hyn) (hg.tr prev (y + 1) hp (by omega))).mono (by norm_num))
    refine ⟨r, ?_, h2, h3⟩
    simp only [Crf.goldLoop, h.at1_x (by simp : x ∈ x :: xs) y hyn, h.at_tr prev (y + 1) hp (by omega : y + 1 ≤ n),
      Option.bind_eq_bind, Option.bind_some, h1]

theorem goldScore_grows {n : Nat} {tr : Dense F} {xs : List (Dense F)} (h : Fit n tr xs) (hg : Grows n tr xs) (hne : xs ≠ [])
    {ys : List Nat} (hy : ys ∈ labelings n xs.length) :
    ∃ g : F, Crf.goldScore tr xs ys = some g ∧ (g.w = posInf ∨ F32.Finite g.w) := by
  obtain ⟨hl, hyb⟩ := mem_labelings.mp hy
  cases xs with
  | nil => exact absurd rfl hne
  | cons x xs =>
    cases ys with
    | nil => simp at hl
    | cons y ys =>
      have hyn := hyb y (by simp)
      obtain ⟨r, h1, h2, h3⟩ := gold_grows h.tail hg.tail ys (by simpa using hl.symm) (fun z hz => hyb z (by simp [hz]))
        (y + 1) (by omega) (ew x y + tw tr 0 (y + 1)) (LB.one (hg.ems x (by simp) y hyn) (hg.tr 0 (y + 1) (Nat.zero_le n) (by omega)))
      have e1 : tr.at2 0 (y + 1 : Nat) = _ := h.at_tr 0 (y + 1) (Nat.zero_le n) (by omega : y + 1 ≤ n)
      have e2 : tr.at2 r.1 0 = _ := h.at_tr r.1 0 h2 (Nat.zero_le n)
      refine ⟨r.2 + tw tr r.1 0, ?_, ?_⟩
      · simp only [Crf.goldScore, h.at_x (by simp : x ∈ x :: xs) y hyn, e1, e2, h1, Option.bind_eq_bind, Option.bind_some]
      · have h4 : LB (r.2 + tw tr r.1 0).w _ := LB.add h3 (.inr (hg.tr r.1 0 h2 (Nat.zero_le n)))
          (le_trans (by norm_num : (2 : ℝ) ^ (-126 : Int) ≤ 1 / 2) (by norm_num))
        exact h4.imp_right And.left

/-- **C85, violated for long sentences.** From 180 positions on, if all emission scores are at least 1 and no transition score
is negative, the loss is not a number that could be used: it is infinite, or a NaN in case the score of the target overflows
as well. The probability of the target does not depend on such a shift of the scores. -/
theorem loss_overflows (cpu : Cpu) {exp log : F32.W → F32.W} (hs : Scalars exp log) {n : Nat} (hn : 0 < n) (hn' : n ≤ 2 ^ 10)
    {tr : Dense F} {xs : List (Dense F)} (h : Fit n tr xs) (hg : Grows n tr xs) (hlen : 180 ≤ xs.length)
    {ys : List Nat} (hy : ys ∈ labelings n xs.length) {v : Asm.Sl} (hv : v.len = n) (hal : v.base % 4 = 0) (s : St F32.W)
    (hm : ∀ ends, forward (lift exp) (lift log) n tr xs = some ends → elems 4 s.mem v.base v.len = ends.map F.w) :
    ∃ t l, (∀ t' l', Runs cpu exp log n tr xs ys v s t' l' ↔ t' = t ∧ l' = l) ∧
      (l.w = posInf ∨ isNaN l.w = true) ∧
      (∀ g, Crf.goldScore tr xs ys = some g → F32.Finite g.w → l.w = posInf) := by
  obtain ⟨g, hgs, hgf⟩ := goldScore_grows h hg (fun h => by simp [h] at hlen) hy
  have hfw := forward_inf hs hn hn' h hg hlen
  have hm := hm _ hfw
  have hmem : ∀ i < v.len, s.mem (v.base + 4 * i) = posInf := by
    intro i hi
    have : (elems 4 s.mem v.base v.len)[i]? = ((List.replicate n (⟨posInf⟩ : F)).map F.w)[i]? := by rw [hm]
    have hi' : i < n := hv ▸ hi
    simpa [elems, hv, hi'] using this
  obtain ⟨s', h1, h2, -⟩ := sum_inf divIeee cpu hal s (by rw [hv]; exact hn'.trans (by norm_num)) (hv ▸ hn) hmem
  refine ⟨s', ⟨log posInf⟩ - g, fun t' l' => ⟨?_, ?_⟩, ?_, ?_⟩
  · rintro ⟨g', e', w', q1, q2, q3, q4, q5, q6⟩
    rw [hgs] at q1; cases q1
    obtain rfl := (h1 t').mp q4
    rw [h2] at q5; cases q5
    exact ⟨rfl, q6⟩
  · rintro ⟨rfl, rfl⟩
    exact ⟨g, _, posInf, hgs, hfw, hm, (h1 _).mpr rfl, h2, rfl⟩
  · show addIeee (log posInf) (flip g.w) = posInf ∨ isNaN (addIeee (log posInf) (flip g.w)) = true
    rw [hs.log_inf]
    rcases hgf with hgf | hgf
    · rw [hgf]; exact .inr (by decide +kernel)
    · exact .inl (inf_add (.inr (flip_finite hgf)))
  · intro g' hg' hf'
    rw [hgs] at hg'; cases hg'
    show addIeee (log posInf) (flip g.w) = posInf
    rw [hs.log_inf]
    exact inf_add (.inr (flip_finite hf'))

/-- With one label there is nothing to lose. -/
theorem loss_one (trans : Nat → Nat → ℝ) (emis : List (Nat → ℝ)) {ys : List Nat} (hy : ys ∈ labelings 1 emis.length) :
    loss 1 trans emis ys = 0 := by
  have key : ∀ (k : Nat), ∃ l, labelings 1 k = [l] := by
    intro k
    induction k with
    | zero => exact ⟨[], rfl⟩
    | succ k ih =>
      obtain ⟨l, hl⟩ := ih
      exact ⟨0 :: l, by simp [labelings, hl]⟩
  obtain ⟨l, hl⟩ := key emis.length
  rw [hl, List.mem_singleton] at hy
  subst hy
  unfold loss
  rw [hl]
  simp [(Real.exp_pos _).ne']

/-! ## Examples -/

/-- One label, and 180 positions with score 1. -/
def longTr : Dense F := ⟨2, 2, List.replicate 4 ⟨0⟩⟩
def longXs : List (Dense F) := List.replicate 180 ⟨1, 1, [⟨0x3f800000⟩]⟩

theorem long_fit : Fit 1 longTr longXs :=
  ⟨rfl, rfl, rfl, fun x hx => by rw [List.eq_of_mem_replicate hx]; exact ⟨rfl, rfl, rfl⟩⟩

theorem long_grows : Grows 1 longTr longXs := by
  constructor
  · intro i j hi hj
    have : tw longTr i j = ⟨0⟩ := by
      have hi : i = 0 ∨ i = 1 := by omega
      have hj : j = 0 ∨ j = 1 := by omega
      rcases hi with rfl | rfl <;> rcases hj with rfl | rfl <;> rfl
    unfold tv
    rw [this]
    refine ⟨by unfold F32.Finite; decide, ?_⟩
    exact val_zero.ge
  · intro x hx i hi
    rw [List.eq_of_mem_replicate hx]
    obtain rfl : i = 0 := by omega
    unfold ev
    have : ew ⟨1, 1, [⟨0x3f800000⟩]⟩ 0 = ⟨0x3f800000⟩ := rfl
    rw [this]
    refine ⟨by unfold F32.Finite; decide, ?_⟩
    exact Softmax32.one_word.2.ge

/-- The loss of the only labelling is 0, the computed one infinite. -/
example (cpu : Cpu) (r : Reg → Nat) (v : Nat → Nat → F32.W) : ∃ exp log, Scalars exp log ∧ ∃ (s t : St F32.W) (l : F),
    Runs cpu exp log 1 longTr longXs (List.replicate 180 0) ⟨100, 1⟩ s t l ∧ l.w = posInf ∧
      loss 1 (tv longTr) (longXs.map ev) (List.replicate 180 0) = 0 := by
  obtain ⟨exp, log, hs⟩ := exists_scalars
  have hlen : longXs.length = 180 := List.length_replicate
  have hy : List.replicate 180 0 ∈ labelings 1 longXs.length := mem_labelings.mpr ⟨by rw [hlen, List.length_replicate], fun y hy => by
    rw [List.eq_of_mem_replicate hy]; norm_num⟩
  let s : St F32.W := { r := r, zf := true, lt := false, v := v, mem := fun _ => posInf, out := none }
  obtain ⟨t, l, h1, -, h2⟩ := loss_overflows cpu hs (by norm_num) (by norm_num) long_fit long_grows hlen.ge hy
    (v := ⟨100, 1⟩) rfl rfl s (fun ends he => by
      rw [forward_inf hs (by norm_num) (by norm_num) long_fit long_grows hlen.ge] at he
      cases he
      rfl)
  exact ⟨exp, log, hs, s, t, l, (h1 t l).mpr ⟨rfl, rfl⟩,
    h2 ⟨0x43340000⟩ (by decide +kernel) (by unfold F32.Finite; decide), loss_one _ _ (by rw [List.length_map]; exact hy)⟩

/-- Two labels, three positions: the loss is accurate. -/
example (cpu : Cpu) (r : Reg → Nat) (v : Nat → Nat → F32.W) : ∃ exp log, Scalars exp log ∧
    let tr : Dense F := ⟨3, 3, List.replicate 9 ⟨0x3f800000⟩⟩
    let xs : List (Dense F) := List.replicate 3 ⟨2, 1, [⟨0xbf800000⟩, ⟨0x3f800000⟩]⟩
    ∃ (s t : St F32.W) (l : F), Runs cpu exp log 2 tr xs [0, 1, 1] ⟨100, 2⟩ s t l ∧ F32.Finite l.w ∧
      |val l.w - loss 2 (tv tr) (xs.map ev) [0, 1, 1]| ≤ tol 3 2 := by
  obtain ⟨exp, log, hs⟩ := exists_scalars
  refine ⟨exp, log, hs, ?_⟩
  intro tr xs
  have hx : ∀ x ∈ xs, x = ⟨2, 1, [⟨0xbf800000⟩, ⟨0x3f800000⟩]⟩ := fun x hx => List.eq_of_mem_replicate hx
  have hone : F32.Finite 0x3f800000 ∧ |val 0x3f800000| ≤ 1 := by
    refine ⟨by unfold F32.Finite; decide, ?_⟩
    rw [Softmax32.one_word.2]; norm_num
  have hneg : F32.Finite 0xbf800000 ∧ |val 0xbf800000| ≤ 1 := by
    refine ⟨by unfold F32.Finite; decide, ?_⟩
    rw [show (0xbf800000 : F32.W) = flip 0x3f800000 by decide, flip_val, Softmax32.one_word.2]; norm_num
  have hlog : Real.log (2 : Nat) ≤ 1 := by
    have := Real.log_le_sub_one_of_pos (x := ((2 : Nat) : ℝ)) (by norm_num)
    norm_num at this ⊢
    linarith
  have hfit : Fit 2 tr xs := ⟨rfl, rfl, rfl, fun x h => by rw [hx x h]; exact ⟨rfl, rfl, rfl⟩⟩
  have hup : Upto 1 2 tr xs := by
    constructor
    · intro i j hi hj
      have : tw tr i j = ⟨0x3f800000⟩ := by
        have hi : i = 0 ∨ i = 1 ∨ i = 2 := by omega
        have hj : j = 0 ∨ j = 1 ∨ j = 2 := by omega
        rcases hi with rfl | rfl | rfl <;> rcases hj with rfl | rfl | rfl <;> rfl
      unfold tv
      rw [this]
      exact hone
    · intro x h i hi
      rw [hx x h]
      have hi : i = 0 ∨ i = 1 := by omega
      rcases hi with rfl | rfl
      · exact hneg
      · exact hone
  obtain ⟨ends, -, hl, h1⟩ := loss_near_partial cpu hs (n := 2) (by norm_num) (by norm_num) (M := 1) (by norm_num) hfit hup (by simp [xs])
    (by simp [xs]) (by simp only [xs, List.length_replicate]; push_cast at hlog ⊢; linarith) (ys := [0, 1, 1])
    (mem_labelings.mpr ⟨rfl, by simp⟩) (v := ⟨100, 2⟩) rfl rfl
  obtain ⟨a, b, rfl⟩ : ∃ a b, ends = [a, b] := by
    match ends, hl with
    | [a, b], _ => exact ⟨a, b, rfl⟩
  obtain ⟨t, l, h2, -, h3, h4⟩ := h1 { r := r, zf := true, lt := false, v := v, mem := fun i => if i = 100 then a.w else b.w, out := none } rfl
  exact ⟨_, t, l, (h2 t l).mpr ⟨rfl, rfl⟩, h3, h4⟩

end Verif.Crf32
