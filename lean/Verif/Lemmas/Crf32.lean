import Verif.Model.Crf32
import Verif.Spec.Crf32
import Verif.Lemmas.Loop
import Verif.Lemmas.F32Approx
import Verif.Lemmas.F32Div
import Verif.Props.Crf
import Verif.Props.SumPos
import Mathlib.Analysis.Complex.ExponentialBounds

set_option autoImplicit false
set_option linter.unusedSimpArgs false

/-!
# The CRF loss on float32: the forms of the loops, and the errors of the steps
-/

namespace Verif.Crf32
open Verif.F32 Verif.Spec Verif.Spec.Crf32 Loop Dense

/-! ## The loops -/

section loops
variable {R : Type} [Add R]

/-- The sum of a list from the left; `a` for the empty one. -/
def acc (a : R) : List R → R
  | [] => a
  | b :: l => l.foldl (· + ·) b

theorem foldl_nil (f : Nat → R) (l : List Nat) (a : R) :
    l.foldl (fun v i => some (Crf.addNil v (f i))) (some a) = some ((l.map f).foldl (· + ·) a) := by
  induction l generalizing a with
  | nil => rfl
  | cons x xs ih =>
    rw [List.foldl_cons, List.map_cons, List.foldl_cons]
    exact ih _

/-- `totalScoreStep` in closed form. -/
theorem step_eq (exp log : R → R) {n : Nat} (hn : 0 < n) {tr : Dense R} {t : Nat → Nat → R}
    (ht : ∀ i j : Nat, i ≤ n → j ≤ n → tr.at2 i j = some (t i j)) (tot e : Nat → R) (z : R) :
    Crf.totalScoreStep exp log n tr ((List.range n).map tot) ((List.range n).map e) =
      some ((List.range n).map fun j => log (acc z ((List.range n).map fun i =>
        exp (tot i + e j + t (i + 1) (j + 1))))) := by
  have hget : ∀ (f : Nat → R) (i : Nat), i < n → ((List.range n).map f)[i]? = some (f i) := by
    intro f i hi
    simp [hi]
  unfold Crf.totalScoreStep
  obtain ⟨h1, -⟩ := foldlM_some (P := fun s : List (Option R) => s.length = n) (l := List.range n)
    (f := fun (scores : List (Option R)) (i : Nat) => do
      let nodei ← ((List.range n).map tot)[i]?
      forUpd (fun j s => do
        let e ← ((List.range n).map e)[j]?
        let t ← tr.at2 (i + 1 : Nat) (j + 1 : Nat)
        some (some (Crf.addNil s (exp (nodei + e + t))))) (List.range n) scores)
    (g := fun s i => s.mapIdx fun j v =>
      some (Crf.addNil v (exp (tot i + e j + t (i + 1) (j + 1)))))
    (b := List.replicate n none) (by
      intro s hs i hi
      have hi := List.mem_range.mp hi
      refine ⟨?_, by simpa using hs⟩
      rw [hget tot i hi]
      simp only [Option.bind_eq_bind, Option.bind_some]
      apply forUpd_range hs
      intro j hj v
      rw [hget _ j hj, ht _ _ (by omega) (by omega)]
      rfl) (by simp)
  rw [h1, foldl_mapIdx (fun i j v =>
    some (Crf.addNil v (exp (tot i + e j + t (i + 1) (j + 1))))), Crf.mapIdx_replicate]
  simp only [Option.bind_eq_bind, Option.bind_some]
  obtain ⟨m, rfl⟩ : ∃ m, n = m + 1 := ⟨n - 1, by omega⟩
  have hsome : ∀ j, (List.range (m + 1)).foldl (fun v i =>
      some (Crf.addNil v (exp (tot i + e j + t (i + 1) (j + 1))))) none =
      some (acc z ((List.range (m + 1)).map fun i => exp (tot i + e j + t (i + 1) (j + 1)))) := by
    intro j
    rw [List.range_succ_eq_map, List.foldl_cons, List.map_cons]
    exact foldl_nil (fun i => exp (tot i + e j + t (i + 1) (j + 1))) _ _
  simp only [hsome]
  rw [List.mapM_map]
  exact mapM_some fun j _ => rfl

theorem separate_eq {n : Nat} {x : Dense R} (hl : x.data.length = n) {e : Nat → R}
    (he : ∀ i : Nat, i < n → x.at1 i = some (e i)) : Crf.separateVec x = some ((List.range n).map e) := by
  unfold Crf.separateVec
  rw [hl]
  exact mapM_some fun i hi => he i (List.mem_range.mp hi)

theorem start_eq {n : Nat} {tr x : Dense R} {t : Nat → Nat → R}
    (ht : ∀ i j : Nat, i ≤ n → j ≤ n → tr.at2 i j = some (t i j)) {e : Nat → R}
    (he : ∀ i : Nat, i < n → x.at1 i = some (e i)) :
    Crf.totalScoreStart n tr x = some ((List.range n).map fun i => e i + t 0 (i + 1)) := by
  apply mapM_some
  intro i hi
  have hi := List.mem_range.mp hi
  have e1 : tr.at2 0 (i + 1 : Nat) = _ := ht 0 (i + 1) (Nat.zero_le n) (by omega : i + 1 ≤ n)
  rw [he i hi, e1]
  rfl

theorem end_eq (exp : R → R) {n : Nat} {tr : Dense R} {t : Nat → Nat → R}
    (ht : ∀ i j : Nat, i ≤ n → j ≤ n → tr.at2 i j = some (t i j)) (tot : Nat → R) :
    Crf.totalScoreEnd exp n tr ((List.range n).map tot) = some ((List.range n).map fun i => exp (tot i + t (i + 1) 0)) := by
  apply mapM_some
  intro i hi
  have hi := List.mem_range.mp hi
  have e1 : tr.at2 (i + 1 : Nat) 0 = _ := ht (i + 1) 0 (by omega : i + 1 ≤ n) (Nat.zero_le n)
  rw [e1]
  simp [hi, Crf.addNil]

end loops

/-- `totalScore` is the logarithm of the sum of the vector. -/
theorem totalScore_forward {R : Type} [Add R] [Zero R] (exp log : R → R) (n : Nat) (tr : Dense R) (xs : List (Dense R)) :
    Crf.totalScore exp log n tr xs = (forward exp log n tr xs).map fun l => log (l.foldl (· + ·) 0) := by
  unfold Crf.totalScore forward
  cases xs with
  | nil => rfl
  | cons x xs =>
    simp only [Option.bind_eq_bind]
    cases Crf.totalScoreStart n tr x with
    | none => rfl
    | some tot =>
      simp only [Option.bind_some]
      cases Crf.totalLoop exp log n tr xs tot with
      | none => rfl
      | some tot' =>
        simp only [Option.bind_some]
        cases Crf.totalScoreEnd exp n tr tot' <;> rfl

/-! ## Errors -/

/-- The word is the positive number `T` up to a factor `e^ε`. -/
def Rel (w : W) (T ε : ℝ) : Prop :=
  F32.Finite w ∧ Real.exp (-ε) * T ≤ val w ∧ val w ≤ Real.exp ε * T

theorem one_add_le (x : ℝ) : 1 + x ≤ Real.exp x := by have := Real.add_one_le_exp x; linarith

theorem exp_neg_le {x : ℝ} (h0 : 0 ≤ x) (h1 : x ≤ 1 / 2) : Real.exp (-(2 * x)) ≤ 1 - x := by
  have h2 : (1 - x)⁻¹ ≤ Real.exp (2 * x) := by
    rw [inv_le_iff_one_le_mul₀ (by linarith)]
    have := one_add_le (2 * x)
    nlinarith
  rw [Real.exp_neg, inv_le_comm₀ (Real.exp_pos _) (by linarith)]
  exact h2

theorem Rel.mono {w : W} {T ε ε' : ℝ} (h : Rel w T ε) (hT : 0 ≤ T) (he : ε ≤ ε') : Rel w T ε' :=
  ⟨h.1, (mul_le_mul_of_nonneg_right (Real.exp_le_exp.mpr (by linarith)) hT).trans h.2.1,
    h.2.2.trans (mul_le_mul_of_nonneg_right (Real.exp_le_exp.mpr he) hT)⟩

theorem exp_one_lt : Real.exp 1 < 3 := lt_trans Real.exp_one_lt_d9 (by norm_num)
theorem exp_neg_one_gt : (1 / 3 : ℝ) < Real.exp (-1) := by
  rw [Real.exp_neg, ← one_div]
  exact one_div_lt_one_div_of_lt (Real.exp_pos 1) exp_one_lt

/-- A number off by a small part of itself. -/
theorem rel_of_near {w : W} {S T ε η : ℝ} (hf : F32.Finite w) (h0 : 0 ≤ η) (h1 : η ≤ 1 / 2) (hS : 0 ≤ S)
    (hn : |val w - S| ≤ S * η) (hlo : Real.exp (-ε) * T ≤ S) (hhi : S ≤ Real.exp ε * T) : Rel w T (ε + 2 * η) := by
  obtain ⟨a, b⟩ := abs_le.mp hn
  refine ⟨hf, ?_, ?_⟩
  · rw [neg_add, Real.exp_add]
    have := exp_neg_le h0 h1
    calc Real.exp (-ε) * Real.exp (-(2 * η)) * T = Real.exp (-(2 * η)) * (Real.exp (-ε) * T) := by ring
      _ ≤ Real.exp (-(2 * η)) * S := mul_le_mul_of_nonneg_left hlo (Real.exp_pos _).le
      _ ≤ (1 - η) * S := mul_le_mul_of_nonneg_right this hS
      _ ≤ val w := by linarith
  · rw [Real.exp_add]
    have h2 := one_add_le (2 * η)
    calc val w ≤ (1 + 2 * η) * S := by nlinarith
      _ ≤ Real.exp (2 * η) * S := mul_le_mul_of_nonneg_right h2 hS
      _ ≤ Real.exp (2 * η) * (Real.exp ε * T) := mul_le_mul_of_nonneg_left hhi (Real.exp_pos _).le
      _ = _ := by ring

theorem Rel.add {a b : W} {T U ε : ℝ} (ha : Rel a T ε) (hb : Rel b U ε) (hε : ε ≤ 1) (hT : (2 : ℝ) ^ (-124 : Int) ≤ T)
    (hU : 0 ≤ U) (hle : T + U ≤ 2 ^ 124) : Rel (addIeee a b) (T + U) (ε + 1 / 2 ^ 23) := by
  have hlo : Real.exp (-ε) * (T + U) ≤ val a + val b := by linarith [ha.2.1, hb.2.1]
  have hhi : val a + val b ≤ Real.exp ε * (T + U) := by linarith [ha.2.2, hb.2.2]
  have hT0 : (0 : ℝ) < (2 : ℝ) ^ (-124 : Int) := by positivity
  have e1 : Real.exp ε ≤ 3 := (Real.exp_le_exp.mpr hε).trans exp_one_lt.le
  have e2 : 1 / 3 ≤ Real.exp (-ε) := exp_neg_one_gt.le.trans (Real.exp_le_exp.mpr (by linarith))
  have hS : (2 : ℝ) ^ (-126 : Int) ≤ val a + val b := by
    have h4 : (2 : ℝ) ^ (-124 : Int) = 4 * (2 : ℝ) ^ (-126 : Int) := by norm_num
    have : 1 / 3 * (T + U) ≤ Real.exp (-ε) * (T + U) := mul_le_mul_of_nonneg_right e2 (by linarith)
    rw [h4] at hT
    linarith
  have hmax : val a + val b ≤ maxFin := by
    have : Real.exp ε * (T + U) ≤ 3 * (T + U) := mul_le_mul_of_nonneg_right e1 (by linarith)
    unfold maxFin
    norm_num at hle ⊢
    linarith
  have hS0 : 0 ≤ val a + val b := le_trans (by positivity) hS
  obtain ⟨⟨hf, hn⟩, -⟩ := add_near ha.1 hb.1 (by rw [abs_of_nonneg hS0]; exact hmax)
  rw [abs_of_nonneg hS0, max_eq_left hS] at hn
  have := rel_of_near (η := 1 / 2 ^ 24) hf (by positivity) (by norm_num) hS0 (by rw [mul_one_div]; exact hn) hlo hhi
  rw [show (1 : ℝ) / 2 ^ 23 = 2 * (1 / 2 ^ 24) by norm_num]
  exact this

/-- A sum from the left. -/
theorem Rel.foldl {ε₀ : ℝ} : ∀ (l : List (W × ℝ)) {a : W} {T ε : ℝ}, Rel a T ε → ε₀ ≤ ε →
    (∀ p ∈ l, Rel p.1 p.2 ε₀ ∧ 0 ≤ p.2) → ε + l.length / 2 ^ 23 ≤ 1 → (2 : ℝ) ^ (-124 : Int) ≤ T →
    T + (l.map Prod.snd).sum ≤ 2 ^ 124 →
    Rel ((l.map Prod.fst).foldl addIeee a) (T + (l.map Prod.snd).sum) (ε + l.length / 2 ^ 23)
  | [], a, T, ε, ha, _, _, _, _, _ => by simpa using ha
  | p :: l, a, T, ε, ha, hε, hl, h1, hT, hle => by
    simp only [List.map_cons, List.foldl_cons, List.sum_cons, List.length_cons] at hle h1 ⊢
    push_cast at h1 ⊢
    obtain ⟨hp, hp0⟩ := hl p (by simp)
    have hs0 : 0 ≤ (l.map Prod.snd).sum := List.sum_nonneg fun v hv => by
      obtain ⟨q, hq, rfl⟩ := List.mem_map.mp hv
      exact (hl q (by simp [hq])).2
    have hlen : (0 : ℝ) ≤ l.length / 2 ^ 23 := by positivity
    have h1' : ε + 1 / 2 ^ 23 + (l.length : ℝ) / 2 ^ 23 ≤ 1 := by rw [add_div] at h1; linarith
    have hb := Rel.foldl l (Rel.add ha (hp.mono hp0 hε) (by linarith [show (0 : ℝ) ≤ 1 / 2 ^ 23 by positivity]) hT hp0 (by linarith))
      (by linarith [show (0 : ℝ) ≤ 1 / 2 ^ 23 by positivity])
      (fun q hq => hl q (by simp [hq])) h1' (by linarith) (by linarith)
    rw [show ε + ((l.length : ℝ) + 1) / 2 ^ 23 = ε + 1 / 2 ^ 23 + l.length / 2 ^ 23 by ring,
      show T + (p.2 + (l.map Prod.snd).sum) = T + p.2 + (l.map Prod.snd).sum by ring]
    exact hb

theorem Rel.exp {exp log : W → W} (h : Scalars exp log) {z : W} {X ε : ℝ} (hz : Approx z X ε) (hX : |X| + ε ≤ 87) :
    Rel (exp z) (Real.exp X) (ε + 1 / 2 ^ 22) := by
  obtain ⟨hf, hd⟩ := hz
  obtain ⟨d1, d2⟩ := abs_le.mp hd
  obtain ⟨x1, x2⟩ := abs_le.mp (le_refl |X|)
  obtain ⟨hef, hen⟩ := h.exp_near z hf (by linarith) (by linarith)
  rw [show (1 : ℝ) / 2 ^ 22 = 2 * (1 / 2 ^ 23) by norm_num]
  refine rel_of_near (η := 1 / 2 ^ 23) hef (by positivity) (by norm_num) (Real.exp_pos _).le (by rw [mul_one_div]; exact hen) ?_ ?_
  · rw [← Real.exp_add]; exact Real.exp_le_exp.mpr (by linarith)
  · rw [← Real.exp_add]; exact Real.exp_le_exp.mpr (by linarith)

/-- `e^84 ≤ 2^122`. -/
theorem exp_84 : Real.exp 84 ≤ 2 ^ 122 := by
  have h1 : Real.exp 84 = Real.exp 1 ^ 84 := by rw [← Real.exp_nat_mul]; norm_num
  rw [h1]
  have h2 : Real.exp 1 ^ 84 ≤ (27183 / 10000 : ℝ) ^ 84 := by
    have := Real.exp_one_lt_d9
    have h0 := (Real.exp_pos 1).le
    gcongr
    linarith
  refine h2.trans ?_
  norm_num

theorem exp_neg_84 : (2 : ℝ) ^ (-122 : Int) ≤ Real.exp (-84) := by
  rw [Real.exp_neg, zpow_neg]
  exact inv_anti₀ (Real.exp_pos _) (by exact_mod_cast exp_84)

theorem Rel.log {exp log : W → W} (h : Scalars exp log) {w : W} {T ε : ℝ} (hw : Rel w T ε) (hT : 0 < T)
    (hl : |Real.log T| + ε ≤ 84) : Approx (log w) (Real.log T) (ε + 85 / 2 ^ 23) := by
  obtain ⟨hf, h1, h2⟩ := hw
  obtain ⟨x1, x2⟩ := abs_le.mp (le_refl |Real.log T|)
  have hpos : 0 < val w := lt_of_lt_of_le (mul_pos (Real.exp_pos _) hT) h1
  have l1 : -ε + Real.log T ≤ Real.log (val w) := by
    rw [Real.le_log_iff_exp_le hpos, Real.exp_add, Real.exp_log hT]; exact h1
  have l2 : Real.log (val w) ≤ ε + Real.log T := by
    rw [Real.log_le_iff_le_exp hpos, Real.exp_add, Real.exp_log hT]; exact h2
  have hlow : (2 : ℝ) ^ (-126 : Int) ≤ val w := by
    have h3 : Real.exp (-84) ≤ val w := by
      rw [← Real.le_log_iff_exp_le hpos]; linarith
    refine le_trans ?_ (exp_neg_84.trans h3)
    exact zpow_le_zpow_right₀ (by norm_num) (by norm_num)
  obtain ⟨hlf, hln⟩ := h.log_near w hf hlow
  refine ⟨hlf, ?_⟩
  have hb : |Real.log (val w)| ≤ 84 := abs_le.mpr ⟨by linarith, by linarith⟩
  have ht : (2 : ℝ) ^ (-126 : Int) ≤ 1 / 2 ^ 23 := by norm_num
  have e : val (log w) - Real.log T = (val (log w) - Real.log (val w)) + (Real.log (val w) - Real.log T) := by ring
  rw [e]
  have h5 : |Real.log (val w) - Real.log T| ≤ ε := abs_le.mpr ⟨by linarith, by linarith⟩
  refine (abs_add_le _ _).trans ((add_le_add hln h5).trans ?_)
  linarith

end Verif.Crf32
