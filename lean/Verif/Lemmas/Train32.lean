import Verif.Spec.Train32
import Verif.Props.Opt32Sgd
import Verif.Lemmas.Back32Step

set_option autoImplicit false
set_option linter.unusedSimpArgs false

/-!
# Sums of gradients, and a step of SGD (C98)
-/

namespace Verif.Train32
open Verif.F32 Verif.Asm Verif.Spec Verif.Spec.Kernels Verif.Net32 Verif.Rec32 Verif.Att32 Verif.Back32 Verif.Spec.Train32

/-- The element `i` of gradients, summed up. -/
noncomputable def cellSum (l : List (List F32.W)) (i : Nat) : ℝ := (l.map fun g => val (g.getD i 0)).sum

/-- Gradients of length `n` with elements up to `X`. -/
def Upto (n : Nat) (X : ℝ) (g : List F32.W) : Prop := g.length = n ∧ ∀ i < n, F32.Finite (g.getD i 0) ∧ |val (g.getD i 0)| ≤ X

/-- The error of one more addition. -/
theorem square_step {k X : ℝ} (h0 : 0 ≤ k) (h1 : k ≤ 2 ^ 20) (hX : 0 ≤ X) :
    k * k * X / 2 ^ 24 + ((k + 1) * X + k * k * X / 2 ^ 24) / 2 ^ 24 ≤ (k + 1) * (k + 1) * X / 2 ^ 24 := by
  have hkX : 0 ≤ k * X := mul_nonneg h0 hX
  have h2 : k * k * X ≤ 2 ^ 24 * (k * X) := by
    calc k * k * X = k * (k * X) := by ring
      _ ≤ 2 ^ 24 * (k * X) := mul_le_mul_of_nonneg_right (h1.trans (by norm_num)) hkX
  have h3 : k * k * X / 2 ^ 24 ≤ k * X := by rw [div_le_iff₀ (by positivity)]; linarith
  have e : (k + 1) * (k + 1) * X / 2 ^ 24 = k * k * X / 2 ^ 24 + (k * X + (k + 1) * X) / 2 ^ 24 := by ring
  rw [e]
  have : ((k + 1) * X + k * k * X / 2 ^ 24) / 2 ^ 24 ≤ (k * X + (k + 1) * X) / 2 ^ 24 := div_le_div_of_nonneg_right (by linarith) (by positivity)
  linarith

theorem accFrom_ok {cpu : Cpu} {n : Nat} {X : ℝ} (hX : 0 ≤ X) : ∀ (l : List (List F32.W)) {a z : List F32.W} {k : Nat} {s : Nat → ℝ},
    (∀ g ∈ l, Upto n X g) → k + l.length ≤ 2 ^ 20 → total (k + l.length) X ≤ 2 ^ 120 → a.length = n →
    (∀ i < n, F32.Finite (a.getD i 0) ∧ |val (a.getD i 0) - s i| ≤ k * k * X / 2 ^ 24 ∧ |s i| ≤ k * X) →
    (∃ z, AccFrom cpu a l z) ∧ (AccFrom cpu a l z → z.length = n ∧ ∀ i < n, F32.Finite (z.getD i 0) ∧
      |val (z.getD i 0) - (s i + cellSum l i)| ≤ ((k + l.length : Nat) : ℝ) * ((k + l.length : Nat) : ℝ) * X / 2 ^ 24 ∧
      |s i + cellSum l i| ≤ ((k + l.length : Nat) : ℝ) * X)
  | [], a, z, k, s, _, _, _, ha, hs => by
    refine ⟨⟨a, rfl⟩, fun h => ?_⟩
    have h : z = a := h
    subst h
    refine ⟨ha, fun i hi => ?_⟩
    simpa [cellSum] using hs i hi
  | g :: l, a, z, k, s, hl, hk, ht, ha, hs => by
    obtain ⟨gl, hg⟩ := hl g List.mem_cons_self
    have hk' : k + 1 + l.length ≤ 2 ^ 20 := by simp at hk; omega
    have e1 : k + (g :: l).length = k + 1 + l.length := by simp; omega
    rw [e1] at ht ⊢
    have hkr : (k : ℝ) ≤ 2 ^ 20 := by
      have : k ≤ 2 ^ 20 := by omega
      exact_mod_cast this
    have k0 : (0 : ℝ) ≤ k := Nat.cast_nonneg k
    -- the sum stays away from overflow
    have htk : ((k : ℝ) + 1) * X + k * k * X / 2 ^ 24 ≤ 2 ^ 120 := by
      refine le_trans ?_ ht
      unfold total
      push_cast
      have l0 : (0 : ℝ) ≤ l.length := Nat.cast_nonneg _
      have a1 : ((k : ℝ) + 1) * X ≤ (k + 1 + l.length) * X := mul_le_mul_of_nonneg_right (by linarith) hX
      have a2 : (k : ℝ) * k * X / 2 ^ 24 ≤ (k + 1 + l.length) * (k + 1 + l.length) * X / 2 ^ 24 := by
        refine div_le_div_of_nonneg_right (mul_le_mul_of_nonneg_right ?_ hX) (by positivity)
        exact mul_le_mul (by linarith) (by linarith) k0 (by linarith)
      linarith
    have cell : ∀ i < n, F32.Finite (addIeee (a.getD i 0) (g.getD i 0)) ∧
        |val (addIeee (a.getD i 0) (g.getD i 0)) - (s i + val (g.getD i 0))| ≤ ((k + 1 : Nat) : ℝ) * ((k + 1 : Nat) : ℝ) * X / 2 ^ 24 ∧
        |s i + val (g.getD i 0)| ≤ ((k + 1 : Nat) : ℝ) * X := by
      intro i hi
      obtain ⟨fa, ea, ba⟩ := hs i hi
      obtain ⟨fg, bg⟩ := hg i hi
      generalize a.getD i 0 = u at *
      generalize g.getD i 0 = v at *
      have hs1 : |s i + val v| ≤ (k + 1) * X := (abs_add_le _ _).trans (by linarith)
      have hsum : |val u + val v| ≤ (k + 1) * X + k * k * X / 2 ^ 24 := by
        have e : val u + val v = (s i + val v) + (val u - s i) := by ring
        rw [e]
        exact (abs_add_le _ _).trans (add_le_add hs1 ea)
      obtain ⟨f, e⟩ := Opt32.add_in fa fg hsum (htk.trans (by norm_num))
      refine ⟨f, ?_, by push_cast; exact hs1⟩
      push_cast
      refine le_trans ?_ (square_step k0 hkr hX)
      have e' : val (addIeee u v) - (s i + val v) = (val u - s i) + (val (addIeee u v) - (val u + val v)) := by ring
      rw [e']
      exact (abs_add_le _ _).trans (add_le_add ea e)
    have hzip : (List.zipWith addIeee a g).length = n := by simp [ha, gl]
    obtain ⟨ih1, ih2⟩ := accFrom_ok (cpu := cpu) (a := List.zipWith addIeee a g) (z := z) (k := k + 1) (s := fun i => s i + val (g.getD i 0)) hX l
      (fun g hg => hl g (List.mem_cons_of_mem _ hg)) hk' ht hzip (fun i hi => by rw [getD_zip ha gl hi]; exact cell i hi)
    refine ⟨?_, ?_⟩
    · obtain ⟨z, hz⟩ := ih1
      exact ⟨z, _, (addIn_iff ..).mpr ⟨by rw [ha, gl], rfl⟩, hz⟩
    · rintro ⟨h, h1, h2⟩
      rw [addIn_iff] at h1
      obtain ⟨-, rfl⟩ := h1
      obtain ⟨r1, r2⟩ := ih2 h2
      refine ⟨r1, fun i hi => ?_⟩
      have e : s i + cellSum (g :: l) i = s i + val (g.getD i 0) + cellSum l i := by simp [cellSum]; ring
      rw [e]
      exact r2 i hi

/-- All contributions together. -/
theorem acc_ok {cpu : Cpu} {n : Nat} {X : ℝ} (hX : 0 ≤ X) {l : List (List F32.W)} (hl : ∀ g ∈ l, Upto n X g) (hn : l.length ≤ 2 ^ 20)
    (ht : total l.length X ≤ 2 ^ 120) : (∃ z, Acc cpu l z) ∧ ∀ z, Acc cpu l z → match z with
      | none => l = []
      | some g => g.length = n ∧ ∀ i < n, F32.Finite (g.getD i 0) ∧ |val (g.getD i 0) - cellSum l i| ≤ l.length * l.length * X / 2 ^ 24 ∧
          |cellSum l i| ≤ l.length * X := by
  cases l with
  | nil =>
    refine ⟨⟨none, rfl⟩, fun z h => ?_⟩
    have h : z = none := h
    subst h
    rfl
  | cons a l =>
    obtain ⟨al, ha⟩ := hl a List.mem_cons_self
    have e : 1 + l.length = (a :: l).length := by simp; omega
    have key := fun z => accFrom_ok (cpu := cpu) (a := a) (z := z) (k := 1) (s := fun i => val (a.getD i 0)) hX l
      (fun g hg => hl g (List.mem_cons_of_mem _ hg)) (by rw [e]; exact hn) (by rw [e]; exact ht) al
      (fun i hi => ⟨(ha i hi).1, by rw [sub_self, abs_zero]; positivity, by simpa using (ha i hi).2⟩)
    refine ⟨?_, ?_⟩
    · obtain ⟨z, hz⟩ := (key []).1
      exact ⟨some z, z, hz, rfl⟩
    · rintro z ⟨g, hg, rfl⟩
      obtain ⟨r1, r2⟩ := (key g).2 hg
      refine ⟨r1, fun i hi => ?_⟩
      rw [e] at r2
      have e' : cellSum (a :: l) i = val (a.getD i 0) + cellSum l i := by simp [cellSum]
      rw [e']
      exact r2 i hi

/-- Plain SGD. -/
theorem sgd_iff (cpu : Cpu) (lr : F32.W) (w g w' : List F32.W) : (∃ v v', Opt32.Sgd cpu .plain lr w g v w' v') ↔
    w.length = g.length ∧ w' = List.zipWith (fun u v => addIeee u (F32.flip v)) w (g.map fun v => mulIeee v lr) := by
  constructor
  · rintro ⟨v, v', d, ⟨-, h1, rfl⟩, h2⟩
    rw [scale_iff] at h1
    rw [Adam32.subIn_iff] at h2
    subst h1
    exact ⟨by simpa using h2.1, h2.2⟩
  · rintro ⟨h1, rfl⟩
    exact ⟨g, _, _, ⟨rfl, (scale_iff ..).mpr rfl, rfl⟩, (Adam32.subIn_iff ..).mpr ⟨by simpa using h1, rfl⟩⟩

/-- One parameter after the step. -/
theorem cell_step {lr w g : F32.W} (flr : F32.Finite lr) (fw : F32.Finite w) (fg : F32.Finite g) {W T s e : ℝ} (hw : |val w| ≤ W)
    (hW : W ≤ 2 ^ 120) (hT : |val lr| * T ≤ 2 ^ 120) (hg : |val g| ≤ T) (he : |val g - s| ≤ e) :
    F32.Finite (addIeee w (F32.flip (mulIeee g lr))) ∧
      |val (addIeee w (F32.flip (mulIeee g lr))) - (val w - val lr * s)| ≤
        |val lr| * e + (W + 3 * (|val lr| * T + 1 / 2 ^ 126)) / 2 ^ 24 := by
  have t : (2 : ℝ) ^ (-126 : Int) = 1 / 2 ^ 126 := by rw [zpow_neg]; norm_num
  have t0 : (0 : ℝ) < 1 / 2 ^ 126 := by positivity
  have t1 : (1 : ℝ) / 2 ^ 126 ≤ 1 := by norm_num
  have lT0 : 0 ≤ |val lr| * T := mul_nonneg (abs_nonneg _) ((abs_nonneg _).trans hg)
  have p1 : |val g * val lr| ≤ |val lr| * T + 1 / 2 ^ 126 := by
    rw [abs_mul, mul_comm]
    have := mul_le_mul_of_nonneg_left hg (abs_nonneg (val lr))
    linarith
  obtain ⟨fd, ed⟩ := Opt32.mul_in fg flr p1 (by rw [t]; linarith) (by
    have : (2 : ℝ) ^ 120 + 1 ≤ 2 ^ 127 := by norm_num
    linarith)
  have bd : |val (mulIeee g lr)| ≤ 2 * (|val lr| * T + 1 / 2 ^ 126) := by
    have := abs_sub_abs_le_abs_sub (val (mulIeee g lr)) (val g * val lr)
    have h : (|val lr| * T + 1 / 2 ^ 126) / 2 ^ 24 ≤ |val lr| * T + 1 / 2 ^ 126 := div_le_self (by linarith) (by norm_num)
    linarith
  have hsum : |val w + val (F32.flip (mulIeee g lr))| ≤ W + 2 * (|val lr| * T + 1 / 2 ^ 126) := by
    rw [flip_val]
    refine (abs_add_le _ _).trans ?_
    rw [abs_neg]
    exact add_le_add hw bd
  obtain ⟨f, ez⟩ := Opt32.add_in fw (flip_finite fd) hsum (by
    have : (2 : ℝ) ^ 120 + 2 * (2 ^ 120 + 1) ≤ 2 ^ 127 := by norm_num
    linarith)
  refine ⟨f, ?_⟩
  rw [flip_val] at ez
  generalize val (addIeee w (F32.flip (mulIeee g lr))) = Z at *
  generalize val (mulIeee g lr) = D at *
  have e1 : Z - (val w - val lr * s) = (Z - (val w + -D)) + -(D - val g * val lr) + -(val lr * (val g - s)) := by ring
  rw [e1]
  have a1 := abs_add_le ((Z - (val w + -D)) + -(D - val g * val lr)) (-(val lr * (val g - s)))
  have a2 := abs_add_le (Z - (val w + -D)) (-(D - val g * val lr))
  rw [abs_neg] at a1 a2
  have a3 : |val lr * (val g - s)| ≤ |val lr| * e := by rw [abs_mul]; exact mul_le_mul_of_nonneg_left he (abs_nonneg _)
  have e2 : (W + 3 * (|val lr| * T + 1 / 2 ^ 126)) / 2 ^ 24 = (W + 2 * (|val lr| * T + 1 / 2 ^ 126)) / 2 ^ 24 + (|val lr| * T + 1 / 2 ^ 126) / 2 ^ 24 := by ring
  rw [e2]
  linarith

theorem total_nonneg (n : Nat) {X : ℝ} (hX : 0 ≤ X) : 0 ≤ total n X := by unfold total; positivity

/-- A parameter after the step, in terms of the computed gradients. -/
theorem learn_ok (cpu : Cpu) {lr : F32.W} (flr : F32.Finite lr) {n : Nat} {X W : ℝ} (hX : 0 ≤ X) (hW : W ≤ 2 ^ 120) {w : List F32.W} (hw : Upto n W w)
    {l : List (List F32.W)} (hl : ∀ g ∈ l, Upto n X g) (hn : l.length ≤ 2 ^ 20) (ht : total l.length X ≤ 2 ^ 120)
    (hlt : |val lr| * total l.length X ≤ 2 ^ 120) :
    (∃ w', Learn cpu lr w l w') ∧ ∀ w', Learn cpu lr w l w' → w'.length = n ∧ ∀ i < n, F32.Finite (w'.getD i 0) ∧
      |val (w'.getD i 0) - (val (w.getD i 0) - val lr * cellSum l i)| ≤
        |val lr| * (l.length * l.length * X / 2 ^ 24) + (W + 3 * (|val lr| * total l.length X + 1 / 2 ^ 126)) / 2 ^ 24 := by
  have hup : ∀ g, Acc cpu l (some g) → g.length = n := fun g hg => ((acc_ok (cpu := cpu) hX hl hn ht).2 (some g) hg).1
  refine ⟨?_, ?_⟩
  · obtain ⟨z, hz⟩ := (acc_ok (cpu := cpu) hX hl hn ht).1
    cases z with
    | none => exact ⟨w, l, none, List.Perm.refl _, hz, rfl⟩
    | some g => exact ⟨_, l, some g, List.Perm.refl _, hz, (sgd_iff ..).mpr ⟨by rw [hw.1, hup g hz], rfl⟩⟩
  · rintro w' ⟨o, z, hp, hz, hu⟩
    have el := hp.length_eq
    have ec : ∀ i, cellSum o i = cellSum l i := fun i => (hp.map _).sum_eq
    have := (acc_ok (cpu := cpu) (l := o) hX (fun g hg => hl g (hp.mem_iff.mp hg)) (by rw [el]; exact hn) (by rw [el]; exact ht)).2 z hz
    cases z with
    | none =>
      have h0 : o = [] := this
      subst h0
      have hl0 : l = [] := List.length_eq_zero_iff.mp el.symm
      subst hl0
      have hu : w' = w := hu
      subst hu
      refine ⟨hw.1, fun i hi => ⟨(hw.2 i hi).1, ?_⟩⟩
      have W0 : 0 ≤ W := (abs_nonneg _).trans (hw.2 i hi).2
      have e : val (w'.getD i 0) - (val (w'.getD i 0) - val lr * cellSum [] i) = 0 := by simp [cellSum]
      rw [e, abs_zero]
      have := total_nonneg 0 hX
      simp only [List.length_nil]
      positivity
    | some g =>
      obtain ⟨gl, hg⟩ := this
      obtain ⟨-, rfl⟩ := (sgd_iff ..).mp hu
      refine ⟨by simp [hw.1, gl], fun i hi => ?_⟩
      obtain ⟨fg, eg, bg⟩ := hg i hi
      rw [el, ec] at eg bg
      rw [getD_zip (f := fun u v => addIeee u (F32.flip v)) (n := n) hw.1 (by simp [gl]) hi, Adam32.mget _ (by rw [gl]; exact hi)]
      refine cell_step flr (hw.2 i hi).1 fg (hw.2 i hi).2 hW hlt ?_ eg
      unfold total
      have := abs_sub_abs_le_abs_sub (val (g.getD i 0)) (cellSum l i)
      linarith

end Verif.Train32
