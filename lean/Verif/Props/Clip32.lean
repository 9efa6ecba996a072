import Verif.Model.Clip32
import Verif.Spec.Clip32
import Verif.Props.Select32
import Verif.Props.Crf32Scalars
import Verif.Lemmas.Adam32
import Verif.Lemmas.Adam32Cell
import Verif.Lemmas.F32Div
import Verif.Lemmas.F32Recip
import Verif.Lemmas.F32Unit

set_option autoImplicit false
set_option linter.unusedSimpArgs false

/-!
# C105: clipping by the largest absolute value, on float32

Finite gradients are scaled as documented, up to rounding.  One infinite gradient makes every finite one zero and itself a NaN; one NaN
at the front of a gradient switches clipping off for all of them.
-/

namespace Verif.Clip32
open Verif.F32 Verif.Asm Verif.Select32 Verif.Adam32 Verif.Spec.Clip32 Verif.Spec.Select32

/-! ### The absolute value -/

theorem absW_toNat (x : F32.W) : (absW x).toNat = x.toNat % 0x80000000 := by
  unfold absW
  rw [BitVec.toNat_and]
  exact Nat.and_two_pow_sub_one_eq_mod x.toNat 31

theorem absW_val (x : F32.W) : val (absW x) = |val x| := by
  rw [val_eq, val_eq x, absW_toNat]
  have h : ¬ 0x80000000 ≤ x.toNat % 0x80000000 := by omega
  have h2 : x.toNat % 0x80000000 % 0x80000000 = x.toNat % 0x80000000 := by omega
  rw [if_neg h, h2, one_mul]
  have := magVal_nonneg (x.toNat % 0x80000000)
  split
  · rw [neg_one_mul, abs_neg, abs_of_nonneg this]
  · rw [one_mul, abs_of_nonneg this]

theorem absW_finite {x : F32.W} (h : F32.Finite x) : F32.Finite (absW x) := by
  unfold F32.Finite at *
  rw [absW_toNat]; omega

theorem absW_nan (x : F32.W) : isNaN (absW x) = isNaN x := by
  unfold isNaN
  rw [absW_toNat]
  congr 1
  simp

theorem absW_inf {x : F32.W} : absW x = posInf ↔ isInf x = true := by
  unfold isInf
  rw [beq_iff_eq, ← absW_toNat]
  exact ⟨fun h => by rw [h]; rfl, fun h => BitVec.eq_of_toNat_eq h⟩

theorem exact_val (x : F32.W) : Exact (val x) := by
  have h1 := unpack_range x
  have h2 : -149 ≤ (unpack x).2.2 := by
    unfold unpack
    simp only
    split <;> omega
  refine ⟨if (unpack x).1 then -((unpack x).2.1 : Int) else (unpack x).2.1, (unpack x).2.2, ?_, ?_, h2⟩
  · unfold val
    cases (unpack x).1 <;> simp
  · cases (unpack x).1 <;> simpa using h1

theorem abs_val_le {x : F32.W} (h : F32.Finite x) : |val x| ≤ maxFin := by
  have h1 := unpack_range x
  have h2 : (unpack x).2.2 ≤ 104 := by
    unfold F32.Finite at h
    unfold unpack
    simp only
    split <;> omega
  have e : |val x| = ((unpack x).2.1 : ℝ) * (2 : ℝ) ^ (unpack x).2.2 := by
    have p : (0 : ℝ) ≤ ((unpack x).2.1 : ℝ) * (2 : ℝ) ^ (unpack x).2.2 := by positivity
    unfold val
    rw [mul_assoc]
    exact sign_abs _ _ p
  rw [e]
  unfold maxFin
  have h3 : ((unpack x).2.1 : ℝ) ≤ 2 ^ 24 - 1 := by
    have : (unpack x).2.1 + 1 ≤ 2 ^ 24 := h1
    have : (((unpack x).2.1 + 1 : Nat) : ℝ) ≤ ((2 ^ 24 : Nat) : ℝ) := by exact_mod_cast this
    push_cast at this
    linarith
  exact mul_le_mul h3 (zpow_le_zpow_right₀ (by norm_num) h2) (by positivity) (by norm_num)

/-! ### The norm -/

theorem ne_pos {x : F32.W} (h : F32.Finite x) : x ≠ posInf := by rintro rfl; exact not_finite_inf.1 h
theorem ne_neg {x : F32.W} (h : F32.Finite x) : x ≠ negInf := by rintro rfl; exact not_finite_inf.2 h

theorem number_fin {x : F32.W} (h : F32.Finite x) : number x = (val x : EReal) := by
  unfold number
  rw [if_neg (ne_pos h), if_neg (ne_neg h)]

theorem max_finite {g : List F32.W} (h0 : g ≠ []) (hf : ∀ x ∈ g, F32.Finite x) :
    ∃ m, maxOf (g.map absW) = some m ∧ F32.Finite m ∧ (∃ x ∈ g, val m = |val x|) ∧ ∀ x ∈ g, |val x| ≤ val m := by
  cases g with
  | nil => exact absurd rfl h0
  | cons a l =>
    obtain ⟨m, h1, h2, _, h4⟩ := max_partial (a := absW a) (absW_finite (hf a (by simp))).not_nan (l.map absW)
    rw [← List.map_cons] at h1 h2 h4
    obtain ⟨x, hx, rfl⟩ := List.mem_map.mp h2
    refine ⟨_, h1, absW_finite (hf x hx), ⟨x, hx, absW_val x⟩, fun y hy => ?_⟩
    have := h4 (absW y) (List.mem_map_of_mem hy) (absW_finite (hf y hy)).not_nan
    rw [number_fin (absW_finite (hf x hx)), number_fin (absW_finite (hf y hy)), EReal.coe_le_coe_iff, absW_val y] at this
    exact this

theorem goMax_finite {a t : F32.W} (ha : F32.Finite a) (ht : F32.Finite t) :
    F32.Finite (goMax a t) ∧ val (goMax a t) = max (val a) (val t) := by
  unfold goMax
  rw [if_neg (by rintro (e | e); exacts [ne_pos ha e, ne_pos ht e]), ha.not_nan, ht.not_nan]
  simp only [Bool.or_self, Bool.false_eq_true, if_false]
  by_cases h : lt t a = true
  · rw [if_pos h]; exact ⟨ha, (max_eq_left ((lt_iff ht ha).mp h).le).symm⟩
  · rw [if_neg h]; exact ⟨ht, (max_eq_right (not_lt.mp fun h' => h ((lt_iff ht ha).mpr h'))).symm⟩

theorem total_finite (gs : List (List F32.W)) : ∀ t, F32.Finite t → (∀ g ∈ gs, g ≠ []) → (∀ g ∈ gs, ∀ x ∈ g, F32.Finite x) →
    ∃ n, totalMax gs t = some n ∧ F32.Finite n ∧ val t ≤ val n ∧ (∀ g ∈ gs, ∀ x ∈ g, |val x| ≤ val n) ∧
      (val n = val t ∨ ∃ g ∈ gs, ∃ x ∈ g, val n = |val x|) := by
  induction gs with
  | nil => intro t ht _ _; exact ⟨t, rfl, ht, le_rfl, by simp, Or.inl rfl⟩
  | cons g gs ih =>
    intro t ht h0 hf
    obtain ⟨m, h1, h2, ⟨x, hx, h3⟩, h4⟩ := max_finite (h0 g (by simp)) (hf g (by simp))
    obtain ⟨k1, k2⟩ := goMax_finite h2 ht
    obtain ⟨n, j1, j2, j3, j4, j5⟩ := ih _ k1 (fun g' h => h0 g' (by simp [h])) (fun g' h => hf g' (by simp [h]))
    rw [k2] at j3 j5
    refine ⟨n, by simp only [totalMax, h1, j1], j2, (le_max_right _ _).trans j3, fun g' hg' y hy => ?_, ?_⟩
    · rcases List.mem_cons.mp hg' with rfl | hg'
      · exact ((h4 y hy).trans (le_max_left _ _)).trans j3
      · exact j4 g' hg' y hy
    · rcases j5 with j5 | ⟨g', hg', y, hy, e⟩
      · rcases max_choice (val m) (val t) with e | e
        · exact Or.inr ⟨g, by simp, x, hx, by rw [j5, e, h3]⟩
        · exact Or.inl (by rw [j5, e])
      · exact Or.inr ⟨g', by simp [hg'], y, hy, e⟩

/-! ### Finite gradients -/

theorem cell {K N : ℝ} {x c : F32.W} (hK : 0 < K) (hN : 0 ≤ N) (hx : F32.Finite x) (hxN : |val x| ≤ N) (hc : F32.Finite c) (h0 : 0 ≤ val c)
    (h1 : val c ≤ 1) (hq : |val c - K / (N + 1e-7)| ≤ K / (N + 1e-7) / 2 ^ 23 + (2 : ℝ) ^ (-149 : Int))
    (hle : K ≤ (N + 1e-7) * (1 + 1 / 2 ^ 50)) : Clipped K N x (mulIeee x c) := by
  have hp : (0 : ℝ) < N + 1e-7 := by norm_num; linarith
  set q := K / (N + 1e-7) with hqd
  have hq0 : 0 < q := div_pos hK hp
  set X := |val x| with hX
  have hX0 : 0 ≤ X := abs_nonneg _
  have hxc : |val x * val c| = X * val c := by rw [abs_mul, abs_of_nonneg h0]
  have hXc : X * val c ≤ X := by nlinarith
  have hex : Exact X := by
    rw [hX, ← absW_val]; exact exact_val _
  have hmx : X ≤ maxFin := by
    rw [hX]; exact abs_val_le hx
  obtain ⟨f, hs⟩ := mul_unit hx hc hex (by rw [hxc]; exact hXc) hmx
  have hn := mul_rel f
  rw [hxc] at hn
  have d2 : (2 : ℝ) ^ (-148 : Int) = 2 * (2 : ℝ) ^ (-149 : Int) := by
    rw [show (-148 : Int) = 1 + -149 by norm_num, zpow_add₀ (by norm_num)]; norm_num
  have dp : (0 : ℝ) < (2 : ℝ) ^ (-149 : Int) := by positivity
  have cl : |val (mulIeee x c) - val x * q| ≤ X * q / 2 ^ 22 + X * (2 : ℝ) ^ (-148 : Int) + (2 : ℝ) ^ (-150 : Int) := by
    have e1 : |val x * val c - val x * q| ≤ X * (q / 2 ^ 23 + (2 : ℝ) ^ (-149 : Int)) := by
      rw [← mul_sub, abs_mul]; exact mul_le_mul_of_nonneg_left hq hX0
    have e2 : X * val c ≤ X * (q + (q / 2 ^ 23 + (2 : ℝ) ^ (-149 : Int))) := by
      apply mul_le_mul_of_nonneg_left _ hX0
      have := (abs_le.mp hq).2
      linarith
    have e3 := abs_sub_le (val (mulIeee x c)) (val x * val c) (val x * q)
    rw [d2]
    generalize (2 : ℝ) ^ (-149 : Int) = D at *
    generalize (2 : ℝ) ^ (-150 : Int) = E at *
    have hXq : 0 ≤ X * q := by positivity
    have hXD : 0 ≤ X * D := by positivity
    have e1' : X * (q / 2 ^ 23 + D) = X * q / 2 ^ 23 + X * D := by ring
    have e2' : X * (q + (q / 2 ^ 23 + D)) = X * q + X * q / 2 ^ 23 + X * D := by ring
    rw [e1'] at e1
    rw [e2'] at e2
    have e4 : X * (2 * D) = 2 * (X * D) := by ring
    rw [e4]
    generalize X * q = A at *
    generalize X * D = B at *
    norm_num at *
    linarith
  refine ⟨f, hs, ?_, fun h => absurd hle (not_le.mpr h), fun _ => cl⟩
  have hXq : X * q ≤ K := by
    rw [hqd, mul_div_assoc', div_le_iff₀ hp]
    have : X ≤ N + 1e-7 := by norm_num at *; linarith
    nlinarith
  have h5 : |val x * q| = X * q := by rw [abs_mul, abs_of_pos hq0]
  have h6 := abs_sub_abs_le_abs_sub (val (mulIeee x c)) (val x * q)
  rw [h5] at h6
  have h7 : X * (2 : ℝ) ^ (-148 : Int) ≤ N * (2 : ℝ) ^ (-148 : Int) := mul_le_mul_of_nonneg_right hxN (by positivity)
  generalize X * (2 : ℝ) ^ (-148 : Int) = A at *
  generalize N * (2 : ℝ) ^ (-148 : Int) = B at *
  generalize (2 : ℝ) ^ (-150 : Int) = E at *
  generalize X * q = Y at *
  norm_num at *
  linarith

theorem forall₂_scale (cpu : Cpu) (c : F32.W) (gs gs' : List (List F32.W)) :
    List.Forall₂ (ScaleIn cpu c) gs gs' ↔ gs' = gs.map fun g => g.map fun v => mulIeee v c := by
  induction gs generalizing gs' with
  | nil => simp
  | cons g gs ih =>
    rw [List.forall₂_cons_left_iff]
    constructor
    · rintro ⟨b, u, k, h, rfl⟩; rw [(ih u).mp h, (scaleIn_iff _ _ _ _).mp k]; rfl
    · rintro rfl; exact ⟨_, _, (scaleIn_iff _ _ _ _).mpr rfl, (ih _).mpr rfl, rfl⟩

/-- **C105, finite gradients.**  Clipping gives one result, of the same shape; nothing gets larger, everything is below `MaxNorm` up to
rounding, small gradients are unchanged and large ones scaled by one factor up to rounding. -/
theorem clip_partial (cpu : Cpu) {K : ℝ} (hK : 0 < K) {coef : F32.W → Option F32.W} (hc : GoodCoef K coef) {gs : List (List F32.W)}
    (h0 : ∀ g ∈ gs, g ≠ []) (hf : ∀ g ∈ gs, ∀ x ∈ g, F32.Finite x) :
    ∃ N, IsNorm gs N ∧ ∃ gs', (∀ hs, ClipMax cpu coef gs hs ↔ hs = gs') ∧ List.Forall₂ (List.Forall₂ (Clipped K N)) gs gs' := by
  have z0 : val (0 : F32.W) = 0 := val_signed_zero false
  obtain ⟨n, h1, h2, h3, h4, h5⟩ := total_finite gs 0 (by unfold F32.Finite; decide) h0 hf
  rw [z0] at h3 h5
  refine ⟨val n, ⟨h4, h5⟩, ?_⟩
  have all2 : ∀ f : F32.W → F32.W, (∀ g ∈ gs, ∀ x ∈ g, Clipped K (val n) x (f x)) →
      List.Forall₂ (List.Forall₂ (Clipped K (val n))) gs (gs.map fun g => g.map f) := by
    intro f h
    rw [List.forall₂_map_right_iff, List.forall₂_same]
    intro g hg
    rw [List.forall₂_map_right_iff, List.forall₂_same]
    exact h g hg
  cases e : coef n with
  | none =>
    refine ⟨gs, fun hs => ⟨fun ⟨n', k1, k2⟩ => ?_, fun k => ⟨n, h1, by rw [e]; exact k⟩⟩, ?_⟩
    · rw [h1] at k1; cases k1; rw [e] at k2; exact k2
    · have hk := hc.keep n h2 h3 e
      have := all2 id fun g hg x hx => by
        have hx' := h4 g hg x hx
        refine ⟨hf g hg x hx, le_rfl, ?_, fun _ => rfl, fun h => absurd hk (not_le.mpr h)⟩
        have p1 : 0 ≤ val n * (2 : ℝ) ^ (-148 : Int) := by positivity
        have p2 : (0 : ℝ) < (2 : ℝ) ^ (-150 : Int) := by positivity
        change |val x| ≤ _
        generalize val n * (2 : ℝ) ^ (-148 : Int) = A at *
        generalize (2 : ℝ) ^ (-150 : Int) = B at *
        norm_num at *
        linarith
      simpa using this
  | some c =>
    obtain ⟨k1, k2, k3, k4, k5⟩ := hc.scale n c h2 h3 e
    refine ⟨gs.map fun g => g.map fun v => mulIeee v c, fun hs => ⟨fun ⟨n', j1, j2⟩ => ?_, fun k => ⟨n, h1, ?_⟩⟩,
      all2 (fun v => mulIeee v c) fun g hg x hx => cell hK h3 (hf g hg x hx) (h4 g hg x hx) k2 k3 k4 k5 k1⟩
    · rw [h1] at j1; cases j1; rw [e] at j2; exact (forall₂_scale _ _ _ _).mp j2
    · rw [e]; exact (forall₂_scale _ _ _ _).mpr k

/-! ### Infinite gradients and NaN -/

theorem total_inf_stay (gs : List (List F32.W)) (h0 : ∀ g ∈ gs, g ≠ []) : totalMax gs posInf = some posInf := by
  induction gs with
  | nil => rfl
  | cons g gs ih =>
    cases g with
    | nil => exact absurd rfl (h0 [] (by simp))
    | cons a l =>
      simp only [totalMax, List.map_cons, maxOf, goMax, or_true, if_true]
      exact ih fun g' h => h0 g' (by simp [h])

theorem total_inf (gs : List (List F32.W)) : ∀ t, (∀ g ∈ gs, g ≠ []) → (∀ g ∈ gs, ∀ x ∈ g, isNaN x = false) →
    (∃ g ∈ gs, ∃ x ∈ g, isInf x = true) → totalMax gs t = some posInf := by
  induction gs with
  | nil => rintro t _ _ ⟨g, h, _⟩; cases h
  | cons g gs ih =>
    rintro t h0 hn ⟨g', hg', x, hx, hi⟩
    cases g with
    | nil => exact absurd rfl (h0 [] (by simp))
    | cons a l =>
      obtain ⟨m, h1, _, h3, h4⟩ := max_partial (a := absW a) (by rw [absW_nan]; exact hn (a :: l) (by simp) a (by simp)) (l.map absW)
      rw [← List.map_cons] at h1 h4
      simp only [totalMax, h1]
      rcases List.mem_cons.mp hg' with rfl | hg'
      · have := h4 (absW x) (List.mem_map_of_mem hx) (by rw [absW_nan]; exact hn _ (by simp) x hx)
        rw [absW_inf.mpr hi] at this
        have hm : m = posInf := by
          by_contra hne
          unfold number at this
          rw [if_pos rfl, if_neg hne, top_le_iff] at this
          split at this
          · exact absurd this (by simp)
          · exact EReal.coe_ne_top _ this
        subst hm
        simp only [goMax, true_or, if_true]
        exact total_inf_stay gs fun g' h => h0 g' (by simp [h])
      · exact ih _ (fun g' h => h0 g' (by simp [h])) (fun g' h => hn g' (by simp [h])) ⟨g', hg', x, hx, hi⟩

/-- **C105, an infinite gradient.**  When there is no NaN and some element of some gradient is infinite, clipping turns every finite
element of every gradient into a zero and every infinite element into a NaN. -/
theorem clip_inf (cpu : Cpu) {K : ℝ} {coef : F32.W → Option F32.W} (hc : GoodCoef K coef) {gs gs' : List (List F32.W)}
    (hn : ∀ g ∈ gs, ∀ x ∈ g, isNaN x = false) (hi : ∃ g ∈ gs, ∃ x ∈ g, isInf x = true) (h0 : ∀ g ∈ gs, g ≠ [])
    (h : ClipMax cpu coef gs gs') :
    List.Forall₂ (List.Forall₂ fun x r => (F32.Finite x → val r = 0) ∧ (isInf x = true → isNaN r = true)) gs gs' := by
  obtain ⟨n, h1, h2⟩ := h
  rw [total_inf gs 0 h0 hn hi] at h1
  cases h1
  rw [hc.inf] at h2
  rw [(forall₂_scale _ _ _ _).mp h2, List.forall₂_map_right_iff, List.forall₂_same]
  intro g hg
  rw [List.forall₂_map_right_iff, List.forall₂_same]
  intro x hx
  have z0 : val (0 : F32.W) = 0 := val_signed_zero false
  refine ⟨fun hf => ?_, fun hxi => ?_⟩
  · have := (mul_unit hf (y := 0) (by unfold F32.Finite; decide) (a := 0) ⟨0, 0, by norm_num, by norm_num, by norm_num⟩
      (by rw [z0]; norm_num) (by unfold maxFin; norm_num)).2
    exact abs_eq_zero.mp (le_antisymm this (abs_nonneg _))
  · have e : mulIeee x 0 = qNaN := by
      unfold mulIeee
      rw [hn g hg x hx, hxi]
      simp [isNaN, isZero]
    rw [e]; decide

theorem fold_mem (l : List F32.W) : ∀ a, l.foldl (fun m v => if lt m v then v else m) a ∈ a :: l := by
  induction l with
  | nil => intro a; simp
  | cons b l ih =>
    intro a
    rw [List.foldl_cons]
    split
    · exact List.mem_cons_of_mem _ (ih b)
    · rcases List.mem_cons.mp (ih a) with h | h
      · rw [h]; simp
      · exact List.mem_cons_of_mem _ (List.mem_cons_of_mem _ h)

theorem total_nan (gs : List (List F32.W)) : ∀ t, t ≠ posInf → (∀ g ∈ gs, g ≠ []) → (∀ g ∈ gs, ∀ x ∈ g, isInf x = false) →
    (isNaN t = true ∨ ∃ g ∈ gs, ∃ a l, g = a :: l ∧ isNaN a = true) → ∃ n, totalMax gs t = some n ∧ isNaN n = true := by
  induction gs with
  | nil =>
    rintro t _ _ _ (h | ⟨g, h, _⟩)
    · exact ⟨t, rfl, h⟩
    · cases h
  | cons g gs ih =>
    intro t ht h0 hi h
    cases g with
    | nil => exact absurd rfl (h0 [] (by simp))
    | cons a l =>
      obtain ⟨m, hm, hmem⟩ : ∃ m, maxOf ((a :: l).map absW) = some m ∧ m ∈ (a :: l).map absW := ⟨_, rfl, fold_mem _ _⟩
      have hmi : m ≠ posInf := by
        obtain ⟨x, hx, rfl⟩ := List.mem_map.mp hmem
        intro e
        have := hi _ (by simp) x hx
        rw [absW_inf.mp e] at this; cases this
      simp only [totalMax, hm]
      apply ih _ _ (fun g' h => h0 g' (by simp [h])) (fun g' h => hi g' (by simp [h]))
      · have key : isNaN m = true ∨ isNaN t = true → isNaN (goMax m t) = true := by
          intro k
          unfold goMax
          rw [if_neg (by rintro (e | e); exacts [hmi e, ht e]), if_pos (by simpa using k)]
          decide
        rcases h with h | ⟨g', hg', b, l', e, hb⟩
        · exact Or.inl (key (Or.inr h))
        · rcases List.mem_cons.mp hg' with rfl | hg'
          · cases e
            rw [List.map_cons, (max_nan_first (by rw [absW_nan]; exact hb) _).1] at hm
            cases hm
            exact Or.inl (key (Or.inl (by rw [absW_nan]; exact hb)))
          · exact Or.inr ⟨g', hg', b, l', e, hb⟩
      · unfold goMax
        rw [if_neg (by rintro (e | e); exacts [hmi e, ht e])]
        split
        · decide
        · split
          · exact hmi
          · exact ht

/-- **C105, a NaN in front.**  When no gradient is infinite and the first element of some gradient is a NaN, nothing is clipped, however
large the other gradients are. -/
theorem clip_nan_first (cpu : Cpu) {K : ℝ} {coef : F32.W → Option F32.W} (hc : GoodCoef K coef) {gs : List (List F32.W)}
    (h0 : ∀ g ∈ gs, g ≠ []) (hi : ∀ g ∈ gs, ∀ x ∈ g, isInf x = false) (hn : ∃ g ∈ gs, ∃ a l, g = a :: l ∧ isNaN a = true)
    (gs' : List (List F32.W)) : ClipMax cpu coef gs gs' ↔ gs' = gs := by
  obtain ⟨n, h1, h2⟩ := total_nan gs 0 (by decide) h0 hi (Or.inr hn)
  constructor
  · rintro ⟨n', k1, k2⟩
    rw [h1] at k1; cases k1
    rw [hc.nan n h2] at k2
    exact k2
  · intro h
    exact ⟨n, h1, by rw [hc.nan n h2]; exact h⟩

/-- **C105, an empty gradient.**  Clipping panics. -/
theorem clip_empty (cpu : Cpu) (coef : F32.W → Option F32.W) {gs : List (List F32.W)} (h : [] ∈ gs) (gs' : List (List F32.W)) :
    ¬ ClipMax cpu coef gs gs' := by
  rintro ⟨n, h1, -⟩
  have key : ∀ (gs : List (List F32.W)) (t : F32.W), [] ∈ gs → totalMax gs t = none := by
    intro gs
    induction gs with
    | nil => intro t h; cases h
    | cons g gs ih =>
      intro t h
      unfold totalMax
      cases g with
      | nil => rfl
      | cons a l => exact ih _ (by simpa using h)
  rw [key gs 0 h] at h1
  cases h1

/-! ### A coefficient as float64 arithmetic gives it exists -/

theorem exists_coef : ∃ coef, GoodCoef 8 coef := by
  classical
  have one : val (0x3f800000 : F32.W) = 1 := by
    exact F32.one_val
  have ex : ∀ n, F32.Finite n → 0 ≤ val n → 8 < val n + 1e-7 → ∃ c, F32.Finite c ∧ 0 ≤ val c ∧ val c ≤ 1 ∧
      |val c - 8 / (val n + 1e-7)| ≤ 8 / (val n + 1e-7) / 2 ^ 23 + (2 : ℝ) ^ (-149 : Int) := by
    intro n hn hp hlt
    have hp1 : (0 : ℝ) < val n + 1e-7 := by linarith
    set r := (8 : ℝ) / (val n + 1e-7) with hr
    have r0 : 0 < r := by positivity
    have r1 : r < 1 := by rw [hr, div_lt_one hp1]; exact hlt
    have rl : (2 : ℝ) ^ (-126 : Int) ≤ |r| := by
      rw [abs_of_pos r0, hr, le_div_iff₀ hp1]
      have hm : val n ≤ maxFin := (le_abs_self _).trans (abs_val_le hn)
      have : val n + 1e-7 ≤ 2 ^ 129 := by
        unfold maxFin at hm
        norm_num at *
        linarith
      calc (2 : ℝ) ^ (-126 : Int) * (val n + 1e-7) ≤ (2 : ℝ) ^ (-126 : Int) * 2 ^ 129 := mul_le_mul_of_nonneg_left this (by positivity)
        _ = 8 := by norm_num
    obtain ⟨c, hc, hcr⟩ := Crf32.exists_near rl (by rw [abs_of_pos r0]; exact r1.le.trans (by norm_num))
    rw [abs_of_pos r0] at hcr
    have dp : (0 : ℝ) < (2 : ℝ) ^ (-149 : Int) := by positivity
    by_cases h : val c ≤ 1
    · refine ⟨c, hc, ?_, h, by linarith⟩
      have := (abs_le.mp hcr).1
      have : r / 2 ^ 23 ≤ r := by apply div_le_self r0.le; norm_num
      linarith
    · refine ⟨0x3f800000, by unfold F32.Finite; decide, by rw [one]; norm_num, one.le, ?_⟩
      rw [one, abs_of_pos (by linarith)]
      have := (abs_le.mp hcr).2
      linarith
  refine ⟨fun n => if n = posInf then some 0 else if h : F32.Finite n ∧ 0 ≤ val n ∧ 8 < val n + 1e-7 then
    some (Classical.choose (ex n h.1 h.2.1 h.2.2)) else none, ⟨?_, ?_, by simp, ?_⟩⟩
  · intro n hn hp h
    beta_reduce at h
    rw [if_neg (ne_pos hn)] at h
    split at h
    · cases h
    · rename_i h'
      have : val n + 1e-7 ≤ 8 := not_lt.mp fun k => h' ⟨hn, hp, k⟩
      norm_num at *
      linarith
  · intro n c hn hp h
    beta_reduce at h
    rw [if_neg (ne_pos hn)] at h
    split at h
    · rename_i h'
      cases h
      refine ⟨?_, Classical.choose_spec (ex n h'.1 h'.2.1 h'.2.2)⟩
      have := h'.2.2
      norm_num at *
      linarith
    · cases h
  · intro n hn
    beta_reduce
    rw [if_neg (fun e => by rw [e] at hn; revert hn; decide), dif_neg]
    rintro ⟨h, -⟩
    rw [h.not_nan] at hn; cases hn

/-- Gradients 100 and -3, 1: finite, so the first theorem applies; with +Inf for the -3 the second, with a NaN in front the third. -/
example (cpu : Cpu) : ∃ coef, GoodCoef 8 coef ∧
    (∃ N, IsNorm [[0x42c80000], [0xc0400000, 0x3f800000]] N ∧ ∃ gs', (∀ hs, ClipMax cpu coef [[0x42c80000], [0xc0400000, 0x3f800000]] hs ↔ hs = gs') ∧
      List.Forall₂ (List.Forall₂ (Clipped 8 N)) [[0x42c80000], [0xc0400000, 0x3f800000]] gs') ∧
    (∀ gs', ClipMax cpu coef [[0x42c80000], [posInf, 0x3f800000]] gs' →
      List.Forall₂ (List.Forall₂ fun x r => (F32.Finite x → val r = 0) ∧ (isInf x = true → isNaN r = true))
        [[0x42c80000], [posInf, 0x3f800000]] gs') ∧
    ∀ gs', ClipMax cpu coef [[0x42c80000], [qNaN, 0x3f800000]] gs' ↔ gs' = [[0x42c80000], [qNaN, 0x3f800000]] := by
  obtain ⟨coef, hc⟩ := exists_coef
  refine ⟨coef, hc, clip_partial cpu (by norm_num) hc (by simp) (by simp [F32.Finite]), fun gs' h => ?_, ?_⟩
  · exact clip_inf cpu hc (by simp [isNaN, posInf]) ⟨[posInf, 0x3f800000], by simp, posInf, by simp, by decide⟩ (by simp) h
  · exact clip_nan_first cpu hc (by simp) (by simp [isInf, qNaN]) ⟨[qNaN, 0x3f800000], by simp, qNaN, _, rfl, by decide⟩

end Verif.Clip32
