import Verif.Lemmas.Norm32Shift

set_option autoImplicit false
set_option linter.unusedSimpArgs false

/-!
# C94: normalisation layers on 32-bit words

For every vector of up to 2^20 numbers, on every amd64 processor and whatever is in the registers and elsewhere in memory, the
layers end with a result, and every possible result consists of finite numbers, hardly larger than `√n |w| + |b|` (for `FixNorm` and `ScaleNorm`: `|w|`), whatever the
input, and close to the exact normalisation.  For the layers that subtract the mean the distance contains the error of the mean
divided by the denominator, which can be large (`Props/Norm32Const.lean`).
-/

namespace Verif.Norm32
open Verif.F32 Verif.Asm Verif.Spec Verif.Spec.Kernels Verif.Net32 Verif.Rec32 Verif.Att32 Verif.Adam32 Verif.Spec.Norm32
open Verif.Spec.Rec32 (vals Within)

theorem getD_out {a : List F32.W} {n i : Nat} (hl : a.length = n) (hi : i < n) : a.getD i 0 ∈ a := by
  rw [List.getD_eq_getElem _ _ (by omega)]; exact List.getElem_mem _

theorem mean_exists (cpu : Cpu) (x : List F32.W) : ∃ m, Mean cpu x m := by
  obtain ⟨s, hs⟩ := sum1_exists cpu x
  exact ⟨_, s, hs, (scaleIn_iff _ _ _ _).mpr rfl⟩

theorem dev_exists (cpu : Cpu) (x : List F32.W) : ∃ dev, Dev cpu x dev ∧ dev.length = x.length := by
  obtain ⟨m, hm⟩ := mean_exists cpu x
  exact ⟨_, ⟨m, hm, (addConst_iff _ _ _ _).mpr rfl⟩, by simp⟩

theorem meanSq_exists (cpu : Cpu) (x : List F32.W) : ∃ v, MeanSq cpu x v := by
  obtain ⟨v, hv⟩ := mean_exists cpu (List.zipWith mulIeee x x)
  exact ⟨v, _, ⟨rfl, rfl⟩, hv⟩

/-- `z` is `w y + b`, where `y` is `k`-bounded and up to `e` from the exact normalisation `N`. -/
def AffOk (n : Nat) (k : ℝ) (N : Nat → ℝ) (e : ℝ) (w b z : List F32.W) : Prop :=
  z.length = n ∧ ∀ i < n, F32.Finite (z.getD i 0) ∧
    |vals z i| ≤ (k * |vals w i| + |vals b i|) * (1 + 1 / 2 ^ 15) + 1 / 2 ^ 149 ∧
    |vals z i - (N i * vals w i + vals b i)| ≤ affErr k (vals w i) (vals b i) e

/-- `y` is `k`-bounded and up to `e` from the exact normalisation `N`. -/
def NormOk (n : Nat) (k : ℝ) (N : Nat → ℝ) (e : ℝ) (y : List F32.W) : Prop :=
  y.length = n ∧ ∀ i < n, F32.Finite (y.getD i 0) ∧ |vals y i| ≤ k * (1 + 1 / 2 ^ 16) ∧ |vals y i - N i| ≤ e

theorem norm_aff {cpu : Cpu} {n : Nat} {k : ℝ} {N : Nat → ℝ} {e : ℝ} {w b y p z : List F32.W} (hk : 1 ≤ k) (hk' : k ≤ 2 ^ 10)
    (hy : NormOk n k N e y) (hw : Within n w (2 ^ 60)) (hb : Within n b (2 ^ 60)) (hp : Prod y w p) (hz : AddNew cpu p b z) :
    AffOk n k N e w b z := by
  obtain ⟨hl, hy⟩ := hy
  obtain ⟨lw, hw⟩ := hw
  obtain ⟨lb, hb⟩ := hb
  obtain ⟨-, rfl⟩ := hp
  rw [addNew_iff] at hz
  obtain ⟨-, rfl⟩ := hz
  refine ⟨by simp [hl, lw, lb], fun i hi => ?_⟩
  have e1 : (List.zipWith addIeee (List.zipWith mulIeee y w) b).getD i 0 = addIeee (mulIeee (y.getD i 0) (w.getD i 0)) (b.getD i 0) := by
    rw [zget _ (by simp; omega) (by simp; omega), zget _ (by omega) (by omega)]
  unfold vals
  rw [e1]
  obtain ⟨f, u, c⟩ := hy i hi
  exact aff_ok hk hk' f u c (hw i hi).1 (hw i hi).2 (hb i hi).1 (hb i hi).2

/-- The layers that do not subtract the mean. -/
theorem plain_norm {cpu : Cpu} {x y : List F32.W} {n : Nat} {m D : ℝ} {q : F32.W} (hn : n ≤ 2 ^ 20) (hx : Within n x (2 ^ 50)) (hm : 1 ≤ m)
    (hq : Den n (vals' x) m D q) (hy : DivConst cpu q x y) :
    NormOk n (Real.sqrt m) (fun i => vals x i / D) (quotErr n (Real.sqrt m)) y := by
  unfold DivConst at hy
  rw [scale_iff] at hy
  subst hy
  obtain ⟨hl, hx⟩ := hx
  refine ⟨by simp [hl], fun i hi => ?_⟩
  unfold vals
  rw [mget _ (by omega)]
  obtain ⟨f, u, c⟩ := quot_ok hn hm hq hi (hx i hi).1 rfl (hx i hi).2
  refine ⟨f, u, c.trans ?_⟩
  unfold quotErr
  have h1 : Real.sqrt m * (n + 23) / 2 ^ 23 ≤ Real.sqrt m * (n + 24) / 2 ^ 23 :=
    div_le_div_of_nonneg_right (mul_le_mul_of_nonneg_left (by linarith) (Real.sqrt_nonneg _)) (by positivity)
  have h2 : (1 : ℝ) / 2 ^ 150 ≤ 1 / 2 ^ 149 := by norm_num
  linarith

theorem sqrt_count {n : Nat} (h1 : 1 ≤ n) (hn : n ≤ 2 ^ 20) : 1 ≤ Real.sqrt n ∧ Real.sqrt n ≤ 2 ^ 10 := by
  obtain ⟨g1, g2⟩ := count_pos h1 hn
  refine ⟨Real.le_sqrt_of_sq_le (by simpa using g1), ?_⟩
  rw [Real.sqrt_le_left (by norm_num)]
  norm_num at g2 ⊢
  exact g2

/-- **C94.** `RMSNorm`. -/
theorem rmsNorm_close (cpu : Cpu) {n : Nat} (h1 : 1 ≤ n) (hn : n ≤ 2 ^ 20) {x w b : List F32.W} (hx : Within n x (2 ^ 50))
    (hw : Within n w (2 ^ 60)) (hb : Within n b (2 ^ 60)) :
    (∃ z, RMSNorm cpu w b x z) ∧
      ∀ z, RMSNorm cpu w b x z → AffOk n (Real.sqrt n) (rms n (vals x)) (quotErr n (Real.sqrt n)) w b z := by
  obtain ⟨g1, g2⟩ := count_pos h1 hn
  obtain ⟨s1, s2⟩ := sqrt_count h1 hn
  constructor
  · obtain ⟨v, hv⟩ := meanSq_exists cpu x
    exact ⟨_, v, _, _, _, hv, (addConst_iff _ _ _ _).mpr rfl, (scale_iff _ _ _ _).mpr rfl, ⟨by simp [hx.1, hw.1], rfl⟩,
      (addNew_iff _ _ _ _).mpr ⟨by simp [hx.1, hw.1, hb.1], rfl⟩⟩
  · rintro z ⟨v, d, y, p, hv, hd, hy, hp, hz⟩
    rw [addConst_iff] at hd
    simp only [List.map_cons, List.map_nil, List.cons.injEq, and_true] at hd
    subst hd
    have hv' := meanSq_ok hv (by rw [hx.1]; exact h1) (by rw [hx.1]; exact hn) (by rw [hx.1]; exact hx.2)
    rw [hx.1] at hv'
    have hD := den2 hn g1 (meanSq_nonneg n (vals' x)) hv'
    exact norm_aff s1 s2 (plain_norm hn hx g1 hD hy) hw hb hp hz

/-- **C94.** `FixNorm`. -/
theorem fixNorm_close (cpu : Cpu) {n : Nat} (h1 : 1 ≤ n) (hn : n ≤ 2 ^ 20) {x : List F32.W} (hx : Within n x (2 ^ 50)) :
    (∃ y, FixNorm cpu x y) ∧ ∀ y, FixNorm cpu x y → NormOk n 1 (unit n (vals x)) (quotErr n 1) y := by
  obtain ⟨g1, g2⟩ := count_pos h1 hn
  constructor
  · obtain ⟨v, hv⟩ := sum1_exists cpu (List.zipWith mulIeee x x)
    exact ⟨_, _, v, _, ⟨rfl, rfl⟩, hv, (addConst_iff _ _ _ _).mpr rfl, (scale_iff _ _ _ _).mpr rfl⟩
  · rintro y ⟨sq, v, d, hsq, hv, hd, hy⟩
    rw [addConst_iff] at hd
    simp only [List.map_cons, List.map_nil, List.cons.injEq, and_true] at hd
    subst hd
    obtain ⟨a1, a2, a3, a4, a5⟩ := sumSq_ok hsq hv (by rw [hx.1]; exact hn) (by rw [hx.1]; exact hx.2)
    rw [hx.1] at a3 a4 a5
    have hT : 0 ≤ ∑ i ∈ Finset.range n, vals' x i * vals' x i := Finset.sum_nonneg fun i _ => mul_self_nonneg _
    have hv' : SqNear n (vals' x) 1 (∑ i ∈ Finset.range n, vals' x i * vals' x i) v := by
      refine ⟨a1, a2, ?_, a4.trans ?_, fun i hi => ?_⟩
      · have g3 : (n : ℝ) ≤ 1048576 := g2.trans (by norm_num)
        refine a3.trans ((mul_le_mul_of_nonneg_right g3 (by positivity)).trans (by norm_num))
      · have b1 : ((n : ℝ) + 2) / 2 ^ 23 * (∑ i ∈ Finset.range n, vals' x i * vals' x i) ≤
            (n + 8) / 2 ^ 23 * (∑ i ∈ Finset.range n, vals' x i * vals' x i) :=
          mul_le_mul_of_nonneg_right (div_le_div_of_nonneg_right (by linarith) (by positivity)) hT
        have b2 : (n : ℝ) / 2 ^ 149 ≤ 1 / 2 ^ 128 :=
          (div_le_div_of_nonneg_right g2 (pow_nonneg (by norm_num) _)).trans (by norm_num)
        linarith
      · have b := a5 i hi
        rw [div_one]
        have b1 : vals' x i * vals' x i * (1 - 1 / 2 ^ 20) ≤ vals' x i * vals' x i * (1 - 1 / 2 ^ 24) :=
          mul_le_mul_of_nonneg_left (by norm_num) (mul_self_nonneg _)
        have b2 : (1 : ℝ) / 2 ^ 150 ≤ 1 / 2 ^ 128 := by norm_num
        linarith
    have := plain_norm hn hx le_rfl (den2 hn le_rfl hT hv') hy
    rw [Real.sqrt_one] at this
    exact this

/-- **C94.** `ScaleNorm`. -/
theorem scaleNorm_close (cpu : Cpu) {n : Nat} (h1 : 1 ≤ n) (hn : n ≤ 2 ^ 20) {x g : List F32.W} (hx : Within n x (2 ^ 50))
    (hg : Within n g (2 ^ 60)) :
    (∃ z, ScaleNorm cpu g x z) ∧ ∀ z, ScaleNorm cpu g x z → z.length = n ∧ ∀ i < n, F32.Finite (z.getD i 0) ∧
      |vals z i| ≤ |vals g i| * (1 + 1 / 2 ^ 15) + 1 / 2 ^ 149 ∧
      |vals z i - unit n (vals x) i * vals g i| ≤ affErr 1 (vals g i) 0 (quotErr n 1) := by
  obtain ⟨⟨y, hy⟩, h⟩ := fixNorm_close cpu h1 hn hx
  constructor
  · exact ⟨_, y, hy, ⟨by rw [(h y hy).1, hg.1], rfl⟩⟩
  · rintro z ⟨y, hy, -, rfl⟩
    obtain ⟨hl, hn'⟩ := h y hy
    refine ⟨by simp [hl, hg.1], fun i hi => ?_⟩
    unfold vals
    rw [zget _ (by omega) (by rw [hl, hg.1])]
    obtain ⟨f, u, c⟩ := hn' i hi
    have k := aff_ok (b := 0) le_rfl (by norm_num) f u c (hg.2 i hi).1 (hg.2 i hi).2 zero_finite.1 (by rw [val_zero]; norm_num)
    obtain ⟨k1, k2⟩ := add_finite k.1
    have e := add_zero_val k1 k2 (.inr val_zero)
    rw [e, val_zero, abs_zero, add_zero, add_zero, add_zero, one_mul] at k
    exact ⟨k1, k.2.1, k.2.2⟩

/-- The layers that subtract the mean. -/
theorem mean_norm {cpu : Cpu} {x dev y : List F32.W} {n : Nat} (h1 : 1 ≤ n) (hn : n ≤ 2 ^ 20) {X : ℝ} (hX : X ≤ 2 ^ 48) (hx : Within n x X)
    (hd : Dev cpu x dev) {D D' : ℝ} {q : F32.W} (hD : Den n (vals' dev) n D' q) (hD0 : 0 < D)
    (h2 : ∀ {e u : ℝ}, 0 ≤ e → 0 ≤ u → u ≤ 1 → (∀ i < n, |vals' dev i - (vals' x i - mean n (vals' x))| ≤ e + u * |vals' x i - mean n (vals' x)|) →
      |D' - D| ≤ e + u * D) (h3 : Real.sqrt (meanSq n (vals' dev)) ≤ D')
    (h4 : Real.sqrt (meanSq n fun i => vals' x i - mean n (vals' x)) ≤ D) (hy : DivConst cpu q dev y) :
    NormOk n (Real.sqrt n) (fun i => (vals x i - mean n (vals x)) / D) (quotErr n (Real.sqrt n) + meanErr n X D) y := by
  obtain ⟨hl, hx⟩ := hx
  obtain ⟨g1, g2⟩ := count_pos h1 hn
  obtain ⟨s1, s2⟩ := sqrt_count h1 hn
  obtain ⟨dl, hd⟩ := dev_ok hd (by omega) (by omega) hX (by rw [hl]; exact hx)
  rw [hl] at dl hd
  unfold DivConst at hy
  rw [scale_iff] at hy
  subst hy
  refine ⟨by simp [dl], fun i hi => ?_⟩
  have hX0 : 0 ≤ X := (abs_nonneg _).trans (hx i hi).2
  unfold vals
  rw [mget _ (by omega)]
  obtain ⟨f, u, c⟩ := quot_ok hn g1 hD hi (hd i hi).1 rfl (hd i hi).2.1
  refine ⟨f, u, ?_⟩
  have hE : 0 ≤ ((n : ℝ) + 5) / 2 ^ 23 * (X + 1 / 2 ^ 63) := by positivity
  have hs := ratio_shift hD0 hD.2.2.2.1 (show (0 : ℝ) ≤ 1 / 2 ^ 24 by positivity) (Real.sqrt_nonneg n)
    ((elem_le hi).trans (mul_le_mul_of_nonneg_left h3 (Real.sqrt_nonneg _)))
    ((elem_le (x := fun i => vals' x i - mean n (vals' x)) hi).trans (mul_le_mul_of_nonneg_left h4 (Real.sqrt_nonneg _)))
    (h2 hE (by positivity) (by norm_num) fun j hj => (hd j hj).2.2) (hd i hi).2.2
  have ht := abs_sub_le (val (mulIeee (dev.getD i 0) (divIeee one q))) (vals' dev i / D') ((vals' x i - mean n (vals' x)) / D)
  refine ht.trans ((add_le_add c hs).trans ?_)
  unfold quotErr meanErr
  have e1 : Real.sqrt n * (n + 24) / 2 ^ 23 = Real.sqrt n * (n + 23) / 2 ^ 23 + 2 * (1 / 2 ^ 24) * Real.sqrt n := by ring
  have e2 : (1 : ℝ) / 2 ^ 150 ≤ 1 / 2 ^ 149 := by norm_num
  rw [e1]
  linarith

/-- **C94.** `LayerNorm`. -/
theorem layerNorm_close (cpu : Cpu) {n : Nat} (h1 : 1 ≤ n) (hn : n ≤ 2 ^ 20) {x w b : List F32.W} {eps : F32.W} {X : ℝ}
    (hX : X ≤ 2 ^ 48) (hx : Within n x X) (hw : Within n w (2 ^ 60)) (hb : Within n b (2 ^ 60)) (he : F32.Finite eps)
    (he1 : 1 / 2 ^ 60 ≤ val eps) (he2 : val eps ≤ 2 ^ 60) :
    (∃ z, LayerNorm cpu w b eps x z) ∧
      ∀ z, LayerNorm cpu w b eps x z → AffOk n (Real.sqrt n) (layer n (val eps) (vals x))
        (quotErr n (Real.sqrt n) + meanErr n X (layerDen n (val eps) (vals x))) w b z := by
  obtain ⟨g1, g2⟩ := count_pos h1 hn
  obtain ⟨s1, s2⟩ := sqrt_count h1 hn
  have hpe : 0 < val eps := lt_of_lt_of_le (by positivity) he1
  constructor
  · obtain ⟨dev, hd, dl⟩ := dev_exists cpu x
    obtain ⟨v, hv⟩ := meanSq_exists cpu dev
    exact ⟨_, dev, v, _, _, _, hd, hv, (addNew_iff _ _ _ _).mpr ⟨rfl, rfl⟩, (scale_iff _ _ _ _).mpr rfl,
      ⟨by simp [dl, hx.1, hw.1], rfl⟩, (addNew_iff _ _ _ _).mpr ⟨by simp [dl, hx.1, hw.1, hb.1], rfl⟩⟩
  · rintro z ⟨dev, v, ve, y, p, hd, hv, hve, hy, hp, hz⟩
    rw [addNew_iff] at hve
    obtain ⟨-, hve⟩ := hve
    simp only [List.zipWith_cons_cons, List.zipWith_nil_left, List.cons.injEq, and_true] at hve
    subst hve
    obtain ⟨dl, hdv⟩ := dev_ok hd (by rw [hx.1]; exact h1) (by rw [hx.1]; exact hn) hX (by rw [hx.1]; exact hx.2)
    rw [hx.1] at dl hdv
    have hv' := meanSq_ok hv (by omega) (by omega) (by rw [dl]; exact fun i hi => ⟨(hdv i hi).1, (hdv i hi).2.1⟩)
    rw [dl] at hv'
    have hT := meanSq_nonneg n (vals' dev)
    have hT2 := meanSq_nonneg n fun i => vals' x i - mean n (vals' x)
    have hD := den1 hn g1 hT hv' he he1 he2
    refine norm_aff s1 s2 (mean_norm h1 hn hX hx hd hD (D := layerDen n (val eps) (vals x)) ?_ ?_ ?_ ?_ hy) hw hb hp hz
    · exact Real.sqrt_pos.mpr (by show 0 < meanSq n (fun j => vals' x j - mean n (vals' x)) + val eps; linarith)
    · intro e u e0 u0 u1 h
      refine (sqrt_shift hT hT2 hpe).trans ((rms_close h1 e0 u0 u1 h).trans ?_)
      have : Real.sqrt (meanSq n fun i => vals' x i - mean n (vals' x)) ≤ layerDen n (val eps) (vals x) :=
        Real.sqrt_le_sqrt (le_add_of_nonneg_right hpe.le)
      linarith [mul_le_mul_of_nonneg_left this u0]
    · exact Real.sqrt_le_sqrt (le_add_of_nonneg_right hpe.le)
    · exact Real.sqrt_le_sqrt (le_add_of_nonneg_right hpe.le)

/-- **C94.** `LayerNormSimple`. -/
theorem layerNormSimple_close (cpu : Cpu) {n : Nat} (h1 : 1 ≤ n) (hn : n ≤ 2 ^ 20) {x : List F32.W} {X : ℝ} (hX : X ≤ 2 ^ 48)
    (hx : Within n x X) :
    (∃ y, LayerNormSimple cpu x y) ∧
      ∀ y, LayerNormSimple cpu x y → NormOk n (Real.sqrt n) (simple n (vals x))
        (quotErr n (Real.sqrt n) + meanErr n X (spread n (vals x) + 1e-10)) y := by
  obtain ⟨g1, g2⟩ := count_pos h1 hn
  constructor
  · obtain ⟨dev, hd, dl⟩ := dev_exists cpu x
    obtain ⟨v, hv⟩ := meanSq_exists cpu dev
    exact ⟨_, dev, v, _, hd, hv, (addNew_iff _ _ _ _).mpr ⟨rfl, rfl⟩, (scale_iff _ _ _ _).mpr rfl⟩
  · rintro y ⟨dev, v, d, hd, hv, hve, hy⟩
    rw [addNew_iff] at hve
    obtain ⟨-, hve⟩ := hve
    simp only [List.zipWith_cons_cons, List.zipWith_nil_left, List.cons.injEq, and_true] at hve
    subst hve
    obtain ⟨dl, hdv⟩ := dev_ok hd (by rw [hx.1]; exact h1) (by rw [hx.1]; exact hn) hX (by rw [hx.1]; exact hx.2)
    rw [hx.1] at dl hdv
    have hv' := meanSq_ok hv (by omega) (by omega) (by rw [dl]; exact fun i hi => ⟨(hdv i hi).1, (hdv i hi).2.1⟩)
    rw [dl] at hv'
    have hs : 0 ≤ spread n (vals x) := Real.sqrt_nonneg _
    have ht : (0 : ℝ) < 1e-10 := by norm_num
    refine mean_norm h1 hn hX hx hd (den2 hn g1 (meanSq_nonneg n (vals' dev)) hv') (D := spread n (vals x) + 1e-10) ?_ ?_ ?_ ?_ hy
    · linarith
    · intro e u e0 u0 u1 h
      have h := rms_close h1 e0 u0 u1 h
      have e1 : Real.sqrt (meanSq n (vals' dev)) + 1e-10 - (spread n (vals x) + 1e-10) =
          Real.sqrt (meanSq n (vals' dev)) - spread n (vals x) := by ring
      have h' : |Real.sqrt (meanSq n (vals' dev)) - spread n (vals x)| ≤ e + u * spread n (vals x) := h
      have h6 : |Real.sqrt (meanSq n (vals' dev)) + 1e-10 - (spread n (vals x) + 1e-10)| ≤ e + u * (spread n (vals x) + 1e-10) := by
        rw [e1]
        linarith [mul_nonneg u0 ht.le, mul_add u (spread n (vals x)) 1e-10]
      exact h6
    · show Real.sqrt (meanSq n (vals' dev)) ≤ Real.sqrt (meanSq n (vals' dev)) + 1e-10
      linarith
    · show spread n (vals x) ≤ spread n (vals x) + 1e-10
      linarith

end Verif.Norm32
