import Verif.Lemmas.CeGrad32
import Verif.Props.Back32Acts
import Verif.Props.Att32

set_option autoImplicit false
set_option linter.unusedSimpArgs false

/-!
# C97: the gradient of the cross entropy on 32-bit words
-/

namespace Verif.CeGrad32
open Verif.F32 Verif.Asm Verif.Spec Verif.Spec.Kernels Verif.Spec.Softmax32 Verif.Softmax32 Verif.CrossEntropy32 Verif.Net32 Verif.Rec32 Verif.Att32
  Verif.Norm32 Verif.Back32 Verif.Spec.CeGrad32 Verif.Spec.Back32 Verif.Spec.Net32

/-- The numbers for the maximum: what it gets is small. -/
theorem top_small {n : Nat} (hn : n ≤ 2 ^ 20) {p s : Nat → ℝ} {r g : ℝ} (hs : ∑ i ∈ Finset.range n, s i = 1)
    (hp0 : ∀ i < n, 0 ≤ p i) (hp : ∀ i < n, |p i - s i| ≤ Spec.Softmax32.tol n * s i + (2 : ℝ) ^ (-124 : Int))
    (hg : g ≤ 16 / 15 * (n / 2 ^ 24)) (hg0 : 0 ≤ g)
    (hr : |r - ∑ i ∈ Finset.range n, -p i| ≤ g * ∑ i ∈ Finset.range n, (|p i| + Asm.tiny)) :
    |1 + r| ≤ 1 / 2 ^ 16 + 17 / 10 * (n / 2 ^ 23) + 1 / 10 ^ 12 := by
  have hnr : (n : ℝ) ≤ 1048576 := by exact_mod_cast (show n ≤ 1048576 from hn)
  have hn0 : (0 : ℝ) ≤ n := Nat.cast_nonneg n
  set P := ∑ i ∈ Finset.range n, p i with hP
  have h1 : |P - 1| ≤ Spec.Softmax32.tol n + n * (2 : ℝ) ^ (-124 : Int) := by
    rw [← hs, hP, ← Finset.sum_sub_distrib]
    refine (Finset.abs_sum_le_sum_abs _ _).trans ((Finset.sum_le_sum fun i hi => hp i (Finset.mem_range.mp hi)).trans ?_)
    rw [Finset.sum_add_distrib, ← Finset.mul_sum, hs]
    simp
  have h2 : ∑ i ∈ Finset.range n, (|p i| + Asm.tiny) = P + n * Asm.tiny := by
    rw [Finset.sum_add_distrib]
    simp only [Finset.sum_const, Finset.card_range, nsmul_eq_mul, hP]
    congr 1
    exact Finset.sum_congr rfl fun i hi => abs_of_nonneg (hp0 i (Finset.mem_range.mp hi))
  rw [h2, Finset.sum_neg_distrib, ← hP] at hr
  have t1 : n * Asm.tiny ≤ 1 / 10 ^ 12 := by unfold Asm.tiny; norm_num; linarith
  have t2 : n * (2 : ℝ) ^ (-124 : Int) ≤ 1 / 10 ^ 13 := by norm_num; linarith
  unfold Spec.Softmax32.tol at h1
  generalize n * Asm.tiny = a at *
  generalize n * (2 : ℝ) ^ (-124 : Int) = b at *
  obtain ⟨y, hy⟩ : ∃ y : ℝ, y = n / 2 ^ 23 := ⟨_, rfl⟩
  have hy0 : 0 ≤ y := by rw [hy]; positivity
  have hy1 : y ≤ 1 / 8 := by rw [hy, div_le_iff₀ (by positivity)]; norm_num; linarith
  have hg' : g ≤ 8 / 15 * y := by rw [hy]; refine hg.trans (le_of_eq ?_); ring
  rw [← hy] at h1 ⊢
  have hP2 : P + a ≤ 12 / 10 := by
    have := (abs_le.mp h1).2
    norm_num at *; linarith
  have hPa : g * (P + a) ≤ 64 / 100 * y := by
    calc g * (P + a) ≤ g * (12 / 10) := mul_le_mul_of_nonneg_left hP2 hg0
      _ ≤ 8 / 15 * y * (12 / 10) := mul_le_mul_of_nonneg_right hg' (by norm_num)
      _ = 64 / 100 * y := by ring
  have e : 1 + r = (r - -P) - (P - 1) := by ring
  rw [e]
  have := abs_sub (r - -P) (P - 1)
  norm_num at *
  linarith

/-- What `LogSumExp` hands down: close to the softmax for the scores, and nothing much for the maximum. -/
theorem lse_ok {cpu : Cpu} {j : ExpLog.Lane} {exp inv : F32.W → F32.W} (hexp : GoodExp exp) (hinv : GoodInv inv) {y : List F32.W}
    (h0 : 0 < y.length) (hn : y.length ≤ 2 ^ 20) (hy : ∀ i < y.length, F32.Finite (y.getD i 0)) :
    (∃ k p ρ, LseGrad cpu j exp inv y k p ρ) ∧ ∀ k p ρ, LseGrad cpu j exp inv y k p ρ → p.length = y.length ∧
      (∀ i < y.length, F32.Finite (p.getD i 0) ∧ 0 ≤ val (p.getD i 0) ∧
        |val (p.getD i 0) - softmax y.length (fun i => y.getD i 0) i| ≤
          Spec.Softmax32.tol y.length * softmax y.length (fun i => y.getD i 0) i + (2 : ℝ) ^ (-124 : Int)) ∧
      F32.Finite ρ ∧ |val ρ| ≤ 1 / 2 ^ 16 + 18 / 10 * (y.length / 2 ^ 23) + 2 / 10 ^ 12 := by
  obtain ⟨n, hN⟩ : ∃ n, n = y.length := ⟨_, rfl⟩
  have hnr : (n : ℝ) ≤ 1048576 := by rw [hN]; exact_mod_cast (show y.length ≤ 1048576 from hn)
  have hn0 : (0 : ℝ) ≤ n := Nat.cast_nonneg n
  -- the maximum
  have mem : ∀ v ∈ y, ∃ i < y.length, y.getD i 0 = v := fun v hv => by
    obtain ⟨i, hi, h⟩ := List.getElem_of_mem hv
    exact ⟨i, hi, by rw [List.getD_eq_getElem _ _ hi, h]⟩
  have fin : ∀ v ∈ y, F32.Finite v := fun v hv => by
    obtain ⟨i, hi, rfl⟩ := mem v hv
    exact hy i hi
  have hget : ∀ i < y.length, y.getD i 0 ∈ y := fun i hi => by
    rw [List.getD_eq_getElem _ _ hi]; exact List.getElem_mem hi
  obtain ⟨m, hm, hmem, hmf, hmax⟩ := max32_spec (l := y) (fun v hv => .inl (fin v hv)) (hget 0 h0) (hy 0 h0)
  obtain ⟨km, hkm, hxm⟩ := mem m hmem
  have hred : ∀ k v, argMax32 y = some k → y[k]? = some v → v = m := fun k v h1 h2 => by
    have : reduceMax32 y = some v := by unfold reduceMax32; rw [h1]; exact h2
    rw [reduceMax_eq, hm] at this
    exact (Option.some.inj this).symm
  obtain ⟨k₀, hk₀, hk₀'⟩ : ∃ k, argMax32 y = some k ∧ y[k]? = some m := by
    have : reduceMax32 y = some m := by rw [reduceMax_eq, hm]
    unfold reduceMax32 at this
    cases h : argMax32 y with
    | none => rw [h] at this; cases this
    | some k => rw [h] at this; exact ⟨k, rfl, this⟩
  have hle : ∀ i < y.length, F32.Finite (y.getD i 0) → val (y.getD i 0) ≤ val m := fun i hi hf => hmax _ (hget i hi) hf
  have hwle : ∀ i < y.length, weight (y.getD i 0) ≤ Real.exp (val m) := fun i hi => weight_le (.inl (hy i hi)) (hle i hi)
  set d := y.map fun v => addIeee v (F32.flip m) with hd
  have hdl : d.length = y.length := by simp [hd]
  have hdi : ∀ i < y.length, d.getD i 0 = addIeee (y.getD i 0) (F32.flip m) := fun i hi => Adam32.mget _ hi
  -- the exponentials
  have he : ∀ e, ExpNew cpu j exp d e → e.length = y.length ∧ ∀ i < y.length, F32.Finite (e.getD i 0) ∧ 0 ≤ val (e.getD i 0) ∧
      |val (e.getD i 0) - weight (y.getD i 0) / Real.exp (val m)| ≤ α * (weight (y.getD i 0) / Real.exp (val m)) + (2 : ℝ) ^ (-125 : Int) := by
    intro e h
    obtain ⟨l, g⟩ := expNew_ok h
    refine ⟨l.trans hdl, fun i hi => ?_⟩
    rw [g i (by rw [hdl]; exact hi), hdi i hi]
    obtain ⟨a1, a2, -, a3⟩ := exp_step (expAt_good cpu j hexp d.length i) (.inl (hy i hi)) hmf (hle i hi)
    exact ⟨a1, a2, a3⟩
  have he2 : ∀ e, ExpNew cpu j exp d e → ∀ i < y.length, val (e.getD i 0) ≤ 2 := by
    intro e h i hi
    obtain ⟨-, -, e4⟩ := (he e h).2 i hi
    have h1 : weight (y.getD i 0) / Real.exp (val m) ≤ 1 := (div_le_one (Real.exp_pos _)).mpr (hwle i hi)
    have h2 := (abs_le.mp e4).2
    have h3 : α * (weight (y.getD i 0) / Real.exp (val m)) ≤ 1 / 2 := by
      have : α * (weight (y.getD i 0) / Real.exp (val m)) ≤ α * 1 := mul_le_mul_of_nonneg_left h1 (by unfold α; positivity)
      refine this.trans ?_
      unfold α; norm_num
    have h4 : (2 : ℝ) ^ (-125 : Int) ≤ 1 / 2 := by norm_num
    linarith
  -- the sum
  have hS : ∀ e s, ExpNew cpu j exp d e → Sum1 cpu e s → F32.Finite s ∧
      1 ≤ ∑ i ∈ Finset.range y.length, weight (y.getD i 0) / Real.exp (val m) ∧
      |val s - ∑ i ∈ Finset.range y.length, weight (y.getD i 0) / Real.exp (val m)| ≤
        (5802 / 1000000000 + 1067 / 1000 * (y.length / 2 ^ 24)) * ∑ i ∈ Finset.range y.length, weight (y.getD i 0) / Real.exp (val m) ∧
      9 / 10 ≤ val s ∧ val s ≤ 2 ^ 21 := by
    intro e s h hs
    obtain ⟨l, g⟩ := he e h
    obtain ⟨f, b⟩ := sum1_small hs (by rw [l]; exact hn) fun i hi => by
      rw [l] at hi
      exact ⟨(g i hi).1, by rw [abs_of_nonneg (g i hi).2.1]; exact he2 e h i hi⟩
    rw [l] at b
    obtain ⟨c1, c2, c3⟩ := sum_close hn ⟨km, hkm, hxm⟩ hmf hwle (fun i hi => (g i hi).2) b
    refine ⟨f, c1, c3, ?_⟩
    rw [← hN] at c1 c2 c3
    generalize ∑ i ∈ Finset.range n, weight (y.getD i 0) / Real.exp (val m) = T at *
    obtain ⟨q, hq⟩ : ∃ q : ℝ, q = n / 2 ^ 24 := ⟨_, rfl⟩
    have hq1 : q ≤ 1 / 16 := by rw [hq, div_le_iff₀ (by positivity)]; norm_num; linarith
    rw [← hq] at c3
    have c4 : (5802 / 1000000000 + 1067 / 1000 * q) * T ≤ 1 / 10 * T := mul_le_mul_of_nonneg_right (by linarith) (by linarith)
    obtain ⟨c5, c6⟩ := abs_le.mp c3
    constructor
    · linarith
    · norm_num; linarith
  have hslope : ∀ s, F32.Finite s → 9 / 10 ≤ val s → logSlope inv s = some (inv s) := fun s f h => by
    unfold logSlope
    rw [if_pos]
    rw [lt_iff (by unfold F32.Finite; decide) f, val_zero]
    linarith
  -- it ends
  refine ⟨?_, ?_⟩
  · obtain ⟨e, h1⟩ := expNew_exists cpu j exp d
    obtain ⟨s, h2⟩ := sum1_exists cpu e
    obtain ⟨f, -, -, h3, -⟩ := hS e s h1 h2
    obtain ⟨r, h4⟩ := sum1_exists cpu ((List.zipWith mulIeee e (List.replicate y.length (mulIeee (inv s) one))).map fun v => mulIeee v minusOne)
    exact ⟨k₀, _, _, m, d, e, s, inv s, _, e, _, r, hk₀, hk₀', (addConst_iff ..).mpr rfl, h1, h2, hslope s f h3, (prod1_iff ..).mpr rfl, h1,
      ⟨by simp [(he e h1).1], rfl⟩, (scale_iff ..).mpr rfl, h4, .inl ((addIn1_iff ..).mpr rfl)⟩
  -- whatever it ends with
  rintro k p ρ ⟨m', d', e, s, q₀, q, e', np, r, g1, g2, g3, g4, g5, g6, g7, g8, ⟨g9, rfl⟩, g10, g11, g12⟩
  obtain rfl := hred k m' g1 g2
  have g3' : d' = d := (addConst_iff ..).mp g3
  subst g3'
  obtain ⟨fs, hT1, hST, hs9, hs21⟩ := hS e s g4 g5
  rw [hslope s fs hs9] at g6
  cases g6
  obtain ⟨fi, hi⟩ := hinv s fs (by linarith) hs21
  rw [prod1_iff] at g7
  obtain ⟨fq, vq⟩ := mul_one_val fi
  rw [← g7] at fq vq
  rw [← vq] at hi
  rw [scale_iff] at g10
  obtain ⟨le', hge⟩ := he e' g8
  set p := List.zipWith mulIeee e' (List.replicate y.length q) with hpd
  have hpl : p.length = y.length := by simp [hpd, le']
  have hpi : ∀ i < y.length, p.getD i 0 = mulIeee (e'.getD i 0) q := fun i hi => by
    rw [hpd, getD_zip le' (by simp) hi, rep_get hi]
  have hs0 : 0 < val s := by linarith
  have hq1 : 1 / val s ≤ 10 / 9 := by rw [div_le_iff₀ hs0]; linarith
  have hq0 : 0 < 1 / val s := by positivity
  obtain ⟨r1, r2⟩ := abs_le.mp hi
  have hr0 : 0 ≤ val q := by
    generalize 1 / val s = z at r1 hq0
    norm_num at r1; linarith
  have hr3 : val q ≤ 2 := by
    generalize 1 / val s = z at r2 hq1
    norm_num at r2; linarith
  have hw0 : ∀ i, 0 ≤ weight (y.getD i 0) / Real.exp (val m') := fun i => div_nonneg (weight_nonneg _) (Real.exp_pos _).le
  have hp : ∀ i < y.length, F32.Finite (p.getD i 0) ∧ 0 ≤ val (p.getD i 0) ∧
      |val (p.getD i 0) - softmax y.length (fun i => y.getD i 0) i| ≤
        Spec.Softmax32.tol y.length * softmax y.length (fun i => y.getD i 0) i + (2 : ℝ) ^ (-124 : Int) := by
    intro i hi'
    obtain ⟨i1, i2, i4⟩ := hge i hi'
    have hei := he2 e' g8 i hi'
    have hpos : 0 ≤ val (e'.getD i 0) * val q := mul_nonneg i2 hr0
    have hprod : val (e'.getD i 0) * val q ≤ maxFin := by
      refine (mul_le_mul hei hr3 hr0 (by positivity)).trans ?_
      unfold maxFin; norm_num
    obtain ⟨fo, ho⟩ := (mul_near i1 fq (by rw [abs_of_nonneg hpos]; exact hprod)).1
    rw [hpi i hi']
    refine ⟨fo, mul_nonneg_val i1 fq i2 hr0 hprod, ?_⟩
    rw [abs_of_nonneg hpos] at ho
    rw [softmax_shift y.length _ (val m') i]
    obtain ⟨z, hz⟩ : ∃ z : ℝ, z = y.length / 2 ^ 24 := ⟨_, rfl⟩
    have hz0 : 0 ≤ z := by rw [hz]; positivity
    have hz1 : z ≤ 1 / 16 := by rw [hz, div_le_iff₀ (by positivity), ← hN]; norm_num; linarith
    have hτ : Spec.Softmax32.tol y.length = 1 / 2 ^ 16 + 2 * z := by rw [hz, Spec.Softmax32.tol]; ring
    obtain ⟨room1, room2⟩ := tol_room hz0 hz1
    rw [← hτ] at room1 room2
    rw [← hz] at hST
    exact Softmax32.last_step (hw0 i) (Finset.single_le_sum (f := fun i => weight (y.getD i 0) / Real.exp (val m')) (fun j _ => hw0 j) (Finset.mem_range.mpr hi'))
      hT1 i2 i4 hST (by linarith) hi ho room1 (by rw [hτ]; positivity) (by rw [hτ]; norm_num; linarith) room2
  refine ⟨hpl, hp, ?_⟩
  -- the maximum
  have hsum : ∑ i ∈ Finset.range y.length, softmax y.length (fun i => y.getD i 0) i = 1 := by
    have hpos : 0 < ∑ j ∈ Finset.range y.length, weight (y.getD j 0) := by
      have : 0 < (∑ i ∈ Finset.range y.length, weight (y.getD i 0)) / Real.exp (val m') := by rw [Finset.sum_div]; linarith
      exact (div_pos_iff_of_pos_right (Real.exp_pos _)).mp this
    unfold softmax
    rw [← Finset.sum_div, div_self hpos.ne']
  have hs1 : ∀ i < y.length, softmax y.length (fun i => y.getD i 0) i ≤ 1 := fun i hi => by
    rw [← hsum]
    exact Finset.single_le_sum (f := fun i => softmax y.length (fun i => y.getD i 0) i)
      (fun j _ => div_nonneg (weight_nonneg _) (Finset.sum_nonneg fun _ _ => weight_nonneg _)) (Finset.mem_range.mpr hi)
  have htol : Spec.Softmax32.tol y.length ≤ 1 / 2 := by
    unfold Spec.Softmax32.tol
    rw [← hN]; norm_num; linarith
  have htol0 : 0 ≤ Spec.Softmax32.tol y.length := by unfold Spec.Softmax32.tol; positivity
  have hp2 : ∀ i < y.length, val (p.getD i 0) ≤ 2 := fun i hi => by
    obtain ⟨-, -, h⟩ := hp i hi
    have h1 := (abs_le.mp h).2
    have h2 := hs1 i hi
    have h0 : 0 ≤ softmax y.length (fun i => y.getD i 0) i :=
      div_nonneg (weight_nonneg _) (Finset.sum_nonneg fun _ _ => weight_nonneg _)
    have h4 : (2 : ℝ) ^ (-124 : Int) ≤ 1 / 4 := by norm_num
    generalize softmax y.length (fun i => y.getD i 0) i = z at *
    generalize val (p.getD i 0) = u at *
    generalize (2 : ℝ) ^ (-124 : Int) = v at *
    have h3 := mul_le_mul htol h2 h0 (by norm_num)
    linarith
  have hnp : np.length = y.length ∧ ∀ i < y.length, F32.Finite (np.getD i 0) ∧ val (np.getD i 0) = -val (p.getD i 0) := by
    rw [g10]
    refine ⟨by simp [hpl], fun i hi => ?_⟩
    rw [Adam32.mget _ (by rw [hpl]; exact hi)]
    exact Sigmoid32.neg_mul (hp i hi).1
  obtain ⟨fr, hr⟩ := sum1_small g11 (by rw [hnp.1]; exact hn) fun i hi => by
    rw [hnp.1] at hi
    refine ⟨(hnp.2 i hi).1, ?_⟩
    rw [(hnp.2 i hi).2, abs_neg, abs_of_nonneg (hp i hi).2.1]
    exact hp2 i hi
  have s1 : ∑ i ∈ Finset.range y.length, val (np.getD i 0) = ∑ i ∈ Finset.range y.length, -val (p.getD i 0) :=
    Finset.sum_congr rfl fun i hi => (hnp.2 i (Finset.mem_range.mp hi)).2
  have s2 : ∑ i ∈ Finset.range y.length, (|val (np.getD i 0)| + Asm.tiny) = ∑ i ∈ Finset.range y.length, (|val (p.getD i 0)| + Asm.tiny) :=
    Finset.sum_congr rfl fun i hi => by rw [(hnp.2 i (Finset.mem_range.mp hi)).2, abs_neg]
  rw [hnp.1, s1, s2] at hr
  have htop := top_small hn hsum (fun i hi => (hp i hi).2.1) (fun i hi => (hp i hi).2.2) (growth_small hn)
    (Asm.growth_nonneg Asm.ulp_nonneg _) hr
  have hρ : ρ = addIeee one r := by
    rcases g12 with h | h
    · exact (addIn1_iff ..).mp h
    · rw [(addIn1_iff ..).mp h]; exact F32.add_comm' r one
  have htop' : |val one + val r| ≤ 1 / 2 ^ 16 + 17 / 10 * (y.length / 2 ^ 23) + 1 / 10 ^ 12 := by rw [one_val]; exact htop
  obtain ⟨fz, ez⟩ := Opt32.add_in one_fin fr htop' (by rw [← hN]; norm_num; linarith)
  rw [hρ]
  refine ⟨fz, ?_⟩
  have := abs_sub_abs_le_abs_sub (val (addIeee one r)) (val one + val r)
  have hfin := this.trans ez
  clear this ez
  rw [← hN] at htop' hfin ⊢
  generalize |val (addIeee one r)| = a at *
  generalize |val one + val r| = b at *
  clear_value p
  norm_num at htop' hfin ⊢
  linarith

theorem exp_sum_pos {n : Nat} (h : 0 < n) (v : Nat → ℝ) : 0 < ∑ j ∈ Finset.range n, Real.exp (v j) :=
  Finset.sum_pos (fun _ _ => Real.exp_pos _) (Finset.nonempty_range_iff.mpr h.ne')

/-- A probability. -/
theorem prob_unit {n : Nat} (v : Nat → ℝ) {i : Nat} (hi : i < n) :
    0 ≤ Real.exp (v i) / ∑ j ∈ Finset.range n, Real.exp (v j) ∧ Real.exp (v i) / ∑ j ∈ Finset.range n, Real.exp (v j) ≤ 1 := by
  have h := exp_sum_pos (Nat.zero_lt_of_lt hi) v
  exact ⟨div_nonneg (Real.exp_pos _).le h.le, (div_le_one h).mpr
    (Finset.single_le_sum (f := fun j => Real.exp (v j)) (fun j _ => (Real.exp_pos _).le) (Finset.mem_range.mpr hi))⟩

/-- Scores within `E` have probabilities that are close. -/
theorem prob_move {n : Nat} {v v' : Nat → ℝ} {E : ℝ} (h : ∀ i < n, |v i - v' i| ≤ E) {i : Nat} (hi : i < n) :
    |Real.exp (v i) / (∑ j ∈ Finset.range n, Real.exp (v j)) - Real.exp (v' i) / ∑ j ∈ Finset.range n, Real.exp (v' j)| ≤ Real.exp (2 * E) - 1 := by
  have := share_move (n := n) (ok := fun _ => True) (s := v) (s' := v') (E := E) ⟨i, hi, trivial⟩ (fun k hk _ => h k hk) hi
  simp only [Spec.Att32.share, if_true] at this
  refine this.trans ?_
  obtain ⟨p0, p1⟩ := prob_unit v' hi
  have hE : 0 ≤ Real.exp (2 * E) - 1 := by
    have := Real.one_le_exp (show 0 ≤ 2 * E by linarith [(abs_nonneg _).trans (h i hi)])
    linarith
  exact mul_le_of_le_one_right hE p1

/-- **C97: the gradient of the cross entropy.**  For scores that are finite and within `E` of `v`, the backward pass of `CrossEntropy`
ends, and whatever the order in which the contributions arrive, it ends with finite numbers that are within `ceErr n E` of the
probabilities that the softmax gives, less 1 for the class. -/
theorem ce_good (cpu : Cpu) (j : ExpLog.Lane) {exp inv : F32.W → F32.W} (hexp : GoodExp exp) (hinv : GoodInv inv) {n c : Nat} (hc : c < n)
    (hn : n ≤ 2 ^ 20) (v : Nat → ℝ) (M E : ℝ) : GoodLoss (CeGrad cpu j exp inv c) n v (ceGrad n c v) M E 1 (ceErr n E) := by
  intro y hyl hy
  subst hyl
  obtain ⟨⟨k₀, p₀, ρ₀, h₀⟩, hall⟩ := lse_ok (cpu := cpu) (j := j) hexp hinv (Nat.zero_lt_of_lt hc) hn fun i hi => (hy i hi).1
  obtain ⟨fν, vν⟩ := mul_one_val minus_fin
  refine ⟨?_, ?_⟩
  · obtain ⟨g, hg⟩ := acc3_exists cpu (oneHot_length y.length c (mulIeee minusOne one)) (hall _ _ _ h₀).1 (oneHot_length y.length k₀ ρ₀)
    exact ⟨g, hc, _, k₀, p₀, ρ₀, (prod1_iff ..).mpr rfl, h₀, hg⟩
  rintro g ⟨-, ν, k, p, ρ, h1, h2, h3⟩
  rw [prod1_iff] at h1
  rw [← h1, minus_val] at vν
  rw [← h1] at fν
  obtain ⟨lp, hp, fρ, hρ⟩ := hall k p ρ h2
  have hnr : (y.length : ℝ) ≤ 1048576 := by exact_mod_cast (show y.length ≤ 1048576 from hn)
  have hn0 : (0 : ℝ) ≤ y.length := Nat.cast_nonneg _
  have f0 : F32.Finite 0 := by unfold F32.Finite; decide
  have hsoft : ∀ i < y.length, softmax y.length (fun i => y.getD i 0) i =
      Real.exp (val (y.getD i 0)) / ∑ j ∈ Finset.range y.length, Real.exp (val (y.getD j 0)) := fun i hi => by
    have hw : ∀ i < y.length, weight (y.getD i 0) = Real.exp (val (y.getD i 0)) := fun i hi => by
      have hf := (hy i hi).1
      unfold weight
      rw [if_neg]
      intro h
      rw [h] at hf
      exact not_finite_inf.2 hf
    unfold softmax
    rw [hw i hi, Finset.sum_congr rfl fun j hj => hw j (Finset.mem_range.mp hj)]
  have htol : Spec.Softmax32.tol y.length ≤ 1 / 2 := by unfold Spec.Softmax32.tol; norm_num; linarith
  have htol0 : 0 ≤ Spec.Softmax32.tol y.length := by unfold Spec.Softmax32.tol; positivity
  have hp' : ∀ i < y.length, |val (p.getD i 0) - Real.exp (val (y.getD i 0)) / ∑ j ∈ Finset.range y.length, Real.exp (val (y.getD j 0))| ≤
      Spec.Softmax32.tol y.length + (2 : ℝ) ^ (-124 : Int) := fun i hi => by
    obtain ⟨-, -, h⟩ := hp i hi
    rw [hsoft i hi] at h
    refine h.trans (add_le_add_left ?_ _)
    exact mul_le_of_le_one_right htol0 (prob_unit (fun i => val (y.getD i 0)) hi).2
  have hρ2 : |val ρ| ≤ 2 := by
    refine hρ.trans ?_
    norm_num; linarith
  have b0 : |val (0 : F32.W)| ≤ 2 := by rw [val_zero]; norm_num
  obtain ⟨lg, hg⟩ := acc3_ok (n := y.length) h3 (by
      intro l hl
      simp only [List.mem_cons, List.not_mem_nil, or_false] at hl
      rcases hl with rfl | rfl | rfl
      · exact oneHot_length ..
      · exact lp
      · exact oneHot_length ..) (by
      intro l hl i hi
      simp only [List.mem_cons, List.not_mem_nil, or_false] at hl
      rcases hl with rfl | rfl | rfl
      · rw [oneHot_get _ hi]; split
        · exact ⟨fν, by rw [vν]; norm_num⟩
        · exact ⟨f0, b0⟩
      · refine ⟨(hp i hi).1, ?_⟩
        have h1 := hp' i hi
        obtain ⟨q0, q1⟩ := prob_unit (fun i => val (y.getD i 0)) hi
        have h2 := (abs_le.mp h1).2
        have h4 : (2 : ℝ) ^ (-124 : Int) ≤ 1 / 4 := by norm_num
        rw [abs_of_nonneg (hp i hi).2.1]
        beta_reduce at q1
        linarith
      · rw [oneHot_get _ hi]; split
        · exact ⟨fρ, hρ2⟩
        · exact ⟨f0, b0⟩)
  refine ⟨lg, fun i hi => ?_⟩
  obtain ⟨fg, eg⟩ := hg i hi
  refine ⟨fg, ?_, ?_⟩
  · have m1 := prob_move (v := fun i => val (y.getD i 0)) (v' := v) (fun k hk => (hy k hk).2.1) hi
    have m2 := hp' i hi
    rw [oneHot_get _ hi, oneHot_get _ hi] at eg
    have m3 : val (if i = c then ν else 0) = -(if i = c then (1 : ℝ) else 0) := by
      split
      · exact vν
      · rw [val_zero, neg_zero]
    have m4 : |val (if i = k then ρ else 0)| ≤ 1 / 2 ^ 16 + 18 / 10 * (y.length / 2 ^ 23) + 2 / 10 ^ 12 := by
      split
      · exact hρ
      · rw [val_zero, abs_zero]; positivity
    rw [m3] at eg
    unfold ceGrad ceErr
    unfold Spec.Softmax32.tol at m2
    beta_reduce at m1
    generalize val (g.getD i 0) = G at *
    generalize val (p.getD i 0) = P at *
    generalize val (if i = k then ρ else 0) = R at *
    generalize Real.exp (val (y.getD i 0)) / ∑ j ∈ Finset.range y.length, Real.exp (val (y.getD j 0)) = A at *
    generalize Real.exp (v i) / ∑ j ∈ Finset.range y.length, Real.exp (v j) = B at *
    generalize (if i = c then (1 : ℝ) else 0) = D at *
    generalize Real.exp (2 * E) - 1 = X at *
    generalize (y.length : ℝ) = N at *
    have t : (2 : ℝ) ^ (-124 : Int) ≤ 1 / 10 ^ 12 := by norm_num
    generalize (2 : ℝ) ^ (-124 : Int) = t at *
    have e : G - (B - D) = (G - (-D + P + R)) + (P - A) + (A - B) + R := by ring
    rw [e]
    have a1 := abs_add_le ((G - (-D + P + R)) + (P - A) + (A - B)) R
    have a2 := abs_add_le ((G - (-D + P + R)) + (P - A)) (A - B)
    have a3 := abs_add_le (G - (-D + P + R)) (P - A)
    norm_num at *
    linarith
  · obtain ⟨q0, q1⟩ := prob_unit v hi
    unfold ceGrad
    split <;> exact abs_le.mpr ⟨by linarith, by linarith⟩

/-- It is the gradient of the cross entropy. -/
theorem ce_grad {n c : Nat} (hc : c < n) (v : Nat → ℝ) : IsGrad n (fun f => crossEntropyOf n f c) v (ceGrad n c v) := by
  intro γ γ' s hs hγ
  have hpos : ∀ f : Nat → ℝ, 0 < ∑ j ∈ Finset.range n, Real.exp (f j) := exp_sum_pos (Nat.zero_lt_of_lt hc)
  have e : (fun t => crossEntropyOf n (γ t) c) = fun t => Real.log (∑ j ∈ Finset.range n, Real.exp (γ t j)) - γ t c := by
    funext t
    unfold crossEntropyOf
    rw [Real.log_div (Real.exp_ne_zero _) (hpos _).ne', Real.log_exp]
    ring
  rw [e]
  have h1 : HasDerivAt (fun t => ∑ j ∈ Finset.range n, Real.exp (γ t j)) (∑ j ∈ Finset.range n, Real.exp (v j) * γ' j) s := by
    refine HasDerivAt.fun_sum fun i hi => ?_
    rw [← hs]
    exact (hγ i (Finset.mem_range.mp hi)).exp
  have h2 := (h1.log (by rw [hs]; exact (hpos v).ne')).sub (hγ c hc)
  refine h2.congr_deriv ?_
  rw [hs]
  unfold ceGrad
  have hcs : γ' c = ∑ i ∈ Finset.range n, if i = c then γ' i else 0 := by
    rw [Finset.sum_ite_eq', if_pos (Finset.mem_range.mpr hc)]
  rw [Finset.sum_div, hcs, ← Finset.sum_sub_distrib]
  refine Finset.sum_congr rfl fun i _ => ?_
  by_cases h : i = c
  · rw [if_pos h, if_pos h]; ring
  · rw [if_neg h, if_neg h]; ring

/-- **C97: networks trained on the cross entropy.**  The gradients of the weights are those of the cross entropy of the exact network, up
to the error that grows backwards through the layers. -/
theorem backward_ce (cpu : Cpu) (j : ExpLog.Lane) {lib : Lib} (h : GoodLib lib) (hexp : GoodExp lib.exp) {inv : F32.W → F32.W} (hinv : GoodInv inv)
    {sl : Slopes} (hs : GoodSlopeLib sl) {ls : List (Layer Act)} {x : List F32.W} {u : Nat → ℝ} {M E : ℝ} (hM : 0 ≤ M) (hE : 0 ≤ E)
    (hfit : Fits real lipOf actErr ls x.length M E) {c : Nat} (hc : c < width ls x.length) (hn : width ls x.length ≤ 2 ^ 20)
    (hback : FitsBack real lipOf actErr steepest slopeErr safeAt 1 (ceErr (width ls x.length) (errors real lipOf actErr ls M E)) ls x.length u M E)
    (hx : ∀ i < x.length, F32.Finite (x.getD i 0) ∧ |val (x.getD i 0) - u i| ≤ E ∧ |u i| ≤ M) :
    (∃ z ps, Back cpu (acts cpu j lib) (slopes cpu j lib sl) (CeGrad cpu j lib.exp inv c) ls x z ps) ∧
      ∀ z ps, Back cpu (acts cpu j lib) (slopes cpu j lib sl) (CeGrad cpu j lib.exp inv c) ls x z ps →
        ∀ pre rows cols w b post, ls = pre ++ .lin rows cols w b :: post → ∃ gw gb, ps[pre.length]? = some (some (gw, gb)) ∧
          gw.length = rows * cols ∧ gb.length = rows ∧ ∀ i < rows, ∀ k < cols, F32.Finite (gw.getD (i * cols + k) 0) ∧
            ∃ δ, HasDerivAt (fun s => crossEntropyOf (width ls x.length)
                (network real post (nudged rows cols w b i k (network real pre u) s)) c) δ 0 ∧
              |val (gw.getD (i * cols + k) 0) - δ| ≤ weightErr (ranges real lipOf pre M) (errors real lipOf actErr pre M E)
                (size steepest 1 post)
                (off real lipOf actErr steepest slopeErr 1 (ceErr (width ls x.length) (errors real lipOf actErr ls M E)) post
                  (range real lipOf (.lin rows cols w b) (ranges real lipOf pre M))
                  (error lipOf actErr (.lin rows cols w b : Layer Act) (ranges real lipOf pre M) (errors real lipOf actErr pre M E))) := by
  have hF := acts_good cpu j h
  have hL : ∀ a, 0 ≤ lipOf a := fun a => (hF.pos a).1
  have hε : ∀ a, 0 ≤ actErr a := fun a => (hF.pos a).2
  obtain ⟨hR, hEr, -⟩ := fits_append ls (ls := []) hL hε hM hE (by rw [List.append_nil]; exact hfit) (by rw [List.append_nil]; exact hback)
  have hH : 0 ≤ ceErr (width ls x.length) (errors real lipOf actErr ls M E) := by
    unfold ceErr
    have := Real.one_le_exp (show 0 ≤ 2 * errors real lipOf actErr ls M E by linarith)
    have : (0 : ℝ) ≤ 1 / 2 ^ 14 + (width ls x.length : ℝ) / 2 ^ 21 := by positivity
    linarith
  obtain ⟨b1, b2⟩ := backward_close cpu hF (slopes_good cpu j h hs) (J := fun f => crossEntropyOf (width ls x.length) f c) zero_le_one hH hM hE hfit
    hback hx (ce_good cpu j hexp hinv hc hn _ _ _) (ce_grad hc _)
  refine ⟨b1, fun z ps hz pre rows cols w b post hls => ?_⟩
  obtain ⟨gw, gb, p1, l1, l2, w1, -⟩ := (b2 z ps hz).2 pre rows cols w b post hls
  exact ⟨gw, gb, p1, l1, l2, w1⟩

/-- **C97: a class out of range is a panic.** -/
theorem ce_range {cpu : Cpu} {j : ExpLog.Lane} {exp inv : F32.W → F32.W} {c : Nat} {y : List F32.W} (hc : y.length ≤ c) :
    ¬ ∃ g, CeGrad cpu j exp inv c y g := by
  rintro ⟨g, h, -⟩
  omega

end Verif.CeGrad32
