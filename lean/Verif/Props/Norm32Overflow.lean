import Verif.Props.Norm32

set_option autoImplicit false
set_option linter.unusedSimpArgs false

/-!
# A large element blanks the whole vector (C94)

The layers square the numbers themselves.  The square of a number above 2^64 is `+Inf`, then so is the denominator, and every element
of the result is 0 (before the bias): the input is lost, without any sign of it.
-/

namespace Verif.Norm32
open Verif.F32 Verif.Asm Verif.Spec Verif.Spec.Kernels Verif.Net32 Verif.Rec32 Verif.Att32 Verif.Adam32 Verif.Spec.Norm32
open Verif.Spec.Rec32 (vals Within)

/-- A number that is not negative, or `+Inf`. -/
def Plus (w : F32.W) : Prop := (F32.Finite w ∧ 0 ≤ val w) ∨ w = posInf

theorem plus_not {w : F32.W} (h : Plus w) : isNaN w = false ∧ w ≠ negInf := by
  rcases h with h | rfl
  · exact finite_not h.1
  · decide +kernel

theorem add_pos_overflow {x y : F32.W} (hx : F32.Finite x) (hy : F32.Finite y) (h : 0 ≤ val x + val y)
    (hf : ¬ F32.Finite (addIeee x y)) : addIeee x y = posInf := by
  obtain ⟨z, v, e, h1, h2⟩ := addIeee_rnd hx hy
  rw [h1] at hf ⊢
  have hp : (0 : ℝ) < (2 : ℝ) ^ e := by positivity
  unfold rnd at hf ⊢
  by_cases h0 : v = 0
  · exfalso; apply hf
    rw [if_pos h0]; cases z <;> (unfold F32.Finite; decide)
  · rw [if_neg h0] at hf ⊢
    have hv : ¬ v < 0 := by
      intro h
      have : (v : ℝ) < 0 := by exact_mod_cast h
      have := mul_neg_of_neg_of_pos this hp
      linarith
    rw [round_inf _ _ _ hf]
    simp [hv]

theorem plus_add {x y : F32.W} (hx : Plus x) (hy : Plus y) : Plus (addIeee x y) ∧ (x = posInf ∨ y = posInf → addIeee x y = posInf) := by
  have key : x = posInf ∨ y = posInf → addIeee x y = posInf := by
    rintro (rfl | rfl)
    · exact inf_add (plus_not hy).1 (plus_not hy).2
    · exact add_inf (plus_not hx).1 (plus_not hx).2
  refine ⟨?_, key⟩
  rcases hx with ⟨f1, h1⟩ | h
  · rcases hy with ⟨f2, h2⟩ | h
    · by_cases hf : F32.Finite (addIeee x y)
      · exact .inl ⟨hf, add_ge hf zero_exact (by linarith)⟩
      · exact .inr (add_pos_overflow f1 f2 (by linarith) hf)
    · exact .inr (key (.inr h))
  · exact .inr (key (.inl h))

/-- Not negative; `+Inf` if one of the numbers is. -/
def Blow (p : ℕ × ℕ) (w : F32.W) : Prop := p.1 = 0 → Plus w ∧ (p.2 ≠ 0 → w = posInf)

theorem blow_rel : AluRel Blow adds (ringAlu (ℕ × ℕ)) (F32.alu divIeee) where
  zero _ := ⟨.inl ⟨zero_finite.1, by show 0 ≤ val 0; rw [val_zero]⟩, fun h => absurd rfl h⟩
  fma h := by simp [adds] at h
  op o ho a b a' b' ha hb := by
    cases o with
    | add =>
      intro h0
      have h0' : a.1 + b.1 = 0 := h0
      obtain ⟨p1, c1⟩ := ha (by omega)
      obtain ⟨p2, c2⟩ := hb (by omega)
      show Plus (addIeee a' b') ∧ (a.2 + b.2 ≠ 0 → addIeee a' b' = posInf)
      obtain ⟨q1, q2⟩ := plus_add p1 p2
      refine ⟨q1, fun h => q2 ?_⟩
      by_cases h3 : a.2 = 0
      · exact .inr (c2 (by omega))
      · exact .inl (c1 h3)
    | mul | sub | div => simp [adds] at ho

theorem sum_blow {cpu : Cpu} {x : List F32.W} {w : F32.W} (h : Sum1 cpu x w) (hx : ∀ i < x.length, Plus (x.getD i 0)) {j : Nat}
    (hj : j < x.length) (hi : x.getD j 0 = posInf) : w = posInf := by
  have := sum1_rel blow_rel (junk := (1, 0)) (fun w h => absurd h (by simp)) h (fun i => (0, if x.getD i 0 = posInf then 1 else 0))
    (fun i hi _ => ⟨hx i hi, fun h => by
      by_contra hc
      exact h (if_neg hc)⟩)
  refine (this ?_).2 ?_
  · rw [Prod.fst_sum]; simp
  · rw [Prod.snd_sum]
    intro h0
    rw [Finset.sum_eq_zero_iff] at h0
    have := h0 j (Finset.mem_range.mpr hj)
    rw [hi] at this
    simp at this

theorem sumSq_blow {cpu : Cpu} {x sq : List F32.W} {v : F32.W} (hsq : Prod x x sq) (h : Sum1 cpu sq v)
    (hx : ∀ i < x.length, F32.Finite (x.getD i 0)) {j : Nat} (hj : j < x.length) (hbig : 2 ^ 64 < |vals x j|) : v = posInf := by
  obtain ⟨-, rfl⟩ := hsq
  have hg : ∀ i < x.length, (List.zipWith mulIeee x x).getD i 0 = mulIeee (x.getD i 0) (x.getD i 0) := fun i hi => zget _ hi rfl
  refine sum_blow h (fun i hi => ?_) (j := j) (by simpa using hj) ?_
  · have hi' : i < x.length := by simpa using hi
    rw [hg i hi']
    rcases (mul_plus (hx i hi') (hx i hi') rfl).1 with hf | hf
    · exact .inl ⟨hf, mul_nonneg' hf (mul_self_nonneg _)⟩
    · exact .inr hf
  · rw [hg j hj]
    exact square_inf (hx j hj) hbig

theorem meanSq_blow {cpu : Cpu} {x : List F32.W} {v : F32.W} (h : MeanSq cpu x v) (hn : x.length ≤ 2 ^ 20)
    (hx : ∀ i < x.length, F32.Finite (x.getD i 0)) {j : Nat} (hj : j < x.length) (hbig : 2 ^ 64 < |vals x j|) : v = posInf := by
  obtain ⟨sq, hsq, s, hs, hm⟩ := h
  have hl : sq.length = x.length := by rw [hsq.2]; simp
  rw [scaleIn_iff, hl] at hm
  simp only [List.map_cons, List.map_nil, List.cons.injEq, and_true] at hm
  obtain ⟨fc, pc, -⟩ := inv_ok (by omega) hn
  rw [sumSq_blow hsq hs hx hj hbig] at hm
  rw [hm, inf_mul fc pc]

theorem inf_recip : divIeee 0x3f800000 posInf = 0 := by decide +kernel

theorem blank {z q : F32.W} (hz : F32.Finite z) (hq : q = posInf) :
    F32.Finite (mulIeee z (divIeee 0x3f800000 q)) ∧ val (mulIeee z (divIeee 0x3f800000 q)) = 0 := by
  rw [hq, inf_recip]
  have hf : F32.Finite (mulIeee z 0) := mul_fin hz zero_finite.1 (by rw [val_zero, mul_zero, abs_zero]; unfold maxFin; norm_num)
  refine ⟨hf, ?_⟩
  have := (mul_unit hz zero_finite.1 zero_exact (by rw [val_zero, mul_zero, abs_zero]) (by unfold maxFin; norm_num)).2
  exact abs_nonpos_iff.mp this

theorem blank_mul {y w : F32.W} (hy : F32.Finite y) (h0 : val y = 0) (hw : F32.Finite w) :
    F32.Finite (mulIeee y w) ∧ val (mulIeee y w) = 0 := by
  have hf : F32.Finite (mulIeee y w) := mul_fin hy hw (by rw [h0, zero_mul, abs_zero]; unfold maxFin; norm_num)
  refine ⟨hf, ?_⟩
  have := (mul_unit hy hw zero_exact (by rw [h0, zero_mul, abs_zero]) (by unfold maxFin; norm_num)).2
  exact abs_nonpos_iff.mp this

theorem blank_add {y b : F32.W} (hy : F32.Finite y) (h0 : val y = 0) (hb : F32.Finite b) :
    F32.Finite (addIeee y b) ∧ val (addIeee y b) = val b := by
  refine ⟨add_fin hy hb (by rw [h0, zero_add]; exact (finite_exact hb).2), ?_⟩
  rw [add_zero_val hy hb (.inl h0), h0, zero_add]

/-- The root of the mean square and anything added to it. -/
theorem root_inf {e : F32.W} (he : F32.Finite e) : addIeee (sqrtIeee posInf) e = posInf := by
  rw [sqrt_inf]; exact inf_add (finite_not he).1 (finite_not he).2

/-- `w y + b` of a blank `y`. -/
theorem blank_aff {cpu : Cpu} {q : F32.W} {x y w b p z : List F32.W} {n : Nat} (hl : x.length = n)
    (hx : ∀ i < n, F32.Finite (x.getD i 0)) (hw : ∀ i < n, F32.Finite (w.getD i 0)) (hb : ∀ i < n, F32.Finite (b.getD i 0))
    (lw : w.length = n) (lb : b.length = n) (hq : q = posInf)
    (hy : DivConst cpu q x y) (hp : Prod y w p) (hz : AddNew cpu p b z) :
    ∀ i < n, F32.Finite (z.getD i 0) ∧ vals z i = vals b i := by
  intro i hi
  unfold DivConst at hy
  rw [scale_iff] at hy
  subst hy
  obtain ⟨-, rfl⟩ := hp
  rw [addNew_iff] at hz
  obtain ⟨-, rfl⟩ := hz
  unfold vals
  rw [zget _ (by simp; omega) (by simp; omega), zget _ (by simp; omega) (by simp; omega), mget _ (by omega)]
  obtain ⟨f1, e1⟩ := blank (hx i hi) hq
  obtain ⟨f2, e2⟩ := blank_mul f1 e1 (hw i hi)
  exact blank_add f2 e2 (hb i hi)

/-- **RMSNorm with one element above 2^64**: the result is the bias. -/
theorem rmsNorm_blank {cpu : Cpu} {n : Nat} (hn : n ≤ 2 ^ 20) {x w b z : List F32.W} (hl : x.length = n)
    (hx : ∀ i < n, F32.Finite (x.getD i 0)) (lw : w.length = n) (hw : ∀ i < n, F32.Finite (w.getD i 0)) (lb : b.length = n)
    (hb : ∀ i < n, F32.Finite (b.getD i 0)) {j : Nat} (hj : j < n) (hbig : 2 ^ 64 < |vals x j|) (h : RMSNorm cpu w b x z) :
    ∀ i < n, F32.Finite (z.getD i 0) ∧ vals z i = vals b i := by
  obtain ⟨v, d, y, p, hv, hd, hy, hp, hz⟩ := h
  rw [addConst_iff] at hd
  simp only [List.map_cons, List.map_nil, List.cons.injEq, and_true] at hd
  have := meanSq_blow hv (by omega) (by rw [hl]; exact hx) (by omega) hbig
  subst this
  exact blank_aff hl hx hw hb lw lb (hd.trans (root_inf tiny10_fin)) hy hp hz

/-- **FixNorm with one element above 2^64**: the result is 0. -/
theorem fixNorm_blank {cpu : Cpu} {n : Nat} {x y : List F32.W} (hl : x.length = n) (hx : ∀ i < n, F32.Finite (x.getD i 0)) {j : Nat}
    (hj : j < n) (hbig : 2 ^ 64 < |vals x j|) (h : FixNorm cpu x y) : y.length = n ∧ ∀ i < n, F32.Finite (y.getD i 0) ∧ vals y i = 0 := by
  obtain ⟨sq, v, d, hsq, hv, hd, hy⟩ := h
  rw [addConst_iff] at hd
  simp only [List.map_cons, List.map_nil, List.cons.injEq, and_true] at hd
  have := sumSq_blow hsq hv (by rw [hl]; exact hx) (by omega) hbig
  subst this
  unfold DivConst at hy
  rw [scale_iff] at hy
  subst hy
  refine ⟨by simp [hl], fun i hi => ?_⟩
  unfold vals
  rw [mget _ (by omega)]
  exact blank (hx i hi) (hd.trans (root_inf tiny10_fin))

/-- **ScaleNorm with one element above 2^64**: the result is 0. -/
theorem scaleNorm_blank {cpu : Cpu} {n : Nat} {x g z : List F32.W} (hl : x.length = n) (hx : ∀ i < n, F32.Finite (x.getD i 0))
    (lg : g.length = n) (hg : ∀ i < n, F32.Finite (g.getD i 0)) {j : Nat}
    (hj : j < n) (hbig : 2 ^ 64 < |vals x j|) (h : ScaleNorm cpu g x z) : ∀ i < n, F32.Finite (z.getD i 0) ∧ vals z i = 0 := by
  obtain ⟨y, hy, -, rfl⟩ := h
  obtain ⟨ly, hy⟩ := fixNorm_blank hl hx hj hbig hy
  intro i hi
  unfold vals
  rw [zget _ (by omega) (by omega)]
  exact blank_mul (hy i hi).1 (hy i hi).2 (hg i hi)

/-- The deviations from the mean of numbers up to 2^100, two of which are far apart. -/
theorem dev_far {cpu : Cpu} {x dev : List F32.W} (h : Dev cpu x dev) (hn : x.length ≤ 2 ^ 20)
    (hx : ∀ i < x.length, F32.Finite (x.getD i 0) ∧ |val (x.getD i 0)| ≤ 2 ^ 100) {j k : Nat} (hj : j < x.length) (hk : k < x.length)
    (hfar : 2 ^ 66 ≤ |vals x j - vals x k|) :
    dev.length = x.length ∧ (∀ i < x.length, F32.Finite (dev.getD i 0)) ∧ ∃ i < x.length, 2 ^ 64 < |vals dev i| := by
  obtain ⟨m, ⟨s, hs, hm⟩, hd⟩ := h
  unfold SubConst at hd
  rw [addConst_iff] at hd
  subst hd
  rw [scaleIn_iff] at hm
  simp only [List.map_cons, List.map_nil, List.cons.injEq, and_true] at hm
  obtain ⟨fs, us⟩ := sum_upto hs hn (K := 100) le_rfl hx
  obtain ⟨g1, g2⟩ := count_pos (n := x.length) (by omega) hn
  obtain ⟨fc, pc, ec⟩ := inv_ok (n := x.length) (by omega) hn
  have hn0 : (0 : ℝ) < x.length := by linarith
  have hm1 : |val s * val (invCount x.length)| ≤ 2 ^ 101 := by
    have c2 : val (invCount x.length) ≤ 2 * (1 / x.length) := by
      have a := (abs_le.mp ec).2
      have b : 1 / (x.length : ℝ) / 2 ^ 23 ≤ 1 / x.length := div_le_self (by positivity) (by norm_num)
      linarith
    rw [abs_mul, abs_of_pos pc]
    calc |val s| * val (invCount x.length) ≤ (x.length * 2 ^ 100) * (2 * (1 / x.length)) :=
          mul_le_mul us c2 pc.le (by positivity)
      _ = 2 ^ 101 := by field_simp
  have he : F32.Exact ((2 : ℝ) ^ 101) := by
    have := exact_mul (n := 1) (K := 101) (by norm_num)
    simpa using this
  obtain ⟨fm, um⟩ := mul_unit fs fc he hm1 (by unfold maxFin; norm_num)
  rw [← hm] at fm um
  have fd : ∀ i < x.length, F32.Finite (addIeee (x.getD i 0) (F32.flip m)) := fun i hi => by
    refine add_fin (hx i hi).1 (flip_finite fm) ?_
    rw [flip_val]
    have h1 := (hx i hi).2
    have h2 := abs_sub (val (x.getD i 0)) (val m)
    rw [← sub_eq_add_neg]
    generalize val (x.getD i 0) = r at *
    unfold maxFin
    norm_num at h1 um ⊢
    linarith
  have big : ∀ i < x.length, 2 ^ 65 ≤ |vals x i - val m| → 2 ^ 64 < |val (addIeee (x.getD i 0) (F32.flip m))| := fun i hi hb => by
    have h1 := add_pure (fd i hi)
    rw [flip_val, ← sub_eq_add_neg] at h1
    have h2 := abs_sub_abs_le_abs_sub (vals x i - val m) (val (addIeee (x.getD i 0) (F32.flip m)))
    rw [abs_sub_comm (vals x i - val m) (val _)] at h2
    unfold vals at h2 hb
    generalize val (addIeee (x.getD i 0) (F32.flip m)) = y at *
    generalize val (x.getD i 0) - val m = r at *
    norm_num at h1 h2 hb ⊢
    linarith
  refine ⟨by simp, fun i hi => by rw [mget _ hi]; exact fd i hi, ?_⟩
  by_cases hb : 2 ^ 65 ≤ |vals x j - val m|
  · exact ⟨j, hj, by unfold vals; rw [mget _ hj]; exact big j hj hb⟩
  · refine ⟨k, hk, ?_⟩
    unfold vals
    rw [mget _ hk]
    refine big k hk ?_
    have h1 := abs_sub_le (vals x j) (val m) (vals x k)
    rw [abs_sub_comm (val m)] at h1
    push Not at hb
    norm_num at h1 hb hfar ⊢
    linarith

/-- **LayerNorm with two elements 2^66 or more apart**: the result is the bias. -/
theorem layerNorm_blank {cpu : Cpu} {n : Nat} (hn : n ≤ 2 ^ 20) {x w b z : List F32.W} {eps : F32.W} (hx : Within n x (2 ^ 100))
    (lw : w.length = n) (hw : ∀ i < n, F32.Finite (w.getD i 0)) (lb : b.length = n) (hb : ∀ i < n, F32.Finite (b.getD i 0))
    (he : F32.Finite eps) {j k : Nat} (hj : j < n) (hk : k < n) (hfar : 2 ^ 66 ≤ |vals x j - vals x k|)
    (h : LayerNorm cpu w b eps x z) : ∀ i < n, F32.Finite (z.getD i 0) ∧ vals z i = vals b i := by
  obtain ⟨dev, v, ve, y, p, hd, hv, hve, hy, hp, hz⟩ := h
  obtain ⟨hl, hx⟩ := hx
  obtain ⟨dl, df, i, hi, hbig⟩ := dev_far hd (by omega) (by rw [hl]; exact hx) (by omega) (by omega) hfar
  rw [hl] at dl df hi
  have := meanSq_blow hv (by omega) (by rw [dl]; exact df) (by omega) hbig
  subst this
  rw [addNew_iff] at hve
  obtain ⟨-, hve⟩ := hve
  simp only [List.zipWith_cons_cons, List.zipWith_nil_left, List.cons.injEq, and_true] at hve
  rw [inf_add (finite_not he).1 (finite_not he).2] at hve
  exact blank_aff dl df hw hb lw lb (by rw [hve]; exact sqrt_inf) hy hp hz

/-- **LayerNormSimple with two elements 2^66 or more apart**: the result is 0. -/
theorem layerNormSimple_blank {cpu : Cpu} {n : Nat} (hn : n ≤ 2 ^ 20) {x y : List F32.W} (hx : Within n x (2 ^ 100)) {j k : Nat}
    (hj : j < n) (hk : k < n) (hfar : 2 ^ 66 ≤ |vals x j - vals x k|) (h : LayerNormSimple cpu x y) :
    ∀ i < n, F32.Finite (y.getD i 0) ∧ vals y i = 0 := by
  obtain ⟨dev, v, d, hd, hv, hve, hy⟩ := h
  obtain ⟨hl, hx⟩ := hx
  obtain ⟨dl, df, i, hi, hbig⟩ := dev_far hd (by omega) (by rw [hl]; exact hx) (by omega) (by omega) hfar
  rw [hl] at dl df hi
  have := meanSq_blow hv (by omega) (by rw [dl]; exact df) (by omega) hbig
  subst this
  rw [addNew_iff] at hve
  obtain ⟨-, hve⟩ := hve
  simp only [List.zipWith_cons_cons, List.zipWith_nil_left, List.cons.injEq, and_true] at hve
  unfold DivConst at hy
  rw [scale_iff] at hy
  subst hy
  intro i hi
  unfold vals
  rw [mget _ (by omega)]
  exact blank (df i hi) (hve.trans (root_inf tiny10_fin))

end Verif.Norm32
