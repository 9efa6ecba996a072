import Verif.Lemmas.Crf32

set_option autoImplicit false
set_option linter.unusedSimpArgs false

/-!
# C85: the CRF loss on float32
-/

namespace Verif.Crf32
open Verif.F32 Verif.Asm Verif.Spec Verif.Spec.Kernels Verif.Spec.Crf32 CrfSpec Loop Dense

/-- The shapes that `crf.New` and its callers use: transitions `(n+1) × (n+1)`, every emission a column of `n` scores. -/
structure Fit (n : Nat) (tr : Dense F) (xs : List (Dense F)) : Prop where
  wf : tr.WF
  rows : tr.rows = n + 1
  cols : tr.cols = n + 1
  ems : ∀ x ∈ xs, x.WF ∧ x.rows = n ∧ x.cols = 1

/-- The transition scores, and the emission scores of a column. -/
def tw (tr : Dense F) (i j : Nat) : F := (tr.at2 i j).getD 0
def ew (x : Dense F) (i : Nat) : F := (x.at2 i 0).getD 0

/-- As numbers. -/
noncomputable def tv (tr : Dense F) (i j : Nat) : ℝ := val (tw tr i j).w
noncomputable def ev (x : Dense F) (i : Nat) : ℝ := val (ew x i).w

/-- All scores are numbers up to `M`. -/
structure Upto (M : ℝ) (n : Nat) (tr : Dense F) (xs : List (Dense F)) : Prop where
  tr : ∀ i j, i ≤ n → j ≤ n → F32.Finite (tw tr i j).w ∧ |tv tr i j| ≤ M
  ems : ∀ x ∈ xs, ∀ i < n, F32.Finite (ew x i).w ∧ |ev x i| ≤ M

section shape
variable {n : Nat} {tr x : Dense F} {xs : List (Dense F)} {M : ℝ}

theorem Fit.at_tr (h : Fit n tr xs) (i j : Nat) (hi : i ≤ n) (hj : j ≤ n) : tr.at2 i j = some (tw tr i j) := by
  have := (at2_isSome h.wf i j).mpr ⟨by rw [h.rows]; omega, by rw [h.cols]; omega⟩
  obtain ⟨v, hv⟩ := Option.isSome_iff_exists.mp this
  rw [tw, hv]; rfl

theorem Fit.at_x (h : Fit n tr xs) (hx : x ∈ xs) (i : Nat) (hi : i < n) : x.at2 i 0 = some (ew x i) := by
  obtain ⟨h1, h2, h3⟩ := h.ems x hx
  have := (at2_isSome h1 i 0).mpr ⟨by omega, by omega⟩
  obtain ⟨v, hv⟩ := Option.isSome_iff_exists.mp this
  have hv' : x.at2 i 0 = some v := hv
  rw [ew, hv']; rfl

theorem Fit.len (h : Fit n tr xs) (hx : x ∈ xs) : x.data.length = n := by
  obtain ⟨h1, h2, h3⟩ := h.ems x hx
  rw [h1, h2, h3, Nat.mul_one]

theorem Fit.at1_x (h : Fit n tr xs) (hx : x ∈ xs) (i : Nat) (hi : i < n) : x.at1 i = some (ew x i) := by
  obtain ⟨h1, h2, h3⟩ := h.ems x hx
  rw [← h.at_x hx i hi]
  have hl := h.len hx
  have e : x.at2 i 0 = _ := at2_nat x i 0
  unfold at1
  rw [if_neg (by omega), if_neg (by omega), e, if_pos (by omega), h3]
  simp

theorem Fit.tail (h : Fit n tr (x :: xs)) : Fit n tr xs :=
  ⟨h.wf, h.rows, h.cols, fun y hy => h.ems y (by simp [hy])⟩

theorem Upto.tail (h : Upto M n tr (x :: xs)) : Upto M n tr xs := ⟨h.tr, fun y hy => h.ems y (by simp [hy])⟩

end shape

theorem approx_of {w : F32.W} (h : F32.Finite w) : Approx w (val w) 0 := ⟨h, by simp⟩

/-- One addition of a score to a number up to 80 that is known up to `ε`. -/
theorem add_score {a b : F32.W} {X ε : ℝ} (ha : Approx a X ε) (hb : F32.Finite b) (hB : |X + val b| ≤ 80) (hε : ε ≤ 1 / 2) :
    Approx (addIeee a b) (X + val b) (ε + 81 / 2 ^ 24) := by
  refine Approx.add ha (approx_of hb) hB ?_ (by norm_num; linarith)
  norm_num
  linarith

/-- The error of one position. -/
noncomputable def δ (n : Nat) : ℝ := 1 / 2 ^ 15 + n / 2 ^ 23

/-! ## The gold score -/

theorem gold_near {n : Nat} {tr : Dense F} {M : ℝ} (hM : 0 ≤ M) : ∀ {xs : List (Dense F)}, Fit n tr xs → Upto M n tr xs →
    ∀ (ys : List Nat), xs.length = ys.length → (∀ y ∈ ys, y < n) → ∀ (prev : Nat), prev ≤ n →
    ∀ (s : F) (S : ℝ) (k : Nat), Approx s.w S (k / 2 ^ 16) → |S| ≤ k * (2 * M) →
    ((k + xs.length : Nat) : ℝ) * (2 * M) ≤ 80 → k + xs.length ≤ 2 ^ 10 →
    ∃ (r : Nat × F) (Y : ℝ), Crf.goldLoop tr xs ys prev s = some r ∧ r.1 ≤ n ∧
      Approx r.2.w Y ((k + xs.length : Nat) / 2 ^ 16) ∧ |Y| ≤ ((k + xs.length : Nat) : ℝ) * (2 * M) ∧
      Y + tv tr r.1 0 = S + Crf.pathScore (tv tr) prev (xs.map ev) ys
  | [], _, _, ys, hl, _, prev, hp, s, S, k, hs, hS, _, _ => by
    have : ys = [] := List.eq_nil_of_length_eq_zero (by simpa using hl.symm)
    subst this
    exact ⟨(prev, s), S, rfl, hp, by simpa using hs, by simpa using hS, rfl⟩
  | x :: xs, h, hb, [], hl, _, prev, hp, s, S, k, hs, hS, _, _ => by simp at hl
  | x :: xs, h, hb, y :: ys, hl, hy, prev, hp, s, S, k, hs, hS, hbig, hk => by
    have hyn := hy y (by simp)
    obtain ⟨fe, be⟩ := hb.ems x (by simp) y hyn
    obtain ⟨ft, bt⟩ := hb.tr prev (y + 1) hp (by omega)
    have hkL : ((k : ℝ) + 1) * (2 * M) ≤ 80 := by
      refine le_trans (mul_le_mul_of_nonneg_right ?_ (by linarith)) hbig
      simp only [List.length_cons]; push_cast; linarith [(Nat.cast_nonneg xs.length : (0 : ℝ) ≤ xs.length)]
    have hk' : (k : ℝ) / 2 ^ 16 ≤ 1 / 4 := by
      have : (k : ℝ) ≤ 2 ^ 10 := by exact_mod_cast (by omega : k ≤ 2 ^ 10)
      linarith
    have b1 : |S + ev x y| ≤ 80 := (abs_add_le _ _).trans (by linarith)
    have b2 : |S + ev x y + tv tr prev (y + 1)| ≤ (k + 1) * (2 * M) :=
      (abs_add_le _ _).trans ((add_le_add (abs_add_le _ _) le_rfl).trans (by linarith))
    have a1 := add_score hs fe b1 (by linarith)
    have a2 := add_score a1 ft (b2.trans hkL) (by linarith)
    have a3 : Approx (s + ew x y + tw tr prev (y + 1)).w (S + ev x y + tv tr prev (y + 1)) ((k + 1 : Nat) / 2 ^ 16) := by
      refine Approx.mono a2 ?_
      push_cast
      linarith
    obtain ⟨r, Y, h1, h2, h3, h4, h5⟩ := gold_near hM h.tail hb.tail ys (by simpa using hl) (fun z hz => hy z (by simp [hz]))
      (y + 1) (by omega) (s + ew x y + tw tr prev (y + 1)) _ (k + 1) a3 (by push_cast; exact b2)
      (by rw [show k + 1 + xs.length = k + (x :: xs).length by simp; omega]; exact hbig) (by simp at hk; omega)
    have e : k + 1 + xs.length = k + (x :: xs).length := by simp; omega
    rw [e] at h3 h4
    refine ⟨r, Y, ?_, h2, h3, h4, ?_⟩
    · simp only [Crf.goldLoop, h.at1_x (by simp : x ∈ x :: xs) y hyn, h.at_tr prev (y + 1) hp (by omega : y + 1 ≤ n),
        Option.bind_eq_bind, Option.bind_some, h1]
    · rw [h5]
      simp only [List.map_cons, Crf.pathScore]
      ring

theorem goldScore_near {n : Nat} {tr : Dense F} {M : ℝ} (hM : 0 ≤ M) {xs : List (Dense F)} (h : Fit n tr xs)
    (hb : Upto M n tr xs) (hne : xs ≠ []) (hlen : xs.length ≤ 2 ^ 10) (hbig : (xs.length + 1 : ℝ) * (2 * M) ≤ 80)
    {ys : List Nat} (hy : ys ∈ labelings n xs.length) :
    ∃ g : F, Crf.goldScore tr xs ys = some g ∧ |score (tv tr) (xs.map ev) ys| ≤ 80 ∧
      Approx g.w (score (tv tr) (xs.map ev) ys) (xs.length / 2 ^ 16 + 81 / 2 ^ 24) := by
  obtain ⟨hl, hyb⟩ := mem_labelings.mp hy
  cases xs with
  | nil => exact absurd rfl hne
  | cons x xs =>
    cases ys with
    | nil => simp at hl
    | cons y ys =>
      have hyn := hyb y (by simp)
      obtain ⟨fe, be⟩ := hb.ems x (by simp) y hyn
      obtain ⟨ft, bt⟩ := hb.tr 0 (y + 1) (Nat.zero_le n) (by omega)
      have hL : (0 : ℝ) ≤ xs.length := Nat.cast_nonneg _
      simp only [List.length_cons] at hbig hlen
      push_cast at hbig
      have hbig' : (xs.length + 1 : ℝ) * (2 * M) ≤ 80 := le_trans (mul_le_mul_of_nonneg_right (by linarith) (by linarith)) hbig
      have hM80 : 2 * M ≤ 80 := by nlinarith
      have b2 : |ev x y + tv tr 0 (y + 1)| ≤ 2 * M := (abs_add_le _ _).trans (by linarith)
      have a1 : Approx (ew x y + tw tr 0 (y + 1)).w (ev x y + tv tr 0 (y + 1)) ((1 : Nat) / 2 ^ 16) :=
        Approx.mono (add_score (approx_of fe) ft (b2.trans hM80) (by norm_num)) (by norm_num)
      obtain ⟨r, Y, h1, h2, h3, h4, h5⟩ := gold_near hM h.tail hb.tail ys (by simpa using hl.symm)
        (fun z hz => hyb z (by simp [hz])) (y + 1) (by omega) _ _ 1 a1 (by simpa using b2)
        (by push_cast; rw [add_comm]; exact hbig') (by omega)
      obtain ⟨fr, br⟩ := hb.tr r.1 0 h2 (Nat.zero_le n)
      have hsc : score (tv tr) ((x :: xs).map ev) (y :: ys) = Y + tv tr r.1 0 := by
        rw [Crf.score_eq _ _ _ (by simpa using hl.symm), h5]
        simp only [List.map_cons, Crf.pathScore]
        ring
      have bY : |Y + tv tr r.1 0| ≤ 80 := by
        refine (abs_add_le _ _).trans ?_
        push_cast at h4
        nlinarith
      have e1 : tr.at2 0 (y + 1 : Nat) = _ := h.at_tr 0 (y + 1) (Nat.zero_le n) (by omega : y + 1 ≤ n)
      have e2 : tr.at2 r.1 0 = _ := h.at_tr r.1 0 h2 (Nat.zero_le n)
      refine ⟨r.2 + tw tr r.1 0, ?_, by rw [hsc]; exact bY, ?_⟩
      · simp only [Crf.goldScore, h.at_x (by simp : x ∈ x :: xs) y hyn, e1, e2, h1, Option.bind_eq_bind, Option.bind_some]
      · rw [hsc]
        have hk' : ((1 + xs.length : Nat) : ℝ) / 2 ^ 16 ≤ 1 / 4 := by
          have : ((1 + xs.length : Nat) : ℝ) ≤ 2 ^ 10 := by exact_mod_cast (by omega : 1 + xs.length ≤ 2 ^ 10)
          linarith
        refine Approx.mono (add_score h3 fr bY (by linarith)) ?_
        simp only [List.length_cons]
        push_cast
        linarith

/-! ## The total score -/

/-- `log Σ e^f` is within the bounds of the terms. -/
theorem lse_bounds {n : Nat} (hn : 0 < n) {f : Nat → ℝ} {C : ℝ} (hf : ∀ i < n, |f i| ≤ C) :
    |Real.log ((List.range n).map fun i => Real.exp (f i)).sum| ≤ C + Real.log n := by
  have hpos := Crf.exp_sum_pos hn f
  have hlog : 0 ≤ Real.log n := Real.log_natCast_nonneg n
  have hup : ((List.range n).map fun i => Real.exp (f i)).sum ≤ n * Real.exp C := by
    have := List.sum_le_card_nsmul ((List.range n).map fun i => Real.exp (f i)) (Real.exp C) (by
      intro v hv
      obtain ⟨i, hi, rfl⟩ := List.mem_map.mp hv
      exact Real.exp_le_exp.mpr (abs_le.mp (hf i (List.mem_range.mp hi))).2)
    simpa using this
  have hlo : Real.exp (-C) ≤ ((List.range n).map fun i => Real.exp (f i)).sum := by
    refine le_trans (Real.exp_le_exp.mpr (abs_le.mp (hf 0 hn)).1) ?_
    apply List.single_le_sum
    · intro v hv
      obtain ⟨i, -, rfl⟩ := List.mem_map.mp hv
      exact (Real.exp_pos _).le
    · exact List.mem_map.mpr ⟨0, List.mem_range.mpr hn, rfl⟩
  rw [abs_le]
  constructor
  · have : -C ≤ Real.log ((List.range n).map fun i => Real.exp (f i)).sum := by
      rw [Real.le_log_iff_exp_le hpos]; exact hlo
    linarith
  · rw [Real.log_le_iff_le_exp hpos, Real.exp_add, Real.exp_log (by exact_mod_cast hn)]
    linarith

/-- The sum of the terms, from the left. -/
theorem acc_rel {n : Nat} (hn : 0 < n) (hn' : n ≤ 2 ^ 10) {f : Nat → F} {T : Nat → ℝ} {ε : ℝ} (z : F)
    (hf : ∀ i < n, Rel (f i).w (T i) ε) (hT : ∀ i < n, (2 : ℝ) ^ (-124 : Int) ≤ T i) (hε : ε ≤ 1 / 2)
    (hS : ((List.range n).map T).sum ≤ 2 ^ 124) :
    Rel (acc z ((List.range n).map f)).w ((List.range n).map T).sum (ε + n / 2 ^ 23) := by
  obtain ⟨m, rfl⟩ : ∃ m, n = m + 1 := ⟨n - 1, by omega⟩
  rw [List.range_succ_eq_map] at hS ⊢
  simp only [List.map_cons, List.map_map, List.sum_cons] at hS ⊢
  have hm : ((m + 1 : Nat) : ℝ) / 2 ^ 23 ≤ 1 / 2 := by
    have : ((m + 1 : Nat) : ℝ) ≤ 2 ^ 10 := by exact_mod_cast hn'
    linarith
  push_cast at hm
  have hp0 : (0 : ℝ) < (2 : ℝ) ^ (-124 : Int) := by positivity
  have key := Rel.foldl (ε₀ := ε) ((List.range m).map fun i => ((f (i + 1)).w, T (i + 1))) (hf 0 hn) le_rfl
    (by
      intro p hp
      obtain ⟨i, hi, rfl⟩ := List.mem_map.mp hp
      have := List.mem_range.mp hi
      exact ⟨hf _ (by omega), hp0.le.trans (hT _ (by omega))⟩)
    (by rw [List.length_map, List.length_range]; rw [add_div] at hm; linarith [show (0 : ℝ) ≤ 1 / 2 ^ 23 by positivity])
    (hT 0 hn) (by simpa [List.map_map, Function.comp_def] using hS)
  simp only [List.map_map, List.length_map, List.length_range, Function.comp_def] at key
  have hfold : ∀ (l : List Nat) (a : F), ((l.map fun i => f (i + 1)).foldl (· + ·) a).w =
      (l.map fun i => (f (i + 1)).w).foldl addIeee a.w := by
    intro l
    induction l with
    | nil => intro a; rfl
    | cons b l ih => intro a; exact ih (a + f (b + 1))
  show Rel ((List.map (f ∘ Nat.succ) (List.range m)).foldl (· + ·) (f 0)).w _ _
  have : List.map (f ∘ Nat.succ) (List.range m) = (List.range m).map fun i => f (i + 1) := rfl
  rw [this, hfold]
  refine key.mono ?_ ?_
  · refine add_nonneg (hp0.le.trans (hT 0 hn)) (List.sum_nonneg fun v hv => ?_)
    obtain ⟨i, hi, rfl⟩ := List.mem_map.mp hv
    have := List.mem_range.mp hi
    exact hp0.le.trans (hT _ (by omega))
  · push_cast
    rw [add_div]
    linarith [show (0 : ℝ) ≤ 1 / 2 ^ 23 by positivity]

theorem exp_room {X : ℝ} (h : |X| ≤ 84) : (2 : ℝ) ^ (-124 : Int) ≤ Real.exp X ∧ Real.exp X ≤ 2 ^ 124 := by
  obtain ⟨a, b⟩ := abs_le.mp h
  constructor
  · refine le_trans (le_trans ?_ exp_neg_84) (Real.exp_le_exp.mpr a)
    exact zpow_le_zpow_right₀ (by norm_num) (by norm_num)
  · refine (Real.exp_le_exp.mpr b).trans (exp_84.trans (by norm_num))

/-- One position. -/
theorem step_near {exp log : F32.W → F32.W} (hs : Scalars exp log) {n : Nat} (hn : 0 < n) (hn' : n ≤ 2 ^ 10) {M C ε : ℝ}
    {tot : Nat → F} {X : Nat → ℝ} (ht : ∀ i < n, Approx (tot i).w (X i) ε) (hX : ∀ i < n, |X i| ≤ C)
    (hC : C + 2 * M + Real.log n ≤ 80) (hM : 0 ≤ M) (hε : ε ≤ 1 / 4) (hε0 : 0 ≤ ε) {e : F} (he : F32.Finite e.w) (heM : |val e.w| ≤ M)
    {t : Nat → F} (htf : ∀ i < n, F32.Finite (t i).w ∧ |val (t i).w| ≤ M) (z : F) :
    Approx (lift log (acc z ((List.range n).map fun i => lift exp (tot i + e + t i)))).w
        (Real.log ((List.range n).map fun i => Real.exp (X i + val e.w + val (t i).w)).sum) (ε + δ n) ∧
      |Real.log ((List.range n).map fun i => Real.exp (X i + val e.w + val (t i).w)).sum| ≤ C + 2 * M + Real.log n := by
  have hlog : 0 ≤ Real.log n := Real.log_natCast_nonneg n
  have hb : ∀ i < n, |X i + val e.w + val (t i).w| ≤ C + 2 * M := fun i hi => by
    have := hX i hi
    have := (htf i hi).2
    exact (abs_add_le _ _).trans ((add_le_add (abs_add_le _ _) le_rfl).trans (by linarith))
  have hlse := lse_bounds hn hb
  refine ⟨?_, by linarith⟩
  have hr : ∀ i < n, Rel (lift exp (tot i + e + t i)).w (Real.exp (X i + val e.w + val (t i).w)) (ε + 167 / 2 ^ 24) := by
    intro i hi
    have hi1 := hX i hi
    have b1 : |X i + val e.w| ≤ 80 := (abs_add_le _ _).trans (by linarith)
    have b2 : |X i + val e.w + val (t i).w| ≤ 80 := (hb i hi).trans (by linarith)
    have a1 := add_score (ht i hi) he b1 (by linarith)
    have a2 := add_score a1 (htf i hi).1 b2 (by linarith)
    have a3 : Approx (tot i + e + t i).w (X i + val e.w + val (t i).w) (ε + 163 / 2 ^ 24) := a2.mono (by linarith)
    exact (Rel.exp hs a3 (by linarith)).mono (Real.exp_pos _).le (by linarith)
  have hpos := Crf.exp_sum_pos hn fun i => X i + val e.w + val (t i).w
  have h84 : |Real.log ((List.range n).map fun i => Real.exp (X i + val e.w + val (t i).w)).sum| ≤ 80 := by linarith
  have hsum : ((List.range n).map fun i => Real.exp (X i + val e.w + val (t i).w)).sum ≤ 2 ^ 124 := by
    have := (exp_room (h84.trans (by norm_num))).2
    rwa [Real.exp_log hpos] at this
  have ha := acc_rel hn hn' z hr (fun i hi => (exp_room ((hb i hi).trans (by linarith))).1) (by linarith) hsum
  have hnn : (n : ℝ) / 2 ^ 23 ≤ 1 / 4 := by
    have : (n : ℝ) ≤ 2 ^ 10 := by exact_mod_cast hn'
    linarith
  refine (Rel.log hs ha hpos (by linarith)).mono ?_
  unfold δ
  linarith

theorem loop_near {exp log : F32.W → F32.W} (hs : Scalars exp log) {n : Nat} (hn : 0 < n) (hn' : n ≤ 2 ^ 10) {M : ℝ} (hM : 0 ≤ M)
    {tr : Dense F} : ∀ {xs : List (Dense F)}, Fit n tr xs → Upto M n tr xs → ∀ (tot : Nat → F) (X : Nat → ℝ) (k : Nat),
    (∀ i < n, Approx (tot i).w (X i) (k * δ n)) → (∀ i < n, |X i| ≤ k * (2 * M + Real.log n)) →
    ((k + xs.length : Nat) : ℝ) * (2 * M + Real.log n) ≤ 80 → k + xs.length ≤ 2 ^ 10 →
    ∃ (tot' : Nat → F) (X' : Nat → ℝ),
      Crf.totalLoop (lift exp) (lift log) n tr xs ((List.range n).map tot) = some ((List.range n).map tot') ∧
      (∀ i < n, Approx (tot' i).w (X' i) ((k + xs.length : Nat) * δ n)) ∧
      (∀ i < n, |X' i| ≤ ((k + xs.length : Nat) : ℝ) * (2 * M + Real.log n)) ∧
      ((List.range n).map fun i => Real.exp (X' i) * Real.exp (tv tr (i + 1) 0)).sum =
        ((List.range n).map fun i => Real.exp (X i) * Crf.Z n (tv tr) (i + 1) (xs.map ev)).sum
  | [], _, _, tot, X, k, ht, hX, _, _ => by
    refine ⟨tot, X, rfl, by simpa using ht, by simpa using hX, ?_⟩
    congr 1
    apply List.map_congr_left
    intro i _
    simp [Crf.Z, labelings, Crf.pathScore]
  | x :: xs, h, hb, tot, X, k, ht, hX, hbig, hk => by
    have hlog : 0 ≤ Real.log n := Real.log_natCast_nonneg n
    have hδ0 : 0 ≤ δ n := by unfold δ; positivity
    have hδ : δ n ≤ 5 / 2 ^ 15 := by
      have : (n : ℝ) ≤ 2 ^ 10 := by exact_mod_cast hn'
      unfold δ; linarith
    have hkε : (k : ℝ) * δ n ≤ 1 / 4 := by
      have : (k : ℝ) ≤ 2 ^ 10 := by exact_mod_cast (by omega : k ≤ 2 ^ 10)
      calc (k : ℝ) * δ n ≤ 2 ^ 10 * (5 / 2 ^ 15) := mul_le_mul this hδ hδ0 (by positivity)
        _ ≤ 1 / 4 := by norm_num
    have hC : (k : ℝ) * (2 * M + Real.log n) + 2 * M + Real.log n ≤ 80 := by
      refine le_trans ?_ hbig
      have : ((k : ℝ) + 1) * (2 * M + Real.log n) ≤ ((k + (x :: xs).length : Nat) : ℝ) * (2 * M + Real.log n) := by
        refine mul_le_mul_of_nonneg_right ?_ (by linarith)
        simp only [List.length_cons]; push_cast; linarith [(Nat.cast_nonneg xs.length : (0 : ℝ) ≤ xs.length)]
      linarith
    have hstep := fun (j : Nat) (hj : j < n) => step_near hs hn hn' ht hX hC hM hkε (by positivity) (e := ew x j)
      (hb.ems x (by simp) j hj).1 (hb.ems x (by simp) j hj).2 (t := fun i => tw tr (i + 1) (j + 1))
      (fun i hi => hb.tr (i + 1) (j + 1) (by omega) (by omega)) 0
    obtain ⟨tot', X', h1, h2, h3, h4⟩ := loop_near hs hn hn' hM h.tail hb.tail
      (fun j => lift log (acc 0 ((List.range n).map fun i => lift exp (tot i + ew x j + tw tr (i + 1) (j + 1)))))
      (fun j => Real.log ((List.range n).map fun i => Real.exp (X i + ev x j + tv tr (i + 1) (j + 1))).sum) (k + 1)
      (fun j hj => by push_cast; rw [add_mul, one_mul]; exact (hstep j hj).1)
      (fun j hj => by push_cast; refine (hstep j hj).2.trans (le_of_eq ?_); ring)
      (by rw [show k + 1 + xs.length = k + (x :: xs).length by simp; omega]; exact hbig) (by simp at hk; omega)
    have e : k + 1 + xs.length = k + (x :: xs).length := by simp; omega
    rw [e] at h2 h3
    refine ⟨tot', X', ?_, h2, h3, ?_⟩
    · simp only [Crf.totalLoop, separate_eq (h.len (by simp : x ∈ x :: xs)) (h.at1_x (by simp : x ∈ x :: xs)),
        Option.bind_eq_bind, Option.bind_some, step_eq (lift exp) (lift log) hn h.at_tr tot (ew x) 0, h1]
    · rw [h4]
      have e1 : ∀ j, Real.exp (Real.log ((List.range n).map fun i =>
          Real.exp (X i + ev x j + tv tr (i + 1) (j + 1))).sum) *
            Crf.Z n (tv tr) (j + 1) (xs.map ev) =
          ((List.range n).map fun i => Real.exp (X i) *
            (Real.exp (tv tr (i + 1) (j + 1) + ev x j) * Crf.Z n (tv tr) (j + 1) (xs.map ev))).sum := by
        intro j
        rw [Real.exp_log (Crf.exp_sum_pos hn _), ← List.sum_map_mul_right]
        congr 1
        apply List.map_congr_left
        intro i _
        rw [← _root_.mul_assoc, ← Real.exp_add]
        congr 2
        ring
      simp only [e1]
      rw [Crf.sum_comm_list]
      congr 1
      apply List.map_congr_left
      intro i _
      rw [List.map_cons, Crf.Z_cons, List.sum_map_mul_left]

theorem growth_n {n : Nat} (hn : 0 < n) (h : n ≤ 2 ^ 10) : growth ulp (n - 1) ≤ n / 2 ^ 24 := by
  obtain ⟨m, rfl⟩ : ∃ m, n = m + 1 := ⟨n - 1, by omega⟩
  have hm : (m : ℝ) ≤ 2 ^ 10 := by exact_mod_cast (by omega : m ≤ 2 ^ 10)
  have hm0 : (0 : ℝ) ≤ m := Nat.cast_nonneg m
  have hu : (m : ℝ) * ulp ≤ 1 / 2 ^ 14 := by unfold ulp; linarith
  refine (growth_le ulp_nonneg (n := m) (by linarith)).trans ?_
  rw [div_le_iff₀ (by linarith)]
  unfold ulp
  push_cast
  nlinarith

/-- The vector before the last sum. -/
theorem forward_near {exp log : F32.W → F32.W} (hs : Scalars exp log) {n : Nat} (hn : 0 < n) (hn' : n ≤ 2 ^ 10) {M : ℝ} (hM : 0 ≤ M)
    {tr : Dense F} {xs : List (Dense F)} (h : Fit n tr xs) (hb : Upto M n tr xs) (hne : xs ≠ []) (hlen : xs.length ≤ 2 ^ 10)
    (hbig : (xs.length + 1 : ℝ) * (2 * M + Real.log n) ≤ 80) :
    ∃ (f : Nat → F) (Y : Nat → ℝ), forward (lift exp) (lift log) n tr xs = some ((List.range n).map f) ∧
      (∀ i < n, Rel (f i).w (Real.exp (Y i)) (xs.length * δ n + 86 / 2 ^ 24)) ∧
      (∀ i < n, |Y i| + Real.log n ≤ 80) ∧
      ((List.range n).map fun i => Real.exp (Y i)).sum =
        ((labelings n xs.length).map fun zs => Real.exp (score (tv tr) (xs.map ev) zs)).sum := by
  have hZ : ((labelings n xs.length).map fun ys => Real.exp (score (tv tr) (xs.map ev) ys)).sum =
      Crf.Z n (tv tr) 0 (xs.map ev) := by
    unfold Crf.Z
    rw [List.length_map]
    congr 1
    apply List.map_congr_left
    intro ys hys
    rw [Crf.score_eq _ _ _ (by simpa using (mem_labelings.mp hys).1.symm)]
  rw [hZ]
  cases xs with
  | nil => exact absurd rfl hne
  | cons x xs =>
    have hlog : 0 ≤ Real.log n := Real.log_natCast_nonneg n
    have hL : (0 : ℝ) ≤ xs.length := Nat.cast_nonneg _
    simp only [List.length_cons] at hbig hlen ⊢
    push_cast at hbig
    have hδ0 : 1 / 2 ^ 15 ≤ δ n := by unfold δ; linarith [show (0 : ℝ) ≤ (n : ℝ) / 2 ^ 23 by positivity]
    have hP0 : 0 ≤ 2 * M + Real.log n := by linarith
    have hP : 2 * M + Real.log n ≤ 80 := by nlinarith
    have b0 : ∀ i < n, |ev x i + tv tr 0 (i + 1)| ≤ 2 * M := fun i hi =>
      (abs_add_le _ _).trans (by linarith [(hb.ems x (by simp) i hi).2, (hb.tr 0 (i + 1) (Nat.zero_le n) (by omega)).2])
    obtain ⟨tot', X', h1, h2, h3, h4⟩ := loop_near hs hn hn' hM h.tail hb.tail
      (fun i => ew x i + tw tr 0 (i + 1)) (fun i => ev x i + tv tr 0 (i + 1)) 1
      (fun i hi => (add_score (approx_of (hb.ems x (by simp) i hi).1) (hb.tr 0 (i + 1) (Nat.zero_le n) (by omega)).1
        ((b0 i hi).trans (by linarith)) (by norm_num)).mono (by push_cast; linarith))
      (fun i hi => (b0 i hi).trans (by push_cast; linarith))
      (by push_cast; nlinarith) (by omega)
    have hk : ((1 + xs.length : Nat) : ℝ) = xs.length + 1 := by push_cast; ring
    rw [hk] at h2 h3
    refine ⟨fun i => lift exp (tot' i + tw tr (i + 1) 0), fun i => X' i + tv tr (i + 1) 0, ?_, fun i hi => ?_, fun i hi => ?_, ?_⟩
    · simp only [forward, start_eq h.at_tr (h.at1_x (by simp : x ∈ x :: xs)), h1, end_eq (lift exp) h.at_tr tot',
        Option.bind_eq_bind, Option.bind_some]
    · obtain ⟨ft, bt⟩ := hb.tr (i + 1) 0 (by omega) (Nat.zero_le n)
      have bY : |X' i + tv tr (i + 1) 0| ≤ 80 := (abs_add_le _ _).trans (by nlinarith [h3 i hi])
      have hδ : δ n ≤ 5 / 2 ^ 15 := by
        have : (n : ℝ) ≤ 2 ^ 10 := by exact_mod_cast hn'
        unfold δ; linarith
      have hkε : ((xs.length : ℝ) + 1) * δ n ≤ 1 / 4 := by
        have : (xs.length : ℝ) + 1 ≤ 2 ^ 10 := by exact_mod_cast hlen
        calc ((xs.length : ℝ) + 1) * δ n ≤ 2 ^ 10 * (5 / 2 ^ 15) := mul_le_mul this hδ (by linarith) (by positivity)
          _ ≤ 1 / 4 := by norm_num
      have a : Approx _ (X' i + tv tr (i + 1) 0) _ := add_score (h2 i hi) ft bY (by linarith)
      refine (Rel.exp hs a (by linarith)).mono (Real.exp_pos _).le ?_
      push_cast
      linarith
    · have := (abs_add_le (X' i) (tv tr (i + 1) 0)).trans (add_le_add (h3 i hi) (hb.tr (i + 1) 0 (by omega) (Nat.zero_le n)).2)
      simp only
      nlinarith
    · simp only [Real.exp_add]
      rw [h4, List.map_cons, Crf.Z_cons]
      congr 1
      apply List.map_congr_left
      intro i _
      rw [Real.exp_add, Real.exp_add]
      ring

/-- The last sum, in the slice `v`. -/
theorem sum_ends (cpu : Cpu) {n : Nat} (hn : 0 < n) (hn' : n ≤ 2 ^ 10) {f : Nat → F} {Y : Nat → ℝ} {ε : ℝ} (hε : ε ≤ 1 / 2)
    (hf : ∀ i < n, Rel (f i).w (Real.exp (Y i)) ε) (hY : ∀ i < n, |Y i| + Real.log n ≤ 80) {v : Asm.Sl} (hv : v.len = n)
    (hal : v.base % 4 = 0) (s : St F32.W) (hm : elems 4 s.mem v.base v.len = ((List.range n).map f).map F.w) :
    ∃ s' w, (∀ t, Call (frame1 4 (F32.alu divIeee) v) (sumFn cpu .f32) s t ↔ t = s') ∧ s'.out = some w ∧ s'.mem = s.mem ∧
      Rel w ((List.range n).map fun i => Real.exp (Y i)).sum (ε + n / 2 ^ 23) := by
  have hmem : ∀ i < n, s.mem (v.base + 4 * i) = (f i).w := by
    intro i hi
    have : (elems 4 s.mem v.base v.len)[i]? = (((List.range n).map f).map F.w)[i]? := by rw [hm]
    simpa [elems, hv, hi] using this
  have hlog : 0 ≤ Real.log n := Real.log_natCast_nonneg n
  have hlse := lse_bounds hn (f := Y) (C := 80 - Real.log n) (fun i hi => by linarith [hY i hi])
  have hpos := Crf.exp_sum_pos hn Y
  have hTle : ((List.range n).map fun i => Real.exp (Y i)).sum ≤ 2 ^ 122 := by
    have h1 : Real.log ((List.range n).map fun i => Real.exp (Y i)).sum ≤ 84 := by linarith [(abs_le.mp hlse).2]
    rw [Real.log_le_iff_le_exp hpos] at h1
    exact h1.trans exp_84
  have he3 : Real.exp ε ≤ 3 := (Real.exp_le_exp.mpr (by linarith : ε ≤ 1)).trans exp_one_lt.le
  have he3' : 1 / 3 ≤ Real.exp (-ε) := exp_neg_one_gt.le.trans (Real.exp_le_exp.mpr (by linarith))
  have hlo : Real.exp (-ε) * ((List.range n).map fun i => Real.exp (Y i)).sum ≤
      ((List.range n).map fun i => val (f i).w).sum := by
    rw [← List.sum_map_mul_left]
    exact List.sum_le_sum fun i hi => (hf i (List.mem_range.mp hi)).2.1
  have hhi : ((List.range n).map fun i => val (f i).w).sum ≤
      Real.exp ε * ((List.range n).map fun i => Real.exp (Y i)).sum := by
    rw [← List.sum_map_mul_left]
    exact List.sum_le_sum fun i hi => (hf i (List.mem_range.mp hi)).2.2
  have hsum : ((List.range v.len).map fun i => val (s.mem (v.base + 4 * i))).sum = ((List.range n).map fun i => val (f i).w).sum := by
    rw [hv]
    congr 1
    exact List.map_congr_left fun i hi => by rw [hmem i (List.mem_range.mp hi)]
  obtain ⟨s', w, h1, h2, h3, h4, h5⟩ := sum_pos divIeee cpu hal s (by rw [hv]; exact hn'.trans (by norm_num)) (hv ▸ hn)
    (fun i hi => by
      rw [hv] at hi
      rw [hmem i hi]
      refine ⟨(hf i hi).1, le_trans ?_ (hf i hi).2.1⟩
      have h6 := exp_neg_84.trans (Real.exp_le_exp.mpr (show -84 ≤ Y i by linarith [(abs_le.mp (le_refl |Y i|)).1, hY i hi]))
      have h7 : 1 / 3 * Real.exp (Y i) ≤ Real.exp (-ε) * Real.exp (Y i) := mul_le_mul_of_nonneg_right he3' (Real.exp_pos _).le
      have h8 : (2 : ℝ) ^ (-122 : Int) = 8 * (2 : ℝ) ^ (-125 : Int) := by norm_num
      have h9 : (0 : ℝ) < (2 : ℝ) ^ (-125 : Int) := by positivity
      rw [h8] at h6
      linarith)
    (by
      rw [hsum]
      refine hhi.trans ?_
      have := mul_le_mul_of_nonneg_right he3 hpos.le
      have h6 : (2 : ℝ) ^ 124 = 4 * 2 ^ 122 := by norm_num
      rw [h6]
      linarith)
  rw [hsum, hv] at h5
  have hS0 : 0 ≤ ((List.range n).map fun i => val (f i).w).sum := (mul_nonneg (Real.exp_pos _).le hpos.le).trans hlo
  refine ⟨s', w, h1, h2, h3, ?_⟩
  have hnn : (n : ℝ) / 2 ^ 24 ≤ 1 / 2 := by
    have : (n : ℝ) ≤ 2 ^ 10 := by exact_mod_cast hn'
    linarith
  have := rel_of_near (η := n / 2 ^ 24) h4 (by positivity) hnn hS0
    (h5.trans (by rw [mul_comm]; exact mul_le_mul_of_nonneg_left (growth_n hn hn') hS0)) hlo hhi
  rw [show (n : ℝ) / 2 ^ 23 = 2 * (n / 2 ^ 24) by ring]
  exact this

/-- **C85: the CRF loss on float32.** With up to 1024 positions and labels, and scores up to `M` such that
`(positions + 1) (2 M + log labels)` is at most 80, `NegativeLogLoss` is a finite number, and within `tol` of the negative
logarithm of the probability of the target; on every machine, wherever the vector of the last sum lies.

Missing: longer sentences and greater scores, for which the claim is false (`loss_overflows`). -/
theorem loss_near_partial (cpu : Cpu) {exp log : F32.W → F32.W} (hs : Scalars exp log) {n : Nat} (hn : 0 < n) (hn' : n ≤ 2 ^ 10) {M : ℝ}
    (hM : 0 ≤ M) {tr : Dense F} {xs : List (Dense F)} (h : Fit n tr xs) (hb : Upto M n tr xs) (hne : xs ≠ [])
    (hlen : xs.length ≤ 2 ^ 10) (hbig : (xs.length + 1 : ℝ) * (2 * M + Real.log n) ≤ 80)
    {ys : List Nat} (hy : ys ∈ labelings n xs.length) {v : Asm.Sl} (hv : v.len = n) (hal : v.base % 4 = 0) :
    ∃ ends, forward (lift exp) (lift log) n tr xs = some ends ∧ ends.length = n ∧
      ∀ s : St F32.W, elems 4 s.mem v.base v.len = ends.map F.w →
        ∃ t l, (∀ t' l', Runs cpu exp log n tr xs ys v s t' l' ↔ t' = t ∧ l' = l) ∧ t.mem = s.mem ∧ F32.Finite l.w ∧
          |val l.w - loss n (tv tr) (xs.map ev) ys| ≤ tol xs.length n := by
  have hlog : 0 ≤ Real.log n := Real.log_natCast_nonneg n
  have hL : (0 : ℝ) ≤ xs.length := Nat.cast_nonneg _
  have hLle : (xs.length : ℝ) ≤ 2 ^ 10 := by exact_mod_cast hlen
  have hnle : (n : ℝ) ≤ 2 ^ 10 := by exact_mod_cast hn'
  have hn0 : (0 : ℝ) ≤ n := Nat.cast_nonneg n
  obtain ⟨g, hg, hgb, hga⟩ := goldScore_near hM h hb hne hlen (by nlinarith) hy
  obtain ⟨f, Y, hfw, hfr, hY, hsum⟩ := forward_near hs hn hn' hM h hb hne hlen hbig
  refine ⟨_, hfw, by simp, fun s hm => ?_⟩
  have hδ : δ n ≤ 5 / 2 ^ 15 := by unfold δ; linarith
  have hδ0 : 0 ≤ δ n := by unfold δ; positivity
  have hkε : (xs.length : ℝ) * δ n ≤ 1 / 4 := by
    calc (xs.length : ℝ) * δ n ≤ 2 ^ 10 * (5 / 2 ^ 15) := mul_le_mul hLle hδ hδ0 (by positivity)
      _ ≤ 1 / 4 := by norm_num
  obtain ⟨s', w, h1, h2, h3, h4⟩ := sum_ends cpu hn hn' (by linarith) hfr hY hv hal s hm
  have hpos := Crf.exp_sum_pos hn Y
  have hlse := lse_bounds hn (f := Y) (C := 80 - Real.log n) (fun i hi => by linarith [hY i hi])
  have hlog80 : |Real.log ((List.range n).map fun i => Real.exp (Y i)).sum| ≤ 80 := by linarith
  have hl := Rel.log hs h4 hpos (by linarith)
  rw [hsum] at hl hlog80 hpos
  refine ⟨s', ⟨log w⟩ - g, fun t' l' => ⟨?_, ?_⟩, h3, ?_⟩
  · rintro ⟨g', e', w', q1, q2, q3, q4, q5, q6⟩
    rw [hg] at q1; cases q1
    obtain rfl := (h1 t').mp q4
    rw [h2] at q5; cases q5
    exact ⟨rfl, q6⟩
  · rintro ⟨rfl, rfl⟩
    exact ⟨g, _, w, hg, hfw, hm, (h1 _).mpr rfl, h2, rfl⟩
  · have hloss : loss n (tv tr) (xs.map ev) ys =
        Real.log ((labelings n xs.length).map fun zs => Real.exp (score (tv tr) (xs.map ev) zs)).sum +
          -score (tv tr) (xs.map ev) ys := by
      unfold loss
      rw [List.length_map, Real.log_div (Real.exp_pos _).ne' hpos.ne', Real.log_exp]
      ring
    have hgn : Approx (flip g.w) (-score (tv tr) (xs.map ev) ys) (xs.length / 2 ^ 16 + 81 / 2 ^ 24) := by
      refine ⟨flip_finite hga.1, ?_⟩
      rw [flip_val, ← neg_add', abs_neg, ← sub_eq_add_neg]
      exact hga.2
    have hfin := Approx.add (B := 160) (E := tol xs.length n) hl hgn
      ((abs_add_le _ _).trans (by rw [abs_neg]; linarith)) (by
        unfold tol δ
        norm_num
        nlinarith [mul_nonneg hL hn0]) (by norm_num; linarith)
    rw [hloss]
    exact hfin

end Verif.Crf32
