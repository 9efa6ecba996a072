import Verif.Lemmas.Att32

set_option autoImplicit false
set_option linter.unusedSimpArgs false

/-!
# C91: scaled dot-product attention of float32 on amd64
-/

namespace Verif.Att32
open Verif.F32 Verif.Asm Verif.Spec Verif.Spec.Kernels Verif.Net32 Verif.Spec.Net32 Verif.Rec32 Verif.Spec.Rec32 Verif.Spec.Att32

/-! ### The softmax of real numbers -/

section Real
variable {n : Nat} {ok : Nat → Prop} [DecidablePred ok] {s s' : Nat → ℝ} {E : ℝ}

theorem denom_pos (hne : ∃ k < n, ok k) (s : Nat → ℝ) : 0 < ∑ k ∈ Finset.range n, if ok k then Real.exp (s k) else 0 := by
  obtain ⟨k, hk, hok⟩ := hne
  refine Finset.sum_pos' (fun j _ => by split <;> positivity) ⟨k, Finset.mem_range.mpr hk, ?_⟩
  rw [if_pos hok]; exact Real.exp_pos _

theorem share_nonneg (j : Nat) : 0 ≤ share n ok s j := by
  unfold share
  refine div_nonneg (by split <;> positivity) (Finset.sum_nonneg fun k _ => by split <;> positivity)

theorem share_sum (hne : ∃ k < n, ok k) : ∑ j ∈ Finset.range n, share n ok s j = 1 := by
  unfold share
  rw [← Finset.sum_div, div_self (denom_pos hne s).ne']

theorem share_le (hne : ∃ k < n, ok k) (h : ∀ k < n, ok k → |s k - s' k| ≤ E) {j : Nat} (hj : j < n) :
    share n ok s j ≤ Real.exp (2 * E) * share n ok s' j := by
  have hn : ∀ k < n, (if ok k then Real.exp (s k) else 0) ≤ Real.exp E * (if ok k then Real.exp (s' k) else 0) := by
    intro k hk
    split
    · rename_i hok
      rw [← Real.exp_add]
      exact Real.exp_le_exp.mpr (by linarith [(abs_le.mp (h k hk hok)).2])
    · simp
  have hn' : ∀ k < n, (if ok k then Real.exp (s' k) else 0) ≤ Real.exp E * (if ok k then Real.exp (s k) else 0) := by
    intro k hk
    split
    · rename_i hok
      rw [← Real.exp_add]
      exact Real.exp_le_exp.mpr (by linarith [(abs_le.mp (h k hk hok)).1])
    · simp
  have hd : (∑ k ∈ Finset.range n, if ok k then Real.exp (s' k) else 0) ≤ Real.exp E * ∑ k ∈ Finset.range n, if ok k then Real.exp (s k) else 0 := by
    rw [Finset.mul_sum]
    exact Finset.sum_le_sum fun k hk => hn' k (Finset.mem_range.mp hk)
  have p := denom_pos hne s
  have p' := denom_pos hne s'
  unfold share
  rw [← mul_div_assoc, div_le_div_iff₀ p p']
  have hnum : 0 ≤ if ok j then Real.exp (s' j) else 0 := by split <;> positivity
  calc _ ≤ (Real.exp E * (if ok j then Real.exp (s' j) else 0)) * (Real.exp E * ∑ k ∈ Finset.range n, if ok k then Real.exp (s k) else 0) :=
        mul_le_mul (hn j hj) hd p'.le (by positivity)
    _ = _ := by rw [show 2 * E = E + E by ring, Real.exp_add]; ring

theorem share_move (hne : ∃ k < n, ok k) (h : ∀ k < n, ok k → |s k - s' k| ≤ E) {j : Nat} (hj : j < n) :
    |share n ok s j - share n ok s' j| ≤ (Real.exp (2 * E) - 1) * share n ok s' j := by
  have h1 := share_le hne h hj
  have h2 := share_le (s := s') (s' := s) hne (fun k hk hok => by rw [abs_sub_comm]; exact h k hk hok) hj
  have h0 : 0 ≤ share n ok s' j := share_nonneg j
  have h0' : 0 ≤ share n ok s j := share_nonneg j
  have hE : 1 ≤ Real.exp (2 * E) := by
    obtain ⟨k, hk, hok⟩ := hne
    exact Real.one_le_exp (by linarith [(abs_nonneg _).trans (h k hk hok)])
  have h3 : share n ok s' j ≤ Real.exp (2 * E) * share n ok s' j := by nlinarith
  refine abs_le.mpr ⟨?_, by linarith⟩
  -- `s' ≤ e s` and `(e - 1)² ≥ 0`
  by_contra hc
  push Not at hc
  nlinarith [mul_nonneg (sub_nonneg.mpr hE) (sub_nonneg.mpr hE)]

end Real

/-! ### Words -/

variable {M : Machine} {A : Mem} {Λ Q B : ℝ}

theorem sees_zero (masked : Bool) (i : Nat) (hn : 0 < A.n) : ∃ k < A.n, sees masked i k := ⟨0, hn, fun _ => Nat.zero_le _⟩

theorem dotErr_mono {n : Nat} {Λ Λ' Q : ℝ} (h : Λ ≤ Λ') (hQ : 0 ≤ Q) : dotErr n Λ Q ≤ dotErr n Λ' Q := by
  unfold dotErr
  have : 0 ≤ Q + 1 / 2 ^ 63 := by positivity
  gcongr

theorem norm_le (hA : Fits A Λ Q B) : Net32.norm A.n A.d A.k ≤ Λ := by
  have h0 : 0 ≤ Λ := (Finset.sum_nonneg fun _ _ => abs_nonneg _).trans (hA.row 0 hA.pos)
  unfold Net32.norm largest
  have : ∀ (l : List Nat), (∀ i ∈ l, i < A.n) → (l.map fun i => ∑ k ∈ Finset.range A.d, |at2 A.d A.k i k|).foldr max 0 ≤ Λ := by
    intro l
    induction l with
    | nil => intro _; exact h0
    | cons a l ih => exact fun h => max_le (hA.row a (h a (by simp))) (ih fun i hi => h i (by simp [hi]))
  exact this _ fun i hi => List.mem_range.mp hi

/-- The scores, before the mask. -/
theorem score_ok (hA : Fits A Λ Q B) {q : List F32.W} (hq : Within A.d q Q) :
    (∃ kq s, MulVec M.cpu A.d A.k q 0 A.n kq ∧ Scale M.cpu A.c kq s) ∧
    ∀ kq s, MulVec M.cpu A.d A.k q 0 A.n kq → Scale M.cpu A.c kq s → s.length = A.n ∧ ∀ j < A.n, F32.Finite (s.getD j 0) ∧
      |val (s.getD j 0) - score A.d (val A.c) (at2 A.d A.k) (vals q) j| ≤ scoreErr A.d (val A.c) Λ Q := by
  obtain ⟨⟨kq, hkq⟩, hall⟩ := prod_ok M.cpu (rows := A.n) hA.q0 hA.q50 hA.d20 hA.k hA.kv hq
  refine ⟨⟨kq, _, hkq, (scale_iff _ _ _ _).mpr rfl⟩, ?_⟩
  intro kq s hkq hs
  obtain ⟨h1, h2⟩ := hall kq hkq
  obtain rfl := (scale_iff _ _ _ _).mp hs
  refine ⟨by simp [h1], fun j hj => ?_⟩
  rw [getD_map (by rw [h1]; exact hj)]
  obtain ⟨f, e⟩ := h2 j hj
  have hΛ := hA.row j hj
  replace e := e.trans (dotErr_mono (n := A.d) (norm_le hA) hA.q0)
  have hS := sum_dev (u := vals q) hΛ hA.q0 (fun k hk => (hq.2 k hk).2)
  have hT : |val (kq.getD j 0)| ≤ dotTop A.d Λ Q := by
    have := abs_sub_abs_le_abs_sub (val (kq.getD j 0)) (∑ k ∈ Finset.range A.d, at2 A.d A.k j k * vals q k)
    unfold dotTop; linarith
  have hP : |val (kq.getD j 0) * val A.c| ≤ |val A.c| * dotTop A.d Λ Q := by
    rw [abs_mul, mul_comm]; exact mul_le_mul_of_nonneg_left hT (abs_nonneg _)
  have ff := mul_fin f hA.cv (hP.trans hA.top)
  refine ⟨ff, ?_⟩
  have e2 := mul_near_fin ff
  have hs : slack (val (kq.getD j 0) * val A.c) ≤
      (|val A.c| * dotTop A.d Λ Q + (2 : ℝ) ^ (-126 : Int)) / 2 ^ 24 := by
    refine slack_le ?_ ?_
    · have : (0 : ℝ) < (2 : ℝ) ^ (-126 : Int) := by positivity
      linarith
    · linarith [(abs_nonneg _).trans hP]
  have e3 : |val (kq.getD j 0) * val A.c - score A.d (val A.c) (at2 A.d A.k) (vals q) j| ≤
      |val A.c| * dotErr A.d Λ Q := by
    unfold score
    rw [mul_comm (val (kq.getD j 0)), ← mul_sub, abs_mul]
    exact mul_le_mul_of_nonneg_left e (abs_nonneg _)
  have := abs_sub_le (val (mulIeee (kq.getD j 0) A.c)) (val (kq.getD j 0) * val A.c) (score A.d (val A.c) (at2 A.d A.k) (vals q) j)
  unfold scoreErr
  linarith

/-- The words that the softmax is given. -/
def Masked (A : Mem) (Λ Q : ℝ) (masked : Bool) (i : Nat) (q x : List F32.W) : Prop :=
  x.length = A.n ∧ ∀ j < A.n, (sees masked i j → F32.Finite (x.getD j 0) ∧
    |val (x.getD j 0) - score A.d (val A.c) (at2 A.d A.k) (vals q) j| ≤ scoreErr A.d (val A.c) Λ Q) ∧ (¬ sees masked i j → x.getD j 0 = negInf)

theorem mask_ok {masked : Bool} {i : Nat} {q s : List F32.W} (hs : s.length = A.n) (hv : ∀ j < A.n, F32.Finite (s.getD j 0) ∧
      |val (s.getD j 0) - score A.d (val A.c) (at2 A.d A.k) (vals q) j| ≤ scoreErr A.d (val A.c) Λ Q) :
    (∃ x, AddMask M.cpu A.n (if masked then some i else none) s x) ∧
    ∀ x, AddMask M.cpu A.n (if masked then some i else none) s x → Masked A Λ Q masked i q x := by
  cases masked with
  | false =>
    refine ⟨⟨s, rfl⟩, fun x hx => ?_⟩
    obtain rfl : x = s := hx
    exact ⟨hs, fun j hj => ⟨fun _ => hv j hj, fun h => absurd (fun h' => by simp at h') h⟩⟩
  | true =>
    have hml : (mask i A.n).length = A.n := by simp [mask]
    have hl : s.length = (mask i A.n).length := by rw [hs, hml]
    have hm : ∀ j < A.n, (mask i A.n).getD j 0 = if i + 1 ≤ j then negInf else 0 := fun j hj => by
      unfold mask
      rw [List.getD_eq_getElem _ _ (by simpa using hj)]
      simp
    refine ⟨⟨_, (addNew_iff M.cpu s (mask i A.n) _).mpr ⟨hl, rfl⟩⟩, fun x hx => ?_⟩
    obtain ⟨-, rfl⟩ := (addNew_iff M.cpu s (mask i A.n) x).mp hx
    refine ⟨by simp [hs, hml], fun j hj => ?_⟩
    rw [getD_zip (n := A.n) hs hml hj, hm j hj]
    obtain ⟨f, e⟩ := hv j hj
    constructor
    · intro hsee
      have hji : j ≤ i := hsee rfl
      rw [if_neg (by omega)]
      obtain ⟨g1, g2⟩ := add_zero_word f
      exact ⟨g1, by rw [g2]; exact e⟩
    · intro hns
      have : i + 1 ≤ j := by
        by_contra hc
        exact hns fun _ => by omega
      rw [if_pos this]
      exact add_negInf f

/-- The weights. -/
theorem weight_ok (hM : Softmax32.GoodExp M.lib.exp) (hA : Fits A Λ Q B) {masked : Bool} {i : Nat} {q x : List F32.W}
    (hx : Masked A Λ Q masked i q x) :
    (∃ w, Soft M x w) ∧ ∀ w, Soft M x w → w.length = A.n ∧ (∀ j < A.n, F32.Finite (w.getD j 0) ∧ 0 ≤ val (w.getD j 0) ∧
        (¬ sees masked i j → val (w.getD j 0) = 0)) ∧
      ∑ j ∈ Finset.range A.n, |val (w.getD j 0) - share A.n (sees masked i) (score A.d (val A.c) (at2 A.d A.k) (vals q)) j| ≤ weightErr A.n A.d (val A.c) Λ Q ∧
      ∑ j ∈ Finset.range A.n, |val (w.getD j 0)| ≤ 5 / 4 := by
  obtain ⟨hl, hv⟩ := hx
  have hne := sees_zero (A := A) masked i hA.pos
  have hsc : ∀ j < x.length, Score (x.getD j 0) := fun j hj => by
    rw [hl] at hj
    by_cases h : sees masked i j
    · exact .inl ((hv j hj).1 h).1
    · exact .inr ((hv j hj).2 h)
  obtain ⟨k, hk, hks⟩ := hne
  obtain ⟨h1, h2⟩ := soft_ok hM (x := x) (by rw [hl]; exact hA.n20) hsc ⟨k, by rw [hl]; exact hk, ((hv k hk).1 hks).1⟩
  have hne := sees_zero (A := A) masked i hA.pos
  refine ⟨h1, fun w hw => ?_⟩
  obtain ⟨g1, g2⟩ := h2 w hw
  rw [hl] at g1 g2
  have hwt : ∀ j < A.n, Softmax32.weight (x.getD j 0) = if sees masked i j then Real.exp (val (x.getD j 0)) else 0 := by
    intro j hj
    unfold Softmax32.weight
    by_cases h : sees masked i j
    · have hf := ((hv j hj).1 h).1
      rw [if_pos h, if_neg (fun e : x.getD j 0 = negInf => not_finite_inf.2 (by rw [← e]; exact hf))]
    · rw [if_neg h, if_pos ((hv j hj).2 h)]
  have hsm : ∀ j < A.n, Softmax32.softmax A.n (fun k => x.getD k 0) j = share A.n (sees masked i) (fun k => val (x.getD k 0)) j := by
    intro j hj
    unfold Softmax32.softmax share
    beta_reduce
    rw [hwt j hj]
    congr 1
    exact Finset.sum_congr rfl fun k hk => hwt k (Finset.mem_range.mp hk)
  have herr : ∀ k < A.n, sees masked i k → |val (x.getD k 0) - score A.d (val A.c) (at2 A.d A.k) (vals q) k| ≤ scoreErr A.d (val A.c) Λ Q :=
    fun k hk h => ((hv k hk).1 h).2
  have hs1 := share_sum (s := fun k => val (x.getD k 0)) hne
  have hs2 := share_sum (s := score A.d (val A.c) (at2 A.d A.k) (vals q)) hne
  refine ⟨g1, fun j hj => ⟨(g2 j hj).1, (g2 j hj).2.1, fun h => (g2 j hj).2.2.1 ((hv j hj).2 h)⟩, ?_, ?_⟩
  · have hterm : ∀ j ∈ Finset.range A.n,
        |val (w.getD j 0) - share A.n (sees masked i) (score A.d (val A.c) (at2 A.d A.k) (vals q)) j| ≤
        Softmax32.tol A.n * share A.n (sees masked i) (fun k => val (x.getD k 0)) j + (2 : ℝ) ^ (-124 : Int) +
          (Real.exp (2 * scoreErr A.d (val A.c) Λ Q) - 1) * share A.n (sees masked i) (score A.d (val A.c) (at2 A.d A.k) (vals q)) j := by
      intro j hj
      have hj := Finset.mem_range.mp hj
      have e1 := (g2 j hj).2.2.2
      rw [hsm j hj] at e1
      have e2 := share_move (s := fun k => val (x.getD k 0)) hne herr hj
      exact (abs_sub_le _ _ _).trans (add_le_add e1 e2)
    refine (Finset.sum_le_sum hterm).trans (le_of_eq ?_)
    rw [Finset.sum_add_distrib, Finset.sum_add_distrib, ← Finset.mul_sum, ← Finset.mul_sum, hs1, hs2, Finset.sum_const, Finset.card_range,
      nsmul_eq_mul]
    unfold weightErr
    ring
  · have hterm : ∀ j ∈ Finset.range A.n, |val (w.getD j 0)| ≤
        (1 + Softmax32.tol A.n) * share A.n (sees masked i) (fun k => val (x.getD k 0)) j + (2 : ℝ) ^ (-124 : Int) := by
      intro j hj
      have hj := Finset.mem_range.mp hj
      have e1 := (g2 j hj).2.2.2
      rw [hsm j hj] at e1
      rw [abs_of_nonneg (g2 j hj).2.1]
      linarith [(abs_le.mp e1).2]
    refine (Finset.sum_le_sum hterm).trans ?_
    rw [Finset.sum_add_distrib, ← Finset.mul_sum, hs1, Finset.sum_const, Finset.card_range, nsmul_eq_mul]
    have hn : (A.n : ℝ) ≤ 2 ^ 20 := by exact_mod_cast hA.n20
    unfold Softmax32.tol
    have i1 : (A.n : ℝ) / 2 ^ 23 ≤ 1 / 8 := by rw [div_le_iff₀ (by positivity)]; linarith
    have i2 : (A.n : ℝ) * (2 : ℝ) ^ (-124 : Int) ≤ 2 ^ 20 * (2 : ℝ) ^ (-124 : Int) := mul_le_mul_of_nonneg_right hn (by positivity)
    have i3 : (2 : ℝ) ^ 20 * (2 : ℝ) ^ (-124 : Int) ≤ 1 / 2 ^ 16 := by norm_num
    have i4 : (1 : ℝ) / 2 ^ 16 ≤ 1 / 100 := by norm_num
    linarith

/-- **C91: one query.** -/
theorem one_ok (hM : Softmax32.GoodExp M.lib.exp) (hA : Fits A Λ Q B) (masked : Bool) (i : Nat) {q : List F32.W} (hq : Within A.d q Q) :
    (∃ w z, One M A (if masked then some i else none) q w z) ∧ ∀ w z, One M A (if masked then some i else none) q w z →
      w.length = A.n ∧ (∀ j < A.n, F32.Finite (w.getD j 0) ∧ 0 ≤ val (w.getD j 0) ∧ (¬ sees masked i j → val (w.getD j 0) = 0)) ∧
      ∑ j ∈ Finset.range A.n, |val (w.getD j 0) - share A.n (sees masked i) (score A.d (val A.c) (at2 A.d A.k) (vals q)) j| ≤ weightErr A.n A.d (val A.c) Λ Q ∧
      z.length = A.vd ∧ ∀ l < A.vd, F32.Finite (z.getD l 0) ∧
        |val (z.getD l 0) - attend A.n A.d (sees masked i) (val A.c) (at2 A.d A.k) (at2 A.vd A.v) (vals q) l| ≤ attErr A.n A.d (val A.c) Λ Q B := by
  obtain ⟨⟨kq₀, s₀, hk₀, hs₀⟩, sall⟩ := score_ok (M := M) hA hq
  have hS := hA.b0
  have ht0 : (0 : ℝ) < (2 : ℝ) ^ (-126 : Int) := by positivity
  have mulT : ∀ w : List F32.W, w.length = A.n → (∀ j < A.n, F32.Finite (w.getD j 0)) →
      ∑ j ∈ Finset.range A.n, |val (w.getD j 0)| ≤ 5 / 4 →
      (∃ z, MulT A.n A.vd A.v w z) ∧ ∀ z, MulT A.n A.vd A.v w z → z.length = A.vd ∧ ∀ l < A.vd, F32.Finite (z.getD l 0) ∧
        |val (z.getD l 0) - ∑ j ∈ Finset.range A.n, val (w.getD j 0) * at2 A.vd A.v j l| ≤
          A.n * (5 * (B + (2 : ℝ) ^ (-126 : Int)) / 2 ^ 24) := by
    intro w hwl hwf hws
    have hz : ∀ l < A.vd, (List.replicate A.vd (0 : F32.W)).getD l 0 = 0 := fun l hl => by
      rw [List.getD_eq_getElem _ _ (by simpa using hl)]; simp
    have hsum : (w.map fun w => |val w|).sum ≤ 5 / 4 := by
      refine le_trans (le_of_eq ?_) hws
      rw [← hwl, sum_range_list]
      congr 1
      apply List.ext_getElem
      · simp
      · intro j h1 h2; simp at h1; simp [h1]
    have hn : (A.n : ℝ) ≤ 2 ^ 20 := by exact_mod_cast hA.n20
    have key := loop_ok hA.v (fun v hv => (hA.vv v hv).1) (B := B) (B' := B + (2 : ℝ) ^ (-126 : Int)) hS
      (by
        have h1 := hA.b120
        have h2 : (2 : ℝ) ^ (-126 : Int) ≤ 1 := by norm_num
        have h3 : (2 : ℝ) ^ 120 + 1 ≤ 2 ^ 121 := by norm_num
        linarith)
      (by linarith) (fun v hv => (hA.vv v hv).2) w 0 (List.replicate A.vd 0) (by rw [hwl]; omega)
      (fun v hv => by
        obtain ⟨j, hj, rfl⟩ := List.mem_iff_getElem.mp hv
        have := hwf j (hwl ▸ hj)
        rwa [List.getD_eq_getElem _ _ hj] at this)
      (by simp)
      (fun l hl => by
        rw [hz l hl]
        refine ⟨by unfold F32.Finite; decide, ?_⟩
        rw [val_zero, abs_zero, zero_add, hwl]
        have i1 := mul_le_mul_of_nonneg_right hsum hS
        have i2 : (A.n : ℝ) * (5 * (B + (2 : ℝ) ^ (-126 : Int)) / 2 ^ 24) ≤ 2 ^ 20 * (5 * (B + (2 : ℝ) ^ (-126 : Int)) / 2 ^ 24) :=
          mul_le_mul_of_nonneg_right hn (by positivity)
        have i3 : (2 : ℝ) ^ 20 * (5 * (B + (2 : ℝ) ^ (-126 : Int)) / 2 ^ 24) = 5 / 16 * (B + (2 : ℝ) ^ (-126 : Int)) := by ring
        linarith)
    rw [Nat.zero_mul] at key
    refine ⟨⟨key.1.choose, hwl, key.1.choose_spec⟩, fun z hz' => ?_⟩
    obtain ⟨k1, k2⟩ := key.2 z hz'.2
    refine ⟨k1, fun l hl => ⟨(k2 l hl).1, ?_⟩⟩
    have := (k2 l hl).2
    rw [hz l hl, val_zero, zero_add, hwl] at this
    simpa only [zero_add] using this
  constructor
  · obtain ⟨l1, l2⟩ := sall kq₀ s₀ hk₀ hs₀
    obtain ⟨⟨x, hx⟩, xall⟩ := mask_ok (M := M) (masked := masked) (i := i) l1 l2
    obtain ⟨⟨w, hw⟩, wall⟩ := weight_ok hM hA (xall x hx)
    obtain ⟨w1, w2, -, w4⟩ := wall w hw
    obtain ⟨z, hz⟩ := (mulT w w1 (fun j hj => (w2 j hj).1) w4).1
    exact ⟨w, z, hq.1, kq₀, s₀, x, hk₀, hs₀, hx, hw, hz⟩
  · rintro w z ⟨-, kq, s, x, hk, hs, hx, hw, hz⟩
    obtain ⟨l1, l2⟩ := sall kq s hk hs
    obtain ⟨w1, w2, w3, w4⟩ := (weight_ok hM hA ((mask_ok (M := M) (masked := masked) (i := i) l1 l2).2 x hx)).2 w hw
    obtain ⟨z1, z2⟩ := (mulT w w1 (fun j hj => (w2 j hj).1) w4).2 z hz
    refine ⟨w1, w2, w3, z1, fun l hl => ⟨(z2 l hl).1, ?_⟩⟩
    have e1 := (z2 l hl).2
    have e2 : |∑ j ∈ Finset.range A.n, val (w.getD j 0) * at2 A.vd A.v j l -
        attend A.n A.d (sees masked i) (val A.c) (at2 A.d A.k) (at2 A.vd A.v) (vals q) l| ≤ weightErr A.n A.d (val A.c) Λ Q * B := by
      unfold attend
      rw [← Finset.sum_sub_distrib]
      simp only [← sub_mul]
      refine sum_dev w3 hS fun j hj => ?_
      have hidx : j * A.vd + l < A.v.length := by
        rw [hA.v]
        calc j * A.vd + l < (j + 1) * A.vd := by rw [Nat.succ_mul]; omega
          _ ≤ A.n * A.vd := Nat.mul_le_mul_right _ hj
      unfold at2
      rw [List.getD_eq_getElem _ _ hidx]
      exact (hA.vv _ (List.getElem_mem hidx)).2
    have := abs_sub_le (val (z.getD l 0)) (∑ j ∈ Finset.range A.n, val (w.getD j 0) * at2 A.vd A.v j l)
      (attend A.n A.d (sees masked i) (val A.c) (at2 A.d A.k) (at2 A.vd A.v) (vals q) l)
    unfold attErr
    linarith

theorem queries_ok (hM : Softmax32.GoodExp M.lib.exp) (hA : Fits A Λ Q B) (masked : Bool) :
    ∀ (qs : List (List F32.W)) (i : Nat), (∀ q ∈ qs, Within A.d q Q) →
      (∃ out, Queries M A masked i qs out) ∧ ∀ out, Queries M A masked i qs out → out.length = qs.length ∧
        ∀ j q w z, qs[j]? = some q → out[j]? = some (w, z) → One M A (if masked then some (i + j) else none) q w z := by
  intro qs
  induction qs with
  | nil =>
    intro i _
    refine ⟨⟨[], rfl⟩, fun out h => ?_⟩
    obtain rfl : out = [] := h
    exact ⟨rfl, fun j q w z h => by simp at h⟩
  | cons q qs ih =>
    intro i hq
    obtain ⟨⟨w, z, h1⟩, -⟩ := one_ok hM hA masked i (hq q (by simp))
    obtain ⟨⟨rest, hr⟩, hall⟩ := ih (i + 1) fun q h => hq q (by simp [h])
    refine ⟨⟨(w, z) :: rest, w, z, rest, h1, hr, rfl⟩, ?_⟩
    rintro out ⟨w', z', rest', h1', hr', rfl⟩
    obtain ⟨g1, g2⟩ := hall rest' hr'
    refine ⟨by simp [g1], fun j p u v hj ho => ?_⟩
    cases j with
    | zero =>
      simp only [List.getElem?_cons_zero, Option.some.injEq, Prod.mk.injEq] at hj ho
      obtain ⟨rfl, rfl⟩ := ho
      subst hj
      simpa using h1'
    | succ j =>
      have := g2 j p u v (by simpa using hj) (by simpa using ho)
      rwa [show i + 1 + j = i + (j + 1) by omega] at this

/-- **C91.** With keys, values and queries in range, `ScaledDotProductAttention` ends; every query has `n` weights, finite, not negative, 0 where
the mask hides a position, together within `weightErr` of the exact ones; and a result of finite numbers within `attErr` of the attention of real
numbers.  The mask is there only if asked for and if there is more than one query. -/
theorem attention_close (hM : Softmax32.GoodExp M.lib.exp) (hA : Fits A Λ Q B) (useCausalMask : Bool) (qs : List (List F32.W))
    (hq : ∀ q ∈ qs, Within A.d q Q) :
    (∃ out, Attention M A useCausalMask qs out) ∧ ∀ out, Attention M A useCausalMask qs out → out.length = qs.length ∧
      ∀ i q w z, qs[i]? = some q → out[i]? = some (w, z) →
        let masked := useCausalMask && decide (1 < qs.length)
        w.length = A.n ∧ (∀ j < A.n, F32.Finite (w.getD j 0) ∧ 0 ≤ val (w.getD j 0) ∧ (¬ sees masked i j → val (w.getD j 0) = 0)) ∧
        ∑ j ∈ Finset.range A.n, |val (w.getD j 0) - share A.n (sees masked i) (score A.d (val A.c) (at2 A.d A.k) (vals q)) j| ≤ weightErr A.n A.d (val A.c) Λ Q ∧
        z.length = A.vd ∧ ∀ l < A.vd, F32.Finite (z.getD l 0) ∧
          |val (z.getD l 0) - attend A.n A.d (sees masked i) (val A.c) (at2 A.d A.k) (at2 A.vd A.v) (vals q) l| ≤ attErr A.n A.d (val A.c) Λ Q B := by
  obtain ⟨h1, h2⟩ := queries_ok hM hA (useCausalMask && decide (1 < qs.length)) qs 0 hq
  refine ⟨h1, fun out ho => ⟨(h2 out ho).1, fun i q w z hi hz => ?_⟩⟩
  have := (h2 out ho).2 i q w z hi hz
  rw [Nat.zero_add] at this
  exact (one_ok hM hA _ i (hq q (List.mem_iff_getElem?.mpr ⟨i, hi⟩))).2 w z this

end Verif.Att32
