import Verif.Props.Att32
import Verif.Spec.Head32

set_option autoImplicit false
set_option linter.unusedSimpArgs false

/-!
# C92: an attention head of float32 on amd64, with its cache
-/

namespace Verif.Head32
open Verif.F32 Verif.Asm Verif.Spec Verif.Spec.Kernels Verif.Net32 Verif.Spec.Net32 Verif.Rec32 Verif.Spec.Rec32 Verif.Att32 Verif.Spec.Att32
  Verif.Spec.Head32

/-! ### Exact attention under small changes -/

theorem attend_move {n d : Nat} {ok : Nat → Prop} [DecidablePred ok] {c Λ eq ek mq mv ev : ℝ} {K K' V V' : Nat → Nat → ℝ} {q q' : Nat → ℝ}
    (hne : ∃ k < n, ok k) (hK : ∀ j < n, ∑ k ∈ Finset.range d, |K j k| ≤ Λ) (he : ∀ j < n, ∀ k < d, |K j k - K' j k| ≤ ek)
    (hq : ∀ k < d, |q k - q' k| ≤ eq) (hm : ∀ k < d, |q' k| ≤ mq) (hq0 : 0 ≤ eq) (hm0 : 0 ≤ mq) {l : Nat}
    (hV : ∀ j < n, |V j l - V' j l| ≤ ev) (hV' : ∀ j < n, |V' j l| ≤ mv) :
    |attend n d ok c K V q l - attend n d ok c K' V' q' l| ≤ (Real.exp (2 * (|c| * (Λ * eq + d * ek * mq))) - 1) * mv + ev := by
  have hs : ∀ j < n, ok j → |score d c K q j - score d c K' q' j| ≤ |c| * (Λ * eq + d * ek * mq) := by
    intro j hj _
    unfold score
    rw [← mul_sub, abs_mul]
    refine mul_le_mul_of_nonneg_left ?_ (abs_nonneg _)
    have e : ∑ k ∈ Finset.range d, K j k * q k - ∑ k ∈ Finset.range d, K' j k * q' k =
        ∑ k ∈ Finset.range d, K j k * (q k - q' k) + ∑ k ∈ Finset.range d, (K j k - K' j k) * q' k := by
      rw [← Finset.sum_sub_distrib, ← Finset.sum_add_distrib]
      exact Finset.sum_congr rfl fun k _ => by ring
    rw [e]
    refine (abs_add_le _ _).trans (add_le_add (sum_dev (hK j hj) hq0 hq) (sum_dev ?_ hm0 hm))
    refine (Finset.sum_le_sum fun k hk => he j hj k (Finset.mem_range.mp hk)).trans ?_
    rw [Finset.sum_const, Finset.card_range, nsmul_eq_mul]
  set S := |c| * (Λ * eq + d * ek * mq)
  have e : attend n d ok c K V q l - attend n d ok c K' V' q' l =
      ∑ j ∈ Finset.range n, (share n ok (score d c K q) j - share n ok (score d c K' q') j) * V' j l +
      ∑ j ∈ Finset.range n, share n ok (score d c K q) j * (V j l - V' j l) := by
    unfold attend
    rw [← Finset.sum_sub_distrib, ← Finset.sum_add_distrib]
    exact Finset.sum_congr rfl fun k _ => by ring
  rw [e]
  obtain ⟨k₀, hk₀, -⟩ := id hne
  have hmv : 0 ≤ mv := (abs_nonneg _).trans (hV' k₀ hk₀)
  have hev : 0 ≤ ev := (abs_nonneg _).trans (hV k₀ hk₀)
  refine (abs_add_le _ _).trans (add_le_add (sum_dev ?_ hmv hV') ?_)
  · refine (Finset.sum_le_sum fun j hj => share_move hne hs (Finset.mem_range.mp hj)).trans ?_
    rw [← Finset.mul_sum, share_sum hne, mul_one]
  · refine (sum_dev (Λ := 1) ?_ hev hV).trans (by rw [one_mul])
    refine le_of_eq ?_
    rw [← share_sum (s := score d c K q) hne]
    exact Finset.sum_congr rfl fun j _ => abs_of_nonneg (share_nonneg j)

/-- Only the positions that are seen matter. -/
theorem attend_cut {n m d : Nat} {ok ok' : Nat → Prop} [DecidablePred ok] [DecidablePred ok'] {c : ℝ} {K V : Nat → Nat → ℝ} {q : Nat → ℝ} {l : Nat}
    (hnm : n ≤ m) (h : ∀ j < n, ok j ↔ ok' j) (hcut : ∀ j, n ≤ j → j < m → ¬ ok' j) :
    attend n d ok c K V q l = attend m d ok' c K V q l := by
  have hsum : ∀ f : Nat → ℝ, ∑ k ∈ Finset.range n, (if ok k then f k else 0) = ∑ k ∈ Finset.range m, if ok' k then f k else 0 := by
    intro f
    rw [← Finset.sum_subset (Finset.range_subset_range.mpr hnm) fun k hk hk' => ?_]
    · exact Finset.sum_congr rfl fun k hk => by simp only [h k (Finset.mem_range.mp hk)]
    · rw [if_neg (hcut k (by simpa using hk') (Finset.mem_range.mp hk))]
  unfold attend share
  rw [hsum]
  have := hsum fun j => Real.exp (score d c K q j) / (∑ k ∈ Finset.range m, if ok' k then Real.exp (score d c K q k) else 0) * V j l
  refine Eq.trans ?_ (this.trans ?_)
  · exact Finset.sum_congr rfl fun j _ => by split <;> simp
  · exact Finset.sum_congr rfl fun j _ => by split <;> simp

/-! ### The linear layers -/

variable {M : Machine} {H : Head} {N : Nat} {X : ℝ}

theorem mag_nonneg {L : Lin} (hX : 0 ≤ X) : 0 ≤ mag L X :=
  add_nonneg (mul_nonneg (largest_nonneg _ _) hX) (largest_nonneg _ _)

theorem linErr_nonneg {L : Lin} (hX : 0 ≤ X) : 0 ≤ linErr L X := by
  have h1 : 0 ≤ top L.rows L.cols L.w L.b X := top_nonneg hX
  have h2 := dotErr_nonneg (n := L.cols) (largest_nonneg L.rows fun i => ∑ k ∈ Finset.range L.cols, |at2 L.cols L.w i k|) hX
  exact add_nonneg h2 (by positivity)

/-- A vector of words near the layer applied to `x`. -/
def Near (L : Lin) (X : ℝ) (x y : List F32.W) : Prop := Close L.rows y (lin L (vals x)) (mag L X) (linErr L X)

theorem linear1 {L : Lin} (hX : 0 ≤ X) (hL : LinFits L X) {x : List F32.W} (hx : Within L.cols x X) :
    (∃ y, Affine M.cpu L.rows L.cols L.w L.b x y) ∧ ∀ y, Affine M.cpu L.rows L.cols L.w L.b x y → Near L X x y := by
  have hc : Close L.cols x (vals x) X 0 := ⟨hx.1, fun i hi => ⟨(hx.2 i hi).1, by simp [vals], (hx.2 i hi).2⟩⟩
  have := lin_ok M.cpu hX le_rfl hL.c20 hL.w hL.b hL.wv hL.bv (by rw [add_zero]; exact hL.x50) (by rw [add_zero]; exact hL.top) hc
  rw [mul_zero, zero_add, add_zero] at this
  exact this

theorem linear_ok {L : Lin} (hX : 0 ≤ X) (hL : LinFits L X) : ∀ xs : List (List F32.W), (∀ x ∈ xs, Within L.cols x X) →
    (∃ ys, Linear M.cpu L xs ys) ∧ ∀ ys, Linear M.cpu L xs ys → ys.length = xs.length ∧ ∀ (i : Nat) x y, xs[i]? = some x → ys[i]? = some y → Near L X x y := by
  intro xs
  induction xs with
  | nil =>
    intro _
    refine ⟨⟨[], rfl⟩, fun ys h => ?_⟩
    obtain rfl : ys = [] := h
    exact ⟨rfl, fun i x y h => by simp at h⟩
  | cons x xs ih =>
    intro hx
    obtain ⟨⟨y, hy⟩, hall⟩ := linear1 (M := M) hX hL (hx x (by simp))
    obtain ⟨⟨r, hr⟩, hrest⟩ := ih fun x h => hx x (by simp [h])
    refine ⟨⟨y :: r, y, r, hy, hr, rfl⟩, ?_⟩
    rintro ys ⟨y', r', hy', hr', rfl⟩
    obtain ⟨g1, g2⟩ := hrest r' hr'
    refine ⟨by simp [g1], fun i p u hp hu => ?_⟩
    cases i with
    | zero =>
      simp only [List.getElem?_cons_zero, Option.some.injEq] at hp hu
      subst hp hu
      exact hall _ hy'
    | succ i => exact g2 i p u (by simpa using hp) (by simpa using hu)

/-! ### Rows one after the other -/

theorem rows_length {d : Nat} : ∀ {l : List (List F32.W)}, (∀ r ∈ l, r.length = d) → l.flatten.length = l.length * d
  | [], _ => by simp
  | r :: l, h => by
    have := rows_length (l := l) fun r hr => h r (by simp [hr])
    simp only [List.flatten_cons, List.length_append, List.length_cons, h r (by simp), this]
    rw [Nat.succ_mul]; omega

theorem rows_get {d k : Nat} (hk : k < d) : ∀ {l : List (List F32.W)} {j : Nat} {r : List F32.W}, (∀ r ∈ l, r.length = d) → l[j]? = some r →
    l.flatten.getD (j * d + k) 0 = r.getD k 0
  | [], _, _, _, h => by simp at h
  | r' :: l, 0, r, hl, h => by
    obtain rfl : r' = r := by simpa using h
    have := hl r' (by simp)
    rw [List.flatten_cons, Nat.zero_mul, Nat.zero_add, List.getD_append _ _ _ _ (by omega)]
  | r' :: l, j + 1, r, hl, h => by
    have h1 := hl r' (by simp)
    have ih := rows_get hk (l := l) (j := j) (r := r) (fun r hr => hl r (by simp [hr])) (by simpa using h)
    rw [List.flatten_cons, List.getD_append_right _ _ _ _ (by rw [h1, Nat.succ_mul]; omega), h1,
      show (j + 1) * d + k - d = j * d + k by rw [Nat.succ_mul]; omega]
    exact ih

/-- The matrix `m` has a row near the layer applied to each of the vectors `ts`. -/
def Rows (L : Lin) (X : ℝ) (ts : List (List F32.W)) (m : List F32.W) : Prop :=
  m.length = ts.length * L.rows ∧ ∀ (j : Nat) x, ts[j]? = some x → ∀ k < L.rows, F32.Finite (m.getD (j * L.rows + k) 0) ∧
    |val (m.getD (j * L.rows + k) 0) - lin L (vals x) k| ≤ linErr L X ∧ |lin L (vals x) k| ≤ mag L X

theorem rows_append {L : Lin} {ts xs ys : List (List F32.W)} {m : List F32.W} (h : Rows L X ts m) (hl : ys.length = xs.length)
    (hy : ∀ (i : Nat) x y, xs[i]? = some x → ys[i]? = some y → Near L X x y) : Rows L X (ts ++ xs) (m ++ ys.flatten) := by
  have hr : ∀ r ∈ ys, r.length = L.rows := by
    intro r hr
    obtain ⟨i, hi⟩ := List.mem_iff_getElem?.mp hr
    obtain ⟨hi', -⟩ := List.getElem?_eq_some_iff.mp hi
    exact (hy i _ r (List.getElem?_eq_getElem (by omega)) hi).1
  refine ⟨?_, fun j x hj k hk => ?_⟩
  · rw [List.length_append, List.length_append, h.1, rows_length hr, hl, Nat.add_mul]
  · by_cases hlt : j < ts.length
    · rw [List.getElem?_append_left hlt] at hj
      have : j * L.rows + k < m.length := by
        rw [h.1]
        calc j * L.rows + k < (j + 1) * L.rows := by rw [Nat.succ_mul]; omega
          _ ≤ ts.length * L.rows := Nat.mul_le_mul_right _ hlt
      rw [List.getD_append _ _ _ _ this]
      exact h.2 j x hj k hk
    · rw [List.getElem?_append_right (by omega)] at hj
      obtain ⟨hi', -⟩ := List.getElem?_eq_some_iff.mp hj
      have hys : ys[j - ts.length]? = some (ys[j - ts.length]'(by omega)) := List.getElem?_eq_getElem _
      have hidx : j * L.rows + k = m.length + ((j - ts.length) * L.rows + k) := by
        rw [h.1]
        have : j * L.rows = ts.length * L.rows + (j - ts.length) * L.rows := by rw [← Nat.add_mul]; congr 1; omega
        omega
      rw [hidx, List.getD_append_right _ _ _ _ (by omega), Nat.add_sub_cancel_left, rows_get hk hr hys]
      exact (hy _ _ _ hj hys).2 k hk

theorem rows_nil {L : Lin} : Rows L X [] [] := ⟨by simp, fun j x h => by simp at h⟩

end Verif.Head32
