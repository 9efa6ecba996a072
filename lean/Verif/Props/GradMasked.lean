import Verif.Model.MaskedSoftmax
import Verif.Props.GradMax
import Verif.Props.Attention

set_option autoImplicit false
set_option linter.unusedSimpArgs false

/-!
# The masked softmax (C22, C86)
-/

namespace Verif.GradFn
open Dense Attention
open scoped BigOperators

/-- The exponential of a score of query `i`, or nothing beyond position `i`. -/
noncomputable def seen (i : Nat) (x : ℝ) (j : Nat) : ℝ := if j ≤ i then Real.exp x else 0

theorem seen_nonneg (i : Nat) (x : ℝ) (j : Nat) : 0 ≤ seen i x j := by
  unfold seen; split
  · exact (Real.exp_pos _).le
  · exact le_rfl

/-- The masked softmax of a column. -/
noncomputable def maskedCol (i : Nat) (x : Dense ℝ) : Dense ℝ :=
  ⟨x.data.length, 1, (List.range x.data.length).map fun j =>
    seen i (x.val j) j / ∑ k ∈ Finset.range x.data.length, seen i (x.val k) k⟩

theorem list_sum_range' (f : Nat → ℝ) (n : Nat) : ((List.range n).map f).sum = ∑ k ∈ Finset.range n, f k := by
  induction n with
  | zero => rfl
  | succ n ih => rw [List.range_succ, List.map_append, List.sum_append, ih, Finset.sum_range_succ]; simp

theorem masked_eq (i : Nat) {x : Dense ℝ} (hx : x.WF) (hc : x.cols = 1) :
    masked i x = some (column ((List.range x.data.length).map fun j => if j ≤ i then ((x.val j : ℝ) : WithBot ℝ) else ⊥)) := by
  have hr : x.rows = x.data.length := by rw [hx, hc, Nat.mul_one]
  unfold masked
  rw [zipOp_of _ (by simp [column, makeCausalMask]) (by simp [column, hc])]
  simp only [zip2, column, hc, hr, Option.some.injEq, Dense.mk.injEq, List.length_map, List.length_range, true_and]
  refine List.ext_getElem (by simp [makeCausalMask]) fun j h1 h2 => ?_
  have hj : j < x.data.length := by simpa using h2
  simp only [List.getElem_zipWith, List.getElem_map, List.getElem_range, makeCausalMask]
  rw [val_of_lt _ hj]
  by_cases h : j ≤ i
  · rw [if_neg (by omega), if_pos h]
    exact add_zero _
  · rw [if_pos (by omega), if_neg h]
    exact WithBot.add_bot _

theorem softmaxMasked_eq (i : Nat) {x : Dense ℝ} (hx : x.WF) (hc : x.cols = 1) (hne : x.data ≠ []) :
    (softmaxMasked i).forward [x] = some (maskedCol i x) := by
  have hpos : 0 < x.data.length := List.length_pos_iff.mpr hne
  show (masked i x).bind _ = _
  rw [masked_eq i hx hc, Option.bind_some, softmaxBot_eq ⟨x.val 0, List.mem_map.mpr ⟨0, List.mem_range.mpr hpos, by simp⟩⟩]
  have hE : ∀ j, expBot Real.exp 0 (if j ≤ i then ((x.val j : ℝ) : WithBot ℝ) else ⊥) = seen i (x.val j) j := by
    intro j
    unfold seen
    split
    · show Real.exp (_ - 0) = _
      rw [sub_zero]
    · rfl
  simp only [List.map_map, Function.comp_def, hE, list_sum_range', maskedCol, column, List.length_map, List.length_range]

theorem seen_pos {i : Nat} (x : Nat → ℝ) {n : Nat} (hn : 0 < n) : 0 < ∑ k ∈ Finset.range n, seen i (x k) k :=
  Finset.sum_pos' (fun k _ => seen_nonneg i _ k) ⟨0, Finset.mem_range.mpr hn, by simp [seen, Real.exp_pos]⟩

/-- **C86.** The gradient of the masked softmax is right: masked scores get none. -/
theorem softmaxMasked_correct (i : Nat) {x : Dense ℝ} (hx : x.WF) (hc : x.cols = 1) (hne : x.data ≠ []) :
    Correct (softmaxMasked i) [x] := by
  intro y hy gy hgy
  set n := x.data.length with hn
  have hxr : x.rows = n := by rw [hn, hx, hc, Nat.mul_one]
  set S : Dense ℝ → ℝ := fun d => ∑ k ∈ Finset.range d.data.length, seen i (d.val k) k with hS
  set F : Dense ℝ → Dense ℝ := maskedCol i with hF
  have hfw : ∀ x', x.Like x' → (softmaxMasked i).forward [x'] = some (F x') := by
    intro x' h
    refine softmaxMasked_eq i h.wf (h.cols.trans hc) ?_
    intro h'; apply hne
    have := h.len hx
    rw [h'] at this
    exact List.eq_nil_of_length_eq_zero this.symm
  have hFl : ∀ x', x.Like x' → x.Like (F x') := fun x' h =>
    ⟨by simp [F, maskedCol, WF], by simp only [F, maskedCol]; rw [h.len hx, hxr], hc.symm⟩
  rw [hfw x (Like.refl hx)] at hy
  cases hy
  have hg : x.Like gy := (hFl x (Like.refl hx)).trans hgy
  have hgl : gy.data.length = n := hg.len hx
  have hFv : ∀ (d : Dense ℝ) (j : Nat), j < d.data.length → (F d).val j = seen i (d.val j) j / S d := by
    intro d j hj
    rw [val_of_lt _ (by simpa [F, maskedCol] using hj)]
    simp [F, maskedCol, S]
  have hSpos : 0 < S x := seen_pos _ (List.length_pos_iff.mpr hne)
  set jb : Dense ℝ := (zeros n n : Dense ℝ).apply fun row col _ =>
    if row = col then (F x).data.getD row 0 * (1 - (F x).data.getD row 0)
    else -((F x).data.getD row 0 * (F x).data.getD col 0) with hjb
  obtain ⟨j1, j2, j3, j4⟩ := apply_spec (zeros_WF n n) fun row col _ =>
    if row = col then (F x).data.getD row 0 * (1 - (F x).data.getD row 0)
    else -((F x).data.getD row 0 * (F x).data.getD col 0)
  rw [← hjb] at j1 j2 j3 j4
  have hjel : ∀ i < n, ∀ j < n, jb.el i j = (F x).val i * ((if i = j then 1 else 0) - (F x).val j) := by
    intro i hi j hj
    have hz := at2_el (zeros_WF n n) (i := i) (j := j) hi hj
    have := j4 i j
    rw [hz, Option.map_some] at this
    rw [el, this]
    simp only [Option.getD_some]
    by_cases h : i = j
    · subst h; simp only [if_true]; rfl
    · simp only [h, if_false]; rw [zero_sub, mul_neg]; rfl
  obtain ⟨m1, m2, m3, m4, m5⟩ := mulOf_spec j1 hg.wf (by rw [j3, hg.rows, hxr]; rfl)
  have hgxl : x.Like (mulOf jb gy) := ⟨m2, by rw [m3, j2, hxr]; rfl, by rw [m4, hg.cols]⟩
  have hgxv : ∀ i < n, (mulOf jb gy).val i =
      ∑ k ∈ Finset.range n, (F x).val i * ((if i = k then 1 else 0) - (F x).val k) * gy.val k := by
    intro i hi
    have h1 := m5 i (by rw [j2]; exact hi) 0 (by rw [hg.cols, hc]; omega)
    rw [el_val _ (by rw [m3, j2]; exact hi) (by rw [m4, hg.cols, hc]; omega), m4, hg.cols, hc] at h1
    simp only [Nat.mul_one, Nat.add_zero] at h1
    rw [h1, j3]
    refine Finset.sum_congr rfl fun k hk => ?_
    have hk : k < n := Finset.mem_range.mp hk
    rw [hjel i hi k hk, el_val gy (by rw [hg.rows, hxr]; exact hk) (by rw [hg.cols, hc]; omega), hg.cols, hc]
    simp
  refine ⟨[some (mulOf jb gy)], ?_, gradShapes1 hgxl, isVJP1 F
    (fun v i => (F x).val i * (v i - ∑ k ∈ Finset.range n, (F x).val k * v k)) hx ?_ ?_ ?_⟩
  · have hs : (masked i x).bind (softmaxBot Real.exp) = some (F x) := hfw x (Like.refl hx)
    obtain ⟨m, hm, hs⟩ := Option.bind_eq_some_iff.mp hs
    have hFn : (F x).data.length = n := by simp [F, maskedCol, ← hn]
    simp only [softmaxMasked, hg.sameDims, not_true_eq_false, if_false, hm, hs, Option.bind_eq_bind, Option.bind_some, hFn,
      ← hjb, m1]
  · intro x' h
    exact ⟨hfw x' h, (hg.symm hx).trans (hFl x' h)⟩
  · intro X v hX j hj
    rw [hgl] at hj
    have e : (fun t => (F (X t)).val j) = fun t => seen i ((X t).val j) j /
        ∑ k ∈ Finset.range n, seen i ((X t).val k) k := by
      funext t
      rw [hFv _ _ (by rw [hX.len]; exact hj)]
      simp only [S, hX.len]; rfl
    have hs0 : S x = ∑ k ∈ Finset.range n, seen i ((X 0).val k) k := by simp only [S, hX.start]; rfl
    have hseen : ∀ k < n, HasDerivAt (fun t => seen i ((X t).val k) k) (seen i (x.val k) k * v k) 0 := by
      intro k hk
      unfold seen
      by_cases h : k ≤ i
      · simp only [if_pos h]
        have := (hX.deriv k hk).exp
        rwa [hX.start] at this
      · simp only [if_neg h, zero_mul]
        exact hasDerivAt_const _ _
    rw [e]
    have hd := (hseen j hj).fun_div (HasDerivAt.fun_sum (u := Finset.range n)
      (fun k hk => hseen k (Finset.mem_range.mp hk))) (by rw [← hs0]; exact hSpos.ne')
    refine hd.congr_deriv ?_
    rw [← hs0, hX.start]
    have hk : ∑ k ∈ Finset.range n, (F x).val k * v k =
        (∑ k ∈ Finset.range n, seen i (x.val k) k * v k) / S x := by
      rw [Finset.sum_div]
      refine Finset.sum_congr rfl fun k hk => ?_
      rw [hFv _ _ (Finset.mem_range.mp hk)]; ring
    rw [hk, hFv _ _ hj]
    have := hSpos.ne'
    field_simp
  · intro v
    rw [hgl]
    have e1 : ∀ i ∈ Finset.range n, (mulOf jb gy).val i * v i =
        (F x).val i * v i * gy.val i - (F x).val i * v i * ∑ k ∈ Finset.range n, (F x).val k * gy.val k := by
      intro i hi
      have hi' := Finset.mem_range.mp hi
      rw [hgxv i hi']
      have : ∀ k ∈ Finset.range n, (F x).val i * ((if i = k then 1 else 0) - (F x).val k) * gy.val k =
          (if i = k then (F x).val i * gy.val k else 0) - (F x).val i * ((F x).val k * gy.val k) := by
        intro k _
        split <;> ring
      rw [Finset.sum_congr rfl this, Finset.sum_sub_distrib, Finset.sum_ite_eq, if_pos hi, ← Finset.mul_sum]
      ring
    rw [Finset.sum_congr rfl e1, Finset.sum_sub_distrib, ← Finset.sum_mul]
    have e2 : ∀ i ∈ Finset.range n, gy.val i * ((F x).val i * (v i - ∑ k ∈ Finset.range n, (F x).val k * v k)) =
        (F x).val i * v i * gy.val i - (F x).val i * gy.val i * ∑ k ∈ Finset.range n, (F x).val k * v k := by
      intro i _; ring
    rw [Finset.sum_congr rfl e2, Finset.sum_sub_distrib, ← Finset.sum_mul]
    ring

example : Correct (softmaxMasked 1) [column [1, 5, -2]] := softmaxMasked_correct 1 (by rfl) rfl (by simp [column])

end Verif.GradFn
