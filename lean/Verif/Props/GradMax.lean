import Verif.Props.GradGather
import Verif.Props.VecFn
import Mathlib.Tactic.IntervalCases
import Mathlib.Algebra.BigOperators.Field
import Mathlib.Analysis.SpecialFunctions.ExpDeriv

set_option autoImplicit false
set_option linter.unusedSimpArgs false

/-!
# Maxima, minima and softmax (C22, C23)

Maxima are differentiable where there are no ties.
-/

namespace Verif.GradFn
open Dense
open scoped BigOperators Topology

/-! ## Max and Min -/

theorem val_pick (x1 x2 gy : Dense ℝ) (f : ℝ × ℝ → ℝ → ℝ) (h2 : x2.data.length = x1.data.length)
    (hg : gy.data.length = x1.data.length) {i : Nat} (hi : i < x1.data.length) :
    (column ((List.zip x1.data x2.data).zipWith f gy.data)).val i = f (x1.val i, x2.val i) (gy.val i) := by
  rw [val_of_lt _ (by simp [column, h2, hg]; exact hi)]
  simp [column, val, h2, hg, hi]

/-- Operators that pick one of two elements by a comparison `r`. -/
theorem pick_vjp {op : GradFn ℝ} (r : ℝ → ℝ → Prop) [DecidableRel r]
    (hr : ∀ a b, a ≠ b → (r a b ↔ ¬ r b a))
    (hopen : ∀ a b : ℝ → ℝ, ContinuousAt a 0 → ContinuousAt b 0 → a 0 ≠ b 0 →
      ∀ᶠ t in 𝓝 0, (r (a t) (b t) ↔ r (a 0) (b 0)))
    {x1 x2 : Dense ℝ} (h1 : x1.WF) (h2 : x2.WF)
    (hne : ∀ i < x1.data.length, x1.val i ≠ x2.val i)
    (hfw : ∀ a b, op.forward [a, b] = zipOp (fun a b => if r a b then a else b) a b)
    (hbw : ∀ gy, x1.Like gy → x2.Like gy → op.backward [x1, x2] gy =
      some [some (column ((List.zip x1.data x2.data).zipWith (fun p g => if r p.1 p.2 then g else 0) gy.data)),
        some (column ((List.zip x2.data x1.data).zipWith (fun p g => if r p.1 p.2 then g else 0) gy.data))]) :
    ∀ y, op.forward [x1, x2] = some y → ∀ gy, y.Like gy → ∃ gs, op.backward [x1, x2] gy = some gs ∧
      IsVJP op [x1, x2] gy gs ∧ (GradShapes [x1, x2] gs ↔ x1.cols = 1) := by
  intro y hy gy hgy
  rw [hfw] at hy
  obtain ⟨h12, rfl⟩ := zip_forward h1 h2 hy
  set f : ℝ → ℝ → ℝ := fun a b => if r a b then a else b with hf
  have hg1 : x1.Like gy := (zip2_like f h1 h12).trans hgy
  have hg2 : x2.Like gy := (h12.symm h1).trans hg1
  have e1 := hg1.len h1
  have e2 := h12.len h1
  refine ⟨_, hbw gy hg1 hg2, isVJP2 (zip2 f) (fun v v' i => if r (x1.val i) (x2.val i) then v i else v' i)
    ?_ ?_ ?_, ?_⟩
  · intro a b ha hb
    have hab : a.Like b := (ha.symm h1).trans (h12.trans hb)
    exact ⟨by rw [hfw, zipOp_like f hab], (hg1.symm h1).trans (ha.trans (zip2_like f ha.wf hab))⟩
  · intro X v X' v' hX hX' i hi
    rw [curve_zip hX hX' f (by omega) (by omega)]
    have d1 := hX.deriv i (by omega)
    have d2 := hX'.deriv i (by omega)
    have ho := hopen _ _ d1.continuousAt d2.continuousAt (by rw [hX.start, hX'.start]; exact hne i (by omega))
    rw [hX.start, hX'.start] at ho
    by_cases hc : r (x1.val i) (x2.val i)
    · rw [if_pos hc]
      refine d1.congr_of_eventuallyEq (ho.mono fun t ht => ?_)
      simp only [hf]; rw [if_pos (ht.mpr hc)]
    · rw [if_neg hc]
      refine d2.congr_of_eventuallyEq (ho.mono fun t ht => ?_)
      simp only [hf]; rw [if_neg (mt ht.mp hc)]
  · intro v v'
    rw [e1, e2, ← Finset.sum_add_distrib]
    refine Finset.sum_congr rfl fun i hi => ?_
    have hi := Finset.mem_range.mp hi
    rw [val_pick x1 x2 gy _ e2 e1 hi, val_pick x2 x1 gy _ e2.symm (by omega) (by omega)]
    have := hr _ _ (hne i hi)
    simp only
    by_cases hc : r (x1.val i) (x2.val i)
    · rw [if_pos hc, if_pos hc, if_neg (this.mp hc)]; ring
    · rw [if_neg hc, if_neg hc, if_pos (by by_contra h; exact hc (this.mpr h))]; ring
  · constructor
    · intro h
      exact (h.2 0 x1 _ rfl rfl).cols.symm
    · intro h
      have hh1 := h1
      have hh2 := h2
      simp only [WF, h, h12.cols, Nat.mul_one] at hh1 hh2
      exact gradShapes2 ⟨by simp [WF, column], by simp [column, e2, e1]; omega, h.symm⟩
        ⟨by simp [WF, column], by simp [column, e2, e1]; omega, by rw [h12.cols, h]; rfl⟩

theorem lt_open (a b : ℝ → ℝ) (ha : ContinuousAt a 0) (hb : ContinuousAt b 0) (h : a 0 ≠ b 0) :
    ∀ᶠ t in 𝓝 0, (a t < b t ↔ a 0 < b 0) := by
  rcases lt_or_gt_of_ne h with h | h
  · filter_upwards [ha.eventually_lt hb h] with t ht
    simp [ht, h]
  · filter_upwards [hb.eventually_lt ha h] with t ht
    constructor
    · intro h'; exact absurd h' (not_lt.mpr ht.le)
    · intro h'; exact absurd h' (not_lt.mpr h.le)

/-- The values of the gradients of `Max` are right where the operands differ. Their dimensions are right
for column vectors only. -/
theorem max_vjp {x1 x2 : Dense ℝ} (h1 : x1.WF) (h2 : x2.WF) (hne : ∀ i < x1.data.length, x1.val i ≠ x2.val i) :
    ∀ y, max.forward [x1, x2] = some y → ∀ gy, y.Like gy → ∃ gs, max.backward [x1, x2] gy = some gs ∧
      IsVJP max [x1, x2] gy gs ∧ (GradShapes [x1, x2] gs ↔ x1.cols = 1) := by
  refine pick_vjp (fun a b => b < a) ?_ ?_ h1 h2 hne (fun _ _ => rfl) ?_
  · intro a b hab
    rw [not_lt]; exact ⟨le_of_lt, fun h => lt_of_le_of_ne h (Ne.symm hab)⟩
  · intro a b ha hb h
    exact lt_open b a hb ha h.symm
  · intro gy g1 g2
    simp [max, g1.sameDims, g2.sameDims]

/-- The same for `Min`. -/
theorem min_vjp {x1 x2 : Dense ℝ} (h1 : x1.WF) (h2 : x2.WF) (hne : ∀ i < x1.data.length, x1.val i ≠ x2.val i) :
    ∀ y, min.forward [x1, x2] = some y → ∀ gy, y.Like gy → ∃ gs, min.backward [x1, x2] gy = some gs ∧
      IsVJP min [x1, x2] gy gs ∧ (GradShapes [x1, x2] gs ↔ x1.cols = 1) := by
  refine pick_vjp (fun a b => a < b) ?_ lt_open h1 h2 hne (fun _ _ => rfl) ?_
  · intro a b hab
    rw [not_lt]; exact ⟨le_of_lt, fun h => lt_of_le_of_ne h hab⟩
  · intro gy g1 g2
    simp [min, g1.sameDims, g2.sameDims]

/-- From a statement about values and shapes to one about correctness. -/
theorem correct_iff_of_vjp {op : GradFn ℝ} {xs : List (Dense ℝ)} {P : Prop}
    (hv : ∀ y, op.forward xs = some y → ∀ gy, y.Like gy → ∃ gs, op.backward xs gy = some gs ∧
      IsVJP op xs gy gs ∧ (GradShapes xs gs ↔ P))
    (hs : ∃ y, op.forward xs = some y ∧ y.WF) : Correct op xs ↔ P := by
  obtain ⟨y, hy, hyw⟩ := hs
  obtain ⟨gs, h1, h2, h3⟩ := hv y hy y (Like.refl hyw)
  constructor
  · intro h
    obtain ⟨gs', a1, a2, -⟩ := h y hy y (Like.refl hyw)
    obtain rfl : gs' = gs := Option.some.inj (a1.symm.trans h1)
    exact h3.mp a2
  · intro h z hz gy hgy
    obtain ⟨gs, b1, b2, b3⟩ := hv z hz gy hgy
    exact ⟨gs, b1, b3.mpr h, b2⟩

theorem max_correct_iff {x1 x2 : Dense ℝ} (h1 : x1.WF) (h12 : x1.Like x2)
    (hne : ∀ i < x1.data.length, x1.val i ≠ x2.val i) : Correct max [x1, x2] ↔ x1.cols = 1 :=
  correct_iff_of_vjp (max_vjp h1 h12.wf hne) ⟨_, zipOp_like _ h12, (zip2_like _ h1 h12).wf⟩

theorem min_correct_iff {x1 x2 : Dense ℝ} (h1 : x1.WF) (h12 : x1.Like x2)
    (hne : ∀ i < x1.data.length, x1.val i ≠ x2.val i) : Correct min [x1, x2] ↔ x1.cols = 1 :=
  correct_iff_of_vjp (min_vjp h1 h12.wf hne) ⟨_, zipOp_like _ h12, (zip2_like _ h1 h12).wf⟩

theorem zip_self (f : ℝ × ℝ → ℝ → ℝ) (hf : ∀ a g, f (a, a) g = 0) : ∀ (l g : List ℝ), g.length = l.length →
    (List.zip l l).zipWith f g = List.replicate l.length 0
  | [], _, _ => by simp
  | a :: l, [], h => by simp at h
  | a :: l, b :: g, h => by
    simp only [List.zip_cons_cons, List.zipWith_cons_cons, hf, List.length_cons, List.replicate_succ]
    rw [zip_self f hf l g (by simpa using h)]

/-- At ties both operands get gradient 0: `Max(x, x)` is `x`, and no gradient reaches `x`. -/
theorem max_self {x gy : Dense ℝ} (hx : x.WF) (hg : x.Like gy) :
    max.forward [x, x] = some x ∧ max.backward [x, x] gy =
      some [some (column (List.replicate x.data.length 0)), some (column (List.replicate x.data.length 0))] := by
  constructor
  · simp only [max]
    rw [zipOp_like _ (Like.refl hx)]
    obtain ⟨r, c, l⟩ := x
    simp [zip2]
  · simp only [max, hg.sameDims, not_true_eq_false, or_self, if_false]
    rw [zip_self _ (by simp) _ _ (hg.len hx)]

theorem min_self {x gy : Dense ℝ} (hx : x.WF) (hg : x.Like gy) :
    min.forward [x, x] = some x ∧ min.backward [x, x] gy =
      some [some (column (List.replicate x.data.length 0)), some (column (List.replicate x.data.length 0))] := by
  constructor
  · simp only [min]
    rw [zipOp_like _ (Like.refl hx)]
    obtain ⟨r, c, l⟩ := x
    simp [zip2]
  · simp only [min, hg.sameDims, not_true_eq_false, or_self, if_false]
    rw [zip_self _ (by simp) _ _ (hg.len hx)]

example : Correct max [column [1, 5], column [2, 4]] := by
  refine (max_correct_iff (x1 := column [1, 5]) (x2 := column [2, 4]) (by rfl) ⟨by rfl, rfl, rfl⟩ ?_).mpr rfl
  intro i hi
  have : i < 2 := hi
  interval_cases i <;> norm_num [val, column]

/-! ## ReduceMax -/

theorem at1_vec {d : Dense ℝ} (hv : d.isVector) {i : Nat} (hi : i < d.data.length) : d.at1 i = some (d.val i) := by
  simp only [isVector, Bool.or_eq_true, beq_iff_eq] at hv
  unfold at1
  rw [if_neg (by omega), if_neg (by omega), Int.toNat_natCast, List.getElem?_eq_getElem hi, val_of_lt _ hi]

theorem set1_vec {d : Dense ℝ} (hv : d.isVector) (v : ℝ) {i : Nat} (hi : i < d.data.length) :
    d.set1 v i = some ⟨d.rows, d.cols, d.data.set i v⟩ := by
  simp only [isVector, Bool.or_eq_true, beq_iff_eq] at hv
  unfold set1
  rw [if_neg (by omega), if_neg (by omega), Int.toNat_natCast]
  simp [GoSlice.set, hi]

theorem argMax_unique {x : Dense ℝ} (hv : x.isVector) {m : Nat} (hm : m < x.data.length)
    (hu : ∀ i < x.data.length, i ≠ m → x.val i < x.val m) : x.argMax = some m := by
  obtain ⟨i, hi⟩ := Option.isSome_iff_exists.mp ((VecFn.argMax_spec x).1.mpr ⟨hv, by
    intro h; rw [h] at hm; simp at hm⟩)
  obtain ⟨w, h1, h2, -⟩ := (VecFn.argMax_spec x).2 i hi
  obtain ⟨hlt, rfl⟩ := List.getElem?_eq_some_iff.mp h1
  rw [hi]
  by_contra hne
  have h3 := hu i hlt (fun h => hne (by rw [h]))
  rw [val_of_lt _ hlt, val_of_lt _ hm] at h3
  exact absurd (h2 _ (List.getElem_mem hm)) (not_le.mpr h3)

theorem isVector_like {x x' : Dense ℝ} (h : x.Like x') : x'.isVector = x.isVector := by
  simp [isVector, h.rows, h.cols]

/-- A strict maximum stays one for a while. -/
theorem Curve.max_stays {x : Dense ℝ} {X : ℝ → Dense ℝ} {v : Nat → ℝ} (hX : Curve x X v) {m : Nat}
    (hm : m < x.data.length) (hu : ∀ i < x.data.length, i ≠ m → x.val i < x.val m) :
    ∀ᶠ t in 𝓝 0, ∀ i < x.data.length, i ≠ m → (X t).val i < (X t).val m := by
  have : ∀ i ∈ Finset.range x.data.length, ∀ᶠ t in 𝓝 0, i ≠ m → (X t).val i < (X t).val m := by
    intro i hi
    have hi := Finset.mem_range.mp hi
    by_cases h : i = m
    · exact Filter.Eventually.of_forall fun t h' => absurd h h'
    · have := (hX.deriv i hi).continuousAt.eventually_lt (hX.deriv m hm).continuousAt
        (by rw [hX.start]; exact hu i hi h)
      exact this.mono fun t ht _ => ht
  filter_upwards [(Finset.eventually_all _).mpr this] with t ht i hi
  exact ht i (Finset.mem_range.mpr hi)

/-- Where the maximum `x_m` is unique, `ReduceMax` is right. -/
theorem reduceMax_correct {x : Dense ℝ} (hx : x.WF) {m : Nat} (hm : m < x.data.length)
    (hu : ∀ i < x.data.length, i ≠ m → x.val i < x.val m) : Correct reduceMax [x] := by
  intro y hy gy hgy
  have hv : x.isVector := by
    simp only [reduceMax, Option.bind_eq_bind, Option.bind_eq_some_iff] at hy
    obtain ⟨i, hi, -⟩ := hy
    exact ((VecFn.argMax_spec x).1.mp (by rw [hi]; rfl)).1
  have hfw : ∀ x', x.Like x' → (∀ i < x.data.length, i ≠ m → x'.val i < x'.val m) →
      reduceMax.forward [x'] = some (scalar (x'.val m)) := by
    intro x' hx' hu'
    have hl := hx'.len hx
    have hv' : x'.isVector := by rw [isVector_like hx']; exact hv
    simp only [reduceMax, argMax_unique hv' (by rw [hl]; exact hm) (by rw [hl]; exact hu'), Option.bind_eq_bind,
      Option.bind_some, at1_vec hv' (by rw [hl]; exact hm)]
  rw [hfw x (Like.refl hx) hu] at hy
  cases hy
  have hg1 : gy.data.length = 1 := (hgy.len (by rfl)).trans rfl
  have hz : (zeros x.rows x.cols : Dense ℝ).data.length = x.data.length := by rw [hx]; simp [zeros]
  have hzv : (zeros x.rows x.cols : Dense ℝ).isVector := hv
  refine ⟨[some ⟨x.rows, x.cols, (zeros x.rows x.cols : Dense ℝ).data.set m (gy.val 0)⟩], ?_,
    gradShapes1 ⟨by simp only [WF, List.length_set, hz]; exact hx, rfl, rfl⟩, isVJPOn_of_entries ?_⟩
  · simp only [reduceMax, argMax_unique hv hm hu, item_of hg1, Option.bind_eq_bind, Option.bind_some,
      set1_vec hzv _ (by rw [hz]; exact hm)]
    rfl
  · intro X v hX _ _
    have h0 := hX 0 x rfl
    refine ⟨fun t => scalar ((X 0 t).val m), fun _ => v 0 m, ?_, ?_, ?_⟩
    · filter_upwards [h0.max_stays hm hu] with t ht
      refine ⟨?_, by rfl, hgy.rows.symm, hgy.cols.symm⟩
      simpa using hfw _ (h0.like t) ht
    · intro i hi
      obtain rfl : i = 0 := by omega
      simpa using h0.deriv m hm
    · rw [hg1]
      simp only [List.length_singleton, Finset.sum_range_one, gradVal, List.getElem?_cons_zero, List.map_cons,
        List.map_nil, List.getD_cons_zero]
      rw [Finset.sum_eq_single m]
      · rw [val_of_lt (⟨x.rows, x.cols, _⟩ : Dense ℝ) (by simp [hz]; exact hm)]; simp
      · intro i hi hne
        have hi := Finset.mem_range.mp hi
        rw [val_of_lt (⟨x.rows, x.cols, _⟩ : Dense ℝ) (by simp [hz]; exact hi)]
        simp [List.getElem_set, Ne.symm hne, zeros]
      · intro h; exact absurd (Finset.mem_range.mpr hm) h

example : Correct reduceMax [column [1, 5, -2]] := by
  refine reduceMax_correct (by rfl) (m := 1) (by simp [column]) ?_
  intro i hi hne
  have : i < 3 := hi
  interval_cases i <;> first | (norm_num [val, column]; done) | (exact absurd rfl hne)

/-! ## ScalarMax -/

theorem scalarMax_unique (xs : List ℝ) (m : Nat) (hm : m < xs.length) (h0 : 0 < xs.getD m 0)
    (hu : ∀ i < xs.length, i ≠ m → xs.getD i 0 < xs.getD m 0) :
    VecFn.scalarMax xs = some (m, xs.getD m 0) := by
  have hmem : xs.getD m 0 ∈ xs := by
    rw [List.getD_eq_getElem?_getD, List.getElem?_eq_getElem hm]; exact List.getElem_mem hm
  cases xs with
  | nil => simp at hm
  | cons x xs =>
    obtain ⟨i, w, h1, h2, -, h4⟩ := VecFn.scalarMax_facts x xs
    have h4 := h4 ⟨_, hmem, h0⟩ _ hmem
    obtain ⟨hlt, rfl⟩ := List.getElem?_eq_some_iff.mp h2
    have hi : (x :: xs).getD i 0 = (x :: xs)[i] := by
      rw [List.getD_eq_getElem?_getD, List.getElem?_eq_getElem hlt]; rfl
    have : i = m := by
      by_contra hne
      have := hu i hlt hne
      rw [hi] at this; linarith
    subst this
    rw [h1, hi]

theorem mapM_item {xs : List (Dense ℝ)} (h : ∀ x ∈ xs, x.data.length = 1) :
    xs.mapM item = some (xs.map fun x => x.val 0) := by
  induction xs with
  | nil => rfl
  | cons x xs ih =>
    rw [List.mapM_cons, item_of (h x (by simp)), ih fun z hz => h z (by simp [hz])]; rfl

theorem getD_map_val (xs : List (Dense ℝ)) (k : Nat) {x : Dense ℝ} (hk : xs[k]? = some x) :
    (xs.map fun x => x.val 0).getD k 0 = x.val 0 := by
  rw [List.getD_eq_getElem?_getD, List.getElem?_map, hk]; rfl

/-- Where the largest argument is unique and positive, `ScalarMax` is right. -/
theorem scalarMax_correct {xs : List (Dense ℝ)} (hwf : ∀ x ∈ xs, x.WF ∧ x.data.length = 1) {m : Nat}
    {xm : Dense ℝ} (hm : xs[m]? = some xm) (h0 : 0 < xm.val 0)
    (hu : ∀ (i : Nat) (x : Dense ℝ), xs[i]? = some x → i ≠ m → x.val 0 < xm.val 0) : Correct scalarMax xs := by
  obtain ⟨hmlt, hmx⟩ := List.getElem?_eq_some_iff.mp hm
  have hxm := hwf xm (hmx ▸ List.getElem_mem hmlt)
  have hsel : ∀ zs : List (Dense ℝ), zs.length = xs.length → (∀ z ∈ zs, z.data.length = 1) → ∀ zm : Dense ℝ,
      zs[m]? = some zm → 0 < zm.val 0 →
      (∀ (i : Nat) (z : Dense ℝ), zs[i]? = some z → i ≠ m → z.val 0 < zm.val 0) →
      zs.mapM item = some (zs.map fun x => x.val 0) ∧
      VecFn.scalarMax (zs.map fun x => x.val 0) = some (m, zm.val 0) := by
    intro zs hl hz zm hzm h0 hu
    refine ⟨mapM_item hz, ?_⟩
    have e := getD_map_val zs m hzm
    rw [scalarMax_unique _ m (by simp; omega) (by rw [e]; exact h0), e]
    intro i hi hne
    simp only [List.length_map] at hi
    rw [e, getD_map_val zs i (List.getElem?_eq_getElem hi)]
    exact hu i _ (List.getElem?_eq_getElem hi) hne
  obtain ⟨e1, e2⟩ := hsel xs rfl (fun z hz => (hwf z hz).2) xm hm h0 hu
  intro y hy gy hgy
  simp only [scalarMax, e1, e2, Option.bind_eq_bind, Option.bind_some, hm] at hy
  cases hy
  have hgl : gy.data.length = 1 := (hgy.len hxm.1).trans hxm.2
  refine ⟨(List.range xs.length).map fun k => if k = m then some gy else none,
    by simp only [scalarMax, e1, e2, Option.bind_eq_bind, Option.bind_some, item_of hgl], ?_, ?_⟩
  · refine ⟨by simp, fun k x g hx hg => ?_⟩
    obtain ⟨hk, -⟩ := List.getElem?_eq_some_iff.mp hx
    simp only [List.getElem?_map, List.getElem?_range hk, Option.map_some, Option.some.injEq] at hg
    split at hg
    · rename_i h
      subst h
      rw [hm] at hx
      cases hx; cases hg
      exact hgy
    · cases hg
  · refine isVJPOn_of_entries fun X v hX _ _ => ?_
    have hXm := hX m xm hm
    have d0 := hXm.deriv 0 (by omega)
    refine ⟨X m, v m, ?_, ?_, ?_⟩
    · have hpos : ∀ᶠ t in 𝓝 0, 0 < (X m t).val 0 :=
        d0.continuousAt.eventually (lt_mem_nhds (by beta_reduce; rw [hXm.start]; exact h0))
      have hlt : ∀ i ∈ Finset.range xs.length, ∀ᶠ t in 𝓝 0, i ≠ m → (X i t).val 0 < (X m t).val 0 := by
        intro i hi
        have hi := Finset.mem_range.mp hi
        by_cases h : i = m
        · exact Filter.Eventually.of_forall fun t h' => absurd h h'
        · have hi' := List.getElem?_eq_getElem hi
          have hXi := hX i _ hi'
          have := (hXi.deriv 0 (by rw [(hwf _ (List.getElem_mem hi)).2]; omega)).continuousAt.eventually_lt
            d0.continuousAt (by rw [hXi.start, hXm.start]; exact hu i _ hi' h)
          exact this.mono fun t ht _ => ht
      filter_upwards [hpos, (Finset.eventually_all _).mpr hlt] with t h1 h2
      refine ⟨?_, (hgy.symm hxm.1).trans (hXm.like t)⟩
      have hget : ∀ i, i < xs.length → ((List.range xs.length).map fun k => X k t)[i]? = some (X i t) := by
        intro i hi
        simp [List.getElem?_map, List.getElem?_range hi]
      have hz1 : ∀ z ∈ (List.range xs.length).map fun k => X k t, z.data.length = 1 := by
        intro z hz
        obtain ⟨k, hk, rfl⟩ := List.mem_map.mp hz
        have hk := List.mem_range.mp hk
        rw [(hX k _ (List.getElem?_eq_getElem hk)).len]
        exact (hwf _ (List.getElem_mem hk)).2
      obtain ⟨f1, f2⟩ := hsel ((List.range xs.length).map fun k => X k t) (by simp) hz1 (X m t) (hget m hmlt) h1 (by
        intro i z hz hne
        have hi : i < xs.length := by
          obtain ⟨h, -⟩ := List.getElem?_eq_some_iff.mp hz
          simpa using h
        rw [hget i hi] at hz
        cases hz
        exact h2 i (Finset.mem_range.mpr hi) hne)
      simp only [scalarMax, f1, f2, Option.bind_eq_bind, Option.bind_some, hget m hmlt]
    · intro i hi
      exact hXm.deriv i (by omega)
    · rw [hgl, Finset.sum_range_one, Finset.sum_eq_single m]
      · rw [List.getD_eq_getElem?_getD, List.getElem?_map, hm]
        simp [hxm.2, gradVal, List.getElem?_range hmlt]
      · intro k hk hne
        have hk := Finset.mem_range.mp hk
        refine Finset.sum_eq_zero fun i _ => ?_
        simp [gradVal, List.getElem?_range hk, hne]
      · intro h; exact absurd (Finset.mem_range.mpr hmlt) h

example : Correct scalarMax [scalar (-1), scalar 3, scalar 2] := by
  refine scalarMax_correct (m := 1) (xm := scalar 3) (by simp [scalar, WF]) rfl (by simp) ?_
  intro i x hx hne
  rcases i with _ | _ | _ | i
  · cases hx; norm_num
  · exact absurd rfl hne
  · cases hx; norm_num
  · simp at hx

/-- If all arguments are negative, the first argument is the result and gets the whole gradient, whichever is
the largest. -/
theorem scalarMax_negative_grad {x : Dense ℝ} {xs : List (Dense ℝ)} (hl : ∀ z ∈ x :: xs, z.data.length = 1)
    (hn : ∀ z ∈ x :: xs, z.val 0 < 0) {gy : Dense ℝ} (hg : gy.data.length = 1) :
    scalarMax.forward (x :: xs) = some x ∧
    ∃ gs, scalarMax.backward (x :: xs) gy = some gs ∧ gs[0]? = some (some gy) ∧
      ∀ k, 0 < k → k ≤ xs.length → gs[k]? = some none := by
  obtain ⟨h1, h2, h3⟩ := VecFn.scalarMaxLoop_spec ((x :: xs).map fun z => z.val 0) [] 0 0 (by simp) (by simp)
    (le_refl _) (Or.inl ⟨rfl, rfl⟩)
  have hz : VecFn.scalarMaxLoop ((x :: xs).map fun z => z.val 0) 0 0 0 = 0 := by
    refine h2 ?_
    intro v hv
    obtain ⟨z, hz, rfl⟩ := List.mem_map.mp (by rwa [List.nil_append] at hv)
    exact (hn z hz).le
  have hs : VecFn.scalarMax ((x :: xs).map fun z => z.val 0) = some (0, x.val 0) := by
    simp only [List.map_cons] at hz ⊢
    simp only [VecFn.scalarMax, hz, List.getElem?_cons_zero, Option.bind_eq_bind, Option.bind_some]
  have hm := mapM_item hl
  refine ⟨?_, (List.range (x :: xs).length).map fun k => if k = 0 then some gy else none,
    by simp only [scalarMax, hm, hs, Option.bind_eq_bind, Option.bind_some, item_of hg], ?_, ?_⟩
  · simp only [scalarMax, hm, hs, Option.bind_eq_bind, Option.bind_some, List.getElem?_cons_zero]
  · simp
  · intro k h0 hk
    rw [List.getElem?_map, List.getElem?_range (by simp; omega)]
    simp; omega

/-! ## Softmax -/

theorem softmax_correct {x : Dense ℝ} (hx : x.WF) (hc : x.cols = 1) (hne : x.data ≠ []) :
    Correct (softmax Real.exp) [x] := by
  intro y hy gy hgy
  set n := x.data.length with hn
  have hxr : x.rows = n := by rw [hn, hx, hc, Nat.mul_one]
  have hvec : ∀ x', x.Like x' → x'.isVector := fun x' h => by simp [isVector, h.cols, hc]
  set S : Dense ℝ → ℝ := fun d => (d.data.map Real.exp).sum with hS
  set F : Dense ℝ → Dense ℝ := fun d => ⟨d.data.length, 1, d.data.map fun v => Real.exp v / S d⟩ with hF
  have hfw : ∀ x', x.Like x' → (softmax Real.exp).forward [x'] = some (F x') := by
    intro x' h
    refine (VecFn.softmax_eq h.wf).2 (hvec x' h) ?_
    intro h'; apply hne
    have := h.len hx
    rw [h'] at this
    exact List.eq_nil_of_length_eq_zero this.symm
  have hFl : ∀ x', x.Like x' → x.Like (F x') := fun x' h =>
    ⟨by simp [F, WF], by simp only [F]; rw [h.len hx, hxr], hc.symm⟩
  rw [hfw x (Like.refl hx)] at hy
  cases hy
  have hg : x.Like gy := (hFl x (Like.refl hx)).trans hgy
  have hgl : gy.data.length = n := hg.len hx
  have hSv : ∀ d : Dense ℝ, S d = ∑ i ∈ Finset.range d.data.length, Real.exp (d.val i) := by
    intro d
    have := sum_eq_val (d.map Real.exp)
    rw [VecFn.sum_eq] at this
    rw [show S d = (d.map Real.exp).data.sum from rfl, this, map_length]
    exact Finset.sum_congr rfl fun i hi => val_map _ _ (Finset.mem_range.mp hi)
  have hFv : ∀ (d : Dense ℝ) (i : Nat), i < d.data.length → (F d).val i = Real.exp (d.val i) / S d := by
    intro d i hi
    rw [val_of_lt _ (by simpa [F] using hi), val_of_lt _ hi]
    simp [F]
  have hSpos : 0 < S x := VecFn.sum_exp_pos hne
  set jb : Dense ℝ := (zeros n n : Dense ℝ).apply fun row col _ =>
    if row = col then (F x).data.getD row 0 * (1 - (F x).data.getD row 0)
    else -((F x).data.getD row 0 * (F x).data.getD col 0) with hjb
  obtain ⟨j1, j2, j3, j4⟩ := apply_spec (zeros_WF n n) fun row col _ =>
    if row = col then (F x).data.getD row 0 * (1 - (F x).data.getD row 0)
    else -((F x).data.getD row 0 * (F x).data.getD col 0)
  rw [← hjb] at j1 j2 j3 j4
  have hjel : ∀ i < n, ∀ j < n, jb.el i j = (F x).val i * ((if i = j then 1 else 0) - (F x).val j) := by
    intro i hi j hj
    have hz := at2_el (zeros_WF n n) (i := i) (j := j) hi hj
    have := j4 i j
    rw [hz, Option.map_some] at this
    rw [el, this]
    simp only [Option.getD_some]
    by_cases h : i = j
    · subst h; simp only [if_true]; rfl
    · simp only [h, if_false]; rw [zero_sub, mul_neg]; rfl
  obtain ⟨m1, m2, m3, m4, m5⟩ := mulOf_spec j1 hg.wf (by rw [j3, hg.rows, hxr]; rfl)
  have hgxl : x.Like (mulOf jb gy) := ⟨m2, by rw [m3, j2, hxr]; rfl, by rw [m4, hg.cols]⟩
  have hgxv : ∀ i < n, (mulOf jb gy).val i =
      ∑ k ∈ Finset.range n, (F x).val i * ((if i = k then 1 else 0) - (F x).val k) * gy.val k := by
    intro i hi
    have h1 := m5 i (by rw [j2]; exact hi) 0 (by rw [hg.cols, hc]; omega)
    rw [el_val _ (by rw [m3, j2]; exact hi) (by rw [m4, hg.cols, hc]; omega), m4, hg.cols, hc] at h1
    simp only [Nat.mul_one, Nat.add_zero] at h1
    rw [h1, j3]
    refine Finset.sum_congr rfl fun k hk => ?_
    have hk : k < n := Finset.mem_range.mp hk
    rw [hjel i hi k hk, el_val gy (by rw [hg.rows, hxr]; exact hk) (by rw [hg.cols, hc]; omega), hg.cols, hc]
    simp
  refine ⟨[some (mulOf jb gy)], ?_, gradShapes1 hgxl, isVJP1 F
    (fun v i => (F x).val i * (v i - ∑ k ∈ Finset.range n, (F x).val k * v k)) hx ?_ ?_ ?_⟩
  · have hs : VecFn.softmax Real.exp x = some (F x) := hfw x (Like.refl hx)
    have hFn : (F x).data.length = n := by
      show (x.data.map _).length = n
      rw [List.length_map]
    simp only [softmax, hg.sameDims, not_true_eq_false, if_false, hs, Option.bind_eq_bind, Option.bind_some, hFn,
      ← hjb, m1]
  · intro x' h
    exact ⟨hfw x' h, (hg.symm hx).trans (hFl x' h)⟩
  · intro X v hX i hi
    rw [hgl] at hi
    have e : (fun t => (F (X t)).val i) = fun t => Real.exp ((X t).val i) /
        ∑ k ∈ Finset.range n, Real.exp ((X t).val k) := by
      funext t
      rw [hFv _ _ (by rw [hX.len]; exact hi), hSv, hX.len]
    have hs0 : S x = ∑ k ∈ Finset.range n, Real.exp ((X 0).val k) := by rw [hSv, hX.start]
    rw [e]
    have hd := ((hX.deriv i hi).exp).fun_div (HasDerivAt.fun_sum (u := Finset.range n)
      (fun k hk => (hX.deriv k (Finset.mem_range.mp hk)).exp)) (by rw [← hs0]; exact hSpos.ne')
    refine hd.congr_deriv ?_
    rw [← hs0, hX.start]
    have hk : ∑ k ∈ Finset.range n, (F x).val k * v k =
        (∑ k ∈ Finset.range n, Real.exp (x.val k) * v k) / S x := by
      rw [Finset.sum_div]
      refine Finset.sum_congr rfl fun k hk => ?_
      rw [hFv _ _ (Finset.mem_range.mp hk)]; ring
    rw [hk, hFv _ _ hi]
    have := hSpos.ne'
    field_simp
  · intro v
    rw [hgl]
    have e1 : ∀ i ∈ Finset.range n, (mulOf jb gy).val i * v i =
        (F x).val i * v i * gy.val i - (F x).val i * v i * ∑ k ∈ Finset.range n, (F x).val k * gy.val k := by
      intro i hi
      have hi' := Finset.mem_range.mp hi
      rw [hgxv i hi']
      have : ∀ k ∈ Finset.range n, (F x).val i * ((if i = k then 1 else 0) - (F x).val k) * gy.val k =
          (if i = k then (F x).val i * gy.val k else 0) - (F x).val i * ((F x).val k * gy.val k) := by
        intro k _
        split <;> ring
      rw [Finset.sum_congr rfl this, Finset.sum_sub_distrib, Finset.sum_ite_eq, if_pos hi, ← Finset.mul_sum]
      ring
    rw [Finset.sum_congr rfl e1, Finset.sum_sub_distrib, ← Finset.sum_mul]
    have e2 : ∀ i ∈ Finset.range n, gy.val i * ((F x).val i * (v i - ∑ k ∈ Finset.range n, (F x).val k * v k)) =
        (F x).val i * v i * gy.val i - (F x).val i * gy.val i * ∑ k ∈ Finset.range n, (F x).val k * v k := by
      intro i _; ring
    rw [Finset.sum_congr rfl e2, Finset.sum_sub_distrib, ← Finset.sum_mul]
    ring

example : Correct (softmax Real.exp) [column [1, 5, -2]] := softmax_correct (by rfl) rfl (by simp [column])

end Verif.GradFn
