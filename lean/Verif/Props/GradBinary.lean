import Verif.Lemmas.GradFn
import Mathlib.Analysis.Calculus.Deriv.Inv
import Mathlib.Tactic.FieldSimp

set_option autoImplicit false
set_option linter.unusedSimpArgs false

/-!
# Sums, products and quotients (C21, C22)
-/

namespace Verif.GradFn
open Dense
open scoped BigOperators Topology

theorem curve_zip {x1 x2 : Dense ℝ} {X X' : ℝ → Dense ℝ} {v v' : Nat → ℝ} (h : Curve x1 X v)
    (h' : Curve x2 X' v') (f : ℝ → ℝ → ℝ) {i : Nat} (hi : i < x1.data.length) (hi' : i < x2.data.length) :
    (fun t => (zip2 f (X t) (X' t)).val i) = fun t => f ((X t).val i) ((X' t).val i) := by
  funext t
  exact val_zip2 f (by rw [h.len]; exact hi) (by rw [h'.len]; exact hi')

/-- What the forward pass of an element-wise binary operator says about the dimensions. -/
theorem zip_forward {f : ℝ → ℝ → ℝ} {x1 x2 y : Dense ℝ} (h1 : x1.WF) (h2 : x2.WF)
    (hy : zipOp f x1 x2 = some y) : x1.Like x2 ∧ y = zip2 f x1 x2 := by
  unfold zipOp at hy
  split at hy
  · rename_i hd
    have := sameDims_iff.mp hd
    exact ⟨⟨h2, this.1.symm, this.2.symm⟩, (Option.some.inj hy).symm⟩
  · cases hy

/-- Binary element-wise operators: a general statement. -/
theorem zip_correct {op : GradFn ℝ} {f d1 d2 : ℝ → ℝ → ℝ} {x1 x2 : Dense ℝ} (h1 : x1.WF) (h2 : x2.WF)
    (hfw : ∀ a b, op.forward [a, b] = zipOp f a b)
    (hd : ∀ i < x1.data.length, i < x2.data.length → ∀ u w : ℝ → ℝ, ∀ u' w', HasDerivAt u u' 0 → HasDerivAt w w' 0 →
      u 0 = x1.val i → w 0 = x2.val i → HasDerivAt (fun t => f (u t) (w t))
        (d1 (x1.val i) (x2.val i) * u' + d2 (x1.val i) (x2.val i) * w') 0)
    (hbw : ∀ gy, x1.Like gy → x2.Like gy → ∃ g1 g2, op.backward [x1, x2] gy = some [some g1, some g2] ∧
      x1.Like g1 ∧ x2.Like g2 ∧ ∀ i < x1.data.length, g1.val i = gy.val i * d1 (x1.val i) (x2.val i) ∧
        g2.val i = gy.val i * d2 (x1.val i) (x2.val i)) :
    Correct op [x1, x2] := by
  intro y hy gy hgy
  rw [hfw] at hy
  obtain ⟨h12, rfl⟩ := zip_forward h1 h2 hy
  have hg1 : x1.Like gy := (zip2_like f h1 h12).trans hgy
  have hg2 : x2.Like gy := (h12.symm h1).trans hg1
  obtain ⟨g1, g2, hb, hl1, hl2, hv⟩ := hbw gy hg1 hg2
  have e1 := hg1.len h1
  have e2 := h12.len h1
  refine ⟨_, hb, gradShapes2 hl1 hl2, isVJP2 (zip2 f) (fun v v' i =>
    d1 (x1.val i) (x2.val i) * v i + d2 (x1.val i) (x2.val i) * v' i) ?_ ?_ ?_⟩
  · intro a b ha hb
    have hab : a.Like b := (ha.symm h1).trans (h12.trans hb)
    exact ⟨by rw [hfw, zipOp_like f hab], (hg1.symm h1).trans (ha.trans (zip2_like f ha.wf hab))⟩
  · intro X v X' v' hX hX' i hi
    rw [curve_zip hX hX' f (by omega) (by omega)]
    exact hd i (by omega) (by omega) _ _ _ _ (hX.deriv i (by omega)) (hX'.deriv i (by omega)) (by rw [hX.start])
      (by rw [hX'.start])
  · intro v v'
    rw [e1, e2, ← Finset.sum_add_distrib]
    refine Finset.sum_congr rfl fun i hi => ?_
    obtain ⟨ha, hb⟩ := hv i (Finset.mem_range.mp hi)
    rw [ha, hb]; ring

theorem add_correct {x1 x2 : Dense ℝ} (h1 : x1.WF) (h2 : x2.WF) : Correct add [x1, x2] := by
  refine zip_correct (f := (· + ·)) (d1 := fun _ _ => 1) (d2 := fun _ _ => 1) h1 h2 (fun a b => rfl) ?_ ?_
  · intro i _ _ u w u' w' hu hw _ _
    exact (hu.add hw).congr_deriv (by ring)
  · intro gy hg1 hg2
    refine ⟨gy, gy, ?_, hg1, hg2, fun i _ => by simp⟩
    simp [add, hg1.sameDims, hg2.sameDims]

theorem sub_correct {x1 x2 : Dense ℝ} (h1 : x1.WF) (h2 : x2.WF) : Correct sub [x1, x2] := by
  refine zip_correct (f := (· - ·)) (d1 := fun _ _ => 1) (d2 := fun _ _ => -1) h1 h2 (fun a b => rfl) ?_ ?_
  · intro i _ _ u w u' w' hu hw _ _
    refine (hu.sub hw).congr_deriv (by ring)
  · intro gy hg1 hg2
    refine ⟨gy, gy.map (· * -1), ?_, hg1, like_map hg2 _, fun i hi => ?_⟩
    · simp [sub, hg1.sameDims, hg2.sameDims]
    · rw [val_map _ _ (by rw [hg1.len h1]; exact hi)]; simp

theorem prod_correct {x1 x2 : Dense ℝ} (h1 : x1.WF) (h2 : x2.WF) : Correct prod [x1, x2] := by
  refine zip_correct (f := (· * ·)) (d1 := fun _ b => b) (d2 := fun a _ => a) h1 h2 (fun a b => rfl) ?_ ?_
  · intro i _ _ u w u' w' hu hw e1 e2
    refine (hu.mul hw).congr_deriv ?_
    rw [e1, e2]; ring
  · intro gy hg1 hg2
    have e1 := hg1.len h1
    have e2 := hg2.len h2
    refine ⟨zip2 (· * ·) x2 gy, zip2 (· * ·) x1 gy, ?_, ?_, ?_, fun i hi => ⟨?_, ?_⟩⟩
    · simp [prod, hg1.sameDims, hg2.sameDims, zipOp_like _ hg1, zipOp_like _ hg2]
    · exact ⟨(zip2_like _ h2 hg2).wf, hg2.rows.symm.trans hg1.rows, hg2.cols.symm.trans hg1.cols⟩
    · exact ⟨(zip2_like _ h1 hg1).wf, hg1.rows.symm.trans hg2.rows, hg1.cols.symm.trans hg2.cols⟩
    · rw [val_zip2 _ (by omega) (by omega)]; ring
    · rw [val_zip2 _ (by omega) (by omega)]; ring

/-- `Square` (ag/operators.go, `Prod(x, x)`): both contributions add up to `2 x gy`. -/
theorem square_grads {x gy : Dense ℝ} (hg : x.Like gy) : ∃ g,
    prod.backward [x, x] gy = some [some g, some g] ∧ g = zip2 (· * ·) x gy := by
  refine ⟨_, ?_, rfl⟩
  simp [prod, hg.sameDims, zipOp_like _ hg]

theorem div_correct {x1 x2 : Dense ℝ} (h1 : x1.WF) (h2 : x2.WF) (hne : ∀ v ∈ x2.data, v ≠ 0) :
    Correct div [x1, x2] := by
  refine zip_correct (f := (· / ·)) (d1 := fun _ b => 1 / b) (d2 := fun a b => -(a / (b * b))) h1 h2
    (fun a b => rfl) ?_ ?_
  · intro i hi hi' u w u' w' hu hw e1 e2
    have hz : x2.val i ≠ 0 := by rw [val_of_lt _ hi']; exact hne _ (List.getElem_mem _)
    refine (hu.div hw (by rw [e2]; exact hz)).congr_deriv ?_
    rw [e1, e2]; field_simp; ring
  · intro gy hg1 hg2
    have e1 := hg1.len h1
    have e2 := hg2.len h2
    have h12 : x1.Like x2 := ⟨h2, hg2.rows.symm.trans hg1.rows, hg2.cols.symm.trans hg1.cols⟩
    have hgg : gy.Like x2 := hg2.symm h2
    have hp := zip2_like (· * ·) h1 hg1
    have hsq := zip2_like (· * ·) h2 (Like.refl h2)
    have hm : x1.Like ((zip2 (· * ·) x1 gy).map (· * -1)) := like_map hp _
    have hmq : ((zip2 (· * ·) x1 gy).map (· * -1)).Like (zip2 (· * ·) x2 x2) :=
      (hm.symm h1).trans (h12.trans hsq)
    refine ⟨zip2 (· / ·) gy x2, zip2 (· / ·) ((zip2 (· * ·) x1 gy).map (· * -1)) (zip2 (· * ·) x2 x2),
      ?_, hg1.trans (zip2_like _ hg1.wf hgg), (h12.symm h1).trans (hm.trans (zip2_like _ hm.wf hmq)),
      fun i hi => ?_⟩
    · simp only [div, hg1.sameDims, hg2.sameDims, not_true_eq_false, or_self, if_false, zipOp_like _ hgg,
        zipOp_like _ (Like.refl h2), zipOp_like _ hg1, zipOp_like _ hmq, Option.bind_eq_bind,
        Option.bind_some]
    · have l1 := hp.len h1
      have l2 := hsq.len h2
      have hz : x2.val i ≠ 0 := by
        rw [val_of_lt _ (by omega)]; exact hne _ (List.getElem_mem _)
      rw [val_zip2 _ (by omega) (by omega), val_zip2 _ (by rw [map_length]; omega) (by omega),
        val_map _ _ (by omega), val_zip2 _ (by omega) (by omega), val_zip2 _ (by omega) (by omega)]
      constructor
      · ring
      · field_simp

/-! ## A matrix and a scalar -/

/-- Operators with a scalar second operand: a general statement. -/
theorem scalarOp_correct {op : GradFn ℝ} {f d1 d2 : ℝ → ℝ → ℝ} {x p : Dense ℝ} (hx : x.WF) (hp : p.WF)
    (hfw : ∀ a b, op.forward [a, b] = (item b).bind fun c => some (a.map fun u => f u c))
    (hd : ∀ i < x.data.length, ∀ u w : ℝ → ℝ, ∀ u' w', HasDerivAt u u' 0 → HasDerivAt w w' 0 →
      u 0 = x.val i → w 0 = p.val 0 → HasDerivAt (fun t => f (u t) (w t))
        (d1 (x.val i) (p.val 0) * u' + d2 (x.val i) (p.val 0) * w') 0)
    (hbw : ∀ gy, x.Like gy → p.data.length = 1 → ∃ g1 c2, op.backward [x, p] gy =
        some [some g1, some (scalar c2)] ∧
      x.Like g1 ∧ (∀ i < x.data.length, g1.val i = gy.val i * d1 (x.val i) (p.val 0)) ∧
      c2 = ∑ i ∈ Finset.range x.data.length, gy.val i * d2 (x.val i) (p.val 0)) :
    Correct op [x, p] := by
  intro y hy gy hgy
  rw [hfw] at hy
  obtain ⟨c, hc, hy⟩ := Option.bind_eq_some_iff.mp hy
  obtain ⟨hp1, rfl⟩ := item_eq.mp hc
  cases hy
  have hg1 : x.Like gy := (like_map (Like.refl hx) _).trans hgy
  have e1 := hg1.len hx
  obtain ⟨g1, c2, hb, hl1, hv, rfl⟩ := hbw gy hg1 hp1
  have hrc : p.rows = 1 ∧ p.cols = 1 := by
    have : p.rows * p.cols = 1 := hp.symm.trans hp1
    exact mul_eq_one.mp this
  refine ⟨_, hb, gradShapes2 hl1 (scalar_like hp hrc.1 hrc.2 _), isVJP2 (fun a b => a.map fun u => f u (b.val 0))
    (fun v v' i => d1 (x.val i) (p.val 0) * v i + d2 (x.val i) (p.val 0) * v' 0) ?_ ?_ ?_⟩
  · intro a b ha hb
    refine ⟨?_, (hg1.symm hx).trans (like_map ha _)⟩
    rw [hfw, item_of (by rw [hb.len hp, hp1])]; rfl
  · intro X v X' v' hX hX' i hi
    have : (fun t => ((X t).map fun u => f u ((X' t).val 0)).val i) =
        fun t => f ((X t).val i) ((X' t).val 0) := by
      funext t
      rw [val_map _ _ (by rw [hX.len]; omega)]
    rw [this]
    exact hd i (by omega) _ _ _ _ (hX.deriv i (by omega)) (hX'.deriv 0 (by omega)) (by rw [hX.start])
      (by rw [hX'.start])
  · intro v v'
    rw [e1, hp1, Finset.sum_range_one, scalar_val, Finset.sum_mul, ← Finset.sum_add_distrib]
    refine Finset.sum_congr rfl fun i hi => ?_
    rw [hv i (Finset.mem_range.mp hi)]; ring

theorem addScalar_correct {x p : Dense ℝ} (hx : x.WF) (hp : p.WF) : Correct addScalar [x, p] := by
  refine scalarOp_correct (f := (· + ·)) (d1 := fun _ _ => 1) (d2 := fun _ _ => 1) hx hp (fun a b => rfl) ?_ ?_
  · intro i _ u w u' w' hu hw _ _
    exact (hu.add hw).congr_deriv (by ring)
  · intro gy hg _
    refine ⟨gy, gy.sum, by simp [addScalar, hg.sameDims], hg, fun i _ => by ring, ?_⟩
    rw [sum_eq_val, hg.len hx]; simp

theorem subScalar_correct {x p : Dense ℝ} (hx : x.WF) (hp : p.WF) : Correct subScalar [x, p] := by
  refine scalarOp_correct (f := (· - ·)) (d1 := fun _ _ => 1) (d2 := fun _ _ => -1) hx hp (fun a b => rfl) ?_ ?_
  · intro i _ u w u' w' hu hw _ _
    exact (hu.sub hw).congr_deriv (by ring)
  · intro gy hg _
    refine ⟨gy, (gy.map (· * -1)).sum, by simp only [subScalar, hg.sameDims, not_true_eq_false, if_false], hg,
      fun i _ => by ring, ?_⟩
    rw [sum_eq_val, map_length, hg.len hx]
    refine Finset.sum_congr rfl fun i hi => ?_
    rw [val_map _ _ (by rw [hg.len hx]; exact Finset.mem_range.mp hi)]

theorem reverseSubScalar_correct {x p : Dense ℝ} (hx : x.WF) (hp : p.WF) :
    Correct reverseSubScalar [x, p] := by
  refine scalarOp_correct (f := fun a b => a * -1 + b) (d1 := fun _ _ => -1) (d2 := fun _ _ => 1) hx hp ?_ ?_ ?_
  · intro a b
    simp only [reverseSubScalar, Dense.map, List.map_map]; rfl
  · intro i _ u w u' w' hu hw _ _
    exact ((hu.mul_const (-1)).add hw).congr_deriv (by ring)
  · intro gy hg _
    refine ⟨gy.map (· * -1), gy.sum, by simp only [reverseSubScalar, hg.sameDims, not_true_eq_false, if_false],
      like_map hg _, fun i hi => ?_, ?_⟩
    · rw [val_map _ _ (by rw [hg.len hx]; exact hi)]
    · rw [sum_eq_val, hg.len hx]; simp

theorem prodScalar_correct {x p : Dense ℝ} (hx : x.WF) (hp : p.WF) : Correct prodScalar [x, p] := by
  refine scalarOp_correct (f := (· * ·)) (d1 := fun _ b => b) (d2 := fun a _ => a) hx hp (fun a b => rfl) ?_ ?_
  · intro i _ u w u' w' hu hw e1 e2
    refine (hu.mul hw).congr_deriv ?_
    rw [e1, e2]; ring
  · intro gy hg hp1
    have hg' := hg.symm hx
    refine ⟨gy.map (· * p.val 0), (zip2 (· * ·) gy x).sum, ?_, like_map hg _, fun i hi => ?_, ?_⟩
    · simp only [prodScalar, hg.sameDims, not_true_eq_false, if_false, zipOp_like _ hg', item_of hp1,
        Option.bind_eq_bind, Option.bind_some]
    · rw [val_map _ _ (by rw [hg.len hx]; exact hi)]
    · rw [sum_eq_val, (zip2_like _ hg.wf hg').len hg.wf, hg.len hx]
      refine Finset.sum_congr rfl fun i hi => ?_
      have := Finset.mem_range.mp hi
      rw [val_zip2 _ (by rw [hg.len hx]; exact this) this]

theorem divScalar_correct {x p : Dense ℝ} (hx : x.WF) (hp : p.WF) (hne : p.val 0 ≠ 0) :
    Correct divScalar [x, p] := by
  refine scalarOp_correct (f := fun a b => a * (1 / b)) (d1 := fun _ b => 1 / b)
    (d2 := fun a b => a * (1 / -(b * b))) hx hp (fun a b => rfl) ?_ ?_
  · intro i _ u w u' w' hu hw e1 e2
    refine (hu.mul ((hasDerivAt_const (0 : ℝ) (1 : ℝ)).div hw (by rw [e2]; exact hne))).congr_deriv ?_
    simp only [Pi.div_apply]
    rw [e1, e2]; field_simp; ring
  · intro gy hg hp1
    have hm := like_map (Like.refl hx) (· * (1 / -(p.val 0 * p.val 0)))
    have hg' := (hg.symm hx).trans hm
    refine ⟨gy.map (· * (1 / p.val 0)), (zip2 (· * ·) gy (x.map (· * (1 / -(p.val 0 * p.val 0))))).sum,
      ?_, like_map hg _, fun i hi => ?_, ?_⟩
    · simp only [divScalar, hg.sameDims, not_true_eq_false, if_false, zipOp_like _ hg', item_of hp1,
        Option.bind_eq_bind, Option.bind_some]
    · rw [val_map _ _ (by rw [hg.len hx]; exact hi)]
    · rw [sum_eq_val, (zip2_like _ hg.wf hg').len hg.wf, hg.len hx]
      refine Finset.sum_congr rfl fun i hi => ?_
      have := Finset.mem_range.mp hi
      rw [val_zip2 _ (by rw [hg.len hx]; exact this) (by simpa using this), val_map _ _ this]

/-! ## Dot product -/

theorem dot_forward {x1 x2 : Dense ℝ} (h1 : x1.WF) (h : x1.Like x2) :
    dot.forward [x1, x2] = some (scalar (∑ i ∈ Finset.range x1.data.length, x1.val i * x2.val i)) := by
  have e := h.len h1
  simp only [dot, h.sameDims, not_true_eq_false, if_false]
  split
  · simp only [dotUnitary, h.sameDims, if_true, dotProd_eq e.symm]; rfl
  · simp only [zipOp_like _ h, Option.bind_eq_bind, Option.bind_some, sum_eq_val,
      (zip2_like _ h1 h).len h1]
    congr 2
    refine Finset.sum_congr rfl fun i hi => ?_
    have := Finset.mem_range.mp hi
    rw [val_zip2 _ this (by omega)]

theorem dot_correct {x1 x2 : Dense ℝ} (h1 : x1.WF) (h2 : x2.WF) : Correct dot [x1, x2] := by
  intro y hy gy hgy
  have h12 : x1.Like x2 := by
    simp only [dot] at hy
    split at hy
    · cases hy
    · rename_i hd
      have := sameDims_iff.mp (by simpa using hd)
      exact ⟨h2, this.1.symm, this.2.symm⟩
  rw [dot_forward h1 h12] at hy
  cases hy
  have hs1 : ∀ c : ℝ, (scalar c).WF := fun c => rfl
  have hg1 : gy.data.length = 1 := (hgy.len (hs1 _)).trans rfl
  have e := h12.len h1
  have hb : dot.backward [x1, x2] gy =
      some [some (x2.map (· * gy.val 0)), some (x1.map (· * gy.val 0))] := by
    simp only [dot, item_of hg1, Option.bind_eq_bind, Option.bind_some]
  refine ⟨_, hb, gradShapes2 (like_map h12 _) (like_map (h12.symm h1) _),
    isVJP2 (fun a b => scalar (∑ i ∈ Finset.range x1.data.length, a.val i * b.val i))
      (fun v v' _ => ∑ i ∈ Finset.range x1.data.length, (v i * x2.val i + x1.val i * v' i)) ?_ ?_ ?_⟩
  · intro a b ha hb
    have hab : a.Like b := (ha.symm h1).trans (h12.trans hb)
    rw [dot_forward ha.wf hab, ha.len h1]
    exact ⟨rfl, ⟨hs1 _, hgy.rows.symm, hgy.cols.symm⟩⟩
  · intro X v X' v' hX hX' i hi
    obtain rfl : i = 0 := by omega
    simp only [scalar_val]
    refine HasDerivAt.fun_sum fun i hi => ?_
    have := Finset.mem_range.mp hi
    refine ((hX.deriv i this).mul (hX'.deriv i (by omega))).congr_deriv ?_
    rw [hX.start, hX'.start]
  · intro v v'
    rw [hg1, Finset.sum_range_one, e, ← Finset.sum_add_distrib, Finset.mul_sum]
    refine Finset.sum_congr rfl fun i hi => ?_
    have := Finset.mem_range.mp hi
    rw [val_map _ _ (by omega), val_map _ _ this]; ring

/-- Two matrices of the same dimensions, no zero in the second; and a scalar. -/
def exB1 : Dense ℝ := ⟨2, 3, [1, -2, 3, 0, 5, 6]⟩
def exB2 : Dense ℝ := ⟨2, 3, [2, 1, -1, 4, 7, 3]⟩

example : exB1.WF ∧ exB2.WF ∧ (∀ v ∈ exB2.data, v ≠ 0) ∧ (div.forward [exB1, exB2]).isSome ∧
    (dot.forward [exB1, exB2]).isSome ∧ (divScalar.forward [exB1, scalar 2]).isSome ∧ (scalar (2 : ℝ)).val 0 ≠ 0 := by
  refine ⟨rfl, rfl, by simp [exB2], by simp [div, exB1, exB2, zipOp, sameDims], ?_, ?_, by simp⟩
  · simp [dot, exB1, exB2, sameDims, isVector, zipOp]
  · simp [divScalar, item, isScalar, scalar]

end Verif.GradFn
