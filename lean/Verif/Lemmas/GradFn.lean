import Verif.Spec.GradFn
import Verif.Props.DenseMul
import Verif.Props.DenseShape
import Verif.Props.VecFn
import Mathlib.Analysis.Calculus.Deriv.Add
import Mathlib.Analysis.Calculus.Deriv.Mul
import Mathlib.Tactic.Ring
import Mathlib.Tactic.Linarith

set_option autoImplicit false
set_option linter.unusedSimpArgs false

namespace Verif
open scoped BigOperators Topology

namespace Dense

theorem val_of_lt (d : Dense ℝ) {i : Nat} (h : i < d.data.length) : d.val i = d.data[i] := by
  simp [val, h]

theorem val_of_ge (d : Dense ℝ) {i : Nat} (h : d.data.length ≤ i) : d.val i = 0 := by
  simp [val, List.getElem?_eq_none h]

theorem Like.refl {x : Dense ℝ} (h : x.WF) : x.Like x := ⟨h, rfl, rfl⟩

theorem Like.len {x x' : Dense ℝ} (hx : x.WF) (h : x.Like x') : x'.data.length = x.data.length := by
  rw [h.wf, h.rows, h.cols, hx]

theorem Like.symm {x x' : Dense ℝ} (hx : x.WF) (h : x.Like x') : x'.Like x :=
  ⟨hx, h.rows.symm, h.cols.symm⟩

theorem Like.trans {x y z : Dense ℝ} (h : x.Like y) (h' : y.Like z) : x.Like z :=
  ⟨h'.wf, h'.rows.trans h.rows, h'.cols.trans h.cols⟩

theorem Like.sameDims {x y : Dense ℝ} (h : x.Like y) : x.sameDims y = true := by
  simp [Dense.sameDims, h.rows, h.cols]

theorem sameDims_iff {R : Type} {x y : Dense R} : x.sameDims y = true ↔ x.rows = y.rows ∧ x.cols = y.cols := by
  simp [Dense.sameDims]

@[simp] theorem map_rows {R : Type} (d : Dense R) (f : R → R) : (d.map f).rows = d.rows := rfl
@[simp] theorem map_cols {R : Type} (d : Dense R) (f : R → R) : (d.map f).cols = d.cols := rfl
@[simp] theorem map_length {R : Type} (d : Dense R) (f : R → R) : (d.map f).data.length = d.data.length := by
  simp [Dense.map]

theorem map_WF {R : Type} {d : Dense R} (h : d.WF) (f : R → R) : (d.map f).WF := by
  simpa [WF] using h

theorem val_map (d : Dense ℝ) (f : ℝ → ℝ) {i : Nat} (h : i < d.data.length) :
    (d.map f).val i = f (d.val i) := by
  rw [val_of_lt _ (by simpa using h), val_of_lt _ h]; simp [Dense.map]

theorem like_map {x y : Dense ℝ} (h : x.Like y) (f : ℝ → ℝ) : x.Like (y.map f) :=
  ⟨map_WF h.wf f, h.rows, h.cols⟩

theorem applyLoop_const {R : Type} (cols : Nat) (f : R → R) (l : List R) (r c : Nat) :
    applyLoop cols (fun _ _ v => f v) l r c = l.map f := by
  induction l generalizing r c with
  | nil => rfl
  | cons v l ih => simp only [applyLoop, List.map_cons]; split <;> rw [ih]

theorem apply_const {R : Type} (d : Dense R) (f : R → R) : d.apply (fun _ _ v => f v) = d.map f := by
  simp [Dense.apply, Dense.map, applyLoop_const]

theorem zipOp_of {R : Type} {a b : Dense R} (f : R → R → R) (hr : a.rows = b.rows) (hc : a.cols = b.cols) :
    zipOp f a b = some ⟨a.rows, a.cols, List.zipWith f a.data b.data⟩ := by
  rw [zipOp, if_pos (sameDims_iff.mpr ⟨hr, hc⟩)]

/-- The element-wise combination of matrices of equal dimensions. -/
def zip2 {R : Type} (f : R → R → R) (a b : Dense R) : Dense R := ⟨a.rows, a.cols, List.zipWith f a.data b.data⟩

theorem zipOp_like {a b : Dense ℝ} (f : ℝ → ℝ → ℝ) (h : a.Like b) : zipOp f a b = some (zip2 f a b) :=
  zipOp_of f h.rows.symm h.cols.symm

theorem zip2_like {a b : Dense ℝ} (f : ℝ → ℝ → ℝ) (ha : a.WF) (h : a.Like b) : a.Like (zip2 f a b) :=
  ⟨by simp [WF, zip2, h.len ha]; exact ha, rfl, rfl⟩

theorem val_zip2 {a b : Dense ℝ} (f : ℝ → ℝ → ℝ) {i : Nat} (ha : i < a.data.length) (hb : i < b.data.length) :
    (zip2 f a b).val i = f (a.val i) (b.val i) := by
  rw [val_of_lt _ (by simp [zip2]; exact ⟨ha, hb⟩), val_of_lt _ ha, val_of_lt _ hb]; simp [zip2]

theorem sum_eq_val (d : Dense ℝ) : d.sum = ∑ i ∈ Finset.range d.data.length, d.val i := by
  rw [VecFn.sum_eq]
  have : ∀ l : List ℝ, l.sum = ∑ i ∈ Finset.range l.length, l.getD i 0 := by
    intro l
    induction l with
    | nil => simp
    | cons a l ih => rw [List.sum_cons, List.length_cons, Finset.sum_range_succ', ih]; simp [add_comm]
  exact this d.data

theorem scalar_like {d : Dense ℝ} (h : d.WF) (hr : d.rows = 1) (hc : d.cols = 1) (c : ℝ) : d.Like (scalar c) :=
  ⟨by simp [WF, scalar], hr.symm, hc.symm⟩

@[simp] theorem scalar_val (c : ℝ) : (scalar c).val 0 = c := by simp [val, scalar]
@[simp] theorem scalar_length {R : Type} (c : R) : (scalar c).data.length = 1 := rfl

theorem el_val (d : Dense ℝ) {i j : Nat} (hi : i < d.rows) (hj : j < d.cols) :
    d.el i j = d.val (i * d.cols + j) := el_eq hi hj

/-- Sums over all elements are double sums over rows and columns. -/
theorem sum_range_mul (r c : Nat) (F : Nat → ℝ) :
    ∑ k ∈ Finset.range (r * c), F k = ∑ i ∈ Finset.range r, ∑ j ∈ Finset.range c, F (i * c + j) := by
  induction r with
  | zero => simp
  | succ r ih => rw [Nat.succ_mul, Finset.sum_range_add, ih, Finset.sum_range_succ]

theorem WF.idx {R : Type} {d : Dense R} (h : d.WF) {i j : Nat} (hi : i < d.rows) (hj : j < d.cols) :
    i * d.cols + j < d.data.length := by
  rw [h]; exact GoSlice.idx_lt hi hj

end Dense

namespace GradFn
open Dense

theorem item_eq {d : Dense ℝ} {c : ℝ} : item d = some c ↔ d.data.length = 1 ∧ c = d.val 0 := by
  unfold item isScalar
  by_cases h : d.data.length = 1
  · rw [if_pos (by simpa using h)]
    have : d.data[0]? = some (d.val 0) := by
      rw [List.getElem?_eq_getElem (by omega), val_of_lt _ (by omega)]
    rw [this]; simp [h, eq_comm]
  · rw [if_neg (by simpa using h)]; simp [h]

theorem item_of {d : Dense ℝ} (h : d.data.length = 1) : item d = some (d.val 0) := item_eq.mpr ⟨h, rfl⟩

theorem Curve.len {x : Dense ℝ} {X : ℝ → Dense ℝ} {v : Nat → ℝ} (h : Curve x X v) (t : ℝ) :
    (X t).data.length = x.data.length :=
  (h.like t).len (h.start ▸ (h.like 0).wf)

theorem Curve.wf {x : Dense ℝ} {X : ℝ → Dense ℝ} {v : Nat → ℝ} (h : Curve x X v) : x.WF :=
  h.start ▸ (h.like 0).wf

theorem Curve.el {x : Dense ℝ} {X : ℝ → Dense ℝ} {v : Nat → ℝ} (h : Curve x X v) {i j : Nat}
    (hi : i < x.rows) (hj : j < x.cols) :
    HasDerivAt (fun t => (X t).el i j) (v (i * x.cols + j)) 0 := by
  have e : (fun t => (X t).el i j) = fun t => (X t).val (i * x.cols + j) := by
    funext t
    have := h.like t
    rw [el_val _ (this.rows ▸ hi) (this.cols ▸ hj), this.cols]
  rw [e]
  exact h.deriv _ (h.wf.idx hi hj)

/-- From the velocities of all elements of the result. -/
theorem isVJPOn_of_entries {act : Nat → Prop} {op : GradFn ℝ} {xs : List (Dense ℝ)} {gy : Dense ℝ}
    {gs : List (Option (Dense ℝ))}
    (h : ∀ (X : Nat → ℝ → Dense ℝ) (v : Nat → Nat → ℝ),
      (∀ k x, xs[k]? = some x → Curve x (X k) (v k)) →
      (∀ k, ¬ act k → ∀ t, X k t = X k 0) → (∀ k, ¬ act k → ∀ i, v k i = 0) →
      ∃ (Y : ℝ → Dense ℝ) (D : Nat → ℝ),
        (∀ᶠ t in 𝓝 0, op.forward ((List.range xs.length).map fun k => X k t) = some (Y t) ∧ gy.Like (Y t)) ∧
        (∀ i < gy.data.length, HasDerivAt (fun t => (Y t).val i) (D i) 0) ∧
        ∑ i ∈ Finset.range gy.data.length, gy.val i * D i = ∑ k ∈ Finset.range xs.length,
          ∑ i ∈ Finset.range ((xs.map fun x => x.data.length).getD k 0), gradVal gs k i * v k i) :
    IsVJPOn act op xs gy gs := by
  intro X v hX hc hv
  obtain ⟨Y, D, hY, hD, hs⟩ := h X v hX hc hv
  refine ⟨Y, hY, ?_⟩
  rw [← hs]
  refine HasDerivAt.fun_sum fun i hi => ?_
  exact (hD i (Finset.mem_range.mp hi)).const_mul _

/-- One operand. -/
theorem isVJP1 {op : GradFn ℝ} {x gy gx : Dense ℝ} (F : Dense ℝ → Dense ℝ) (D : (Nat → ℝ) → Nat → ℝ)
    (hx : x.WF) (hf : ∀ x', x.Like x' → op.forward [x'] = some (F x') ∧ gy.Like (F x'))
    (hd : ∀ X v, Curve x X v → ∀ i < gy.data.length, HasDerivAt (fun t => (F (X t)).val i) (D v i) 0)
    (ha : ∀ v, ∑ i ∈ Finset.range gy.data.length, gy.val i * D v i =
      ∑ i ∈ Finset.range x.data.length, gx.val i * v i) :
    IsVJP op [x] gy [some gx] := by
  refine isVJPOn_of_entries fun X v hX _ _ => ?_
  have h0 := hX 0 x rfl
  refine ⟨fun t => F (X 0 t), D (v 0), Filter.Eventually.of_forall fun t => ?_, hd _ _ h0, ?_⟩
  · simpa using hf _ (h0.like t)
  · rw [ha]; simp [gradVal]

/-- Two operands. -/
theorem isVJP2 {op : GradFn ℝ} {x1 x2 gy g1 g2 : Dense ℝ} (F : Dense ℝ → Dense ℝ → Dense ℝ)
    (D : (Nat → ℝ) → (Nat → ℝ) → Nat → ℝ)
    (hf : ∀ a b, x1.Like a → x2.Like b → op.forward [a, b] = some (F a b) ∧ gy.Like (F a b))
    (hd : ∀ X v X' v', Curve x1 X v → Curve x2 X' v' → ∀ i < gy.data.length,
      HasDerivAt (fun t => (F (X t) (X' t)).val i) (D v v' i) 0)
    (ha : ∀ v v', ∑ i ∈ Finset.range gy.data.length, gy.val i * D v v' i =
      ∑ i ∈ Finset.range x1.data.length, g1.val i * v i +
        ∑ i ∈ Finset.range x2.data.length, g2.val i * v' i) :
    IsVJP op [x1, x2] gy [some g1, some g2] := by
  refine isVJPOn_of_entries fun X v hX _ _ => ?_
  have h0 := hX 0 x1 rfl
  have h1 := hX 1 x2 rfl
  refine ⟨fun t => F (X 0 t) (X 1 t), D (v 0) (v 1), Filter.Eventually.of_forall fun t => ?_,
    hd _ _ _ _ h0 h1, ?_⟩
  · simpa [List.range_succ] using hf _ _ (h0.like t) (h1.like t)
  · rw [ha]; simp [gradVal, Finset.sum_range_succ]

theorem gradShapes1 {x g : Dense ℝ} (h : x.Like g) : GradShapes [x] [some g] := by
  refine ⟨rfl, fun k a b ha hb => ?_⟩
  cases k with
  | zero => simp at ha hb; subst ha hb; exact h
  | succ k => simp at ha

theorem gradShapes2 {x1 x2 g1 g2 : Dense ℝ} (h1 : x1.Like g1) (h2 : x2.Like g2) :
    GradShapes [x1, x2] [some g1, some g2] := by
  refine ⟨rfl, fun k a b ha hb => ?_⟩
  rcases k with _ | _ | k
  · simp at ha hb; subst ha hb; exact h1
  · simp at ha hb; subst ha hb; exact h2
  · simp at ha

end GradFn
end Verif
