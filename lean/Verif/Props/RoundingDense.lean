import Verif.Props.Rounding
import Verif.Props.DenseMul
import Verif.Lemmas.Nearest

set_option autoImplicit false
set_option linter.unusedSimpArgs false

/-!
# C79: rounding errors of the matrix products

The operations of `Dense` are those of the model for exact elements, now with the numbers of a format as elements and the
rounded sum and product as `+` and `*`.
-/

namespace Verif.Dense
open Verif.Spec Verif.Asm GoSlice Polynomial

variable {u : ℝ} {ρ : Rounding u}

/-- The numbers of the format. -/
def Fl (ρ : Rounding u) := {x : ℝ // ρ.Fits x}

namespace Fl
noncomputable instance : Zero (Fl ρ) := ⟨⟨0, rd_zero ρ⟩⟩
noncomputable instance : Add (Fl ρ) := ⟨fun a b => ⟨ρ.rd (a.1 + b.1), ρ.idem _⟩⟩
noncomputable instance : Mul (Fl ρ) := ⟨fun a b => ⟨ρ.rd (a.1 * b.1), ρ.idem _⟩⟩
end Fl

/-- The exact element that belongs to a number. -/
noncomputable def lf (x : Fl ρ) : Trace := leaf x.1

/-- A list of numbers belongs to a list of exact elements. -/
def FollowL (ρ : Rounding u) : List Trace → List (Fl ρ) → Prop := List.Forall₂ fun b a => Follows ρ b a.1

theorem lf_follows (x : Fl ρ) : Follows ρ (lf x) x.1 := leaf_follows ρ x.2

theorem lf_ne_zero (x : Fl ρ) : lf x ≠ 0 := fun h => X_ne_zero (congrArg (fun b : Trace => b.2.2) h)

theorem zero_follows : Follows ρ 0 (0 : Fl ρ).1 := .inl ⟨rfl, rfl⟩

theorem map_follow (l : List (Fl ρ)) : FollowL ρ (l.map lf) l := by
  induction l with
  | nil => exact .nil
  | cons a l ih => exact .cons (lf_follows a) ih

theorem replicate_follow (n : Nat) : FollowL ρ (List.replicate n 0) (List.replicate n (0 : Fl ρ)) := by
  induction n with
  | zero => exact .nil
  | succ n ih => exact .cons zero_follows ih

theorem follow_append {L L' : List Trace} {l l' : List (Fl ρ)} (h : FollowL ρ L l) (h' : FollowL ρ L' l') :
    FollowL ρ (L ++ L') (l ++ l') := by
  induction h with
  | nil => exact h'
  | cons h1 _ ih => exact .cons h1 ih

theorem follow_drop {L : List Trace} {l : List (Fl ρ)} (h : FollowL ρ L l) : ∀ n, FollowL ρ (L.drop n) (l.drop n) := by
  induction h with
  | nil => intro n; rw [List.drop_nil, List.drop_nil]; exact .nil
  | cons h1 h2 ih =>
    intro n
    cases n with
    | zero => exact .cons h1 h2
    | succ n => exact ih n

theorem add_fl (hu : 0 ≤ u) {B B' : Trace} {a a' : Fl ρ} (h : Follows ρ B a.1) (h' : Follows ρ B' a'.1) :
    Follows ρ (B + B') (a + a').1 := add_follows hu ρ h h'

theorem mul_fl (hu : 0 ≤ u) {B B' : Trace} {a a' : Fl ρ} (h : Follows ρ B a.1) (h' : Follows ρ B' a'.1) :
    Follows ρ (B * B') (a * a').1 := (fl_rel hu ρ).op .mul rfl _ _ _ _ h h'

/-- A term with factor zero that is left out. -/
theorem skip_follows (hu : 0 ≤ u) {B : Trace} {a : ℝ} (x : Fl ρ) (h : Follows ρ B a) :
    Follows ρ (leaf 0 * lf x + B) a := by
  have hne : (leaf 0 * lf x + B).2.2 ≠ 0 := by
    refine add_ne_zero_left _ (mul_ne_zero (b := (lf x).2.2) X_ne_zero X_ne_zero)
  have hdg : 2 ≤ (leaf 0 * lf x + B).2.2.natDegree := by
    refine le_trans ?_ (natDegree_le_add (leaf 0 * lf x).2.2 B.2.2)
    show 2 ≤ (X * X : ℕ[X]).natDegree
    rw [natDegree_mul X_ne_zero X_ne_zero]; simp
  have e1 : (leaf 0 * lf x + B).1 = B.1 := by show 0 * x.1 + B.1 = _; ring
  have e2 : (leaf 0 * lf x + B).2.1 = B.2.1 := by show |(0:ℝ)| * |x.1| + B.2.1 = _; rw [abs_zero]; ring
  refine .inr ⟨hne, by omega, ?_⟩
  rw [e1, e2]
  rcases h with ⟨rfl, rfl⟩ | ⟨h1, h2, h3, h4, h5⟩
  · exact ⟨rd_zero ρ, by simp, by simp⟩
  · refine ⟨h3, h4, h5.trans (mul_le_mul_of_nonneg_right (growth_mono hu ?_) ((abs_nonneg _).trans h4))⟩
    have d := natDegree_le_add B.2.2 (leaf 0 * lf x).2.2
    have e3 : (leaf 0 * lf x + B).2.2 = (leaf 0 * lf x).2.2 + B.2.2 := rfl
    rw [add_comm, ← e3] at d
    unfold steps
    have : (leaf 0 * lf x + B).2.2.eval 1 = (leaf 0 * lf x).2.2.eval 1 + B.2.2.eval 1 := by rw [e3, eval_add]
    omega

theorem axpy_follow (hu : 0 ≤ u) (v : Fl ρ) : ∀ {X : List Trace} {x : List (Fl ρ)} {Y : List Trace} {y : List (Fl ρ)},
    FollowL ρ X x → FollowL ρ Y y → ∀ {Z}, axpy (lf v) X Y = some Z → ∃ z, axpy v x y = some z ∧ FollowL ρ Z z := by
  intro X x Y y hX hY Z hZ
  unfold axpy at hZ ⊢
  rw [hX.length_eq, hY.length_eq] at hZ
  by_cases hl : y.length < x.length
  · rw [if_pos hl] at hZ; cases hZ
  rw [if_neg hl] at hZ ⊢
  cases hZ
  refine ⟨_, rfl, follow_append ?_ (follow_drop hY _)⟩
  clear hl
  induction hX generalizing Y y with
  | nil => exact .nil
  | cons h1 h2 ih =>
    cases hY with
    | nil => exact .nil
    | cons g1 g2 => exact .cons (add_fl hu (mul_fl hu (lf_follows v) h1) g1) (ih g2)

/-- Rows of zeros do not matter. -/
theorem axpy_skip (hu : 0 ≤ u) : ∀ {x : List (Fl ρ)} {Y : List Trace} {y : List (Fl ρ)}, FollowL ρ Y y →
    ∀ {Z}, axpy (leaf 0) (x.map lf) Y = some Z → FollowL ρ Z y := by
  intro x Y y hY Z hZ
  unfold axpy at hZ
  split at hZ
  · cases hZ
  cases hZ
  rename_i hl
  induction x generalizing Y y with
  | nil => exact hY
  | cons a x ih =>
    cases hY with
    | nil => simp at hl
    | cons g1 g2 =>
      refine .cons (skip_follows hu a g1) (ih g2 ?_)
      simpa using hl

theorem sub_map {A B : Type} (f : A → B) (l : List A) (i j : Nat) : sub (l.map f) i j = (sub l i j).map (List.map f) := by
  unfold sub
  rw [List.length_map]
  split <;> simp [List.map_take, List.map_drop]

theorem mulRow_follow (hu : 0 ≤ u) [DecidableEq (Fl ρ)] [DecidableEq Trace] (b : List (Fl ρ)) (bCols : Nat) :
    ∀ (vs : List (Fl ρ)) (l : Nat) {C : List Trace} {c : List (Fl ρ)}, FollowL ρ C c →
      ∀ {Z}, mulRow (b.map lf) bCols (vs.map lf) l C = some Z →
        ∃ z, mulRow b bCols vs l c = some z ∧ FollowL ρ Z z := by
  intro vs
  induction vs with
  | nil => intro l C c h Z hZ; cases hZ; exact ⟨c, rfl, h⟩
  | cons v vs ih =>
    intro l C c h Z hZ
    simp only [List.map_cons, mulRow] at hZ
    rw [if_neg (lf_ne_zero v), sub_map] at hZ
    simp only [Option.bind_eq_bind] at hZ
    cases hs : sub b (l * bCols) (l * bCols + bCols) with
    | none => rw [hs] at hZ; cases hZ
    | some row =>
      rw [hs] at hZ
      simp only [Option.map_some, Option.bind_some] at hZ
      obtain ⟨D, hD, hZ⟩ := Option.bind_eq_some_iff.mp hZ
      unfold mulRow
      by_cases hv : v = 0
      · rw [if_pos hv]
        refine ih (l + 1) (axpy_skip hu h (x := row) ?_) hZ
        rw [← hD, hv]; rfl
      · rw [if_neg hv, hs]
        simp only [Option.bind_eq_bind, Option.bind_some]
        obtain ⟨d, hd, hf⟩ := axpy_follow hu v (map_follow row) h hD
        rw [hd]
        exact ih (l + 1) hf hZ

theorem mulRows_follow (hu : 0 ≤ u) [DecidableEq (Fl ρ)] [DecidableEq Trace] (a b : List (Fl ρ)) (aCols bCols : Nat) :
    ∀ (is : List Nat) {Z}, mulRows (a.map lf) (b.map lf) aCols bCols is = some Z →
      ∃ z, mulRows a b aCols bCols is = some z ∧ FollowL ρ Z z := by
  intro is
  induction is with
  | nil => intro Z hZ; cases hZ; exact ⟨[], rfl, .nil⟩
  | cons i is ih =>
    intro Z hZ
    unfold mulRows at hZ ⊢
    rw [sub_map] at hZ
    simp only [Option.bind_eq_bind] at hZ ⊢
    cases hs : sub a (i * aCols) (i * aCols + aCols) with
    | none => rw [hs] at hZ; cases hZ
    | some row =>
      rw [hs] at hZ
      simp only [Option.map_some, Option.bind_some] at hZ ⊢
      obtain ⟨D, hD, hZ⟩ := Option.bind_eq_some_iff.mp hZ
      obtain ⟨d, hd, hf⟩ := mulRow_follow hu b bCols row 0 (replicate_follow bCols) hD
      obtain ⟨E, hE, hZ⟩ := Option.bind_eq_some_iff.mp hZ
      obtain ⟨e, he, hg⟩ := ih hE
      cases hZ
      exact ⟨d ++ e, by rw [hd, he]; rfl, follow_append hf hg⟩

theorem foldl_follow (hu : 0 ≤ u) : ∀ {L : List Trace} {l : List (Fl ρ)}, FollowL ρ L l → ∀ {B : Trace} {a : Fl ρ},
    Follows ρ B a.1 → Follows ρ (L.foldl (· + ·) B) (l.foldl (· + ·) a).1 := by
  intro L l h
  induction h with
  | nil => intro B a h; exact h
  | cons h1 _ ih => intro B a h; exact ih (add_fl hu h h1)

theorem dotProd_follow (hu : 0 ≤ u) (x y : List (Fl ρ)) {B : Trace} (h : dotProd (x.map lf) (y.map lf) = some B) :
    ∃ a, dotProd x y = some a ∧ Follows ρ B a.1 := by
  unfold dotProd at h ⊢
  simp only [List.length_map] at h
  by_cases h0 : x.length = 0
  · rw [if_pos h0] at h ⊢; cases h; exact ⟨0, rfl, zero_follows⟩
  rw [if_neg h0] at h ⊢
  by_cases h1 : y.length < x.length
  · rw [if_pos h1] at h; cases h
  rw [if_neg h1] at h ⊢
  cases h
  refine ⟨_, rfl, foldl_follow hu ?_ zero_follows⟩
  clear h0 h1
  induction x generalizing y with
  | nil => exact .nil
  | cons a x ih =>
    cases y with
    | nil => exact .nil
    | cons b y => exact .cons (mul_fl hu (lf_follows a) (lf_follows b)) (ih y)

theorem dotRows_follow (hu : 0 ≤ u) (a x : List (Fl ρ)) (aCols : Nat) :
    ∀ (is : List Nat) {Z}, dotRows (a.map lf) (x.map lf) aCols is = some Z →
      ∃ z, dotRows a x aCols is = some z ∧ FollowL ρ Z z := by
  intro is
  induction is with
  | nil => intro Z hZ; cases hZ; exact ⟨[], rfl, .nil⟩
  | cons i is ih =>
    intro Z hZ
    unfold dotRows at hZ ⊢
    rw [sub_map] at hZ
    simp only [Option.bind_eq_bind] at hZ ⊢
    cases hs : sub a (i * aCols) (i * aCols + aCols) with
    | none => rw [hs] at hZ; cases hZ
    | some row =>
      rw [hs] at hZ
      simp only [Option.map_some, Option.bind_some] at hZ ⊢
      obtain ⟨D, hD, hZ⟩ := Option.bind_eq_some_iff.mp hZ
      obtain ⟨d, hd, hf⟩ := dotProd_follow hu row x hD
      obtain ⟨E, hE, hZ⟩ := Option.bind_eq_some_iff.mp hZ
      obtain ⟨e, he, hg⟩ := ih hE
      cases hZ
      exact ⟨d :: e, by rw [hd, he]; rfl, .cons hf hg⟩

theorem mulTLoop_follow (hu : 0 ≤ u) (a : List (Fl ρ)) (aCols : Nat) :
    ∀ (vs : List (Fl ρ)) (start : Nat) {C : List Trace} {c : List (Fl ρ)}, FollowL ρ C c →
      ∀ {Z}, mulTLoop (a.map lf) aCols (vs.map lf) start C = some Z →
        ∃ z, mulTLoop a aCols vs start c = some z ∧ FollowL ρ Z z := by
  intro vs
  induction vs with
  | nil => intro l C c h Z hZ; cases hZ; exact ⟨c, rfl, h⟩
  | cons v vs ih =>
    intro l C c h Z hZ
    simp only [List.map_cons, mulTLoop] at hZ ⊢
    rw [sub_map] at hZ
    simp only [Option.bind_eq_bind] at hZ ⊢
    cases hs : sub a l (l + aCols) with
    | none => rw [hs] at hZ; cases hZ
    | some row =>
      rw [hs] at hZ
      simp only [Option.map_some, Option.bind_some] at hZ ⊢
      obtain ⟨D, hD, hZ⟩ := Option.bind_eq_some_iff.mp hZ
      obtain ⟨d, hd, hf⟩ := axpy_follow hu v (map_follow row) h hD
      rw [hd]
      exact ih (l + aCols) hf hZ

/-! ### Matrices -/

/-- The exact matrix that belongs to a matrix of numbers. -/
noncomputable def trace (d : Dense (Fl ρ)) : Dense Trace := ⟨d.rows, d.cols, d.data.map lf⟩

/-- A matrix of numbers belongs to a matrix of exact elements. -/
def FollowM (ρ : Rounding u) (D : Dense Trace) (d : Dense (Fl ρ)) : Prop :=
  D.rows = d.rows ∧ D.cols = d.cols ∧ FollowL ρ D.data d.data

theorem trace_WF {d : Dense (Fl ρ)} (h : d.WF) : (trace d).WF := by
  show (d.data.map lf).length = d.rows * d.cols
  rw [List.length_map]; exact h

theorem make_follow {Z : List Trace} {z : List (Fl ρ)} (h : FollowL ρ Z z) {r c : Nat} {D : Dense Trace}
    (hD : make Z r c = some D) : ∃ d, make z r c = some d ∧ FollowM ρ D d := by
  unfold make at hD ⊢
  rw [h.length_eq] at hD
  split at hD
  · rename_i hl
    cases hD
    exact ⟨_, if_pos hl, rfl, rfl, h⟩
  · cases hD

theorem mul_follow (hu : 0 ≤ u) [DecidableEq (Fl ρ)] [DecidableEq Trace] {a b : Dense (Fl ρ)} {D : Dense Trace}
    (h : (trace a).mul (trace b) = some D) : ∃ d, a.mul b = some d ∧ FollowM ρ D d := by
  unfold mul at h ⊢
  by_cases hd : a.cols = b.rows
  swap
  · rw [if_pos (show (trace a).cols ≠ (trace b).rows from hd)] at h; cases h
  rw [if_neg (show ¬ (trace a).cols ≠ (trace b).rows from not_not_intro hd)] at h
  rw [if_neg (not_not_intro hd)]
  by_cases hc : b.cols = 1
  · rw [if_neg (show ¬ (trace b).cols ≠ 1 from not_not_intro hc)] at h
    rw [if_neg (not_not_intro hc)]
    simp only [Option.bind_eq_bind] at h ⊢
    obtain ⟨Z, hZ, h⟩ := Option.bind_eq_some_iff.mp h
    obtain ⟨z, hz, hf⟩ := dotRows_follow hu a.data b.data a.cols (List.range a.rows) hZ
    rw [hz]
    exact make_follow hf h
  · rw [if_pos (show (trace b).cols ≠ 1 from hc)] at h
    rw [if_pos hc]
    simp only [Option.bind_eq_bind] at h ⊢
    obtain ⟨Z, hZ, h⟩ := Option.bind_eq_some_iff.mp h
    obtain ⟨z, hz, hf⟩ := mulRows_follow hu a.data b.data a.cols b.cols (List.range a.rows) hZ
    rw [hz]
    exact make_follow hf h

theorem mulT_follow (hu : 0 ≤ u) {a b : Dense (Fl ρ)} {D : Dense Trace}
    (h : (trace a).mulT (trace b) = some D) : ∃ d, a.mulT b = some d ∧ FollowM ρ D d := by
  unfold mulT at h ⊢
  by_cases hd : a.rows = b.rows
  swap
  · rw [if_pos (show (trace a).rows ≠ (trace b).rows from hd)] at h; cases h
  rw [if_neg (show ¬ (trace a).rows ≠ (trace b).rows from not_not_intro hd)] at h
  rw [if_neg (not_not_intro hd)]
  by_cases hc : b.cols = 1
  swap
  · rw [if_pos (show (trace b).cols ≠ 1 from hc)] at h; cases h
  rw [if_neg (show ¬ (trace b).cols ≠ 1 from not_not_intro hc)] at h
  rw [if_neg (not_not_intro hc)]
  simp only [Option.bind_eq_bind] at h ⊢
  obtain ⟨Z, hZ, h⟩ := Option.bind_eq_some_iff.mp h
  obtain ⟨z, hz, hf⟩ := mulTLoop_follow hu a.data a.cols b.data 0 (replicate_follow (a.cols * b.cols)) hZ
  rw [hz]
  exact make_follow hf h

theorem follow_getD {L : List Trace} {l : List (Fl ρ)} (h : FollowL ρ L l) :
    ∀ i, Follows ρ (L.getD i 0) (l.getD i 0).1 := by
  induction h with
  | nil => intro i; simpa using zero_follows
  | cons h1 _ ih =>
    intro i
    cases i with
    | zero => exact h1
    | succ i => simpa using ih i

theorem follow_el {D : Dense Trace} {d : Dense (Fl ρ)} (h : FollowM ρ D d) {i j : Nat} (hi : i < d.rows)
    (hj : j < d.cols) : Follows ρ (D.el i j) (d.el i j).1 := by
  rw [el, el, at2_some D (h.1 ▸ hi) (h.2.1 ▸ hj), at2_some d hi hj, h.2.1, ← List.getD_eq_getElem?_getD,
    ← List.getD_eq_getElem?_getD]
  exact follow_getD h.2.2 _

theorem trace_el {d : Dense (Fl ρ)} (hw : d.WF) {i j : Nat} (hi : i < d.rows) (hj : j < d.cols) :
    (trace d).el i j = lf (d.el i j) := by
  have hlt : i * d.cols + j < d.data.length := by
    have hw' : d.data.length = d.rows * d.cols := hw
    rw [hw']
    calc i * d.cols + j < i * d.cols + d.cols := by omega
      _ = (i + 1) * d.cols := by ring
      _ ≤ _ := Nat.mul_le_mul_right _ hi
  rw [el, el, at2_some (trace d) hi hj, at2_some d hi hj]
  simp [trace, List.getElem?_map, hlt]

/-- The sum of `n` products of elements. -/
theorem sum_lf (n : Nat) (f g : Nat → Fl ρ) : ∑ k ∈ Finset.range n, lf (f k) * lf (g k) =
    (∑ k ∈ Finset.range n, (f k).1 * (g k).1, ∑ k ∈ Finset.range n, |(f k).1 * (g k).1|, (n : ℕ[X]) * X ^ 2) := by
  induction n with
  | zero => simp; rfl
  | succ n ih =>
    rw [Finset.sum_range_succ, ih, Finset.sum_range_succ, Finset.sum_range_succ]
    simp only [lf, leaf, Prod.mk_mul_mk, Prod.mk_add_mk, abs_mul, Nat.cast_add, Nat.cast_one]
    congr 2
    ring

theorem sum_bound {n : Nat} {f g : Nat → Fl ρ} {a : ℝ}
    (h : Follows ρ (∑ k ∈ Finset.range n, lf (f k) * lf (g k)) a) :
    |a - ∑ k ∈ Finset.range n, (f k).1 * (g k).1| ≤ growth u n * ∑ k ∈ Finset.range n, |(f k).1 * (g k).1| := by
  rw [sum_lf] at h
  exact follows_bound h (fun h0 => by simp [h0])

/-- **C79.** Every element of `a.Mul(b)` is within `(1+u)^k - 1` times the sum of the absolute values of its products of
the exact element; `k` is the number of columns of `a`. -/
theorem mul_rounding (hu : 0 ≤ u) [DecidableEq (Fl ρ)] {a b : Dense (Fl ρ)} (ha : a.WF) (hb : b.WF)
    (hd : a.cols = b.rows) :
    ∃ y, a.mul b = some y ∧ y.WF ∧ y.rows = a.rows ∧ y.cols = b.cols ∧
      ∀ i < a.rows, ∀ j < b.cols,
        |(y.el i j).1 - ∑ k ∈ Finset.range a.cols, (a.el i k).1 * (b.el k j).1| ≤
          growth u a.cols * ∑ k ∈ Finset.range a.cols, |(a.el i k).1 * (b.el k j).1| := by
  classical
  obtain ⟨h1, h2⟩ := mul_spec (trace_WF ha) (trace_WF hb)
  obtain ⟨D, hD⟩ := Option.isSome_iff_exists.mp (h1.mpr hd)
  obtain ⟨hw, hr, hc, he⟩ := h2 D hD
  obtain ⟨y, hy, hf⟩ := mul_follow hu hD
  have hr' : y.rows = a.rows := hf.1.symm.trans hr
  have hc' : y.cols = b.cols := hf.2.1.symm.trans hc
  refine ⟨y, hy, ?_, hr', hc', ?_⟩
  · show y.data.length = y.rows * y.cols
    rw [← hf.2.2.length_eq, ← hf.1, ← hf.2.1]; exact hw
  · intro i hi j hj
    have := follow_el hf (i := i) (j := j) (hr' ▸ hi) (hc' ▸ hj)
    rw [he i hi j hj, Finset.sum_congr rfl (g := fun k => lf (a.el i k) * lf (b.el k j)) (by
      intro k hk
      have hk : k < a.cols := Finset.mem_range.mp hk
      rw [trace_el ha hi hk, trace_el hb (hd ▸ hk) hj])] at this
    exact sum_bound this

/-- **C79.** The same for `a.MulT(v)`. -/
theorem mulT_rounding (hu : 0 ≤ u) {a v : Dense (Fl ρ)} (ha : a.WF) (hv : v.WF) (hd : a.rows = v.rows)
    (hc : v.cols = 1) :
    ∃ y, a.mulT v = some y ∧ y.WF ∧ y.rows = a.cols ∧ y.cols = 1 ∧
      ∀ i < a.cols,
        |(y.el i 0).1 - ∑ k ∈ Finset.range a.rows, (a.el k i).1 * (v.el k 0).1| ≤
          growth u a.rows * ∑ k ∈ Finset.range a.rows, |(a.el k i).1 * (v.el k 0).1| := by
  obtain ⟨h1, h2⟩ := mulT_spec (trace_WF ha) (trace_WF hv)
  obtain ⟨D, hD⟩ := Option.isSome_iff_exists.mp (h1.mpr ⟨hd, hc⟩)
  obtain ⟨hw, hr, hc', he⟩ := h2 D hD
  obtain ⟨y, hy, hf⟩ := mulT_follow hu hD
  have hr' : y.rows = a.cols := hf.1.symm.trans hr
  have hc'' : y.cols = 1 := hf.2.1.symm.trans hc'
  refine ⟨y, hy, ?_, hr', hc'', ?_⟩
  · show y.data.length = y.rows * y.cols
    rw [← hf.2.2.length_eq, ← hf.1, ← hf.2.1]; exact hw
  · intro i hi
    have := follow_el hf (i := i) (j := 0) (hr' ▸ hi) (by omega)
    rw [he i hi, Finset.sum_congr rfl (g := fun k => lf (a.el k i) * lf (v.el k 0)) (by
      intro k hk
      have hk : k < a.rows := Finset.mem_range.mp hk
      rw [trace_el ha hk hi, trace_el hv (hd ▸ hk) (by omega)])] at this
    exact sum_bound this

theorem foldl_sum (l : List Trace) : l.foldl (· + ·) 0 = l.sum := by
  rw [List.sum_eq_foldl]

/-- **C79.** `Sum` (the portable loop): within `(1+u)^(n-1) - 1` times the sum of the absolute values. -/
theorem sum_rounding (hu : 0 ≤ u) (d : Dense (Fl ρ)) :
    |d.sum.1 - (d.data.map (·.1)).sum| ≤ growth u (d.data.length - 1) * (d.data.map (|·.1|)).sum := by
  have h := foldl_follow hu (map_follow d.data) zero_follows
  rw [foldl_sum, show d.data.map lf = (d.data.map (·.1)).map leaf by rw [List.map_map]; rfl, sum_leaf,
    ← pow_one (X : ℕ[X])] at h
  have := follows_bound h (fun h0 => by
    have : d.data = [] := by simpa using h0
    simp [this])
  simpa [List.map_map, Function.comp_def, Dense.sum] using this

/-- **C79.** `DotUnitary` (the portable loop) of two matrices of the same dimensions. -/
theorem dotUnitary_rounding (hu : 0 ≤ u) {a b : Dense (Fl ρ)} (ha : a.WF) (hb : b.WF) (hr : a.rows = b.rows)
    (hc : a.cols = b.cols) :
    ∃ y, a.dotUnitary b = some y ∧
      |y.1 - (List.zipWith (fun v w => v.1 * w.1) a.data b.data).sum| ≤
        growth u (a.rows * a.cols) * (List.zipWith (fun v w => |v.1 * w.1|) a.data b.data).sum := by
  have ha' : a.data.length = a.rows * a.cols := ha
  have hb' : b.data.length = b.rows * b.cols := hb
  have hl : (a.data.map lf).length = (b.data.map lf).length := by simp [ha', hb', hr, hc]
  have hD : dotProd (a.data.map lf) (b.data.map lf) =
      some (List.zipWith (· * ·) (a.data.map lf) (b.data.map lf)).sum := by
    unfold dotProd
    by_cases h0 : (a.data.map lf).length = 0
    · rw [if_pos h0, List.length_eq_zero_iff.mp h0]; rfl
    · rw [if_neg h0, if_neg (by omega), foldl_sum]
  obtain ⟨y, hy, hf⟩ := dotProd_follow hu a.data b.data hD
  refine ⟨y, by simp [dotUnitary, sameDims, hr, hc, hy], ?_⟩
  rw [show a.data.map lf = (a.data.map (·.1)).map leaf by rw [List.map_map]; rfl,
    show b.data.map lf = (b.data.map (·.1)).map leaf by rw [List.map_map]; rfl, dot_leaf] at hf
  have e : (List.zipWith (· * ·) (a.data.map (·.1)) (b.data.map (·.1))).length = a.rows * a.cols := by
    simp [ha', hb', hr, hc]
  rw [e] at hf
  have := follows_bound hf (fun h0 => by
    have : a.data = [] := List.length_eq_zero_iff.mp (by rw [ha', h0])
    simp [this])
  simpa [List.zipWith_map] using this

/-- The bound is about `k` units in the last place: `(1+u)^k - 1 ≤ k u / (1 - k u)`. -/
theorem growth_le (hu : 0 ≤ u) {n : Nat} (h : n * u < 1) : growth u n ≤ n * u / (1 - n * u) := by
  have h1 : ∀ m : Nat, m ≤ n → (1 + u) ^ m * (1 - m * u) ≤ 1 := by
    intro m
    induction m with
    | zero => intro _; simp
    | succ m ih =>
      intro hm
      have hm' : (m : ℝ) * u ≤ n * u := mul_le_mul_of_nonneg_right (by exact_mod_cast (by omega : m ≤ n)) hu
      have := ih (by omega)
      have hp : 0 ≤ (1 + u) ^ m := by positivity
      have hmu : 0 ≤ (m : ℝ) * u := by positivity
      have h2 : (1 + u) * (1 - (m + 1 : ℝ) * u) ≤ 1 - m * u := by nlinarith
      push_cast
      calc (1 + u) ^ (m + 1) * (1 - (m + 1 : ℝ) * u) = (1 + u) ^ m * ((1 + u) * (1 - (m + 1 : ℝ) * u)) := by ring
        _ ≤ (1 + u) ^ m * (1 - m * u) := mul_le_mul_of_nonneg_left h2 hp
        _ ≤ 1 := this
  have h3 := h1 n le_rfl
  rw [le_div_iff₀ (by linarith)]
  unfold growth
  nlinarith

/-- Two rows of integers, as float32 numbers. -/
example [DecidableEq (Fl (nearest 24 (Nat.le_of_ble_eq_true rfl)))] (x : Int) (hx : |x| ≤ 2 ^ 24) :
    ∃ a b y : Dense (Fl (nearest 24 (Nat.le_of_ble_eq_true rfl))), a.WF ∧ b.WF ∧ a.cols = 2 ∧ a.mul b = some y ∧
      |(y.el 0 1).1 - ((3 : ℤ) * (x : ℤ) + (-7 : ℤ) * (5 : ℤ) : ℝ)| ≤
        growth (2 ^ (-(24 : ℤ))) 2 * (|((3 : ℤ) : ℝ) * (x : ℤ)| + |((-7 : ℤ) : ℝ) * (5 : ℤ)|) := by
  let ρ := nearest 24 (Nat.le_of_ble_eq_true rfl)
  let q : (k : ℤ) → |k| ≤ 2 ^ 24 → Fl ρ := fun k h => ⟨(k : ℝ), nearest_int (by norm_num) h⟩
  let a : Dense (Fl ρ) := ⟨1, 2, [q 3 (by norm_num), q (-7) (by norm_num)]⟩
  let b : Dense (Fl ρ) := ⟨2, 2, [q 1 (by norm_num), q x hx, q 1 (by norm_num), q 5 (by norm_num)]⟩
  obtain ⟨y, h1, -, -, -, h2⟩ := mul_rounding (by positivity) (a := a) (b := b) rfl rfl rfl
  refine ⟨a, b, y, rfl, rfl, rfl, h1, ?_⟩
  have := h2 0 (show 0 < 1 by omega) 1 (show 1 < 2 by omega)
  simp only [show a.cols = 2 from rfl, Finset.sum_range_succ, Finset.sum_range_zero, zero_add] at this
  exact this

end Verif.Dense
