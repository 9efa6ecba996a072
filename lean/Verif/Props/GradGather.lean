import Verif.Props.GradShape

set_option autoImplicit false
set_option linter.unusedSimpArgs false

/-!
# Operators that gather several operands: Concat, Stack, AppendRows (C22, C23)
-/

namespace Verif.GradFn
open Dense
open scoped BigOperators Topology

theorem getD_append_lt {l l' : List ℝ} {i : Nat} (h : i < l.length) : (l ++ l').getD i 0 = l.getD i 0 := by
  rw [List.getD_eq_getElem?_getD, List.getElem?_append_left h, ← List.getD_eq_getElem?_getD]

theorem getD_append_ge (l l' : List ℝ) (i : Nat) : (l ++ l').getD (l.length + i) 0 = l'.getD i 0 := by
  rw [List.getD_eq_getElem?_getD, List.getElem?_append_right (by omega), ← List.getD_eq_getElem?_getD,
    Nat.add_sub_cancel_left]

theorem range_map_cons {α : Type} (n : Nat) (f : Nat → α) :
    (List.range (n + 1)).map f = f 0 :: (List.range n).map fun k => f (k + 1) := by
  rw [List.range_succ_eq_map, List.map_cons, List.map_map]; rfl

theorem range_map_getElem? {α : Type} (n : Nat) (f : Nat → α) {k : Nat} {a : α}
    (h : ((List.range n).map f)[k]? = some a) : k < n ∧ a = f k := by
  rw [List.getElem?_map] at h
  by_cases hk : k < n
  · rw [List.getElem?_range hk] at h
    exact ⟨hk, (Option.some.inj h).symm⟩
  · rw [List.getElem?_eq_none (by simpa using hk)] at h
    simp at h

theorem mem_range_map {α : Type} {n : Nat} {f : Nat → α} {a : α} (h : a ∈ (List.range n).map f) :
    ∃ k < n, f k = a := by
  obtain ⟨k, hk, rfl⟩ := List.mem_map.mp h
  exact ⟨k, List.mem_range.mp hk, rfl⟩

/-! ## Concat -/

theorem concat_core : ∀ (xs gs : List (Dense ℝ)) (X : Nat → ℝ → Dense ℝ) (v : Nat → Nat → ℝ),
    (∀ k x, xs[k]? = some x → Curve x (X k) (v k)) →
    gs.map (fun g => g.data.length) = xs.map (fun x => x.data.length) →
    ∃ D : Nat → ℝ,
      (∀ t, (((List.range xs.length).map fun k => X k t).map fun x => x.data.length) =
        xs.map fun x => x.data.length) ∧
      (∀ i < (xs.map fun x => x.data.length).sum,
        HasDerivAt (fun t => (((List.range xs.length).map fun k => X k t).map data).flatten.getD i 0) (D i) 0) ∧
      ∑ i ∈ Finset.range (xs.map fun x => x.data.length).sum, (gs.map data).flatten.getD i 0 * D i =
        ∑ k ∈ Finset.range xs.length, ∑ i ∈ Finset.range ((xs.map fun x => x.data.length).getD k 0),
          gradVal (gs.map some) k i * v k i
  | [], [], _, _, _, _ => ⟨fun _ => 0, by simp, by simp, by simp⟩
  | [], _ :: _, _, _, _, h => by simp at h
  | _ :: _, [], _, _, _, h => by simp at h
  | x :: xs, g :: gs, X, v, hX, h => by
    simp only [List.map_cons, List.cons.injEq] at h
    obtain ⟨D, h1, h2, h3⟩ := concat_core xs gs (fun k => X (k + 1)) (fun k => v (k + 1))
      (fun k a ha => hX (k + 1) a (by simpa using ha)) h.2
    have c0 := hX 0 x rfl
    have hlen0 : ∀ t, (X 0 t).data.length = x.data.length := c0.len
    refine ⟨fun i => if i < x.data.length then v 0 i else D (i - x.data.length), fun t => ?_, fun i hi => ?_, ?_⟩
    · rw [List.length_cons, range_map_cons, List.map_cons, h1, hlen0, List.map_cons]
    · simp only [List.length_cons, range_map_cons, List.map_cons, List.flatten_cons]
      simp only [List.map_cons, List.sum_cons] at hi
      by_cases hlt : i < x.data.length
      · rw [if_pos hlt]
        have e : (fun t => ((X 0 t).data ++
            (((List.range xs.length).map fun k => X (k + 1) t).map data).flatten).getD i 0) =
            fun t => (X 0 t).val i := by
          funext t
          rw [getD_append_lt (by rw [hlen0]; exact hlt)]; rfl
        rw [e]; exact c0.deriv i hlt
      · rw [if_neg hlt]
        obtain ⟨j, rfl⟩ := Nat.exists_eq_add_of_le (Nat.le_of_not_lt hlt)
        rw [Nat.add_sub_cancel_left]
        have e : (fun t => ((X 0 t).data ++
            (((List.range xs.length).map fun k => X (k + 1) t).map data).flatten).getD (x.data.length + j) 0) =
            fun t => (((List.range xs.length).map fun k => X (k + 1) t).map data).flatten.getD j 0 := by
          funext t
          rw [← hlen0 t, getD_append_ge]
        rw [e]; exact h2 j (by omega)
    · simp only [List.map_cons, List.sum_cons, List.length_cons, List.flatten_cons]
      rw [Finset.sum_range_add, Finset.sum_range_succ']
      simp only [List.getD_cons_zero, List.getD_cons_succ, gradVal_zero, gradVal_succ]
      rw [add_comm, ← h3]
      congr 1
      · refine Finset.sum_congr rfl fun i _ => ?_
        rw [if_neg (by omega), Nat.add_sub_cancel_left, ← h.1, getD_append_ge]
      · refine Finset.sum_congr rfl fun i hi => ?_
        have hi := Finset.mem_range.mp hi
        rw [if_pos hi, getD_append_lt (by omega)]; rfl

/-- `Concat`: the gradients are right up to their dimensions, which are those of column vectors. -/
theorem concat_vjp {xs : List (Dense ℝ)} (hwf : ∀ x ∈ xs, x.WF) : ∀ y, concat.forward xs = some y →
    ∀ gy, y.Like gy → ∃ gs, concat.backward xs gy = some gs ∧ IsVJP concat xs gy gs ∧
      (GradShapes xs gs ↔ ∀ x ∈ xs, x.cols = 1) := by
  intro y hy gy hgy
  have hne : xs ≠ [] := by
    rintro rfl; simp [concat] at hy
  have hfw : ∀ zs : List (Dense ℝ), zs ≠ [] → concat.forward zs = concatV zs := by
    intro zs hz
    cases zs with
    | nil => exact absurd rfl hz
    | cons z zs => rfl
  rw [hfw xs hne] at hy
  obtain ⟨s1, s2⟩ := concatV_spec xs
  have hvec := s1.mp (by rw [hy]; rfl)
  obtain ⟨y1, y2, y3⟩ := s2 y hy
  have hlen : (xs.map fun x => x.data.length).sum = gy.data.length := by
    rw [hgy.len y1, y3, List.length_flatten, List.map_map]; rfl
  obtain ⟨p1, p2⟩ := splitV_spec gy (xs.map fun x => (x.data.length : Int))
  have hsum : (xs.map fun x => (x.data.length : Int)).sum = (gy.data.length : Int) := by
    rw [← hlen]
    clear * -
    induction xs with
    | nil => rfl
    | cons x xs ih => simp [ih]
  obtain ⟨gs, hgs⟩ := Option.isSome_iff_exists.mp (p1.mpr ⟨Or.inr (hgy.cols.trans y2), by simp, by rw [hsum]⟩)
  obtain ⟨q1, q2, q3⟩ := p2 gs hgs
  have q1' : gs.map (fun g => g.data.length) = xs.map fun x => x.data.length := by
    have := congrArg (List.map Int.toNat) q1
    simpa [List.map_map, Function.comp_def] using this
  have q3' : (gs.map data).flatten = gy.data := by rw [q3, hsum]; simp
  refine ⟨gs.map some, ?_, ?_, ?_⟩
  · simp only [concat]
    rw [if_neg (by rw [hlen]; simp), hgs]; rfl
  · refine isVJPOn_of_entries fun X v hX _ _ => ?_
    obtain ⟨D, h1, h2, h3⟩ := concat_core xs gs X v hX q1'
    have hcol : ∀ t, concatV ((List.range xs.length).map fun k => X k t) = some
        ⟨gy.data.length, 1, (((List.range xs.length).map fun k => X k t).map data).flatten⟩ := by
      intro t
      have hv : ∀ z ∈ (List.range xs.length).map (fun k => X k t), z.rows = 1 ∨ z.cols = 1 := by
        intro z hz
        obtain ⟨k, hk, rfl⟩ := mem_range_map hz
        have hx := hX k xs[k] (by simp [hk])
        rw [(hx.like t).rows, (hx.like t).cols]
        exact hvec _ (List.getElem_mem hk)
      obtain ⟨c, hc⟩ := Option.isSome_iff_exists.mp ((concatV_spec _).1.mpr hv)
      obtain ⟨c1, c2, c3⟩ := (concatV_spec _).2 c hc
      rw [hc]
      have hcl : c.data.length = gy.data.length := by
        rw [c3, List.length_flatten, List.map_map, ← hlen, ← h1 t]; rfl
      have hcr : c.rows = gy.data.length := by rw [← hcl, c1, c2, Nat.mul_one]
      congr 1
      cases c
      simp only at c2 c3 hcr
      rw [c2, hcr, c3]
    refine ⟨fun t => ⟨gy.data.length, 1, (((List.range xs.length).map fun k => X k t).map data).flatten⟩, D,
      Filter.Eventually.of_forall fun t => ⟨?_, ?_⟩, ?_, ?_⟩
    · rw [hfw _ (by simpa using hne), hcol]
    · refine ⟨?_, ?_, ?_⟩
      · rw [WF, Nat.mul_one]
        simp only
        rw [List.length_flatten, List.map_map, ← hlen, ← h1 t]; rfl
      · show gy.data.length = gy.rows
        rw [hgy.wf, hgy.cols, y2, Nat.mul_one]
      · exact (hgy.cols.trans y2).symm
    · intro i hi
      exact h2 i (by rw [hlen]; exact hi)
    · rw [← h3, hlen, q3']; rfl
  · have hgl : gs.length = xs.length := by simpa using congrArg List.length q1'
    have hgk : ∀ (k : Nat) (x g : Dense ℝ), xs[k]? = some x → gs[k]? = some g → g.data.length = x.data.length := by
      intro k x g hx hg
      have := congrArg (fun l => l[k]?) q1'
      simpa [hx, hg] using this
    constructor
    · intro h x hx
      obtain ⟨k, hk, rfl⟩ := List.getElem_of_mem hx
      have := h.2 k xs[k] (gs[k]'(by omega)) (by simp [hk]) (by simp [hgl, hk])
      rw [← this.cols]
      exact (q2 _ (List.getElem_mem _)).1
    · intro h
      refine ⟨by simp [hgl], fun k x g hx hg => ?_⟩
      have hg : gs[k]? = some g := by
        rw [List.getElem?_map] at hg
        cases hh : gs[k]? with
        | none => rw [hh] at hg; simp at hg
        | some z => rw [hh] at hg; simp at hg; rw [hg]
      have hgw := q2 g (List.mem_of_getElem? hg)
      have hxw := hwf x (List.mem_of_getElem? hx)
      have hxc := h x (List.mem_of_getElem? hx)
      refine ⟨hgw.2, ?_, by rw [hgw.1, hxc]⟩
      have e1 : g.data.length = g.rows * g.cols := hgw.2
      have e2 : x.data.length = x.rows * x.cols := hxw
      rw [hgw.1, Nat.mul_one] at e1
      rw [hxc, Nat.mul_one] at e2
      rw [← e1, ← e2, hgk k x g hx hg]

/-- `Concat` is right exactly for column vectors. -/
theorem concat_correct_iff {xs : List (Dense ℝ)} (hwf : ∀ x ∈ xs, x.WF) (hs : (concat.forward xs).isSome) :
    Correct concat xs ↔ ∀ x ∈ xs, x.cols = 1 := by
  obtain ⟨y, hy⟩ := Option.isSome_iff_exists.mp hs
  have hyw : y.WF := by
    cases xs with
    | nil => simp [concat] at hy
    | cons a l => exact ((concatV_spec _).2 y hy).1
  obtain ⟨gs, h1, h2, h3⟩ := concat_vjp hwf y hy y (Like.refl hyw)
  constructor
  · intro h
    obtain ⟨gs', a1, a2, -⟩ := h y hy y (Like.refl hyw)
    obtain rfl : gs' = gs := Option.some.inj (a1.symm.trans h1)
    exact h3.mp a2
  · intro h z hz gy hgy
    obtain ⟨gs, b1, b2, b3⟩ := concat_vjp hwf z hz gy hgy
    exact ⟨gs, b1, b3.mpr h, b2⟩

/-! ## Stack -/

theorem extractRow_ok {gy : Dense ℝ} (hg : gy.WF) {i : Nat} (hi : i < gy.rows) :
    ∃ row, gy.extractRow i = some row ∧ row.WF ∧ row.rows = 1 ∧ row.cols = gy.cols ∧
      ∀ j < gy.cols, row.val j = gy.el i j := by
  obtain ⟨s1, s2⟩ := extractRow_spec hg (i : Int)
  obtain ⟨row, hrow⟩ := Option.isSome_iff_exists.mp (s1.mpr ⟨by omega, by omega⟩)
  obtain ⟨w1, w2, w3, w4⟩ := s2 row hrow
  refine ⟨row, hrow, w1, w2, w3, fun j hj => ?_⟩
  have : row.el 0 j = gy.el i j := el_of_at2 (w4 j)
  rw [← this, el_val row (by omega) (by omega), Nat.zero_mul, Nat.zero_add]

theorem stackBackLoop_spec {gy : Dense ℝ} (hg : gy.WF) : ∀ (xs : List (Dense ℝ)) (i0 : Nat),
    (∀ x ∈ xs, x.WF ∧ x.data.length = gy.cols) → i0 + xs.length ≤ gy.rows →
    ∃ gs, stackBackLoop gy xs i0 = some gs ∧ GradShapes xs gs ∧
      ∀ k < xs.length, ∀ j < gy.cols, gradVal gs k j = gy.el (i0 + k) j
  | [], _, _, _ => ⟨[], rfl, ⟨rfl, by simp⟩, by simp⟩
  | x :: xs, i0, hx, hi => by
    simp only [List.length_cons] at hi
    obtain ⟨row, r1, r2, r3, r4, r5⟩ := extractRow_ok hg (i := i0) (by omega)
    obtain ⟨gs, g1, g2, g3⟩ := stackBackLoop_spec hg xs (i0 + 1) (fun z hz => hx z (by simp [hz])) (by omega)
    obtain ⟨hxw, hxl⟩ := hx x (by simp)
    have hrl : row.data.length = x.rows * x.cols := by rw [r2, r3, r4, ← hxw, hxl, Nat.one_mul]
    have hre : row.reshape x.rows x.cols = some ⟨x.rows, x.cols, row.data⟩ := by
      unfold Dense.reshape
      rw [if_neg (by omega), if_neg (by rw [hrl]; simp)]
      rfl
    refine ⟨some ⟨x.rows, x.cols, row.data⟩ :: gs, ?_, gradShapes_cons ⟨hrl, rfl, rfl⟩ g2, ?_⟩
    · simp only [stackBackLoop, r1, hre, g1, Option.bind_eq_bind, Option.bind_some]
    · intro k hk j hj
      cases k with
      | zero => rw [gradVal_zero, Nat.add_zero]; exact r5 j hj
      | succ k =>
        rw [gradVal_succ, g3 k (by simpa using hk) j hj]
        congr 1; omega

theorem stack_correct {xs : List (Dense ℝ)} (hwf : ∀ x ∈ xs, x.WF) : Correct stack xs := by
  intro y hy gy hgy
  have hne : xs ≠ [] := by
    rintro rfl; simp [stack] at hy
  have hfw : ∀ zs : List (Dense ℝ), zs ≠ [] → stack.forward zs = Dense.stack zs := by
    intro zs hz
    cases zs with
    | nil => exact absurd rfl hz
    | cons z zs => rfl
  rw [hfw xs hne] at hy
  obtain ⟨s1, s2⟩ := stack_spec xs
  have hv := s1.mp (by rw [hy]; rfl)
  obtain ⟨y1, y2, y3⟩ := s2 y hy
  have hr : gy.rows = xs.length := hgy.rows.trans y2
  have hc : ∀ x ∈ xs, x.data.length = gy.cols := by
    intro x hx
    obtain ⟨k, hk, rfl⟩ := List.getElem_of_mem hx
    rw [hgy.cols, (y3 k xs[k] (by simp [hk])).1]
  obtain ⟨gs, g1, g2, g3⟩ := stackBackLoop_spec hgy.wf xs 0 (fun x hx => ⟨hwf x hx, hc x hx⟩) (by omega)
  refine ⟨gs, ?_, g2, isVJPOn_of_entries fun X v hX _ _ => ?_⟩
  · simp only [stack]
    rw [if_neg (by simpa using hr), g1]
  · have hlenX : ∀ k < xs.length, ∀ t, (X k t).data.length = gy.cols := by
      intro k hk t
      rw [(hX k xs[k] (by simp [hk])).len t]
      exact hc _ (List.getElem_mem hk)
    have hY : ∀ t, ∃ z, Dense.stack ((List.range xs.length).map fun k => X k t) = some z ∧ gy.Like z ∧
        ∀ k < xs.length, ∀ j < gy.cols, z.el k j = (X k t).val j := by
      intro t
      obtain ⟨a1, a2⟩ := stack_spec ((List.range xs.length).map fun k => X k t)
      obtain ⟨z, hz⟩ := Option.isSome_iff_exists.mp (a1.mpr (by
        intro w hw
        obtain ⟨k, hk, rfl⟩ := mem_range_map hw
        have hx := hX k xs[k] (by simp [hk])
        refine ⟨?_, ?_⟩
        · rw [(hx.like t).rows, (hx.like t).cols]
          exact (hv _ (List.getElem_mem hk)).1
        · intro w hw
          obtain ⟨l, hl, rfl⟩ := mem_range_map hw
          rw [hlenX k hk, hlenX l hl]))
      obtain ⟨z1, z2, z3⟩ := a2 z hz
      have hzk : ∀ k < xs.length, z.cols = gy.cols ∧ ∀ j : Nat, z.at2 k j = (X k t).data[j]? := by
        intro k hk
        obtain ⟨b1, b2⟩ := z3 k (X k t) (by simp [hk])
        exact ⟨by rw [b1, hlenX k hk], b2⟩
      have h0 : 0 < xs.length := List.length_pos_iff.mpr hne
      refine ⟨z, hz, ⟨z1, by rw [z2, hr]; simp, (hzk 0 h0).1⟩, fun k hk j hj => ?_⟩
      rw [el, (hzk k hk).2, val, List.getD_eq_getElem?_getD]
    choose Y h1 h2 h3 using hY
    refine ⟨Y, fun i => v (i / gy.cols) (i % gy.cols), Filter.Eventually.of_forall fun t => ⟨?_, h2 t⟩, ?_, ?_⟩
    · rw [hfw _ (by simpa using hne), h1]
    · intro i hi
      obtain ⟨-, b2, b3⟩ := val_el hgy.wf hi
      rw [hr] at b2
      have e : (fun t => (Y t).val i) = fun t => (X (i / gy.cols) t).val (i % gy.cols) := by
        funext t
        have hl : i < (Y t).data.length := by rw [(h2 t).len hgy.wf]; exact hi
        rw [(val_el (h2 t).wf hl).1, (h2 t).cols, h3 t _ b2 _ b3]
      rw [e]
      refine (hX _ xs[i / gy.cols] (by simp [b2])).deriv _ ?_
      rw [hc _ (List.getElem_mem b2)]; exact b3
    · rw [hgy.wf, hr, sum_range_mul]
      refine Finset.sum_congr rfl fun k hk => ?_
      have hk := Finset.mem_range.mp hk
      have e : (xs.map fun x => x.data.length).getD k 0 = gy.cols := by
        simp [hk, hc _ (List.getElem_mem hk)]
      rw [e]
      refine Finset.sum_congr rfl fun j hj => ?_
      have hj := Finset.mem_range.mp hj
      have e1 : (k * gy.cols + j) / gy.cols = k := by
        rw [Nat.mul_comm, Nat.mul_add_div (by omega), Nat.div_eq_of_lt hj, Nat.add_zero]
      have e2 : (k * gy.cols + j) % gy.cols = j := by
        rw [Nat.mul_comm, Nat.mul_add_mod, Nat.mod_eq_of_lt hj]
      simp only [e1, e2]
      rw [g3 k hk j hj, Nat.zero_add, el_val gy (by omega) hj]

/-! ## AppendRows -/

theorem appendBackLoop_spec {gy : Dense ℝ} (hg : gy.WF) : ∀ (vs : List (Dense ℝ)) (i0 : Nat),
    (∀ x ∈ vs, x.WF ∧ x.data.length = gy.cols) → i0 + vs.length ≤ gy.rows →
    ∃ gs, appendBackLoop gy vs i0 = some gs ∧ (GradShapes vs gs ↔ ∀ x ∈ vs, x.rows = 1) ∧
      ∀ k < vs.length, ∀ j < gy.cols, gradVal gs k j = gy.el (i0 + k) j
  | [], _, _, _ => ⟨[], rfl, ⟨by simp, fun _ => ⟨rfl, by simp⟩⟩, by simp⟩
  | x :: vs, i0, hx, hi => by
    simp only [List.length_cons] at hi
    obtain ⟨row, r1, r2, r3, r4, r5⟩ := extractRow_ok hg (i := i0) (by omega)
    obtain ⟨gs, g1, g2, g3⟩ := appendBackLoop_spec hg vs (i0 + 1) (fun z hz => hx z (by simp [hz])) (by omega)
    obtain ⟨hxw, hxl⟩ := hx x (by simp)
    refine ⟨some row :: gs, by simp only [appendBackLoop, r1, g1, Option.bind_eq_bind, Option.bind_some], ?_, ?_⟩
    · constructor
      · intro h z hz
        rcases List.mem_cons.mp hz with rfl | hz
        · have := h.2 0 z row rfl rfl
          rw [← this.rows, r3]
        · refine g2.mp ⟨by simpa using h.1, fun k a b ha hb => ?_⟩ z hz
          exact h.2 (k + 1) a b (by simpa using ha) (by simpa using hb)
      · intro h
        refine gradShapes_cons ⟨r2, by rw [r3, h x (by simp)], ?_⟩ (g2.mpr fun z hz => h z (by simp [hz]))
        have : x.data.length = x.rows * x.cols := hxw
        rw [h x (by simp), Nat.one_mul] at this
        rw [r4, ← this, hxl]
    · intro k hk j hj
      cases k with
      | zero => rw [gradVal_zero, Nat.add_zero]; exact r5 j hj
      | succ k =>
        rw [gradVal_succ, g3 k (by simpa using hk) j hj]
        congr 1; omega

/-- `AppendRows` with a non-empty result: the gradients are right up to the dimensions of those of the
appended vectors, which are those of rows. -/
theorem appendRows_vjp {x : Dense ℝ} {vs : List (Dense ℝ)} (hx : x.WF) (hwf : ∀ v ∈ vs, v.WF) :
    ∀ y, appendRows.forward (x :: vs) = some y → y.data ≠ [] → ∀ gy, y.Like gy →
    ∃ gs, appendRows.backward (x :: vs) gy = some gs ∧ IsVJP appendRows (x :: vs) gy gs ∧
      (GradShapes (x :: vs) gs ↔ ∀ v ∈ vs, v.rows = 1) := by
  intro y hy hne gy hgy
  have hy : x.appendRows vs = some y := hy
  obtain ⟨s1, s2⟩ := appendRows_spec hx vs
  have hv := s1.mp (by rw [hy]; rfl)
  obtain ⟨y1, y2, y3, -, -⟩ := s2 y hy
  have hr : gy.rows = x.rows + vs.length := hgy.rows.trans y2
  have hc : gy.cols = x.cols := hgy.cols.trans y3
  have hpos : 0 < gy.rows ∧ 0 < gy.cols := by
    have : 0 < y.data.length := List.length_pos_iff.mpr hne
    rw [y1] at this
    rw [hgy.rows, hgy.cols]
    exact ⟨Nat.pos_of_mul_pos_right this, Nat.pos_of_mul_pos_left this⟩
  obtain ⟨p1, p2⟩ := slice_spec hgy.wf 0 0 x.rows x.cols
  obtain ⟨gx, hgx⟩ := Option.isSome_iff_exists.mp (p1.mpr ⟨⟨by omega, by omega, by omega, by omega⟩, by omega,
    by omega, by omega, by omega⟩)
  obtain ⟨q1, q2, q3, q4⟩ := p2 gx hgx
  have lx : x.Like gx := ⟨q1, by omega, by omega⟩
  have ex : ∀ i < x.rows, ∀ j < x.cols, gx.el i j = gy.el i j := by
    intro i hi j hj
    rw [el, q4, if_pos (by omega), zero_add, zero_add, el]
  obtain ⟨gs, g1, g2, g3⟩ := appendBackLoop_spec hgy.wf vs x.rows
    (fun v h => ⟨hwf v h, by rw [(hv v h).2, hc]⟩) (by omega)
  refine ⟨some gx :: gs, ?_, ?_, ?_⟩
  · simp only [appendRows]
    rw [if_neg (by omega), hgx, Option.bind_eq_bind, Option.bind_some, g1]; rfl
  · refine isVJPOn_of_entries fun X v hX _ _ => ?_
    have c0 := hX 0 x rfl
    have cv : ∀ k (hk : k < vs.length), Curve vs[k] (X (k + 1)) (v (k + 1)) := fun k hk =>
      hX (k + 1) vs[k] (by simp [hk])
    have hlenX : ∀ k < vs.length, ∀ t, (X (k + 1) t).data.length = gy.cols := by
      intro k hk t
      rw [(cv k hk).len t, (hv _ (List.getElem_mem hk)).2, hc]
    have hY : ∀ t, ∃ z, (X 0 t).appendRows ((List.range vs.length).map fun k => X (k + 1) t) = some z ∧ gy.Like z ∧
        (∀ i < x.rows, ∀ j < gy.cols, z.el i j = (X 0 t).el i j) ∧
        ∀ k < vs.length, ∀ j < gy.cols, z.el (x.rows + k) j = (X (k + 1) t).val j := by
      intro t
      have l0 := c0.like t
      obtain ⟨a1, a2⟩ := appendRows_spec l0.wf ((List.range vs.length).map fun k => X (k + 1) t)
      obtain ⟨z, hz⟩ := Option.isSome_iff_exists.mp (a1.mpr (by
        intro w hw
        obtain ⟨k, hk, rfl⟩ := mem_range_map hw
        have hl := (cv k hk).like t
        refine ⟨?_, by rw [hlenX k hk, hc, l0.cols]⟩
        rw [hl.rows, hl.cols]
        exact (hv _ (List.getElem_mem hk)).1))
      obtain ⟨z1, z2, z3, z4, z5⟩ := a2 z hz
      refine ⟨z, hz, ⟨z1, ?_, ?_⟩, fun i hi j hj => el_of_at2 (z4 i j (by rw [l0.rows]; exact hi)),
        fun k hk j hj => ?_⟩
      · rw [z2, l0.rows, hr, List.length_map, List.length_range]
      · rw [z3, l0.cols, hc]
      · have := z5 k (X (k + 1) t) (by simp [hk]) j
        rw [l0.rows] at this
        rw [el, this, val, List.getD_eq_getElem?_getD]
    choose Y h1 h2 h3 h4 using hY
    refine ⟨Y, fun i => if i / gy.cols < x.rows then v 0 i else v (i / gy.cols - x.rows + 1) (i % gy.cols),
      Filter.Eventually.of_forall fun t => ⟨?_, h2 t⟩, ?_, ?_⟩
    · rw [List.length_cons, range_map_cons, ← h1]; rfl
    · intro i hi
      obtain ⟨-, b2, b3⟩ := val_el hgy.wf hi
      have eY : ∀ t, (Y t).val i = (Y t).el (i / gy.cols) (i % gy.cols) := by
        intro t
        have hl : i < (Y t).data.length := by rw [(h2 t).len hgy.wf]; exact hi
        rw [(val_el (h2 t).wf hl).1, (h2 t).cols]
      beta_reduce
      by_cases hlt : i / gy.cols < x.rows
      · rw [if_pos hlt]
        have e : (fun t => (Y t).val i) = fun t => (X 0 t).el (i / gy.cols) (i % gy.cols) := by
          funext t
          rw [eY, h3 t _ hlt _ b3]
        rw [e]
        have := c0.el (j := i % gy.cols) hlt (by omega)
        have ei : i / gy.cols * x.cols + i % gy.cols = i := by
          rw [← hc, Nat.mul_comm, Nat.div_add_mod]
        rwa [ei] at this
      · rw [if_neg hlt]
        obtain ⟨k, hk⟩ := Nat.exists_eq_add_of_le (Nat.le_of_not_lt hlt)
        have hk' : k < vs.length := by omega
        have e : (fun t => (Y t).val i) = fun t => (X (k + 1) t).val (i % gy.cols) := by
          funext t
          rw [eY, hk, h4 t _ hk' _ b3]
        rw [e, hk, Nat.add_sub_cancel_left]
        refine (cv k hk').deriv _ ?_
        rw [(hv _ (List.getElem_mem hk')).2, ← hc]; exact b3
    · rw [hgy.wf, hr, Nat.add_mul, Finset.sum_range_add, List.length_cons, Finset.sum_range_succ']
      simp only [gradVal_succ, gradVal_zero, List.map_cons, List.getD_cons_zero, List.getD_cons_succ]
      rw [add_comm]
      congr 1
      · rw [sum_range_mul]
        refine Finset.sum_congr rfl fun k hk => ?_
        have hk := Finset.mem_range.mp hk
        have e : (vs.map fun x => x.data.length).getD k 0 = gy.cols := by
          simp [hk, (hv _ (List.getElem_mem hk)).2, hc]
        rw [e]
        refine Finset.sum_congr rfl fun j hj => ?_
        have hj := Finset.mem_range.mp hj
        have ei : x.rows * gy.cols + (k * gy.cols + j) = (x.rows + k) * gy.cols + j := by
          rw [Nat.add_mul, Nat.add_assoc]
        have e1 : ((x.rows + k) * gy.cols + j) / gy.cols = x.rows + k := by
          rw [Nat.mul_comm, Nat.mul_add_div (by omega), Nat.div_eq_of_lt hj, Nat.add_zero]
        have e2 : ((x.rows + k) * gy.cols + j) % gy.cols = j := by
          rw [Nat.mul_comm, Nat.mul_add_mod, Nat.mod_eq_of_lt hj]
        simp only [ei, e1, e2]
        rw [if_neg (by omega), Nat.add_sub_cancel_left, g3 k hk j hj, el_val gy (by omega) hj]
      · have hxl : x.data.length = x.rows * gy.cols := by rw [hc]; exact hx
        rw [hxl]
        refine Finset.sum_congr rfl fun i hi => ?_
        have hi := Finset.mem_range.mp hi
        have hlt : i / gy.cols < x.rows := Nat.div_lt_of_lt_mul (by rwa [Nat.mul_comm] at hi)
        have hm := Nat.mod_lt i hpos.2
        rw [if_pos hlt]
        congr 1
        have hgl : i < gx.data.length := by rw [lx.len hx, hxl]; exact hi
        have hgl' : i < gy.data.length := by rw [hgy.wf, hr, Nat.add_mul]; omega
        rw [(val_el q1 hgl).1, (val_el hgy.wf hgl').1, lx.cols, ← hc, ex _ hlt _ (by omega)]
  · constructor
    · intro h
      refine g2.mp ⟨by simpa using h.1, fun k a b ha hb => ?_⟩
      exact h.2 (k + 1) a b (by simpa using ha) (by simpa using hb)
    · intro h
      exact gradShapes_cons lx (g2.mpr h)

/-- `AppendRows` with a non-empty result is right exactly if the appended vectors are rows. -/
theorem appendRows_correct_iff {x : Dense ℝ} {vs : List (Dense ℝ)} (hx : x.WF) (hwf : ∀ v ∈ vs, v.WF)
    {y : Dense ℝ} (hy : appendRows.forward (x :: vs) = some y) (hne : y.data ≠ []) :
    Correct appendRows (x :: vs) ↔ ∀ v ∈ vs, v.rows = 1 := by
  have hyw : y.WF := ((appendRows_spec hx vs).2 y hy).1
  obtain ⟨gs, h1, h2, h3⟩ := appendRows_vjp hx hwf y hy hne y (Like.refl hyw)
  constructor
  · intro h
    obtain ⟨gs', a1, a2, -⟩ := h y hy y (Like.refl hyw)
    obtain rfl : gs' = gs := Option.some.inj (a1.symm.trans h1)
    exact h3.mp a2
  · intro h z hz gy hgy
    obtain rfl : y = z := Option.some.inj (hy.symm.trans hz)
    obtain ⟨gs, b1, b2, b3⟩ := appendRows_vjp hx hwf y hz hne gy hgy
    exact ⟨gs, b1, b3.mpr h, b2⟩

example : (concat.forward [exCol, exRow, exCol]).isSome ∧ (stack.forward [exCol, exRow, exCol]).isSome ∧
    (∃ y, appendRows.forward [exW, exCol, exRow] = some y ∧ y.data ≠ []) := by
  refine ⟨(concatV_spec [exCol, exRow, exCol]).1.mpr ?_, (stack_spec [exCol, exRow, exCol]).1.mpr ?_, ?_⟩
  · simp [exCol, exRow]
  · simp [exCol, exRow]
  · obtain ⟨y, hy⟩ := Option.isSome_iff_exists.mp ((appendRows_spec (show exW.WF from rfl) [exCol, exRow]).1.mpr
      (by simp [exCol, exRow, exW]))
    refine ⟨y, hy, ?_⟩
    obtain ⟨h1, h2, h3, -⟩ := (appendRows_spec (show exW.WF from rfl) [exCol, exRow]).2 y hy
    intro h
    rw [WF, h, h2, h3] at h1
    simp [exW] at h1

end Verif.GradFn
