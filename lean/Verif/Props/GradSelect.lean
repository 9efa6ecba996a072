import Verif.Props.GradMul

set_option autoImplicit false
set_option linter.unusedSimpArgs false

/-!
# Operators that select or move elements (C22)
-/

namespace Verif.GradFn
open Dense
open scoped BigOperators Topology

theorem at2_el {d : Dense ℝ} (h : d.WF) {i j : Nat} (hi : i < d.rows) (hj : j < d.cols) :
    d.at2 i j = some (d.el i j) := by
  obtain ⟨v, hv⟩ := Option.isSome_iff_exists.mp ((at2_isSome h i j).mpr ⟨hi, hj⟩)
  rw [el, hv]; rfl

theorem el_of_at2 {d e : Dense ℝ} {i j k l : Nat} (h : d.at2 i j = e.at2 k l) : d.el i j = e.el k l := by
  rw [el, el, h]

theorem zeros_WF (r c : Nat) : (zeros r c : Dense ℝ).WF := by simp [zeros, WF]

theorem zeros_like {x : Dense ℝ} : x.Like (zeros x.rows x.cols) := ⟨zeros_WF _ _, rfl, rfl⟩

theorem zeros_el {r c i j : Nat} (hi : i < r) (hj : j < c) : (zeros r c : Dense ℝ).el i j = 0 := by
  rw [el_val _ hi hj, val]; simp only [zeros, List.getD_eq_getElem?_getD, List.getElem?_replicate]; split <;> rfl

/-- One operand, with a forward pass that is known near the operand only. -/
theorem isVJP1_near {op : GradFn ℝ} {x gy gx : Dense ℝ} (F : Dense ℝ → Dense ℝ) (D : (Nat → ℝ) → Nat → ℝ)
    (hf : ∀ X v, Curve x X v → ∀ᶠ t in 𝓝 0, op.forward [X t] = some (F (X t)) ∧ gy.Like (F (X t)))
    (hd : ∀ X v, Curve x X v → ∀ i < gy.data.length, HasDerivAt (fun t => (F (X t)).val i) (D v i) 0)
    (ha : ∀ v, ∑ i ∈ Finset.range gy.data.length, gy.val i * D v i =
      ∑ i ∈ Finset.range x.data.length, gx.val i * v i) :
    IsVJP op [x] gy [some gx] := by
  refine isVJPOn_of_entries fun X v hX _ _ => ?_
  have h0 := hX 0 x rfl
  refine ⟨fun t => F (X 0 t), D (v 0), ?_, hd _ _ h0, ?_⟩
  · filter_upwards [hf _ _ h0] with t ht
    simpa using ht
  · rw [ha]; simp [gradVal]

/-- Operators that pick elements: element `(i, j)` of the result is element `(a i j, b i j)` of the
operand. The choice is the same for all operands near `x` (those with property `Q`). -/
theorem select_correct_near {op : GradFn ℝ} {x : Dense ℝ} (hx : x.WF) (ry cy : Nat) (a b : Nat → Nat → Nat)
    (Q : Dense ℝ → Prop) (hQ : ∀ X v, Curve x X v → ∀ᶠ t in 𝓝 0, Q (X t)) (hQx : Q x)
    (hf : ∀ x', x.Like x' → Q x' → ∃ y, op.forward [x'] = some y ∧ y.WF ∧ y.rows = ry ∧ y.cols = cy ∧
      ∀ i < ry, ∀ j < cy, y.el i j = x'.el (a i j) (b i j))
    (hin : ∀ i < ry, ∀ j < cy, a i j < x.rows ∧ b i j < x.cols)
    (hinj : ∀ i < ry, ∀ j < cy, ∀ i' < ry, ∀ j' < cy, a i j = a i' j' → b i j = b i' j' → i = i' ∧ j = j')
    (hb : ∀ gy : Dense ℝ, gy.WF → gy.rows = ry → gy.cols = cy → ∃ gx, op.backward [x] gy = some [some gx] ∧
      x.Like gx ∧ (∀ i < ry, ∀ j < cy, gx.el (a i j) (b i j) = gy.el i j) ∧
      ∀ r < x.rows, ∀ c < x.cols, (∀ i < ry, ∀ j < cy, ¬ (a i j = r ∧ b i j = c)) → gx.el r c = 0) :
    Correct op [x] := by
  intro y hy gy hgy
  obtain ⟨y', hy', hw, hr, hc, -⟩ := hf x (Like.refl hx) hQx
  obtain rfl : y' = y := Option.some.inj (hy'.symm.trans hy)
  have hr' : gy.rows = ry := hgy.rows.trans hr
  have hc' : gy.cols = cy := hgy.cols.trans hc
  obtain ⟨gx, b1, b2, b3, b4⟩ := hb gy hgy.wf hr' hc'
  refine ⟨_, b1, gradShapes1 b2, isVJP1_near (fun x' => (op.forward [x']).getD ⟨0, 0, []⟩)
    (fun v k => v (a (k / cy) (k % cy) * x.cols + b (k / cy) (k % cy))) ?_ ?_ ?_⟩
  · intro X v hX
    filter_upwards [hQ X v hX] with t ht
    obtain ⟨z, f1, f2, f3, f4, -⟩ := hf (X t) (hX.like t) ht
    rw [f1]
    exact ⟨rfl, f2, f3.trans hr'.symm, f4.trans hc'.symm⟩
  · intro X v hX k hk
    obtain ⟨-, h2, h3⟩ := val_el hgy.wf hk
    rw [hr'] at h2
    rw [hc'] at h3 h2
    have e : (fun t => ((op.forward [X t]).getD ⟨0, 0, []⟩).val k) =ᶠ[𝓝 0]
        fun t => (X t).el (a (k / cy) (k % cy)) (b (k / cy) (k % cy)) := by
      filter_upwards [hQ X v hX] with t ht
      obtain ⟨z, f1, f2, f3, f4, f5⟩ := hf _ (hX.like t) ht
      have hl : k < z.data.length := by rw [f2, f3, f4, ← hr', ← hc', ← hgy.wf]; exact hk
      rw [f1, Option.getD_some, (val_el f2 hl).1, f4, f5 _ h2 _ h3]
    obtain ⟨i1, i2⟩ := hin _ h2 _ h3
    exact (hX.el i1 i2).congr_of_eventuallyEq e
  · intro v
    have hG := sum_grad hx b2 v (G := fun r c => gx.el r c) (fun _ _ _ _ => rfl)
    rw [hG, hgy.wf, hr', hc', sum_range_mul, ← Finset.sum_product', ← Finset.sum_product']
    refine Finset.sum_of_injOn (fun p => (a p.1 p.2, b p.1 p.2)) ?_ ?_ ?_ ?_
    · intro p hp q hq h
      simp only [Finset.coe_product, Finset.coe_range, Set.mem_prod, Set.mem_Iio, Prod.mk.injEq] at hp hq h
      have := hinj _ hp.1 _ hp.2 _ hq.1 _ hq.2 h.1 h.2
      exact Prod.ext this.1 this.2
    · intro p hp
      simp only [Finset.coe_product, Finset.coe_range, Set.mem_prod, Set.mem_Iio] at hp ⊢
      exact hin _ hp.1 _ hp.2
    · intro q hq hn
      simp only [Finset.mem_product, Finset.mem_range] at hq
      rw [b4 _ hq.1 _ hq.2, zero_mul]
      intro i hi j hj h
      refine hn ⟨(i, j), ?_, Prod.ext h.1 h.2⟩
      simp [hi, hj]
    · intro p hp
      simp only [Finset.mem_product, Finset.mem_range] at hp
      have e1 : (p.1 * cy + p.2) / cy = p.1 := by
        rw [Nat.mul_comm, Nat.mul_add_div (by omega), Nat.div_eq_of_lt hp.2, Nat.add_zero]
      have e2 : (p.1 * cy + p.2) % cy = p.2 := by
        rw [Nat.mul_comm, Nat.mul_add_mod, Nat.mod_eq_of_lt hp.2]
      rw [e1, e2, b3 _ hp.1 _ hp.2, el_val gy (by omega) (by omega), hc']

/-- Operators that pick elements: element `(i, j)` of the result is element `(a i j, b i j)` of the
operand. -/
theorem select_correct {op : GradFn ℝ} {x : Dense ℝ} (hx : x.WF) (ry cy : Nat) (a b : Nat → Nat → Nat)
    (hf : ∀ x', x.Like x' → ∃ y, op.forward [x'] = some y ∧ y.WF ∧ y.rows = ry ∧ y.cols = cy ∧
      ∀ i < ry, ∀ j < cy, y.el i j = x'.el (a i j) (b i j))
    (hin : ∀ i < ry, ∀ j < cy, a i j < x.rows ∧ b i j < x.cols)
    (hinj : ∀ i < ry, ∀ j < cy, ∀ i' < ry, ∀ j' < cy, a i j = a i' j' → b i j = b i' j' → i = i' ∧ j = j')
    (hb : ∀ gy : Dense ℝ, gy.WF → gy.rows = ry → gy.cols = cy → ∃ gx, op.backward [x] gy = some [some gx] ∧
      x.Like gx ∧ (∀ i < ry, ∀ j < cy, gx.el (a i j) (b i j) = gy.el i j) ∧
      ∀ r < x.rows, ∀ c < x.cols, (∀ i < ry, ∀ j < cy, ¬ (a i j = r ∧ b i j = c)) → gx.el r c = 0) :
    Correct op [x] := by
  exact select_correct_near hx ry cy a b (fun _ => True) (fun _ _ _ => Filter.Eventually.of_forall fun _ => trivial)
    trivial (fun x' h _ => hf x' h) hin hinj hb

/-- Loops that fill a matrix block by block with the elements of `V`. -/
theorem foldBlock {ι : Type} {x : Dense ℝ} (V : Nat → Nat → ℝ) (S : ι → Nat → Nat → Prop)
    (f : Dense ℝ → ι → Option (Dense ℝ)) : ∀ (L : List ι)
    (_ : ∀ gx, x.Like gx → ∀ l ∈ L, ∃ gx', f gx l = some gx' ∧ x.Like gx' ∧ ∀ r < x.rows, ∀ c < x.cols,
      (S l r c → gx'.el r c = V r c) ∧ (¬ S l r c → gx'.el r c = gx.el r c)) (gx : Dense ℝ) (_ : x.Like gx),
    ∃ gx', L.foldlM f gx = some gx' ∧ x.Like gx' ∧ ∀ r < x.rows, ∀ c < x.cols,
      ((∃ l ∈ L, S l r c) → gx'.el r c = V r c) ∧ ((∀ l ∈ L, ¬ S l r c) → gx'.el r c = gx.el r c)
  | [], _, gx, h => ⟨gx, rfl, h, fun _ _ _ _ => ⟨by simp, fun _ => rfl⟩⟩
  | l :: L, hf, gx, h => by
    obtain ⟨g1, e1, e2, e3⟩ := hf gx h l (by simp)
    obtain ⟨g2, d1, d2, d3⟩ := foldBlock V S f L (fun g hg m hm => hf g hg m (by simp [hm])) g1 e2
    refine ⟨g2, by rw [List.foldlM_cons, e1]; exact d1, d2, fun r hr c hc => ⟨?_, ?_⟩⟩
    · rintro ⟨m, hm, hs⟩
      by_cases hex : ∃ m ∈ L, S m r c
      · exact (d3 r hr c hc).1 hex
      · rw [(d3 r hr c hc).2 fun m hm hs => hex ⟨m, hm, hs⟩]
        rcases List.mem_cons.mp hm with rfl | hm
        · exact (e3 r hr c hc).1 hs
        · exact absurd ⟨m, hm, hs⟩ hex
    · intro hn
      rw [(d3 r hr c hc).2 fun m hm => hn m (by simp [hm]), (e3 r hr c hc).2 (hn l (by simp))]

/-- One assignment. -/
theorem set2_block {x gx : Dense ℝ} (h : x.Like gx) {V : Nat → Nat → ℝ} {v : ℝ} {i j : Nat} (hi : i < x.rows)
    (hj : j < x.cols) (hv : V i j = v) :
    ∃ gx', gx.set2 v i j = some gx' ∧ x.Like gx' ∧ ∀ r < x.rows, ∀ c < x.cols,
      ((r = i ∧ c = j) → gx'.el r c = V r c) ∧ (¬ (r = i ∧ c = j) → gx'.el r c = gx.el r c) := by
  obtain ⟨d', h1, h2, h3, h4, h5⟩ := set2_ok h.wf v (i := i) (j := j) (by rw [h.rows]; exact hi)
    (by rw [h.cols]; exact hj)
  refine ⟨d', h1, ⟨h2, h3.trans h.rows, h4.trans h.cols⟩, fun r hr c hc => ⟨?_, ?_⟩⟩
  · rintro ⟨rfl, rfl⟩
    rw [el, h5, if_pos ⟨rfl, rfl⟩, hv]; rfl
  · intro hn
    rw [el, h5, if_neg hn, el]

theorem slice_correct (fr fc tr tc : Int) {x : Dense ℝ} (hx : x.WF) : Correct (slice fr fc tr tc) [x] := by
  by_cases hs : (x.slice fr fc tr tc).isSome
  swap
  · intro y hy
    have hy : x.slice fr fc tr tc = some y := hy
    rw [hy] at hs; simp at hs
  obtain ⟨⟨i1, i2, i3, i4⟩, h1, h2, h3, h4⟩ := (slice_spec hx fr fc tr tc).1.mp hs
  obtain ⟨fr, rfl⟩ := Int.eq_ofNat_of_zero_le i1
  obtain ⟨fc, rfl⟩ := Int.eq_ofNat_of_zero_le i3
  obtain ⟨tr, rfl⟩ := Int.eq_ofNat_of_zero_le (le_trans i1 h1)
  obtain ⟨tc, rfl⟩ := Int.eq_ofNat_of_zero_le (le_trans i3 h3)
  have er : ((tr : Int) - fr).toNat = tr - fr := by omega
  have ec : ((tc : Int) - fc).toNat = tc - fc := by omega
  refine select_correct hx (tr - fr) (tc - fc) (fun i _ => fr + i) (fun _ j => fc + j) ?_ ?_ ?_ ?_
  · intro x' hx'
    obtain ⟨s1, s2⟩ := slice_spec hx'.wf (fr : Int) fc tr tc
    obtain ⟨y, hy⟩ := Option.isSome_iff_exists.mp
      (s1.mpr ⟨⟨i1, by rw [hx'.rows]; exact i2, i3, by rw [hx'.cols]; exact i4⟩, h1, by rw [hx'.rows]; exact h2,
        h3, by rw [hx'.cols]; exact h4⟩)
    obtain ⟨w1, w2, w3, w4⟩ := s2 y hy
    refine ⟨y, hy, w1, by omega, by omega, fun i hi j hj => ?_⟩
    apply el_of_at2
    rw [w4, if_pos (by omega)]; push_cast; rfl
  · intro i hi j hj; omega
  · intro i hi j hj i' hi' j' hj' e1 e2; omega
  · intro gy hg hr hc
    have hF := foldBlock (x := x) (fun r c => gy.el (r - fr) (c - fc))
      (fun (i : Nat) r c => r = fr + i ∧ fc ≤ c ∧ c < tc) (fun gx (i : Nat) =>
        (List.range (tc - fc)).foldlM (fun gx (j : Nat) => do
          let v ← gy.at2 i j
          gx.set2 v (i + (fr : Int)) (j + (fc : Int))) gx) (List.range (tr - fr))
    specialize hF ?_ _ zeros_like
    swap
    · obtain ⟨gx, f1, f2, f3⟩ := hF
      refine ⟨gx, ?_, f2, fun i hi j hj => ?_, fun r hr' c hc' hn => ?_⟩
      · simp only [slice, sliceBack, er, ec]
        rw [if_neg (by omega), f1]; rfl
      · rw [(f3 _ (by omega) _ (by omega)).1 ⟨i, List.mem_range.mpr hi, rfl, by omega, by omega⟩,
          Nat.add_sub_cancel_left, Nat.add_sub_cancel_left]
      · rw [(f3 r hr' c hc').2, zeros_el hr' hc']
        rintro i hi ⟨rfl, hc1, hc2⟩
        exact hn i (List.mem_range.mp hi) (c - fc) (by omega) ⟨rfl, by omega⟩
    · intro gx hgx i hi
      have hi := List.mem_range.mp hi
      have hF := foldBlock (x := x) (fun r c => gy.el (r - fr) (c - fc))
        (fun (j : Nat) r c => r = fr + i ∧ c = fc + j) (fun gx (j : Nat) => do
          let v ← gy.at2 i j
          gx.set2 v (i + (fr : Int)) (j + (fc : Int))) (List.range (tc - fc))
      specialize hF ?_ gx hgx
      swap
      · obtain ⟨g, d1, d2, d3⟩ := hF
        refine ⟨g, d1, d2, fun r hr' c hc' => ⟨?_, ?_⟩⟩
        · rintro ⟨rfl, hc1, hc2⟩
          exact (d3 _ hr' c hc').1 ⟨c - fc, List.mem_range.mpr (by omega), rfl, by omega⟩
        · intro hn
          refine (d3 r hr' c hc').2 ?_
          rintro j hj ⟨rfl, rfl⟩
          have := List.mem_range.mp hj
          exact hn ⟨rfl, by omega, by omega⟩
      · intro g hg' j hj
        have hj := List.mem_range.mp hj
        have := set2_block hg' (V := fun r c => gy.el (r - fr) (c - fc)) (v := gy.el i j) (i := fr + i) (j := fc + j)
          (by omega) (by omega) (by simp only [Nat.add_sub_cancel_left])
        rw [at2_el hg (by omega) (by omega), Option.bind_eq_bind, Option.bind_some]
        have e1 : (i : Int) + fr = ((fr + i : Nat) : Int) := by omega
        have e2 : (j : Int) + fc = ((fc + j : Nat) : Int) := by omega
        rw [e1, e2]
        exact this

theorem transpose_correct {x : Dense ℝ} (hx : x.WF) : Correct transpose [x] := by
  refine select_correct hx x.cols x.rows (fun _ j => j) (fun i _ => i) ?_ (by omega) (by omega) ?_
  · intro x' hx'
    obtain ⟨t, t1, t2, t3, t4, t5⟩ := T_el hx'.wf
    exact ⟨t, t1, t2, t3.trans hx'.cols, t4.trans hx'.rows, fun i hi j hj => t5 j i⟩
  · intro gy hg hr hc
    obtain ⟨t, t1, t2, t3, t4, t5⟩ := T_el hg
    refine ⟨t, ?_, ⟨t2, t3.trans hc, t4.trans hr⟩, fun i hi j hj => t5 i j, fun r hr' c hc' hn => ?_⟩
    · simp only [transpose]
      rw [if_neg (by omega), t1]; rfl
    · exact absurd ⟨rfl, rfl⟩ (hn c hc' r hr')

theorem rowView_correct (k : Int) {x : Dense ℝ} (hx : x.WF) : Correct (rowView k) [x] := by
  by_cases hk : 0 ≤ k ∧ k < x.rows
  swap
  · intro y hy
    simp only [rowView] at hy
    split at hy
    · cases hy
    · exact absurd ((extractRow_spec hx k).1.mp (by rw [hy]; rfl)) hk
  obtain ⟨h0, h1⟩ := hk
  obtain ⟨k, rfl⟩ := Int.eq_ofNat_of_zero_le h0
  refine select_correct hx 1 x.cols (fun _ _ => k) (fun _ j => j) ?_ (by omega) (by omega) ?_
  · intro x' hx'
    obtain ⟨s1, s2⟩ := extractRow_spec hx'.wf (k : Int)
    obtain ⟨y, hy⟩ := Option.isSome_iff_exists.mp (s1.mpr ⟨h0, by rw [hx'.rows]; exact h1⟩)
    obtain ⟨w1, w2, w3, w4⟩ := s2 y hy
    refine ⟨y, ?_, w1, w2, w3.trans hx'.cols, fun i hi j hj => ?_⟩
    · simp only [rowView]; rw [if_neg (by omega), hy]
    · obtain rfl : i = 0 := by omega
      exact el_of_at2 (w4 j)
  · intro gy hg hr hc
    have hF := foldBlock (x := x) (fun _ c => gy.el 0 c)
      (fun (j : Nat) r c => r = k ∧ c = j) (fun gx (j : Nat) => do
        let v ← gy.at2 0 j
        gx.set2 v (k : Int) j) (List.range x.cols)
    specialize hF ?_ _ zeros_like
    swap
    · obtain ⟨g, d1, d2, d3⟩ := hF
      refine ⟨g, ?_, d2, fun i hi j hj => ?_, fun r hr' c hc' hn => ?_⟩
      · simp only [rowView]
        rw [if_neg (by rw [hg, hr, hc]; omega), d1]; rfl
      · obtain rfl : i = 0 := by omega
        exact (d3 _ (by omega) _ hj).1 ⟨j, List.mem_range.mpr hj, rfl, rfl⟩
      · rw [(d3 r hr' c hc').2, zeros_el hr' hc']
        rintro j hj ⟨rfl, rfl⟩
        exact hn 0 (by omega) c hc' ⟨rfl, rfl⟩
    · intro g hg' j hj
      have hj := List.mem_range.mp hj
      have e := at2_el hg (i := 0) (j := j) (by omega) (by omega)
      simp only [Nat.cast_zero] at e
      rw [e, Option.bind_eq_bind, Option.bind_some]
      exact set2_block hg' (V := fun _ c => gy.el 0 c) (by omega) hj rfl

theorem at1_col {d : Dense ℝ} (h : d.WF) (hc : d.cols = 1) {i : Nat} (hi : i < d.rows) :
    d.at1 i = some (d.el i 0) := by
  rw [(at1_spec h i).2.1 hc]
  have := at2_el h hi (j := 0) (by omega)
  simpa using this

theorem colView_correct (k : Int) {x : Dense ℝ} (hx : x.WF) : Correct (colView k) [x] := by
  by_cases hk : 0 ≤ k ∧ k < x.cols
  swap
  · intro y hy
    simp only [colView] at hy
    split at hy
    · cases hy
    · exact absurd ((extractColumn_spec hx k).1.mp (by rw [hy]; rfl)) hk
  obtain ⟨h0, h1⟩ := hk
  obtain ⟨k, rfl⟩ := Int.eq_ofNat_of_zero_le h0
  refine select_correct hx x.rows 1 (fun i _ => i) (fun _ _ => k) ?_ (by omega) (by omega) ?_
  · intro x' hx'
    obtain ⟨s1, s2⟩ := extractColumn_spec hx'.wf (k : Int)
    obtain ⟨y, hy⟩ := Option.isSome_iff_exists.mp (s1.mpr ⟨h0, by rw [hx'.cols]; exact h1⟩)
    obtain ⟨w1, w2, w3, w4⟩ := s2 y hy
    refine ⟨y, ?_, w1, w2.trans hx'.rows, w3, fun i hi j hj => ?_⟩
    · simp only [colView]; rw [if_neg (by omega), hy]
    · obtain rfl : j = 0 := by omega
      exact el_of_at2 (w4 i)
  · intro gy hg hr hc
    have hF := foldBlock (x := x) (fun r _ => gy.el r 0)
      (fun (j : Nat) r c => r = j ∧ c = k) (fun gx (j : Nat) => do
        let v ← gy.at1 j
        gx.set2 v j (k : Int)) (List.range x.rows)
    specialize hF ?_ _ zeros_like
    swap
    · obtain ⟨g, d1, d2, d3⟩ := hF
      refine ⟨g, ?_, d2, fun i hi j hj => ?_, fun r hr' c hc' hn => ?_⟩
      · simp only [colView]
        rw [if_neg (by rw [hg, hr, hc]; omega), d1]; rfl
      · obtain rfl : j = 0 := by omega
        exact (d3 _ hi _ (by omega)).1 ⟨i, List.mem_range.mpr hi, rfl, rfl⟩
      · rw [(d3 r hr' c hc').2, zeros_el hr' hc']
        rintro j hj ⟨rfl, rfl⟩
        exact hn r hr' 0 (by omega) ⟨rfl, rfl⟩
    · intro g hg' j hj
      have hj := List.mem_range.mp hj
      rw [at1_col hg hc (by omega), Option.bind_eq_bind, Option.bind_some]
      exact set2_block hg' (V := fun r _ => gy.el r 0) hj (by omega) rfl

theorem scalar_el (c : ℝ) : (scalar c).el 0 0 = c := by
  rw [el_val _ (by simp [scalar]) (by simp [scalar])]; simp [scalar, val]

theorem item_el {d : Dense ℝ} (h : d.WF) (hr : d.rows = 1) (hc : d.cols = 1) : item d = some (d.el 0 0) := by
  have hl : d.data.length = 1 := by rw [h, hr, hc]
  rw [item_of hl, el_val d (by omega) (by omega), hc]

theorem atMat_correct (i j : Int) {x : Dense ℝ} (hx : x.WF) : Correct (atMat i j) [x] := by
  by_cases hk : x.Inside i j
  swap
  · intro y hy
    simp only [atMat, Option.bind_eq_bind, Option.bind_eq_some_iff] at hy
    obtain ⟨v, hv, -⟩ := hy
    refine absurd ?_ hk
    have := (set2_spec hx v i j).1
    unfold at2 at hv
    split at hv
    · cases hv
    · split at hv
      · cases hv
      · unfold Inside; omega
  obtain ⟨h0, h1, h2, h3⟩ := hk
  obtain ⟨i, rfl⟩ := Int.eq_ofNat_of_zero_le h0
  obtain ⟨j, rfl⟩ := Int.eq_ofNat_of_zero_le h2
  refine select_correct hx 1 1 (fun _ _ => i) (fun _ _ => j) ?_ (by omega) (by omega) ?_
  · intro x' hx'
    refine ⟨scalar (x'.el i j), ?_, rfl, rfl, rfl, fun a ha b hb => ?_⟩
    · simp only [atMat]
      rw [at2_el hx'.wf (by rw [hx'.rows]; omega) (by rw [hx'.cols]; omega)]; rfl
    · obtain rfl : a = 0 := by omega
      obtain rfl : b = 0 := by omega
      exact scalar_el _
  · intro gy hg hr hc
    obtain ⟨g, d1, d2, d3⟩ := set2_block (zeros_like (x := x)) (V := fun _ _ => gy.el 0 0) (i := i) (j := j)
      (by omega) (by omega) rfl
    refine ⟨g, ?_, d2, fun a ha b hb => ?_, fun r hr' c hc' hn => ?_⟩
    · simp only [atMat, item_el hg hr hc, Option.bind_eq_bind, Option.bind_some, d1]
    · obtain rfl : a = 0 := by omega
      obtain rfl : b = 0 := by omega
      exact (d3 _ (by omega) _ (by omega)).1 ⟨rfl, rfl⟩
    · rw [(d3 r hr' c hc').2, zeros_el hr' hc']
      rintro ⟨rfl, rfl⟩
      exact hn 0 (by omega) 0 (by omega) ⟨rfl, rfl⟩

/-- The one-index `At` is the two-index one on vectors and panics on other matrices. -/
theorem atVec_correct (i : Int) {x : Dense ℝ} (hx : x.WF) : Correct (atVec i) [x] := by
  have key : ∀ r c : Int, (∀ x', x.Like x' → x'.at1 i = x'.at2 r c) →
      (∀ g, (zeros x.rows x.cols : Dense ℝ).set1 g i = (zeros x.rows x.cols).set2 g r c) →
      Correct (atVec i) [x] := by
    intro r c h1 h2
    have hc := atMat_correct r c hx
    intro y hy gy hgy
    obtain ⟨gs, b1, b2, b3⟩ := hc y (by simpa only [atVec, atMat, h1 x (Like.refl hx)] using hy) gy hgy
    refine ⟨gs, by simpa only [atVec, atMat, h2] using b1, b2, ?_⟩
    intro X v hX h3 h4
    obtain ⟨Y, y1, y2⟩ := b3 X v hX h3 h4
    refine ⟨Y, y1.mono fun t ht => ⟨?_, ht.2⟩, y2⟩
    have := ht.1
    simp only [List.length_singleton, List.range_one, List.map_cons, List.map_nil, atMat] at this
    simp only [List.length_singleton, List.range_one, List.map_cons, List.map_nil, atVec]
    rw [h1 _ ((hX 0 x rfl).like t)]
    exact this
  by_cases hr : x.rows = 1
  · refine key 0 i (fun x' hx' => (at1_spec hx'.wf i).1 (hx'.rows.trans hr)) fun g => ?_
    exact (set1_spec (zeros_WF _ _) g i).1 hr
  · by_cases hc : x.cols = 1
    · refine key i 0 (fun x' hx' => (at1_spec hx'.wf i).2.1 (hx'.cols.trans hc)) fun g => ?_
      exact (set1_spec (zeros_WF _ _) g i).2.1 hc
    · intro y hy
      simp only [atVec, (at1_spec hx i).2.2 hr hc] at hy
      cases hy

end Verif.GradFn
