import Verif.Props.GradBinary

set_option autoImplicit false
set_option linter.unusedSimpArgs false

/-!
# Matrix products and affine maps (C22)
-/

namespace Verif.GradFn
open Dense
open scoped BigOperators Topology

theorem val_el {d : Dense ℝ} (h : d.WF) {k : Nat} (hk : k < d.data.length) :
    d.val k = d.el (k / d.cols) (k % d.cols) ∧ k / d.cols < d.rows ∧ k % d.cols < d.cols := by
  have hk' : k < d.rows * d.cols := by rw [← h]; exact hk
  have hc : 0 < d.cols := by
    rcases Nat.eq_zero_or_pos d.cols with h0 | h0
    · rw [h0] at hk'; omega
    · exact h0
  have h1 : k / d.cols < d.rows := Nat.div_lt_of_lt_mul (by rwa [Nat.mul_comm] at hk')
  have h2 := Nat.mod_lt k hc
  refine ⟨?_, h1, h2⟩
  rw [el_val d h1 h2, Nat.mul_comm, Nat.div_add_mod]

/-- The product, if the dimensions fit. -/
noncomputable def mulOf (a b : Dense ℝ) : Dense ℝ := (a.mul b).getD ⟨0, 0, []⟩

theorem mulOf_spec {a b : Dense ℝ} (ha : a.WF) (hb : b.WF) (h : a.cols = b.rows) :
    a.mul b = some (mulOf a b) ∧ (mulOf a b).WF ∧ (mulOf a b).rows = a.rows ∧ (mulOf a b).cols = b.cols ∧
      ∀ i < a.rows, ∀ j < b.cols, (mulOf a b).el i j = ∑ k ∈ Finset.range a.cols, a.el i k * b.el k j := by
  obtain ⟨h1, h2⟩ := mul_spec ha hb
  obtain ⟨y, hy⟩ := Option.isSome_iff_exists.mp (h1.mpr h)
  have : mulOf a b = y := by simp [mulOf, hy]
  rw [this]
  exact ⟨hy, h2 y hy⟩

theorem T_el {d : Dense ℝ} (h : d.WF) : ∃ t, d.T = some t ∧ t.WF ∧ t.rows = d.cols ∧ t.cols = d.rows ∧
    ∀ i j : Nat, t.el j i = d.el i j := by
  obtain ⟨t, h1, h2, h3, h4, h5⟩ := T_spec h
  exact ⟨t, h1, h2, h3, h4, fun i j => by rw [el, el, h5]⟩

/-- The velocity of element `k` of `w x` when `w` and `x` move with velocities `v` and `v'`. -/
noncomputable def mulVel (w x : Dense ℝ) (v v' : Nat → ℝ) (k : Nat) : ℝ :=
  ∑ l ∈ Finset.range w.cols,
    (v (k / x.cols * w.cols + l) * x.el l (k % x.cols) + w.el (k / x.cols) l * v' (l * x.cols + k % x.cols))

theorem mulOf_like {w x w' x' : Dense ℝ} (hd : w.cols = x.rows) (hw : w.Like w') (hx : x.Like x') :
    w'.mul x' = some (mulOf w' x') ∧ (mulOf w' x').WF ∧ (mulOf w' x').rows = w.rows ∧
      (mulOf w' x').cols = x.cols := by
  have hd' : w'.cols = x'.rows := by rw [hw.cols, hx.rows, hd]
  obtain ⟨h1, h2, h3, h4, -⟩ := mulOf_spec hw.wf hx.wf hd'
  exact ⟨h1, h2, h3.trans hw.rows, h4.trans hx.cols⟩

theorem mul_deriv {w x : Dense ℝ} (hd : w.cols = x.rows) {W X : ℝ → Dense ℝ} {v v' : Nat → ℝ}
    (hW : Curve w W v) (hX : Curve x X v') {k : Nat} (hk : k < w.rows * x.cols) :
    HasDerivAt (fun t => (mulOf (W t) (X t)).val k) (mulVel w x v v' k) 0 := by
  have hc : 0 < x.cols := by
    rcases Nat.eq_zero_or_pos x.cols with h0 | h0
    · rw [h0] at hk; omega
    · exact h0
  have hi : k / x.cols < w.rows := Nat.div_lt_of_lt_mul (by rwa [Nat.mul_comm] at hk)
  have hj := Nat.mod_lt k hc
  have e : (fun t => (mulOf (W t) (X t)).val k) =
      fun t => ∑ l ∈ Finset.range w.cols, (W t).el (k / x.cols) l * (X t).el l (k % x.cols) := by
    funext t
    have hw := hW.like t
    have hx := hX.like t
    have hd' : (W t).cols = (X t).rows := by rw [hw.cols, hx.rows, hd]
    obtain ⟨-, h2, h3, h4, h5⟩ := mulOf_spec hw.wf hx.wf hd'
    have hl : k < (mulOf (W t) (X t)).data.length := by rw [h2, h3, h4, hw.rows, hx.cols]; exact hk
    rw [(val_el h2 hl).1, h4, hx.cols, h5 _ (by rw [hw.rows]; exact hi) _ (by rw [hx.cols]; exact hj), hw.cols]
  rw [e]
  refine HasDerivAt.fun_sum fun l hl => ?_
  have hl := Finset.mem_range.mp hl
  refine ((hW.el hi hl).mul (hX.el (hd ▸ hl) hj)).congr_deriv ?_
  rw [hW.start, hX.start]

theorem sum_mulVel {w x gy : Dense ℝ} (hgy : gy.WF) (hr : gy.rows = w.rows) (hc : gy.cols = x.cols)
    (v v' : Nat → ℝ) :
    ∑ k ∈ Finset.range gy.data.length, gy.val k * mulVel w x v v' k =
      ∑ i ∈ Finset.range w.rows, ∑ l ∈ Finset.range w.cols,
        (∑ j ∈ Finset.range x.cols, gy.el i j * x.el l j) * v (i * w.cols + l) +
      ∑ l ∈ Finset.range w.cols, ∑ j ∈ Finset.range x.cols,
        (∑ i ∈ Finset.range w.rows, w.el i l * gy.el i j) * v' (l * x.cols + j) := by
  rw [hgy, sum_range_mul, hr, hc]
  have step : ∀ i ∈ Finset.range w.rows, ∑ j ∈ Finset.range x.cols,
        gy.val (i * x.cols + j) * mulVel w x v v' (i * x.cols + j) =
      ∑ j ∈ Finset.range x.cols, ∑ l ∈ Finset.range w.cols,
        (gy.el i j * x.el l j * v (i * w.cols + l) + w.el i l * gy.el i j * v' (l * x.cols + j)) := by
    intro i hi
    refine Finset.sum_congr rfl fun j hj => ?_
    have hi := Finset.mem_range.mp hi
    have hj := Finset.mem_range.mp hj
    have e1 : (i * x.cols + j) / x.cols = i := by
      rw [Nat.mul_comm, Nat.mul_add_div (by omega), Nat.div_eq_of_lt hj, Nat.add_zero]
    have e2 : (i * x.cols + j) % x.cols = j := by
      rw [Nat.mul_comm, Nat.mul_add_mod, Nat.mod_eq_of_lt hj]
    rw [mulVel, Finset.mul_sum, e1, e2]
    refine Finset.sum_congr rfl fun l _ => ?_
    rw [el_val gy (by omega) (by omega), hc]; ring
  rw [Finset.sum_congr rfl step]
  simp only [Finset.sum_add_distrib]
  congr 1
  · refine Finset.sum_congr rfl fun i _ => ?_
    rw [Finset.sum_comm]
    refine Finset.sum_congr rfl fun l _ => ?_
    rw [Finset.sum_mul]
  · rw [Finset.sum_congr rfl fun i _ => Finset.sum_comm, Finset.sum_comm]
    refine Finset.sum_congr rfl fun l _ => ?_
    rw [Finset.sum_comm]
    refine Finset.sum_congr rfl fun j _ => ?_
    rw [Finset.sum_mul]

/-- Sums over the elements of a gradient given by its rows and columns. -/
theorem sum_grad {x g : Dense ℝ} (hx : x.WF) (h : x.Like g) (v : Nat → ℝ) {G : Nat → Nat → ℝ}
    (hG : ∀ i < x.rows, ∀ j < x.cols, g.el i j = G i j) :
    ∑ i ∈ Finset.range x.data.length, g.val i * v i =
      ∑ i ∈ Finset.range x.rows, ∑ j ∈ Finset.range x.cols, G i j * v (i * x.cols + j) := by
  rw [hx, sum_range_mul]
  refine Finset.sum_congr rfl fun i hi => Finset.sum_congr rfl fun j hj => ?_
  have hi := Finset.mem_range.mp hi
  have hj := Finset.mem_range.mp hj
  rw [← hG i hi j hj, el_val g (by rw [h.rows]; exact hi) (by rw [h.cols]; exact hj), h.cols]

/-- The gradients of the factors of a product. -/
theorem pair_grads {w x gy : Dense ℝ} (hw : w.WF) (hx : x.WF) (hgy : gy.WF) (hd : w.cols = x.rows)
    (hr : gy.rows = w.rows) (hc : gy.cols = x.cols) :
    ∃ gw gx, affineBackPair w x gy = some [some gw, some gx] ∧ w.Like gw ∧ x.Like gx ∧
      ∀ v v', ∑ k ∈ Finset.range gy.data.length, gy.val k * mulVel w x v v' k =
        ∑ i ∈ Finset.range w.data.length, gw.val i * v i + ∑ i ∈ Finset.range x.data.length, gx.val i * v' i := by
  obtain ⟨xt, t1, t2, t3, t4, t5⟩ := T_el hx
  obtain ⟨m1, m2, m3, m4, m5⟩ := mulOf_spec hgy t2 (by rw [hc, t3])
  have hgw : w.Like (mulOf gy xt) := ⟨m2, by rw [m3, hr], by rw [m4, t4, hd]⟩
  have hgx : ∃ gx, (if gy.cols = 1 then w.mulT gy else do
      let wt ← w.T
      wt.mul gy) = some gx ∧ x.Like gx ∧ ∀ l < x.rows, ∀ j < x.cols,
        gx.el l j = ∑ i ∈ Finset.range w.rows, w.el i l * gy.el i j := by
    by_cases h1 : gy.cols = 1
    · rw [if_pos h1]
      obtain ⟨a1, a2⟩ := mulT_spec hw hgy
      obtain ⟨y, hy⟩ := Option.isSome_iff_exists.mp (a1.mpr ⟨hr.symm, h1⟩)
      obtain ⟨b1, b2, b3, b4⟩ := a2 y hy
      refine ⟨y, hy, ⟨b1, by rw [b2, hd], by rw [b3, ← hc, h1]⟩, fun l hl j hj => ?_⟩
      obtain rfl : j = 0 := by omega
      exact b4 l (by omega)
    · rw [if_neg h1]
      obtain ⟨wt, u1, u2, u3, u4, u5⟩ := T_el hw
      obtain ⟨n1, n2, n3, n4, n5⟩ := mulOf_spec u2 hgy (by rw [u4, hr])
      refine ⟨mulOf wt gy, by rw [u1]; exact n1, ⟨n2, by rw [n3, u3, hd], by rw [n4, hc]⟩, fun l hl j hj => ?_⟩
      rw [n5 l (by omega) j (by omega), u4]
      exact Finset.sum_congr rfl fun i _ => by rw [u5]
  obtain ⟨gx, g1, g2, g3⟩ := hgx
  refine ⟨mulOf gy xt, gx, ?_, hgw, g2, fun v v' => ?_⟩
  · unfold affineBackPair
    simp only [Option.bind_eq_bind] at g1
    rw [if_neg (by omega), t1, Option.bind_eq_bind, Option.bind_some, m1, Option.bind_eq_bind, Option.bind_some,
      g1]; rfl
  · rw [sum_mulVel hgy hr hc, sum_grad hw hgw v (G := fun i l => ∑ j ∈ Finset.range x.cols, gy.el i j * x.el l j),
      sum_grad hx g2 v' g3, hd]
    intro i hi l hl
    rw [m5 i (by omega) l (by omega), hc]
    exact Finset.sum_congr rfl fun j _ => by rw [t5]

theorem mul_correct {x1 x2 : Dense ℝ} (h1 : x1.WF) (h2 : x2.WF) : Correct mul [x1, x2] := by
  intro y hy gy hgy
  have hy : x1.mul x2 = some y := hy
  obtain ⟨s1, s2⟩ := mul_spec h1 h2
  have hd := s1.mp (by rw [hy]; rfl)
  obtain ⟨-, hr, hc, -⟩ := s2 y hy
  have hr' : gy.rows = x1.rows := hgy.rows.trans hr
  have hc' : gy.cols = x2.cols := hgy.cols.trans hc
  obtain ⟨g1, g2, hb, l1, l2, hs⟩ := pair_grads h1 h2 hgy.wf hd hr' hc'
  have hb' : mul.backward [x1, x2] gy = some [some g1, some g2] := by
    rw [← hb]
    simp only [mul, affineBackPair, hr', hc']
    simp
  refine ⟨_, hb', gradShapes2 l1 l2, isVJP2 mulOf (mulVel x1 x2) ?_ ?_ hs⟩
  · intro a b ha hb
    obtain ⟨m1, m2, m3, m4⟩ := mulOf_like hd ha hb
    exact ⟨m1, m2, m3.trans hr'.symm, m4.trans hc'.symm⟩
  · intro X v X' v' hX hX' i hi
    exact mul_deriv hd hX hX' (by rw [← hr', ← hc', ← hgy.wf]; exact hi)

/-- `MulT(a, b)` is the product of the transpose of `a` with the vector `b`. -/
theorem mulT_correct {x1 x2 : Dense ℝ} (h1 : x1.WF) (h2 : x2.WF) : Correct mulT [x1, x2] := by
  intro y hy gy hgy
  have hy : x1.mulT x2 = some y := hy
  obtain ⟨s1, s2⟩ := mulT_spec h1 h2
  obtain ⟨hd, hc1⟩ := s1.mp (by rw [hy]; rfl)
  obtain ⟨-, hr, hc, -⟩ := s2 y hy
  have hr' : gy.rows = x1.cols := hgy.rows.trans hr
  have hc' : gy.cols = 1 := hgy.cols.trans hc
  obtain ⟨xt, t1, t2, t3, t4, t5⟩ := T_el h2
  obtain ⟨m1, m2, m3, m4, m5⟩ := mulOf_spec hgy.wf t2 (by rw [hc', t3, hc1])
  obtain ⟨g1, u1, u2, u3, u4, u5⟩ := T_el m2
  obtain ⟨n1, n2, n3, n4, n5⟩ := mulOf_spec h1 hgy.wf hr'.symm
  have hb : mulT.backward [x1, x2] gy = some [some g1, some (mulOf x1 gy)] := by
    simp only [mulT, t1, m1, u1, hc', n1, Option.bind_eq_bind, Option.bind_some, if_true]
  have l1 : x1.Like g1 := ⟨u2, by rw [u3, m4, t4, hd], by rw [u4, m3, hr']⟩
  have l2 : x2.Like (mulOf x1 gy) := ⟨n2, by rw [n3, hd], by rw [n4, hc', hc1]⟩
  have hlen : gy.data.length = x1.cols := by rw [hgy.wf, hr', hc', Nat.mul_one]
  refine ⟨_, hb, gradShapes2 l1 l2, isVJP2 (fun a b => (a.mulT b).getD ⟨0, 0, []⟩)
    (fun v v' i => ∑ k ∈ Finset.range x1.rows, (v (k * x1.cols + i) * x2.el k 0 + x1.el k i * v' k)) ?_ ?_ ?_⟩
  · intro a b ha hb
    obtain ⟨p1, p2⟩ := mulT_spec ha.wf hb.wf
    obtain ⟨z, hz⟩ := Option.isSome_iff_exists.mp (p1.mpr ⟨by rw [ha.rows, hb.rows, hd], by rw [hb.cols, hc1]⟩)
    obtain ⟨q1, q2, q3, -⟩ := p2 z hz
    refine ⟨?_, ?_⟩
    · show a.mulT b = _
      rw [hz]; rfl
    · rw [hz]
      exact ⟨q1, by rw [hr']; exact q2.trans ha.cols, by rw [hc']; exact q3⟩
  · intro X v X' v' hX hX' i hi
    rw [hlen] at hi
    have e : (fun t => (((X t).mulT (X' t)).getD ⟨0, 0, []⟩).val i) =
        fun t => ∑ k ∈ Finset.range x1.rows, (X t).el k i * (X' t).el k 0 := by
      funext t
      have ha := hX.like t
      have hb := hX'.like t
      obtain ⟨p1, p2⟩ := mulT_spec ha.wf hb.wf
      obtain ⟨z, hz⟩ := Option.isSome_iff_exists.mp (p1.mpr ⟨by rw [ha.rows, hb.rows, hd], by rw [hb.cols, hc1]⟩)
      obtain ⟨q1, q2, q3, q4⟩ := p2 z hz
      have := q4 i (by rw [ha.cols]; exact hi)
      rw [el_val z (by rw [q2, ha.cols]; exact hi) (by omega), q3, Nat.mul_one, Nat.add_zero] at this
      rw [hz, Option.getD_some, this, ha.rows]
    rw [e]
    refine HasDerivAt.fun_sum fun k hk => ?_
    have hk := Finset.mem_range.mp hk
    have hd2 := hX'.el (i := k) (j := 0) (by omega) (by omega)
    rw [hc1, Nat.mul_one, Nat.add_zero] at hd2
    refine ((hX.el hk hi).mul hd2).congr_deriv ?_
    rw [hX.start, hX'.start]
  · intro v v'
    have hgel : ∀ i < x1.cols, gy.val i = gy.el i 0 := by
      intro i hi
      rw [el_val gy (by omega) (by omega), hc', Nat.mul_one, Nat.add_zero]
    rw [sum_grad h1 l1 v (G := fun k i => gy.el i 0 * x2.el k 0),
      sum_grad h2 l2 v' (G := fun k _ => ∑ i ∈ Finset.range x1.cols, x1.el k i * gy.el i 0), hlen]
    · simp only [hc1, Finset.sum_range_one, Nat.mul_one, Nat.add_zero]
      rw [Finset.sum_comm, ← hd]
      simp only [Finset.sum_mul]
      rw [Finset.sum_comm (s := Finset.range x1.rows) (t := Finset.range x1.cols),
        ← Finset.sum_add_distrib]
      refine Finset.sum_congr rfl fun i hi => ?_
      rw [hgel i (Finset.mem_range.mp hi), Finset.mul_sum, ← Finset.sum_add_distrib]
      exact Finset.sum_congr rfl fun k _ => by ring
    · intro k hk j hj
      rw [n5 k (by omega) j (by omega)]
      obtain rfl : j = 0 := by omega
      rfl
    · intro k hk i hi
      rw [u5, m5 i (by omega) k (by omega), hc', Finset.sum_range_one, t5]

/-! ## Affine -/

theorem gradShapes_cons {x g : Dense ℝ} {xs : List (Dense ℝ)} {gs : List (Option (Dense ℝ))} (h : x.Like g)
    (hs : GradShapes xs gs) : GradShapes (x :: xs) (some g :: gs) := by
  refine ⟨by simp [hs.1], fun k a b ha hb => ?_⟩
  cases k with
  | zero => simp at ha hb; subst ha hb; exact h
  | succ k => exact hs.2 k a b (by simpa using ha) (by simpa using hb)

theorem gradVal_succ (g : Option (Dense ℝ)) (gs : List (Option (Dense ℝ))) (k i : Nat) :
    gradVal (g :: gs) (k + 1) i = gradVal gs k i := by simp [gradVal]

theorem gradVal_zero (g : Dense ℝ) (gs : List (Option (Dense ℝ))) (i : Nat) :
    gradVal (some g :: gs) 0 i = g.val i := by simp [gradVal]

theorem affineLoop_vjp : ∀ (rest : List (Dense ℝ)) (_ : ∀ x ∈ rest, x.WF) (y z : Dense ℝ) (_ : y.WF)
    (_ : affineLoop rest y = some z),
    y.Like z ∧ ∀ gy, y.Like gy → ∃ gs, affineBackLoop gy rest = some gs ∧ GradShapes rest gs ∧
      ∀ (X : Nat → ℝ → Dense ℝ) (v : Nat → Nat → ℝ), (∀ k x, rest[k]? = some x → Curve x (X k) (v k)) →
      ∀ (Y0 : ℝ → Dense ℝ) (D0 : Nat → ℝ), (∀ t, y.Like (Y0 t)) →
        (∀ i < gy.data.length, HasDerivAt (fun t => (Y0 t).val i) (D0 i) 0) →
        ∃ (Y : ℝ → Dense ℝ) (D : Nat → ℝ),
          (∀ t, affineLoop ((List.range rest.length).map fun k => X k t) (Y0 t) = some (Y t) ∧ gy.Like (Y t)) ∧
          (∀ i < gy.data.length, HasDerivAt (fun t => (Y t).val i) (D0 i + D i) 0) ∧
          ∑ i ∈ Finset.range gy.data.length, gy.val i * D i = ∑ k ∈ Finset.range rest.length,
            ∑ i ∈ Finset.range ((rest.map fun x => x.data.length).getD k 0), gradVal gs k i * v k i
  | [], _, y, z, hy, h => by
    cases h
    refine ⟨Like.refl hy, fun gy hgy => ⟨[], rfl, ⟨rfl, by simp⟩, fun X v _ Y0 D0 hY hD => ?_⟩⟩
    refine ⟨Y0, fun _ => 0, fun t => ⟨rfl, (hgy.symm hy).trans (hY t)⟩, fun i hi => ?_, by simp⟩
    rw [add_zero]; exact hD i hi
  | [_], _, _, _, _, h => by simp [affineLoop] at h
  | w :: x :: rest, hwf, y, z, hy, h => by
    have hw := hwf w (by simp)
    have hx := hwf x (by simp)
    simp only [affineLoop, Option.bind_eq_bind, Option.bind_eq_some_iff] at h
    obtain ⟨wx, h1, y1, h2, h3⟩ := h
    obtain ⟨s1, s2⟩ := mul_spec hw hx
    have hd := s1.mp (by rw [h1]; rfl)
    obtain ⟨w1, w2, w3, -⟩ := s2 wx h1
    obtain ⟨hyw, rfl⟩ := zip_forward hy w1 h2
    have hyy := zip2_like (· + ·) hy hyw
    obtain ⟨ih1, ih2⟩ := affineLoop_vjp rest (fun a ha => hwf a (by simp [ha])) _ z hyy.wf h3
    refine ⟨hyy.trans ih1, fun gy hgy => ?_⟩
    have hr : gy.rows = w.rows := by rw [hgy.rows, ← hyw.rows, w2]
    have hc : gy.cols = x.cols := by rw [hgy.cols, ← hyw.cols, w3]
    obtain ⟨gs, b1, b2, b3⟩ := ih2 gy ((hyy.symm hy).trans hgy)
    obtain ⟨gw, gx, p1, p2, p3, p4⟩ := pair_grads hw hx hgy.wf hd hr hc
    refine ⟨some gw :: some gx :: gs, ?_, gradShapes_cons p2 (gradShapes_cons p3 b2), ?_⟩
    · simp only [affineBackLoop, p1, b1, Option.bind_eq_bind, Option.bind_some]; rfl
    · intro X v hX Y0 D0 hY hD
      have cw := hX 0 w rfl
      have cx := hX 1 x rfl
      have hl := hgy.len hy
      have hYW : ∀ t, (Y0 t).Like (mulOf (X 0 t) (X 1 t)) := fun t => by
        obtain ⟨-, m2, m3, m4⟩ := mulOf_like hd (cw.like t) (cx.like t)
        exact ⟨m2, by rw [m3, (hY t).rows, ← hgy.rows, hr], by rw [m4, (hY t).cols, ← hgy.cols, hc]⟩
      obtain ⟨Y, D, c1, c2, c3⟩ := b3 (fun k => X (k + 2)) (fun k => v (k + 2))
        (fun k a ha => hX (k + 2) a (by simpa using ha))
        (fun t => zip2 (· + ·) (Y0 t) (mulOf (X 0 t) (X 1 t)))
        (fun i => D0 i + mulVel w x (v 0) (v 1) i)
        (fun t => (hyy.symm hy).trans ((hY t).trans (zip2_like _ (hY t).wf (hYW t))))
        (fun i hi => by
          have e : (fun t => (zip2 (· + ·) (Y0 t) (mulOf (X 0 t) (X 1 t))).val i) =
              fun t => (Y0 t).val i + (mulOf (X 0 t) (X 1 t)).val i := by
            funext t
            have h0 := (hY t).len hy
            have h1 := (hYW t).len (hY t).wf
            rw [val_zip2 _ (by omega) (by omega)]
          rw [e]
          exact (hD i hi).add (mul_deriv hd cw cx (by rw [← hr, ← hc, ← hgy.wf]; exact hi)))
      refine ⟨Y, fun i => mulVel w x (v 0) (v 1) i + D i, fun t => ⟨?_, (c1 t).2⟩, fun i hi => ?_, ?_⟩
      · have m1 := (mulOf_like hd (cw.like t) (cx.like t)).1
        rw [← (c1 t).1]
        simp only [List.length_cons, List.range_succ_eq_map, List.map_cons, List.map_map, Function.comp_def,
          affineLoop, m1, Option.bind_eq_bind, Option.bind_some, zipOp_like _ (hYW t)]
      · rw [← add_assoc]; exact c2 i hi
      · simp only [mul_add, Finset.sum_add_distrib]
        rw [p4, c3, List.length_cons, List.length_cons, Finset.sum_range_succ', Finset.sum_range_succ']
        simp only [gradVal_succ, gradVal_zero, List.map_cons, List.getD_cons_zero, List.getD_cons_succ]
        ring

theorem affine_correct {xs : List (Dense ℝ)} (hwf : ∀ x ∈ xs, x.WF) : Correct affine xs := by
  intro y hy gy hgy
  match xs, hwf, hy with
  | b :: w1 :: x1 :: rest, hwf, hy =>
  have hb := hwf b (by simp)
  have hw := hwf w1 (by simp)
  have hx := hwf x1 (by simp)
  simp only [affine, Option.bind_eq_bind, Option.bind_eq_some_iff] at hy
  obtain ⟨wx, h1, y1, h2, h3⟩ := hy
  obtain ⟨s1, s2⟩ := mul_spec hw hx
  have hd := s1.mp (by rw [h1]; rfl)
  obtain ⟨e1, e2, e3, -⟩ := s2 wx h1
  obtain ⟨hwb, rfl⟩ := zip_forward e1 hb h2
  have hwz := zip2_like (· + ·) e1 hwb
  obtain ⟨l1, l2⟩ := affineLoop_vjp rest (fun a ha => hwf a (by simp [ha])) _ y hwz.wf h3
  have hbg : b.Like gy := (hwb.symm e1).trans (hwz.trans (l1.trans hgy))
  have hr : gy.rows = w1.rows := by rw [hbg.rows, hwb.rows, e2]
  have hc : gy.cols = x1.cols := by rw [hbg.cols, hwb.cols, e3]
  obtain ⟨gs, b1, b2, b3⟩ := l2 gy (l1.trans hgy)
  obtain ⟨gw, gx, p1, p2, p3, p4⟩ := pair_grads hw hx hgy.wf hd hr hc
  have hlen := hbg.len hb
  refine ⟨some gy :: some gw :: some gx :: gs, ?_,
    gradShapes_cons hbg (gradShapes_cons p2 (gradShapes_cons p3 b2)), isVJPOn_of_entries fun X v hX _ _ => ?_⟩
  · simp only [affine, affineBackLoop, hbg.sameDims, not_true_eq_false, if_false, p1, b1, Option.bind_eq_bind,
      Option.bind_some]
    rfl
  · have cb := hX 0 b rfl
    have cw := hX 1 w1 rfl
    have cx := hX 2 x1 rfl
    have hYW : ∀ t, (mulOf (X 1 t) (X 2 t)).Like (X 0 t) := fun t => by
      obtain ⟨-, m2, m3, m4⟩ := mulOf_like hd (cw.like t) (cx.like t)
      refine ⟨(cb.like t).wf, ?_, ?_⟩
      · rw [(cb.like t).rows, m3, ← hr, hbg.rows]
      · rw [(cb.like t).cols, m4, ← hc, hbg.cols]
    have hW : ∀ t, (mulOf (X 1 t) (X 2 t)).WF := fun t => (mulOf_like hd (cw.like t) (cx.like t)).2.1
    obtain ⟨Y, D, c1, c2, c3⟩ := b3 (fun k => X (k + 3)) (fun k => v (k + 3))
      (fun k a ha => hX (k + 3) a (by simpa using ha))
      (fun t => zip2 (· + ·) (mulOf (X 1 t) (X 2 t)) (X 0 t))
      (fun i => mulVel w1 x1 (v 1) (v 2) i + v 0 i)
      (fun t => by
        have := zip2_like (· + ·) (hW t) (hYW t)
        have hb' := (hYW t).symm (hW t)
        exact (hwz.symm e1).trans (hwb.trans ((cb.like t).trans (hb'.trans this))))
      (fun i hi => by
        have e : (fun t => (zip2 (· + ·) (mulOf (X 1 t) (X 2 t)) (X 0 t)).val i) =
            fun t => (mulOf (X 1 t) (X 2 t)).val i + (X 0 t).val i := by
          funext t
          have h0 := cb.len t
          have h1 := (hYW t).len (hW t)
          rw [val_zip2 _ (by omega) (by omega)]
        rw [e]
        exact (mul_deriv hd cw cx (by rw [← hr, ← hc, ← hgy.wf]; exact hi)).add (cb.deriv i (by omega)))
    refine ⟨Y, fun i => mulVel w1 x1 (v 1) (v 2) i + v 0 i + D i, Filter.Eventually.of_forall fun t => ⟨?_, (c1 t).2⟩,
      c2, ?_⟩
    · have m1 := (mulOf_like hd (cw.like t) (cx.like t)).1
      rw [← (c1 t).1]
      simp only [List.length_cons, List.range_succ_eq_map, List.map_cons, List.map_map, Function.comp_def,
        affine, m1, Option.bind_eq_bind, Option.bind_some, zipOp_like _ (hYW t)]
    · simp only [mul_add, Finset.sum_add_distrib]
      rw [p4, c3, List.length_cons, List.length_cons, List.length_cons, Finset.sum_range_succ',
        Finset.sum_range_succ', Finset.sum_range_succ']
      simp only [gradVal_succ, gradVal_zero, List.map_cons, List.getD_cons_zero, List.getD_cons_succ]
      rw [hlen]; ring

/-- A bias, a 2×3 weight matrix and an input. -/
def exBias : Dense ℝ := ⟨2, 1, [1, -1]⟩
def exW : Dense ℝ := ⟨2, 3, [1, 2, 3, 4, 5, 6]⟩
def exX : Dense ℝ := ⟨3, 1, [1, 0, -1]⟩

example : (∀ x ∈ [exBias, exW, exX, exW, exX], x.WF) ∧ (affine.forward [exBias, exW, exX, exW, exX]).isSome ∧
    (mul.forward [exW, exX]).isSome ∧ (mulT.forward [exW, exBias]).isSome := by
  have hb : exBias.WF := rfl
  have hw : exW.WF := rfl
  have hx : exX.WF := rfl
  obtain ⟨m1, m2, m3, m4, -⟩ := mulOf_spec hw hx rfl
  have l1 : (mulOf exW exX).Like exBias := ⟨hb, m3.symm, m4.symm⟩
  have l2 := zip2_like (· + ·) m2 l1
  have l3 : (zip2 (· + ·) (mulOf exW exX) exBias).Like (mulOf exW exX) := l2.symm m2
  refine ⟨by simp [hb, hw, hx], ?_, ?_, ((mulT_spec hw hb).1).mpr ⟨rfl, rfl⟩⟩
  · simp only [affine, affineLoop, m1, zipOp_like _ l1, zipOp_like _ l3, Option.bind_eq_bind, Option.bind_some,
      Option.isSome_some]
  · show (exW.mul exX).isSome
    rw [m1]; rfl

end Verif.GradFn
