import Verif.Props.GradSelect

set_option autoImplicit false
set_option linter.unusedSimpArgs false

/-!
# Reshaping, rotating, copying, dropout and reductions (C22, C23)
-/

namespace Verif.GradFn
open Dense
open scoped BigOperators Topology

/-- Operators that keep the data and change the dimensions. -/
theorem sameData_correct {op : GradFn ℝ} {x : Dense ℝ} (hx : x.WF) (ry cy : Nat)
    (hf : ∀ x', x.Like x' → op.forward [x'] = some ⟨ry, cy, x'.data⟩) (hn : x.data.length = ry * cy)
    (hb : ∀ gy : Dense ℝ, gy.WF → gy.rows = ry → gy.cols = cy →
      op.backward [x] gy = some [some ⟨x.rows, x.cols, gy.data⟩]) : Correct op [x] := by
  intro y hy gy hgy
  rw [hf x (Like.refl hx)] at hy
  cases hy
  have hl : gy.data.length = x.data.length := by rw [hgy.wf, hgy.rows, hgy.cols, hn]
  refine ⟨_, hb gy hgy.wf hgy.rows hgy.cols, gradShapes1 ⟨by rw [WF, ← hx]; exact hl, rfl, rfl⟩,
    isVJP1 (fun x' => ⟨ry, cy, x'.data⟩) (fun v => v) hx (fun x' hx' => ⟨hf x' hx', ?_⟩) ?_ ?_⟩
  · have hl' := hx'.len hx
    exact ⟨by rw [WF, ← hn]; exact hl', hgy.rows.symm, hgy.cols.symm⟩
  · intro X v hX i hi
    exact hX.deriv i (by omega)
  · intro v
    rw [hl]; rfl

theorem reshape_correct (rows cols : Int) {x : Dense ℝ} (hx : x.WF) : Correct (reshape rows cols) [x] := by
  by_cases hk : 0 ≤ rows ∧ 0 ≤ cols ∧ rows * cols = x.data.length
  swap
  · intro y hy
    exact absurd ((reshape_spec x rows cols).1.mp (by
      have hy : x.reshape rows cols = some y := hy
      rw [hy]; rfl)) hk
  obtain ⟨h1, h2, h3⟩ := hk
  obtain ⟨rows, rfl⟩ := Int.eq_ofNat_of_zero_le h1
  obtain ⟨cols, rfl⟩ := Int.eq_ofNat_of_zero_le h2
  have h3 : x.data.length = rows * cols := by exact_mod_cast h3.symm
  refine sameData_correct hx rows cols ?_ h3 ?_
  · intro x' hx'
    simp only [reshape]
    unfold Dense.reshape
    rw [if_neg (by omega), if_neg (by rw [hx'.len hx, h3]; simp)]
    rfl
  · intro gy hg hr hc
    simp only [reshape]
    have : gy.reshape x.rows x.cols = some ⟨x.rows, x.cols, gy.data⟩ := by
      unfold Dense.reshape
      rw [if_neg (by omega), if_neg (by rw [hg, hr, hc, ← h3, hx]; simp)]
      rfl
    rw [if_neg (by omega), this]; rfl

theorem flatten_correct {x : Dense ℝ} (hx : x.WF) : Correct flatten [x] := by
  refine sameData_correct hx 1 x.data.length ?_ (by omega) ?_
  · intro x' hx'
    show some x'.flatten = _
    rw [Dense.flatten, hx'.len hx]
  · intro gy hg hr hc
    have hl : gy.data.length = x.data.length := by rw [hg, hr, hc]; omega
    have : gy.reshape x.rows x.cols = some ⟨x.rows, x.cols, gy.data⟩ := by
      unfold Dense.reshape
      rw [if_neg (by omega), if_neg (by rw [hl, hx]; simp)]
      rfl
    simp only [flatten]
    rw [if_neg (by simp [isVector, hr, hl]), this]; rfl

theorem copy_correct {x : Dense ℝ} (hx : x.WF) : Correct copy [x] := by
  refine sameData_correct hx x.rows x.cols ?_ hx ?_
  · intro x' hx'
    rw [← hx'.rows, ← hx'.cols]; rfl
  · intro gy hg hr hc
    have e : (⟨x.rows, x.cols, gy.data⟩ : Dense ℝ) = gy := by rw [← hr, ← hc]
    rw [e]
    simp [copy, sameDims, hr, hc]

theorem dropout_correct {x mask : Dense ℝ} (hx : x.WF) (hm : mask.WF) : Correct (dropout mask) [x] := by
  intro y hy gy hgy
  obtain ⟨h1, rfl⟩ := zip_forward hx hm hy
  have hl := zip2_like (· * ·) hx h1
  have hg := hl.trans hgy
  have hgm : gy.Like mask := (hg.symm hx).trans h1
  have e1 := hg.len hx
  have e2 := h1.len hx
  refine ⟨[some (zip2 (· * ·) gy mask)], ?_, gradShapes1 (hg.trans (zip2_like _ hg.wf hgm)),
    isVJP1 (fun x' => zip2 (· * ·) x' mask) (fun v i => v i * mask.val i) hx ?_ ?_ ?_⟩
  · simp only [dropout, hg.sameDims, not_true_eq_false, if_false, zipOp_like _ hgm, Option.bind_eq_bind,
      Option.bind_some]
  · intro x' hx'
    have h' : x'.Like mask := (hx'.symm hx).trans h1
    exact ⟨zipOp_like _ h', (hg.symm hx).trans (hx'.trans (zip2_like _ hx'.wf h'))⟩
  · intro X v hX i hi
    have e : (fun t => (zip2 (· * ·) (X t) mask).val i) = fun t => (X t).val i * mask.val i := by
      funext t
      rw [val_zip2 _ (by rw [hX.len]; omega) (by omega)]
    rw [e]
    exact (hX.deriv i (by omega)).mul_const _
  · intro v
    rw [e1]
    refine Finset.sum_congr rfl fun i hi => ?_
    have := Finset.mem_range.mp hi
    rw [val_zip2 _ (by omega) (by omega)]; ring

/-! ## RotateR -/

theorem rotate_spec {m : Dense ℝ} (h : m.WF) (k : Int) :
    ((rotate m k).isSome ↔ m.cols = 1 ∧ 0 ≤ k ∧ k < m.rows) ∧
    ∀ y, rotate m k = some y → y.WF ∧ y.rows = m.rows ∧ y.cols = 1 ∧
      ∀ i < m.rows, y.el i 0 = m.el ((i + k.toNat) % m.rows) 0 := by
  have hlen : m.data.length = m.rows * m.cols := h
  obtain ⟨l1, l2⟩ := slice_spec h 0 0 k 1
  obtain ⟨r1, r2⟩ := slice_spec h k 0 m.data.length 1
  have hsome : ∀ y, rotate m k = some y → ∃ left right, m.slice 0 0 k 1 = some left ∧
      m.slice k 0 m.data.length 1 = some right ∧ concatV [right, left] = some y := by
    intro y hy
    simp only [rotate, Option.bind_eq_bind, Option.bind_eq_some_iff] at hy
    obtain ⟨a, ha, b, hb, h⟩ := hy
    exact ⟨a, b, ha, hb, h⟩
  have dims : ∀ y, rotate m k = some y → m.cols = 1 ∧ 0 ≤ k ∧ k < m.rows := by
    intro y hy
    obtain ⟨left, right, e1, e2, -⟩ := hsome y hy
    obtain ⟨⟨a1, a2, a3, a4⟩, a5, a6, a7, a8⟩ := l1.mp (by rw [e1]; rfl)
    obtain ⟨⟨b1, b2, b3, b4⟩, b5, b6, b7, b8⟩ := r1.mp (by rw [e2]; rfl)
    refine ⟨?_, by omega, by omega⟩
    have : m.rows * m.cols ≤ m.rows * 1 := by rw [← hlen]; omega
    have := Nat.le_of_mul_le_mul_left this (by omega)
    omega
  refine ⟨⟨fun hs => ?_, fun hs => ?_⟩, fun y hy => ?_⟩
  · obtain ⟨y, hy⟩ := Option.isSome_iff_exists.mp hs
    exact dims y hy
  · obtain ⟨c1, c2, c3⟩ := hs
    rw [c1, Nat.mul_one] at hlen
    obtain ⟨left, e1⟩ := Option.isSome_iff_exists.mp (l1.mpr ⟨⟨by omega, by omega, by omega, by omega⟩, by omega,
      by omega, by omega, by omega⟩)
    obtain ⟨right, e2⟩ := Option.isSome_iff_exists.mp (r1.mpr ⟨⟨by omega, by omega, by omega, by omega⟩, by omega,
      by omega, by omega, by omega⟩)
    have hl := (l2 left e1).2.2.1
    have hr := (r2 right e2).2.2.1
    simp only [rotate, e1, e2, Option.bind_eq_bind, Option.bind_some]
    refine (concatV_spec [right, left]).1.mpr ?_
    intro v hv
    simp only [List.mem_cons, List.not_mem_nil, or_false] at hv
    rcases hv with rfl | rfl <;> right <;> omega
  · obtain ⟨c1, c2, c3⟩ := dims y hy
    rw [c1, Nat.mul_one] at hlen
    obtain ⟨left, right, e1, e2, e3⟩ := hsome y hy
    obtain ⟨p1, p2, p3, p4⟩ := l2 left e1
    obtain ⟨q1, q2, q3, q4⟩ := r2 right e2
    obtain ⟨z1, z2, z3⟩ := (concatV_spec [right, left]).2 y e3
    obtain ⟨k, rfl⟩ := Int.eq_ofNat_of_zero_le c2
    have hll : left.data.length = k := by
      have : left.data.length = left.rows * left.cols := p1
      rw [this, show left.cols = 1 by omega]; omega
    have hrl : right.data.length = m.rows - k := by
      have : right.data.length = right.rows * right.cols := q1
      rw [this, show right.cols = 1 by omega]; omega
    have hyr : y.rows = m.rows := by
      have : y.data.length = y.rows * y.cols := z1
      rw [z2, z3] at this
      simp [hll, hrl] at this
      omega
    refine ⟨z1, hyr, z2, fun i hi => ?_⟩
    rw [el_val y (by omega) (by omega), z2, Nat.mul_one, Nat.add_zero, val, z3]
    simp only [List.map_cons, List.map_nil, List.flatten_cons, List.flatten_nil, List.append_nil, Int.toNat_natCast]
    by_cases hik : i < m.rows - k
    · rw [List.getD_eq_getElem?_getD, List.getElem?_append_left (by omega), ← List.getD_eq_getElem?_getD,
        Nat.mod_eq_of_lt (by omega)]
      have := q4 i 0
      rw [if_pos (by omega)] at this
      have hel : right.el i 0 = m.el (i + k) 0 := by
        rw [el, el]
        rw [show ((0 : Nat) : Int) = 0 from rfl, this]
        have : (k : Int) + i = ((i + k : Nat) : Int) := by omega
        rw [this]; rfl
      rw [← hel, el_val right (by omega) (by omega), show right.cols = 1 by omega, Nat.mul_one, Nat.add_zero]; rfl
    · rw [List.getD_eq_getElem?_getD, List.getElem?_append_right (by omega), ← List.getD_eq_getElem?_getD, hrl]
      have hmod : (i + k) % m.rows = i - (m.rows - k) := by
        have : i + k = (i - (m.rows - k)) + m.rows := by omega
        rw [this, Nat.add_mod_right, Nat.mod_eq_of_lt (by omega)]
      rw [hmod]
      have := p4 ((i - (m.rows - k) : Nat) : Int) 0
      rw [if_pos (by omega)] at this
      have hel : left.el (i - (m.rows - k)) 0 = m.el (i - (m.rows - k)) 0 := by
        rw [el, el]
        rw [show ((0 : Nat) : Int) = 0 from rfl, this, zero_add, zero_add]
      rw [← hel, el_val left (by omega) (by omega), show left.cols = 1 by omega, Nat.mul_one, Nat.add_zero]; rfl

/-- `RotateR` by anything but the full size. The full size is accepted by the forward pass and not by the
backward pass (`rotateR_full`); no rotation at all is not accepted by either (`rotateR_zero`). -/
theorem rotateR_correct_partial {k : Int} {x : Dense ℝ} (hx : x.WF) (hk : k ≠ x.data.length) :
    Correct (rotateR k) [x] := by
  have hlen : x.data.length = x.rows * x.cols := hx
  by_cases hs : (rotate x (x.data.length - k)).isSome
  swap
  · intro y hy
    have hy : rotate x (x.data.length - k) = some y := hy
    rw [hy] at hs; simp at hs
  obtain ⟨c1, c2, c3⟩ := (rotate_spec hx _).1.mp hs
  rw [c1, Nat.mul_one] at hlen
  obtain ⟨k, rfl⟩ := Int.eq_ofNat_of_zero_le (show 0 ≤ k by omega)
  have hn : ((x.data.length : Int) - k).toNat = x.rows - k := by omega
  refine select_correct hx x.rows 1 (fun i _ => (i + (x.rows - k)) % x.rows) (fun _ _ => 0) ?_ ?_ ?_ ?_
  · intro x' hx'
    have hl := hx'.len hx
    obtain ⟨s1, s2⟩ := rotate_spec hx'.wf (x'.data.length - k)
    obtain ⟨y, hy⟩ := Option.isSome_iff_exists.mp (s1.mpr ⟨by rw [hx'.cols]; exact c1, by omega,
      by rw [hx'.rows]; omega⟩)
    obtain ⟨w1, w2, w3, w4⟩ := s2 y hy
    refine ⟨y, hy, w1, w2.trans hx'.rows, w3, fun i hi j hj => ?_⟩
    obtain rfl : j = 0 := by omega
    rw [w4 i (by rw [hx'.rows]; exact hi), hl, hn, hx'.rows]
  · intro i hi j hj
    exact ⟨Nat.mod_lt _ (by omega), by omega⟩
  · intro i hi j hj i' hi' j' hj' e _
    refine ⟨?_, by omega⟩
    have := Nat.ModEq.add_right_cancel' _ (show (i + (x.rows - k)) ≡ (i' + (x.rows - k)) [MOD x.rows] from e)
    have h1 : i % x.rows = i' % x.rows := this
    rwa [Nat.mod_eq_of_lt hi, Nat.mod_eq_of_lt hi'] at h1
  · intro gy hg hr hc
    obtain ⟨s1, s2⟩ := rotate_spec hg (k : Int)
    obtain ⟨y, hy⟩ := Option.isSome_iff_exists.mp (s1.mpr ⟨hc, by omega, by omega⟩)
    obtain ⟨w1, w2, w3, w4⟩ := s2 y hy
    refine ⟨y, ?_, ⟨w1, w2.trans hr, w3.trans c1.symm⟩, fun i hi j hj => ?_, fun r hr' c hc' hno => ?_⟩
    · simp only [rotateR, hy, Option.bind_eq_bind, Option.bind_some]
    · obtain rfl : j = 0 := by omega
      rw [w4 _ (by rw [hr]; exact Nat.mod_lt _ (by omega)), hr, Int.toNat_natCast, Nat.mod_add_mod]
      have : i + (x.rows - k) + k = i + x.rows := by omega
      rw [this, Nat.add_mod_right, Nat.mod_eq_of_lt hi]
    · refine absurd ⟨?_, by omega⟩ (hno ((r + k) % x.rows) (Nat.mod_lt _ (by omega)) 0 (by omega))
      rw [Nat.mod_add_mod]
      have : r + k + (x.rows - k) = r + x.rows := by omega
      rw [this, Nat.add_mod_right, Nat.mod_eq_of_lt hr']

/-- A rotation by the full size is the identity, but it has no backward pass. -/
theorem rotateR_full {x : Dense ℝ} (hx : x.WF) (hc : x.cols = 1) (hr : 0 < x.rows) :
    (rotateR x.data.length).forward [x] = some x ∧
      ∀ gy, x.Like gy → (rotateR x.data.length).backward [x] gy = none := by
  have hlen : x.data.length = x.rows := by rw [hx, hc, Nat.mul_one]
  constructor
  · show rotate x _ = _
    obtain ⟨s1, s2⟩ := rotate_spec hx (x.data.length - (x.data.length : Int))
    obtain ⟨y, hy⟩ := Option.isSome_iff_exists.mp (s1.mpr ⟨hc, by omega, by omega⟩)
    obtain ⟨w1, w2, w3, w4⟩ := s2 y hy
    rw [hy]
    congr 1
    refine ext_el w1 hx w2 (w3.trans hc.symm) fun i hi j hj => ?_
    obtain rfl : j = 0 := by omega
    rw [w4 i (by omega), sub_self, Int.toNat_zero, Nat.add_zero, Nat.mod_eq_of_lt (by omega)]
  · intro gy hgy
    have : rotate gy x.data.length = none := by
      cases h : rotate gy x.data.length with
      | none => rfl
      | some y =>
        have := (rotate_spec hgy.wf _).1.mp (by rw [h]; rfl)
        have := hgy.rows
        omega
    simp only [rotateR, this]; rfl

/-- A rotation by 0 panics. -/
theorem rotateR_zero {x : Dense ℝ} (hx : x.WF) : (rotateR 0).forward [x] = none := by
  show rotate x _ = none
  cases h : rotate x (x.data.length - 0) with
  | none => rfl
  | some y =>
    obtain ⟨h1, h2, h3⟩ := (rotate_spec hx _).1.mp (by rw [h]; rfl)
    have : x.data.length = x.rows := by rw [hx, h1, Nat.mul_one]
    omega

/-! ## Reductions -/

/-- Reductions to a scalar whose gradient is the same for every element. -/
theorem reduce_vjp {op : GradFn ℝ} {x : Dense ℝ} (hx : x.WF) (c : ℝ)
    (hf : ∀ x', x.Like x' → op.forward [x'] = some (scalar (x'.sum * c)))
    (hb : ∀ gy, item gy = some (gy.val 0) → op.backward [x] gy =
      some [some ⟨x.data.length, 1, List.replicate x.data.length (gy.val 0 * c)⟩]) :
    ∀ y, op.forward [x] = some y → ∀ gy, y.Like gy → ∃ gs, op.backward [x] gy = some gs ∧ IsVJP op [x] gy gs ∧
      (GradShapes [x] gs ↔ x.cols = 1) := by
  intro y hy gy hgy
  rw [hf x (Like.refl hx)] at hy
  cases hy
  have hs1 : ∀ c : ℝ, (scalar c).WF := fun c => rfl
  have hg1 : gy.data.length = 1 := (hgy.len (hs1 _)).trans rfl
  refine ⟨_, hb gy (item_of hg1), isVJP1 (fun x' => scalar (x'.sum * c))
    (fun v _ => (∑ i ∈ Finset.range x.data.length, v i) * c) hx ?_ ?_ ?_, ?_⟩
  · intro x' hx'
    exact ⟨hf x' hx', hs1 _, hgy.rows.symm, hgy.cols.symm⟩
  · intro X v hX i hi
    obtain rfl : i = 0 := by omega
    simp only [scalar_val, sum_eq_val, hX.len]
    refine HasDerivAt.mul_const ?_ _
    exact HasDerivAt.fun_sum fun i hi => hX.deriv i (Finset.mem_range.mp hi)
  · intro v
    rw [hg1, Finset.sum_range_one, Finset.sum_mul, Finset.mul_sum]
    refine Finset.sum_congr rfl fun i hi => ?_
    have hi := Finset.mem_range.mp hi
    have e : (⟨x.data.length, 1, List.replicate x.data.length (gy.val 0 * c)⟩ : Dense ℝ).val i = gy.val 0 * c := by
      rw [val_of_lt _ (by simpa using hi)]; simp
    rw [e]; ring
  · constructor
    · intro h
      exact (h.2 0 x _ rfl rfl).cols.symm
    · intro h
      refine gradShapes1 ⟨by simp [WF], ?_, h.symm⟩
      show x.data.length = x.rows
      rw [hx, h, Nat.mul_one]

theorem reduceSum_vjp {x : Dense ℝ} (hx : x.WF) : ∀ y, reduceSum.forward [x] = some y → ∀ gy, y.Like gy →
    ∃ gs, reduceSum.backward [x] gy = some gs ∧ IsVJP reduceSum [x] gy gs ∧ (GradShapes [x] gs ↔ x.cols = 1) := by
  refine reduce_vjp hx 1 (fun x' _ => by simp [reduceSum]) fun gy hg => ?_
  simp only [reduceSum, hg, Option.bind_eq_bind, Option.bind_some, mul_one]

theorem reduceMean_vjp {x : Dense ℝ} (hx : x.WF) : ∀ y, reduceMean.forward [x] = some y → ∀ gy, y.Like gy →
    ∃ gs, reduceMean.backward [x] gy = some gs ∧ IsVJP reduceMean [x] gy gs ∧ (GradShapes [x] gs ↔ x.cols = 1) := by
  refine reduce_vjp hx (1 / (x.data.length : ℝ)) (fun x' hx' => by simp only [reduceMean, hx'.len hx])
    fun gy hg => ?_
  simp only [reduceMean, hg, Option.bind_eq_bind, Option.bind_some]
  rw [div_eq_mul_one_div]

/-- `ReduceSum` is right for column vectors only: for other matrices the gradient has wrong dimensions. -/
theorem reduceSum_correct_iff {x : Dense ℝ} (hx : x.WF) : Correct reduceSum [x] ↔ x.cols = 1 := by
  obtain ⟨gs, h1, h2, h3⟩ := reduceSum_vjp hx _ rfl (scalar 1) ⟨rfl, rfl, rfl⟩
  constructor
  · intro h
    obtain ⟨gs', a1, a2, -⟩ := h _ rfl (scalar 1) ⟨rfl, rfl, rfl⟩
    obtain rfl : gs' = gs := Option.some.inj (a1.symm.trans h1)
    exact h3.mp a2
  · intro h y hy gy hgy
    obtain ⟨gs, b1, b2, b3⟩ := reduceSum_vjp hx y hy gy hgy
    exact ⟨gs, b1, b3.mpr h, b2⟩

/-- `ReduceMean` too. -/
theorem reduceMean_correct_iff {x : Dense ℝ} (hx : x.WF) : Correct reduceMean [x] ↔ x.cols = 1 := by
  obtain ⟨gs, h1, h2, h3⟩ := reduceMean_vjp hx _ rfl (scalar 1) ⟨rfl, rfl, rfl⟩
  constructor
  · intro h
    obtain ⟨gs', a1, a2, -⟩ := h _ rfl (scalar 1) ⟨rfl, rfl, rfl⟩
    obtain rfl : gs' = gs := Option.some.inj (a1.symm.trans h1)
    exact h3.mp a2
  · intro h y hy gy hgy
    obtain ⟨gs, b1, b2, b3⟩ := reduceMean_vjp hx y hy gy hgy
    exact ⟨gs, b1, b3.mpr h, b2⟩

/-- A consequence: a matrix that is not a column and that is both summed and used by an element-wise
operator makes the accumulation of its gradients (`AddInPlace`, mat/dense_grad.go) panic. -/
theorem reduceSum_accumulate {x gy g : Dense ℝ} (hc : x.cols ≠ 1) (hg : x.Like g) (hgy : gy.data.length = 1) :
    ∃ g', reduceSum.backward [x] gy = some [some g'] ∧ zipOp (· + ·) g g' = none ∧ zipOp (· + ·) g' g = none := by
  refine ⟨⟨x.data.length, 1, List.replicate x.data.length (gy.val 0)⟩,
    by simp only [reduceSum, item_of hgy, Option.bind_eq_bind, Option.bind_some], ?_, ?_⟩
  · simp [zipOp, sameDims, hg.cols, hc]
  · simp [zipOp, sameDims, hg.cols, Ne.symm hc]

/-- A column of three, a row of three. -/
def exCol : Dense ℝ := ⟨3, 1, [1, -2, 3]⟩
def exRow : Dense ℝ := ⟨1, 3, [1, -2, 3]⟩

example : exCol.WF ∧ exCol.cols = 1 ∧ (2 : Int) ≠ exCol.data.length ∧ exRow.WF ∧ exRow.cols ≠ 1 :=
  ⟨rfl, rfl, by decide, rfl, by decide⟩

end Verif.GradFn
