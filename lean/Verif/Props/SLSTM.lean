import Verif.Model.SLSTM
import Verif.Props.Layers
import Mathlib.Analysis.SpecialFunctions.Artanh

set_option autoImplicit false
set_option linter.unusedSimpArgs false

/-!
# C56: Sentence-State LSTM
-/

namespace Verif.SLSTM
open GradFn Dense DerivedOps Layers
open Finset (range)

/-! ### Specification -/

/-- The logistic function. -/
noncomputable def sig (x : ℝ) : ℝ := 1 / (1 + Real.exp (-x))

/-- `W x`, `W` with `k` columns. -/
noncomputable def mv (w : Dense ℝ) (k : Nat) (x : Nat → ℝ) (o : Nat) : ℝ := ∑ i ∈ range k, w.el o i * x i

/-- Three vectors of size `d` one after the other. -/
def window (d : Nat) (a b c : Nat → ℝ) (k : Nat) : ℝ := if k < d then a k else if k < 2 * d then b (k - d) else c (k - 2 * d)

/-- The hidden vectors and cells of the nodes and the sentence vector. -/
structure Vals where
  h : Nat → Nat → ℝ
  c : Nat → Nat → ℝ
  g : Nat → ℝ

/-- The neighbour on the left of node `i`. -/
noncomputable def left (m : Model) (H : Nat → Nat → ℝ) (i : Nat) : Nat → ℝ := if i = 0 then m.startH.val else H (i - 1)

/-- The neighbour on the right of node `i` of `n`. -/
noncomputable def right (m : Model) (n : Nat) (H : Nat → Nat → ℝ) (i : Nat) : Nat → ℝ :=
  if i + 1 = n then m.endH.val else H (i + 1)

/-- The argument of a gate: bias, window, sentence vector (by the matrix `M`) and input. -/
noncomputable def arg (q : Lin4) (M : Dense ℝ) (d : Nat) (ctx g x : Nat → ℝ) (o : Nat) : ℝ :=
  q.b.val o + mv q.w (3 * d) ctx o + mv M d g o + mv q.u d x o

/-- The new cell of node `i`. The matrix `M` is applied to the sentence vector in the candidate. -/
noncomputable def cellOf (m : Model) (M : Dense ℝ) (d n : Nat) (X : Nat → Nat → ℝ) (v : Vals) (i j : Nat) : ℝ :=
  let ctx := window d (left m v.h i) (v.h i) (right m n v.h i)
  let a (q : Lin4) := sig (arg q q.v d ctx v.g (X i) j)
  a m.leftCellGate * left m v.c i j + a m.cellGate * v.c i j + a m.rightCellGate * right m n v.c i j +
    a m.sentCellGate * v.g j + a m.inputGate * Real.tanh (arg m.inputActivation M d ctx v.g (X i) j)

/-- The new hidden vector of node `i`. -/
noncomputable def hiddenOf (m : Model) (M : Dense ℝ) (d n : Nat) (X : Nat → Nat → ℝ) (v : Vals) (i j : Nat) : ℝ :=
  let ctx := window d (left m v.h i) (v.h i) (right m n v.h i)
  sig (arg m.outputGate m.outputGate.v d ctx v.g (X i) j) * Real.tanh (cellOf m M d n X v i j)

/-- The argument of a gate of the sentence node. -/
noncomputable def arg3 (q : Lin3) (d : Nat) (g h : Nat → ℝ) (o : Nat) : ℝ := mv q.w d g o + q.b.val o + mv q.u d h o

/-- The new sentence vector. -/
noncomputable def sentOf (m : Model) (d n : Nat) (v : Vals) (j : Nat) : ℝ :=
  let avg j := (∑ i ∈ range n, v.h i j) / n
  sig (arg3 m.nonLocalSentOutputGate d v.g avg j) * Real.tanh (sig (arg3 m.nonLocalSentCellGate d v.g avg j) * v.g j +
    ∑ i ∈ range n, sig (arg3 m.nonLocalInputGate d v.g (v.h i) j) * v.c i j)

/-- One step of all nodes and the sentence node at once. -/
noncomputable def stepOf (m : Model) (M : Dense ℝ) (d n : Nat) (X : Nat → Nat → ℝ) (v : Vals) : Vals :=
  ⟨hiddenOf m M d n X v, cellOf m M d n X v, sentOf m d n v⟩

/-- The values before the first step. -/
noncomputable def start (m : Model) : Vals := ⟨fun _ => m.initValue.val, fun _ => m.initValue.val, m.initValue.val⟩

/-- The sizes of a gate (`newGate4`, slstm.go:114-121). -/
structure Lin4.Shaped (q : Lin4) (e d : Nat) : Prop where
  w : IsMat q.w d (3 * d)
  u : IsMat q.u d e
  v : IsMat q.v d d
  b : IsMat q.b d 1

/-- The sizes of a gate of the sentence node (`newGate3`, slstm.go:123-129). -/
structure Lin3.Shaped (q : Lin3) (d : Nat) : Prop where
  w : IsMat q.w d d
  u : IsMat q.u d d
  b : IsMat q.b d 1

/-- The sizes of a model for inputs of size `e` and outputs of size `d` (`New`, slstm.go:94-112). -/
structure Model.Shaped (m : Model) (e d : Nat) : Prop where
  inputGate : m.inputGate.Shaped e d
  leftCellGate : m.leftCellGate.Shaped e d
  rightCellGate : m.rightCellGate.Shaped e d
  cellGate : m.cellGate.Shaped e d
  sentCellGate : m.sentCellGate.Shaped e d
  outputGate : m.outputGate.Shaped e d
  inputActivation : m.inputActivation.Shaped e d
  nlCell : m.nonLocalSentCellGate.Shaped d
  nlInput : m.nonLocalInputGate.Shaped d
  nlOutput : m.nonLocalSentOutputGate.Shaped d
  startH : IsMat m.startH d 1
  endH : IsMat m.endH d 1
  initValue : IsMat m.initValue d 1

/-! ### Refinement -/

theorem mul_seq {w : Dense ℝ} {r c : Nat} (hw : IsMat w r c) (x : Nat → ℝ) :
    GradFn.mul.forward [w, col c x] = some (col r (mv w c x)) := by
  have := mul_col hw.wf x
  rw [hw.rows, hw.cols] at this
  exact this

theorem mul_none {w : Dense ℝ} {r c k : Nat} (hw : IsMat w r c) (hk : k ≠ c) (x : Nat → ℝ) :
    GradFn.mul.forward [w, col k x] = none := by
  change w.mul (col k x) = none
  rw [← Option.not_isSome_iff_eq_none, (mul_spec hw.wf (col_WF k x)).1]
  simp [hw.cols]
  omega

theorem muls_seq {w : Dense ℝ} {r c : Nat} (hw : IsMat w r c) (n : Nat) (X : Nat → Nat → ℝ) :
    ((seq n c X).mapM fun x => GradFn.mul.forward [w, x]) = some (seq n r fun i => mv w c (X i)) :=
  mapM_seq fun i _ => mul_seq hw (X i)

theorem concat3 (d : Nat) (a b c : Nat → ℝ) :
    GradFn.concat.forward [col d a, col d b, col d c] = some (col (3 * d) (window d a b c)) := by
  simp only [GradFn.concat, concatV]
  rw [if_pos (by simp [isVector])]
  simp only [List.map_cons, List.map_nil, col_length, List.sum_cons, List.sum_nil, Nat.add_zero, List.flatten_cons,
    List.flatten_nil, List.append_nil, Option.some.injEq]
  simp only [col, Dense.mk.injEq, true_and]
  refine ⟨by omega, List.ext_getElem (by simp; omega) fun i h1 h2 => ?_⟩
  simp only [List.length_append, List.length_map, List.length_range] at h1
  simp only [List.getElem_map, List.getElem_range, window]
  by_cases h : i < d
  · rw [List.getElem_append_left (by simpa using h)]; simp [h]
  · rw [List.getElem_append_right (by simpa using h)]
    by_cases h' : i < 2 * d
    · rw [List.getElem_append_left (by simp; omega)]; simp [h, h']
    · rw [List.getElem_append_right (by simp; omega)]
      simp [h, h', show i - d - d = i - 2 * d by omega]

theorem sum4 (d : Nat) (a b c e : Nat → ℝ) :
    DerivedOps.sum [col d a, col d b, col d c, col d e] = some (col d fun j => a j + b j + c j + e j) := by
  simp only [DerivedOps.sum, foldOp, add_col, Option.bind_eq_bind, Option.bind_some]

theorem sum5 (d : Nat) (a b c e f : Nat → ℝ) :
    DerivedOps.sum [col d a, col d b, col d c, col d e, col d f] = some (col d fun j => a j + b j + c j + e j + f j) := by
  simp only [DerivedOps.sum, foldOp, add_col, Option.bind_eq_bind, Option.bind_some]

theorem gate_seq {q : Lin4} {e d n i : Nat} (hq : q.Shaped e d) (ctx v : Nat → ℝ) (Y : Nat → Nat → ℝ) (hi : i < n) :
    gate q (col (3 * d) ctx) (col d v) (seq n d Y) i =
      some (col d fun o => q.b.val o + mv q.w (3 * d) ctx o + v o + Y i o) := by
  have h1 := mul_seq hq.w ctx
  have h2 := sum4 d q.b.val (mv q.w (3 * d) ctx) v (Y i)
  rw [← hq.b.eq_col] at h2
  simp only [gate, h1, seq_get Y hi, h2, Option.bind_eq_bind, Option.bind_some]

theorem sigmoid_seq (d : Nat) (x : Nat → ℝ) : GradFn.sigmoid.forward [col d x] = some (col d fun j => sig (x j)) := by
  rw [GradFn.sigmoid, elementwise_col]
  exact congrArg some (col_congr fun j _ => by rw [sigmoidF, sig, mul_neg_one])

theorem tanh_seq (d : Nat) (x : Nat → ℝ) : GradFn.tanh.forward [col d x] = some (col d fun j => Real.tanh (x j)) := by
  rw [GradFn.tanh, elementwise_col]
  rfl

theorem foldOp_cols (d : Nat) (X : Nat → Nat → ℝ) : ∀ (l : List Nat) (a : Nat → ℝ),
    foldOp GradFn.add (col d a) (l.map fun i => col d (X i)) = some (col d fun j => a j + (l.map fun i => X i j).sum)
  | [], a => by simp [foldOp]
  | i :: l, a => by
    simp only [List.map_cons, foldOp, add_col, Option.bind_eq_bind, Option.bind_some]
    rw [foldOp_cols d X l]
    exact congrArg some (col_congr fun j _ => by simp; ring)

theorem fold_seq {n : Nat} (hn : 0 < n) (d : Nat) (X : Nat → Nat → ℝ) : ∃ l, seq n d X = col d (X 0) :: l ∧ l.length + 1 = n ∧
    foldOp GradFn.add (col d (X 0)) l = some (col d fun j => ∑ i ∈ range n, X i j) := by
  obtain ⟨k, rfl⟩ : ∃ k, n = k + 1 := ⟨n - 1, by omega⟩
  refine ⟨_, by unfold seq; rw [List.range_succ_eq_map, List.map_cons], by simp, ?_⟩
  rw [foldOp_cols]
  refine congrArg some (col_congr fun j _ => ?_)
  rw [← Conv.sum_map_range, List.range_succ_eq_map]
  simp

theorem sum_seq {n : Nat} (hn : 0 < n) (d : Nat) (X : Nat → Nat → ℝ) :
    DerivedOps.sum (seq n d X) = some (col d fun j => ∑ i ∈ range n, X i j) := by
  obtain ⟨l, h1, -, h2⟩ := fold_seq hn d X
  rw [h1]; exact h2

theorem mean_seq {n : Nat} (hn : 0 < n) (d : Nat) (X : Nat → Nat → ℝ) :
    DerivedOps.mean (seq n d X) = some (col d fun j => (∑ i ∈ range n, X i j) / n) := by
  obtain ⟨l, h1, h3, h2⟩ := fold_seq hn d X
  rw [h1]
  simp only [DerivedOps.mean, h2, Option.bind_eq_bind, Option.bind_some, divScalar_col, h3]

/-- The values `Ux` for the inputs `X`. -/
noncomputable def uxOf (m : Model) (e d n : Nat) (X : Nat → Nat → ℝ) : Ux :=
  ⟨seq n d fun i => mv m.inputGate.u e (X i), seq n d fun i => mv m.leftCellGate.u e (X i),
   seq n d fun i => mv m.rightCellGate.u e (X i), seq n d fun i => mv m.cellGate.u e (X i),
   seq n d fun i => mv m.sentCellGate.u e (X i), seq n d fun i => mv m.outputGate.u e (X i),
   seq n d fun i => mv m.inputActivation.u e (X i)⟩

theorem computeUx_seq {m : Model} {e d : Nat} (hm : m.Shaped e d) (n : Nat) (X : Nat → Nat → ℝ) :
    computeUx m (seq n e X) = some (uxOf m e d n X) := by
  simp only [computeUx, muls_seq hm.inputGate.u, muls_seq hm.leftCellGate.u, muls_seq hm.rightCellGate.u,
    muls_seq hm.cellGate.u, muls_seq hm.sentCellGate.u, muls_seq hm.outputGate.u, muls_seq hm.inputActivation.u,
    Option.bind_eq_bind, Option.bind_some]
  rfl

theorem computeVg_col {m : Model} {d : Nat} (hm : m.Shaped d d) (g : Nat → ℝ) : computeVg m (col d g) =
    some ⟨col d (mv m.inputGate.v d g), col d (mv m.leftCellGate.v d g), col d (mv m.rightCellGate.v d g),
      col d (mv m.cellGate.v d g), col d (mv m.sentCellGate.v d g), col d (mv m.outputGate.v d g),
      col d (mv m.inputActivation.u d g)⟩ := by
  simp only [computeVg, mul_seq hm.inputGate.v, mul_seq hm.leftCellGate.v, mul_seq hm.rightCellGate.v,
    mul_seq hm.cellGate.v, mul_seq hm.sentCellGate.v, mul_seq hm.outputGate.v, mul_seq hm.inputActivation.u,
    Option.bind_eq_bind, Option.bind_some]

theorem left_col {m : Model} {e d n i : Nat} (hm : m.Shaped e d) (H : Nat → Nat → ℝ) (hi : i < n) :
    (if i = 0 then some m.startH else (seq n d H)[i - 1]?) = some (col d (left m H i)) := by
  unfold left
  by_cases h : i = 0
  · rw [if_pos h, if_pos h, ← hm.startH.eq_col]
  · rw [if_neg h, if_neg h, seq_get H (by omega)]

theorem right_col {m : Model} {e d n i : Nat} (hm : m.Shaped e d) (H : Nat → Nat → ℝ) (hi : i < n) :
    (if (i : Int) + 1 > ((n : Nat) : Int) - 1 then some m.endH else (seq n d H)[i + 1]?) = some (col d (right m n H i)) := by
  unfold right
  by_cases h : i + 1 = n
  · rw [if_pos (by omega), if_pos h, ← hm.endH.eq_col]
  · rw [if_neg (by omega), if_neg h, seq_get H (by omega)]

theorem bind_of {α β : Type} {a : Option α} {x : α} {f : α → Option β} {r : Option β} (h : a = some x) (h' : f x = r) :
    (a >>= f) = r := by rw [h]; exact h'

theorem processNode_seq {m : Model} {d n i : Nat} (hm : m.Shaped d d) (X : Nat → Nat → ℝ) (v : Vals) (hi : i < n)
    {vg : Vg} (hv : computeVg m (col d v.g) = some vg) :
    processNode m (uxOf m d d n X) vg i (seq n d v.h) (seq n d v.c) (col d v.g) =
      some (col d (hiddenOf m m.inputActivation.u d n X v i), col d (cellOf m m.inputActivation.u d n X v i)) := by
  rw [computeVg_col hm] at hv
  obtain rfl := Option.some.inj hv
  have r1 := right_col (d := d) hm v.h hi
  have r2 := right_col (d := d) hm v.c hi
  unfold processNode uxOf
  simp only [seq_length]
  refine bind_of (left_col hm v.h hi) ?_
  refine bind_of (left_col hm v.c hi) ?_
  refine bind_of r1 ?_
  refine bind_of r2 ?_
  refine bind_of (seq_get v.h hi) ?_
  refine bind_of (seq_get v.c hi) ?_
  refine bind_of (concat3 ..) ?_
  refine bind_of (gate_seq hm.inputGate _ _ _ hi) (bind_of (sigmoid_seq ..) ?_)
  refine bind_of (gate_seq hm.leftCellGate _ _ _ hi) (bind_of (sigmoid_seq ..) ?_)
  refine bind_of (gate_seq hm.rightCellGate _ _ _ hi) (bind_of (sigmoid_seq ..) ?_)
  refine bind_of (gate_seq hm.cellGate _ _ _ hi) (bind_of (sigmoid_seq ..) ?_)
  refine bind_of (gate_seq hm.sentCellGate _ _ _ hi) (bind_of (sigmoid_seq ..) ?_)
  refine bind_of (gate_seq hm.outputGate _ _ _ hi) (bind_of (sigmoid_seq ..) ?_)
  refine bind_of (gate_seq hm.inputActivation _ _ _ hi) (bind_of (tanh_seq ..) ?_)
  refine bind_of (prod_col ..) (bind_of (prod_col ..) (bind_of (prod_col ..) (bind_of (prod_col ..) (bind_of (prod_col ..) ?_))))
  refine bind_of (sum5 ..) (bind_of (tanh_seq ..) (bind_of (prod_col ..) ?_))
  rfl

theorem updateHidden_seq {m : Model} {d : Nat} (hm : m.Shaped d d) (n : Nat) (X : Nat → Nat → ℝ) (v : Vals)
    {vg : Vg} (hv : computeVg m (col d v.g) = some vg) :
    updateHiddenNodes m (uxOf m d d n X) vg (seq n d v.h) (seq n d v.c) (col d v.g) =
      some (seq n d (hiddenOf m m.inputActivation.u d n X v), seq n d (cellOf m m.inputActivation.u d n X v)) := by
  unfold updateHiddenNodes
  rw [seq_length, MultiHead.mapM_range_some fun i hi => processNode_seq hm X v hi hv]
  simp [seq, Function.comp_def]

theorem affine2_seq {q : Lin3} {d : Nat} (hq : q.Shaped d) (g h : Nat → ℝ) :
    affine.forward [q.b, q.w, col d g, q.u, col d h] = some (col d (arg3 q d g h)) := by
  have := affine2_col hq.w.wf hq.u.wf (by rw [hq.u.rows, hq.w.rows]) q.b.val g h
  rw [hq.w.rows, hq.w.cols, hq.u.cols, ← hq.b.eq_col] at this
  exact this

theorem updateSentence_seq {m : Model} {d n : Nat} (hm : m.Shaped d d) (hn : 0 < n) (v : Vals) :
    ∃ cg, updateSentenceState m (seq n d v.h) (seq n d v.c) (col d v.g) = some (col d (sentOf m d n v), cg) := by
  have hh : ∀ gG : Nat → ℝ, ((seq n d v.h).mapM fun h => do
      let a ← GradFn.mul.forward [m.nonLocalInputGate.u, h]
      let b ← GradFn.add.forward [col d gG, a]
      GradFn.sigmoid.forward [b]) = some (seq n d fun i j => sig (gG j + mv m.nonLocalInputGate.u d (v.h i) j)) := fun gG =>
    mapM_seq fun i _ => by
      simp only [mul_seq hm.nlInput.u, add_col, sigmoid_seq, Option.bind_eq_bind, Option.bind_some]
  have hp : ∀ A : Nat → Nat → ℝ, ((List.range n).mapM fun (i : Nat) => do
      let a ← (seq n d A)[i]?
      let c ← (seq n d v.c)[i]?
      prod.forward [a, c]) = some (seq n d fun i j => A i j * v.c i j) := fun A =>
    MultiHead.mapM_range_some fun i hi => by
      simp only [seq_get A hi, seq_get v.c hi, prod_col, Option.bind_eq_bind, Option.bind_some]
  have ha := affine_seq hm.nlInput.w hm.nlInput.b v.g
  simp only [Option.bind_eq_bind] at hh hp
  refine ⟨col d fun j => sig (arg3 m.nonLocalSentCellGate d v.g (fun j => (∑ i ∈ range n, v.h i j) / n) j) * v.g j +
    ∑ i ∈ range n, sig (lin m.nonLocalInputGate.w m.nonLocalInputGate.b d v.g j + mv m.nonLocalInputGate.u d (v.h i) j) * v.c i j, ?_⟩
  simp only [updateSentenceState, mean_seq hn, affine2_seq hm.nlCell, affine2_seq hm.nlOutput, ha, hh, seq_length, hp,
    sum_seq hn, sigmoid_seq, tanh_seq, prod_col, add_col, Option.bind_eq_bind, Option.bind_some]
  rfl

theorem turn_seq {m : Model} {d n : Nat} (hm : m.Shaped d d) (hn : 0 < n) (X : Nat → Nat → ℝ) (v : Vals) (cg : Dense ℝ) :
    ∃ cg', turn m (uxOf m d d n X) ⟨seq n d v.h, seq n d v.c, col d v.g, cg⟩ =
      some ⟨seq n d (stepOf m m.inputActivation.u d n X v).h, seq n d (stepOf m m.inputActivation.u d n X v).c,
        col d (stepOf m m.inputActivation.u d n X v).g, cg'⟩ := by
  obtain ⟨cg', h⟩ := updateSentence_seq hm hn v
  have hv := computeVg_col hm v.g
  refine ⟨cg', ?_⟩
  simp only [turn, hv, updateHidden_seq hm n X v hv, h, Option.bind_eq_bind, Option.bind_some]
  rfl

theorem turns_seq {m : Model} {d n : Nat} (hm : m.Shaped d d) (hn : 0 < n) (X : Nat → Nat → ℝ) : ∀ (k : Nat) (v : Vals) (cg : Dense ℝ),
    ∃ cg', turns m (uxOf m d d n X) k ⟨seq n d v.h, seq n d v.c, col d v.g, cg⟩ =
      some ⟨seq n d ((stepOf m m.inputActivation.u d n X)^[k] v).h, seq n d ((stepOf m m.inputActivation.u d n X)^[k] v).c,
        col d ((stepOf m m.inputActivation.u d n X)^[k] v).g, cg'⟩
  | 0, v, cg => ⟨cg, rfl⟩
  | k + 1, v, cg => by
    obtain ⟨cg1, h1⟩ := turn_seq hm hn X v cg
    obtain ⟨cg2, h2⟩ := turns_seq hm hn X k (stepOf m m.inputActivation.u d n X v) cg1
    exact ⟨cg2, by rw [turns, h1]; exact h2⟩

theorem init_seq {m : Model} {e d : Nat} (hm : m.Shaped e d) {n : Nat} {E : Nat} (X : Nat → Nat → ℝ) :
    (seq n E X).map (fun _ => m.initValue) = seq n d (start m).h := by
  unfold seq start
  rw [List.map_map]
  exact List.map_congr_left fun i _ => hm.initValue.eq_col

/-- **C56.** For inputs and outputs of one size, a non-empty sequence and `Steps ≥ 1` the model returns the hidden
vectors after `Steps − 1` updates from the initial value, where the candidate applies `U` of the input activation (not
its `V`) to the sentence vector. The full statement has `stepOf m m.inputActivation.v` here;
it is refuted by `not_forward`, see also `sentence_matrix_ignored`. -/
theorem forward_partial {m : Model} {d n : Nat} (hm : m.Shaped d d) (hn : 0 < n) (hs : 1 ≤ m.steps) (X : Nat → Nat → ℝ) :
    forward m (seq n d X) =
      some (seq n d ((stepOf m m.inputActivation.u d n X)^[(m.steps - 1).toNat] (start m)).h) := by
  obtain ⟨cg, h⟩ := turns_seq hm hn X (m.steps - 1).toNat (start m) m.initValue
  have h0 := init_seq hm (n := n) (E := d) X
  have hg : m.initValue = col d (start m).g := hm.initValue.eq_col
  unfold forward
  rw [if_neg (by omega), computeUx_seq hm]
  simp only [Option.bind_eq_bind, Option.bind_some]
  rw [← hg] at h
  have h' : turns m (uxOf m d d n X) (m.steps - 1).toNat ⟨seq n d (start m).h, seq n d (start m).h, m.initValue, m.initValue⟩ = _ := h
  rw [h0, h']
  rfl

/-- **C56.** The outputs are bounded by 1 in absolute value after at least one update. -/
theorem hidden_bounded (m : Model) (M : Dense ℝ) (d n : Nat) (X : Nat → Nat → ℝ) (v : Vals) (k i j : Nat) :
    |((stepOf m M d n X)^[k + 1] v).h i j| < 1 := by
  rw [Function.iterate_succ_apply']
  generalize (stepOf m M d n X)^[k] v = w
  simp only [stepOf, hiddenOf]
  generalize cellOf m M d n X w i j = c
  generalize arg _ _ _ _ _ _ _ = a
  have e := Real.exp_pos (-a)
  have s0 : 0 < sig a := by unfold sig; positivity
  have s1 : sig a < 1 := by unfold sig; rw [div_lt_one (by positivity)]; linarith
  have t := abs_lt.mpr ⟨Real.neg_one_lt_tanh c, Real.tanh_lt_one c⟩
  rw [abs_mul, abs_of_pos s0]
  nlinarith [abs_nonneg (Real.tanh c)]

/-- **C56, violated.** The matrix `V` of the input activation, declared, trained and saved for the sentence vector, is
never read: models that differ in it only compute the same. -/
theorem sentence_matrix_ignored (m : Model) (v : Dense ℝ) (xs : List (Dense ℝ)) :
    forward { m with inputActivation := { m.inputActivation with v := v } } xs = forward m xs := by
  have ht : ∀ ux s, turn { m with inputActivation := { m.inputActivation with v := v } } ux s = turn m ux s := fun _ _ => rfl
  have hts : ∀ k ux s, turns { m with inputActivation := { m.inputActivation with v := v } } ux k s = turns m ux k s := by
    intro k
    induction k with
    | zero => intros; rfl
    | succ k ih => intro ux s; simp only [turns, ht, ih]
  unfold forward
  simp only [hts]
  rfl

/-- **C56, violated.** With inputs and outputs of different sizes every forward pass with more than one step panics. -/
theorem sizes_differ {m : Model} {e d : Nat} (hm : m.Shaped e d) (hed : e ≠ d) (hs : 2 ≤ m.steps) (n : Nat) (X : Nat → Nat → ℝ) :
    forward m (seq n e X) = none := by
  unfold forward
  obtain ⟨k, hk⟩ : ∃ k, (m.steps - 1).toNat = k + 1 := ⟨(m.steps - 2).toNat, by omega⟩
  rw [if_neg (by omega), computeUx_seq hm, hk]
  have hv : computeVg m m.initValue = none := by
    have hg := hm.initValue.eq_col
    rw [hg]
    simp only [computeVg, mul_seq hm.inputGate.v, mul_seq hm.leftCellGate.v, mul_seq hm.rightCellGate.v,
      mul_seq hm.cellGate.v, mul_seq hm.sentCellGate.v, mul_seq hm.outputGate.v,
      mul_none hm.inputActivation.u (Ne.symm hed), Option.bind_eq_bind, Option.bind_some, Option.bind_none]
  simp only [turns, turn, hv, Option.bind_eq_bind, Option.bind_some, Option.bind_none]

/-- **C56, violated.** An empty sequence panics when there is more than one step, and no steps panic always. -/
theorem empty_and_no_steps (m : Model) : (2 ≤ m.steps → forward m [] = none) ∧ (m.steps < 1 → ∀ xs, forward m xs = none) := by
  constructor
  · intro hs
    obtain ⟨k, hk⟩ : ∃ k, (m.steps - 1).toNat = k + 1 := ⟨(m.steps - 2).toNat, by omega⟩
    unfold forward
    rw [if_neg (by omega), hk]
    have hu : ∀ g, updateSentenceState m [] [] g = none := fun _ => rfl
    simp only [turns, turn, List.map_nil, hu, Option.bind_eq_bind, Option.bind_none]
    cases computeUx m [] with
    | none => rfl
    | some ux =>
      cases computeVg m m.initValue with
      | none => rfl
      | some vg => cases hh : updateHiddenNodes m ux vg [] [] m.initValue <;> simp [hh]
  · intro hs xs
    rw [forward, if_pos hs]

/-- With `Steps = 1` the inputs do not matter: the initial value is returned for every input. -/
theorem one_step {m : Model} {e d : Nat} (hm : m.Shaped e d) (hs : m.steps = 1) (n : Nat) (X : Nat → Nat → ℝ) :
    forward m (seq n e X) = some (List.replicate n m.initValue) := by
  unfold forward
  rw [if_neg (by omega), computeUx_seq hm, hs]
  simp [turns, seq, Function.comp_def, List.map_const']

/-- A gate of zeros with a given matrix for the sentence vector. -/
def gate0 (d : Nat) (v : ℝ) : Lin4 := ⟨mat2 d (3 * d) fun _ _ => 0, mat2 d d fun _ _ => 0, mat2 d d fun _ _ => v, col d fun _ => 0⟩

/-- A gate of zeros of the sentence node. -/
def gate03 (d : Nat) : Lin3 := ⟨mat2 d d fun _ _ => 0, mat2 d d fun _ _ => 0, col d fun _ => 0⟩

/-- A model of zeros but for the initial value 1 and the matrix `V` of the input activation. -/
def sample (d : Nat) (k : Int) : Model :=
  ⟨k, gate0 d 0, gate0 d 0, gate0 d 0, gate0 d 0, gate0 d 0, gate0 d 0, gate0 d 1, gate03 d, gate03 d, gate03 d,
    col d fun _ => 0, col d fun _ => 0, col d fun _ => 1⟩

theorem isMat_mat2 (r c : Nat) (f : Nat → Nat → ℝ) : IsMat (mat2 r c f) r c := ⟨mat2_WF r c f, rfl, rfl⟩

theorem isMat_col (r : Nat) (f : Nat → ℝ) : IsMat (col r f) r 1 := ⟨col_WF r f, rfl, rfl⟩

theorem sample_shaped (d : Nat) (k : Int) : (sample d k).Shaped d d := by
  have h4 : ∀ v, (gate0 d v).Shaped d d := fun v => by constructor <;> (simp only [gate0]; first | exact isMat_mat2 .. | exact isMat_col ..)
  have h3 : (gate03 d).Shaped d := by constructor <;> (simp only [gate03]; first | exact isMat_mat2 .. | exact isMat_col ..)
  refine ⟨h4 0, h4 0, h4 0, h4 0, h4 0, h4 0, h4 1, h3, h3, h3, ?_, ?_, ?_⟩ <;> (simp only [sample]; exact isMat_col ..)

/-- The hypotheses of `forward_partial` are met for every size, length and number of steps. -/
example (d n : Nat) (k : Nat) (X : Nat → Nat → ℝ) : ∃ m : Model, m.Shaped d d ∧ m.steps = k + 1 ∧
    forward m (seq (n + 1) d X) = some (seq (n + 1) d ((stepOf m m.inputActivation.u d (n + 1) X)^[k] (start m)).h) := by
  refine ⟨sample d (k + 1), sample_shaped .., rfl, ?_⟩
  have := forward_partial (n := n + 1) (sample_shaped d (k + 1)) (by omega) (by simp [sample]) X
  simpa [sample] using this

/-- **C56, violated.** The result is not the one of the specification with `V`: a model and an input where they differ. -/
theorem not_forward : ∃ (m : Model) (X : Nat → Nat → ℝ), m.Shaped 1 1 ∧ m.steps = 2 ∧
    forward m (seq 1 1 X) ≠ some (seq 1 1 ((stepOf m m.inputActivation.v 1 1 X)^[1] (start m)).h) := by
  refine ⟨sample 1 2, fun _ _ => 0, sample_shaped .., rfl, ?_⟩
  rw [forward_partial (sample_shaped 1 2) (by omega) (by simp [sample])]
  intro h
  have h := congrArg (fun x : Option (List (Dense ℝ)) => (x.bind (·[0]?)).map (·.val 0)) h
  simp [sample, seq, col_val, stepOf, hiddenOf, cellOf, start, arg, mv, gate0, mat2_el, left, right, window,
    Finset.sum_range_succ] at h
  have h0 : sig 0 ≠ 0 := by norm_num [sig]
  have ht : Real.tanh 1 ≠ 0 := fun h => one_ne_zero (Real.tanh_injective (h.trans Real.tanh_zero.symm))
  rcases h with h | h
  · have := Real.tanh_injective h
    exact mul_ne_zero h0 ht (by linarith)
  · exact h0 h

end Verif.SLSTM
