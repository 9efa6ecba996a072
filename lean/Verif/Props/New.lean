import Verif.Model.New
import Verif.Props.Layers
import Verif.Props.SLSTM
import Verif.Props.Recurrent
import Verif.Props.BiRNN

set_option autoImplicit false
set_option linter.unusedSimpArgs false

/-!
# C66: constructors

What `NewDense` makes of its options, that every constructor succeeds exactly for non-negative sizes, with matrices of
the shapes its `Forward` needs, and what a model does before it is trained.
-/

namespace Verif.New
open Dense Recurrent Layers BiRNN
open Finset (range)

/-! ### NewDense -/

/-- A list of sizes that names a matrix: one or two of them, none negative. -/
def ValidShape (s : List Int) : Prop := (s.length = 1 ∨ s.length = 2) ∧ ∀ x ∈ s, 0 ≤ x

/-- Rows and columns: a single size is the number of rows of a column vector. -/
def rowsOf (s : List Int) : Nat := (s.getD 0 0).toNat
def colsOf (s : List Int) : Nat := (s.getD 1 1).toNat

theorem checkShape_iff (s : List Int) : checkShape s = true ↔ ValidShape s := by
  rcases s with _ | ⟨a, _ | ⟨b, _ | ⟨c, l⟩⟩⟩ <;> simp [checkShape, ValidShape]

theorem checkShape_false (s : List Int) : checkShape s = false ↔ ¬ ValidShape s := by
  rw [← checkShape_iff]; simp

theorem dims_adjust {s : List Int} (h : ValidShape s) : dims (adjustShape s) = (rowsOf s, colsOf s) := by
  obtain ⟨h1, -⟩ := h
  rcases s with _ | ⟨a, _ | ⟨b, _ | ⟨c, l⟩⟩⟩ <;> simp [adjustShape, dims, rowsOf, colsOf] at h1 ⊢

theorem calculateSize_adjust {s : List Int} (h : ValidShape s) :
    calculateSize (adjustShape s) = ((rowsOf s * colsOf s : Nat) : Int) := by
  obtain ⟨h1, h2⟩ := h
  rcases s with _ | ⟨a, _ | ⟨b, _ | ⟨c, l⟩⟩⟩
  · simp at h1
  · have := h2 a (by simp)
    simp [adjustShape, calculateSize, rowsOf, colsOf, Int.toNat_of_nonneg this]
  · have ha := h2 a (by simp)
    have hb := h2 b (by simp)
    simp [adjustShape, calculateSize, rowsOf, colsOf, Int.toNat_of_nonneg ha, Int.toNat_of_nonneg hb]
  · simp at h1

open Classical in
/-- **C66.** With a shape only: zeros of that shape, and a panic exactly when the shape does not name a matrix. -/
theorem newDense_shape (s : List Int) :
    newDense [.shape s] = if ValidShape s then some (zeros (rowsOf s) (colsOf s)) else none := by
  by_cases h : ValidShape s
  · have hs : s ≠ [] := by rintro rfl; simp [ValidShape] at h
    rw [if_pos h]
    simp only [newDense, List.foldl_cons, List.foldl_nil, Opt.apply, if_neg hs, fromShape]
    rw [if_neg (by rw [checkShape_false]; exact not_not.mpr h), dims_adjust h, calculateSize_adjust h, Int.toNat_natCast]
    rfl
  · rw [if_neg h]
    by_cases hs : s = []
    · subst hs; rfl
    · simp only [newDense, List.foldl_cons, List.foldl_nil, Opt.apply, if_neg hs, fromShape]
      rw [if_pos ((checkShape_false s).mpr h)]

open Classical in
/-- **C66.** With a shape and data, in either order: the data, if the shape names a matrix of their number. -/
theorem newDense_both {s : List Int} (hs : s ≠ []) (data : List ℝ) :
    newDense [.shape s, .backing data] = newDense [.backing data, .shape s] ∧
    newDense [.shape s, .backing data] =
      if ValidShape s ∧ data.length = rowsOf s * colsOf s then some ⟨rowsOf s, colsOf s, data⟩ else none := by
  refine ⟨by simp only [newDense, List.foldl_cons, List.foldl_nil, Opt.apply], ?_⟩
  simp only [newDense, List.foldl_cons, List.foldl_nil, Opt.apply, if_neg hs, fromSlice]
  by_cases h : ValidShape s
  · rw [if_neg (by rw [checkShape_false]; exact not_not.mpr h), calculateSize_adjust h, dims_adjust h]
    by_cases hl : data.length = rowsOf s * colsOf s
    · rw [if_neg (by rw [hl]; simp), if_pos ⟨h, hl⟩]
    · rw [if_pos (by exact_mod_cast hl), if_neg fun h => hl h.2]
  · rw [if_pos ((checkShape_false s).mpr h), if_neg fun h' => h h'.1]

/-- **C66.** With data only: the column vector of the data, the empty one included. -/
theorem newDense_backing (data : List ℝ) : newDense [.backing data] = some ⟨data.length, 1, data⟩ := by
  simp [newDense, Opt.apply, fromSlice, checkShape, adjustShape, calculateSize, dims]

/-- **C66.** `WithGrad` does not change the value. -/
theorem newDense_grad (v : Bool) (opts : List Opt) : newDense (.grad v :: opts) = newDense opts := by
  have : ∀ (opts : List Opt) (o o' : Options), o.shape = o'.shape → o.slice = o'.slice →
      (opts.foldl Opt.apply o).shape = (opts.foldl Opt.apply o').shape ∧
      (opts.foldl Opt.apply o).slice = (opts.foldl Opt.apply o').slice := by
    intro opts
    induction opts with
    | nil => intro o o' h1 h2; exact ⟨h1, h2⟩
    | cons a l ih =>
      intro o o' h1 h2
      cases a <;> exact ih _ _ (by simp [Opt.apply, h1]) (by simp [Opt.apply, h2])
  obtain ⟨h1, h2⟩ := this opts { requiresGrad := v } {} rfl rfl
  simp only [newDense, List.foldl_cons, Opt.apply]
  rw [h1, h2]
  cases (opts.foldl Opt.apply {}).slice with
  | none => rfl
  | some s => simp only [fromSlice, h1]

/-- **C66.** Whatever the options, a matrix that is made holds exactly rows × columns elements. -/
theorem newDense_WF {opts : List Opt} {d : Dense ℝ} (h : newDense opts = some d) : d.WF := by
  have key : ∀ (l : List ℝ) (s : List Int), (if checkShape s = false then none
      else if (l.length : Int) ≠ calculateSize (adjustShape s) then none
      else some (⟨(dims (adjustShape s)).1, (dims (adjustShape s)).2, l⟩ : Dense ℝ)) = some d → d.WF := by
    intro l s h
    by_cases hc : checkShape s = false
    · rw [if_pos hc] at h; cases h
    rw [if_neg hc] at h
    by_cases hl : (l.length : Int) ≠ calculateSize (adjustShape s)
    · rw [if_pos hl] at h; cases h
    rw [if_neg hl] at h
    obtain rfl := Option.some.inj h
    have hv := (checkShape_iff _).mp (by simpa using hc)
    rw [calculateSize_adjust hv] at hl
    simp only [WF]
    rw [dims_adjust hv]
    exact_mod_cast not_not.mp hl
  have slice : ∀ (o : Options) (l : List ℝ), fromSlice o l = some d → d.WF := fun o l h => key l _ h
  have shape : ∀ s : List Int, fromShape s = some d → d.WF := by
    intro s h
    simp only [fromShape] at h
    split at h
    · cases h
    · rename_i hc
      obtain rfl := Option.some.inj h
      have hv := (checkShape_iff _).mp (by simpa using hc)
      simp only [WF]
      rw [dims_adjust hv, calculateSize_adjust hv, Int.toNat_natCast, List.length_replicate]
  revert h
  simp only [newDense]
  cases (opts.foldl Opt.apply {}).slice with
  | some l => exact slice _ l
  | none =>
    cases (opts.foldl Opt.apply {}).shape with
    | some s => exact shape s
    | none => intro h; cases h

/-- **C66.** `Scalar` is the 1 × 1 matrix; options for shape or data end the program. -/
theorem newScalar_eq (v : ℝ) (g : Bool) : newScalar v [] = some (scalar v) ∧ newScalar v [.grad g] = some (scalar v) ∧
    (∀ s, s ≠ [] → newScalar v [.shape s] = none) ∧ ∀ l, newScalar v [.backing l] = none := by
  refine ⟨?_, ?_, ?_, ?_⟩
  · exact newDense_backing [v]
  · have h := newDense_grad g [.backing [v]]
    rw [newDense_backing] at h
    exact h
  · intro s hs; simp [newScalar, Opt.apply, hs]
  · intro l; simp [newScalar, Opt.apply]

/-! ### parameters -/

/-- A column vector of zeros. -/
theorem zeros_col (n : Nat) : (zeros n 1 : Dense ℝ) = col n fun _ => 0 := by
  simp only [zeros, col, Dense.mk.injEq, true_and, Nat.mul_one]
  refine List.ext_getElem (by simp) fun i h1 h2 => by simp

theorem zeros_isMat (r c : Nat) : IsMat (zeros r c) r c := ⟨zeros_WF r c, rfl, rfl⟩

theorem zeros_val (r c i : Nat) : (zeros r c : Dense ℝ).val i = 0 := by
  unfold Dense.val zeros
  simp only [List.getD_eq_getElem?_getD, List.getElem?_replicate]
  split <;> rfl

theorem zeros_el (r c i j : Nat) : (zeros r c : Dense ℝ).el i j = 0 := by
  by_cases h : i < r ∧ j < c
  · rw [el_eq (by exact h.1) (by exact h.2)]
    exact zeros_val r c _
  · unfold Dense.el Dense.at2
    have hr : (zeros r c : Dense ℝ).rows = r := rfl
    have hc : (zeros r c : Dense ℝ).cols = c := rfl
    by_cases hi : i < r
    · rw [if_neg (by rw [hr]; omega), if_pos (by rw [hc]; omega)]; rfl
    · rw [if_pos (by rw [hr]; omega)]; rfl

@[simp] theorem param2 (r c : Nat) : param [(r : Int), (c : Int)] = some (zeros r c) := by
  rw [param, newDense_shape, if_pos (by simp [ValidShape])]
  simp [rowsOf, colsOf]

@[simp] theorem param1 (r : Nat) : param [(r : Int)] = some (zeros r 1) := by
  rw [param, newDense_shape, if_pos (by simp [ValidShape])]
  simp [rowsOf, colsOf]

theorem param2_none {r c : Int} (h : r < 0 ∨ c < 0) : param [r, c] = none := by
  rw [param, newDense_shape, if_neg]
  rintro ⟨-, h2⟩
  have := h2 r (by simp); have := h2 c (by simp); omega

theorem param1_none {r : Int} (h : r < 0) : param [r] = none := by
  rw [param, newDense_shape, if_neg]
  rintro ⟨-, h2⟩
  have := h2 r (by simp); omega

/-- A sequence of zero vectors. -/
theorem seq_zero (n d : Nat) {X : Nat → Nat → ℝ} (h : ∀ i < n, ∀ j < d, X i j = 0) :
    seq n d X = List.replicate n (zeros d 1) := by
  rw [seq_congr (Y := fun _ _ => 0) h]
  simp only [seq, zeros_col]
  refine List.ext_getElem (by simp) fun i h1 h2 => by simp

theorem lin_zeros (r c d k : Nat) (x : Nat → ℝ) (o : Nat) : lin (zeros r c) (zeros d 1) k x o = 0 := by
  simp [lin, zeros_el, zeros_val]

/-! ### linear, recurrent networks -/

/-- **C66.** `linear.New`: weights `out × in` and bias `out`; a panic exactly for a negative size. -/
theorem linear_new (i o : Nat) : New.linear i o = some (zeros o i, zeros o 1) := by simp [New.linear]

theorem linear_isSome_iff (i o : Int) : (New.linear i o).isSome ↔ 0 ≤ i ∧ 0 ≤ o := by
  constructor
  · intro h
    by_contra hc
    rw [New.linear, param2_none (by omega)] at h
    cases h
  · rintro ⟨h1, h2⟩
    obtain ⟨a, rfl⟩ := Int.eq_ofNat_of_zero_le h1
    obtain ⟨b, rfl⟩ := Int.eq_ofNat_of_zero_le h2
    rw [linear_new]; rfl

/-- **C66.** A linear layer accepts the vectors it was made for and, before training, gives zeros. -/
theorem linear_fresh (i o n : Nat) (X : Nat → Nat → ℝ) : ∃ w b, New.linear i o = some (w, b) ∧
    linears w b (seq n i X) = some (List.replicate n (zeros o 1)) := by
  refine ⟨_, _, linear_new i o, ?_⟩
  rw [linears_seq (zeros_isMat o i) (zeros_isMat o 1)]
  rw [seq_zero n o fun t _ j _ => lin_zeros ..]

theorem gateOK_zero (i o : Nat) : GateOK i o ⟨zeros o i, zeros o o, zeros o 1⟩ :=
  ⟨⟨zeros_WF .., rfl, rfl⟩, ⟨zeros_WF .., rfl, rfl⟩, ⟨zeros_WF .., rfl, rfl⟩⟩

theorem gate_new (i o : Nat) : gate i o = some ⟨zeros o i, zeros o o, zeros o 1⟩ := by simp [gate]

theorem pre_zero (i o : Nat) (x y : Nat → ℝ) (j : Nat) : pre i o ⟨zeros o i, zeros o o, zeros o 1⟩ x y j = 0 := by
  simp [pre, zeros_el, zeros_val]

theorem gate_none' {i o : Int} (h : i < 0 ∨ o < 0) : gate i o = none := by
  rw [gate, param2_none (by omega)]; rfl

/-- The vectors the theorems speak of. -/
theorem cols_range {n o : Nat} {v : Nat → Nat → ℝ} (h : ∀ t < n, ∀ j, v t j = 0) :
    ((List.range n).map fun t => col o (v t)) = List.replicate n (zeros o 1) :=
  seq_zero n o fun i hi j _ => h i hi j

/-- **C66.** A new SRN has the shapes of C37, and gives zeros. -/
theorem srn_new (i o : Nat) : ∃ m, gate i o = some m ∧ GateOK i o m ∧ ∀ xs : List (Nat → ℝ),
    forward (srnNext m) id (xs.map (col i)) = some (List.replicate xs.length (zeros o 1)) := by
  refine ⟨_, gate_new i o, gateOK_zero i o, fun xs => ?_⟩
  rw [srn_forward (gateOK_zero i o), cols_range]
  intro t _ j
  refine foldl_inv (P := fun y : Nat → ℝ => ∀ j, y j = 0) (fun y x _ j => ?_) _ _ (fun _ => rfl) j
  rw [srnStep, pre_zero, Real.tanh_zero]

/-- **C66.** A new GRU has the shapes of C37, and gives zeros. -/
theorem gru_new (i o : Nat) : ∃ m, New.gru i o = some m ∧ GateOK i o m.part ∧ GateOK i o m.res ∧ GateOK i o m.cand ∧
    ∀ xs : List (Nat → ℝ),
      forward (gruNext m) GRUState.y (xs.map (col i)) = some (List.replicate xs.length (zeros o 1)) := by
  have h := gateOK_zero i o
  refine ⟨_, by simp [New.gru, gate_new]; rfl, h, h, h, fun xs => ?_⟩
  rw [gru_forward h h h, cols_range]
  intro t _ j
  refine foldl_inv (P := fun s : GRUVals => ∀ j, s.y j = 0) (fun s x hs j => ?_) _ _ (fun _ => rfl) j
  simp only [gruStep, pre_zero, Real.tanh_zero, hs j, mul_zero, add_zero]

theorem lstmOK_new (i o : Nat) : ∃ m, New.lstm i o = some m ∧ LSTMOK i o m ∧ m.refined = false ∧
    ∀ g ∈ [m.inp, m.outp, m.forg, m.cand], g = ⟨zeros o i, zeros o o, zeros o 1⟩ := by
  have h := gateOK_zero i o
  exact ⟨_, by simp [New.lstm, gate_new]; rfl, ⟨h, h, h, h, by simp⟩, rfl, by simp⟩

/-- **C66.** A new LSTM has the shapes of C37, and gives zeros, also with refined gates if the sizes are equal. -/
theorem lstm_new (i o : Nat) : ∃ m, New.lstm i o = some m ∧ LSTMOK i o m ∧
    (∀ xs : List (Nat → ℝ),
      forward (lstmNext m) LSTMState.y (xs.map (col i)) = some (List.replicate xs.length (zeros o 1))) ∧
    (i = o → LSTMOK i o (withRefinedGates m true) ∧ ∀ xs : List (Nat → ℝ),
      forward (lstmNext (withRefinedGates m true)) LSTMState.y (xs.map (col i)) =
        some (List.replicate xs.length (zeros o 1))) := by
  obtain ⟨m, h1, h2, h3, h4⟩ := lstmOK_new i o
  have zero : ∀ (m' : LSTM), LSTMOK i o m' → m'.cand = ⟨zeros o i, zeros o o, zeros o 1⟩ → ∀ xs : List (Nat → ℝ),
      forward (lstmNext m') LSTMState.y (xs.map (col i)) = some (List.replicate xs.length (zeros o 1)) := by
    intro m' hm hc xs
    rw [lstm_forward hm, cols_range]
    intro t _ j
    refine (foldl_inv (P := fun s : LSTMVals => ∀ j, s.cell j = 0 ∧ s.y j = 0) (fun s x hs j => ?_) _ _
      (fun _ => ⟨rfl, rfl⟩) j).2
    simp only [lstmStep, hc, pre_zero, Real.tanh_zero, (hs j).1, mul_zero, add_zero, and_self]
  refine ⟨m, h1, h2, zero m h2 (h4 _ (by simp)), fun e => ?_⟩
  have h5 : LSTMOK i o (withRefinedGates m true) := ⟨h2.inp, h2.outp, h2.forg, h2.cand, fun _ => e⟩
  exact ⟨h5, zero _ h5 (h4 m.cand (by simp))⟩

/-- **C66.** The recurrent constructors panic for every negative size. -/
theorem recurrent_negative {i o : Int} (h : i < 0 ∨ o < 0) :
    gate i o = none ∧ New.gru i o = none ∧ New.lstm i o = none ∧ New.biLSTM i o = none ∧ New.biGRU i o = none := by
  have := gate_none' h
  refine ⟨this, ?_, ?_, ?_, ?_⟩ <;> simp [New.gru, New.lstm, New.biLSTM, New.biGRU, this]

/-- The size of a merged vector. -/
def mergedSize (mode : Merge) (h : Nat) : Nat := match mode with | .concat => h + h | _ => h

theorem merge_cols (mode : Merge) (h : Nat) (u v : Nat → ℝ) : ∃ w, merge mode (col h u) (col h v) = some (col (mergedSize mode h) w) := by
  cases mode
  · exact ⟨_, merge_concat h h u v⟩
  · exact ⟨_, merge_sum h u v⟩
  · exact ⟨_, merge_prod h u v⟩
  · exact ⟨_, merge_avg h u v⟩

theorem col_of_isCol {d : Nat} {x : Dense ℝ} (h : IsMat x d 1) : x = col d x.val := h.eq_col

/-- **C66.** A bidirectional LSTM of the shapes of its constructor, trained or not, maps every sequence of vectors of
the input size to a sequence of the same length; the vectors have twice the hidden size for `Concat` and the hidden size
for the other merge modes. -/
theorem biLSTM_forward {m : BiLSTM} {i h : Nat} (h1 : LSTMOK i h m.pos) (h2 : LSTMOK i h m.neg) (n : Nat)
    (X : Nat → Nat → ℝ) : ∃ Y, m.forward (seq n i X) = some (seq n (mergedSize m.mode h) Y) := by
  have hx : seq n i X = ((List.range n).map X).map (col i) := by simp [seq, Function.comp_def]
  have e1 := lstm_forward h1 ((List.range n).map X)
  have e2 := lstm_forward h2 ((List.range n).map X).reverse
  rw [List.map_reverse, ← hx] at e2
  rw [← hx] at e1
  obtain ⟨zs, hz⟩ := Option.isSome_iff_exists.mp (birnn_isSome (mode := m.mode) e1 e2 (by simp) (by
    intro a ha b hb
    obtain ⟨s, -, rfl⟩ := List.mem_map.mp ha
    obtain ⟨t, -, rfl⟩ := List.mem_map.mp hb
    obtain ⟨w, hw⟩ := merge_cols m.mode h (stateAt (lstmStep i h m.pos) lstmZero ((List.range n).map X) s).y
      (stateAt (lstmStep i h m.neg) lstmZero ((List.range n).map X).reverse t).y
    rw [hw]; rfl))
  have hz' := hz
  simp only [birnn, reversed_eq, e1, e2, Option.bind_eq_bind, Option.bind_some] at hz'
  obtain ⟨hl, hv⟩ := mergeLoop_spec hz'
  simp only [List.length_range, List.length_map] at hl hv
  refine ⟨fun t => (zs.getD t (zeros 0 0)).val, ?_⟩
  rw [BiLSTM.forward, hz]
  refine congrArg some (List.ext_getElem (by simp [seq, hl]) fun t ht1 ht2 => ?_)
  have htn : t < n := by omega
  obtain ⟨a, b, z, ha, hb, hzt, hm⟩ := hv t t (by rw [List.getElem?_range htn])
  have ha' := List.mem_of_getElem? ha
  have hb' := List.mem_of_getElem? hb
  obtain ⟨s, -, rfl⟩ := List.mem_map.mp ha'
  obtain ⟨r, -, rfl⟩ := List.mem_map.mp hb'
  obtain ⟨w, hw⟩ := merge_cols m.mode h (stateAt (lstmStep i h m.pos) lstmZero ((List.range n).map X) s).y
      (stateAt (lstmStep i h m.neg) lstmZero ((List.range n).map X).reverse r).y
  rw [hw] at hm
  obtain rfl := Option.some.inj hm
  have e : zs[t] = col (mergedSize m.mode h) w := by
    rw [List.getElem?_eq_getElem ht1] at hzt; exact Option.some.inj hzt
  simp only [seq, List.getElem_map, List.getElem_range, List.getD_eq_getElem?_getD, List.getElem?_eq_getElem ht1,
    Option.getD_some, e]
  exact (col_congr fun j hj => col_val w hj).symm

/-- **C66.** A bidirectional GRU as its constructor makes it: both directions have the given sizes, and every sequence of
vectors of the input size gives a sequence of the same length, here of the merged zero vectors. -/
theorem biGRU_new (i h n : Nat) (mode : Merge) (X : Nat → Nat → ℝ) : ∃ p q, New.biGRU i h = some (p, q) ∧
    (GateOK i h p.part ∧ GateOK i h p.res ∧ GateOK i h p.cand) ∧ (GateOK i h q.part ∧ GateOK i h q.res ∧ GateOK i h q.cand) ∧
    birnn (forward (gruNext p) GRUState.y) (forward (gruNext q) GRUState.y) mode (seq n i X) =
      some (List.replicate n (zeros (mergedSize mode h) 1)) := by
  obtain ⟨m, e, g1, g2, g3, hf⟩ := gru_new i h
  refine ⟨m, m, by simp [New.biGRU, e], ⟨g1, g2, g3⟩, ⟨g1, g2, g3⟩, ?_⟩
  have hx : seq n i X = ((List.range n).map X).map (col i) := by simp [seq, Function.comp_def]
  have e1 := hf ((List.range n).map X)
  have e2 := hf ((List.range n).map X).reverse
  rw [List.map_reverse, ← hx] at e2
  rw [← hx] at e1
  simp only [List.length_map, List.length_range, List.length_reverse] at e1 e2
  have hm : merge mode (zeros h 1) (zeros h 1) = some (zeros (mergedSize mode h) 1) := by
    simp only [zeros_col]
    cases mode
    · rw [merge_concat]; exact congrArg some (col_congr fun j _ => by simp)
    · rw [merge_sum]; exact congrArg some (col_congr fun j _ => by simp)
    · rw [merge_prod]; exact congrArg some (col_congr fun j _ => by simp)
    · rw [merge_avg]; exact congrArg some (col_congr fun j _ => by simp)
  obtain ⟨zs, hz⟩ := Option.isSome_iff_exists.mp (birnn_isSome (mode := mode) e1 e2 (by simp) (by
    intro a ha b hb
    rw [List.eq_of_mem_replicate ha, List.eq_of_mem_replicate hb, hm]; rfl))
  rw [hz]
  simp only [birnn, reversed_eq, e1, e2, Option.bind_eq_bind, Option.bind_some] at hz
  obtain ⟨hl, hv⟩ := mergeLoop_spec hz
  simp only [List.length_range, List.length_replicate] at hl hv
  refine congrArg some (List.eq_replicate_iff.mpr ⟨hl, fun z hzm => ?_⟩)
  obtain ⟨t, ht, rfl⟩ := List.mem_iff_getElem.mp hzm
  obtain ⟨a, b, z, ha, hb, hzt, hmz⟩ := hv t t (by rw [List.getElem?_range (by omega)])
  rw [List.eq_of_mem_replicate (List.mem_of_getElem? ha), List.eq_of_mem_replicate (List.mem_of_getElem? hb), hm] at hmz
  rw [List.getElem?_eq_getElem ht] at hzt
  exact (Option.some.inj hzt).trans (Option.some.inj hmz).symm

/-- **C66.** `WithRefinedGates` switches the refined gates on and off and changes nothing else: the LSTM then follows the
recurrence with or without them. -/
theorem withRefinedGates_spec {i o : Nat} {m : LSTM} (h : LSTMOK i o m) (value : Bool) (hv : value = true → i = o) :
    (withRefinedGates m value).refined = value ∧ LSTMOK i o (withRefinedGates m value) ∧
      withRefinedGates (withRefinedGates m value) m.refined = m ∧ ∀ xs : List (Nat → ℝ),
        forward (lstmNext (withRefinedGates m value)) LSTMState.y (xs.map (col i)) = some ((List.range xs.length).map
          fun t => col o (stateAt (lstmStep i o ⟨value, m.inp, m.outp, m.forg, m.cand⟩) lstmZero xs t).y) := by
  have h' : LSTMOK i o (withRefinedGates m value) := ⟨h.inp, h.outp, h.forg, h.cand, hv⟩
  exact ⟨rfl, h', rfl, fun xs => lstm_forward h' xs⟩

/-- **C66.** `NewBiBiLSTM`: the second layer has the input size of the first one's concatenated output, so the two
together accept every sequence for every merge mode. -/
theorem biBiLSTM_new (i h n : Nat) (mode : Merge) (X : Nat → Nat → ℝ) : ∃ a b, New.biBiLSTM i h mode = some (a, b) ∧
    LSTMOK i h a.pos ∧ LSTMOK i h a.neg ∧ LSTMOK (2 * h) h b.pos ∧ LSTMOK (2 * h) h b.neg ∧
    ∃ Y Z, a.forward (seq n i X) = some (seq n (2 * h) Y) ∧
      b.forward (seq n (2 * h) Y) = some (seq n (mergedSize mode h) Z) := by
  obtain ⟨m, e1, h1, -⟩ := lstmOK_new i h
  obtain ⟨m', e2, h2, -⟩ := lstmOK_new (2 * h) h
  have e2' : New.lstm ((h : Int) * 2) h = some m' := by
    rw [show (h : Int) * 2 = ((2 * h : Nat) : Int) by push_cast; ring]; exact e2
  refine ⟨⟨m, m, .concat⟩, ⟨m', m', mode⟩, by simp [New.biBiLSTM, New.biLSTM, e1, e2'], h1, h1, h2, h2, ?_⟩
  obtain ⟨Y, hY⟩ := biLSTM_forward (m := ⟨m, m, .concat⟩) h1 h1 n X
  obtain ⟨Z, hZ⟩ := biLSTM_forward (m := ⟨m', m', mode⟩) h2 h2 n Y
  refine ⟨Y, Z, ?_, hZ⟩
  rw [hY]
  simp only [mergedSize, Nat.two_mul]

/-- **C66.** A trained pair of layers made by `NewBiBiLSTM` as well. -/
theorem biBiLSTM_forward {a b : BiLSTM} {i h : Nat} (h1 : LSTMOK i h a.pos) (h2 : LSTMOK i h a.neg) (hc : a.mode = .concat)
    (h3 : LSTMOK (2 * h) h b.pos) (h4 : LSTMOK (2 * h) h b.neg) (n : Nat) (X : Nat → Nat → ℝ) :
    ∃ Y Z, a.forward (seq n i X) = some (seq n (2 * h) Y) ∧
      b.forward (seq n (2 * h) Y) = some (seq n (mergedSize b.mode h) Z) := by
  obtain ⟨Y, hY⟩ := biLSTM_forward h1 h2 n X
  obtain ⟨Z, hZ⟩ := biLSTM_forward h3 h4 n Y
  refine ⟨Y, Z, ?_, hZ⟩
  rw [hY, hc]
  simp only [mergedSize, Nat.two_mul]

/-! ### normalisation -/

/-- **C66.** A new `LayerNorm` has weights 0 (not 1) until they are initialised: it erases its input. -/
theorem layerNorm_new (d : Nat) (eps : ℝ) : ∃ m, New.layerNorm d eps = some m ∧ IsMat m.w d 1 ∧ IsMat m.b d 1 ∧
    m.eps = eps ∧ ∀ (n : Nat) (X : Nat → Nat → ℝ), m.forward (seq n d X) = some (List.replicate n (zeros d 1)) := by
  refine ⟨⟨zeros d 1, zeros d 1, eps⟩, by simp [New.layerNorm], zeros_isMat d 1, zeros_isMat d 1, rfl, fun n X => ?_⟩
  rw [ln_seq (zeros_isMat d 1) (zeros_isMat d 1), seq_zero]
  intro t _ j _
  simp [lnorm, zeros_val]

/-- **C66.** The same for `RMSNorm` and for the gain of `ScaleNorm`. -/
theorem rmsNorm_new (d : Nat) (x : Nat → ℝ) : ∃ w b g, New.rmsNorm d = some (w, b) ∧ New.scaleNorm d = some g ∧
    Norm.rmsNorm w b (col d x) = some (zeros d 1) ∧ Norm.scaleNorm g (col d x) = some (zeros d 1) := by
  refine ⟨zeros d 1, zeros d 1, zeros d 1, by simp [New.rmsNorm], by simp [New.scaleNorm], ?_, ?_⟩
  · rw [zeros_col, Norm.rmsNorm_eq]; simp
  · obtain ⟨z, h1, h2, -⟩ := Norm.scaleNorm_eq d (fun _ => 0) x (G := 1) (by simp) one_pos
    rw [zeros_col, h1]
    exact congrArg some (col_congr fun i _ => by rw [h2, mul_zero])

theorem batchNorm_eq (d : Nat) (mom : ℝ) :
    New.batchNorm d mom = some (Norm.bn d (fun _ => Norm.bnEps) (fun _ => 0) (fun _ => 0) (fun _ => 0) mom) := by
  have : newDense [.backing (List.replicate d Norm.bnEps)] = some (col d fun _ => Norm.bnEps) := by
    rw [newDense_backing]
    simp only [col, List.length_replicate, Option.some.injEq, Dense.mk.injEq, true_and]
    exact List.ext_getElem (by simp) fun i h1 h2 => by simp
  have hi : initializedSlice d Norm.bnEps = some (List.replicate d Norm.bnEps) := by
    rw [initializedSlice, if_neg (by omega), Int.toNat_natCast]
  simp only [New.batchNorm, hi, this, param1, zeros_col, Option.bind_eq_bind, Option.bind_some, Norm.bn]

/-- **C66.** A new `BatchNorm` is the identity at inference: its weights are 1e-5, the constant added to the deviation
0. -/
theorem batchNorm_new (d : Nat) (mom : ℝ) (xs : List (Nat → ℝ)) : ∃ m, New.batchNorm d mom = some m ∧
    Norm.bnForward m (xs.map (col d)) = some (xs.map (col d)) := by
  refine ⟨_, batchNorm_eq d mom, ?_⟩
  rw [Norm.bnForward_eq]
  have := Norm.bnEps_pos.ne'
  simp [this]

/-- **C66.** In training its first output is 1e-5 times the normalised batch: each element is smaller than
1e-5 · √(n + 1). -/
theorem batchNorm_train (d : Nat) (mom : ℝ) {xs : List (Nat → ℝ)} (h : xs ≠ []) : ∃ m ys m', New.batchNorm d mom = some m ∧
    Norm.bnForwardT m (xs.map (col d)) = some (ys, m') ∧
    ys = xs.map fun x => col d fun i => 1e-5 * ((x i - Norm.bMean xs i) / (Norm.bDev xs i + 1e-5)) := by
  refine ⟨_, _, _, batchNorm_eq d mom, Norm.bnForwardT_eq d _ _ _ _ mom h, ?_⟩
  refine List.map_congr_left fun x _ => col_congr fun i _ => ?_
  rw [Norm.bnEps]; ring

theorem batchNorm_train_small {xs : List (Nat → ℝ)} {x : Nat → ℝ} (hx : x ∈ xs) (i : Nat) :
    |1e-5 * ((x i - Norm.bMean xs i) / (Norm.bDev xs i + 1e-5))| ≤ 1e-5 * Real.sqrt (xs.length + 1e-5) := by
  have hD : 0 ≤ Norm.bDev xs i := Real.sqrt_nonneg _
  have hn : (0 : ℝ) < xs.length + 1e-5 := by positivity
  have key : |x i - Norm.bMean xs i| ≤ Real.sqrt (xs.length + 1e-5) * Norm.bDev xs i := by
    have e : Norm.bDev xs i = Real.sqrt ((xs.map fun x => (Norm.bMean xs i - x i) ^ 2).sum / (xs.length + 1e-5)) := rfl
    rw [e, ← Real.sqrt_mul hn.le, mul_div_cancel₀ _ hn.ne']
    rw [← Real.sqrt_sq_eq_abs]
    apply Real.sqrt_le_sqrt
    have := List.single_le_sum (l := xs.map fun x => (Norm.bMean xs i - x i) ^ 2) (by
      intro y hy; obtain ⟨u, -, rfl⟩ := List.mem_map.mp hy; positivity) _ (List.mem_map.mpr ⟨x, hx, rfl⟩)
    calc _ = (Norm.bMean xs i - x i) ^ 2 := by ring
      _ ≤ _ := this
  rw [abs_mul, abs_of_pos (by norm_num : (0 : ℝ) < 1e-5)]
  refine mul_le_mul_of_nonneg_left ?_ (by norm_num)
  rw [abs_div, abs_of_pos (by positivity : (0 : ℝ) < Norm.bDev xs i + 1e-5), div_le_iff₀ (by positivity)]
  refine key.trans (mul_le_mul_of_nonneg_left ?_ (Real.sqrt_nonneg _))
  norm_num

/-! ### highway, squared distance, mixer, gating unit, gMLP -/

/-- **C66.** A new highway layer is the average of its input and the activation at 0. -/
theorem highway_new (d : Nat) (a : Act) : ∃ m, New.highway d a = some m ∧ IsMat m.wIn d d ∧ IsMat m.bIn d 1 ∧
    IsMat m.wT d d ∧ IsMat m.bT d 1 ∧ m.act = a ∧ ∀ (f : ℝ → ℝ), Applies a f → ∀ (n : Nat) (X : Nat → Nat → ℝ),
      m.forward (seq n d X) = some (seq n d fun i j => (f 0 + X i j) / 2) := by
  refine ⟨⟨zeros d d, zeros d 1, zeros d d, zeros d 1, a⟩, by simp [New.highway], zeros_isMat .., zeros_isMat ..,
    zeros_isMat .., zeros_isMat .., rfl, fun f hf n X => ?_⟩
  rw [highway_forward (zeros_isMat ..) (zeros_isMat ..) (zeros_isMat ..) (zeros_isMat ..) hf]
  refine congrArg some (seq_congr fun i _ j _ => ?_)
  simp only [lin_zeros, neg_zero, Real.exp_zero]
  ring

/-- **C66.** The new squared distance is 0 for every vector of the input size. -/
theorem sqrDist_new (d r n : Nat) (X : Nat → Nat → ℝ) : ∃ b, New.sqrDist d r = some b ∧ IsMat b r d ∧
    Layers.sqrDist b (seq n d X) = some (List.replicate n (scalar 0)) := by
  refine ⟨zeros r d, by simp [New.sqrDist], zeros_isMat .., ?_⟩
  rw [sqrDist_forward (zeros_isMat ..)]
  refine congrArg some (List.ext_getElem (by simp) fun i _ _ => ?_)
  simp [zeros_el]

/-- **C66.** The transition scores of a new CRF: one state more than the labels. -/
theorem crf_new (n : Nat) : New.crf n = some (zeros (n + 1) (n + 1)) := by
  have := param2 (n + 1) (n + 1)
  push_cast at this
  exact this

theorem feedForward_new (d h : Nat) (a : Act) :
    New.feedForward d h a = some ⟨zeros h d, zeros h 1, a, zeros d h, zeros d 1⟩ := by
  simp [New.feedForward, linear_new]

/-- **C66.** A new mixer block has the shapes of C54 and, for every pair of activations, is the identity on sequences
of its length. -/
theorem mixer_new (d h h' n : Nat) (a a' : Act) (eps : ℝ) : ∃ m, New.mixer ⟨d, h, h', n, a, a', eps⟩ = some m ∧
    m.Shaped n d h h' ∧ m.tokenFF.act = a ∧ m.channelFF.act = a' ∧
    ∀ (f g : ℝ → ℝ), Applies a f → Applies a' g → 0 < n → 0 < d → ∀ X : Nat → Nat → ℝ,
      m.forward (seq n d X) = some (seq n d X) := by
  have hs : Mixer.Shaped ⟨n, ⟨zeros d 1, zeros d 1, eps⟩, ⟨zeros h n, zeros h 1, a, zeros n h, zeros n 1⟩,
      ⟨zeros d 1, zeros d 1, eps⟩, ⟨zeros h' d, zeros h' 1, a', zeros d h', zeros d 1⟩⟩ n d h h' := by
    constructor <;> first | rfl | exact zeros_isMat ..
  refine ⟨_, by simp [New.mixer, feedForward_new, New.layerNorm], hs, rfl, rfl, fun f g hf hg hn hd X => ?_⟩
  rw [mixer_forward_partial hs hf hg hn hd]
  refine congrArg some (seq_congr fun i _ j _ => ?_)
  simp only [channelSpec, tokenSpec, ffn, lin_zeros, zero_add]

/-- **C66.** A new 1 × 1 convolution. -/
theorem conv1x1_new (i o : Nat) : New.conv1x1 i o = some (zeros o i, zeros o 1) := by simp [New.conv1x1]

theorem sgu_eq (d n : Nat) (a : Act) : New.sgu ((2 * d : Nat) : Int) n a =
    some ⟨n, ⟨zeros d 1, zeros d 1, 1e-12⟩, zeros n n, zeros n 1, if a ≠ .identity then some a else none⟩ := by
  have : ((2 * d : Nat) : Int).tdiv 2 = (d : Int) := by rw [Int.tdiv_eq_ediv_of_nonneg (by omega)]; omega
  simp only [New.sgu, this, New.layerNorm, param1, conv1x1_new, Option.bind_eq_bind, Option.bind_some, Int.toNat_natCast]

theorem appliesOpt_new {a : Act} {f : ℝ → ℝ} (h : Applies a f) : AppliesOpt (if a ≠ .identity then some a else none) f := by
  by_cases ha : a = .identity
  · subst ha
    have := h.2
    simp only [formula, Option.some.injEq] at this
    simp only [ne_eq, not_true_eq_false, if_false, AppliesOpt]
    rw [← this]; rfl
  · rw [if_pos ha]; exact h

/-- **C66.** A new spatial gating unit of even size has the shapes of C55; before training it multiplies the first half
by the activation at 0. -/
theorem sgu_new (d n : Nat) (a : Act) {f : ℝ → ℝ} (hf : Applies a f) : ∃ m, New.sgu ((2 * d : Nat) : Int) n a = some m ∧
    m.Shaped n d ∧ (0 < n → 0 < d → ∀ X : Nat → Nat → ℝ,
      m.forward (seq n (2 * d) X) = some (seq n d fun i j => f 0 * X i j)) := by
  have hs : SGU.Shaped ⟨n, ⟨zeros d 1, zeros d 1, 1e-12⟩, zeros n n, zeros n 1,
      if a ≠ .identity then some a else none⟩ n d := by
    constructor <;> first | rfl | exact zeros_isMat ..
  refine ⟨_, sgu_eq d n a, hs, fun hn hd X => ?_⟩
  rw [sgu_forward_partial hs (appliesOpt_new hf) hn hd]
  refine congrArg some (seq_congr fun i _ j _ => ?_)
  simp only [sguSpec, lin_zeros]

/-- **C66, violated.** For an odd size the constructor succeeds, and the unit panics on every sequence. -/
theorem sgu_new_odd (d n k : Nat) (a : Act) (X : Nat → Nat → ℝ) : ∃ m, New.sgu ((2 * d + 1 : Nat) : Int) n a = some m ∧
    m.forward (seq k (2 * d + 1) X) = none := by
  have : ((2 * d + 1 : Nat) : Int).tdiv 2 = (d : Int) := by rw [Int.tdiv_eq_ediv_of_nonneg (by omega)]; omega
  have hs : SGU.Shaped ⟨n, ⟨zeros d 1, zeros d 1, 1e-12⟩, zeros n n, zeros n 1,
      if a ≠ .identity then some a else none⟩ n d := by
    constructor <;> first | rfl | exact zeros_isMat ..
  refine ⟨_, ?_, sgu_odd hs X⟩
  simp only [New.sgu, this, New.layerNorm, param1, conv1x1_new, Option.bind_eq_bind, Option.bind_some, Int.toNat_natCast]

/-- A layer of a new gMLP. -/
noncomputable def gZero (d e n : Nat) (a : Act) : GLayer :=
  ⟨⟨zeros d 1, zeros d 1, 1e-12⟩, zeros (2 * e) d, zeros (2 * e) 1,
    ⟨n, ⟨zeros e 1, zeros e 1, 1e-12⟩, zeros n n, zeros n 1, if a ≠ .identity then some a else none⟩,
    zeros d e, zeros d 1⟩

theorem gLayer_eq (d e n : Nat) (a : Act) : New.gLayer d ((2 * e : Nat) : Int) n a = some (gZero d e n a) := by
  have : ((2 * e : Nat) : Int).tdiv 2 = (e : Int) := by rw [Int.tdiv_eq_ediv_of_nonneg (by omega)]; omega
  simp only [New.gLayer, linear_new, sgu_eq, this, New.layerNorm, param1, Option.bind_eq_bind, Option.bind_some, gZero]

theorem gZero_shaped (d e n : Nat) (a : Act) : (gZero d e n a).Shaped n d e := by
  refine ⟨?_, ?_, ?_, ?_, ⟨rfl, ?_, ?_, ?_, ?_⟩, ?_, ?_⟩ <;> exact zeros_isMat ..

/-- **C66.** A new gMLP with even inner size has layers of the shapes of C55; before training it returns its input,
padded with zeros. -/
theorem gmlp_new (d depth n mult e : Nat) (he : d * mult = 2 * e) (a : Act) {f : ℝ → ℝ} (hf : Applies a f) :
    ∃ m, New.gmlp d depth n mult a = some m ∧ m.seqLen = n ∧ m.dim = d ∧ m.layers.length = depth ∧
      (∀ l ∈ m.layers, l.Shaped n d e ∧ AppliesOpt l.sgu.act f) ∧
      (0 < e → ∀ k, 0 < k → k ≤ n → ∀ X : Nat → Nat → ℝ,
        m.forward (seq k d X) = some (seq n d fun i j => if i < k then X i j else 0)) := by
  have hl : ((List.range depth).mapM fun _ => New.gLayer d ((d : Int) * mult) n a) =
      some ((List.range depth).map fun _ => gZero d e n a) :=
    MultiHead.mapM_range_some fun _ _ => by
      rw [show (d : Int) * mult = ((2 * e : Nat) : Int) by exact_mod_cast he]; exact gLayer_eq ..
  have hsh : ∀ l ∈ (List.range depth).map fun _ => gZero d e n a, l.Shaped n d e ∧ AppliesOpt l.sgu.act f := by
    intro l hl
    obtain ⟨_, -, rfl⟩ := List.mem_map.mp hl
    exact ⟨gZero_shaped .., appliesOpt_new hf⟩
  refine ⟨⟨d, n, (List.range depth).map fun _ => gZero d e n a⟩, ?_, rfl, rfl, by simp, hsh, ?_⟩
  · simp only [New.gmlp]
    rw [if_neg (by omega), Int.toNat_natCast, hl]
    rfl
  · intro h0 k hk0 hk X
    have := gmlp_forward_partial (m := ⟨d, n, (List.range depth).map fun _ => gZero d e n a⟩) rfl h0 hsh hk0 hk X
    rw [this]
    refine congrArg some (congrArg (seq n d) ?_)
    simp only [gmlpSpec]
    refine foldl_fix _ _ (fun l hl Y => ?_) _
    obtain ⟨_, -, rfl⟩ := List.mem_map.mp hl
    funext i j
    simp only [gSpec, gZero, lin_zeros, zero_add]
where
  foldl_fix {A B : Type} (s : A → B → A) : ∀ (l : List B) (_ : ∀ b ∈ l, ∀ x, s x b = x) (x : A), l.foldl s x = x
    | [], _, _ => rfl
    | b :: l, h, x => by
      rw [List.foldl_cons, h b (by simp) x]
      exact foldl_fix s l (fun b' hb => h b' (by simp [hb])) x

/-! ### the graph network and attention -/

/-- The gates of a new sentence LSTM. -/
noncomputable def zero4 (e d : Nat) : SLSTM.Lin4 := ⟨zeros d (3 * d), zeros d e, zeros d d, zeros d 1⟩
noncomputable def zero3 (d : Nat) : SLSTM.Lin3 := ⟨zeros d d, zeros d d, zeros d 1⟩

theorem gate4_eq (e d : Nat) : gate4 e d = some (zero4 e d) := by
  have : (d : Int) * 3 = ((3 * d : Nat) : Int) := by push_cast; ring
  simp only [gate4, this, param2, param1, Option.bind_eq_bind, Option.bind_some, zero4]

theorem gate3_eq (d : Nat) : gate3 d = some (zero3 d) := by simp [gate3, zero3]

/-- **C66.** A new sentence LSTM has the shapes of C56, and gives zeros. -/
theorem slstm_new (e d : Nat) (steps : Int) : ∃ m, New.slstm e d steps = some m ∧ m.Shaped e d ∧ m.steps = steps ∧
    (e = d → 1 ≤ steps → ∀ (n : Nat), 0 < n → ∀ X : Nat → Nat → ℝ,
      SLSTM.forward m (seq n d X) = some (List.replicate n (zeros d 1))) := by
  have h4 : (zero4 e d).Shaped e d := by constructor <;> exact zeros_isMat ..
  have h3 : (zero3 d).Shaped d := by constructor <;> exact zeros_isMat ..
  have hs : SLSTM.Model.Shaped ⟨steps, zero4 e d, zero4 e d, zero4 e d, zero4 e d, zero4 e d, zero4 e d, zero4 e d, zero3 d,
      zero3 d, zero3 d, zeros d 1, zeros d 1, zeros d 1⟩ e d :=
    ⟨h4, h4, h4, h4, h4, h4, h4, h3, h3, h3, zeros_isMat .., zeros_isMat .., zeros_isMat ..⟩
  refine ⟨_, by simp only [New.slstm, gate4_eq, gate3_eq, param1, Option.bind_eq_bind, Option.bind_some], hs, rfl, ?_⟩
  rintro rfl h1 n hn X
  rw [SLSTM.forward_partial hs hn h1]
  rw [seq_zero]
  intro i _ j _
  have : ∀ (k : Nat) (v : SLSTM.Vals), (∀ i j, v.h i j = 0 ∧ v.c i j = 0) ∧ (∀ j, v.g j = 0) →
      (∀ i j, ((SLSTM.stepOf ⟨steps, zero4 e e, zero4 e e, zero4 e e, zero4 e e, zero4 e e, zero4 e e, zero4 e e, zero3 e,
        zero3 e, zero3 e, zeros e 1, zeros e 1, zeros e 1⟩ (zeros e e) e n X)^[k] v).h i j = 0) := by
    intro k
    induction k with
    | zero => intro v hv i j; exact (hv.1 i j).1
    | succ k ih =>
      intro v hv
      rw [Function.iterate_succ_apply]
      apply ih
      have hc : ∀ i j, SLSTM.cellOf ⟨steps, zero4 e e, zero4 e e, zero4 e e, zero4 e e, zero4 e e, zero4 e e, zero4 e e,
          zero3 e, zero3 e, zero3 e, zeros e 1, zeros e 1, zeros e 1⟩ (zeros e e) e n X v i j = 0 := by
        intro i j
        simp only [SLSTM.cellOf, SLSTM.left, SLSTM.right, SLSTM.arg, SLSTM.mv, zero4, zeros_el, zeros_val, zero_mul,
          Finset.sum_const_zero, add_zero, Real.tanh_zero, mul_zero, hv.2, (hv.1 _ _).2]
        split <;> split <;> simp [zeros_val, (hv.1 _ _).2]
      refine ⟨fun i j => ⟨?_, hc i j⟩, fun j => ?_⟩
      · simp only [SLSTM.stepOf, SLSTM.hiddenOf, hc, Real.tanh_zero, mul_zero]
      · simp only [SLSTM.stepOf, SLSTM.sentOf, hv.2, (hv.1 _ _).2, mul_zero, Finset.sum_const_zero, add_zero,
          Real.tanh_zero]
  exact this _ _ ⟨fun i j => by simp [SLSTM.start, zeros_val], fun j => by simp [SLSTM.start, zeros_val]⟩ i j

theorem selfAttention_new (s q k v : Nat) (scale : ℝ) (ca cr : Bool) :
    New.selfAttention s q k v scale ca cr =
      some ⟨zeros q s, zeros q 1, zeros k s, zeros k 1, zeros v s, zeros v 1, scale, ca, cr⟩ := by
  simp [New.selfAttention, linear_new]

/-- **C66.** `multiheadattention.New` succeeds for every positive number of heads; the model works on non-empty
sequences exactly if the number of heads divides the size, and panics otherwise. -/
theorem multiHead_new (size n : Nat) (hn : 0 < n) (ca cr : Bool) : ∃ m, New.multiHead size n ca cr = some m ∧
    MultiHead.newShapes size n m ∧ ∀ (q x : List (Dense ℝ)), Attention.Cols size q → Attention.Cols size x → q ≠ [] → x ≠ [] →
      ((m.forward Real.exp [] q x).isSome ↔ n ∣ size) := by
  have e : (size : Int).tdiv n = ((size / n : Nat) : Int) := by
    rw [Int.tdiv_eq_ediv_of_nonneg (by omega)]; simp
  have hl : ((List.range n).mapM fun _ => New.selfAttention size ((size / n : Nat) : Int) ((size / n : Nat) : Int)
      ((size / n : Nat) : Int) (1 / Real.sqrt (((size / n : Nat) : Int) : ℝ)) ca cr) = some ((List.range n).map fun _ => _) :=
    MultiHead.mapM_range_some fun _ _ => selfAttention_new ..
  have hsome : New.multiHead size n ca cr = some ⟨(List.range n).map fun _ => ⟨zeros (size / n) size, zeros (size / n) 1,
      zeros (size / n) size, zeros (size / n) 1, zeros (size / n) size, zeros (size / n) 1,
      1 / Real.sqrt (((size / n : Nat) : Int) : ℝ), ca, cr⟩, zeros size size, zeros size 1⟩ := by
    simp only [New.multiHead]
    rw [if_neg (by omega), if_neg (by omega)]
    simp only [e, Int.toNat_natCast, hl, linear_new, Option.bind_eq_bind, Option.bind_some]
  have hsh : MultiHead.newShapes size n ⟨(List.range n).map fun _ => (⟨zeros (size / n) size, zeros (size / n) 1,
      zeros (size / n) size, zeros (size / n) 1, zeros (size / n) size, zeros (size / n) 1,
      1 / Real.sqrt (((size / n : Nat) : Int) : ℝ), ca, cr⟩ : Attention.SelfAtt ℝ), zeros size size, zeros size 1⟩ := by
    refine ⟨by simp, fun h hh => ?_, ⟨zeros_WF .., rfl, rfl⟩, ⟨zeros_WF .., rfl, rfl⟩⟩
    obtain ⟨_, -, rfl⟩ := List.mem_map.mp hh
    exact ⟨⟨zeros_WF .., rfl, rfl⟩, ⟨zeros_WF .., rfl, rfl⟩, ⟨zeros_WF .., rfl, rfl⟩, ⟨zeros_WF .., rfl, rfl⟩,
      ⟨zeros_WF .., rfl, rfl⟩, ⟨zeros_WF .., rfl, rfl⟩⟩
  exact ⟨_, hsome, hsh, fun q x hq hx hqn hxn => MultiHead.new_works_iff hsh hn hq hx hqn hxn⟩

/-- **C66.** Without heads, or with a negative number of them, the constructor panics. -/
theorem multiHead_none (size n : Int) (hn : n ≤ 0) (ca cr : Bool) : New.multiHead size n ca cr = none := by
  unfold New.multiHead
  by_cases h : n < 0
  · rw [if_pos h]
  · rw [if_neg h, if_pos (by omega)]

/-! ### convolutions and embeddings -/

/-- **C66.** A convolution has one kernel and one bias for every pair of channels (for every channel if it is
depth-wise), the kernels of the configured size. -/
theorem conv_new {cfg : Conv.Config} {grads : List Bool} (h : Conv.newGrads cfg = some grads) (kx ky : Nat) :
    New.conv cfg kx ky = some (List.replicate grads.length (zeros kx ky), List.replicate grads.length (zeros 1 1)) ∧
    grads.length = if cfg.depthWise then cfg.outputChannels else cfg.inputChannels * cfg.outputChannels := by
  constructor
  · have h1 : param [1] = some (zeros 1 1) := by simpa using param1 1
    simp only [New.conv, h, Option.bind_eq_bind, Option.bind_some, param2, h1]
    rw [GradFn.mapM_some (g := fun _ => zeros kx ky) _ (fun _ _ => rfl),
      GradFn.mapM_some (g := fun _ => zeros 1 1) _ (fun _ _ => rfl)]
    simp [List.map_const']
  · have key : ∀ (n : Nat) (f : Nat → Option Bool) (l : List Bool), (List.range n).mapM f = some l → l.length = n := by
      intro n f l hl
      have : ∀ (is : List Nat) (l : List Bool), is.mapM f = some l → l.length = is.length := by
        intro is
        induction is with
        | nil => intro l h; obtain rfl := Option.some.inj h; rfl
        | cons a is ih =>
          intro l h
          simp only [List.mapM_cons, Option.bind_eq_bind, Option.bind_eq_some_iff] at h
          obtain ⟨b, -, bs, h2, h3⟩ := h
          obtain rfl := Option.some.inj h3
          simp [ih bs h2]
      simpa using this _ _ hl
    simp only [Conv.newGrads] at h
    have pos : ∀ {A : Type} {c : Prop} [Decidable c] {x : Option A} {y : A}, (if c then none else x) = some y → x = some y := by
      intro A c _ x y h
      by_cases hc : c
      · rw [if_pos hc] at h; cases h
      · rwa [if_neg hc] at h
    exact key _ _ _ (pos (pos h))

theorem embeddingLoop_eq (dim size : Nat) : ∀ is : List Nat, (∀ i ∈ is, i < size) →
    embeddingLoop dim (List.replicate (size * dim) 0) is = some (is.map fun _ => zeros dim 1)
  | [], _ => rfl
  | i :: is, h => by
    have hi : i < size := h i (by simp)
    have hm : i * dim + dim ≤ size * dim := by
      calc i * dim + dim = (i + 1) * dim := by ring
        _ ≤ _ := Nat.mul_le_mul_right _ hi
    have : ((List.replicate (size * dim) (0 : ℝ)).drop (i * dim)).take dim = List.replicate dim 0 := by
      rw [List.drop_replicate, List.take_replicate]
      congr 1; omega
    simp only [embeddingLoop, this, newDense_backing, List.length_replicate, Option.bind_eq_bind, Option.bind_some,
      embeddingLoop_eq dim size is fun j hj => h j (by simp [hj]), List.map_cons]
    simp [zeros]

/-- **C66.** `embedding.New` makes `size` vectors of `dim` zeros; it panics for a negative size, and for a negative
dimension unless the size is 0. -/
theorem embedding_new (size dim : Nat) : New.embedding size dim = some (List.replicate size (zeros dim 1)) := by
  unfold New.embedding
  have h0 : ¬ ((size : Int) * dim < 0 ∨ (size : Int) < 0) := by
    have : (0 : Int) ≤ size * dim := by positivity
    omega
  rw [if_neg h0]
  have : ((size : Int) * dim).toNat = size * dim := by
    rw [show (size : Int) * dim = ((size * dim : Nat) : Int) by push_cast; ring]; exact Int.toNat_natCast _
  rw [this, Int.toNat_natCast, Int.toNat_natCast, embeddingLoop_eq dim size _ fun i hi => List.mem_range.mp hi]
  simp [List.map_const']

theorem embedding_none_iff (size dim : Int) : New.embedding size dim = none ↔ size < 0 ∨ (dim < 0 ∧ size ≠ 0) := by
  constructor
  · intro h
    by_contra hc
    push_neg at hc
    obtain ⟨hs, hd⟩ := hc
    by_cases hd0 : dim < 0
    · rw [hd hd0] at h
      simp [New.embedding, embeddingLoop] at h
    · obtain ⟨a, rfl⟩ := Int.eq_ofNat_of_zero_le hs
      obtain ⟨b, rfl⟩ := Int.eq_ofNat_of_zero_le (not_lt.mp hd0)
      rw [embedding_new] at h
      cases h
  · intro h
    unfold New.embedding
    rw [if_pos]
    rcases h with h | ⟨h1, h2⟩
    · exact .inr h
    · by_cases hs : size < 0
      · exact .inr hs
      · exact .inl (mul_neg_of_pos_of_neg (by omega) h1)

section Examples

example : newDense [.shape [2, 3], .backing [1, 2, 3, 4, 5, 6]] = some ⟨2, 3, [1, 2, 3, 4, 5, 6]⟩ := by
  rw [(newDense_both (by simp) _).2, if_pos (by simp [ValidShape, rowsOf, colsOf])]
  rfl

example : newDense [.shape [2, 3, 1]] = none := by rw [newDense_shape, if_neg (by simp [ValidShape])]

example : Applies .relu fun x => Max.max 0 x := ⟨rfl, rfl⟩

/-- the hypotheses of `gmlp_new` -/
example (X : Nat → Nat → ℝ) : ∃ m, New.gmlp 3 2 5 4 .identity = some m ∧
    m.forward (seq 2 3 X) = some (seq 5 3 fun i j => if i < 2 then X i j else 0) := by
  obtain ⟨m, h1, -, -, -, -, h2⟩ := gmlp_new 3 2 5 4 6 rfl .identity (f := fun x => x) ⟨rfl, rfl⟩
  exact ⟨m, by simpa using h1, h2 (by omega) 2 (by omega) (by omega) X⟩

example : ∃ l, Conv.newGrads ⟨2, 3, none, false⟩ = some l ∧ l.length = 6 := ⟨_, rfl, rfl⟩

end Examples

end Verif.New
