import Verif.Props.RecordNets
import Verif.Props.Recurrent

set_option autoImplicit false
set_option linter.unusedSimpArgs false

/-!
# Training recurrent networks

Back-propagation through time: for sequences of every length, `Backward` of the error of a simple recurrent
network, a GRU or an LSTM leaves the partial derivatives of the error in the parameters, and gradient descent
reduces the error. The error is given by the recurrences of Spec/Recurrent.lean.
-/

namespace Verif.Record
open GradFn Backward Tape Dense
open scoped BigOperators

theorem sum_range_list (f : Nat → ℝ) : ∀ n, ((List.range n).map f).sum = ∑ t ∈ Finset.range n, f t
  | 0 => rfl
  | n + 1 => by
    rw [List.range_succ, List.map_append, List.sum_append, sum_range_list f n, Finset.sum_range_succ]; simp

theorem mseSeq_cols {o n : Nat} (hn : 0 < n) (v z : Nat → Nat → ℝ) (mean : Bool) :
    Losses.mseSeq ((List.range n).map fun t => col o (v t)) ((List.range n).map fun t => col o (z t)) mean =
      some (scalar (squaredError o n mean v z)) := by
  rw [Losses.mseSeq_eq]
  · rw [List.zip_map', List.map_map, List.length_map, List.length_range]
    unfold squaredError
    congr 3
    rw [← sum_range_list]
    congr 1
    refine List.map_congr_left fun t _ => ?_
    simp only [Function.comp]
    have hl : (col o (v t)).data.length = o := by simp [col]
    rw [hl]
    refine Finset.sum_congr rfl fun j hj => ?_
    rw [col_val _ (Finset.mem_range.mp hj), col_val _ (Finset.mem_range.mp hj)]
  · intro h
    have := congrArg List.length h
    simp at this; omega
  · simp
  · intro p hp
    rw [List.zip_map'] at hp
    obtain ⟨t, -, rfl⟩ := List.mem_map.mp hp
    exact ⟨col_WF _ _, col_WF _ _, by simp [sameDims, col]⟩

theorem inputs_start {k j n m : Nat} {τ : Nat → Dense ℝ} (h : m + n ≤ j) :
    Inputs (start k j τ) ((List.range n).map (k + m + ·)) ((List.range n).map fun t => τ (k + m + t)) := by
  unfold Inputs
  rw [List.forall₂_map_left_iff, List.forall₂_map_right_iff, List.forall₂_same]
  intro t ht
  rw [List.mem_range] at ht
  have := start_input (θ := τ) (k := k) (j := j) (i := m + t) (by omega)
  rwa [← Nat.add_assoc] at this

/-- A sequence model that is right on all parameters of the given dimensions is trained on the squared error. -/
theorem trains_seq {k n o : Nat} {mean : Bool} {code : List Nat → B (List Nat)}
    {model : (Nat → Dense ℝ) → List (Dense ℝ) → Option (List (Dense ℝ))} {out : (Nat → Dense ℝ) → Nat → Nat → ℝ}
    {θ : Nat → Dense ℝ} (hθ : ∀ i < k + (n + n), (θ i).WF) (hn : 0 < n)
    (htgt : ∀ t < n, (θ (k + n + t)).rows = o ∧ (θ (k + n + t)).cols = 1)
    (hsim : ∀ τ st is xs, (∀ i < k, D st i (τ i)) → Inputs st is xs →
      Sim (τ = θ) τ st (code is) (model τ xs) Outputs)
    (hval : ∀ τ, (∀ i < k + (n + n), (θ i).Like (τ i)) →
      model τ ((List.range n).map fun t => τ (k + t)) = some ((List.range n).map fun t => col o (out τ t))) :
    Trains k (program k (n + n) (withError k n mean code)) (result k (n + n) (withError k n mean code))
      (fun τ => some (scalar (squaredError o n mean (out τ) fun t => (τ (k + n + t)).val))) θ := by
  refine trains_of_sim hθ ?_ rfl rfl
  intro τ hlike
  have htg : (List.range n).map (fun t => τ (k + n + t)) = (List.range n).map fun t => col o (τ (k + n + t)).val := by
    refine List.map_congr_left fun t ht => ?_
    rw [List.mem_range] at ht
    have hl := hlike (k + n + t) (by omega)
    obtain ⟨h1, h2⟩ := htgt t ht
    rw [← hl.rows] at h1
    rw [← hl.cols] at h2
    rw [← h1]; exact eq_col hl.wf h2
  have hloss : (do
      let ys ← model τ ((List.range n).map fun t => τ (k + t))
      Losses.mseSeq ys ((List.range n).map fun t => τ (k + n + t)) mean) =
      some (scalar (squaredError o n mean (out τ) fun t => (τ (k + n + t)).val)) := by
    rw [hval τ hlike, htg]
    exact mseSeq_cols hn _ _ _
  rw [← hloss]
  have hi := inputs_start (k := k) (j := n + n) (n := n) (m := 0) (τ := τ) (by omega)
  rw [Nat.add_zero] at hi
  refine Sim.bind (hsim τ _ _ _ (fun i hi => start_param hi) hi) fun st₁ ys Ys _ h => ?_
  have ht := Inputs.mono (inputs_start (k := k) (j := n + n) (n := n) (m := n) (τ := τ) (by omega)) st₁
  refine (lossSeq_sim (T := fun q => q.cols = 1) (fun st p P t Q hp hq hc => mse_sim hp hq hc) h ht ?_).weaken ?_
  · intro q hq
    rw [htg] at hq
    obtain ⟨t, -, rfl⟩ := List.mem_map.mp hq
    rfl
  · intro st₂ a b _ h
    refine ⟨h.1, le_trans ?_ h.2⟩
    rw [List.length_append, start_length]; omega

theorem gateOK_of {i o k K : Nat} {θ τ : Nat → Dense ℝ} (h : GateDims i o θ k) (hl : ∀ x < K, (θ x).Like (τ x))
    (hk : k + 2 < K) : Recurrent.GateOK i o (gateOf τ k) := by
  have l0 := hl k (by omega)
  have l1 := hl (k + 1) (by omega)
  have l2 := hl (k + 2) hk
  exact ⟨⟨l0.wf, l0.rows.trans h.w.1, l0.cols.trans h.w.2⟩, ⟨l1.wf, l1.rows.trans h.wRec.1, l1.cols.trans h.wRec.2⟩,
    ⟨l2.wf, l2.rows.trans h.b.1, l2.cols.trans h.b.2⟩⟩

theorem isGate_of {k K : Nat} {st : State} {τ : Nat → Dense ℝ} (h : ∀ i < K, D st i (τ i)) (hk : k + 2 < K) :
    IsGate st (gateAt k) (gateOf τ k) := ⟨h k (by omega), h (k + 1) (by omega), h (k + 2) hk⟩

theorem inputs_cols {i k n K : Nat} {θ τ : Nat → Dense ℝ}
    (hin : ∀ t < n, (θ (k + t)).rows = i ∧ (θ (k + t)).cols = 1) (hl : ∀ x < K, (θ x).Like (τ x)) (hk : k + n ≤ K) :
    ((List.range n).map fun t => τ (k + t)) = (vectors τ k n).map (col i) := by
  unfold vectors
  rw [List.map_map]
  refine List.map_congr_left fun t ht => ?_
  rw [List.mem_range] at ht
  have h := hl (k + t) (by omega)
  obtain ⟨h1, h2⟩ := hin t ht
  rw [← h.rows] at h1
  rw [← h.cols] at h2
  simp only [Function.comp]
  rw [← h1]; exact eq_col h.wf h2

theorem vectors_length (τ : Nat → Dense ℝ) (k n : Nat) : (vectors τ k n).length = n := by simp [vectors]

/-- **C68.** Training a simple recurrent network on sequences of any length. -/
theorem srn_trains {i o n : Nat} (mean : Bool) {θ : Nat → Dense ℝ} (hn : 0 < n) (hθ : ∀ x < 3 + (n + n), (θ x).WF)
    (hg : GateDims i o θ 0) (hin : ∀ t < n, (θ (3 + t)).rows = i ∧ (θ (3 + t)).cols = 1)
    (htgt : ∀ t < n, (θ (3 + n + t)).rows = o ∧ (θ (3 + n + t)).cols = 1) :
    Trains 3 (program 3 (n + n) (srnCode n mean)) (result 3 (n + n) (srnCode n mean))
      (fun τ => some (scalar (srnError i o n mean τ))) θ := by
  refine trains_seq (model := fun τ xs => Recurrent.forward (Recurrent.srnNext (gateOf τ 0)) id xs)
    (out := fun τ => Recurrent.stateAt (Recurrent.srnStep i o (gateOf τ 0)) 0 (vectors τ 3 n)) hθ hn htgt ?_ ?_
  · intro τ st is xs hD hi
    exact srn_forward (isGate_of hD (by omega)) hi
  · intro τ hl
    rw [inputs_cols hin hl (by omega), Recurrent.srn_forward (gateOK_of hg hl (by omega)), vectors_length]

/-- **C68.** Training a GRU. -/
theorem gru_trains {i o n : Nat} (mean : Bool) {θ : Nat → Dense ℝ} (hn : 0 < n) (hθ : ∀ x < 9 + (n + n), (θ x).WF)
    (h0 : GateDims i o θ 0) (h1 : GateDims i o θ 3) (h2 : GateDims i o θ 6)
    (hin : ∀ t < n, (θ (9 + t)).rows = i ∧ (θ (9 + t)).cols = 1)
    (htgt : ∀ t < n, (θ (9 + n + t)).rows = o ∧ (θ (9 + n + t)).cols = 1) :
    Trains 9 (program 9 (n + n) (gruCode n mean)) (result 9 (n + n) (gruCode n mean))
      (fun τ => some (scalar (gruError i o n mean τ))) θ := by
  refine trains_seq (model := fun τ xs => Recurrent.forward
      (Recurrent.gruNext ⟨gateOf τ 0, gateOf τ 3, gateOf τ 6⟩) Recurrent.GRUState.y xs)
    (out := fun τ t => (Recurrent.stateAt (Recurrent.gruStep i o ⟨gateOf τ 0, gateOf τ 3, gateOf τ 6⟩)
      Recurrent.gruZero (vectors τ 9 n) t).y) hθ hn htgt ?_ ?_
  · intro τ st is xs hD hi
    exact gru_forward ⟨isGate_of hD (by omega), isGate_of hD (by omega), isGate_of hD (by omega)⟩ hi
  · intro τ hl
    rw [inputs_cols hin hl (by omega), Recurrent.gru_forward (gateOK_of h0 hl (by omega)) (gateOK_of h1 hl (by omega))
      (gateOK_of h2 hl (by omega)), vectors_length]

/-- **C68.** Training an LSTM, with and without refined gates. -/
theorem lstm_trains {i o n : Nat} (refined mean : Bool) {θ : Nat → Dense ℝ} (hr : refined = true → i = o) (hn : 0 < n)
    (hθ : ∀ x < 12 + (n + n), (θ x).WF)
    (h0 : GateDims i o θ 0) (h1 : GateDims i o θ 3) (h2 : GateDims i o θ 6) (h3 : GateDims i o θ 9)
    (hin : ∀ t < n, (θ (12 + t)).rows = i ∧ (θ (12 + t)).cols = 1)
    (htgt : ∀ t < n, (θ (12 + n + t)).rows = o ∧ (θ (12 + n + t)).cols = 1) :
    Trains 12 (program 12 (n + n) (lstmCode refined n mean)) (result 12 (n + n) (lstmCode refined n mean))
      (fun τ => some (scalar (lstmError refined i o n mean τ))) θ := by
  refine trains_seq (model := fun τ xs => Recurrent.forward
      (Recurrent.lstmNext ⟨refined, gateOf τ 0, gateOf τ 3, gateOf τ 6, gateOf τ 9⟩) Recurrent.LSTMState.y xs)
    (out := fun τ t => (Recurrent.stateAt (Recurrent.lstmStep i o ⟨refined, gateOf τ 0, gateOf τ 3, gateOf τ 6, gateOf τ 9⟩)
      Recurrent.lstmZero (vectors τ 12 n) t).y) hθ hn htgt ?_ ?_
  · intro τ st is xs hD hi
    exact lstm_forward ⟨rfl, isGate_of hD (by omega), isGate_of hD (by omega), isGate_of hD (by omega),
      isGate_of hD (by omega)⟩ hi
  · intro τ hl
    rw [inputs_cols hin hl (by omega), Recurrent.lstm_forward ⟨gateOK_of h0 hl (by omega), gateOK_of h1 hl (by omega),
      gateOK_of h2 hl (by omega), gateOK_of h3 hl (by omega), hr⟩, vectors_length]

/-- Networks of all sizes exist: zero weights, inputs and targets. -/
example (i o n : Nat) (hn : 0 < n) : ∃ θ : Nat → Dense ℝ,
    Trains 12 (program 12 (n + n) (lstmCode false n true)) (result 12 (n + n) (lstmCode false n true))
      (fun τ => some (scalar (lstmError false i o n true τ))) θ :=
  ⟨fun x => if x < 12 then (if x % 3 = 0 then zeros o i else if x % 3 = 1 then zeros o o else zeros o 1) else
      if x < 12 + n then zeros i 1 else zeros o 1,
    lstm_trains false true (by simp) hn (fun x _ => by split_ifs <;> exact Dense.zeros_WF _ _)
      ⟨⟨rfl, rfl⟩, ⟨rfl, rfl⟩, ⟨rfl, rfl⟩⟩ ⟨⟨rfl, rfl⟩, ⟨rfl, rfl⟩, ⟨rfl, rfl⟩⟩
      ⟨⟨rfl, rfl⟩, ⟨rfl, rfl⟩, ⟨rfl, rfl⟩⟩ ⟨⟨rfl, rfl⟩, ⟨rfl, rfl⟩, ⟨rfl, rfl⟩⟩
      (fun t ht => by rw [if_neg (by omega), if_pos (by omega)]; exact ⟨rfl, rfl⟩)
      (fun t ht => by rw [if_neg (by omega), if_neg (by omega)]; exact ⟨rfl, rfl⟩)⟩

end Verif.Record
