import Verif.Props.Batch
import Verif.Props.Network

set_option autoImplicit false
set_option linter.unusedSimpArgs false

/-!
# Training networks of layers on batches of sequences
-/

namespace Verif.Record
open GradFn Backward Tape Dense
open scoped BigOperators Topology

theorem apply_congr {i o : Nat} {τ τ' : Nat → Dense ℝ} (N : Net i o) : ∀ {k : Nat},
    (∀ x, k ≤ x → x < k + N.size → τ x = τ' x) → ∀ xs, N.apply τ k xs = N.apply τ' k xs := by
  induction N with
  | residual p ih => intro k h xs; simp only [Net.apply, ih h]
  | seq p q ihp ihq | sum p q ihp ihq | prod p q ihp ihq | avg p q ihp ihq | concat p q ihp ihq =>
    intro k h xs
    simp only [Net.size] at h
    simp only [Net.apply, ihp (fun x h1 h2 => h x h1 (by omega)), ihq (k := k + p.size) (fun x h1 h2 => h x (by omega) (by omega))]
  | _ =>
    intro k h xs
    simp only [Net.size] at h
    simp (discharger := omega) only [Net.apply, gateOf, h]

theorem regular_congr {i o : Nat} {τ τ' : Nat → Dense ℝ} (N : Net i o) : ∀ {k : Nat},
    (∀ x, k ≤ x → x < k + N.size → τ x = τ' x) → ∀ {xs}, N.Regular τ k xs → N.Regular τ' k xs := by
  induction N with
  | residual p ih => intro k h xs; simp only [Net.Regular]; exact ih h
  | seq p q ihp ihq =>
    intro k h xs hr
    simp only [Net.size] at h
    have hp : ∀ x, k ≤ x → x < k + p.size → τ x = τ' x := fun x h1 h2 => h x h1 (by omega)
    rw [Net.Regular, apply_congr p hp] at hr
    exact ⟨ihp hp hr.1, ihq (fun x h1 h2 => h x (by omega) (by omega)) hr.2⟩
  | sum p q ihp ihq | prod p q ihp ihq | avg p q ihp ihq | concat p q ihp ihq =>
    intro k h xs hr
    simp only [Net.size] at h
    exact ⟨ihp (fun x h1 h2 => h x h1 (by omega)) hr.1, ihq (fun x h1 h2 => h x (by omega) (by omega)) hr.2⟩
  | _ =>
    intro k h xs
    simp only [Net.size] at h
    simp (discharger := omega) only [Net.Regular, h, imp_self]

/-- One sequence of a batch: its length, its inputs and the expected outputs. -/
structure Series where
  len : Nat
  inp : Nat → Dense ℝ
  tgt : Nat → Dense ℝ

/-- The tensors of a sequence, after `k` parameters: first the inputs, then the targets. -/
def Series.data (q : Series) (k x : Nat) : Dense ℝ := if x < k + q.len then q.inp (x - k) else q.tgt (x - (k + q.len))

/-- The sample of a sequence: the outputs of the network and `losses.MSESeq`. -/
noncomputable def Series.sample {i o : Nat} (q : Series) (N : Net i o) (mean : Bool) : Sample :=
  ⟨q.len + q.len, withError N.size q.len mean (N.code 0), q.data N.size⟩

/-- The input vectors. -/
noncomputable def Series.inputs (q : Series) : List (Nat → ℝ) := (List.range q.len).map fun t => (q.inp t).val

/-- A sequence of vectors of the right sizes at which the network has a derivative. -/
structure Series.Ok {i o : Nat} (q : Series) (N : Net i o) (w : Nat → Dense ℝ) : Prop where
  pos : 0 < q.len
  inp : ∀ t < q.len, (q.inp t).WF ∧ (q.inp t).rows = i ∧ (q.inp t).cols = 1
  tgt : ∀ t < q.len, (q.tgt t).WF ∧ (q.tgt t).rows = o ∧ (q.tgt t).cols = 1
  regular : N.Regular w 0 q.inputs

/-- The error of the network with the parameters `w` on a sequence. -/
noncomputable def Series.error {i o : Nat} (q : Series) (N : Net i o) (mean : Bool) (w : Nat → Dense ℝ) : ℝ :=
  squaredError o q.len mean (fun t => (N.apply w 0 q.inputs).getD t 0) fun t => (q.tgt t).val

/-- The loss of any sample. -/
noncomputable def netLoss {i o : Nat} (N : Net i o) (mean : Bool) (e : Sample) (τ : Nat → Dense ℝ) : Option (Dense ℝ) :=
  some (scalar (N.error (e.inputs / 2) mean τ))

theorem series_vectors (q : Series) (k : Nat) (w : Nat → Dense ℝ) :
    vectors (withParams k w (q.data k)) k q.len = q.inputs := by
  refine List.map_congr_left fun t ht => ?_
  have ht := List.mem_range.mp ht
  unfold withParams Series.data
  rw [if_neg (by omega), if_pos (by omega), Nat.add_sub_cancel_left]

theorem series_tgt (q : Series) (k t : Nat) (w : Nat → Dense ℝ) : withParams k w (q.data k) (k + q.len + t) = q.tgt t := by
  unfold withParams Series.data
  rw [if_neg (by omega), if_neg (by omega), Nat.add_sub_cancel_left]

theorem series_inp (q : Series) (k : Nat) {t : Nat} (ht : t < q.len) (w : Nat → Dense ℝ) :
    withParams k w (q.data k) (k + t) = q.inp t := by
  unfold withParams Series.data
  rw [if_neg (by omega), if_pos (by omega), Nat.add_sub_cancel_left]

theorem series_param {i o : Nat} (q : Series) (N : Net i o) (w : Nat → Dense ℝ) :
    ∀ x, 0 ≤ x → x < 0 + N.size → withParams N.size w (q.data N.size) x = w x := fun x _ h =>
  withParams_lt (by omega) _ _

theorem series_error {i o : Nat} (q : Series) (N : Net i o) (mean : Bool) (w : Nat → Dense ℝ) :
    number (lossOf N.size (netLoss N mean) (q.sample N mean) w) = q.error N mean w := by
  have e : (q.len + q.len) / 2 = q.len := by omega
  show N.error ((q.len + q.len) / 2) mean (withParams N.size w (q.data N.size)) = _
  unfold Net.error Series.error
  rw [e, series_vectors, apply_congr N (series_param q N w)]
  simp only [series_tgt]

/-- Every network trains on every sequence of a batch. -/
theorem series_trains {i o : Nat} (N : Net i o) (mean : Bool) {w : Nat → Dense ℝ} (hsz : 0 < N.size)
    (hw : ∀ x < N.size, (w x).WF) (hf : N.Fits w 0) {batch : List Series} (hb : ∀ q ∈ batch, q.Ok N w) :
    AllTrain N.size (netLoss N mean) w (batch.map (·.sample N mean)) := by
  intro e he
  obtain ⟨q, hq, rfl⟩ := List.mem_map.mp he
  obtain ⟨h1, h2, h3, h4⟩ := hb q hq
  have e : (q.len + q.len) / 2 = q.len := by omega
  have hl : netLoss N mean (q.sample N mean) = fun τ => some (scalar (N.error q.len mean τ)) := by
    funext τ
    show some (scalar (N.error ((q.len + q.len) / 2) mean τ)) = _
    rw [e]
  rw [hl]
  refine net_trains N mean (θ := withParams N.size w (q.data N.size)) hsz h1 (fun x hx => ?_) ?_ ?_ (fun t ht => ?_) fun t ht => ?_
  · by_cases ha : x < N.size
    · rw [withParams_lt ha]; exact hw x ha
    · by_cases hb : x < N.size + q.len
      · obtain ⟨t, rfl⟩ := Nat.exists_eq_add_of_le (Nat.le_of_not_lt ha)
        rw [series_inp q _ (by omega)]; exact (h2 t (by omega)).1
      · obtain ⟨t, rfl⟩ := Nat.exists_eq_add_of_le (Nat.le_of_not_lt hb)
        rw [series_tgt]; exact (h3 t (by omega)).1
  · refine hf.like N fun x h1 h2 => ?_
    rw [series_param q N w x h1 h2]
    exact ⟨hw x (by omega), rfl, rfl⟩
  · rw [series_vectors]
    exact regular_congr N (fun x h1 h2 => (series_param q N w x h1 h2).symm) h4
  · rw [series_inp q _ ht]; exact (h2 t ht).2
  · rw [series_tgt]; exact (h3 t ht).2

/-- **C70, batches of sequences.** Training any network of layers on any batch of sequences of any lengths: the loop
ends, and what it adds to the gradients is the gradient of the sum of the errors of all sequences. -/
theorem net_batch_gradient {i o : Nat} (N : Net i o) (mean : Bool) {w : Nat → Dense ℝ} (hsz : 0 < N.size)
    (hw : ∀ x < N.size, (w x).WF) (hf : N.Fits w 0) {batch : List Series} (hb : ∀ q ∈ batch, q.Ok N w)
    (γ : Nat → Option (Nat → ℝ)) :
    (∃ γ', Learn N.size w (batch.map (·.sample N mean)) γ γ') ∧
    ∀ γ', Learn N.size w (batch.map (·.sample N mean)) γ γ' → ∀ l < N.size, ∀ j < (w l).data.length,
      HasDerivAt (fun t => (batch.map fun q => q.error N mean (moved w l j t)).sum) (gnum (γ' l) j - gnum (γ l) j) 0 := by
  have hat := series_trains N mean hsz hw hf hb
  refine ⟨learn_ends hat γ, fun γ' hl l hlk j hj => ?_⟩
  have := batch_partial_derivative hw hat hl hlk hj
  simpa only [List.map_map, Function.comp_def, series_error] using this

/-- **C70, descent on batches of sequences.** If the gradients are not all zero, one step of SGD with a small enough
rate reduces the sum of the errors of all sequences. -/
theorem net_batch_descends {i o : Nat} (N : Net i o) (mean : Bool) {w : Nat → Dense ℝ} (hsz : 0 < N.size)
    (hw : ∀ x < N.size, (w x).WF) (hf : N.Fits w 0) {batch : List Series} (hb : ∀ q ∈ batch, q.Ok N w)
    {γ : Nat → Option (Nat → ℝ)} (hl : Learn N.size w (batch.map (·.sample N mean)) (fun _ => none) γ)
    (hne : ∃ l < N.size, ∃ j < (w l).data.length, gnum (γ l) j ≠ 0) :
    ∃ ε > 0, ∀ α, 0 < α → α < ε → ∀ τ : Nat → Dense ℝ, (∀ x < N.size, SgdStep α (w x) (γ x) (τ x)) →
      (batch.map fun q => q.error N mean τ).sum < (batch.map fun q => q.error N mean w).sum := by
  obtain ⟨ε, h0, h⟩ := batch_descends hw (series_trains N mean hsz hw hf hb) hl hne
  refine ⟨ε, h0, fun α ha hα τ hτ => ?_⟩
  have := (h α ha hα τ hτ).2
  simpa only [List.map_map, Function.comp_def, series_error] using this

/-- The hypotheses can be met: a linear layer and two sequences of lengths 1 and 2, with a gradient that is not zero. -/
theorem two_sequences : ∃ γ, Learn 2 (fun _ => scalar 0)
      ([(⟨1, fun _ => scalar 1, fun _ => scalar 2⟩ : Series), ⟨2, fun _ => scalar 1, fun _ => scalar 3⟩].map
        (·.sample (.linear 1 1) false)) (fun _ => none) γ ∧ gnum (γ 1) 0 = -8 := by
  have hb : ∀ q ∈ [(⟨1, fun _ => scalar 1, fun _ => scalar 2⟩ : Series), ⟨2, fun _ => scalar 1, fun _ => scalar 3⟩],
      q.Ok (.linear 1 1) (fun _ => scalar (0 : ℝ)) := by
    intro q hq
    simp only [List.mem_cons, List.not_mem_nil, or_false] at hq
    rcases hq with rfl | rfl <;>
      exact ⟨by simp, fun _ _ => ⟨rfl, rfl, rfl⟩, fun _ _ => ⟨rfl, rfl, rfl⟩, trivial⟩
  obtain ⟨⟨γ, hl⟩, h⟩ := net_batch_gradient (.linear 1 1) false (w := fun _ => scalar (0 : ℝ)) (by simp [Net.size])
    (fun _ _ => rfl) ⟨⟨rfl, rfl⟩, rfl, rfl⟩ hb (fun _ => none)
  refine ⟨γ, hl, ?_⟩
  have hd := h γ hl 1 (by simp [Net.size]) 0 (by simp [scalar])
  have e : (fun t => (List.map (fun q : Series => q.error (.linear 1 1) false (moved (fun _ => scalar (0 : ℝ)) 1 0 t))
      [(⟨1, fun _ => scalar 1, fun _ => scalar 2⟩ : Series), ⟨2, fun _ => scalar 1, fun _ => scalar 3⟩]).sum) =
      fun t : ℝ => (t - 2) ^ 2 / 2 + (t - 3) ^ 2 := by
    funext t
    simp [Series.error, Series.inputs, squaredError, Net.apply, affineMap, moved, bump, scalar, Dense.val, Dense.el, Dense.at2, Finset.sum_range_succ,
      List.range_succ]
    try ring
  rw [e] at hd
  have hd' : HasDerivAt (fun t : ℝ => (t - 2) ^ 2 / 2 + (t - 3) ^ 2) (-8) 0 := by
    refine (((((hasDerivAt_id (0 : ℝ)).sub_const 2).pow 2).div_const 2).add
      (((hasDerivAt_id (0 : ℝ)).sub_const 3).pow 2)).congr_deriv ?_
    norm_num
  have := hd.unique hd'
  simpa [gnum] using this

end Verif.Record
