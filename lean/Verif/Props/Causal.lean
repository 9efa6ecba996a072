import Verif.Props.NetBatch
import Verif.Props.New

set_option autoImplicit false
set_option linter.unusedSimpArgs false

/-!
# Networks that look back only (C86)
-/

namespace Verif.Record
open GradFn Backward Tape Dense
open scoped BigOperators

theorem stateAt_take {S X : Type} (step : S → X → S) (s₀ : S) (xs : List X) {m t : Nat} (ht : t < m) :
    Recurrent.stateAt step s₀ (xs.take m) t = Recurrent.stateAt step s₀ xs t := by
  unfold Recurrent.stateAt
  rw [List.take_take, Nat.min_eq_left (by omega)]

theorem range_take {α : Type} (f g : Nat → α) (n m : Nat) (h : ∀ t < m, t < n → f t = g t) :
    ((List.range n).map f).take m = (List.range (Min.min m n)).map g := by
  rw [← List.map_take, List.take_range]
  refine List.map_congr_left fun t ht => h t ?_ ?_ <;> have := List.mem_range.mp ht <;> omega

/-- The outputs of a causal network on the first inputs are its first outputs. -/
theorem apply_take {i o : Nat} (τ : Nat → Dense ℝ) (N : Net i o) (hc : N.Causal) : ∀ (k : Nat) (xs : List (Nat → ℝ)) (m : Nat),
    N.apply τ k (xs.take m) = (N.apply τ k xs).take m := by
  induction N with
  | attention f i d e => exact hc.elim
  | sum p q | prod p q | avg p q | concat p q => exact hc.elim
  | seq p q ihp ihq => intro k xs m; simp only [Net.apply, ihp hc.1, ihq hc.2]
  | residual p ih => intro k xs m; simp only [Net.apply, ih hc, List.take_zipWith]
  | srn i o | gru i o | lstm i o | lstmRefined d =>
    intro k xs m
    simp only [Net.apply, List.length_take]
    exact (range_take _ _ _ _ fun t ht _ => by rw [stateAt_take _ _ _ ht]).symm
  | causal f i d e =>
    intro k xs m
    simp only [Net.apply, List.length_take]
    refine (range_take _ _ _ _ fun t ht _ => ?_).symm
    have hg : ∀ u ≤ t, (xs.take m).getD u 0 = xs.getD u 0 := by
      intro u hu
      simp [List.getD, List.getElem?_take, show u < m by omega]
    funext j
    refine Finset.sum_congr rfl fun u hu => ?_
    have hu' : u ≤ t := by have := Finset.mem_range.mp hu; omega
    rw [hg t le_rfl, hg u hu']
    congr 1
    unfold weight
    beta_reduce
    rw [hg u hu']
    congr 1
    exact Finset.sum_congr rfl fun s hs => by rw [hg s (by have := Finset.mem_range.mp hs; omega)]
  | _ => intro k xs m; simp only [Net.apply, List.map_take]

/-- The run of a network on `n` inputs that follow its parameters: the values of all tensors, and the numbers of the
outputs. -/
noncomputable def Net.run {i o : Nat} (N : Net i o) (θ : Nat → Dense ℝ) (n : Nat) : Option (List (Dense ℝ)) :=
  Tape.run θ (program N.size n (N.code 0 ((List.range n).map (N.size + ·)))) []

noncomputable def Net.outputs {i o : Nat} (N : Net i o) (n : Nat) : List Nat :=
  (N.code 0 ((List.range n).map (N.size + ·)) (N.size + n)).1

/-- The parameters of a network and `n` inputs of the right sizes. -/
structure Net.Ready {i o : Nat} (N : Net i o) (θ : Nat → Dense ℝ) (n : Nat) : Prop where
  wf : ∀ x < N.size + n, (θ x).WF
  fits : N.Fits θ 0
  inputs : ∀ t < n, (θ (N.size + t)).rows = i ∧ (θ (N.size + t)).cols = 1

/-- **C69, forward pass.** Running the layers computes the function of the network. -/
theorem net_run {i o n : Nat} (N : Net i o) {θ : Nat → Dense ℝ} (hn : 0 < n) (h : N.Ready θ n) :
    ∃ vals, N.run θ n = some vals ∧ (N.outputs n).length = n ∧
      ∀ t < n, ∃ y, (N.outputs n)[t]? = some y ∧ vals[y]? = some (col o ((N.apply θ 0 (vectors θ N.size n)).getD t 0)) := by
  have hlike : ∀ x < N.size + n, (θ x).Like (θ x) := fun x hx => ⟨h.wf x hx, rfl, rfl⟩
  have hi := inputs_start (k := N.size) (j := n) (n := n) (m := 0) (τ := θ) (by omega)
  rw [Nat.add_zero, inputs_cols h.inputs hlike (by omega)] at hi
  have hx : List.Forall₂ (W false (start N.size n θ)) ((List.range n).map (N.size + ·))
      ((vectors θ N.size n).map (col i)) := hi.imp fun _ _ h => h.w
  obtain ⟨st', h1, -, -, h4⟩ := net_sim (s := False) (τ := θ) N (k := 0) (b := false)
    (by rw [← List.length_pos_iff, vectors_length]; exact hn)
    (fun x _ h2 => start_param (by omega)) (fun x _ h2 => h.wf x (by omega)) h.fits (fun h => h.elim) hx
  rw [start_length] at h1 h4
  have hlen : (N.apply θ 0 (vectors θ N.size n)).length = n := by rw [apply_length, vectors_length]
  refine ⟨((start N.size n θ) ++ st').map Prod.fst, run_program.trans h1, ?_, ?_⟩
  · show (N.code 0 _ (N.size + n)).1.length = n
    rw [h4.length_eq, List.length_map, hlen]
  · intro t ht
    obtain ⟨y, hy, f, hv, -⟩ := forall₂_get h4 (t := t) (x := col o ((N.apply θ 0 (vectors θ N.size n)).getD t 0))
      (by simp [List.getD, hlen, ht])
    exact ⟨y, hy, by rw [List.getElem?_map, hv]; rfl⟩

/-- **C86, causality.** Two runs of a causal network with the same parameters whose first `m` inputs are the same have the
same first `m` outputs, however many inputs follow and whatever they are. -/
theorem causal_outputs {i o n n' m : Nat} (N : Net i o) (hc : N.Causal) {θ θ' : Nat → Dense ℝ} (h : N.Ready θ n)
    (h' : N.Ready θ' n') (hm : m ≤ n) (hm' : m ≤ n') (hsame : ∀ x < N.size + m, θ x = θ' x) {t : Nat} (ht : t < m) :
    ∃ vals vals' y y' v, N.run θ n = some vals ∧ N.run θ' n' = some vals' ∧ (N.outputs n)[t]? = some y ∧
      (N.outputs n')[t]? = some y' ∧ vals[y]? = some v ∧ vals'[y']? = some v := by
  obtain ⟨vals, h1, -, h3⟩ := net_run N (by omega) h
  obtain ⟨vals', h1', -, h3'⟩ := net_run N (by omega) h'
  obtain ⟨y, hy, hv⟩ := h3 t (by omega)
  obtain ⟨y', hy', hv'⟩ := h3' t (by omega)
  refine ⟨vals, vals', y, y', _, h1, h1', hy, hy', hv, hv'.trans ?_⟩
  have hpre : ∀ {θ : Nat → Dense ℝ} {n : Nat}, m ≤ n → (N.apply θ 0 (vectors θ N.size n)).getD t 0 =
      (N.apply θ 0 (vectors θ N.size m)).getD t 0 := by
    intro θ n hmn
    have hv : vectors θ N.size m = (vectors θ N.size n).take m := by
      unfold vectors
      rw [← List.map_take, List.take_range, Nat.min_eq_left hmn]
    rw [hv, apply_take θ N hc]
    simp [List.getD, List.getElem?_take, ht]
  rw [hpre hm, hpre hm', apply_congr N (fun x _ hx => hsame x (by omega))]
  have : vectors θ N.size m = vectors θ' N.size m := List.map_congr_left fun u hu => by
    rw [hsame _ (by have := List.mem_range.mp hu; omega)]
  rw [this]

/-- A block of a transformer with one head: attention to the past and two linear layers, each after a normalisation and
with a residual connection. -/
def block (d k h : Nat) (factor : ℝ) : Net d d :=
  .seq (.residual (.seq (.layerNorm 1 d) (.causal factor d k d)))
    (.residual (.seq (.scaleNorm d) (.seq (.linear d h) (.seq (.act .swish h) (.linear h d)))))

/-- The dimensions of its parameters. -/
def blockDims (d k h : Nat) : List (Nat × Nat) :=
  [(d, 1), (d, 1), (k, d), (k, 1), (k, d), (k, 1), (d, d), (d, 1), (d, 1), (h, d), (h, 1), (d, h), (d, 1)]

/-- A block in front of a network looks back only if the network does. -/
theorem block_causal (d k h : Nat) (factor : ℝ) : (block d k h factor).Causal :=
  ⟨⟨trivial, trivial⟩, trivial, trivial, trivial, trivial⟩

/-- Parameters and inputs of the block: all zero, but for inputs of ones. -/
noncomputable def blockData (d k h x : Nat) : Dense ℝ :=
  if x < 13 then zeros ((blockDims d k h).getD x (0, 0)).1 ((blockDims d k h).getD x (0, 0)).2 else col d fun _ => 1

theorem block_ready (d k h n : Nat) (factor : ℝ) : (block d k h factor).Ready (blockData d k h) n := by
  refine ⟨fun x _ => ?_, ?_, fun t _ => ?_⟩
  · unfold blockData
    split
    · exact Dense.zeros_WF _ _
    · exact col_WF _ _
  · exact ⟨⟨⟨⟨rfl, rfl⟩, ⟨rfl, rfl⟩⟩, ⟨rfl, rfl⟩, ⟨rfl, rfl⟩, ⟨rfl, rfl⟩, ⟨rfl, rfl⟩, ⟨rfl, rfl⟩, ⟨rfl, rfl⟩⟩, ⟨rfl, rfl⟩,
      ⟨⟨rfl, rfl⟩, ⟨rfl, rfl⟩⟩, trivial, ⟨⟨rfl, rfl⟩, ⟨rfl, rfl⟩⟩⟩
  · have : (block d k h factor).size = 13 := rfl
    unfold blockData
    rw [if_neg (by omega)]
    exact ⟨rfl, rfl⟩

theorem zero_affine (i r c e : Nat) (x : Nat → ℝ) (j : Nat) : affineMap i (zeros r c) (zeros e 1) x j = 0 := by
  simp only [affineMap, New.zeros_val, New.zeros_el, zero_mul, Finset.sum_const_zero, add_zero]

theorem causal_zero {f : ℝ} {i d e r c r' k : Nat} {τ : Nat → Dense ℝ} {xs : List (Nat → ℝ)} (h4 : τ (k + 4) = zeros r c)
    (h5 : τ (k + 5) = zeros r' 1) : ∀ a ∈ (Net.causal f i d e).apply τ k xs, ∀ j, a j = 0 := by
  intro a ha j
  obtain ⟨t, -, rfl⟩ := List.mem_map.mp ha
  simp only [h4, h5, zero_affine, mul_zero, Finset.sum_const_zero]

theorem zipWith_mem {α β γ : Type} {f : α → β → γ} {x : γ} : ∀ {l : List α} {l' : List β}, x ∈ List.zipWith f l l' →
    ∃ a ∈ l, ∃ b ∈ l', x = f a b
  | [], _, h => by simp at h
  | _ :: _, [], h => by simp at h
  | a :: l, b :: l', h => by
    rw [List.zipWith_cons_cons, List.mem_cons] at h
    rcases h with rfl | h
    · exact ⟨a, by simp, b, by simp, rfl⟩
    · obtain ⟨a, ha, b, hb, h⟩ := zipWith_mem h
      exact ⟨a, by simp [ha], b, by simp [hb], h⟩

theorem blockData_input (d k h t : Nat) (factor : ℝ) :
    blockData d k h ((block d k h factor).size + t) = col d fun _ => 1 := by
  have hs : (block d k h factor).size = 13 := rfl
  unfold blockData
  rw [if_neg (by omega)]

/-- Five more inputs after the first three do not matter: the first three outputs are the same. -/
example (d k h : Nat) (factor : ℝ) : ∃ vals vals' y y' v, (block d k h factor).run (blockData d k h) 8 = some vals ∧
    (block d k h factor).run (blockData d k h) 3 = some vals' ∧ ((block d k h factor).outputs 8)[2]? = some y ∧
      ((block d k h factor).outputs 3)[2]? = some y' ∧ vals[y]? = some v ∧ vals'[y']? = some v :=
  causal_outputs _ (block_causal d k h factor) (block_ready d k h 8 factor) (block_ready d k h 3 factor) (m := 3)
    (by omega) (by omega) (fun _ _ => rfl) (by omega)

/-- The block is trained on sequences of every length; the roots of `scaleNorm` are away from 0 because the
inputs are. -/
example (d k h n : Nat) (hd : 0 < d) (hn : 0 < n) (factor : ℝ) : ∃ θ : Nat → Dense ℝ,
    Trains 13 (program 13 (n + n) (withError 13 n true ((block d k h factor).code 0)))
      (result 13 (n + n) (withError 13 n true ((block d k h factor).code 0)))
      (fun τ => some (scalar ((block d k h factor).error n true τ))) θ := by
  have hs : (block d k h factor).size = 13 := rfl
  refine ⟨blockData d k h, net_trains (block d k h factor) true (by rw [hs]; omega) hn
      (fun x hx => (block_ready d k h (n + n) factor).wf x hx) (block_ready d k h n factor).fits ?_
      (block_ready d k h n factor).inputs ?_⟩
  · refine ⟨⟨fun x _ => ?_, trivial⟩, ?_, trivial, fun _ _ _ _ => trivial, trivial⟩
    · have := variance_nonneg d x
      linarith
    · intro x hx
      refine ⟨0, hd, ?_⟩
      obtain ⟨a, ha, b, hb, rfl⟩ := zipWith_mem hx
      obtain ⟨t, ht, rfl⟩ := List.mem_map.mp hb
      beta_reduce
      rw [causal_zero (f := factor) (i := d) (d := k) (e := d) (r := d) (c := d) (r' := d) (k := 2) (τ := blockData d k h) rfl rfl a ha,
        zero_add, blockData_input, col_val _ hd]
      exact one_ne_zero
  · intro t ht
    rw [Nat.add_assoc, blockData_input]
    exact ⟨rfl, rfl⟩

end Verif.Record
