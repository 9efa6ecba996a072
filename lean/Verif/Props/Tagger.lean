import Verif.Spec.Tagger
import Verif.Props.NetworkCrf
import Verif.Props.NetBatch
import Verif.Props.BatchOf

set_option autoImplicit false
set_option linter.unusedSimpArgs false

/-!
# Training taggers: embeddings, a network and a loss, on batches of sentences
-/

namespace Verif.Record
open GradFn Backward Tape Dense CrfSpec
open scoped BigOperators

variable {s : Prop} {τ θ w : Nat → Dense ℝ} {st : State}

theorem checkInput_ints {size : Nat} : ∀ {l : List Nat}, (∀ x ∈ l, x < size) → Embedding.checkInput size (ints l) = true
  | [], _ => rfl
  | x :: l, h => by
    have hx := h x (by simp)
    have ih := checkInput_ints (size := size) (l := l) fun y hy => h y (by simp [hy])
    unfold ints at ih
    simp only [ints, List.map_cons, Embedding.checkInput]
    rw [if_neg (by omega)]
    exact ih

theorem encodeWords_eq {base size : Nat} {l : List Nat} (h : ∀ x ∈ l, x < size) :
    encodeWords base size (ints l) = pure (l.map (base + ·)) := by
  rw [encodeWords, if_pos (checkInput_ints h), ints, List.map_map]
  rfl

/-- The vectors of the words, and the network on them. -/
theorem net_words {i o k base size : Nat} (N : Net i o) {q : Sentence} (hb : N.size ≤ base) (hk : base + size ≤ k)
    (hf : N.Fits θ 0) (hq : q.words ≠ []) (hwd : ∀ x ∈ q.words, x < size) (hr : N.Regular θ 0 (q.vectors base θ))
    (hdim : ∀ x < size, (θ (base + x)).rows = i ∧ (θ (base + x)).cols = 1)
    (hlike : ∀ x < k + 0, (θ x).Like (τ x)) :
    Sim (τ = θ) τ (start k 0 τ) (encodeWords base size (ints q.words) >>= N.code 0)
      (some ((N.apply τ 0 (q.vectors base τ)).map (col o))) Outputs := by
  rw [encodeWords_eq hwd]
  have hx : List.Forall₂ (W true (start k 0 τ)) (q.words.map (base + ·)) ((q.vectors base τ).map (col i)) := by
    unfold Sentence.vectors
    rw [List.map_map, List.forall₂_map_left_iff, List.forall₂_map_right_iff, List.forall₂_same]
    intro x hx
    have hl := hlike (base + x) (by have := hwd x hx; omega)
    obtain ⟨h1, h2⟩ := hdim x (hwd x hx)
    rw [← hl.rows] at h1
    rw [← hl.cols] at h2
    have hd : D (start k 0 τ) (base + x) (τ (base + x)) := start_param (by have := hwd x hx; omega)
    have e : τ (base + x) = col i (τ (base + x)).val := (eq_col hl.wf h2).trans (congrArg (fun r => col r _) h1)
    have hd' : D (start k 0 τ) (base + x) (col i (τ (base + x)).val) := by rw [← e]; exact hd
    exact hd'.w true
  have hsim := net_sim (s := τ = θ) (τ := τ) N (k := 0) (b := true)
    (by simpa [Sentence.vectors] using hq)
    (fun x _ h2 => start_param (by omega)) (fun x _ h2 => (hlike x (by omega)).wf)
    (hf.like N fun x _ h2 => hlike x (by omega)) (fun h => by subst h; exact hr) hx
  exact hsim.weaken fun _ _ _ _ h => h.imp fun _ _ h => h.dOf (by simp)

/-- A tagger with a random field trains on a sentence. -/
theorem sentence_crf_trains {i o size : Nat} (N : Net i o) {q : Sentence} {θ : Nat → Dense ℝ}
    (hθ : ∀ x < N.size + 1 + size, (θ x).WF) (hf : N.Fits θ 0)
    (htr : (θ N.size).rows = o + 1 ∧ (θ N.size).cols = o + 1)
    (hdim : ∀ x < size, (θ (N.size + 1 + x)).rows = i ∧ (θ (N.size + 1 + x)).cols = 1)
    (hq : q.Ok N (N.size + 1) size θ) :
    Trains (N.size + 1 + size) ((q.crfSample N size).program (N.size + 1 + size))
      ((q.crfSample N size).result (N.size + 1 + size)) (fun τ => some (scalar (q.crfError N τ))) θ := by
  have hpos : 0 < q.words.length := List.length_pos_iff.mpr hq.pos
  have ho : 0 < o := by
    obtain ⟨y, hy⟩ := List.exists_mem_of_length_pos (by rw [hq.len]; exact hpos : 0 < q.labels.length)
    exact lt_of_le_of_lt (Nat.zero_le _) (hq.labels y hy)
  refine trains_of_sim (j := 0) (c := (q.crfSample N size).code) hθ ?_ rfl rfl
  intro τ hlike
  have hl := hlike N.size (by omega)
  have hw : Trans (τ N.size) o := ⟨hl.wf, by rw [hl.rows]; exact htr.1, by rw [hl.cols]; exact htr.2⟩
  have hal : (N.apply τ 0 (q.vectors (N.size + 1) τ)).length = q.words.length := by
    rw [apply_length, Sentence.vectors, List.length_map]
  have hnet := net_words (k := N.size + 1 + size) N (by omega) (le_refl _) hf hq.pos hq.words hq.regular hdim hlike
  have hcode : (q.crfSample N size).code = (encodeWords (N.size + 1) size (ints q.words) >>= N.code 0) >>= fun ys =>
      crfLoss N.size o ys (ints q.labels) := by
    rw [Sentence.crfSample, encodeWords_eq hq.words]; rfl
  rw [hcode]
  refine bindSome hnet fun st₁ ys hys => ?_
  have htp : D (start (N.size + 1 + size) 0 τ) N.size (τ N.size) := start_param (by omega)
  refine (crfLoss_sim ho hw (htp.mono st₁) ?_ (by rw [hal, hq.len]) hq.labels hys).weaken
    fun st₂ a b _ h => ⟨h.1, le_trans ?_ h.2⟩
  · rw [← List.length_pos_iff]; omega
  · rw [List.length_append, start_length]; omega

theorem ints_range {l : List Nat} {n : Nat} (h : l.length = n) :
    ints l = (List.range n).map fun t => ((l.getD t 0 : Nat) : Int) := by
  subst h
  unfold ints
  conv_lhs => rw [list_range 0 l, List.map_map]
  rfl

/-- A tagger that classifies every word trains on a sentence; equal scores are no exception. -/
theorem sentence_classes_train {i o size : Nat} (N : Net i o) (loss : ClassLoss) (mean : Bool) {q : Sentence}
    {θ : Nat → Dense ℝ} (hθ : ∀ x < N.size + size, (θ x).WF) (hf : N.Fits θ 0)
    (hdim : ∀ x < size, (θ (N.size + x)).rows = i ∧ (θ (N.size + x)).cols = 1)
    (hq : q.Ok N N.size size θ) (hl : loss.OK o) :
    Trains (N.size + size) ((q.classSample N size loss mean).program (N.size + size))
      ((q.classSample N size loss mean).result (N.size + size))
      (fun τ => some (scalar (q.classError N loss mean τ))) θ := by
  obtain ⟨n, hn⟩ : ∃ n, n = q.words.length := ⟨_, rfl⟩
  have hpos : 0 < n := by rw [hn]; exact List.length_pos_iff.mpr hq.pos
  have hcls : ∀ t < n, q.labels.getD t 0 < o := by
    intro t ht
    have ht' : t < q.labels.length := by rw [hq.len]; omega
    rw [show q.labels.getD t 0 = q.labels[t] by simp [List.getD, ht']]
    exact hq.labels _ (List.getElem_mem _)
  have ho : 0 < o := lt_of_le_of_lt (Nat.zero_le _) (hcls 0 hpos)
  -- the indices of the largest scores
  have hmax : ∀ t, ∃ k, (col o ((N.apply θ 0 (q.vectors N.size θ)).getD t 0)).argMax = some k ∧ k < o := by
    intro t
    obtain ⟨a1, a2⟩ := VecFn.argMax_spec (col o ((N.apply θ 0 (q.vectors N.size θ)).getD t 0))
    obtain ⟨k, hk⟩ := Option.isSome_iff_exists.mp (a1.mpr ⟨col_isVector _ _, by
      intro h
      have := congrArg List.length h
      simp at this; omega⟩)
    obtain ⟨m, hm, -⟩ := a2 k hk
    have := (List.getElem?_eq_some_iff.mp hm).1
    exact ⟨k, hk, by simpa using this⟩
  choose idx hidx hlt using hmax
  have hself : ∀ x < N.size + size + 0, (θ x).Like (θ x) := fun x hx => ⟨hθ x hx, rfl, rfl⟩
  have hlen : ∀ τ : Nat → Dense ℝ, (N.apply τ 0 (q.vectors N.size τ)).length = n := fun τ => by
    rw [apply_length, Sentence.vectors, List.length_map, hn]
  have hcode : (q.classSample N size loss mean).code = (encodeWords N.size size (ints q.words) >>= N.code 0) >>= fun ys =>
      lossSeq loss.code ys ((List.range n).map fun t => ((q.labels.getD t 0 : Nat) : Int)) mean := by
    rw [Sentence.classSample, encodeWords_eq hq.words, ints_range (by rw [hq.len, hn] : q.labels.length = n)]; rfl
  -- the code that takes the scores at these indices
  let shadow : B Nat := (encodeWords N.size size (ints q.words) >>= N.code 0) >>= fun ys =>
    lossSeq loss.codeBy ys ((List.range n).map fun t => ((atVec (idx t) : GradFn ℝ), ((q.labels.getD t 0 : Nat) : Int))) mean
  have hfun : (fun τ : Nat → Dense ℝ => some (scalar (q.classError N loss mean τ))) = fun τ => some (scalar
      ((∑ t ∈ Finset.range n, loss.value o ((N.apply τ 0 (q.vectors N.size τ)).getD t 0) (q.labels.getD t 0)) /
        if mean then (n : ℝ) else 1)) := by
    subst hn; rfl
  rw [hfun]
  have htrain : Trains (N.size + size) (program (N.size + size) 0 shadow) (result (N.size + size) 0 shadow)
      (fun τ => some (scalar
      ((∑ t ∈ Finset.range n, loss.value o ((N.apply τ 0 (q.vectors N.size τ)).getD t 0) (q.labels.getD t 0)) /
        if mean then (n : ℝ) else 1))) θ := by
    refine trains_of_sim (j := 0) hθ ?_ rfl rfl
    intro τ hlike
    refine bindSome (net_words N (le_refl _) (le_refl _) hf hq.pos hq.words hq.regular hdim hlike) fun st₁ ys hys => ?_
    obtain ⟨h1, h2⟩ := outputs_get (hlen τ) hys
    rw [h1]
    refine (lossSeq_vals (A := fun st t => t < n ∧ D st (ys.getD t 0) (col o ((N.apply τ 0 (q.vectors N.size τ)).getD t 0)))
      (fun st st' t h => ⟨h.1, h.2.mono st'⟩)
      (fun st t h => codeBy_sim hl (hlt t) (hcls t h.1) h.2) hpos (fun t ht => ⟨ht, h2 t ht⟩) mean).weaken ?_
    intro st₂ a b _ h
    refine ⟨h.1, le_trans ?_ h.2⟩
    rw [List.length_append, start_length]; omega
  show Trains _ (program (N.size + size) 0 (q.classSample N size loss mean).code)
    (result (N.size + size) 0 (q.classSample N size loss mean).code) _ _
  rw [hcode]
  refine htrain.twin ?_
  refine Twin.bind (Twin.refl _ _) fun vals hv _ => ?_
  have hsim := net_words N (le_refl _) (le_refl (N.size + size)) hf hq.pos hq.words hq.regular hdim hself
  obtain ⟨st', g1, -, -, g4⟩ := hsim
  rw [List.length_map] at hv ⊢
  rw [hv] at g1
  obtain rfl := Option.some.inj g1
  obtain ⟨h1, h2⟩ := outputs_get (hlen θ) g4
  rw [h1]
  refine lossSeq_twin (is := List.range n) fun t ht vals' hp => ?_
  refine codeBy_twin (X := col o ((N.apply θ 0 (q.vectors N.size θ)).getD t 0)) ?_ (hidx t)
  refine prefix_get hp ?_
  rw [List.getElem?_map, h2 t (List.mem_range.mp ht)]; rfl

/-! ### Batches of sentences -/

theorem vectors_congr {q : Sentence} {base size k : Nat} (hk : base + size ≤ k) (h : ∀ x ∈ q.words, x < size)
    {τ τ' : Nat → Dense ℝ} (ht : ∀ x < k, τ x = τ' x) : q.vectors base τ = q.vectors base τ' :=
  List.map_congr_left fun x hx => by rw [ht (base + x) (by have := h x hx; omega)]

theorem crfError_congr {i o size : Nat} {N : Net i o} {q : Sentence} (h : ∀ x ∈ q.words, x < size)
    {τ τ' : Nat → Dense ℝ} (ht : ∀ x < N.size + 1 + size, τ x = τ' x) : q.crfError N τ = q.crfError N τ' := by
  unfold Sentence.crfError
  rw [vectors_congr (le_refl _) h ht, apply_congr N (fun x _ h2 => ht x (by omega)), ht N.size (by omega)]

theorem classError_congr {i o size : Nat} {N : Net i o} {q : Sentence} (h : ∀ x ∈ q.words, x < size) (loss : ClassLoss)
    (mean : Bool) {τ τ' : Nat → Dense ℝ} (ht : ∀ x < N.size + size, τ x = τ' x) :
    q.classError N loss mean τ = q.classError N loss mean τ' := by
  unfold Sentence.classError
  rw [vectors_congr (le_refl _) h ht, apply_congr N (fun x _ h2 => ht x (by omega))]

theorem Sentence.Ok.congr {i o base size k : Nat} {N : Net i o} {q : Sentence} (hb : N.size ≤ base) (hk : base + size ≤ k)
    (hq : q.Ok N base size w) {τ : Nat → Dense ℝ} (ht : ∀ x < k, w x = τ x) : q.Ok N base size τ :=
  ⟨hq.pos, hq.words, hq.len, hq.labels, by
    rw [← vectors_congr hk hq.words ht]
    exact regular_congr N (fun x _ h2 => ht x (by omega)) hq.regular⟩

theorem crf_all_train {i o size : Nat} (N : Net i o) {w : Nat → Dense ℝ}
    (hw : ∀ x < N.size + 1 + size, (w x).WF) (hf : N.Fits w 0)
    (htr : (w N.size).rows = o + 1 ∧ (w N.size).cols = o + 1)
    (hdim : ∀ x < size, (w (N.size + 1 + x)).rows = i ∧ (w (N.size + 1 + x)).cols = 1)
    {batch : List Sentence} (hb : ∀ q ∈ batch, q.Ok N (N.size + 1) size w) :
    AllTrains (fun q : Sentence => q.crfSample N size) (N.size + 1 + size)
      (fun q τ => some (scalar (q.crfError N τ))) w batch := by
  intro q hq
  have e : ∀ x < N.size + 1 + size, w x = withParams (N.size + 1 + size) w (q.crfSample N size).data x :=
    fun x hx => (withParams_lt hx _ _).symm
  refine sentence_crf_trains N (fun x hx => e x hx ▸ hw x hx) ?_ (e N.size (by omega) ▸ htr)
    (fun x hx => e (N.size + 1 + x) (by omega) ▸ hdim x hx) ((hb q hq).congr (by omega) (le_refl _) e)
  refine hf.like N fun x h1 h2 => ?_
  rw [← e x (by omega)]
  exact ⟨hw x (by omega), rfl, rfl⟩

theorem class_all_train {i o size : Nat} (N : Net i o) (loss : ClassLoss) (mean : Bool) {w : Nat → Dense ℝ}
    (hw : ∀ x < N.size + size, (w x).WF) (hf : N.Fits w 0)
    (hdim : ∀ x < size, (w (N.size + x)).rows = i ∧ (w (N.size + x)).cols = 1)
    {batch : List Sentence} (hb : ∀ q ∈ batch, q.Ok N N.size size w) (hl : loss.OK o) :
    AllTrains (fun q : Sentence => q.classSample N size loss mean) (N.size + size)
      (fun q τ => some (scalar (q.classError N loss mean τ))) w batch := by
  intro q hq
  have e : ∀ x < N.size + size, w x = withParams (N.size + size) w (q.classSample N size loss mean).data x :=
    fun x hx => (withParams_lt hx _ _).symm
  refine sentence_classes_train N loss mean (fun x hx => e x hx ▸ hw x hx) ?_
    (fun x hx => e (N.size + x) (by omega) ▸ hdim x hx) ((hb q hq).congr (le_refl _) (le_refl _) e) hl
  refine hf.like N fun x h1 h2 => ?_
  rw [← e x (by omega)]
  exact ⟨hw x (by omega), rfl, rfl⟩

/-- **C83.** Training a tagger with embeddings and a random field on any batch of sentences: the loop ends, and what it
adds to the gradients, of the network, the transition scores and the vectors of the words, is the gradient of the sum of
the negative logarithms of the probabilities of the labels. -/
theorem crf_tagger_gradient {i o size : Nat} (N : Net i o) {w : Nat → Dense ℝ}
    (hw : ∀ x < N.size + 1 + size, (w x).WF) (hf : N.Fits w 0)
    (htr : (w N.size).rows = o + 1 ∧ (w N.size).cols = o + 1)
    (hdim : ∀ x < size, (w (N.size + 1 + x)).rows = i ∧ (w (N.size + 1 + x)).cols = 1)
    {batch : List Sentence} (hb : ∀ q ∈ batch, q.Ok N (N.size + 1) size w) (γ : Nat → Option (Nat → ℝ)) :
    (∃ γ', Learn (N.size + 1 + size) w (batch.map (·.crfSample N size)) γ γ') ∧
    ∀ γ', Learn (N.size + 1 + size) w (batch.map (·.crfSample N size)) γ γ' →
      ∀ l < N.size + 1 + size, ∀ j < (w l).data.length,
        HasDerivAt (fun t => (batch.map fun q => q.crfError N (moved w l j t)).sum) (gnum (γ' l) j - gnum (γ l) j) 0 := by
  have hat := crf_all_train N hw hf htr hdim hb
  refine ⟨learn_ends_of hat γ, fun γ' hl l hlk j hj => ?_⟩
  have := batch_partial_derivative_of hw hat hl hlk hj
  refine this.congr_of_eventuallyEq (Filter.Eventually.of_forall fun t => ?_)
  refine congrArg List.sum (List.map_congr_left fun q hq => ?_)
  exact crfError_congr (hb q hq).words fun x hx => (withParams_lt hx _ _).symm

/-- **C83, descent.** If the gradients are not all zero, one step of SGD with a small enough rate makes the labels of the
batch more likely. -/
theorem crf_tagger_descends {i o size : Nat} (N : Net i o) {w : Nat → Dense ℝ}
    (hw : ∀ x < N.size + 1 + size, (w x).WF) (hf : N.Fits w 0)
    (htr : (w N.size).rows = o + 1 ∧ (w N.size).cols = o + 1)
    (hdim : ∀ x < size, (w (N.size + 1 + x)).rows = i ∧ (w (N.size + 1 + x)).cols = 1)
    {batch : List Sentence} (hb : ∀ q ∈ batch, q.Ok N (N.size + 1) size w) {γ : Nat → Option (Nat → ℝ)}
    (hl : Learn (N.size + 1 + size) w (batch.map (·.crfSample N size)) (fun _ => none) γ)
    (hne : ∃ l < N.size + 1 + size, ∃ j < (w l).data.length, gnum (γ l) j ≠ 0) :
    ∃ ε > 0, ∀ α, 0 < α → α < ε → ∀ τ : Nat → Dense ℝ, (∀ x < N.size + 1 + size, SgdStep α (w x) (γ x) (τ x)) →
      (batch.map fun q => q.crfError N τ).sum < (batch.map fun q => q.crfError N w).sum := by
  obtain ⟨ε, h0, h⟩ := batch_descends_of hw (crf_all_train N hw hf htr hdim hb) hl hne
  refine ⟨ε, h0, fun α ha hα τ hτ => ?_⟩
  have := h α ha hα τ hτ
  have e : ∀ τ : Nat → Dense ℝ, (batch.map fun q => q.crfError N τ).sum = (batch.map fun q => number (some (scalar
      (q.crfError N (withParams (N.size + 1 + size) τ (q.crfSample N size).data))))).sum := fun τ =>
    congrArg List.sum (List.map_congr_left fun q hq =>
      crfError_congr (hb q hq).words fun x hx => (withParams_lt hx _ _).symm)
  rw [e, e]
  exact this

/-- **C83, classes.** The same for a tagger that classifies every word. -/
theorem class_tagger_gradient {i o size : Nat} (N : Net i o) (loss : ClassLoss) (mean : Bool) {w : Nat → Dense ℝ}
    (hw : ∀ x < N.size + size, (w x).WF) (hf : N.Fits w 0)
    (hdim : ∀ x < size, (w (N.size + x)).rows = i ∧ (w (N.size + x)).cols = 1)
    {batch : List Sentence} (hb : ∀ q ∈ batch, q.Ok N N.size size w) (hl : loss.OK o) (γ : Nat → Option (Nat → ℝ)) :
    (∃ γ', Learn (N.size + size) w (batch.map (·.classSample N size loss mean)) γ γ') ∧
    ∀ γ', Learn (N.size + size) w (batch.map (·.classSample N size loss mean)) γ γ' →
      ∀ l < N.size + size, ∀ j < (w l).data.length,
        HasDerivAt (fun t => (batch.map fun q => q.classError N loss mean (moved w l j t)).sum)
          (gnum (γ' l) j - gnum (γ l) j) 0 := by
  have hat := class_all_train N loss mean hw hf hdim hb hl
  refine ⟨learn_ends_of hat γ, fun γ' hl l hlk j hj => ?_⟩
  have := batch_partial_derivative_of hw hat hl hlk hj
  refine this.congr_of_eventuallyEq (Filter.Eventually.of_forall fun t => ?_)
  refine congrArg List.sum (List.map_congr_left fun q hq => ?_)
  exact classError_congr (hb q hq).words loss mean fun x hx => (withParams_lt hx _ _).symm

/-- **C83, descent with classes.** -/
theorem class_tagger_descends {i o size : Nat} (N : Net i o) (loss : ClassLoss) (mean : Bool) {w : Nat → Dense ℝ}
    (hw : ∀ x < N.size + size, (w x).WF) (hf : N.Fits w 0)
    (hdim : ∀ x < size, (w (N.size + x)).rows = i ∧ (w (N.size + x)).cols = 1)
    {batch : List Sentence} (hb : ∀ q ∈ batch, q.Ok N N.size size w) (hlo : loss.OK o) {γ : Nat → Option (Nat → ℝ)}
    (hl : Learn (N.size + size) w (batch.map (·.classSample N size loss mean)) (fun _ => none) γ)
    (hne : ∃ l < N.size + size, ∃ j < (w l).data.length, gnum (γ l) j ≠ 0) :
    ∃ ε > 0, ∀ α, 0 < α → α < ε → ∀ τ : Nat → Dense ℝ, (∀ x < N.size + size, SgdStep α (w x) (γ x) (τ x)) →
      (batch.map fun q => q.classError N loss mean τ).sum < (batch.map fun q => q.classError N loss mean w).sum := by
  obtain ⟨ε, h0, h⟩ := batch_descends_of hw (class_all_train N loss mean hw hf hdim hb hlo) hl hne
  refine ⟨ε, h0, fun α ha hα τ hτ => ?_⟩
  have := h α ha hα τ hτ
  have e : ∀ τ : Nat → Dense ℝ, (batch.map fun q => q.classError N loss mean τ).sum = (batch.map fun q => number (some (scalar
      (q.classError N loss mean (withParams (N.size + size) τ (q.classSample N size loss mean).data))))).sum := fun τ =>
    congrArg List.sum (List.map_congr_left fun q hq =>
      classError_congr (hb q hq).words loss mean fun x hx => (withParams_lt hx _ _).symm)
  rw [e, e]
  exact this

/-! ### Examples -/

/-- The parameters of a linear layer from 1 to 2 elements, transition scores, and the vectors of two words; all 0. -/
def smallTagger (x : Nat) : Dense ℝ :=
  if x = 0 then zeros 2 1 else if x = 1 then zeros 2 1 else if x = 2 then zeros 3 3 else zeros 1 1

theorem smallTagger_gradient {batch : List Sentence} (hb : ∀ q ∈ batch, q.words ≠ [] ∧ (∀ x ∈ q.words, x < 2) ∧
      q.labels.length = q.words.length ∧ ∀ y ∈ q.labels, y < 2) (γ : Nat → Option (Nat → ℝ)) :
    (∃ γ', Learn 5 smallTagger (batch.map (·.crfSample (.linear 1 2) 2)) γ γ') ∧
    ∀ γ', Learn 5 smallTagger (batch.map (·.crfSample (.linear 1 2) 2)) γ γ' →
      ∀ l < 5, ∀ j < (smallTagger l).data.length,
        HasDerivAt (fun t => (batch.map fun q => q.crfError (.linear 1 2) (moved smallTagger l j t)).sum)
          (gnum (γ' l) j - gnum (γ l) j) 0 := by
  refine crf_tagger_gradient (size := 2) (.linear 1 2) (fun x _ => ?_) ⟨⟨rfl, rfl⟩, ⟨rfl, rfl⟩⟩ ⟨rfl, rfl⟩ (fun x _ => ?_)
    (fun q hq => ⟨(hb q hq).1, (hb q hq).2.1, (hb q hq).2.2.1, (hb q hq).2.2.2, trivial⟩) γ
  · unfold smallTagger; split_ifs <;> exact Dense.zeros_WF _ _
  · show (smallTagger (3 + x)).rows = 1 ∧ (smallTagger (3 + x)).cols = 1
    unfold smallTagger
    rw [if_neg (by omega), if_neg (by omega), if_neg (by omega)]
    exact ⟨rfl, rfl⟩

/-- The hypotheses can be met with a gradient that is not zero: one word with label 0. -/
theorem small_tagger_learns : ∃ γ, Learn 5 smallTagger ([(⟨[1], [0]⟩ : Sentence)].map (·.crfSample (.linear 1 2) 2))
    (fun _ => none) γ ∧ gnum (γ 1) 0 = -(1 / 2) := by
  obtain ⟨⟨γ, hl⟩, h⟩ := smallTagger_gradient (batch := [⟨[1], [0]⟩]) (by
    intro q hq
    simp only [List.mem_cons, List.not_mem_nil, or_false] at hq
    subst hq
    simp) (fun _ => none)
  refine ⟨γ, hl, ?_⟩
  have hd := h γ hl 1 (by omega) 0 (by simp [smallTagger, zeros])
  have e : (fun t => ([(⟨[1], [0]⟩ : Sentence)].map fun q => q.crfError (.linear 1 2) (moved smallTagger 1 0 t)).sum) =
      fun t : ℝ => -Real.log (Real.exp t / (Real.exp t + 1)) := by
    funext t
    simp [Sentence.crfError, Sentence.vectors, labelsProbability, labelings, List.range_succ, score, path, Net.apply, Net.size,
      affineMap, moved, smallTagger, bump, Dense.el, Dense.at2, Dense.val, zeros, Finset.sum_range_succ]
  rw [e] at hd
  have hd' : HasDerivAt (fun t : ℝ => -Real.log (Real.exp t / (Real.exp t + 1))) (-(1 / 2)) 0 := by
    have h1 : HasDerivAt (fun t : ℝ => Real.exp t) 1 0 := by simpa using Real.hasDerivAt_exp 0
    have h2 := (h1.div (h1.add_const 1) (by positivity)).log (div_ne_zero (Real.exp_pos 0).ne' (by positivity))
    refine h2.neg.congr_deriv ?_
    norm_num
  have := hd.unique hd'
  simpa [gnum] using this

end Verif.Record
