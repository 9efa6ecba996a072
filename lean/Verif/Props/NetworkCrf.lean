import Verif.Spec.NetworkCrf
import Verif.Props.NetworkLosses
import Verif.Props.Crf

set_option autoImplicit false
set_option linter.unusedSimpArgs false

/-!
# Training networks of layers with a conditional random field on top
-/

namespace Verif.Record
open GradFn Backward Tape Dense CrfSpec
open scoped BigOperators

variable {s : Prop} {τ θ : Nat → Dense ℝ} {st : State}

/-! ### Values of the operators -/

theorem atMat_el {w : Dense ℝ} (hw : w.WF) {i j : Nat} (hi : i < w.rows) (hj : j < w.cols) :
    (atMat (R := ℝ) i j).forward [w] = some (scalar (w.el i j)) := by
  have h : w.at2 i j = some (w.el i j) := by
    obtain ⟨v, hv⟩ := Option.isSome_iff_exists.mp ((at2_isSome hw i j).mpr ⟨by omega, by omega⟩)
    rw [hv]
    rw [el_val w hi hj]
    rw [at2_nat, if_pos ⟨hi, hj⟩] at hv
    simp [Dense.val, hv]
  simp only [atMat, h, Option.bind_eq_bind, Option.bind_some]

theorem atMat_col {o : Nat} (v : Nat → ℝ) {c : Nat} (hc : c < o) :
    (atMat (R := ℝ) c 0).forward [col o v] = some (scalar (v c)) := by
  have := atMat_el (col_WF o v) (i := c) (j := 0) hc (by simp)
  rw [el_val _ (by simpa using hc) (by simp)] at this
  simpa [col_val v hc] using this

theorem concat_scalars {n : Nat} (hn : 0 < n) (g : Nat → ℝ) :
    GradFn.concat.forward ((List.range n).map fun i => scalar (g i)) = some (col n g) := by
  have h : ((List.range n).map fun i => (scalar (g i) : Dense ℝ)).all isVector = true := by
    rw [List.all_eq_true]
    intro x hx
    obtain ⟨i, -, rfl⟩ := List.mem_map.mp hx
    rfl
  have hne : ((List.range n).map fun i => (scalar (g i) : Dense ℝ)) ≠ [] := by
    simp; omega
  have hd : ∀ l : List Nat, ((l.map fun i => (scalar (g i) : Dense ℝ)).map data).flatten = l.map g := by
    intro l
    induction l with
    | nil => rfl
    | cons a l ih => simp only [List.map_cons, List.flatten_cons, ih]; rfl
  have hc : ∀ xs : List (Dense ℝ), xs ≠ [] → GradFn.concat.forward xs = concatV xs := by
    intro xs hx
    cases xs with
    | nil => exact absurd rfl hx
    | cons a l => rfl
  rw [hc _ hne, concatV, if_pos h, hd]
  refine congrArg some ?_
  have : (((List.range n).map fun i => (scalar (g i) : Dense ℝ)).map fun v => v.data.length).sum = n := by
    simp [Function.comp_def, scalar]
  rw [this]; rfl

/-- The tensors of a list hold the numbers `g 0`, ..., `g (n-1)`. -/
def Nums (n : Nat) (g : Nat → ℝ) (st : State) (l : List Nat) : Prop :=
  List.Forall₂ (D st) l ((List.range n).map fun i => scalar (g i))

theorem Nums.mono {n : Nat} {g : Nat → ℝ} {l : List Nat} (h : Nums n g st l) (st' : State) : Nums n g (st ++ st') l :=
  List.Forall₂.imp (fun _ _ h => D.mono h st') h

theorem Nums.len {n : Nat} {g : Nat → ℝ} {l : List Nat} (h : Nums n g st l) : l.length = n := by
  rw [List.Forall₂.length_eq h]; simp

theorem Nums.get {n : Nat} {g : Nat → ℝ} {l : List Nat} (h : Nums n g st l) {i : Nat} (hi : i < n) :
    ∃ x, l[i]? = some x ∧ D st x (scalar (g i)) := by
  have hl := h.len
  refine ⟨l[i], List.getElem?_eq_getElem (by omega), ?_⟩
  have := (List.forall₂_iff_get.mp h).2 i (by omega) (by simpa using hi)
  simpa using this

theorem index_bind {γ δ : Type} {n : Nat} {g : Nat → ℝ} {l : List Nat} (h : Nums n g st l) {i : Nat} (hi : i < n)
    {k : Nat → B γ} {m : Option δ} {R : State → γ → δ → Prop} (hk : ∀ x, D st x (scalar (g i)) → Sim s τ st (k x) m R) :
    Sim s τ st (index l i >>= k) m R := by
  obtain ⟨x, h1, h2⟩ := h.get hi
  unfold index
  rw [h1]
  exact hk x h2

theorem each_nums {f : Nat → B Nat} {g : Nat → ℝ} {M : State → Prop} (hM : ∀ st st', M st → M (st ++ st')) :
    ∀ {is : List Nat} {st : State}, M st →
      (∀ st i, M st → i ∈ is → Sim s τ st (f i) (some (scalar (g i))) D) →
      Sim s τ st (each f is) (some (is.map fun i => scalar (g i))) (fun st => List.Forall₂ (D st))
  | [], st, _, _ => Sim.pure .nil
  | i :: is, st, hm, hf => by
    refine bindSome (hf st i hm (by simp)) fun st₁ y hy => ?_
    refine bindSome (each_nums hM (hM _ _ hm) fun st i hm hi => hf st i hm (by simp [hi])) fun st₂ ys hys => ?_
    exact Sim.pure (.cons (hy.mono st₂) hys)

theorem each_range {f : Nat → B Nat} {n : Nat} {g : Nat → ℝ} {M : State → Prop} (hM : ∀ st st', M st → M (st ++ st'))
    (hm : M st) (hf : ∀ st i, M st → i < n → Sim s τ st (f i) (some (scalar (g i))) D) :
    Sim s τ st (each f (List.range n)) (some g) (fun st l g => Nums n g st l) := by
  have := each_nums (s := s) (τ := τ) (is := List.range n) hM hm fun st i h hi => hf st i h (List.mem_range.mp hi)
  obtain ⟨st', h1, h2, h3, h4⟩ := this
  exact ⟨st', h1, h2, h3, h4⟩

theorem callD {f : GradFn ℝ} {args : List Nat} {xs : List (Dense ℝ)} {y : Dense ℝ}
    (hv : List.Forall₂ (V st) args xs) (hy : f.forward xs = some y) (hd : ∃ i ∈ args, ∃ v, D st i v)
    (hs : s → ∀ act, Safe act f xs) : Sim s τ st (call f args) (some y) D :=
  (callN hv hy hd hs).weaken fun _ _ _ _ h => h.1

/-! ### The total score -/

variable {o tr : Nat} {w : Dense ℝ}

/-- The transition scores of `o` labels. -/
structure Trans (w : Dense ℝ) (o : Nat) : Prop where
  wf : w.WF
  rows : w.rows = o + 1
  cols : w.cols = o + 1

theorem Trans.at {w : Dense ℝ} {o : Nat} (h : Trans w o) {i j : Nat} (hi : i ≤ o) (hj : j ≤ o) :
    (atMat (R := ℝ) i j).forward [w] = some (scalar (w.el i j)) :=
  atMat_el h.wf (by have := h.rows; omega) (by have := h.cols; omega)

theorem addMaybe_sim {a : Option Nat} {u v : ℝ} {x : Nat} (ha : ∀ i, a = some i → D st i (scalar u))
    (hn : a = none → u = 0) (hx : D st x (scalar v)) :
    Sim s τ st (addMaybe a x) (some (scalar (u + v))) D := by
  cases a with
  | none =>
    rw [hn rfl, zero_add]
    exact callD (.cons hx.v .nil) rfl ⟨x, by simp, _, hx⟩ fun _ _ => .copy
  | some i =>
    exact callD (.cons (ha i rfl).v (.cons hx.v .nil)) (Losses.add_scalar _ _) ⟨x, by simp, _, hx⟩ fun _ _ => .add

theorem separate_sim {x : Nat} {e : Nat → ℝ} (hx : D st x (col o e)) :
    Sim s τ st (separate o x) (some e) (fun st l g => Nums o g st l) :=
  each_range (M := fun st => D st x (col o e)) (fun _ st' h => h.mono st') hx fun _ _ h hi =>
    callD (.cons h.v .nil) (atVec_col e hi) ⟨x, by simp, _, h⟩ fun _ _ => .atVec

theorem crfStart_sim (hw : Trans w o) (htr : D st tr w) {x : Nat} {e : Nat → ℝ} (hx : D st x (col o e)) :
    Sim s τ st (crfStart tr o x) (some fun i => e i + w.el 0 (i + 1)) (fun st l g => Nums o g st l) := by
  refine each_range (M := fun st => D st x (col o e) ∧ D st tr w) (fun _ st' h => ⟨h.1.mono st', h.2.mono st'⟩)
    ⟨hx, htr⟩ fun st i h hi => ?_
  refine bindD (.cons h.1.v .nil) (atVec_col e hi) ⟨x, by simp, _, h.1⟩ (fun _ _ => .atVec) fun st₁ a ha => ?_
  refine bindD (.cons (h.2.mono st₁).v .nil) (hw.at (Nat.zero_le o) (by omega : i + 1 ≤ o))
    ⟨tr, by simp, _, h.2.mono st₁⟩ (fun _ _ => .atMat) fun st₂ b hb => ?_
  exact callD (.cons (ha.mono st₂).v (.cons hb.v .nil)) (Losses.add_scalar _ _) ⟨b, by simp, _, hb⟩ fun _ _ => .add

theorem crfEnd_sim (hw : Trans w o) (htr : D st tr w) {l : List Nat} {g : Nat → ℝ} (hl : Nums o g st l) :
    Sim s τ st (crfEnd tr o l) (some fun i => Real.exp (g i + w.el (i + 1) 0)) (fun st l g => Nums o g st l) := by
  refine each_range (M := fun st => Nums o g st l ∧ D st tr w) (fun _ st' h => ⟨h.1.mono st', h.2.mono st'⟩)
    ⟨hl, htr⟩ fun st i h hi => ?_
  refine index_bind h.1 hi fun x hx => ?_
  refine bindD (.cons h.2.v .nil) (hw.at (by omega : i + 1 ≤ o) (Nat.zero_le o))
    ⟨tr, by simp, _, h.2⟩ (fun _ _ => .atMat) fun st₁ b hb => ?_
  refine bindD (.cons (hx.mono st₁).v (.cons hb.v .nil)) (Losses.add_scalar _ _) ⟨b, by simp, _, hb⟩ (fun _ _ => .add)
    fun st₂ v hv => ?_
  refine bindD (.cons hv.v .nil) (Losses.exp_scalar _) ⟨v, by simp, _, hv⟩ (fun _ _ => .exp) fun st₃ e he => ?_
  rw [← zero_add (Real.exp _)]
  exact addMaybe_sim (fun _ h => by cases h) (fun _ => rfl) he

/-- Every score is nil and the number is 0, or every score is there. -/
def Scores (n : Nat) (g : Nat → ℝ) (st : State) (sc : List (Option Nat)) : Prop :=
  (sc = List.replicate n none ∧ ∀ j, g j = 0) ∨ ∃ l, sc = l.map some ∧ Nums n g st l

theorem crfRow_sim (hw : Trans w o) (htr : D st tr w) {i node : Nat} (hi : i < o) {a : ℝ} (hnode : D st node (scalar a))
    {step : List Nat} {e : Nat → ℝ} (hstep : Nums o e st step) {sc : List (Option Nat)} {g : Nat → ℝ}
    (hsc : Scores o g st sc) :
    Sim s τ st (crfRow tr o i node step sc) (some fun j => g j + Real.exp (a + e j + w.el (i + 1) (j + 1)))
      (fun st l g => Nums o g st l) := by
  have hscm : ∀ st st', Scores o g st sc → Scores o g (st ++ st') sc := by
    rintro st st' (h | ⟨l, h1, h2⟩)
    · exact Or.inl h
    · exact Or.inr ⟨l, h1, h2.mono st'⟩
  refine each_range (M := fun st => Nums o e st step ∧ D st tr w ∧ D st node (scalar a) ∧ Scores o g st sc)
    (fun st st' h => ⟨h.1.mono st', h.2.1.mono st', h.2.2.1.mono st', hscm _ _ h.2.2.2⟩) ⟨hstep, htr, hnode, hsc⟩
    fun st j h hj => ?_
  obtain ⟨h1, h2, h3, h4⟩ := h
  refine index_bind h1 hj fun x hx => ?_
  refine bindD (.cons h3.v (.cons hx.v .nil)) (Losses.add_scalar _ _) ⟨x, by simp, _, hx⟩ (fun _ _ => .add)
    fun st₁ v hv => ?_
  refine bindD (.cons (h2.mono st₁).v .nil) (hw.at (by omega : i + 1 ≤ o) (by omega : j + 1 ≤ o))
    ⟨tr, by simp, _, h2.mono st₁⟩ (fun _ _ => .atMat) fun st₂ b hb => ?_
  refine bindD (.cons (hv.mono st₂).v (.cons hb.v .nil)) (Losses.add_scalar _ _) ⟨b, by simp, _, hb⟩ (fun _ _ => .add)
    fun st₃ u hu => ?_
  refine bindD (.cons hu.v .nil) (Losses.exp_scalar _) ⟨u, by simp, _, hu⟩ (fun _ _ => .exp) fun st₄ y hy => ?_
  refine addMaybe_sim (fun k hk => ?_) (fun hk => ?_) hy
  · rcases h4 with ⟨rfl, -⟩ | ⟨l, rfl, h5⟩
    · simp [List.getD, List.getElem?_replicate] at hk
      split at hk <;> cases hk
    · obtain ⟨z, h6, h7⟩ := h5.get hj
      simp only [List.getD, List.getElem?_map, h6, Option.map_some, Option.getD_some, Option.some.injEq] at hk
      subst hk
      exact (((h7.mono st₁).mono st₂).mono st₃).mono st₄
  · rcases h4 with ⟨-, h5⟩ | ⟨l, rfl, h5⟩
    · exact h5 j
    · obtain ⟨z, h6, h7⟩ := h5.get hj
      simp [List.getD, h6] at hk

theorem crfRows_sim (hw : Trans w o) {total step : List Nat} {a e : Nat → ℝ} :
    ∀ {is : List Nat} {st : State} {sc : List (Option Nat)} {g : Nat → ℝ}, (∀ i ∈ is, i < o) → D st tr w →
      Nums o a st total → Nums o e st step → Scores o g st sc →
      Sim s τ st (crfRows tr o total step is sc)
        (some fun j => g j + (is.map fun i => Real.exp (a i + e j + w.el (i + 1) (j + 1))).sum)
        (fun st sc g => Scores o g st sc)
  | [], st, sc, g, _, _, _, _, hsc => Sim.pure (by simpa using hsc)
  | i :: is, st, sc, g, his, htr, ht, hs, hsc => by
    refine index_bind ht (his i (by simp)) fun node hnode => ?_
    refine bindSome (crfRow_sim hw htr (his i (by simp)) hnode hs hsc) fun st₁ r hr => ?_
    have := crfRows_sim hw (is := is) (fun i hi => his i (by simp [hi])) (htr.mono st₁) (ht.mono st₁) (hs.mono st₁)
      (Or.inr ⟨r, rfl, hr⟩)
    simp only [List.map_cons, List.sum_cons, ← add_assoc] at this ⊢
    exact this

/-- One step of the recursion for the total scores. -/
noncomputable def nextTotal (o : Nat) (w : Dense ℝ) (a e : Nat → ℝ) : Nat → ℝ := fun j =>
  Real.log ((List.range o).map fun i => Real.exp (a i + e j + w.el (i + 1) (j + 1))).sum

theorem crfStep_sim (ho : 0 < o) (hw : Trans w o) {total step : List Nat} {a e : Nat → ℝ} (htr : D st tr w)
    (ht : Nums o a st total) (hs : Nums o e st step) :
    Sim s τ st (crfStep tr o total step) (some (nextTotal o w a e)) (fun st l g => Nums o g st l) := by
  refine bindSome (crfRows_sim (g := fun _ => 0) hw (fun i hi => List.mem_range.mp hi) htr ht hs (Or.inl ⟨rfl, fun _ => rfl⟩))
    fun st₁ sc hsc => ?_
  simp only [zero_add] at hsc
  have hpos : ∀ j, 0 < ((List.range o).map fun i => Real.exp (a i + e j + w.el (i + 1) (j + 1))).sum :=
    fun j => Crf.exp_sum_pos ho _
  rcases hsc with ⟨-, h⟩ | ⟨l, rfl, hl⟩
  · exact absurd (h 0) (hpos 0).ne'
  · refine each_range (M := fun st => Nums o _ st l) (fun _ st' h => h.mono st') hl fun st j h hj => ?_
    obtain ⟨x, h1, h2⟩ := h.get hj
    have : (l.map some).getD j none = some x := by simp [List.getD, h1]
    beta_reduce
    rw [this]
    refine callD (.cons h2.v .nil) (Losses.log_scalar _) ⟨x, by simp, _, h2⟩ fun _ _ => .log fun v hv => ?_
    rw [scalar_data hv]
    exact hpos j

/-- The total scores after all steps. -/
noncomputable def lastTotal (o : Nat) (w : Dense ℝ) : (Nat → ℝ) → List (Nat → ℝ) → Nat → ℝ
  | a, [] => a
  | a, e :: es => lastTotal o w (nextTotal o w a e) es

theorem crfSteps_sim (ho : 0 < o) (hw : Trans w o) :
    ∀ {xs : List Nat} {es : List (Nat → ℝ)} {st : State} {total : List Nat} {a : Nat → ℝ}, D st tr w → Nums o a st total →
      Outputs st xs (es.map (col o)) →
      Sim s τ st (crfSteps tr o total xs) (some (lastTotal o w a es)) (fun st l g => Nums o g st l)
  | [], [], st, total, a, _, ht, _ => Sim.pure ht
  | x :: xs, e :: es, st, total, a, htr, ht, .cons hx hxs => by
    refine bindSome (separate_sim hx) fun st₁ step hstep => ?_
    refine bindSome (crfStep_sim ho hw (htr.mono st₁) (ht.mono st₁) hstep) fun st₂ total' ht' => ?_
    exact crfSteps_sim (a := nextTotal o w a e) (es := es) ho hw ((htr.mono st₁).mono st₂) ht' ((Outputs.mono hxs st₁).mono st₂)

/-- The recursion sums over all labelings. -/
theorem lastTotal_eq (ho : 0 < o) (w : Dense ℝ) (es : List (Nat → ℝ)) : ∀ a : Nat → ℝ,
    ((List.range o).map fun i => Real.exp (lastTotal o w a es i) * Real.exp (w.el (i + 1) 0)).sum =
      ((List.range o).map fun i => Real.exp (a i) * Crf.Z o w.el (i + 1) es).sum := by
  induction es with
  | nil =>
    intro a
    simp [lastTotal, Crf.Z, labelings, Crf.pathScore]
  | cons e es ih =>
    intro a
    rw [lastTotal, ih]
    have e1 : ∀ j, Real.exp (nextTotal o w a e j) * Crf.Z o w.el (j + 1) es =
        ((List.range o).map fun i => Real.exp (a i) *
          (Real.exp (w.el (i + 1) (j + 1) + e j) * Crf.Z o w.el (j + 1) es)).sum := by
      intro j
      rw [nextTotal, Real.exp_log (Crf.exp_sum_pos ho _), ← List.sum_map_mul_right]
      congr 1
      apply List.map_congr_left
      intro i _
      rw [← _root_.mul_assoc, ← Real.exp_add]
      congr 2
      ring
    simp only [e1]
    rw [Crf.sum_comm_list]
    congr 1
    apply List.map_congr_left
    intro i _
    rw [Crf.Z_cons, List.sum_map_mul_left]

theorem crfTotal_sim (ho : 0 < o) (hw : Trans w o) (htr : D st tr w) {xs : List Nat} {es : List (Nat → ℝ)} (hne : es ≠ [])
    (hx : Outputs st xs (es.map (col o))) :
    Sim s τ st (crfTotal tr o xs) (some (scalar (Real.log (Crf.Z o w.el 0 es)))) D := by
  cases es with
  | nil => exact absurd rfl hne
  | cons e es =>
    cases hx with
    | cons hx hxs =>
      rename_i x xs
      refine bindSome (crfStart_sim hw htr hx) fun st₁ t₀ h₀ => ?_
      refine bindSome (crfSteps_sim ho hw (htr.mono st₁) h₀ (Outputs.mono hxs st₁)) fun st₂ t₁ h₁ => ?_
      refine bindSome (crfEnd_sim hw ((htr.mono st₁).mono st₂) h₁) fun st₃ t₂ h₂ => ?_
      obtain ⟨y, hy1, hy2⟩ := h₂.get ho
      refine bindD (h₂.imp fun _ _ h => h.v) (concat_scalars ho _) ⟨y, List.mem_of_getElem? hy1, _, hy2⟩
        (fun _ _ => .concat ?_) fun st₄ c hc => ?_
      · intro v hv
        obtain ⟨i, -, rfl⟩ := List.mem_map.mp hv
        rfl
      have hZ : (∑ i ∈ Finset.range o, Real.exp (lastTotal o w (fun i => e i + w.el 0 (i + 1)) es i + w.el (i + 1) 0)) =
          Crf.Z o w.el 0 (e :: es) := by
        rw [← sum_range_list]
        simp only [Real.exp_add]
        rw [lastTotal_eq ho, Crf.Z_cons]
        congr 1
        apply List.map_congr_left
        intro i _
        rw [add_comm]
      refine bindD (.cons hc.v .nil) (reduceSum_col o _) ⟨c, by simp, _, hc⟩ (fun _ _ => .reduceSum rfl) fun st₅ r hr => ?_
      rw [hZ] at hr
      refine callD (.cons hr.v .nil) (Losses.log_scalar _) ⟨r, by simp, _, hr⟩ fun _ _ => .log fun v hv => ?_
      rw [scalar_data hv]
      exact Crf.labelings_exp_pos ho _ _

/-! ### The score of the target -/

theorem crfGoldLoop_sim (hw : Trans w o) :
    ∀ {xs : List Nat} {es : List (Nat → ℝ)} {ys : List Nat} {st : State} {prev g : Nat} {G : ℝ}, es.length = ys.length →
      (∀ y ∈ ys, y < o) → prev ≤ o → D st tr w → D st g (scalar G) → Outputs st xs (es.map (col o)) →
      Sim s τ st (crfGoldLoop tr xs (ys.map fun y : Nat => (y : Int)) prev g)
        (some (scalar (G + Crf.pathScore w.el prev es ys))) D
  | [], [], [], st, prev, g, G, _, _, hp, htr, hg, _ => by
    refine bindD (.cons htr.v .nil) (hw.at hp (Nat.zero_le o)) ⟨tr, by simp, _, htr⟩ (fun _ _ => .atMat) fun st₁ b hb => ?_
    exact callD (.cons (hg.mono st₁).v (.cons hb.v .nil)) (Losses.add_scalar _ _) ⟨b, by simp, _, hb⟩ fun _ _ => .add
  | x :: xs, e :: es, y :: ys, st, prev, g, G, hl, hy, hp, htr, hg, .cons hx hxs => by
    have hyo := hy y (by simp)
    refine bindD (.cons hx.v .nil) (atVec_col e hyo) ⟨x, by simp, _, hx⟩ (fun _ _ => .atVec) fun st₁ a ha => ?_
    refine bindD (.cons (hg.mono st₁).v (.cons ha.v .nil)) (Losses.add_scalar _ _) ⟨a, by simp, _, ha⟩ (fun _ _ => .add)
      fun st₂ g₁ hg₁ => ?_
    have htr₂ := (htr.mono st₁).mono st₂
    refine bindD (.cons htr₂.v .nil) (hw.at hp (by omega : y + 1 ≤ o)) ⟨tr, by simp, _, htr₂⟩ (fun _ _ => .atMat)
      fun st₃ b hb => ?_
    refine bindD (.cons (hg₁.mono st₃).v (.cons hb.v .nil)) (Losses.add_scalar _ _) ⟨b, by simp, _, hb⟩ (fun _ _ => .add)
      fun st₄ g₂ hg₂ => ?_
    have := crfGoldLoop_sim hw (ys := ys) (es := es) (prev := y + 1) (by simpa using hl)
      (fun z hz => hy z (by simp [hz])) (by omega) ((htr₂.mono st₃).mono st₄) hg₂
      ((((Outputs.mono hxs st₁).mono st₂).mono st₃).mono st₄)
    rw [show G + e y + w.el prev (y + 1) + Crf.pathScore w.el (y + 1) es ys =
      G + Crf.pathScore w.el prev (e :: es) (y :: ys) by simp only [Crf.pathScore]; ring] at this
    exact this

theorem crfGold_sim (hw : Trans w o) (htr : D st tr w) {xs : List Nat} {es : List (Nat → ℝ)} {ys : List Nat} (hne : es ≠ [])
    (hl : es.length = ys.length) (hy : ∀ y ∈ ys, y < o) (hx : Outputs st xs (es.map (col o))) :
    Sim s τ st (crfGold tr xs (ys.map fun y : Nat => (y : Int))) (some (scalar (score w.el es ys))) D := by
  rw [Crf.score_eq _ _ _ hl]
  match es, ys, hl, hx with
  | [], _, _, _ => exact absurd rfl hne
  | e :: es, y :: ys, hl, .cons (l₁ := xs) (a := x) hx hxs =>
    have hyo := hy y (by simp)
    refine bindD (.cons hx.v .nil) (atMat_col e hyo) ⟨x, by simp, _, hx⟩ (fun _ _ => .atMat) fun st₁ a ha => ?_
    refine bindD (.cons (htr.mono st₁).v .nil) (hw.at (Nat.zero_le o) (by omega : y + 1 ≤ o))
      ⟨tr, by simp, _, htr.mono st₁⟩ (fun _ _ => .atMat) fun st₂ b hb => ?_
    refine bindD (.cons (ha.mono st₂).v (.cons hb.v .nil)) (Losses.add_scalar _ _) ⟨b, by simp, _, hb⟩ (fun _ _ => .add)
      fun st₃ g hg => ?_
    have := crfGoldLoop_sim (s := s) (τ := τ) hw (ys := ys) (es := es) (prev := y + 1) (by simpa using hl)
      (fun z hz => hy z (by simp [hz])) (by omega) (((htr.mono st₁).mono st₂).mono st₃) hg
      (((Outputs.mono hxs st₁).mono st₂).mono st₃)
    rw [show e y + w.el 0 (y + 1) + Crf.pathScore w.el (y + 1) es ys =
      Crf.pathScore w.el 0 (e :: es) (y :: ys) by simp only [Crf.pathScore]; ring] at this
    exact this

/-- The recorded loss is the negative logarithm of the probability of the target. -/
theorem crfLoss_sim (ho : 0 < o) (hw : Trans w o) (htr : D st tr w) {xs : List Nat} {es : List (Nat → ℝ)} {ys : List Nat}
    (hne : es ≠ []) (hl : es.length = ys.length) (hy : ∀ y ∈ ys, y < o) (hx : Outputs st xs (es.map (col o))) :
    Sim s τ st (crfLoss tr o xs (ys.map fun y : Nat => (y : Int)))
      (some (scalar (-Real.log (labelsProbability o w.el es ys)))) (New st) := by
  have hZ : ((labelings o es.length).map fun zs => Real.exp (score w.el es zs)).sum = Crf.Z o w.el 0 es := by
    unfold Crf.Z
    congr 1
    apply List.map_congr_left
    intro zs hzs
    rw [Crf.score_eq _ _ _ (mem_labelings.mp hzs).1.symm]
  have hpos : 0 < Crf.Z o w.el 0 es := Crf.labelings_exp_pos ho _ _
  rw [labelsProbability, hZ, Real.log_div (Real.exp_pos _).ne' hpos.ne', Real.log_exp, neg_sub]
  refine bindSome (crfGold_sim hw htr hne hl hy hx) fun st₁ g hg => ?_
  refine bindSome (crfTotal_sim ho hw (htr.mono st₁) hne (Outputs.mono hx st₁)) fun st₂ t ht => ?_
  exact (callN (.cons ht.v (.cons (hg.mono st₂).v .nil)) (Losses.sub_scalar _ _) ⟨t, by simp, _, ht⟩ fun _ _ => .sub).weaken
    fun _ _ _ _ h => h.older.older

/-! ### Training -/

/-- The recorded network, started on its parameters, further parameters and inputs. -/
theorem net_start_more {i o n k : Nat} (N : Net i o) (hk : N.size ≤ k) (hn : 0 < n) (hf : N.Fits θ 0)
    (hr : N.Regular θ 0 (vectors θ k n))
    (hin : ∀ t < n, (θ (k + t)).rows = i ∧ (θ (k + t)).cols = 1)
    (hlike : ∀ x < k + n, (θ x).Like (τ x)) (hsz : 0 < N.size) :
    Sim (τ = θ) τ (start k n τ) (N.code 0 ((List.range n).map (k + ·)))
      (some ((N.apply τ 0 (vectors τ k n)).map (col o))) Outputs := by
  have hi := inputs_start (k := k) (j := n) (n := n) (m := 0) (τ := τ) (by omega)
  rw [Nat.add_zero, inputs_cols hin hlike (by omega)] at hi
  have hx : List.Forall₂ (W false (start k n τ)) ((List.range n).map (k + ·))
      ((vectors τ k n).map (col i)) := hi.imp fun _ _ h => h.w
  have hsim := net_sim (s := τ = θ) (τ := τ) N (k := 0) (b := false)
    (by rw [← List.length_pos_iff, vectors_length]; exact hn)
    (fun x _ h2 => start_param (by omega)) (fun x _ h2 => (hlike x (by omega)).wf)
    (hf.like N fun x _ h2 => hlike x (by omega)) (fun h => by subst h; exact hr) hx
  exact hsim.weaken fun _ _ _ _ h => h.imp fun _ _ h => h.dOf (by simpa using hsz)

/-- **C82.** Training a network of layers with a conditional random field on top, to give the labels `target` to a sequence
of any length. The transition scores are trained along. -/
theorem crf_trains {i o n : Nat} (N : Net i o) (target : List Nat) {θ : Nat → Dense ℝ} (hsz : 0 < N.size) (hn : 0 < n)
    (hθ : ∀ x < N.size + 1 + n, (θ x).WF) (hf : N.Fits θ 0) (hr : N.Regular θ 0 (vectors θ (N.size + 1) n))
    (htr : (θ N.size).rows = o + 1 ∧ (θ N.size).cols = o + 1)
    (hin : ∀ t < n, (θ (N.size + 1 + t)).rows = i ∧ (θ (N.size + 1 + t)).cols = 1)
    (hlen : target.length = n) (htgt : ∀ y ∈ target, y < o) :
    Trains (N.size + 1) (program (N.size + 1) n (withCrf N.size n o (target.map fun y : Nat => (y : Int)) (N.code 0)))
      (result (N.size + 1) n (withCrf N.size n o (target.map fun y : Nat => (y : Int)) (N.code 0)))
      (fun τ => some (scalar (N.crfError target n τ))) θ := by
  have ho : 0 < o := by
    obtain ⟨y, hy⟩ := List.exists_mem_of_length_pos (by omega : 0 < target.length)
    exact lt_of_le_of_lt (Nat.zero_le _) (htgt y hy)
  refine trains_of_sim hθ ?_ rfl rfl
  intro τ hlike
  have hl := hlike N.size (by omega)
  have hw : Trans (τ N.size) o := ⟨hl.wf, by rw [hl.rows]; exact htr.1, by rw [hl.cols]; exact htr.2⟩
  have hal : (N.apply τ 0 (vectors τ (N.size + 1) n)).length = n := by rw [apply_length, vectors_length]
  refine bindSome (net_start_more N (by omega) hn hf hr hin hlike hsz) fun st₁ ys hys => ?_
  have htp : D (start (N.size + 1) n τ) N.size (τ N.size) := start_param (by omega)
  refine (crfLoss_sim ho hw (htp.mono st₁) ?_ (by omega) htgt hys).weaken fun st₂ a b _ h => ⟨h.1, le_trans ?_ h.2⟩
  · rw [← List.length_pos_iff]; omega
  · rw [List.length_append, start_length]; omega

/-- A GRU, a linear layer and a random field: `o` labels that alternate, on sequences of every length. -/
example (i h o n : Nat) (hn : 0 < n) (ho : 2 ≤ o) :
    Trains 12 (program 12 n (withCrf 11 n o (((List.range n).map (· % 2)).map fun y : Nat => (y : Int)) ((tagger i h o).code 0)))
      (result 12 n (withCrf 11 n o (((List.range n).map (· % 2)).map fun y : Nat => (y : Int)) ((tagger i h o).code 0)))
      (fun τ => some (scalar ((tagger i h o).crfError ((List.range n).map (· % 2)) n τ)))
      (fun x => if x < 9 then (if x % 3 = 0 then zeros h i else if x % 3 = 1 then zeros h h else zeros h 1) else
        if x = 9 then zeros o h else if x = 10 then zeros o 1 else if x = 11 then zeros (o + 1) (o + 1) else zeros i 1) := by
  have hs : (tagger i h o).size = 11 := rfl
  refine crf_trains (tagger i h o) ((List.range n).map (· % 2)) (by rw [hs]; omega) hn
    (fun x _ => by split_ifs <;> exact Dense.zeros_WF _ _) ?_ ?_ ?_ ?_ (by simp) ?_
  · exact ⟨⟨⟨⟨rfl, rfl⟩, ⟨rfl, rfl⟩, ⟨rfl, rfl⟩⟩, ⟨⟨rfl, rfl⟩, ⟨rfl, rfl⟩, ⟨rfl, rfl⟩⟩,
      ⟨⟨rfl, rfl⟩, ⟨rfl, rfl⟩, ⟨rfl, rfl⟩⟩⟩, ⟨⟨rfl, rfl⟩, ⟨rfl, rfl⟩⟩⟩
  · exact ⟨trivial, trivial⟩
  · exact ⟨rfl, rfl⟩
  · intro t ht
    simp only [hs]
    rw [if_neg (by omega), if_neg (by omega), if_neg (by omega), if_neg (by omega)]; exact ⟨rfl, rfl⟩
  · intro y hy
    obtain ⟨t, -, rfl⟩ := List.mem_map.mp hy
    exact lt_of_lt_of_le (Nat.mod_lt _ (by omega)) ho

end Verif.Record
