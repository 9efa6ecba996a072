import Verif.Spec.NetworkLosses
import Verif.Props.Network
import Verif.Props.Twin

set_option autoImplicit false
set_option linter.unusedSimpArgs false

/-!
# Training networks of layers on classes and on absolute errors

`LogSumExp` takes the largest score, where it is not differentiable if several scores are equal. The scores
may be equal all the same: at the given parameters, the program is alike one that takes the score at a fixed
index, and that one computes the same loss everywhere.
-/

namespace Verif.Record
open GradFn Backward Tape Dense
open scoped BigOperators

variable {s : Prop} {τ θ : Nat → Dense ℝ} {st : State}

/-! ### Values -/

/-- An operator whose value is known, and whose result is new. -/
theorem callN {f : GradFn ℝ} {args : List Nat} {xs : List (Dense ℝ)} {y : Dense ℝ}
    (hv : List.Forall₂ (V st) args xs) (hy : f.forward xs = some y) (hd : ∃ i ∈ args, ∃ v, D st i v)
    (hs : s → ∀ act, Safe act f xs) : Sim s τ st (call f args) (some y) (New st) := by
  rw [← hy]
  exact Sim.call hv hd hs

theorem New.older {st st' : State} {i : Nat} {v : Dense ℝ} {T : State} (h : New (st ++ st') T i v) : New st T i v :=
  ⟨h.1, le_trans (by simp) h.2⟩

theorem seqLoop_vals {T : Type} {elem : Nat → T → B Nat} {p : Nat → Nat} {tg : Nat → T} {f : Nat → ℝ}
    {A : State → Nat → Prop} {n : Nat} (hA : ∀ st st' t, A st t → A (st ++ st') t)
    (he : ∀ st t, A st t → Sim s τ st (elem (p t) (tg t)) (some (scalar (f t))) (New st)) :
    ∀ {is : List Nat} {st : State} {l : Nat} {L : ℝ}, (∀ t ∈ is, A st t) → D st l (scalar L) → n ≤ l → n ≤ st.length →
      Sim s τ st (seqLoop elem (is.map p) (is.map tg) l) (some (scalar (L + (is.map f).sum)))
        (fun st i v => D st i v ∧ n ≤ i)
  | [], st, l, L, _, hl, hn, _ => by
    simp only [List.map_nil, List.sum_nil, add_zero]
    exact Sim.pure ⟨hl, hn⟩
  | t :: is, st, l, L, ha, hl, hn, hn' => by
    simp only [List.map_cons, List.sum_cons]
    refine bindSome (he st t (ha t (by simp))) fun st₁ e h => ?_
    refine bindSome (callN (.cons (hl.mono st₁).v (.cons h.1.v .nil)) (Losses.add_scalar _ _) ⟨e, by simp, _, h.1⟩
      fun _ _ => .add) fun st₂ l' hl' => ?_
    rw [← add_assoc]
    refine seqLoop_vals hA he (fun t ht => hA _ _ _ (hA _ _ _ (ha t (by simp [ht])))) hl'.1 ?_ ?_
    · refine le_trans hn' (le_trans ?_ hl'.2); simp
    · refine le_trans hn' ?_; simp

theorem lossSeq_vals {T : Type} {elem : Nat → T → B Nat} {p : Nat → Nat} {tg : Nat → T} {f : Nat → ℝ}
    {A : State → Nat → Prop} (hA : ∀ st st' t, A st t → A (st ++ st') t)
    (he : ∀ st t, A st t → Sim s τ st (elem (p t) (tg t)) (some (scalar (f t))) (New st))
    {n : Nat} (hn : 0 < n) (ha : ∀ t < n, A st t) (mean : Bool) :
    Sim s τ st (lossSeq elem ((List.range n).map p) ((List.range n).map tg) mean)
      (some (scalar ((∑ t ∈ Finset.range n, f t) / if mean then (n : ℝ) else 1))) (New st) := by
  rw [← sum_range_list]
  obtain ⟨m, rfl⟩ : ∃ m, n = m + 1 := ⟨n - 1, by omega⟩
  have hlen : ((List.range (m + 1)).map p).length = m + 1 := by simp
  rw [List.range_succ_eq_map] at hlen ⊢
  simp only [List.map_cons, List.sum_cons] at hlen ⊢
  refine bindSome (he st 0 (ha 0 (by omega))) fun st₁ e h => ?_
  refine bindSome (seqLoop_vals (n := st.length) hA he (is := (List.range m).map Nat.succ) (fun t ht => ?_) h.1 h.2
    (by simp)) fun st₂ l hl => ?_
  · obtain ⟨t', ht', rfl⟩ := List.mem_map.mp ht
    exact hA _ _ _ (ha _ (by simp at ht'; omega))
  have hite : ∀ (x : ℝ), some (scalar (x / if mean = true then ((m + 1 : Nat) : ℝ) else 1)) =
      (if mean = true then some (scalar (x / ((m + 1 : Nat) : ℝ))) else some (scalar x)) := by
    intro x
    cases mean <;> simp
  rw [hite]
  refine ite_sim (fun _ => ?_) fun _ => Sim.pure hl
  rw [hlen]
  refine Sim.bindConst fun st₃ c hc => ?_
  refine (callN (.cons (hl.1.mono st₃).v (.cons hc .nil)) ?_ ⟨l, by simp, _, hl.1.mono st₃⟩
    fun _ _ => .divScalar ?_).weaken fun _ _ _ _ h => ⟨h.1, ?_⟩
  · rw [Losses.divScalar_fwd, Losses.map_scalar, mul_one_div]
  · show ((m + 1 : Nat) : ℝ) ≠ 0
    exact Nat.cast_ne_zero.mpr (by omega)
  · refine le_trans ?_ h.2
    simp only [List.length_append]; omega

/-! ### The loss of a class, with the score at a given index in place of the largest -/

/-- `LogSumExp` with another operator in place of `ReduceMax`. -/
noncomputable def logSumExpBy (f : GradFn ℝ) (x : Nat) : B Nat := do
  let m ← call f [x]
  let d ← call subScalar [x, m]
  let e ← call GradFn.exp [d]
  let s ← call reduceSum [e]
  let l ← call logR [s]
  call GradFn.add [m, l]

/-- `CrossEntropy` with another operator in place of `ReduceMax`. -/
noncomputable def crossEntropyBy (f : GradFn ℝ) (x : Nat) (c : Int) : B Nat := do
  let a ← call (atVec c) [x]
  let n ← call GradFn.neg [a]
  let l ← logSumExpBy f x
  call GradFn.add [n, l]

/-- The losses with another operator in place of `ReduceMax`. -/
noncomputable def ClassLoss.codeBy (loss : ClassLoss) (x : Nat) (q : GradFn ℝ × Int) : B Nat := do
  let ce ← crossEntropyBy q.1 x q.2
  loss.rest q.2 ce

theorem atVec_col {o : Nat} (v : Nat → ℝ) {c : Nat} (hc : c < o) :
    (atVec (R := ℝ) c).forward [col o v] = some (scalar (v c)) := by
  simp only [atVec, Option.bind_eq_bind]
  rw [Losses.at1_val (col_isVector o v) (by simpa using hc), col_val v hc]; rfl

theorem exp_col (o : Nat) (v : Nat → ℝ) : GradFn.exp.forward [col o v] = some (col o fun i => Real.exp (v i)) := by
  rw [GradFn.exp, Losses.elementwise_fwd, col_map]

theorem sumExp_pos {o : Nat} (ho : 0 < o) (v : Nat → ℝ) : 0 < ∑ i ∈ Finset.range o, Real.exp (v i) :=
  Finset.sum_pos (fun _ _ => Real.exp_pos _) ⟨0, Finset.mem_range.mpr ho⟩

theorem logSumExp_shift {o : Nat} (ho : 0 < o) (v : Nat → ℝ) (m : ℝ) :
    m + Real.log (∑ i ∈ Finset.range o, Real.exp (v i - m)) = Real.log (∑ i ∈ Finset.range o, Real.exp (v i)) := by
  have : ∑ i ∈ Finset.range o, Real.exp (v i) = Real.exp m * ∑ i ∈ Finset.range o, Real.exp (v i - m) := by
    rw [Finset.mul_sum]
    refine Finset.sum_congr rfl fun i _ => ?_
    rw [← Real.exp_add]; congr 1; ring
  rw [this, Real.log_mul (Real.exp_pos m).ne' (sumExp_pos ho _).ne', Real.log_exp]

theorem logSumExpBy_sim {o k x : Nat} {v : Nat → ℝ} (hk : k < o) (hx : D st x (col o v)) :
    Sim s τ st (logSumExpBy (atVec k) x) (some (scalar (Real.log (∑ i ∈ Finset.range o, Real.exp (v i))))) (New st) := by
  refine bindD (.cons hx.v .nil) (atVec_col v hk) ⟨x, by simp, _, hx⟩ (fun _ _ => .atVec) fun st₁ m hm => ?_
  replace hx := hx.mono st₁
  refine bindD (.cons hx.v (.cons hm.v .nil)) (subScalar_col o v (v k)) ⟨x, by simp, _, hx⟩ (fun _ _ => .subScalar)
    fun st₂ d hd => ?_
  replace hm := hm.mono st₂
  refine bindD (.cons hd.v .nil) (exp_col o _) ⟨d, by simp, _, hd⟩ (fun _ _ => .exp) fun st₃ e he => ?_
  replace hm := hm.mono st₃
  refine bindD (.cons he.v .nil) (reduceSum_col o _) ⟨e, by simp, _, he⟩ (fun _ _ => .reduceSum rfl) fun st₄ z hz => ?_
  replace hm := hm.mono st₄
  refine bindD (.cons hz.v .nil) (Losses.log_scalar _) ⟨z, by simp, _, hz⟩ (fun _ _ => .log ?_) fun st₅ l hl => ?_
  · intro u hu
    obtain rfl : u = _ := List.mem_singleton.mp hu
    exact sumExp_pos (by omega) _
  replace hm := hm.mono st₅
  rw [← logSumExp_shift (show 0 < o by omega) v (v k)]
  exact (callN (.cons hm.v (.cons hl.v .nil)) (Losses.add_scalar _ _) ⟨m, by simp, _, hm⟩ fun _ _ => .add).weaken
    fun _ _ _ _ h => h.older.older.older.older.older

theorem log_probability {o c : Nat} (hc : c < o) (v : Nat → ℝ) :
    -Real.log (probability o v c) = -v c + Real.log (∑ i ∈ Finset.range o, Real.exp (v i)) := by
  unfold probability
  rw [Real.log_div (Real.exp_pos _).ne' (sumExp_pos (by omega) _).ne', Real.log_exp]; ring

theorem probability_pos {o c : Nat} (hc : c < o) (v : Nat → ℝ) : 0 < probability o v c :=
  div_pos (Real.exp_pos _) (sumExp_pos (by omega) _)

theorem probability_lt {o c : Nat} (hc : c < o) (h2 : 2 ≤ o) (v : Nat → ℝ) : probability o v c < 1 := by
  unfold probability
  rw [div_lt_one (sumExp_pos (by omega) _), ← Finset.add_sum_erase _ _ (Finset.mem_range.mpr hc)]
  obtain ⟨j, hj, hjc⟩ : ∃ j < o, j ≠ c := by
    rcases Nat.eq_zero_or_pos c with h | h
    · exact ⟨1, by omega, by omega⟩
    · exact ⟨0, by omega, by omega⟩
  have : 0 < ∑ i ∈ (Finset.range o).erase c, Real.exp (v i) :=
    Finset.sum_pos (fun i _ => Real.exp_pos _) ⟨j, Finset.mem_erase.mpr ⟨hjc, Finset.mem_range.mpr hj⟩⟩
  linarith

theorem crossEntropyBy_sim {o k c x : Nat} {v : Nat → ℝ} (hk : k < o) (hc : c < o) (hx : D st x (col o v)) :
    Sim s τ st (crossEntropyBy (atVec k) x c) (some (scalar (-Real.log (probability o v c)))) (New st) := by
  refine bindD (.cons hx.v .nil) (atVec_col v hc) ⟨x, by simp, _, hx⟩ (fun _ _ => .atVec) fun st₁ a ha => ?_
  replace hx := hx.mono st₁
  refine bindD (.cons ha.v .nil) (Losses.neg_scalar _) ⟨a, by simp, _, ha⟩ (fun _ _ => .neg) fun st₂ n hn => ?_
  replace hx := hx.mono st₂
  refine bindSome (logSumExpBy_sim hk hx) fun st₃ l hl => ?_
  replace hn := hn.mono st₃
  rw [log_probability hc]
  exact (callN (.cons hn.v (.cons hl.1.v .nil)) (Losses.add_scalar _ _) ⟨n, by simp, _, hn⟩ fun _ _ => .add).weaken
    fun _ _ _ _ h => h.older.older.older

theorem weighted_sim {w : Dense ℝ} {c ce : Nat} {L : ℝ} (hw : w.isVector) (hc : c < w.data.length)
    (h : D st ce (scalar L)) : Sim s τ st (weighted w c ce) (some (scalar (L * w.val c))) (New st) := by
  unfold weighted
  rw [Losses.at1_val hw hc]
  refine Sim.bindConst fun st₁ q hq => ?_
  refine (callN (.cons (h.mono st₁).v (.cons hq .nil)) ?_ ⟨ce, by simp, _, h.mono st₁⟩ fun _ _ => .prodScalar).weaken
    fun _ _ _ _ h => h.older
  rw [Losses.prodScalar_fwd, Losses.map_scalar]

theorem focus_sim {gamma L p : ℝ} {ce : Nat} (hp : Real.exp (-L) = p) (hg : p < 1 ∨ 1 ≤ gamma)
    (h : D st ce (scalar L)) : Sim s τ st (focus gamma ce) (some (scalar ((1 - p) ^ gamma * L))) (New st) := by
  refine bindD (.cons h.v .nil) (Losses.neg_scalar _) ⟨ce, by simp, _, h⟩ (fun _ _ => .neg) fun st₁ n hn => ?_
  replace h := h.mono st₁
  refine bindD (.cons hn.v .nil) (Losses.exp_scalar _) ⟨n, by simp, _, hn⟩ (fun _ _ => .exp) fun st₂ q hq => ?_
  replace h := h.mono st₂
  rw [hp] at hq
  refine Sim.bindConst fun st₃ one hone => ?_
  replace h := h.mono st₃; replace hq := hq.mono st₃
  refine bindD (.cons hq.v (.cons hone .nil)) (by rw [Losses.reverseSubScalar_fwd, Losses.map_scalar]) ⟨q, by simp, _, hq⟩
    (fun _ _ => .reverseSubScalar) fun st₄ sub hsub => ?_
  replace h := h.mono st₄
  refine bindD (.cons hsub.v .nil) (Losses.pow_scalar _ _) ⟨sub, by simp, _, hsub⟩ (fun _ _ => .pow ?_) fun st₅ a ha => ?_
  · intro u hu
    obtain rfl : u = _ := List.mem_singleton.mp hu
    exact hg.imp (fun h => by linarith) id
  replace h := h.mono st₅
  exact (callN (.cons ha.v (.cons h.v .nil)) (Losses.prod_scalar _ _) ⟨a, by simp, _, ha⟩ fun _ _ => .prod).weaken
    fun _ _ _ _ h => h.older.older.older.older.older

theorem codeBy_sim {loss : ClassLoss} {o k c x : Nat} {v : Nat → ℝ} (hl : loss.OK o) (hk : k < o) (hc : c < o)
    (hx : D st x (col o v)) : Sim s τ st (loss.codeBy x (atVec k, (c : Int))) (some (scalar (loss.value o v c))) (New st) := by
  refine bindSome (crossEntropyBy_sim hk hc hx) fun st₁ ce hce => ?_
  have hp : Real.exp (- -Real.log (probability o v c)) = probability o v c := by
    rw [neg_neg, Real.exp_log (probability_pos hc v)]
  have hg : ∀ {gamma : ℝ}, (2 ≤ o ∨ 1 ≤ gamma) → probability o v c < 1 ∨ 1 ≤ gamma :=
    fun h => h.imp (fun h => probability_lt hc h v) id
  cases loss with
  | crossEntropy => exact Sim.pure hce
  | weightedCrossEntropy w =>
    exact (weighted_sim hl.1 (lt_of_lt_of_le hc hl.2) hce.1).weaken fun _ _ _ _ h => h.older
  | focal gamma => exact (focus_sim hp (hg hl) hce.1).weaken fun _ _ _ _ h => h.older
  | weightedFocal w gamma =>
    refine bindSome (focus_sim hp (hg hl.2) hce.1) fun st₂ fl hfl => ?_
    exact (weighted_sim hl.1.1 (lt_of_lt_of_le hc hl.1.2) hfl.1).weaken fun _ _ _ _ h => h.older.older
  | perplexity =>
    refine (callN (.cons hce.1.v .nil) ?_ ⟨ce, by simp, _, hce.1⟩ fun _ _ => .exp).weaken fun _ _ _ _ h => h.older
    rw [Losses.exp_scalar, Real.exp_neg, Real.exp_log (probability_pos hc v)]
    simp [ClassLoss.value]

/-! ### The code is alike -/

theorem sameAt_argMax {x : Dense ℝ} {k : Nat} (h : x.argMax = some k) : SameAt (atVec k) reduceMax [x] := by
  constructor
  · simp only [atVec, reduceMax, h, Option.bind_eq_bind, Option.bind_some]
  · intro gy
    simp only [atVec, reduceMax, h, Option.bind_eq_bind, Option.bind_some]

theorem prefix_get {vals vals' : List (Dense ℝ)} (h : vals <+: vals') {x : Nat} {X : Dense ℝ} (hx : vals[x]? = some X) :
    vals'[x]? = some X := by
  obtain ⟨t, rfl⟩ := h
  rw [List.getElem?_append_left (List.getElem?_eq_some_iff.mp hx).1, hx]

theorem codeBy_twin {loss : ClassLoss} {vals : List (Dense ℝ)} {x k : Nat} {c : Int} {X : Dense ℝ}
    (hx : vals[x]? = some X) (hk : X.argMax = some k) :
    Twin θ vals (loss.codeBy x (atVec k, c)) (loss.code x c) := by
  refine Twin.bind ?_ fun _ _ _ => Twin.refl _ _
  refine Twin.bind (Twin.refl _ _) fun v₁ _ h₁ => ?_
  refine Twin.bind (Twin.refl _ _) fun v₂ _ h₂ => ?_
  refine Twin.bind ?_ fun _ _ _ => Twin.refl _ _
  refine Twin.bind (Twin.call fun xs h => ?_) fun _ _ _ => Twin.refl _ _
  have : v₂[x]? = some X := prefix_get (h₁.trans h₂) hx
  simp only [List.mapM_cons, List.mapM_nil, this, Option.pure_def, Option.bind_eq_bind, Option.bind_some] at h
  obtain rfl := Option.some.inj h
  exact sameAt_argMax hk

theorem seqLoop_twin {T T' : Type} {elem : Nat → T → B Nat} {elem' : Nat → T' → B Nat} {p : Nat → Nat} {tg : Nat → T}
    {tg' : Nat → T'} : ∀ {is : List Nat} {vals : List (Dense ℝ)} {l : Nat},
    (∀ t ∈ is, ∀ vals', vals <+: vals' → Twin θ vals' (elem (p t) (tg t)) (elem' (p t) (tg' t))) →
    Twin θ vals (seqLoop elem (is.map p) (is.map tg) l) (seqLoop elem' (is.map p) (is.map tg') l)
  | [], _, _, _ => Twin.refl _ _
  | t :: is, vals, l, h => by
    refine Twin.bind (h t (by simp) vals (List.prefix_refl _)) fun v₁ _ h₁ => ?_
    refine Twin.bind (Twin.refl _ _) fun v₂ _ h₂ => ?_
    exact seqLoop_twin fun t ht v hv => h t (by simp [ht]) v ((h₁.trans h₂).trans hv)

theorem lossSeq_twin {T T' : Type} {elem : Nat → T → B Nat} {elem' : Nat → T' → B Nat} {p : Nat → Nat} {tg : Nat → T}
    {tg' : Nat → T'} {is : List Nat} {vals : List (Dense ℝ)} {mean : Bool}
    (h : ∀ t ∈ is, ∀ vals', vals <+: vals' → Twin θ vals' (elem (p t) (tg t)) (elem' (p t) (tg' t))) :
    Twin θ vals (lossSeq elem (is.map p) (is.map tg) mean) (lossSeq elem' (is.map p) (is.map tg') mean) := by
  cases is with
  | nil => exact Twin.refl _ _
  | cons t is =>
    refine Twin.bind (h t (by simp) vals (List.prefix_refl _)) fun v₁ _ h₁ => ?_
    refine Twin.bind (seqLoop_twin fun t ht v hv => h t (by simp [ht]) v (h₁.trans hv)) fun v₂ _ _ => ?_
    exact Twin.refl _ _

/-! ### Training -/

/-- The recorded network, started on its parameters and inputs. -/
theorem net_start {i o n j : Nat} (N : Net i o) (hj : n ≤ j) (hn : 0 < n) (hf : N.Fits θ 0)
    (hr : N.Regular θ 0 (vectors θ N.size n))
    (hin : ∀ t < n, (θ (N.size + t)).rows = i ∧ (θ (N.size + t)).cols = 1)
    (hlike : ∀ x < N.size + j, (θ x).Like (τ x)) (hsz : 0 < N.size) :
    Sim (τ = θ) τ (start N.size j τ) (N.code 0 ((List.range n).map (N.size + ·)))
      (some ((N.apply τ 0 (vectors τ N.size n)).map (col o))) Outputs := by
  have hi := inputs_start (k := N.size) (j := j) (n := n) (m := 0) (τ := τ) (by omega)
  rw [Nat.add_zero, inputs_cols hin hlike (by omega)] at hi
  have hx : List.Forall₂ (W false (start N.size j τ)) ((List.range n).map (N.size + ·))
      ((vectors τ N.size n).map (col i)) := hi.imp fun _ _ h => h.w
  have hsim := net_sim (s := τ = θ) (τ := τ) N (k := 0) (b := false)
    (by rw [← List.length_pos_iff, vectors_length]; exact hn)
    (fun x _ h2 => start_param (by omega)) (fun x _ h2 => (hlike x (by omega)).wf)
    (hf.like N fun x _ h2 => hlike x (by omega)) (fun h => by subst h; exact hr) hx
  exact hsim.weaken fun _ _ _ _ h => h.imp fun _ _ h => h.dOf (by simpa using hsz)

theorem outputs_get {n o : Nat} {ys : List Nat} {xs : List (Nat → ℝ)} (hl : xs.length = n)
    (h : Outputs st ys (xs.map (col o))) : ys = (List.range n).map (fun t => ys.getD t 0) ∧
      ∀ t < n, D st (ys.getD t 0) (col o (xs.getD t 0)) := by
  have hlen : ys.length = n := by rw [List.Forall₂.length_eq h, List.length_map, hl]
  constructor
  · conv_lhs => rw [list_range 0 ys, hlen]
  · intro t ht
    have := (List.forall₂_iff_get.mp h).2 t (by omega) (by rw [List.length_map]; omega)
    simpa [List.getD, hlen, hl, ht] using this

/-- **C80.** Training a network of layers to classify the elements of sequences of any length; equal scores are no
exception. -/
theorem classes_train {i o n : Nat} (N : Net i o) (loss : ClassLoss) (cls : Nat → Nat) (mean : Bool) {θ : Nat → Dense ℝ}
    (hsz : 0 < N.size) (hn : 0 < n) (hθ : ∀ x < N.size + n, (θ x).WF) (hf : N.Fits θ 0)
    (hr : N.Regular θ 0 (vectors θ N.size n))
    (hin : ∀ t < n, (θ (N.size + t)).rows = i ∧ (θ (N.size + t)).cols = 1) (hcls : ∀ t < n, cls t < o)
    (hl : loss.OK o) :
    Trains N.size
      (program N.size n (withClasses loss N.size n ((List.range n).map fun t => (cls t : Int)) mean (N.code 0)))
      (result N.size n (withClasses loss N.size n ((List.range n).map fun t => (cls t : Int)) mean (N.code 0)))
      (fun τ => some (scalar (N.classError loss cls n mean τ))) θ := by
  have ho : 0 < o := lt_of_le_of_lt (Nat.zero_le _) (hcls 0 hn)
  -- the indices of the largest scores
  have hmax : ∀ t, ∃ k, (col o ((N.apply θ 0 (vectors θ N.size n)).getD t 0)).argMax = some k ∧ k < o := by
    intro t
    obtain ⟨a1, a2⟩ := VecFn.argMax_spec (col o ((N.apply θ 0 (vectors θ N.size n)).getD t 0))
    obtain ⟨k, hk⟩ := Option.isSome_iff_exists.mp (a1.mpr ⟨col_isVector _ _, by
      intro h
      have := congrArg List.length h
      simp at this; omega⟩)
    obtain ⟨m, hm, -⟩ := a2 k hk
    have := (List.getElem?_eq_some_iff.mp hm).1
    exact ⟨k, hk, by simpa using this⟩
  choose idx hidx hlt using hmax
  have hself : ∀ x < N.size + n, (θ x).Like (θ x) := fun x hx => ⟨hθ x hx, rfl, rfl⟩
  have hlen : ∀ τ : Nat → Dense ℝ, (N.apply τ 0 (vectors τ N.size n)).length = n := fun τ => by
    rw [apply_length, vectors_length]
  -- the code that takes the scores at these indices
  let shadow : B Nat := do
    let ys ← N.code 0 ((List.range n).map (N.size + ·))
    lossSeq loss.codeBy ys ((List.range n).map fun t => ((atVec (idx t) : GradFn ℝ), (cls t : Int))) mean
  have htrain : Trains N.size (program N.size n shadow) (result N.size n shadow)
      (fun τ => some (scalar (N.classError loss cls n mean τ))) θ := by
    refine trains_of_sim hθ ?_ rfl rfl
    intro τ hlike
    refine bindSome (net_start N (le_refl n) hn hf hr hin hlike hsz) fun st₁ ys hys => ?_
    obtain ⟨h1, h2⟩ := outputs_get (hlen τ) hys
    rw [h1]
    refine (lossSeq_vals (A := fun st t => t < n ∧ D st (ys.getD t 0) (col o ((N.apply τ 0 (vectors τ N.size n)).getD t 0)))
      (fun st st' t h => ⟨h.1, h.2.mono st'⟩)
      (fun st t h => codeBy_sim hl (hlt t) (hcls t h.1) h.2) hn (fun t ht => ⟨ht, h2 t ht⟩) mean).weaken ?_
    intro st₂ a b _ h
    refine ⟨h.1, le_trans ?_ h.2⟩
    rw [List.length_append, start_length]; omega
  refine htrain.twin ?_
  refine Twin.bind (Twin.refl _ _) fun vals hv _ => ?_
  have hsim := net_start (j := n) N (le_refl n) hn hf hr hin hself hsz
  obtain ⟨st', g1, -, -, g4⟩ := hsim
  rw [List.length_map] at hv ⊢
  rw [hv] at g1
  obtain rfl := Option.some.inj g1
  obtain ⟨h1, h2⟩ := outputs_get (hlen θ) g4
  rw [h1]
  refine lossSeq_twin (is := List.range n) fun t ht vals' hp => ?_
  refine codeBy_twin (X := col o ((N.apply θ 0 (vectors θ N.size n)).getD t 0)) ?_ (hidx t)
  refine prefix_get hp ?_
  rw [List.getElem?_map, h2 t (List.mem_range.mp ht)]; rfl

/-! ### Absolute errors -/

theorem abs_col (o : Nat) (v : Nat → ℝ) : GradFn.abs.forward [col o v] = some (col o fun i => |v i|) := by
  rw [GradFn.abs, Losses.elementwise_fwd, col_map]

theorem mae_sim {o x y : Nat} {v z : Nat → ℝ} (hx : D st x (col o v)) (hy : V st y (col o z))
    (hs : s → ∀ j < o, v j ≠ z j) :
    Sim s τ st (mae x y false) (some (scalar (∑ j ∈ Finset.range o, |v j - z j|))) (New st) := by
  refine bindD (.cons hx.v (.cons hy .nil)) (sub_col o v z) ⟨x, by simp, _, hx⟩ (fun _ _ => .sub) fun st₁ d hd => ?_
  refine bindD (.cons hd.v .nil) (abs_col o _) ⟨d, by simp, _, hd⟩ (fun h _ => .abs ?_) fun st₂ l hl => ?_
  · intro u hu
    obtain ⟨j, hj, rfl⟩ := List.mem_map.mp hu
    exact sub_ne_zero.mpr (hs h j (List.mem_range.mp hj))
  exact (callN (.cons hl.v .nil) (reduceSum_col o _) ⟨l, by simp, _, hl⟩ fun _ _ => .reduceSum rfl).weaken
    fun _ _ _ _ h => h.older.older

/-- **C80.** Training a network of layers on absolute errors, at parameters for which no output equals its target. -/
theorem absolute_trains {i o n : Nat} (N : Net i o) (mean : Bool) {θ : Nat → Dense ℝ} (hsz : 0 < N.size) (hn : 0 < n)
    (hθ : ∀ x < N.size + (n + n), (θ x).WF) (hf : N.Fits θ 0) (hr : N.Regular θ 0 (vectors θ N.size n))
    (hin : ∀ t < n, (θ (N.size + t)).rows = i ∧ (θ (N.size + t)).cols = 1)
    (htgt : ∀ t < n, (θ (N.size + n + t)).rows = o ∧ (θ (N.size + n + t)).cols = 1)
    (hne : ∀ t < n, ∀ j < o, (N.apply θ 0 (vectors θ N.size n)).getD t 0 j ≠ (θ (N.size + n + t)).val j) :
    Trains N.size (program N.size (n + n) (withAbsolute N.size n mean (N.code 0)))
      (result N.size (n + n) (withAbsolute N.size n mean (N.code 0)))
      (fun τ => some (scalar (N.absoluteError n mean τ))) θ := by
  refine trains_of_sim hθ ?_ rfl rfl
  intro τ hlike
  have hlen : (N.apply τ 0 (vectors τ N.size n)).length = n := by rw [apply_length, vectors_length]
  refine bindSome (net_start N (by omega) hn hf hr hin hlike hsz) fun st₁ ys hys => ?_
  obtain ⟨h1, h2⟩ := outputs_get hlen hys
  rw [h1]
  refine (lossSeq_vals (p := fun t => ys.getD t 0) (tg := fun t => N.size + n + t)
    (f := fun t => ∑ j ∈ Finset.range o, |(N.apply τ 0 (vectors τ N.size n)).getD t 0 j - (τ (N.size + n + t)).val j|)
    (A := fun st t => t < n ∧ D st (ys.getD t 0) (col o ((N.apply τ 0 (vectors τ N.size n)).getD t 0)) ∧
      V st (N.size + n + t) (col o (τ (N.size + n + t)).val))
    (fun st st' t h => ⟨h.1, h.2.1.mono st', h.2.2.mono st'⟩)
    (fun st t h => mae_sim h.2.1 h.2.2 fun e => ?_) hn (fun t ht => ⟨ht, h2 t ht, ?_⟩) mean).weaken ?_
  · subst e
    exact hne t h.1
  · have hl := hlike (N.size + n + t) (by omega)
    obtain ⟨g1, g2⟩ := htgt t ht
    rw [← hl.rows] at g1
    rw [← hl.cols] at g2
    have hv := (start_input (θ := τ) (k := N.size) (j := n + n) (i := n + t) (by omega)).mono st₁
    rw [← Nat.add_assoc] at hv
    exact ((eq_col hl.wf g2).trans (congrArg (fun r => col r _) g1)) ▸ hv
  · intro st₂ a b _ h
    refine ⟨h.1, le_trans ?_ h.2⟩
    rw [List.length_append, start_length]; omega

/-! ### Examples -/

/-- A GRU and a linear layer that gives scores for `o` classes. -/
def tagger (i h o : Nat) : Net i o := .seq (.gru i h) (.linear h o)

/-- All parameters are 0, so that all scores are equal; still it is trained, on sequences of every length. -/
example (i h o n : Nat) (hn : 0 < n) (ho : 2 ≤ o) (gamma : ℝ) :
    Trains 11 (program 11 n (withClasses (.focal gamma) 11 n ((List.range n).map fun t => ((t % 2 : Nat) : Int)) true
        ((tagger i h o).code 0)))
      (result 11 n (withClasses (.focal gamma) 11 n ((List.range n).map fun t => ((t % 2 : Nat) : Int)) true
        ((tagger i h o).code 0)))
      (fun τ => some (scalar ((tagger i h o).classError (.focal gamma) (· % 2) n true τ)))
      (fun x => if x < 9 then (if x % 3 = 0 then zeros h i else if x % 3 = 1 then zeros h h else zeros h 1) else
        if x = 9 then zeros o h else if x = 10 then zeros o 1 else zeros i 1) := by
  have hs : (tagger i h o).size = 11 := rfl
  refine classes_train (tagger i h o) (.focal gamma) (· % 2) true (by rw [hs]; omega) hn
    (fun x _ => by split_ifs <;> exact Dense.zeros_WF _ _) ?_ ?_ ?_ ?_ (Or.inl ho)
  · exact ⟨⟨⟨⟨rfl, rfl⟩, ⟨rfl, rfl⟩, ⟨rfl, rfl⟩⟩, ⟨⟨rfl, rfl⟩, ⟨rfl, rfl⟩, ⟨rfl, rfl⟩⟩,
      ⟨⟨rfl, rfl⟩, ⟨rfl, rfl⟩, ⟨rfl, rfl⟩⟩⟩, ⟨⟨rfl, rfl⟩, ⟨rfl, rfl⟩⟩⟩
  · exact ⟨trivial, trivial⟩
  · intro t ht
    simp only [hs]
    rw [if_neg (by omega), if_neg (by omega), if_neg (by omega)]; exact ⟨rfl, rfl⟩
  · intro t _
    exact lt_of_lt_of_le (Nat.mod_lt _ (by omega)) ho

/-- A linear layer whose outputs are 0, with targets 1. -/
example (i o n : Nat) (hn : 0 < n) :
    Trains 2 (program 2 (n + n) (withAbsolute 2 n false ((Net.linear i o).code 0)))
      (result 2 (n + n) (withAbsolute 2 n false ((Net.linear i o).code 0)))
      (fun τ => some (scalar ((Net.linear i o).absoluteError n false τ)))
      (fun x => if x = 0 then zeros o i else if x = 1 then zeros o 1 else if x < 2 + n then zeros i 1 else
        col o fun _ => 1) := by
  have hs : (Net.linear i o).size = 2 := rfl
  refine absolute_trains (Net.linear i o) false (by rw [hs]; omega) hn
    (fun x _ => by split_ifs <;> first | exact Dense.zeros_WF _ _ | exact col_WF _ _) ⟨⟨rfl, rfl⟩, ⟨rfl, rfl⟩⟩ trivial ?_ ?_ ?_
  · intro t ht
    simp only [hs]
    rw [if_neg (by omega), if_neg (by omega), if_pos (by omega)]; exact ⟨rfl, rfl⟩
  · intro t ht
    simp only [hs]
    rw [if_neg (by omega), if_neg (by omega), if_neg (by omega)]; exact ⟨rfl, rfl⟩
  · intro t ht j hj
    simp only [hs]
    rw [if_neg (by omega), if_neg (by omega), if_neg (by omega), col_val _ hj]
    have h1 : ∀ k ∈ Finset.range i, (zeros o i : Dense ℝ).el j k * (if 2 + t = 1 then zeros o 1 else zeros i 1 : Dense ℝ).val k = 0 :=
      fun k hk => by rw [GradFn.zeros_el hj (Finset.mem_range.mp hk), zero_mul]
    have h2 : (zeros o 1 : Dense ℝ).val j = 0 := by simp [Dense.val, zeros, List.getElem?_replicate, hj]
    simp [Net.apply, affineMap, List.getD, vectors, ht, Finset.sum_eq_zero h1, h2]

end Verif.Record
