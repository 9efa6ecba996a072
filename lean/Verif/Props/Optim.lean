import Verif.Spec.Optim
import Verif.Lemmas.Grid
import Mathlib.Tactic.FieldSimp
import Mathlib.Tactic.Ring
import Mathlib.Tactic.Positivity
import Mathlib.Algebra.BigOperators.Field
import Mathlib.Algebra.Order.BigOperators.Ring.Finset

set_option autoImplicit false
set_option linter.unusedSimpArgs false

/-!
# C27: the update rules of the optimisers
-/

namespace Verif.Optim
open Dense OptimSpec
open scoped BigOperators

/-! ## Histories -/

theorem run_grid {O S : Type} (tick : O → O) (optimize : O → Param → Option (Param × Bool)) (mk : Nat → O)
    (htick : ∀ t, tick (mk t) = mk (t + 1)) (emb : S → Param) (hg : ∀ s, (emb s).grad = none)
    (f : Nat → S → (Nat → ℝ) → S) (r c : Nat)
    (hopt : ∀ t s g, optimize (mk t) ⟨(emb s).value, some (grid r c g), (emb s).state⟩ = some (emb (f t s g), false)) :
    ∀ (es : List Ev) (t : Nat) (s : S), (∀ g, Ev.step g ∈ es → g.WF ∧ g.rows = r ∧ g.cols = c) →
      ∃ t', run tick optimize (mk t) (emb s) es =
        some (mk t', emb ((timed t es).foldl (fun s q => f q.1 s q.2.val) s)) := by
  intro es
  induction es with
  | nil => intro t s _; exact ⟨t, rfl⟩
  | cons e es ih =>
    intro t s h
    cases e with
    | tick =>
      obtain ⟨t', ht⟩ := ih (t + 1) s fun g hg => h g (List.mem_cons_of_mem _ hg)
      exact ⟨t', by simp only [run, htick, ht, timed]⟩
    | step g =>
      obtain ⟨hw, h1, h2⟩ := h g List.mem_cons_self
      obtain ⟨t', ht⟩ := ih t (f t s g.val) fun g hg => h g (List.mem_cons_of_mem _ hg)
      refine ⟨t', ?_⟩
      have he : g = grid r c g.val := by rw [← h1, ← h2]; exact eq_grid hw
      have ha : (emb s).accGrad g = some ⟨(emb s).value, some (grid r c g.val), (emb s).state⟩ := by
        rw [Param.accGrad, hg s, ← he]
      simp only [run, ha, Option.bind_eq_bind, Option.bind_some, hopt, timed, List.foldl_cons]
      exact ht

/-- Before the first step, a parameter without state behaves like one with the initial state. -/
theorem run_nil {O : Type} (tick : O → O) (optimize : O → Param → Option (Param × Bool)) (v : Dense ℝ) (st : PState)
    (hopt : ∀ o g, optimize o ⟨v, some g, .nil⟩ = optimize o ⟨v, some g, st⟩) (es : List Ev) (o o' : O) (q : Param)
    (h : run tick optimize o ⟨v, none, st⟩ es = some (o', q)) :
    ∃ q', run tick optimize o ⟨v, none, .nil⟩ es = some (o', q') ∧ q'.value = q.value ∧ q'.grad = q.grad := by
  induction es generalizing o with
  | nil =>
    simp only [run, Option.some.injEq, Prod.mk.injEq] at h
    obtain ⟨rfl, rfl⟩ := h
    exact ⟨_, rfl, rfl, rfl⟩
  | cons e es ih =>
    cases e with
    | tick => exact ih _ h
    | step g =>
      refine ⟨q, ?_, rfl, rfl⟩
      rw [← h]
      simp only [run, Param.accGrad, Option.bind_eq_bind, Option.bind_some, hopt]

/-- A left fold, step by step. -/
theorem foldl_seq {A S : Type} (F : S → A → S) (s : S) (L : List A) (d : A) (seq : Nat → S) (h0 : seq 0 = s)
    (hs : ∀ k, seq (k + 1) = F (seq k) (L.getD k d)) : L.foldl F s = seq L.length := by
  have key : ∀ k ≤ L.length, (L.take k).foldl F s = seq k := by
    intro k
    induction k with
    | zero => intro _; simp [h0]
    | succ k ih =>
      intro hk
      rw [List.take_succ_eq_append_getElem (by omega), List.foldl_append, ih (by omega), hs]
      simp [List.getD_eq_getElem?_getD, List.getElem?_eq_getElem (show k < L.length by omega)]
  have := key L.length le_rfl
  rwa [List.take_length] at this

/-- The states of a strategy along the gradients `g` applied at the time steps `t`. -/
def states {S : Type} (f : Nat → S → (Nat → ℝ) → S) (t : Nat → Nat) (g : Nat → Nat → ℝ) (s0 : S) : Nat → S
  | 0 => s0
  | k + 1 => f (t k) (states f t g s0 k) (g k)

/-- The general shape of the history theorems: `emb` embeds abstract states, `val` is the value they hold. -/
theorem follows {O S : Type} (tick : O → O) (optimize : O → Param → Option (Param × Bool)) (mk : Nat → O)
    (htick : ∀ t, tick (mk t) = mk (t + 1)) (p : Param) (hp : Fresh p) (st : (r c : Nat) → S → PState)
    (val : S → Nat → ℝ) (f : Nat → S → (Nat → ℝ) → S)
    (hopt : ∀ t s g, optimize (mk t)
        ⟨grid p.value.rows p.value.cols (val s), some (grid p.value.rows p.value.cols g),
          st p.value.rows p.value.cols s⟩ =
      some (⟨grid p.value.rows p.value.cols (val (f t s g)), none, st p.value.rows p.value.cols (f t s g)⟩, false))
    (s0 : S) (h0 : val s0 = p.value.val)
    (hnil : ∀ o g, optimize o ⟨p.value, some g, .nil⟩ = optimize o ⟨p.value, some g, st p.value.rows p.value.cols s0⟩)
    (es : List Ev) (hf : Fits p es) (θ : Nat → Nat → ℝ)
    (hθ : ∀ k, ∀ i < p.value.rows * p.value.cols, val (states f (times es) (grads es) s0 k) i = θ k i) :
    Follows p θ (count es) (run tick optimize (mk 1) p es) := by
  obtain ⟨hw, hgr, hst⟩ := hp
  have hpv : p.value = grid p.value.rows p.value.cols (val s0) := by rw [h0]; exact eq_grid hw
  have hpe : p = ⟨p.value, none, .nil⟩ := by
    obtain ⟨v, g, s⟩ := p
    simp only at hgr hst
    rw [hgr, hst]
  generalize hr : p.value.rows = r at *
  generalize hc : p.value.cols = c at *
  obtain ⟨t', ht⟩ := run_grid tick optimize mk htick (fun s => ⟨grid r c (val s), none, st r c s⟩) (fun _ => rfl) f r c
    (fun t s g => hopt t s g) es 1 s0 (by intro g hg; have := hf g hg; rwa [hr, hc] at this)
  rw [foldl_seq _ s0 (timed 1 es) (0, ⟨0, 0, []⟩) (states f (times es) (grads es) s0) rfl
    (fun k => rfl)] at ht
  rw [← hpv] at ht
  obtain ⟨q, hq, hv, hg⟩ := run_nil tick optimize p.value (st r c s0) hnil es _ _ _ ht
  refine ⟨mk t', q, ?_, hg, by rw [hv]; exact grid_WF _ _ _, by rw [hv, hr]; rfl, by rw [hv, hc]; rfl, fun i hi => ?_⟩
  · rw [hpe]; exact hq
  · rw [hr, hc] at hi
    rw [hv, grid_val _ hi]
    exact hθ _ i hi

/-! ## Exponentially weighted sums -/

/-- The value of a sequence one step earlier, 0 at first. -/
def prev (F : Nat → ℝ) : Nat → ℝ
  | 0 => 0
  | k + 1 => F k

theorem prev_succ (F : Nat → ℝ) (k : Nat) : prev F (k + 1) = F k := rfl

theorem wsum_succ (β : ℝ) (y : Nat → ℝ) (k : Nat) :
    ∑ j ∈ Finset.range (k + 1), β ^ (k - j) * y j =
      prev (fun k => ∑ j ∈ Finset.range (k + 1), β ^ (k - j) * y j) k * β + y k := by
  cases k with
  | zero => simp [prev]
  | succ k =>
    rw [Finset.sum_range_succ]
    simp only [prev, Nat.sub_self, pow_zero, one_mul, Finset.sum_mul]
    congr 1
    refine Finset.sum_congr rfl fun j hj => ?_
    have := Finset.mem_range.mp hj
    rw [show k + 1 - j = (k - j) + 1 by omega, pow_succ]
    ring

theorem average_succ (β : ℝ) (x : Nat → ℝ) (k : Nat) :
    average β x k = prev (average β x) k * β + x k * (1 - β) := by
  have h : ∀ k, average β x k = ∑ j ∈ Finset.range (k + 1), β ^ (k - j) * (x j * (1 - β)) := fun k =>
    Finset.sum_congr rfl fun j _ => by ring
  have h' : average β x = fun k => ∑ j ∈ Finset.range (k + 1), β ^ (k - j) * (x j * (1 - β)) := funext h
  rw [h', ← wsum_succ]

theorem velocity_succ (α μ : ℝ) (g : Nat → Nat → ℝ) (k i : Nat) :
    velocity α μ g k i = prev (fun k => velocity α μ g k i) k * μ + g k i * α := by
  have := wsum_succ μ (fun j => α * g j i) k
  simp only [velocity]
  rw [this, mul_comm α (g k i)]

theorem sumsq_succ (g : Nat → ℝ) (k : Nat) :
    ∑ j ∈ Finset.range (k + 1), g j ^ 2 = prev (fun k => ∑ j ∈ Finset.range (k + 1), g j ^ 2) k + g k * g k := by
  cases k with
  | zero => simp [prev, sq]
  | succ k => rw [Finset.sum_range_succ]; simp only [prev, sq]

/-! ## Plain SGD, momentum, Nesterov -/

/-- Plain gradient descent: `θ ← θ - α g` for every history. -/
theorem sgd_plain (o : SGDConfig) (hmu : o.mu = 0) (p : Param) (hp : Fresh p) (es : List Ev) (hf : Fits p es) :
    Follows p (trajectory p.value.val (sgd o.alpha (grads es))) (count es)
      (run id (fun _ => sgdOptimize o) () p es) := by
  refine follows (O := Unit) (S := (Nat → ℝ) × (Nat → ℝ)) id (fun _ => sgdOptimize o) (fun _ => ()) (fun _ => rfl) p hp
    (fun r c s => .sgd ⟨grid r c s.2⟩) (fun s => s.1)
    (fun _ s g => (fun i => s.1 i - g i * o.alpha, fun i => g i * o.alpha)) ?_ (p.value.val, fun _ => 0) rfl ?_ es hf _ ?_
  · intro t s g
    simp only [sgdOptimize, optimizeParams, sgdCalc, hmu, if_true, grid_map, grid_zipOp, Option.bind_eq_bind,
      Option.bind_some]
  · intro _ g
    simp only [sgdOptimize, optimizeParams, grid_zeros]
  · intro k i _
    induction k with
    | zero => rfl
    | succ k ih =>
      simp only [states, trajectory, sgd]
      rw [ih, mul_comm]

/-- Momentum: the parameter moves by the velocity `∑ μ^(k-j) α g_j`, for every history. -/
theorem sgd_momentum (o : SGDConfig) (hmu : o.mu ≠ 0) (hn : o.nesterov = false) (p : Param) (hp : Fresh p)
    (es : List Ev) (hf : Fits p es) :
    Follows p (trajectory p.value.val (momentum o.alpha o.mu (grads es))) (count es)
      (run id (fun _ => sgdOptimize o) () p es) := by
  refine follows (O := Unit) (S := (Nat → ℝ) × (Nat → ℝ)) id (fun _ => sgdOptimize o) (fun _ => ()) (fun _ => rfl) p hp
    (fun r c s => .sgd ⟨grid r c s.2⟩) (fun s => s.1)
    (fun _ s g => (fun i => s.1 i - (s.2 i * o.mu + g i * o.alpha), fun i => s.2 i * o.mu + g i * o.alpha)) ?_
    (p.value.val, fun _ => 0) rfl ?_ es hf _ ?_
  · intro t s g
    simp only [sgdOptimize, optimizeParams, sgdCalc, hmu, hn, if_false, grid_map, grid_zipOp, Option.bind_eq_bind,
      Option.bind_some, Bool.false_eq_true]
  · intro _ g
    simp only [sgdOptimize, optimizeParams, grid_zeros]
  · intro k i _
    generalize hS : states _ _ _ _ = S
    have hv : ∀ k, (S k).2 i = prev (fun k => velocity o.alpha o.mu (grads es) k i) k := by
      intro k
      induction k with
      | zero => rw [← hS]; rfl
      | succ k ih => simp only [prev]; rw [velocity_succ, ← ih, ← hS]; rfl
    induction k with
    | zero => rw [← hS]; rfl
    | succ k ih =>
      simp only [trajectory, momentum]
      rw [velocity_succ, ← hv, ← ih, ← hS]
      rfl

/-- Nesterov's accelerated gradient. The published iterate `x` moves by the velocity, `x' = x - v'` with
`v' = μ v + α g`, and its gradient is taken at the look-ahead point `x - μ v`. The parameter holds exactly that
look-ahead point, before and after every step. -/
theorem sgd_nesterov (o : SGDConfig) (hmu : o.mu ≠ 0) (hn : o.nesterov = true) (p : Param) (hp : Fresh p)
    (es : List Ev) (hf : Fits p es) :
    Follows p
      (fun n i => trajectory p.value.val (momentum o.alpha o.mu (grads es)) n i -
        o.mu * (match n with | 0 => 0 | k + 1 => velocity o.alpha o.mu (grads es) k i))
      (count es) (run id (fun _ => sgdOptimize o) () p es) := by
  refine follows (O := Unit) (S := (Nat → ℝ) × (Nat → ℝ)) id (fun _ => sgdOptimize o) (fun _ => ()) (fun _ => rfl) p hp
    (fun r c s => .sgd ⟨grid r c s.2⟩) (fun s => s.1)
    (fun _ s g => (fun i => s.1 i - ((s.2 i * o.mu + g i * o.alpha) * (1 + o.mu) - s.2 i * o.mu),
      fun i => s.2 i * o.mu + g i * o.alpha)) ?_
    (p.value.val, fun _ => 0) rfl ?_ es hf _ ?_
  · intro t s g
    simp only [sgdOptimize, optimizeParams, sgdCalc, hmu, hn, if_false, if_true, grid_map, grid_zipOp,
      Option.bind_eq_bind, Option.bind_some]
  · intro _ g
    simp only [sgdOptimize, optimizeParams, grid_zeros]
  · intro k i _
    generalize hS : states _ _ _ _ = S
    have hv : ∀ k, (S k).2 i = prev (fun k => velocity o.alpha o.mu (grads es) k i) k := by
      intro k
      induction k with
      | zero => rw [← hS]; rfl
      | succ k ih => simp only [prev]; rw [velocity_succ, ← ih, ← hS]; rfl
    have key : (S k).1 i = trajectory p.value.val (momentum o.alpha o.mu (grads es)) k i -
        o.mu * prev (fun k => velocity o.alpha o.mu (grads es) k i) k := by
      induction k with
      | zero => rw [← hS]; simp [prev, states, trajectory]
      | succ k ih =>
        have h1 : (S (k + 1)).1 i = (S k).1 i - (((S k).2 i * o.mu + grads es k i * o.alpha) * (1 + o.mu) -
            (S k).2 i * o.mu) := by rw [← hS]; rfl
        rw [h1, ih, hv]
        simp only [trajectory, momentum, prev_succ]
        rw [velocity_succ]
        ring
    rw [key]
    cases k <;> rfl

/-! ## AdaGrad, RMSProp -/

/-- AdaGrad: every step divides by the root of the sum of all squares so far. -/
theorem adaGrad_history (o : AdaGradConfig) (p : Param) (hp : Fresh p) (es : List Ev) (hf : Fits p es) :
    Follows p (trajectory p.value.val (adaGrad o.lr o.epsilon (grads es))) (count es)
      (run id (fun _ => adaGradOptimize o) () p es) := by
  refine follows (O := Unit) (S := (Nat → ℝ) × (Nat → ℝ)) id (fun _ => adaGradOptimize o) (fun _ => ()) (fun _ => rfl)
    p hp (fun r c s => .adagrad ⟨grid r c s.2⟩) (fun s => s.1)
    (fun _ s g => (fun i => s.1 i - g i / (Real.sqrt (s.2 i + g i * g i) + o.epsilon) * o.lr,
      fun i => s.2 i + g i * g i)) ?_
    (p.value.val, fun _ => 0) rfl ?_ es hf _ ?_
  · intro t s g
    simp only [adaGradOptimize, optimizeParams, adaGradCalc, grid_map, grid_zipOp, Option.bind_eq_bind,
      Option.bind_some]
  · intro _ g
    simp only [adaGradOptimize, optimizeParams, grid_zeros]
  · intro k i _
    generalize hS : states _ _ _ _ = S
    have hv : ∀ k, (S k).2 i = prev (fun k => ∑ j ∈ Finset.range (k + 1), grads es j i ^ 2) k := by
      intro k
      induction k with
      | zero => rw [← hS]; rfl
      | succ k ih => simp only [prev]; rw [sumsq_succ (fun j => grads es j i), ← ih, ← hS]; rfl
    induction k with
    | zero => rw [← hS]; rfl
    | succ k ih =>
      simp only [trajectory, adaGrad]
      rw [sumsq_succ (fun j => grads es j i), ← hv, ← ih, mul_comm, ← hS]
      rfl

/-- RMSProp: every step divides by the root of the moving average of the squares. -/
theorem rmsProp_history (o : RMSPropConfig) (p : Param) (hp : Fresh p) (es : List Ev) (hf : Fits p es) :
    Follows p (trajectory p.value.val (rmsProp o.lr o.epsilon o.decay (grads es))) (count es)
      (run id (fun _ => rmsPropOptimize o) () p es) := by
  refine follows (O := Unit) (S := (Nat → ℝ) × (Nat → ℝ)) id (fun _ => rmsPropOptimize o) (fun _ => ()) (fun _ => rfl)
    p hp (fun r c s => .rmsprop ⟨grid r c s.2⟩) (fun s => s.1)
    (fun _ s g => (fun i => s.1 i - g i / (Real.sqrt (s.2 i * o.decay + g i * g i * (1 - o.decay)) + o.epsilon) * o.lr,
      fun i => s.2 i * o.decay + g i * g i * (1 - o.decay))) ?_
    (p.value.val, fun _ => 0) rfl ?_ es hf _ ?_
  · intro t s g
    simp only [rmsPropOptimize, optimizeParams, rmsPropCalc, grid_map, grid_zipOp, Option.bind_eq_bind,
      Option.bind_some]
  · intro _ g
    simp only [rmsPropOptimize, optimizeParams, grid_zeros]
  · intro k i _
    generalize hS : states _ _ _ _ = S
    have hv : ∀ k, (S k).2 i = prev (average o.decay fun j => grads es j i ^ 2) k := by
      intro k
      induction k with
      | zero => rw [← hS]; rfl
      | succ k ih => simp only [prev]; rw [average_succ, ← ih, ← hS, sq]; rfl
    induction k with
    | zero => rw [← hS]; rfl
    | succ k ih =>
      simp only [trajectory, rmsProp]
      rw [average_succ, ← hv, ← ih, mul_comm, ← hS, sq]
      rfl

/-! ## Adam, AdamW -/

/-- The optimizer object at clock `t`. -/
noncomputable def adamAt (c : AdamConfig) (t : Nat) : Adam := ⟨c, adamAlpha c t, t⟩

theorem adam_new (c : AdamConfig) : Adam.new c = adamAt c 1 := rfl

/-- The recurrence followed by the code, with and without weight decay. -/
theorem adam_code (c : AdamConfig) (p : Param) (hp : Fresh p) (es : List Ev) (hf : Fits p es) :
    Follows p (trajectory p.value.val (adamWCode c (times es) (grads es))) (count es)
      (run Adam.incExample adamOptimize (Adam.new c) p es) := by
  rw [adam_new]
  refine follows (O := Adam) (S := (Nat → ℝ) × (Nat → ℝ) × (Nat → ℝ)) Adam.incExample adamOptimize (adamAt c)
    (fun _ => rfl) p hp (fun r c s => .adam ⟨grid r c s.2.1, grid r c s.2.2⟩) (fun s => s.1)
    (fun t s g =>
      (fun i => s.1 i - ((s.2.1 i * c.beta1 + g i * (1 - c.beta1)) /
          (Real.sqrt (s.2.2 i * c.beta2 + g i * g i * (1 - c.beta2)) + c.epsilon) + s.1 i * c.lambda) * adamAlpha c t,
        fun i => s.2.1 i * c.beta1 + g i * (1 - c.beta1),
        fun i => s.2.2 i * c.beta2 + g i * g i * (1 - c.beta2))) ?_
    (p.value.val, fun _ => 0, fun _ => 0) rfl ?_ es hf _ ?_
  · intro t s g
    by_cases hl : c.lambda = 0
    · simp only [adamOptimize, optimizeParams, adamCalc, adamUpdateV, adamUpdateM, grid_map, grid_zipOp,
        Option.bind_eq_bind, Option.bind_some, adamAt, hl, ne_eq, not_true_eq_false, if_false, mul_zero, add_zero]
    · simp only [adamOptimize, optimizeParams, adamCalc, adamUpdateV, adamUpdateM, grid_map, grid_zipOp,
        Option.bind_eq_bind, Option.bind_some, adamAt, hl, ne_eq, not_false_eq_true, if_true]
  · intro _ g
    simp only [adamOptimize, optimizeParams, grid_zeros]
  · intro k i _
    generalize hS : states _ _ _ _ = S
    have hm : ∀ k, (S k).2.1 i = prev (average c.beta1 fun j => grads es j i) k := by
      intro k
      induction k with
      | zero => rw [← hS]; rfl
      | succ k ih => simp only [prev]; rw [average_succ, ← ih, ← hS]; rfl
    have hv : ∀ k, (S k).2.2 i = prev (average c.beta2 fun j => grads es j i ^ 2) k := by
      intro k
      induction k with
      | zero => rw [← hS]; rfl
      | succ k ih => simp only [prev]; rw [average_succ, ← ih, ← hS, sq]; rfl
    induction k with
    | zero => rw [← hS]; rfl
    | succ k ih =>
      simp only [trajectory, adamWCode, adamDir]
      rw [average_succ, ← hm, average_succ, ← hv, ← ih, mul_comm, mul_comm c.lambda, ← hS, sq]
      rfl

/-- Two update rules which agree give the same iterates. -/
theorem trajectory_congr (θ0 : Nat → ℝ) {δ δ' : Nat → (Nat → ℝ) → Nat → ℝ} (n : Nat)
    (h : ∀ k < n, ∀ θ i, δ k θ i = δ' k θ i) : trajectory θ0 δ n = trajectory θ0 δ' n := by
  induction n with
  | zero => rfl
  | succ k ih =>
    funext i
    have := ih fun k' hk' => h k' (by omega)
    simp only [trajectory, this, h k (by omega)]

/-- Adam follows the published recurrence for every history. -/
theorem adam_history (c : AdamConfig) (hl : c.lambda = 0) (p : Param) (hp : Fresh p) (es : List Ev) (hf : Fits p es) :
    Follows p (trajectory p.value.val (adam c (times es) (grads es))) (count es)
      (run Adam.incExample adamOptimize (Adam.new c) p es) := by
  have h := adam_code c p hp es hf
  have : trajectory p.value.val (adamWCode c (times es) (grads es)) (count es) =
      trajectory p.value.val (adam c (times es) (grads es)) (count es) :=
    trajectory_congr _ _ fun k _ θ i => by simp [adamWCode, adam, hl]
  simp only [Follows] at h ⊢
  rw [this] at h
  exact h

/-- The two ways of writing Adam agree: the correction of the moments, with `ε` rescaled. In particular, for `ε = 0` the
step is `α m̂ / √v̂`. -/
theorem adam_corrected (c : AdamConfig) (t : Nat → Nat) (g : Nat → Nat → ℝ) (k : Nat) (θ : Nat → ℝ) (i : Nat)
    (h0 : 0 ≤ c.beta2) (h1 : c.beta2 < 1) (ht : t k ≠ 0) :
    adam c t g k θ i = c.stepSize * (average c.beta1 (fun j => g j i) k / (1 - c.beta1 ^ t k)) /
      (Real.sqrt (average c.beta2 (fun j => g j i ^ 2) k / (1 - c.beta2 ^ t k)) +
        c.epsilon / Real.sqrt (1 - c.beta2 ^ t k)) := by
  have hs : 0 < 1 - c.beta2 ^ t k := sub_pos.mpr (pow_lt_one₀ h0 h1 ht)
  have hr : Real.sqrt (1 - c.beta2 ^ t k) ≠ 0 := (Real.sqrt_pos.mpr hs).ne'
  rw [Real.sqrt_div' _ hs.le, ← add_div]
  simp only [adam, biased, adamDir]
  rw [div_div_eq_mul_div]
  ring

/-- The bias-corrected moment of a constant gradient is that gradient (one tick per step): the average of a constant
is the constant times `1 - β^(k+1)`. -/
theorem average_const (β a : ℝ) (k : Nat) : average β (fun _ => a) k = a * (1 - β ^ (k + 1)) := by
  induction k with
  | zero => simp [average]; ring
  | succ k ih => rw [average_succ, prev_succ, ih]; ring

/-- The moving average lies between the bounds of its inputs, once corrected: no bias remains. -/
theorem average_bounds {β lo hi : ℝ} (h0 : 0 ≤ β) (h1 : β < 1) {x : Nat → ℝ} (k : Nat)
    (hx : ∀ j ≤ k, lo ≤ x j ∧ x j ≤ hi) :
    lo ≤ average β x k / (1 - β ^ (k + 1)) ∧ average β x k / (1 - β ^ (k + 1)) ≤ hi := by
  have hp : 0 < 1 - β ^ (k + 1) := sub_pos.mpr (pow_lt_one₀ h0 h1 (by omega))
  have hc : ∀ j, 0 ≤ (1 - β) * β ^ (k - j) := fun j => mul_nonneg (by linarith) (pow_nonneg h0 _)
  have hlo : lo * (1 - β ^ (k + 1)) ≤ average β x k := by
    rw [← average_const]
    exact Finset.sum_le_sum fun j hj =>
      mul_le_mul_of_nonneg_left (hx j (by have := Finset.mem_range.mp hj; omega)).1 (hc j)
  have hhi : average β x k ≤ hi * (1 - β ^ (k + 1)) := by
    rw [← average_const]
    exact Finset.sum_le_sum fun j hj =>
      mul_le_mul_of_nonneg_left (hx j (by have := Finset.mem_range.mp hj; omega)).2 (hc j)
  exact ⟨(le_div_iff₀ hp).mpr hlo, (div_le_iff₀ hp).mpr hhi⟩

/-- The published AdamW is not what the code does: wherever the parameter is not zero, the two steps agree only if the
bias corrections cancel, which does not happen at the first step for `β1 = 0.9`, `β2 = 0.999` (the default). -/
theorem adamW_violated (c : AdamConfig) (t : Nat → Nat) (g : Nat → Nat → ℝ) (k : Nat) (θ : Nat → ℝ) (i : Nat)
    (hs : c.stepSize ≠ 0) (hl : c.lambda ≠ 0) (hθ : θ i ≠ 0) :
    adamWCode c t g k θ i = adamW c t g k θ i ↔ Real.sqrt (1 - c.beta2 ^ t k) / (1 - c.beta1 ^ t k) = 1 := by
  simp only [adamWCode, adamW, biased, mul_add, add_right_inj]
  rw [mul_div_assoc]
  constructor
  · intro h
    have h2 : (c.stepSize * c.lambda * θ i) * (Real.sqrt (1 - c.beta2 ^ t k) / (1 - c.beta1 ^ t k)) =
        (c.stepSize * c.lambda * θ i) * 1 := by linarith [h]
    exact mul_left_cancel₀ (mul_ne_zero (mul_ne_zero hs hl) hθ) h2
  · intro h
    rw [h]; ring

/-- What holds of AdamW: every history follows the code's recurrence, in which the decay is multiplied by the bias
corrections. Missing for the full claim: the published rule does not multiply it (`adamW_violated`). -/
theorem adamW_history_partial (c : AdamConfig) (p : Param) (hp : Fresh p) (es : List Ev) (hf : Fits p es) :
    Follows p (trajectory p.value.val (adamWCode c (times es) (grads es))) (count es)
      (run Adam.incExample adamOptimize (Adam.new c) p es) := adam_code c p hp es hf

/-! ## RAdam -/

/-- The optimizer object at clock `t`. -/
noncomputable def radamAt (c : RAdamConfig) (t : Nat) : RAdam := ⟨c, 2 / (1 - c.beta2) - 1, t⟩

theorem times_pos (es : List Ev) (k : Nat) (hk : k < count es) : times es k ≠ 0 := by
  have key : ∀ (es : List Ev) (t : Nat), t ≠ 0 → ∀ q ∈ timed t es, q.1 ≠ 0 := by
    intro es
    induction es with
    | nil => intro t _ q hq; simp [timed] at hq
    | cons e es ih =>
      intro t ht q hq
      cases e with
      | tick => exact ih (t + 1) (by omega) q hq
      | step g =>
        simp only [timed, List.mem_cons] at hq
        rcases hq with rfl | hq
        · exact ht
        · exact ih t ht q hq
  have hk' : k < (timed 1 es).length := hk
  have h : times es k = ((timed 1 es)[k]).1 := by
    simp [times, List.getD_eq_getElem?_getD, List.getElem?_eq_getElem hk']
  rw [h]
  exact key es 1 one_ne_zero _ (List.getElem_mem hk')

/-- The recurrence followed by the code's RAdam. Missing for the full claim: while the variance is not tractable the
published rule does not divide by the second moment (`radam_violated`). -/
theorem radam_history_partial (c : RAdamConfig) (h0 : 0 ≤ c.beta2) (h1 : c.beta2 < 1) (p : Param) (hp : Fresh p)
    (es : List Ev) (hf : Fits p es) :
    Follows p (trajectory p.value.val (radamCode c (times es) (grads es))) (count es)
      (run RAdam.incBatch radamOptimize (RAdam.new c) p es) := by
  have hcode : ∀ k θ i, times es k ≠ 0 → radamCode c (times es) (grads es) k θ i =
      average c.beta1 (fun j => grads es j i) k / (Real.sqrt (average c.beta2 (fun j => grads es j i ^ 2) k) +
        c.epsilon * Real.sqrt (1 - c.beta2 ^ times es k)) * (radamAt c (times es k)).calcAlpha := by
    intro k θ i ht
    have hs : 0 < 1 - c.beta2 ^ times es k := sub_pos.mpr (pow_lt_one₀ h0 h1 ht)
    have hr : Real.sqrt (1 - c.beta2 ^ times es k) ≠ 0 := (Real.sqrt_pos.mpr hs).ne'
    simp only [radamCode, RAdam.calcAlpha, RAdam.rect, RAdam.ro, radamAt, smaLength, rectification]
    rw [Real.sqrt_div' _ hs.le, ← mul_div_cancel_right₀ c.epsilon hr, ← add_div, div_div_eq_mul_div,
      mul_div_cancel_right₀ c.epsilon hr]
    ring
  have h : Follows p (trajectory p.value.val fun k _ i =>
      average c.beta1 (fun j => grads es j i) k / (Real.sqrt (average c.beta2 (fun j => grads es j i ^ 2) k) +
        c.epsilon * Real.sqrt (1 - c.beta2 ^ times es k)) * (radamAt c (times es k)).calcAlpha) (count es)
      (run RAdam.incBatch radamOptimize (RAdam.new c) p es) := by
    refine follows (O := RAdam) (S := (Nat → ℝ) × (Nat → ℝ) × (Nat → ℝ)) RAdam.incBatch radamOptimize (radamAt c)
      (fun _ => rfl) p hp (fun r c s => .radam ⟨grid r c s.2.1, grid r c s.2.2⟩) (fun s => s.1)
      (fun t s g =>
        (fun i => s.1 i - (s.2.1 i * c.beta1 + g i * (1 - c.beta1)) /
            (Real.sqrt (s.2.2 i * c.beta2 + g i * g i * (1 - c.beta2)) + c.epsilon * Real.sqrt (1 - c.beta2 ^ t)) *
              (radamAt c t).calcAlpha,
          fun i => s.2.1 i * c.beta1 + g i * (1 - c.beta1),
          fun i => s.2.2 i * c.beta2 + g i * g i * (1 - c.beta2))) ?_
      (p.value.val, fun _ => 0, fun _ => 0) rfl ?_ es hf _ ?_
    · intro t s g
      simp only [radamOptimize, optimizeParams, radamCalc, grid_map, grid_zipOp,
          Option.bind_eq_bind, Option.bind_some]
      rfl
    · intro _ g
      simp only [radamOptimize, optimizeParams, grid_zeros]
    · intro k i _
      generalize hS : states _ _ _ _ = S
      have hm : ∀ k, (S k).2.1 i = prev (average c.beta1 fun j => grads es j i) k := by
        intro k
        induction k with
        | zero => rw [← hS]; rfl
        | succ k ih => simp only [prev]; rw [average_succ, ← ih, ← hS]; rfl
      have hv : ∀ k, (S k).2.2 i = prev (average c.beta2 fun j => grads es j i ^ 2) k := by
        intro k
        induction k with
        | zero => rw [← hS]; rfl
        | succ k ih => simp only [prev]; rw [average_succ, ← ih, ← hS, sq]; rfl
      induction k with
      | zero => rw [← hS]; rfl
      | succ k ih =>
        simp only [trajectory]
        rw [average_succ, ← hm, average_succ, ← hv, ← ih, ← hS, sq]
        rfl
  have ht := trajectory_congr p.value.val (count es) fun k hk θ i => hcode k θ i (times_pos es k hk)
  simp only [Follows] at h ⊢
  rw [ht]
  exact h

/-- Where the variance is tractable the code's RAdam is the published one. -/
theorem radam_tractable (c : RAdamConfig) (t : Nat → Nat) (g : Nat → Nat → ℝ) (k : Nat) (θ : Nat → ℝ) (i : Nat)
    (h : smaLength c.beta2 (t k) > 4) : radamCode c t g k θ i = radam c t g k θ i := by
  simp only [radamCode, radam, h, if_true]

/-- The first step is never tractable: the length of the moving average is 1. -/
theorem smaLength_one (β2 : ℝ) (h1 : β2 < 1) : smaLength β2 1 = 1 := by
  have : (1 - β2) ≠ 0 := by linarith
  simp only [smaLength, Nat.cast_one, pow_one, mul_one]
  field_simp
  ring

/-- The code's first RAdam step is not the published one: it moves every element with a nonzero gradient by the step
size (for `ε = 0`), the published one by the step size times the gradient. -/
theorem radam_violated (c : RAdamConfig) (hb1 : c.beta1 < 1) (h0 : 0 ≤ c.beta2) (h1 : c.beta2 < 1) (he : c.epsilon = 0)
    (t : Nat → Nat) (ht : t 0 = 1) (g : Nat → Nat → ℝ) (θ : Nat → ℝ) (i : Nat) :
    radamCode c t g 0 θ i = c.stepSize * (g 0 i / |g 0 i|) ∧ radam c t g 0 θ i = c.stepSize * g 0 i := by
  have e1 : (1 - c.beta1) ≠ 0 := by linarith
  have e2 : (1 - c.beta2) ≠ 0 := by linarith
  have hn : ¬ smaLength c.beta2 (t 0) > 4 := by rw [ht, smaLength_one _ h1]; norm_num
  have a1 : average c.beta1 (fun j => g j i) 0 / (1 - c.beta1 ^ t 0) = g 0 i := by
    rw [ht, pow_one]; simp [average, e1]
  have a2 : average c.beta2 (fun j => g j i ^ 2) 0 / (1 - c.beta2 ^ t 0) = g 0 i ^ 2 := by
    rw [ht, pow_one]; simp [average, e2]
  constructor
  · simp only [radamCode, hn, if_false, a1, a2, he, add_zero, Real.sqrt_sq_eq_abs, mul_one, mul_div_assoc]
  · simp only [radam, hn, if_false, a1]

/-! ## LAMB -/

/-- The optimizer object at clock `t`. -/
noncomputable def lambAt (c : AdamConfig) (t : Nat) : Lamb := ⟨c, biased c.stepSize c.beta1 c.beta2 t, t⟩

theorem norm_grid (r c : Nat) (v : Nat → ℝ) : norm (grid r c v) = some (norm2 (r * c) v) := by
  simp only [norm, grid_zipOp, Option.bind_eq_bind, Option.bind_some, grid_sum, norm2, sq]

theorem norm2_congr {n : Nat} {u v : Nat → ℝ} (h : ∀ i < n, u i = v i) : norm2 n u = norm2 n v := by
  unfold norm2
  congr 1
  exact Finset.sum_congr rfl fun i hi => by rw [h i (Finset.mem_range.mp hi)]

/-- The recurrence followed by the code's LAMB: the step has length `α_t ‖θ‖` with the bias-corrected step size `α_t`
(`lamb_length`). Missing for the full claim: the published step has length `α ‖θ‖` (`lamb_violated`). -/
theorem lamb_history_partial (c : AdamConfig) (p : Param) (hp : Fresh p) (es : List Ev) (hf : Fits p es) :
    Follows p (trajectory p.value.val (lambCode (p.value.rows * p.value.cols) c (times es) (grads es))) (count es)
      (run Lamb.incExample lambOptimize (Lamb.new c) p es) := by
  generalize hn : p.value.rows * p.value.cols = n
  refine follows (O := Lamb) (S := (Nat → ℝ) × (Nat → ℝ) × (Nat → ℝ)) Lamb.incExample lambOptimize (lambAt c)
    (fun _ => rfl) p hp (fun r c s => .lamb ⟨grid r c s.2.1, grid r c s.2.2⟩) (fun s => s.1)
    (fun t s g =>
      (fun i => s.1 i - ((s.2.1 i * c.beta1 + g i * (1 - c.beta1)) /
          (Real.sqrt (s.2.2 i * c.beta2 + g i * g i * (1 - c.beta2)) + c.epsilon) + s.1 i * c.lambda) *
          (biased c.stepSize c.beta1 c.beta2 t * ratio (norm2 n s.1) (norm2 n fun i =>
            (s.2.1 i * c.beta1 + g i * (1 - c.beta1)) /
              (Real.sqrt (s.2.2 i * c.beta2 + g i * g i * (1 - c.beta2)) + c.epsilon) + s.1 i * c.lambda)),
        fun i => s.2.1 i * c.beta1 + g i * (1 - c.beta1),
        fun i => s.2.2 i * c.beta2 + g i * g i * (1 - c.beta2))) ?_
    (p.value.val, fun _ => 0, fun _ => 0) rfl ?_ es hf _ ?_
  · intro t s g
    by_cases hl : c.lambda = 0
    · simp only [lambOptimize, optimizeParams, lambCalc, grid_map, grid_zipOp, norm_grid, hn,
        Option.bind_eq_bind, Option.bind_some, lambAt, hl, ne_eq, not_true_eq_false, if_false, mul_zero, add_zero]
      rfl
    · simp only [lambOptimize, optimizeParams, lambCalc, grid_map, grid_zipOp, norm_grid, hn,
        Option.bind_eq_bind, Option.bind_some, lambAt, hl, ne_eq, not_false_eq_true, if_true]
      rfl
  · intro _ g
    simp only [lambOptimize, optimizeParams, grid_zeros]
  · intro k i _
    generalize hS : states _ _ _ _ = S
    have hm : ∀ k i, (S k).2.1 i = prev (average c.beta1 fun j => grads es j i) k := by
      intro k i
      induction k with
      | zero => rw [← hS]; rfl
      | succ k ih => simp only [prev]; rw [average_succ, ← ih, ← hS]; rfl
    have hv : ∀ k i, (S k).2.2 i = prev (average c.beta2 fun j => grads es j i ^ 2) k := by
      intro k i
      induction k with
      | zero => rw [← hS]; rfl
      | succ k ih => simp only [prev]; rw [average_succ, ← ih, ← hS, sq]; rfl
    have key : ∀ k, (S k).1 = trajectory p.value.val (lambCode n c (times es) (grads es)) k := by
      intro k
      induction k with
      | zero => rw [← hS]; rfl
      | succ k ih =>
        funext i
        have hu : ∀ i, adamDir c (grads es) k i + c.lambda * (S k).1 i =
            ((S k).2.1 i * c.beta1 + grads es k i * (1 - c.beta1)) / (Real.sqrt ((S k).2.2 i * c.beta2 +
              grads es k i * grads es k i * (1 - c.beta2)) + c.epsilon) + (S k).1 i * c.lambda := by
          intro i
          simp only [adamDir]
          rw [average_succ, ← hm, average_succ, ← hv, mul_comm c.lambda, sq]
        simp only [trajectory, lambCode]
        rw [← ih]
        simp only [hu]
        rw [mul_comm, ← hS]
        rfl
    rw [key k]

/-- The length of the code's LAMB step: the bias-corrected step size times the norm of the parameter. -/
theorem lamb_length (n : Nat) (c : AdamConfig) (t : Nat → Nat) (g : Nat → Nat → ℝ) (k : Nat) (θ : Nat → ℝ)
    (hθ : norm2 n θ ≠ 0) (hu : norm2 n (fun i => adamDir c g k i + c.lambda * θ i) ≠ 0) :
    norm2 n (lambCode n c t g k θ) = |biased c.stepSize c.beta1 c.beta2 (t k)| * norm2 n θ := by
  have hscale : ∀ (a : ℝ) (x : Nat → ℝ), norm2 n (fun i => a * x i) = |a| * norm2 n x := by
    intro a x
    simp only [norm2, mul_pow, ← Finset.mul_sum]
    rw [Real.sqrt_mul (sq_nonneg a), Real.sqrt_sq_eq_abs]
  have hn0 : ∀ x, 0 ≤ norm2 n x := fun x => Real.sqrt_nonneg _
  have : lambCode n c t g k θ = fun i => (biased c.stepSize c.beta1 c.beta2 (t k) * (norm2 n θ /
      norm2 n (fun i => adamDir c g k i + c.lambda * θ i))) * (adamDir c g k i + c.lambda * θ i) := by
    funext i
    simp only [lambCode, ratio, hθ, hu, or_self, if_false]
  rw [this, hscale, abs_mul, abs_of_nonneg (div_nonneg (hn0 _) (hn0 _)), _root_.mul_assoc, div_mul_cancel₀ _ hu]

/-- The length of the published LAMB step: the step size times the norm of the parameter. So the two rules differ
whenever the bias corrections do not cancel. -/
theorem lamb_violated (n : Nat) (c : AdamConfig) (t : Nat → Nat) (g : Nat → Nat → ℝ) (k : Nat) (θ : Nat → ℝ)
    (hθ : norm2 n θ ≠ 0) (hu : norm2 n (fun i => adamDir c g k i + c.lambda * θ i) ≠ 0)
    (hu' : norm2 n (fun i => average c.beta1 (fun j => g j i) k / (1 - c.beta1 ^ t k) /
      (Real.sqrt (average c.beta2 (fun j => g j i ^ 2) k / (1 - c.beta2 ^ t k)) + c.epsilon) + c.lambda * θ i) ≠ 0)
    (hs : 0 < c.stepSize) (hb : |Real.sqrt (1 - c.beta2 ^ t k) / (1 - c.beta1 ^ t k)| ≠ 1) :
    ∃ i < n, lambCode n c t g k θ i ≠ lamb n c t g k θ i := by
  by_contra hcon
  push Not at hcon
  have hscale : ∀ (a : ℝ) (x : Nat → ℝ), norm2 n (fun i => a * x i) = |a| * norm2 n x := by
    intro a x
    simp only [norm2, mul_pow, ← Finset.mul_sum]
    rw [Real.sqrt_mul (sq_nonneg a), Real.sqrt_sq_eq_abs]
  have hn0 : ∀ x, 0 ≤ norm2 n x := fun x => Real.sqrt_nonneg _
  have h1 := lamb_length n c t g k θ hθ hu
  rw [norm2_congr hcon] at h1
  have h2 : norm2 n (lamb n c t g k θ) = c.stepSize * norm2 n θ := by
    have : lamb n c t g k θ = fun i => (c.stepSize * (norm2 n θ / norm2 n (fun i =>
        average c.beta1 (fun j => g j i) k / (1 - c.beta1 ^ t k) /
          (Real.sqrt (average c.beta2 (fun j => g j i ^ 2) k / (1 - c.beta2 ^ t k)) + c.epsilon) + c.lambda * θ i))) *
        (average c.beta1 (fun j => g j i) k / (1 - c.beta1 ^ t k) /
          (Real.sqrt (average c.beta2 (fun j => g j i ^ 2) k / (1 - c.beta2 ^ t k)) + c.epsilon) + c.lambda * θ i) := by
      funext i
      simp only [lamb, ratio, hθ, hu', or_self, if_false]
    rw [this, hscale, abs_mul, abs_of_nonneg (div_nonneg (hn0 _) (hn0 _)), _root_.mul_assoc, div_mul_cancel₀ _ hu',
      abs_of_pos hs]
  rw [h2] at h1
  have h3 := mul_right_cancel₀ hθ h1
  simp only [biased] at h3
  rw [mul_div_assoc, abs_mul, abs_of_pos hs] at h3
  exact hb (mul_left_cancel₀ hs.ne' (by rw [mul_one]; exact h3.symm))

/-! ## Foreign states, missing gradients -/

/-- A strategy given a parameter with the state of another strategy returns an error and leaves it unchanged. -/
theorem foreign_state (p : Param) :
    (∀ o, (∀ s, p.state ≠ .sgd s) → p.state ≠ .nil → sgdOptimize o p = some (p, true)) ∧
    (∀ o, (∀ s, p.state ≠ .adagrad s) → p.state ≠ .nil → adaGradOptimize o p = some (p, true)) ∧
    (∀ o, (∀ s, p.state ≠ .rmsprop s) → p.state ≠ .nil → rmsPropOptimize o p = some (p, true)) ∧
    (∀ o, (∀ s, p.state ≠ .adam s) → p.state ≠ .nil → adamOptimize o p = some (p, true)) ∧
    (∀ o, (∀ s, p.state ≠ .radam s) → p.state ≠ .nil → radamOptimize o p = some (p, true)) ∧
    (∀ o, (∀ s, p.state ≠ .lamb s) → p.state ≠ .nil → lambOptimize o p = some (p, true)) := by
  obtain ⟨v, g, st⟩ := p
  refine ⟨?_, ?_, ?_, ?_, ?_, ?_⟩ <;> intro o h1 h2 <;> cases st <;> first
    | exact absurd rfl h2
    | exact absurd rfl (h1 _)
    | rfl

/-- Whenever a strategy succeeds, the gradient is absent afterwards. -/
theorem gradient_cleared {σ : Type} (new : Dense ℝ → σ) (get : PState → Option σ) (put : σ → PState)
    (upd : Dense ℝ → Dense ℝ → σ → Option (Dense ℝ × σ)) (p q : Param)
    (h : optimizeParams new get put upd p = some (q, false)) : q.grad = none := by
  simp only [optimizeParams] at h
  split at h
  · simp at h
  · simp only [Option.bind_eq_bind, Option.bind_eq_some_iff, Option.some.injEq, Prod.mk.injEq] at h
    obtain ⟨_, _, _, _, _, _, rfl, _⟩ := h
    rfl

/-! ## The published rules are not followed by AdamW, RAdam and LAMB -/

theorem follows_unique {O : Type} {p : Param} {θ θ' : Nat → Nat → ℝ} {n : Nat} {r : Option (O × Param)}
    (h : Follows p θ n r) (h' : Follows p θ' n r) : ∀ i < p.value.rows * p.value.cols, θ n i = θ' n i := by
  obtain ⟨o, q, hr, _, _, _, _, hv⟩ := h
  obtain ⟨o', q', hr', _, _, _, _, hv'⟩ := h'
  rw [hr] at hr'
  simp only [Option.some.injEq, Prod.mk.injEq] at hr'
  obtain ⟨-, rfl⟩ := hr'
  exact fun i hi => (hv i hi).symm.trans (hv' i hi)

/-- After one step of AdamW on a nonzero element the parameter is not the published one, unless the bias corrections
cancel. -/
theorem adamW_history_violated (c : AdamConfig) (p : Param) (hp : Fresh p) (es : List Ev) (hf : Fits p es)
    (hc : count es = 1) (hs : c.stepSize ≠ 0) (hl : c.lambda ≠ 0)
    (hb : Real.sqrt (1 - c.beta2 ^ times es 0) / (1 - c.beta1 ^ times es 0) ≠ 1)
    (i : Nat) (hi : i < p.value.rows * p.value.cols) (hv : p.value.val i ≠ 0) :
    ¬ Follows p (trajectory p.value.val (adamW c (times es) (grads es))) (count es)
      (run Adam.incExample adamOptimize (Adam.new c) p es) := by
  intro h
  have := follows_unique (adam_code c p hp es hf) h i hi
  rw [hc] at this
  simp only [trajectory, sub_right_inj] at this
  exact hb ((adamW_violated c (times es) (grads es) 0 _ i hs hl hv).mp this)

/-- The first step of RAdam is not the published one for any gradient element other than 0, 1 and -1. -/
theorem radam_history_violated (c : RAdamConfig) (hb1 : c.beta1 < 1) (h0 : 0 ≤ c.beta2) (h1 : c.beta2 < 1)
    (he : c.epsilon = 0) (hs : c.stepSize ≠ 0) (p : Param) (hp : Fresh p) (es : List Ev) (hf : Fits p es)
    (hc : count es = 1) (ht : times es 0 = 1) (i : Nat) (hi : i < p.value.rows * p.value.cols)
    (hg : grads es 0 i ≠ 0) (hg1 : |grads es 0 i| ≠ 1) :
    ¬ Follows p (trajectory p.value.val (radam c (times es) (grads es))) (count es)
      (run RAdam.incBatch radamOptimize (RAdam.new c) p es) := by
  intro h
  have := follows_unique (radam_history_partial c h0 h1 p hp es hf) h i hi
  rw [hc] at this
  simp only [trajectory, sub_right_inj] at this
  obtain ⟨e1, e2⟩ := radam_violated c hb1 h0 h1 he (times es) ht (grads es) (fun x => p.value.val x) i
  rw [e1, e2] at this
  have h2 := mul_left_cancel₀ hs this
  have h3 : |grads es 0 i / (|grads es 0 i|)| = 1 := by rw [abs_div, abs_abs, div_self (abs_ne_zero.mpr hg)]
  rw [h2] at h3
  exact hg1 h3

/-- After one step of LAMB some element is not the published one, unless the bias corrections cancel. -/
theorem lamb_history_violated (c : AdamConfig) (p : Param) (hp : Fresh p) (es : List Ev) (hf : Fits p es)
    (hc : count es = 1) (hθ : norm2 (p.value.rows * p.value.cols) p.value.val ≠ 0)
    (hu : norm2 (p.value.rows * p.value.cols) (fun i => adamDir c (grads es) 0 i + c.lambda * p.value.val i) ≠ 0)
    (hu' : norm2 (p.value.rows * p.value.cols) (fun i =>
      average c.beta1 (fun j => grads es j i) 0 / (1 - c.beta1 ^ times es 0) /
        (Real.sqrt (average c.beta2 (fun j => grads es j i ^ 2) 0 / (1 - c.beta2 ^ times es 0)) + c.epsilon) +
          c.lambda * p.value.val i) ≠ 0)
    (hs : 0 < c.stepSize) (hb : |Real.sqrt (1 - c.beta2 ^ times es 0) / (1 - c.beta1 ^ times es 0)| ≠ 1) :
    ¬ Follows p (trajectory p.value.val (lamb (p.value.rows * p.value.cols) c (times es) (grads es))) (count es)
      (run Lamb.incExample lambOptimize (Lamb.new c) p es) := by
  intro h
  obtain ⟨i, hi, hne⟩ := lamb_violated _ c (times es) (grads es) 0 p.value.val hθ hu hu' hs hb
  have := follows_unique (lamb_history_partial c p hp es hf) h i hi
  rw [hc] at this
  simp only [trajectory, sub_right_inj] at this
  exact hne this

/-! ## Examples -/

/-- A column of two weights. -/
def exParam : Param := ⟨⟨2, 1, [1, -2]⟩, none, .nil⟩

/-- Two gradients, with a tick between them. -/
def exHistory : List Ev := [.step ⟨2, 1, [4, 0]⟩, .tick, .step ⟨2, 1, [1, 3]⟩]

example : Fresh exParam ∧ Fits exParam exHistory ∧ count exHistory = 2 ∧ times exHistory 0 = 1 ∧
    times exHistory 1 = 2 ∧ grads exHistory 1 1 = 3 := by
  refine ⟨⟨rfl, rfl, rfl⟩, ?_, rfl, rfl, rfl, by simp [grads, exHistory, timed, Dense.val]⟩
  intro g hg
  simp only [exHistory, List.mem_cons, Ev.step.injEq, reduceCtorEq, List.not_mem_nil, or_false, false_or] at hg
  rcases hg with rfl | rfl <;> exact ⟨rfl, rfl, rfl⟩

/-- Momentum with `α = 1`, `μ = 1/2` moves the first weight from 1 to 1 - 4 - (2 + 1) = -6. -/
example : trajectory exParam.value.val (momentum 1 (1 / 2) (grads exHistory)) 2 0 = -6 := by
  simp [trajectory, momentum, velocity, grads, exHistory, timed, exParam, Dense.val, Finset.sum_range_succ]
  norm_num

/-- The hypothesis of `adamW_violated` at the first step of the default configuration. -/
example : Real.sqrt (1 - (0.999 : ℝ) ^ 1) / (1 - 0.9 ^ 1) ≠ 1 := by
  intro h
  rw [div_eq_one_iff_eq (by norm_num)] at h
  have h2 : Real.sqrt (1 - (0.999 : ℝ) ^ 1) ^ 2 = (1 - 0.9 ^ 1) ^ 2 := by rw [h]
  rw [Real.sq_sqrt (by norm_num)] at h2
  norm_num at h2

/-- The hypotheses of `lamb_history_violated`: one weight 1, one gradient 1, `β1 = 1/2`, `β2 = 0`, no decay. -/
example : (Real.sqrt (1 - (0 : ℝ) ^ 1) / (1 - (1 / 2 : ℝ) ^ 1) = 2) ∧ norm2 1 (fun _ => 1) = 1 := by
  constructor
  · norm_num
  · simp [norm2]

end Verif.Optim
