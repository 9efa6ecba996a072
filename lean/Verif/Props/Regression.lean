import Verif.Model.Regression
import Verif.Props.Batch
import Verif.Props.RecordNets
import Mathlib.Analysis.SpecificLimits.Basic

set_option autoImplicit false
set_option linter.unusedSimpArgs false

/-!
# The regression example learns its objective
-/

namespace Verif.Regression
open GradFn Record Backward Tape Dense
open scoped BigOperators Topology

/-! ### One sample -/

/-- The loss of a sample, as a formula: half the squared difference of `w x + b` and the target. -/
noncomputable def loss (_ : Sample) (τ : Nat → Dense ℝ) : Option (Dense ℝ) :=
  some (scalar (((τ 0).val 0 * (τ 2).val 0 + (τ 1).val 0 - (τ 3).val 0) ^ 2 / 2))

theorem like_scalar {a : ℝ} {d : Dense ℝ} (h : (scalar a).Like d) : d = scalar (d.val 0) := by
  obtain ⟨h1, h2, h3⟩ := h
  obtain ⟨r, c, l⟩ := d
  simp only [scalar] at h2 h3
  subst h2; subst h3
  have : l.length = 1 := by simpa [WF] using h1
  obtain ⟨v, rfl⟩ := List.length_eq_one_iff.mp this
  rfl

theorem scalar_val (a : ℝ) : (scalar a).val 0 = a := rfl
theorem scalar_wf (a : ℝ) : (scalar a).WF := rfl

theorem mul_scalar (a b : ℝ) : GradFn.mul.forward [scalar a, scalar b] = some (scalar (a * b)) := by
  simp [GradFn.mul, Dense.mul, dotRows, Dense.make, scalar, WF, GoSlice.sub, dotProd]

theorem add_scalar (a b : ℝ) : GradFn.add.forward [scalar a, scalar b] = some (scalar (a + b)) := by
  simp [GradFn.add, Dense.zipOp, scalar, sameDims]

theorem mse_scalar (a b : ℝ) : Losses.mse (scalar a) (scalar b) true = some (scalar ((a - b) ^ 2 / 2)) := by
  rw [Losses.mse_eq (scalar_wf a) (scalar_wf b), if_pos (by rfl)]
  simp [Losses.reduce, scalar, Dense.val]

/-- Every sample trains `W` and `B`. -/
theorem sample_trains (x w b : ℝ) {p : Nat → Dense ℝ} (h0 : p 0 = scalar w) (h1 : p 1 = scalar b) :
    Trains 2 ((sample x).program 2) ((sample x).result 2) (loss (sample x)) (withParams 2 p (sample x).data) := by
  have hval : ∀ i < 2 + 2, ∃ a, withParams 2 p (sample x).data i = scalar a := by
    intro i hi
    have : i = 0 ∨ i = 1 ∨ i = 2 ∨ i = 3 := by omega
    rcases this with rfl | rfl | rfl | rfl
    · exact ⟨w, h0⟩
    · exact ⟨b, h1⟩
    · exact ⟨_, rfl⟩
    · exact ⟨_, rfl⟩
  refine trains_of_sim (fun i hi => ?_) ?_ (L := scalar _) rfl rfl
  · obtain ⟨a, ha⟩ := hval i hi
    rw [ha]; rfl
  intro τ hτ
  have hs : ∀ i < 4, τ i = scalar ((τ i).val 0) := by
    intro i hi
    obtain ⟨a, ha⟩ := hval i hi
    have := hτ i hi
    rw [ha] at this
    exact like_scalar this
  have e : loss (sample x) τ = (do
      let y ← (do
        let q ← GradFn.mul.forward [τ 0, τ 2]
        GradFn.add.forward [q, τ 1])
      Losses.mse y (τ 3) true) := by
    rw [hs 0 (by omega), hs 1 (by omega), hs 2 (by omega), hs 3 (by omega), mul_scalar]
    simp only [Option.bind_eq_bind, Option.bind_some, add_scalar, mse_scalar]
    rw [loss]
  rw [e]
  refine Sim.bind (R := New (start 2 2 τ)) (Sim.bind (call2 (start_param (by omega))
    (start_input (k := 2) (j := 2) (i := 0) (by omega)) fun _ _ => .mul) fun st₁ q Q _ hq => ?_) fun st₂ y Y _ hy => ?_
  · exact (call2 hq.1 ((start_param (by omega)).mono st₁).v fun _ _ => .add).weaken fun _ _ _ _ h =>
      ⟨h.1, le_trans (by rw [List.length_append]; exact Nat.le_add_right _ _) h.2⟩
  · refine (mse_sim hy.1 ((start_input (k := 2) (j := 2) (i := 1) (by omega)).mono st₂) (by
      rw [hs 3 (by omega)]; rfl)).weaken fun st₃ a v _ h => ⟨h.1, le_trans ?_ h.2⟩
    rw [List.length_append, start_length]
    exact Nat.le_add_right _ _

/-- `W` and `B` are used for the loss. -/
theorem sample_uses (x : ℝ) {l : Nat} (hl : l < 2) : Feeds ((sample x).program 2) ((sample x).result 2) l := by
  have h9 : Feeds ((sample x).program 2) ((sample x).result 2) 10 := .self
  have h8 := h9.arg (c := 10) (o := 9) (args := [9]) rfl (by simp)
  have h7 := h8.arg (c := 9) (o := 7) (args := [7, 8]) rfl (by simp)
  have h6 := h7.arg (c := 7) (o := 6) (args := [6, 6]) rfl (by simp)
  have h5 := h6.arg (c := 6) (o := 5) (args := [5, 3]) rfl (by simp)
  have : l = 0 ∨ l = 1 := by omega
  rcases this with rfl | rfl
  · have h4 := h5.arg (c := 5) (o := 4) (args := [4, 1]) rfl (by simp)
    exact h4.arg (c := 4) (o := 0) (args := [0, 2]) rfl (by simp)
  · exact h5.arg (c := 5) (o := 1) (args := [4, 1]) rfl (by simp)

/-! ### One epoch -/

/-- A parameter of one element with value `w` and velocity `v`, without gradient. -/
def Holds (p : Optim.Param) (w v : ℝ) : Prop :=
  p.value = scalar w ∧ p.grad = none ∧ (p.state = .sgd ⟨scalar v⟩ ∨ p.state = .nil ∧ v = 0)

theorem ofVals_scalar (w : ℝ) (g : Nat → ℝ) : ofVals (scalar w) g = scalar (g 0) := by
  simp [ofVals, scalar, List.range_succ]

/-- Nesterov's step on one element. -/
theorem nesterov_run {p : Optim.Param} {w v : ℝ} (g : Nat → ℝ) (h : Holds p w v) :
    strategy { p with grad := some (ofVals p.value g) } =
      some (⟨scalar (w - (1.9 * (0.9 * v + 0.001 * g 0) - 0.9 * v)), none, .sgd ⟨scalar (0.9 * v + 0.001 * g 0)⟩⟩, false) := by
  obtain ⟨h1, h2, h3⟩ := h
  rw [h1, ofVals_scalar]
  have hmu : (0.9 : ℝ) ≠ 0 := by norm_num
  rcases h3 with h3 | ⟨h3, rfl⟩
  · simp only [strategy, Optim.sgdOptimize, Optim.optimizeParams, h3, Optim.sgdCalc, if_neg hmu, scalar, Dense.map, zipOp,
      sameDims, Option.bind_eq_bind, Option.bind_some, if_true, beq_self_eq_true, Bool.and_self, List.map_cons, List.map_nil,
      List.zipWith_cons_cons, List.zipWith_nil_left]
    refine congrArg some (Prod.ext ?_ rfl)
    simp only [Optim.Param.mk.injEq, Dense.mk.injEq, List.cons.injEq, and_true, true_and, Optim.PState.sgd.injEq,
      Optim.SGDState.mk.injEq]
    constructor <;> ring
  · simp only [strategy, Optim.sgdOptimize, Optim.optimizeParams, h3, Optim.sgdCalc, if_neg hmu, scalar, Dense.map, zipOp,
      sameDims, Option.bind_eq_bind, Option.bind_some, if_true, beq_self_eq_true, Bool.and_self, List.map_cons, List.map_nil,
      List.zipWith_cons_cons, List.zipWith_nil_left, zeros, Nat.mul_one, List.replicate_succ, List.replicate_zero]
    refine congrArg some (Prod.ext ?_ rfl)
    simp only [Optim.Param.mk.injEq, Dense.mk.injEq, List.cons.injEq, and_true, true_and, Optim.PState.sgd.injEq,
      Optim.SGDState.mk.injEq]
    constructor <;> ring

theorem nesterov_scalar {p p' : Optim.Param} {w v : ℝ} {g : Nat → ℝ} (h : Holds p w v)
    (hs : strategy { p with grad := some (ofVals p.value g) } = some (p', false)) :
    Holds p' (w - (1.9 * (0.9 * v + 0.001 * g 0) - 0.9 * v)) (0.9 * v + 0.001 * g 0) := by
  rw [nesterov_run g h] at hs
  have hs := (Prod.mk.inj (Option.some.inj hs)).1
  rw [← hs]
  exact ⟨rfl, rfl, .inl rfl⟩

theorem sum_id : ∀ n : Nat, ∑ i ∈ Finset.range n, (i : ℝ) = n * (n - 1) / 2
  | 0 => by simp
  | n + 1 => by rw [Finset.sum_range_succ, sum_id n]; push_cast; ring

theorem sum_sq : ∀ n : Nat, ∑ i ∈ Finset.range n, (i : ℝ) ^ 2 = n * (n - 1) * (2 * n - 1) / 6
  | 0 => by simp
  | n + 1 => by rw [Finset.sum_range_succ, sum_sq n]; push_cast; ring

/-- The sum of the losses of all samples. -/
noncomputable def total (w b : ℝ) : ℝ := ∑ i ∈ Finset.range 1000, (w * (i / 1000) + b - (3 * (i / 1000) + 1)) ^ 2 / 2

theorem total_eq (w b : ℝ) : total w b = (332.8335 * (w - 3) ^ 2 + 999 * (w - 3) * (b - 1) + 1000 * (b - 1) ^ 2) / 2 := by
  have e : ∀ i : Nat, (w * ((i : ℝ) / 1000) + b - (3 * (i / 1000) + 1)) ^ 2 / 2 =
      (w - 3) ^ 2 / 2000000 * (i : ℝ) ^ 2 + (w - 3) * (b - 1) / 1000 * (i : ℝ) + (b - 1) ^ 2 / 2 := by intro i; ring
  rw [total, Finset.sum_congr rfl fun i _ => e i, Finset.sum_add_distrib, Finset.sum_add_distrib, ← Finset.mul_sum,
    ← Finset.mul_sum, sum_id, sum_sq, Finset.sum_const, Finset.card_range]
  norm_num
  ring

theorem lossOf_sample (x w b : ℝ) {τ : Nat → Dense ℝ} (h0 : (τ 0).val 0 = w) (h1 : (τ 1).val 0 = b) :
    number (lossOf 2 loss (sample x) τ) = (w * x + b - (3 * x + 1)) ^ 2 / 2 := by
  show (scalar (((τ 0).val 0 * x + (τ 1).val 0 - (3 * x + 1)) ^ 2 / 2)).val 0 = _
  rw [h0, h1]; rfl

theorem losses_sum (w b : ℝ) {τ : Nat → Dense ℝ} (h0 : (τ 0).val 0 = w) (h1 : (τ 1).val 0 = b) (n : Nat) :
    ((samplesOf n).map fun e => number (lossOf 2 loss e τ)).sum =
      ∑ i ∈ Finset.range n, (w * ((i : ℝ) / 1000) + b - (3 * (i / 1000) + 1)) ^ 2 / 2 := by
  induction n with
  | zero => rfl
  | succ n ih =>
    have e : samplesOf (n + 1) = samplesOf n ++ [sample ((n : ℝ) / 1000)] := by
      simp only [samplesOf, List.range_succ, List.map_append, List.map_cons, List.map_nil]
    rw [e, List.map_append, List.sum_append, ih, Finset.sum_range_succ]
    congr 1
    rw [List.map_cons, List.map_nil, List.sum_singleton, lossOf_sample _ w b h0 h1]

theorem losses_total (w b : ℝ) {τ : Nat → Dense ℝ} (h0 : (τ 0).val 0 = w) (h1 : (τ 1).val 0 = b) :
    (samples.map fun e => number (lossOf 2 loss e τ)).sum = total w b := by
  unfold samples total
  exact losses_sum w b h0 h1 _

theorem mem_samplesOf {n i : Nat} (h : i < n) : sample ((i : ℝ) / 1000) ∈ samplesOf n :=
  List.mem_map_of_mem (f := fun i : Nat => sample ((i : ℝ) / 1000)) (List.mem_range.mpr h)

theorem first_mem : sample (((0 : Nat) : ℝ) / 1000) ∈ samples := mem_samplesOf (by norm_num)

theorem all_train {p : Nat → Dense ℝ} {w b : ℝ} (h0 : p 0 = scalar w) (h1 : p 1 = scalar b) : AllTrain 2 loss p samples := by
  intro e he
  obtain ⟨i, -, rfl⟩ := List.mem_map.mp he
  exact sample_trains _ w b h0 h1

/-- The gradients after the loop over the samples. -/
theorem gradients {p : Nat → Dense ℝ} {w b : ℝ} (h0 : p 0 = scalar w) (h1 : p 1 = scalar b)
    {γ : Nat → Option (Nat → ℝ)} (hl : Learn 2 p samples (fun _ => none) γ) :
    (∃ g, γ 0 = some g ∧ g 0 = 332.8335 * (w - 3) + 499.5 * (b - 1)) ∧
    ∃ g, γ 1 = some g ∧ g 0 = 499.5 * (w - 3) + 1000 * (b - 1) := by
  have hat := all_train h0 h1
  have hw : ∀ l < 2, (p l).WF := by
    intro l hl
    have : l = 0 ∨ l = 1 := by omega
    rcases this with rfl | rfl
    · rw [h0]; rfl
    · rw [h1]; rfl
  have hsome : ∀ l < 2, ∃ g, γ l = some g := fun l hlk =>
    Option.ne_none_iff_exists'.mp (learn_keeps hat hl hlk (.inr ⟨sample (((0 : Nat) : ℝ) / 1000),
      first_mem, sample_uses _ hlk⟩))
  obtain ⟨g, hg⟩ := hsome 0 (by omega)
  obtain ⟨g', hg'⟩ := hsome 1 (by omega)
  refine ⟨⟨g, hg, ?_⟩, g', hg', ?_⟩
  · have hd := batch_partial_derivative hw hat hl (l := 0) (i := 0) (by omega) (by rw [h0]; simp [scalar])
    have e : (fun t => (samples.map fun e => number (lossOf 2 loss e (moved p 0 0 t))).sum) = fun t => total (w + t) b := by
      funext t
      refine losses_total _ _ ?_ ?_
      · simp [moved, h0, bump, scalar, Dense.val]
      · simp [moved, h1, scalar, Dense.val]
    rw [e, hg] at hd
    simp only [total_eq] at hd
    have hd' : HasDerivAt (fun t => (332.8335 * (w + t - 3) ^ 2 + 999 * (w + t - 3) * (b - 1) + 1000 * (b - 1) ^ 2) / 2)
        (332.8335 * (w - 3) + 499.5 * (b - 1)) 0 := by
      have h : HasDerivAt (fun t : ℝ => w + t - 3) 1 0 := ((hasDerivAt_id (0 : ℝ)).const_add w).sub_const 3
      refine (((((h.pow 2).const_mul 332.8335).add ((h.const_mul 999).mul_const (b - 1))).add_const
        (1000 * (b - 1) ^ 2)).div_const 2).congr_deriv ?_
      norm_num
      ring
    have := hd.unique hd'
    simpa [gnum] using this
  · have hd := batch_partial_derivative hw hat hl (l := 1) (i := 0) (by omega) (by rw [h1]; simp [scalar])
    have e : (fun t => (samples.map fun e => number (lossOf 2 loss e (moved p 1 0 t))).sum) = fun t => total w (b + t) := by
      funext t
      refine losses_total _ _ ?_ ?_
      · simp [moved, h0, scalar, Dense.val]
      · simp [moved, h1, bump, scalar, Dense.val]
    rw [e, hg'] at hd
    simp only [total_eq] at hd
    have hd' : HasDerivAt (fun t => (332.8335 * (w - 3) ^ 2 + 999 * (w - 3) * (b + t - 1) + 1000 * (b + t - 1) ^ 2) / 2)
        (499.5 * (w - 3) + 1000 * (b - 1)) 0 := by
      have h : HasDerivAt (fun t : ℝ => b + t - 1) 1 0 := ((hasDerivAt_id (0 : ℝ)).const_add b).sub_const 1
      refine ((((h.const_mul (999 * (w - 3))).const_add (332.8335 * (w - 3) ^ 2)).add ((h.pow 2).const_mul 1000)).div_const
        2).congr_deriv ?_
      norm_num
      ring
    have := hd.unique hd'
    simpa [gnum] using this

/-- **C70, one epoch** of the example: Nesterov's method on the quadratic function `total`. -/
theorem epoch_step {p p' : Nat → Optim.Param} {w b v u : ℝ} (hw : Holds (p 0) w v) (hb : Holds (p 1) b u)
    (h : Epoch strategy 2 samples p p') :
    Holds (p' 0) (w - (1.9 * (0.9 * v + 0.001 * (332.8335 * (w - 3) + 499.5 * (b - 1))) - 0.9 * v))
      (0.9 * v + 0.001 * (332.8335 * (w - 3) + 499.5 * (b - 1))) ∧
    Holds (p' 1) (b - (1.9 * (0.9 * u + 0.001 * (499.5 * (w - 3) + 1000 * (b - 1))) - 0.9 * u))
      (0.9 * u + 0.001 * (499.5 * (w - 3) + 1000 * (b - 1))) := by
  obtain ⟨γ, hl, hu⟩ := h
  obtain ⟨⟨g, hg, hg0⟩, g', hg', hg0'⟩ := gradients hw.1 hb.1 hl
  have h0 := hu 0 (by omega)
  have h1 := hu 1 (by omega)
  rw [hg] at h0
  rw [hg'] at h1
  rw [← hg0, ← hg0']
  exact ⟨nesterov_scalar hw h0, nesterov_scalar hb h1⟩

/-! ### Many epochs -/

/-- Errors of `W` and `B` and their velocities. -/
structure V4 (R : Type) where
  a : R
  c : R
  p : R
  q : R

/-- What an epoch does to them. -/
noncomputable def stepR (s : V4 ℝ) : V4 ℝ :=
  ⟨0.36761635 * s.a - 0.94905 * s.c - 0.81 * s.p, -0.94905 * s.a - 0.9 * s.c - 0.81 * s.q,
   0.3328335 * s.a + 0.4995 * s.c + 0.9 * s.p, 0.4995 * s.a + s.c + 0.9 * s.q⟩

noncomputable def iterR : Nat → V4 ℝ → V4 ℝ
  | 0, s => s
  | n + 1, s => stepR (iterR n s)

/-- The same with integers, in units of 10^-8 per step. -/
def stepZ (s : V4 Int) : V4 Int :=
  ⟨36761635 * s.a + -94905000 * s.c + -81000000 * s.p, -94905000 * s.a + -90000000 * s.c + -81000000 * s.q,
   33283350 * s.a + 49950000 * s.c + 90000000 * s.p, 49950000 * s.a + 100000000 * s.c + 90000000 * s.q⟩

def iterZ : Nat → V4 Int → V4 Int
  | 0, s => s
  | n + 1, s => iterZ n (stepZ s)

theorem iterZ_succ : ∀ (n : Nat) (s : V4 Int), iterZ (n + 1) s = stepZ (iterZ n s)
  | 0, _ => rfl
  | n + 1, s => iterZ_succ n (stepZ s)

def e0 : V4 Int := ⟨1, 0, 0, 0⟩
def e1 : V4 Int := ⟨0, 1, 0, 0⟩
def e2 : V4 Int := ⟨0, 0, 1, 0⟩
def e3 : V4 Int := ⟨0, 0, 0, 1⟩

/-- Superposition. -/
noncomputable def comb (s : V4 ℝ) (n : Nat) (f : V4 Int → Int) : ℝ :=
  (s.a * f (iterZ n e0) + s.c * f (iterZ n e1) + s.p * f (iterZ n e2) + s.q * f (iterZ n e3)) / 100000000 ^ n

theorem iterR_eq (s : V4 ℝ) : ∀ n, iterR n s = ⟨comb s n V4.a, comb s n V4.c, comb s n V4.p, comb s n V4.q⟩
  | 0 => by
    simp [iterR, comb, iterZ, e0, e1, e2, e3]
  | n + 1 => by
    have h : (100000000 : ℝ) ^ n ≠ 0 := by positivity
    rw [iterR, iterR_eq s n]
    simp only [stepR, comb, iterZ_succ, stepZ, pow_succ]
    push_cast
    refine congr (congr (congr (congrArg V4.mk ?_) ?_) ?_) ?_ <;> field_simp <;> ring

/-- Is the sum of the absolute values of the coefficients at most `num / den`? -/
def rowSmall (n num den : Nat) (f : V4 Int → Int) : Bool :=
  decide (((f (iterZ n e0)).natAbs + (f (iterZ n e1)).natAbs + (f (iterZ n e2)).natAbs + (f (iterZ n e3)).natAbs) * den ≤
    num * 100000000 ^ n)

theorem small32 : (rowSmall 32 3 10 V4.a && rowSmall 32 3 10 V4.c && rowSmall 32 3 10 V4.p && rowSmall 32 3 10 V4.q) = true := by
  decide +kernel

theorem small1 : (rowSmall 1 3 1 V4.a && rowSmall 1 3 1 V4.c && rowSmall 1 3 1 V4.p && rowSmall 1 3 1 V4.q) = true := by
  decide +kernel

/-- After 100 epochs, begun with velocity 0. -/
theorem small100 :
    (decide (((V4.a (iterZ 100 e0)).natAbs * 33 + (V4.a (iterZ 100 e1)).natAbs) * 1000 ≤ 49 * 10 ^ 799) &&
     decide (((V4.c (iterZ 100 e0)).natAbs * 33 + (V4.c (iterZ 100 e1)).natAbs) * 1000 ≤ 49 * 10 ^ 799)) = true := by
  decide +kernel

/-- All four are at most `B`. -/
def Bd (s : V4 ℝ) (B : ℝ) : Prop := |s.a| ≤ B ∧ |s.c| ≤ B ∧ |s.p| ≤ B ∧ |s.q| ≤ B

theorem comb_le {s : V4 ℝ} {B : ℝ} (h : Bd s B) {n num den : Nat} (hden : 0 < den) {f : V4 Int → Int}
    (hf : rowSmall n num den f = true) : |comb s n f| ≤ (num : ℝ) / den * B := by
  obtain ⟨h1, h2, h3, h4⟩ := h
  have hB : 0 ≤ B := (abs_nonneg _).trans h1
  have hf := of_decide_eq_true hf
  have hf : ((|(f (iterZ n e0) : ℝ)| + |(f (iterZ n e1) : ℝ)| + |(f (iterZ n e2) : ℝ)| + |(f (iterZ n e3) : ℝ)|) * den : ℝ) ≤
      num * 100000000 ^ n := by
    have := (Nat.cast_le (α := ℝ)).mpr hf
    push_cast [Nat.cast_natAbs, Int.cast_abs] at this
    exact this
  have hp : (0 : ℝ) < 100000000 ^ n := by positivity
  have hd : (0 : ℝ) < den := by exact_mod_cast hden
  rw [comb, abs_div, abs_of_pos hp, div_le_iff₀ hp]
  have ht : ∀ x : ℝ, |x| ≤ B → ∀ y : ℝ, |x * y| ≤ B * |y| := fun x hx y => by
    rw [abs_mul]; exact mul_le_mul_of_nonneg_right hx (abs_nonneg y)
  calc _ ≤ |s.a * f (iterZ n e0)| + |s.c * f (iterZ n e1)| + |s.p * f (iterZ n e2)| + |s.q * f (iterZ n e3)| :=
        (abs_add_le _ _).trans (add_le_add_left ((abs_add_le _ _).trans (add_le_add_left (abs_add_le _ _) _)) _)
    _ ≤ B * |(f (iterZ n e0) : ℝ)| + B * |(f (iterZ n e1) : ℝ)| + B * |(f (iterZ n e2) : ℝ)| + B * |(f (iterZ n e3) : ℝ)| :=
        add_le_add (add_le_add (add_le_add (ht _ h1 _) (ht _ h2 _)) (ht _ h3 _)) (ht _ h4 _)
    _ = B * (((|(f (iterZ n e0) : ℝ)| + |(f (iterZ n e1) : ℝ)| + |(f (iterZ n e2) : ℝ)| + |(f (iterZ n e3) : ℝ)|) * den) / den) := by
        field_simp
    _ ≤ B * ((num * 100000000 ^ n) / den) := by gcongr
    _ = _ := by ring

theorem iterR_add (s : V4 ℝ) (m : Nat) : ∀ n, iterR (m + n) s = iterR n (iterR m s)
  | 0 => rfl
  | n + 1 => by
    show stepR (iterR (m + n) s) = stepR (iterR n (iterR m s))
    rw [iterR_add s m n]

theorem bd32 {s : V4 ℝ} {B : ℝ} (h : Bd s B) : Bd (iterR 32 s) (0.3 * B) := by
  have hs := small32
  simp only [Bool.and_eq_true] at hs
  obtain ⟨⟨⟨k1, k2⟩, k3⟩, k4⟩ := hs
  have e : (((3 : Nat) : ℝ) / ((10 : Nat) : ℝ)) = 0.3 := by norm_num
  rw [iterR_eq, ← e]
  exact ⟨comb_le h (by omega) k1, comb_le h (by omega) k2, comb_le h (by omega) k3, comb_le h (by omega) k4⟩

theorem bd1 {s : V4 ℝ} {B : ℝ} (h : Bd s B) : Bd (stepR s) (3 * B) := by
  have hs := small1
  simp only [Bool.and_eq_true] at hs
  obtain ⟨⟨⟨k1, k2⟩, k3⟩, k4⟩ := hs
  have e : (((3 : Nat) : ℝ) / ((1 : Nat) : ℝ)) = 3 := by norm_num
  have : stepR s = iterR 1 s := rfl
  rw [this, iterR_eq, ← e]
  exact ⟨comb_le h (by omega) k1, comb_le h (by omega) k2, comb_le h (by omega) k3, comb_le h (by omega) k4⟩

theorem bd_blocks {s : V4 ℝ} {B : ℝ} (h : Bd s B) : ∀ m, Bd (iterR (32 * m) s) (0.3 ^ m * B)
  | 0 => by simpa [iterR] using h
  | m + 1 => by
    rw [Nat.mul_succ, iterR_add]
    have := bd32 (bd_blocks h m)
    rwa [← _root_.mul_assoc, ← pow_succ'] at this

theorem bd_rest {s : V4 ℝ} {B : ℝ} (h : Bd s B) : ∀ r, Bd (iterR r s) (3 ^ r * B)
  | 0 => by simpa [iterR] using h
  | r + 1 => by
    have := bd1 (bd_rest h r)
    rwa [← _root_.mul_assoc, ← pow_succ'] at this

theorem bd_all {s : V4 ℝ} {B : ℝ} (h : Bd s B) (n : Nat) : Bd (iterR n s) (3 ^ 32 * B * 0.3 ^ (n / 32)) := by
  have hB : 0 ≤ B := (abs_nonneg _).trans h.1
  have h1 := bd_rest (bd_blocks h (n / 32)) (n % 32)
  rw [← iterR_add, Nat.div_add_mod] at h1
  have hle : (3 : ℝ) ^ (n % 32) * (0.3 ^ (n / 32) * B) ≤ 3 ^ 32 * B * 0.3 ^ (n / 32) := by
    have : (3 : ℝ) ^ (n % 32) ≤ 3 ^ 32 := pow_le_pow_right₀ (by norm_num) (Nat.mod_lt n (by omega)).le
    calc (3 : ℝ) ^ (n % 32) * (0.3 ^ (n / 32) * B) ≤ 3 ^ 32 * (0.3 ^ (n / 32) * B) :=
          mul_le_mul_of_nonneg_right this (by positivity)
      _ = _ := by ring
  exact ⟨h1.1.trans hle, h1.2.1.trans hle, h1.2.2.1.trans hle, h1.2.2.2.trans hle⟩

theorem bd_tendsto (B : ℝ) : Filter.Tendsto (fun n : Nat => 3 ^ 32 * B * (0.3 : ℝ) ^ (n / 32)) Filter.atTop (𝓝 0) := by
  have h1 : Filter.Tendsto (fun n : Nat => n / 32) Filter.atTop Filter.atTop :=
    Nat.tendsto_div_const_atTop (by norm_num)
  have h2 := (tendsto_pow_atTop_nhds_zero_of_lt_one (r := (0.3 : ℝ)) (by norm_num) (by norm_num)).comp h1
  simpa using h2.const_mul (3 ^ 32 * B)

theorem exists_bd (s : V4 ℝ) : ∃ B, Bd s B :=
  ⟨|s.a| + |s.c| + |s.p| + |s.q|, by
    have := abs_nonneg s.a; have := abs_nonneg s.c; have := abs_nonneg s.p; have := abs_nonneg s.q
    refine ⟨?_, ?_, ?_, ?_⟩ <;> linarith⟩

theorem iterR_tendsto (s : V4 ℝ) : Filter.Tendsto (fun n => (iterR n s).a) Filter.atTop (𝓝 0) ∧
    Filter.Tendsto (fun n => (iterR n s).c) Filter.atTop (𝓝 0) := by
  obtain ⟨B, hB⟩ := exists_bd s
  exact ⟨squeeze_zero_norm (fun n => (bd_all hB n).1) (bd_tendsto B),
    squeeze_zero_norm (fun n => (bd_all hB n).2.1) (bd_tendsto B)⟩

theorem iterR_100 {a c : ℝ} (ha : |a| ≤ 33) (hc : |c| ≤ 1) :
    |(iterR 100 ⟨a, c, 0, 0⟩).a| ≤ 0.0049 ∧ |(iterR 100 ⟨a, c, 0, 0⟩).c| ≤ 0.0049 := by
  have key : ∀ f : V4 Int → Int, ((f (iterZ 100 e0)).natAbs * 33 + (f (iterZ 100 e1)).natAbs) * 1000 ≤ 49 * 10 ^ 799 →
      |comb ⟨a, c, 0, 0⟩ 100 f| ≤ 0.0049 := by
    intro f hf
    have hf : ((|(f (iterZ 100 e0) : ℝ)| * 33 + |(f (iterZ 100 e1) : ℝ)|) * 1000 : ℝ) ≤ 49 * 10 ^ 799 := by
      have := (Nat.cast_le (α := ℝ)).mpr hf
      push_cast [Nat.cast_natAbs, Int.cast_abs] at this
      exact this
    have hp : (0 : ℝ) < 100000000 ^ 100 := by positivity
    have e : (100000000 : ℝ) ^ 100 = 10 * 10 ^ 799 := by
      rw [← pow_succ', show (100000000 : ℝ) = 10 ^ 8 by norm_num, ← pow_mul]
    simp only [comb, zero_mul, add_zero]
    rw [abs_div, abs_of_pos hp, div_le_iff₀ hp, e]
    generalize (10 : ℝ) ^ 799 = T at hf ⊢
    have h1 : |a * (f (iterZ 100 e0) : ℝ)| ≤ 33 * |(f (iterZ 100 e0) : ℝ)| := by
      rw [abs_mul]; exact mul_le_mul_of_nonneg_right ha (abs_nonneg _)
    have h2 : |c * (f (iterZ 100 e1) : ℝ)| ≤ 1 * |(f (iterZ 100 e1) : ℝ)| := by
      rw [abs_mul]; exact mul_le_mul_of_nonneg_right hc (abs_nonneg _)
    have h3 := abs_add_le (a * (f (iterZ 100 e0) : ℝ)) (c * (f (iterZ 100 e1) : ℝ))
    linarith
  have hs := small100
  simp only [Bool.and_eq_true] at hs
  rw [iterR_eq]
  exact ⟨key _ (of_decide_eq_true hs.1), key _ (of_decide_eq_true hs.2)⟩

/-- The parameters hold the errors and velocities `s`. -/
def At (p : Nat → Optim.Param) (s : V4 ℝ) : Prop := Holds (p 0) (3 + s.a) s.p ∧ Holds (p 1) (1 + s.c) s.q

theorem epoch_at {p p' : Nat → Optim.Param} {s : V4 ℝ} (h : At p s) (he : Epoch strategy 2 samples p p') : At p' (stepR s) := by
  have := epoch_step h.1 h.2 he
  unfold At stepR
  refine ⟨?_, ?_⟩
  · convert this.1 using 1 <;> simp only <;> ring
  · convert this.2 using 1 <;> simp only <;> ring

theorem epochs_at {p p' : Nat → Optim.Param} {s : V4 ℝ} (h : At p s) {n : Nat} (he : Epochs strategy 2 samples n p p') :
    At p' (iterR n s) := by
  induction he with
  | zero => exact h
  | succ _ hq ih => exact epoch_at (ih h) hq

theorem initial_at (w : ℝ) : At (initial w) ⟨w - 3, -1, 0, 0⟩ := by
  refine ⟨⟨?_, rfl, .inr ⟨rfl, rfl⟩⟩, ?_, rfl, .inr ⟨rfl, rfl⟩⟩
  · simp [initial]
  · simp [initial]

theorem epoch_exists {p : Nat → Optim.Param} {s : V4 ℝ} (h : At p s) : ∃ p', Epoch strategy 2 samples p p' := by
  obtain ⟨γ, hl⟩ := learn_ends (all_train (p := fun x => (p x).value) h.1.1 h.2.1) (fun _ => none)
  obtain ⟨⟨g, hg, -⟩, g', hg', -⟩ := gradients h.1.1 h.2.1 hl
  obtain ⟨r, r0⟩ : ∃ r, strategy { p 0 with grad := some (ofVals (p 0).value g) } = some (r, false) := ⟨_, nesterov_run g h.1⟩
  obtain ⟨r', r1⟩ : ∃ r, strategy { p 1 with grad := some (ofVals (p 1).value g') } = some (r, false) := ⟨_, nesterov_run g' h.2⟩
  refine ⟨fun x => if x = 0 then r else r', γ, hl, fun x hx => ?_⟩
  have : x = 0 ∨ x = 1 := by omega
  rcases this with rfl | rfl
  · simp only [Updates, hg, if_pos]; exact r0
  · simp only [Updates, hg']; exact r1

/-- **C70, the example runs.** `n` epochs can be run, whatever `W` is at the beginning. -/
theorem regression_runs (w : ℝ) (n : Nat) : ∃ p, Epochs strategy 2 samples n (initial w) p := by
  induction n with
  | zero => exact ⟨_, .zero⟩
  | succ n ih =>
    obtain ⟨q, hq⟩ := ih
    obtain ⟨r, hr⟩ := epoch_exists (epochs_at (initial_at w) hq)
    exact ⟨r, .succ hq hr⟩

/-- **C70, the example learns its objective.** Under any schedule, whatever `W` is at the beginning, the parameters
converge to those of the objective function `3x + 1` (main.go:58). -/
theorem regression_converges (w : ℝ) (P : Nat → Nat → Optim.Param) (h0 : P 0 = initial w)
    (h : ∀ n, Epoch strategy 2 samples (P n) (P (n + 1))) :
    Filter.Tendsto (fun n => ((P n 0).value).val 0) Filter.atTop (𝓝 3) ∧
    Filter.Tendsto (fun n => ((P n 1).value).val 0) Filter.atTop (𝓝 1) := by
  have hat : ∀ n, At (P n) (iterR n ⟨w - 3, -1, 0, 0⟩) := by
    intro n
    induction n with
    | zero => rw [h0]; exact initial_at w
    | succ n ih => exact epoch_at ih (h n)
  obtain ⟨t1, t2⟩ := iterR_tendsto ⟨w - 3, -1, 0, 0⟩
  constructor
  · have e : (fun n => ((P n 0).value).val 0) = fun n => 3 + (iterR n ⟨w - 3, -1, 0, 0⟩).a := by
      funext n; rw [(hat n).1.1]; rfl
    rw [e]; simpa using t1.const_add 3
  · have e : (fun n => ((P n 1).value).val 0) = fun n => 1 + (iterR n ⟨w - 3, -1, 0, 0⟩).c := by
      funext n; rw [(hat n).2.1]; rfl
    rw [e]; simpa using t2.const_add 1

/-- **C70, the number of epochs suffices.** After the 100 epochs of the program (main.go:19), begun with any `W` between
-30 and 30 (Xavier's gives less than 2, C38), `W` and `B` are so near to 3 and 1 that `"W: %.2f | B: %.2f"` (main.go:90)
prints 3.00 and 1.00. -/
theorem regression_prints {w : ℝ} (hw : |w| ≤ 30) {p : Nat → Optim.Param} (h : Epochs strategy 2 samples 100 (initial w) p) :
    ∃ W B, (p 0).value = scalar W ∧ (p 1).value = scalar B ∧ |W - 3| < 0.005 ∧ |B - 1| < 0.005 := by
  have hat := epochs_at (initial_at w) h
  have h3 : |w - 3| ≤ 33 := by
    have := abs_sub w 3
    have e : |(3 : ℝ)| = 3 := by norm_num
    linarith
  obtain ⟨ha, hc⟩ := iterR_100 h3 (c := -1) (by norm_num)
  refine ⟨_, _, hat.1.1, hat.2.1, ?_, ?_⟩
  · rw [add_sub_cancel_left]; exact lt_of_le_of_lt ha (by norm_num)
  · rw [add_sub_cancel_left]; exact lt_of_le_of_lt hc (by norm_num)

/-- The hypotheses of `regression_prints` and `regression_converges` can be met. -/
example : ∃ p, Epochs strategy 2 samples 100 (initial 0.5) p := regression_runs 0.5 100

/-- The hypotheses of `batch_descends` can be met: the loop of the example leaves a gradient of `B` that is not zero. -/
example : ∃ γ, Learn 2 (fun x => (initial 0 x).value) samples (fun _ => none) γ ∧
    ∃ l < 2, ∃ i < ((fun x => (initial 0 x).value) l).data.length, gnum (γ l) i ≠ 0 := by
  have h0 : (fun x => (initial 0 x).value) 0 = scalar 0 := by simp [initial]
  have h1 : (fun x => (initial 0 x).value) 1 = scalar 0 := by simp [initial]
  obtain ⟨γ, hl⟩ := learn_ends (all_train (p := fun x => (initial 0 x).value) h0 h1) (fun _ => none)
  obtain ⟨-, g, hg, hg0⟩ := gradients h0 h1 hl
  refine ⟨γ, hl, 1, by omega, 0, by simp [initial, scalar], ?_⟩
  rw [hg]
  show g 0 ≠ 0
  rw [hg0]; norm_num

end Verif.Regression
