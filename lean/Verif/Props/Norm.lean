import Verif.Model.Norm
import Verif.Lemmas.Col
import Mathlib.Tactic.NormNum
import Mathlib.Tactic.Positivity
import Mathlib.Tactic.FieldSimp
import Mathlib.Algebra.BigOperators.Field

set_option autoImplicit false
set_option linter.unusedSimpArgs false

/-! # C38: normalisation layers -/

namespace Verif.Norm
open GradFn Dense Losses
open scoped BigOperators

/-! ### the statistics of `n` numbers -/

/-- The mean of `x 0, …, x (n - 1)`. -/
noncomputable def mean (n : Nat) (x : Nat → ℝ) : ℝ := (∑ i ∈ Finset.range n, x i) / n
/-- The variance. -/
noncomputable def var (n : Nat) (x : Nat → ℝ) : ℝ := mean n fun i => (x i - mean n x) ^ 2
/-- The root of the mean of the squares. -/
noncomputable def rms (n : Nat) (x : Nat → ℝ) : ℝ := Real.sqrt (mean n fun i => x i ^ 2)
/-- The Euclidean norm. -/
noncomputable def norm2 (n : Nat) (x : Nat → ℝ) : ℝ := Real.sqrt (∑ i ∈ Finset.range n, x i ^ 2)

theorem mean_nonneg {n : Nat} {x : Nat → ℝ} (h : ∀ i, 0 ≤ x i) : 0 ≤ mean n x :=
  div_nonneg (Finset.sum_nonneg fun i _ => h i) (by positivity)
theorem var_nonneg (n : Nat) (x : Nat → ℝ) : 0 ≤ var n x := mean_nonneg fun _ => sq_nonneg _
theorem rms_nonneg (n : Nat) (x : Nat → ℝ) : 0 ≤ rms n x := Real.sqrt_nonneg _
theorem norm2_nonneg (n : Nat) (x : Nat → ℝ) : 0 ≤ norm2 n x := Real.sqrt_nonneg _

theorem mean_div (n : Nat) (x : Nat → ℝ) (c : ℝ) : mean n (fun i => x i / c) = mean n x / c := by
  simp only [mean, ← Finset.sum_div]; ring

theorem mean_add_const {n : Nat} (hn : 0 < n) (x : Nat → ℝ) (c : ℝ) : mean n (fun i => x i + c) = mean n x + c := by
  have : (n : ℝ) ≠ 0 := by exact_mod_cast hn.ne'
  simp only [mean, Finset.sum_add_distrib, Finset.sum_const, Finset.card_range, nsmul_eq_mul]
  field_simp

theorem mean_sub_mean {n : Nat} (hn : 0 < n) (x : Nat → ℝ) : mean n (fun i => x i - mean n x) = 0 := by
  have := mean_add_const hn x (-mean n x)
  simp only [← sub_eq_add_neg] at this
  rw [this, sub_self]

theorem rms_div {n : Nat} (x : Nat → ℝ) {c : ℝ} (hc : 0 < c) : rms n (fun i => x i / c) = rms n x / c := by
  unfold rms
  simp only [div_pow]
  rw [mean_div, Real.sqrt_div (mean_nonneg fun _ => sq_nonneg _), Real.sqrt_sq hc.le]

theorem norm2_div {n : Nat} (x : Nat → ℝ) {c : ℝ} (hc : 0 < c) : norm2 n (fun i => x i / c) = norm2 n x / c := by
  unfold norm2
  simp only [div_pow]
  rw [← Finset.sum_div, Real.sqrt_div (Finset.sum_nonneg fun _ _ => sq_nonneg _), Real.sqrt_sq hc.le]

theorem var_add_const {n : Nat} (hn : 0 < n) (x : Nat → ℝ) (c : ℝ) : var n (fun i => x i + c) = var n x := by
  unfold var
  rw [mean_add_const hn]
  congr 1; ext i; ring

/-! ### the operators -/

theorem square_col (n : Nat) (v : Nat → ℝ) : square (col n v) = some (col n fun i => v i ^ 2) := by
  rw [square, prod_col]
  exact congrArg some (col_congr fun i _ => by ring)
theorem sqrt_scalar (a : ℝ) : GradFn.sqrt.forward [scalar a] = some (scalar (Real.sqrt a)) := by
  rw [scalar_col]; exact elementwise_col _ _ _ _
theorem sqrt_col (n : Nat) (v : Nat → ℝ) : GradFn.sqrt.forward [col n v] = some (col n fun i => Real.sqrt (v i)) :=
  elementwise_col _ _ _ _
theorem add_sc (a b : ℝ) : GradFn.add.forward [scalar a, scalar b] = some (scalar (a + b)) := rfl
theorem addScalar_sc (a b : ℝ) : addScalar.forward [scalar a, scalar b] = some (scalar (a + b)) := by
  rw [scalar_col a]; exact addScalar_col _ _ _
theorem mean_col (n : Nat) (v : Nat → ℝ) : GradFn.reduceMean.forward [col n v] = some (scalar (mean n v)) :=
  reduceMean_col n v

theorem tiny_pos : 0 < tiny := by norm_num [tiny]
theorem bnEps_pos : 0 < bnEps := by norm_num [bnEps]

/-! ### LayerNorm -/

/-- The normalised vector inside LayerNorm. -/
noncomputable def lnZ (n : Nat) (eps : ℝ) (x : Nat → ℝ) (i : Nat) : ℝ := (x i - mean n x) / Real.sqrt (var n x + eps)

/-- **C38.** LayerNorm is `(x - E[x]) / sqrt(Var[x] + eps) * w + b`. -/
theorem layerNorm_eq (n : Nat) (w b x : Nat → ℝ) (eps : ℝ) :
    layerNorm (col n w) (col n b) eps (col n x) = some (col n fun i => lnZ n eps x i * w i + b i) := by
  simp only [layerNorm, mean_col, subScalar_col, square_col, add_sc, sqrt_scalar, divScalar_col, prod_col, add_col,
    Option.bind_eq_bind, Option.bind_some]
  rfl

/-- **C38.** The normalised vector has mean 0 and mean square `var / (var + eps)`, less than 1. -/
theorem layerNorm_normalised {n : Nat} (hn : 0 < n) (x : Nat → ℝ) {eps : ℝ} (he : 0 < eps) :
    mean n (lnZ n eps x) = 0 ∧ mean n (fun i => lnZ n eps x i ^ 2) = var n x / (var n x + eps) ∧
      mean n (fun i => lnZ n eps x i ^ 2) < 1 := by
  have hv := var_nonneg n x
  have hp : 0 < var n x + eps := by linarith
  have h2 : mean n (fun i => lnZ n eps x i ^ 2) = var n x / (var n x + eps) := by
    simp only [lnZ, div_pow, Real.sq_sqrt hp.le]
    rw [mean_div]; rfl
  refine ⟨?_, h2, ?_⟩
  · change mean n (fun i => (x i - mean n x) / Real.sqrt (var n x + eps)) = 0
    rw [mean_div, mean_sub_mean hn, zero_div]
  · rw [h2, div_lt_one hp]; linarith

/-- **C38.** LayerNorm does not change when a constant is added to the input. -/
theorem layerNorm_shift {n : Nat} (hn : 0 < n) (w b x : Nat → ℝ) (eps c : ℝ) :
    layerNorm (col n w) (col n b) eps (col n fun i => x i + c) = layerNorm (col n w) (col n b) eps (col n x) := by
  rw [layerNorm_eq, layerNorm_eq]
  refine congrArg some (col_congr fun i _ => ?_)
  simp only [lnZ, mean_add_const hn, var_add_const hn]
  congr 3; ring

/-- LayerNormSimple: the same without weights, `eps` outside the root. -/
theorem layerNormSimple_eq (n : Nat) (x : Nat → ℝ) :
    layerNormSimple (col n x) = some (col n fun i => (x i - mean n x) / (Real.sqrt (var n x) + tiny)) := by
  simp only [layerNormSimple, mean_col, subScalar_col, square_col, add_sc, sqrt_scalar, divScalar_col,
    Option.bind_eq_bind, Option.bind_some]
  rfl

/-- **C38.** Its outputs have mean 0, and root mean square `σ / (σ + 1e-10)`, less than 1. -/
theorem layerNormSimple_normalised {n : Nat} (hn : 0 < n) (x : Nat → ℝ) : ∃ z, layerNormSimple (col n x) = some (col n z) ∧
    mean n z = 0 ∧ rms n z = Real.sqrt (var n x) / (Real.sqrt (var n x) + tiny) ∧ rms n z < 1 := by
  have ht := tiny_pos
  have hs := Real.sqrt_nonneg (var n x)
  have hp : 0 < Real.sqrt (var n x) + tiny := by linarith
  have h2 : rms n (fun i => (x i - mean n x) / (Real.sqrt (var n x) + tiny)) =
      Real.sqrt (var n x) / (Real.sqrt (var n x) + tiny) := by
    rw [rms_div _ hp]; rfl
  refine ⟨_, layerNormSimple_eq n x, ?_, h2, ?_⟩
  · rw [mean_div, mean_sub_mean hn, zero_div]
  · rw [h2, div_lt_one hp]; linarith

/-! ### RMSNorm, FixNorm, ScaleNorm -/

/-- **C38.** RMSNorm is `x / (rms(x) + 1e-10) * w + b`. -/
theorem rmsNorm_eq (n : Nat) (w b x : Nat → ℝ) :
    rmsNorm (col n w) (col n b) (col n x) = some (col n fun i => x i / (rms n x + tiny) * w i + b i) := by
  simp only [rmsNorm, mean_col, square_col, addScalar_sc, sqrt_scalar, divScalar_col, prod_col, add_col,
    Option.bind_eq_bind, Option.bind_some]
  rfl

/-- **C38.** The normalised vector has root mean square below 1. -/
theorem rmsNorm_normalised (n : Nat) (x : Nat → ℝ) : rms n (fun i => x i / (rms n x + tiny)) < 1 := by
  have := rms_nonneg n x
  have ht := tiny_pos
  rw [rms_div _ (by linarith), div_lt_one (by linarith)]; linarith

/-- **C38.** FixNorm is `x / (‖x‖ + 1e-10)`; the norm of the output is below 1, and positive unless x is zero. -/
theorem fixNorm_eq (n : Nat) (x : Nat → ℝ) : ∃ z, fixNorm (col n x) = some (col n z) ∧
    (∀ i, z i = x i / (norm2 n x + tiny)) ∧ norm2 n z = norm2 n x / (norm2 n x + tiny) ∧ norm2 n z < 1 := by
  have h0 := norm2_nonneg n x
  have ht := tiny_pos
  have hp : 0 < norm2 n x + tiny := by linarith
  have h2 := norm2_div (n := n) x hp
  refine ⟨fun i => x i / (norm2 n x + tiny), ?_, fun _ => rfl, h2, ?_⟩
  · simp only [fixNorm, reduceSum_col, square_col, addScalar_sc, sqrt_scalar, divScalar_col,
      Option.bind_eq_bind, Option.bind_some]
    rfl
  · rw [h2, div_lt_one hp]; linarith

/-- **C38.** ScaleNorm is `gain * x / (‖x‖ + 1e-10)`; its norm is less than the largest gain (unless all gains
are 0). -/
theorem scaleNorm_eq (n : Nat) (g x : Nat → ℝ) {G : ℝ} (hG : ∀ i < n, |g i| ≤ G) (hG0 : 0 < G) :
    ∃ z, scaleNorm (col n g) (col n x) = some (col n z) ∧ (∀ i, z i = x i / (norm2 n x + tiny) * g i) ∧
      norm2 n z < G := by
  obtain ⟨y, -, hy, -, hlt⟩ := fixNorm_eq n x
  refine ⟨fun i => x i / (norm2 n x + tiny) * g i, ?_, fun _ => rfl, ?_⟩
  · simp only [scaleNorm, reduceSum_col, square_col, addScalar_sc, sqrt_scalar, divScalar_col, prod_col,
      Option.bind_eq_bind, Option.bind_some]
    rfl
  · have : norm2 n (fun i => x i / (norm2 n x + tiny) * g i) ≤ norm2 n y * G := by
      have hsq : norm2 n y * G = Real.sqrt (∑ i ∈ Finset.range n, (y i * G) ^ 2) := by
        simp only [mul_pow, ← Finset.sum_mul]
        rw [Real.sqrt_mul (Finset.sum_nonneg fun _ _ => sq_nonneg _), Real.sqrt_sq hG0.le]; rfl
      rw [hsq]
      refine Real.sqrt_le_sqrt (Finset.sum_le_sum fun i hi => ?_)
      beta_reduce
      rw [← hy i, mul_pow, mul_pow]
      refine mul_le_mul_of_nonneg_left ?_ (sq_nonneg _)
      rw [← sq_abs (g i)]
      exact pow_le_pow_left₀ (abs_nonneg _) (hG i (Finset.mem_range.mp hi)) 2
    calc _ ≤ norm2 n y * G := this
      _ < 1 * G := mul_lt_mul_of_pos_right hlt hG0
      _ = G := one_mul G

/-! ### AdaNorm -/

/-- **C38.** AdaNorm is `scale * (1 - 0.1 y) * y` for the normalised vector `y`. -/
theorem adaNorm_eq (n : Nat) (scale : ℝ) (x : Nat → ℝ) : ∃ y, layerNormSimple (col n x) = some (col n y) ∧
    adaNorm scale (col n x) = some (col n fun i => scale * (1 - y i / 10) * y i) := by
  refine ⟨_, layerNormSimple_eq n x, ?_⟩
  simp only [adaNorm, mean_col, subScalar_col, square_col, add_sc, sqrt_scalar, divScalar_col, prodScalar_col,
    reverseSubScalar_col, prod_col, Option.bind_eq_bind, Option.bind_some]
  refine congrArg some (col_congr fun i _ => ?_)
  change (x i - mean n x) / (Real.sqrt (var n x) + tiny) *
    ((1 - (x i - mean n x) / (Real.sqrt (var n x) + tiny) * 0.1) * scale) = _
  generalize (x i - mean n x) / (Real.sqrt (var n x) + tiny) = y
  norm_num; ring

/-! ### BatchNorm -/

/-- The mean of a batch in the code: component-wise sum divided by the number of inputs plus 1e-5. -/
noncomputable def bMean (xs : List (Nat → ℝ)) (i : Nat) : ℝ := (xs.map (· i)).sum / (xs.length + bnEps)
/-- The standard deviation of a batch in the code. -/
noncomputable def bDev (xs : List (Nat → ℝ)) (i : Nat) : ℝ :=
  Real.sqrt ((xs.map fun x => (bMean xs i - x i) ^ 2).sum / (xs.length + bnEps))

theorem sumLoop_eq (n : Nat) : ∀ (xs : List (Nat → ℝ)) (s : Nat → ℝ),
    sumLoop (xs.map (col n)) (col n s) = some (col n fun i => s i + (xs.map (· i)).sum)
  | [], s => by simp [sumLoop]
  | x :: xs, s => by
    simp only [List.map_cons, sumLoop, add_col, Option.bind_eq_bind, Option.bind_some]
    rw [sumLoop_eq n xs]
    exact congrArg some (col_congr fun i _ => by simp [add_assoc])

theorem batchMean_eq (n : Nat) {xs : List (Nat → ℝ)} (h : xs ≠ []) :
    batchMean (xs.map (col n)) = some (col n (bMean xs)) := by
  match xs, h with
  | x :: xs, _ =>
    simp only [List.map_cons, batchMean, sumLoop_eq, Option.bind_eq_bind, Option.bind_some, divScalar_col]
    exact congrArg some (col_congr fun i _ => by simp [bMean])

theorem devLoop_eq (n : Nat) (m : Nat → ℝ) : ∀ (xs : List (Nat → ℝ)) (s : Nat → ℝ),
    devLoop (col n m) (xs.map (col n)) (col n s) =
      some (col n fun i => s i + (xs.map fun x => (m i - x i) ^ 2).sum)
  | [], s => by simp [devLoop]
  | x :: xs, s => by
    simp only [List.map_cons, devLoop, sub_col, square_col, add_col, Option.bind_eq_bind, Option.bind_some]
    rw [devLoop_eq n m xs]
    exact congrArg some (col_congr fun i _ => by simp [add_assoc])

theorem batchStdDev_eq (n : Nat) (xs : List (Nat → ℝ)) :
    batchStdDev (col n (bMean xs)) (xs.map (col n)) = some (col n (bDev xs)) := by
  simp only [batchStdDev, col_map, devLoop_eq, Option.bind_eq_bind, Option.bind_some, divScalar_col, sqrt_col]
  exact congrArg some (col_congr fun i _ => by simp [bDev])

/-- The model with vectors as functions. -/
noncomputable def bn (n : Nat) (w b m s : Nat → ℝ) (momentum : ℝ) : BatchNorm :=
  ⟨col n w, col n b, col n m, col n s, momentum⟩

theorem processLoop_eq (n : Nat) (b m d : Nat → ℝ) : ∀ xs : List (Nat → ℝ),
    processLoop (col n b) (col n m) (col n d) (xs.map (col n)) =
      some (xs.map fun x => col n fun i => (x i - m i) * d i + b i)
  | [] => rfl
  | x :: xs => by
    simp only [List.map_cons, processLoop, sub_col, prod_col, add_col, Option.bind_eq_bind, Option.bind_some,
      processLoop_eq n b m d xs]

/-- **C38.** At inference BatchNorm is `(x - mean) * w / (stdDev + 1e-5) + b` with the stored statistics. -/
theorem bnForward_eq (n : Nat) (w b m s : Nat → ℝ) (mom : ℝ) (xs : List (Nat → ℝ)) :
    bnForward (bn n w b m s mom) (xs.map (col n)) =
      some (xs.map fun x => col n fun i => (x i - m i) * (w i / (s i + bnEps)) + b i) := by
  simp only [bnForward, process, bn, addScalar_col, div_col, Option.bind_eq_bind, Option.bind_some, processLoop_eq]

/-- **C38.** A training step normalises with the statistics of the batch and moves the stored ones towards
them by `1 - momentum`. -/
theorem bnForwardT_eq (n : Nat) (w b m s : Nat → ℝ) (mom : ℝ) {xs : List (Nat → ℝ)} (h : xs ≠ []) :
    bnForwardT (bn n w b m s mom) (xs.map (col n)) =
      some (xs.map fun x => col n fun i => (x i - bMean xs i) * (w i / (bDev xs i + bnEps)) + b i,
        bn n w b (fun i => m i * mom + bMean xs i * (1 - mom)) (fun i => s i * mom + bDev xs i * (1 - mom)) mom) := by
  simp only [bnForwardT, batchMean_eq n h, batchStdDev_eq, bnUpdate, bn, col_map, col_zipOp, process, addScalar_col,
    div_col, processLoop_eq, Option.bind_eq_bind, Option.bind_some]

/-- Training on a history of batches. -/
noncomputable def train (m : BatchNorm) : List (List (Dense ℝ)) → Option BatchNorm
  | [] => some m
  | xs :: rest => do
    let r ← bnForwardT m xs
    train r.2 rest

/-- The exponential average of the values of a history: older values are multiplied by `mom` once more. -/
noncomputable def expAvg (mom v₀ : ℝ) (vs : List ℝ) : ℝ :=
  mom ^ vs.length * v₀ + (1 - mom) * ∑ k ∈ Finset.range vs.length, mom ^ (vs.length - 1 - k) * vs.getD k 0

theorem expAvg_cons (mom v₀ v : ℝ) (vs : List ℝ) : expAvg mom v₀ (v :: vs) = expAvg mom (v₀ * mom + v * (1 - mom)) vs := by
  simp only [expAvg, List.length_cons, Finset.sum_range_succ', Nat.add_sub_cancel, Nat.sub_zero, List.getD_cons_zero,
    List.getD_cons_succ]
  have : ∀ k ∈ Finset.range vs.length, mom ^ (vs.length - (k + 1)) * vs.getD k 0 =
      mom ^ (vs.length - 1 - k) * vs.getD k 0 := fun k _ => by rw [Nat.sub_sub, Nat.add_comm 1 k]
  rw [Finset.sum_congr rfl this]
  ring

/-- **C38.** After any history of batches the running statistics are the exponential averages of the batch
statistics, and the weights are unchanged. -/
theorem train_eq (n : Nat) (w b : Nat → ℝ) (mom : ℝ) : ∀ (hist : List (List (Nat → ℝ))) (m s : Nat → ℝ),
    (∀ xs ∈ hist, xs ≠ []) →
    train (bn n w b m s mom) (hist.map (List.map (col n))) =
      some (bn n w b (fun i => expAvg mom (m i) (hist.map fun xs => bMean xs i))
        (fun i => expAvg mom (s i) (hist.map fun xs => bDev xs i)) mom)
  | [], m, s, _ => by simp [train, expAvg]
  | xs :: hist, m, s, h => by
    simp only [List.map_cons, train, bnForwardT_eq n w b m s mom (h xs (by simp)), Option.bind_eq_bind,
      Option.bind_some]
    rw [train_eq n w b mom hist _ _ fun ys hy => h ys (by simp [hy])]
    simp only [expAvg_cons]

/-- **C38.** The running mean of a constant history converges to the batch mean: the distance is multiplied by
`mom` at every step. -/
theorem expAvg_const (mom v₀ v : ℝ) (k : Nat) : expAvg mom v₀ (List.replicate k v) - v = mom ^ k * (v₀ - v) := by
  induction k generalizing v₀ with
  | zero => simp [expAvg]
  | succ k ih => rw [List.replicate_succ, expAvg_cons, ih]; ring

/-- The batch "mean" is not the mean: it is too small by the factor `n / (n + 1e-5)`; for a batch of equal
non-zero values it differs from the value. -/
theorem bMean_biased {k : Nat} (hk : 0 < k) (c : ℝ) (hc : c ≠ 0) (i : Nat) :
    bMean (List.replicate k fun _ => c) i ≠ c := by
  have hp := bnEps_pos
  have hk' : (0 : ℝ) < k := by exact_mod_cast hk
  simp only [bMean, List.map_replicate, List.sum_replicate, nsmul_eq_mul, List.length_replicate]
  intro h
  rw [div_eq_iff (by linarith)] at h
  have : c * bnEps = 0 := by linarith
  rcases mul_eq_zero.mp this with h | h
  · exact hc h
  · linarith

/-! ### How little the constants change -/

theorem close_one {a : ℝ} (ha : 0 < a) : 1 - 1e-10 / a ≤ a / (a + tiny) := by
  have ht := tiny_pos
  rw [show a / (a + tiny) = 1 - tiny / (a + tiny) by field_simp; ring]
  have : tiny / (a + tiny) ≤ 1e-10 / a := by
    rw [show (1e-10 : ℝ) = tiny from rfl]
    exact div_le_div_of_nonneg_left ht.le ha (by linarith)
  linarith

/-- **C38.** The constant 1e-10 hardly matters: the normalised vectors have root mean square (norm) 1 up to 1e-10
divided by that of the input. -/
theorem normalised_close (n : Nat) (x : Nat → ℝ) :
    (0 < n → 0 < var n x → ∃ z, layerNormSimple (col n x) = some (col n z) ∧ 1 - 1e-10 / Real.sqrt (var n x) ≤ rms n z) ∧
    (0 < rms n x → ∃ z, rmsNorm (col n fun _ => 1) (col n fun _ => 0) (col n x) = some (col n z) ∧
      1 - 1e-10 / rms n x ≤ rms n z) ∧
    (0 < norm2 n x → ∃ z, fixNorm (col n x) = some (col n z) ∧ 1 - 1e-10 / norm2 n x ≤ norm2 n z) := by
  have ht := tiny_pos
  refine ⟨fun hn hv => ?_, fun h => ?_, fun h => ?_⟩
  · obtain ⟨z, h1, -, h2, -⟩ := layerNormSimple_normalised hn x
    exact ⟨z, h1, h2 ▸ close_one (Real.sqrt_pos.mpr hv)⟩
  · refine ⟨fun i => x i / (rms n x + tiny), (rmsNorm_eq n _ _ x).trans (by simp), ?_⟩
    rw [rms_div _ (by linarith)]
    exact close_one h
  · obtain ⟨z, h1, -, h2, -⟩ := fixNorm_eq n x
    exact ⟨z, h1, h2 ▸ close_one h⟩

/-- **C38.** The mean which BatchNorm computes differs from the mean of the batch by at most the 1e-5th part of it. -/
theorem bMean_close {xs : List (Nat → ℝ)} (h : xs ≠ []) (i : Nat) :
    |bMean xs i - (xs.map (· i)).sum / xs.length| ≤ 1e-5 * |(xs.map (· i)).sum / xs.length| := by
  have he := bnEps_pos
  have hl : (1 : ℝ) ≤ xs.length := by
    have : 0 < xs.length := List.length_pos_iff.mpr h
    exact_mod_cast this
  rw [bMean, show (xs.map (· i)).sum / ((xs.length : ℝ) + bnEps) - (xs.map (· i)).sum / xs.length =
    -(bnEps / (xs.length + bnEps)) * ((xs.map (· i)).sum / xs.length) by field_simp; ring, abs_mul, abs_neg,
    abs_of_pos (by positivity)]
  refine mul_le_mul_of_nonneg_right ?_ (abs_nonneg _)
  rw [show (1e-5 : ℝ) = bnEps from rfl, div_le_iff₀ (by linarith)]
  nlinarith

section Examples

example : mean 3 (lnZ 3 1 fun i => i) = 0 := (layerNorm_normalised (n := 3) (by norm_num) _ (eps := 1) (by norm_num)).1

/-- the layer on a vector as the code stores it -/
example : ∃ y, layerNorm ⟨2, 1, [1, 1]⟩ ⟨2, 1, [0, 0]⟩ 3 ⟨2, 1, [5, 7]⟩ = some y ∧ y.data = [-1/2, 1/2] := by
  have h := layerNorm_eq 2 (fun _ => 1) (fun _ => 0) (fun i => if i = 0 then 5 else 7) 3
  refine ⟨_, h, ?_⟩
  have hs : Real.sqrt 4 = 2 := by
    rw [show (4 : ℝ) = 2 ^ 2 by norm_num]; exact Real.sqrt_sq (by norm_num)
  norm_num [col, List.range, List.range.loop, lnZ, mean, var, Finset.sum_range_succ, hs]

example : ∃ z, fixNorm (col 1 fun _ => 1) = some (col 1 z) ∧ 1 - 1e-10 / norm2 1 (fun _ => 1) ≤ norm2 1 z :=
  (normalised_close 1 fun _ => 1).2.2 (by simp [norm2])

example : |bMean [fun _ => 2, fun _ => 4] 0 - 3| ≤ 1e-5 * 3 := by
  have h := bMean_close (xs := [fun _ => 2, fun _ => 4]) (by simp) 0
  norm_num at h ⊢
  exact h

example : bMean [fun _ => 2, fun _ => 2] 0 ≠ 2 := bMean_biased (k := 2) (by norm_num) 2 (by norm_num) 0

end Examples
end Verif.Norm
