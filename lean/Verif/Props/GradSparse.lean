import Verif.Props.GradMax
import Mathlib.Analysis.Calculus.Deriv.Pow

set_option autoImplicit false
set_option linter.unusedSimpArgs false

/-!
# Gradients of SparseMax and SparseMaxLoss

`SparseMaxLoss` is differentiable everywhere; `SparseMax` where no entry equals the threshold.
-/

namespace Verif.GradFn
open Dense
open scoped BigOperators Topology

/-! ## The projection as a function of an index -/

/-- `τ` is the threshold of `x_0 … x_{n-1}`. -/
def IsTau (n : Nat) (x : Nat → ℝ) (tau : ℝ) : Prop :=
  ∑ i ∈ Finset.range n, Max.max (x i - tau) 0 = 1

theorem list_sum_range (l : List ℝ) (f : ℝ → ℝ) :
    (l.map f).sum = ∑ i ∈ Finset.range l.length, f (l.getD i 0) := by
  induction l with
  | nil => simp
  | cons a l ih => rw [List.map_cons, List.sum_cons, List.length_cons, Finset.sum_range_succ', ih]; simp [add_comm]

theorem isTau_iff (x : Dense ℝ) (tau : ℝ) :
    IsTau x.data.length x.val tau ↔ (x.data.map fun v => Max.max (v - tau) 0).sum = 1 := by
  rw [list_sum_range]; rfl

/-- The threshold is unique. -/
theorem isTau_unique {n : Nat} {x : Nat → ℝ} {t t' : ℝ} (h : IsTau n x t) (h' : IsTau n x t') : t = t' := by
  have key : ∀ t t' : ℝ, IsTau n x t → IsTau n x t' → t < t' → False := by
    intro t t' h h' hlt
    have hex : ∃ i ∈ Finset.range n, t' < x i := by
      by_contra hc
      push Not at hc
      have : ∑ i ∈ Finset.range n, Max.max (x i - t') 0 = 0 :=
        Finset.sum_eq_zero fun i hi => max_eq_right (by linarith [hc i hi])
      rw [IsTau, this] at h'
      norm_num at h'
    obtain ⟨i, hi, hx⟩ := hex
    have : ∑ i ∈ Finset.range n, Max.max (x i - t') 0 < ∑ i ∈ Finset.range n, Max.max (x i - t) 0 := by
      refine Finset.sum_lt_sum (fun j _ => max_le_max (by linarith) (le_refl _)) ⟨i, hi, ?_⟩
      rw [max_eq_left (by linarith), max_eq_left (by linarith)]; linarith
    rw [h, h'] at this
    exact lt_irrefl _ this
  rcases lt_trichotomy t t' with h1 | h1 | h1
  · exact (key t t' h h' h1).elim
  · exact h1
  · exact (key t' t h' h h1).elim

/-- The value of the regularised maximum: `max over the simplex of p·x - |p|²/2`. -/
noncomputable def spVal (n : Nat) (x : Nat → ℝ) (tau : ℝ) : ℝ :=
  ∑ i ∈ Finset.range n, (Max.max (x i - tau) 0 * x i - Max.max (x i - tau) 0 ^ 2 / 2)

theorem proj_ineq (a t q : ℝ) (hq : 0 ≤ q) : (q - Max.max (a - t) 0) * (a - Max.max (a - t) 0) ≤ t * (q - Max.max (a - t) 0) := by
  rcases le_total a t with h | h
  · rw [max_eq_right (by linarith)]; nlinarith
  · rw [max_eq_left (by linarith)]; linarith

theorem spVal_opt {n : Nat} {x : Nat → ℝ} {tau : ℝ} (h : IsTau n x tau) {q : Nat → ℝ} (hq : ∀ i, 0 ≤ q i)
    (hs : ∑ i ∈ Finset.range n, q i = 1) :
    ∑ i ∈ Finset.range n, (q i * x i - q i ^ 2 / 2) ≤ spVal n x tau := by
  have h1 : ∑ i ∈ Finset.range n, (q i * x i - q i ^ 2 / 2) ≤
      ∑ i ∈ Finset.range n, (Max.max (x i - tau) 0 * x i - Max.max (x i - tau) 0 ^ 2 / 2 +
        tau * (q i - Max.max (x i - tau) 0)) := by
    refine Finset.sum_le_sum fun i _ => ?_
    have := proj_ineq (x i) tau (q i) (hq i)
    nlinarith [sq_nonneg (q i - Max.max (x i - tau) 0)]
  have h2 : ∑ i ∈ Finset.range n, (q i - Max.max (x i - tau) 0) = 0 := by
    rw [Finset.sum_sub_distrib, hs, h, sub_self]
  rw [Finset.sum_add_distrib, ← Finset.mul_sum, h2, mul_zero, add_zero] at h1
  exact h1

/-- The regularised maximum is differentiable, with the projection as gradient, up to a quadratic error. -/
theorem spVal_bound {n : Nat} {x x' : Nat → ℝ} {t t' : ℝ} (h : IsTau n x t) (h' : IsTau n x' t') :
    0 ≤ spVal n x' t' - spVal n x t - ∑ i ∈ Finset.range n, Max.max (x i - t) 0 * (x' i - x i) ∧
    spVal n x' t' - spVal n x t - ∑ i ∈ Finset.range n, Max.max (x i - t) 0 * (x' i - x i) ≤
      ∑ i ∈ Finset.range n, (x' i - x i) ^ 2 := by
  set p : Nat → ℝ := fun i => Max.max (x i - t) 0 with hp
  set p' : Nat → ℝ := fun i => Max.max (x' i - t') 0 with hp'
  have hp0 : ∀ i, 0 ≤ p i := fun i => le_max_right _ _
  have hp0' : ∀ i, 0 ≤ p' i := fun i => le_max_right _ _
  have hps : ∑ i ∈ Finset.range n, p i = 1 := h
  have hps' : ∑ i ∈ Finset.range n, p' i = 1 := h'
  have hv : spVal n x t = ∑ i ∈ Finset.range n, (p i * x i - p i ^ 2 / 2) := rfl
  have hv' : spVal n x' t' = ∑ i ∈ Finset.range n, (p' i * x' i - p' i ^ 2 / 2) := rfl
  have lo := spVal_opt h' hp0 hps
  have hi := spVal_opt h hp0' hps'
  have e1 : ∑ i ∈ Finset.range n, (p i * x' i - p i ^ 2 / 2) =
      spVal n x t + ∑ i ∈ Finset.range n, p i * (x' i - x i) := by
    rw [hv, ← Finset.sum_add_distrib]
    exact Finset.sum_congr rfl fun i _ => by ring
  have e2 : ∑ i ∈ Finset.range n, (p' i * x i - p' i ^ 2 / 2) =
      spVal n x' t' - ∑ i ∈ Finset.range n, p' i * (x' i - x i) := by
    rw [hv', ← Finset.sum_sub_distrib]
    exact Finset.sum_congr rfl fun i _ => by ring
  have h3 : ∑ i ∈ Finset.range n, (p' i - p i) ^ 2 ≤ ∑ i ∈ Finset.range n, (p' i - p i) * (x' i - x i) := by
    have : ∑ i ∈ Finset.range n, (p' i - p i) ^ 2 ≤ ∑ i ∈ Finset.range n,
        ((p' i - p i) * (x' i - x i) + (t - t') * (p' i - p i)) := by
      refine Finset.sum_le_sum fun i _ => ?_
      have a1 := proj_ineq (x i) t (p' i) (hp0' i)
      have a2 := proj_ineq (x' i) t' (p i) (hp0 i)
      simp only [hp, hp'] at a1 a2 ⊢
      nlinarith
    rw [Finset.sum_add_distrib, ← Finset.mul_sum, Finset.sum_sub_distrib, hps, hps', sub_self, mul_zero,
      add_zero] at this
    exact this
  have h4 : ∑ i ∈ Finset.range n, (p' i - p i) * (x' i - x i) ≤
      ∑ i ∈ Finset.range n, ((p' i - p i) ^ 2 / 2 + (x' i - x i) ^ 2 / 2) :=
    Finset.sum_le_sum fun i _ => by nlinarith [sq_nonneg ((p' i - p i) - (x' i - x i))]
  rw [Finset.sum_add_distrib, ← Finset.sum_div, ← Finset.sum_div] at h4
  have h5 : ∑ i ∈ Finset.range n, (p' i - p i) * (x' i - x i) =
      ∑ i ∈ Finset.range n, p' i * (x' i - x i) - ∑ i ∈ Finset.range n, p i * (x' i - x i) := by
    rw [← Finset.sum_sub_distrib]
    exact Finset.sum_congr rfl fun i _ => by ring
  constructor
  · linarith
  · linarith

theorem hasDerivAt_of_squeeze {e g : ℝ → ℝ} (h0 : e 0 = 0) (hg0 : g 0 = 0) (hg : HasDerivAt g 0 0)
    (h1 : ∀ t, 0 ≤ e t) (h2 : ∀ t, e t ≤ g t) : HasDerivAt e 0 0 := by
  rw [hasDerivAt_iff_isLittleO] at hg ⊢
  simp only [h0, hg0, sub_zero, smul_zero] at hg ⊢
  refine Asymptotics.IsBigO.trans_isLittleO ?_ hg
  refine Asymptotics.IsBigO.of_bound 1 (Filter.Eventually.of_forall fun t => ?_)
  rw [Real.norm_eq_abs, Real.norm_eq_abs, abs_of_nonneg (h1 t), abs_of_nonneg ((h1 t).trans (h2 t)), one_mul]
  exact h2 t

/-! ## The loop of the loss -/

theorem sparseReg_fail (tau : ℝ) (zs : List ℝ) (i : Nat) (cum reg : ℝ)
    (hs : zs.Pairwise (· ≥ ·)) (hf : ∀ z ∈ zs, 1 + i * z ≤ cum) :
    sparseRegLoop tau zs i cum reg = reg := by
  induction zs generalizing i cum with
  | nil => rfl
  | cons z zs ih =>
    simp only [List.pairwise_cons] at hs
    have h0 := hf z (by simp)
    simp only [sparseRegLoop]
    rw [if_neg (by push_cast; linarith)]
    apply ih _ _ hs.2
    intro w hw
    have h1 := hs.1 w hw
    have h2 := hf w (by simp [hw])
    push_cast
    nlinarith

theorem sparseReg_ok (tau : ℝ) (pre zs : List ℝ) (hs : (pre ++ zs).Pairwise (· ≥ ·))
    (hp : ∀ z ∈ pre, pre.sum - 1 < pre.length * z) :
    ∃ a b, pre ++ zs = a ++ b ∧ sparseRegLoop tau zs pre.length pre.sum (pre.map fun z => z * z - tau * tau).sum =
        (a.map fun z => z * z - tau * tau).sum ∧
      (∀ z ∈ a, a.sum - 1 < a.length * z) ∧ (∀ z ∈ b, a.length * z ≤ a.sum - 1) ∧
      (pre ++ zs ≠ [] → a ≠ []) := by
  induction zs generalizing pre with
  | nil => exact ⟨pre, [], rfl, rfl, hp, by simp, by simp⟩
  | cons z zs ih =>
    have happ : pre ++ z :: zs = (pre ++ [z]) ++ zs := by simp
    by_cases hz : 1 + ((pre.length + 1 : Nat) : ℝ) * z > pre.sum + z
    · have hlt : ∀ w ∈ pre, z ≤ w := by
        intro w hw
        exact (List.pairwise_append.mp hs).2.2 w hw z (by simp)
      obtain ⟨a, b, h1, h2, h4, h5, h6⟩ := ih (pre ++ [z]) (happ ▸ hs) (by
          intro w hw
          have hwz : z ≤ w := by
            simp only [List.mem_append, List.mem_singleton] at hw
            rcases hw with hw | rfl
            · exact hlt w hw
            · exact le_refl _
          simp only [List.sum_append, List.sum_singleton, List.length_append, List.length_singleton]
          have : (0 : ℝ) ≤ ((pre.length + 1 : Nat) : ℝ) := Nat.cast_nonneg _
          nlinarith)
      refine ⟨a, b, by rw [happ, h1], ?_, h4, h5, fun _ => h6 (by simp)⟩
      rw [← h2]
      simp only [sparseRegLoop]
      rw [if_pos hz]
      simp
    · have hne : pre ≠ [] := by
        rintro rfl
        simp at hz
      have hle : ∀ w ∈ z :: zs, w ≤ z := by
        intro w hw
        rcases List.mem_cons.mp hw with rfl | hw
        · exact le_refl _
        · exact (List.pairwise_cons.mp (List.pairwise_append.mp hs).2.1).1 w hw
      have h0 : (0 : ℝ) ≤ (pre.length : ℝ) := Nat.cast_nonneg _
      push_cast at hz
      refine ⟨pre, z :: zs, rfl, ?_, hp, ?_, fun _ => hne⟩
      · apply sparseReg_fail _ _ _ _ _ (List.pairwise_append.mp hs).2.1
        intro w hw
        have := hle w hw
        nlinarith
      · intro w hw
        have := hle w hw
        nlinarith

/-- The constant that `SparseMaxLoss.Forward` subtracts is the regularised maximum plus 1/2. -/
theorem sparseReg_eq {x : Dense ℝ} (hne : x.data ≠ []) :
    IsTau x.data.length x.val (VecFn.sparseTau x.data) ∧
    sparseRegLoop (VecFn.sparseTau x.data) (x.data.mergeSort fun a b => decide (b ≤ a)) 0 0 0 * (1 / 2) + 1 / 2 =
      spVal x.data.length x.val (VecFn.sparseTau x.data) + 1 / 2 := by
  have htau := (isTau_iff x _).mpr (VecFn.sparseTau_spec hne)
  refine ⟨htau, ?_⟩
  set tau := VecFn.sparseTau x.data
  set zs := x.data.mergeSort fun a b => decide (b ≤ a) with hzs
  have hperm : zs.Perm x.data := List.mergeSort_perm _ _
  have hsort : zs.Pairwise (· ≥ ·) := by
    have := List.pairwise_mergeSort (le := fun a b : ℝ => decide (b ≤ a))
      (fun a b c h1 h2 => by simp at h1 h2 ⊢; linarith)
      (fun a b => by simp; exact le_total b a) x.data
    exact this.imp (fun h => by simpa using h)
  obtain ⟨a, b, h1, h2, h4, h5, h6⟩ := sparseReg_ok tau [] zs (by simpa using hsort) (by simp)
  simp only [List.nil_append, List.length_nil, List.sum_nil, List.map_nil] at h1 h2 h6
  have hzne : zs ≠ [] := fun e => hne (by
    have := hperm; rw [e] at this; exact this.nil_eq.symm)
  have hane := h6 hzne
  have hlen : (0 : ℝ) < a.length := by
    have := List.length_pos_of_ne_nil hane
    exact_mod_cast this
  set t' := (a.sum - 1) / a.length with ht'
  have ha : ∀ z ∈ a, t' < z := fun z hz => by
    rw [ht', div_lt_iff₀ hlen]; linarith [h4 z hz]
  have hb : ∀ z ∈ b, z ≤ t' := fun z hz => by
    rw [ht', le_div_iff₀ hlen]; linarith [h5 z hz]
  have ht : t' = tau := by
    refine isTau_unique (n := x.data.length) (x := x.val) ((isTau_iff x _).mpr ?_) htau
    rw [← (hperm.map _).sum_eq, h1, VecFn.sum_max_eq a b _ (fun z hz => (ha z hz).le) hb, ht']
    field_simp; ring
  rw [ht] at ha hb
  rw [h2]
  have hw : spVal x.data.length x.val tau =
      (x.data.map fun z => Max.max (z - tau) 0 * z - Max.max (z - tau) 0 ^ 2 / 2).sum := by
    rw [list_sum_range]; rfl
  rw [hw, ← (hperm.map _).sum_eq, h1, List.map_append, List.sum_append]
  have hb0 : (b.map fun z => Max.max (z - tau) 0 * z - Max.max (z - tau) 0 ^ 2 / 2).sum = 0 := by
    clear h1 h5
    induction b with
    | nil => rfl
    | cons z b ih =>
      rw [List.map_cons, List.sum_cons, ih fun w hw => hb w (by simp [hw]),
        max_eq_right (by linarith [hb z (by simp)])]
      ring
  have ha0 : (a.map fun z => Max.max (z - tau) 0 * z - Max.max (z - tau) 0 ^ 2 / 2).sum =
      (a.map fun z => z * z - tau * tau).sum * (1 / 2) := by
    clear h1 h2 h4 h5 hane hlen ht ht' h6 hb t'
    induction a with
    | nil => simp
    | cons z a ih =>
      rw [List.map_cons, List.sum_cons, ih fun w hw => ha w (by simp [hw]),
        max_eq_left (by linarith [ha z (by simp)]), List.map_cons, List.sum_cons]
      ring
  rw [ha0, hb0, add_zero]

/-- `SparseMaxLoss` is right everywhere. -/
theorem sparseMaxLoss_correct {x : Dense ℝ} (hx : x.WF) : Correct sparseMaxLoss [x] := by
  set C : Dense ℝ → ℝ := fun d => sparseRegLoop (VecFn.sparseTau d.data)
    (d.data.mergeSort fun a b => decide (b ≤ a)) 0 0 0 * (1 / 2) + 1 / 2 with hC
  set P : ℝ → ℝ := fun v => if 0 < v - VecFn.sparseTau x.data then v - VecFn.sparseTau x.data else 0 with hP
  intro y hy gy hgy
  obtain rfl : y = x.map (· - C x) := (Option.some.inj hy).symm
  have hg : x.Like gy := (like_map (Like.refl hx) _).trans hgy
  have e1 := hg.len hx
  have hsm : gy.Like (x.map fun v => P v * gy.sum) := like_map (hg.symm hx) _
  refine ⟨[some (zip2 (· - ·) gy (x.map fun v => P v * gy.sum))], ?_,
    gradShapes1 (hg.trans (zip2_like _ hg.wf hsm)), isVJP1 (fun d => d.map (· - C d))
    (fun v i => v i - ∑ k ∈ Finset.range x.data.length, P (x.val k) * v k) hx ?_ ?_ ?_⟩
  · simp only [sparseMaxLoss]
    rw [apply_const x (fun v => P v * gy.sum), zipOp_like _ hsm]
    rfl
  · intro x' hx'
    exact ⟨rfl, (hg.symm hx).trans (like_map hx' _)⟩
  · intro X v hX i hi
    have hi : i < x.data.length := by omega
    have e : (fun t => ((X t).map (· - C (X t))).val i) = fun t => (X t).val i - C (X t) := by
      funext t
      rw [val_map _ _ (by rw [hX.len]; exact hi)]
    rw [e]
    refine (hX.deriv i hi).sub ?_
    have hne : ∀ t, (X t).data ≠ [] := by
      intro t h
      have := hX.len t
      rw [h] at this; simp at this; omega
    have hxne : x.data ≠ [] := hX.start ▸ hne 0
    have hCt : ∀ t, C (X t) = spVal x.data.length (X t).val (VecFn.sparseTau (X t).data) + 1 / 2 := by
      intro t
      have := (sparseReg_eq (hne t)).2
      rw [hX.len] at this
      exact this
    have hTt : ∀ t, IsTau x.data.length (X t).val (VecFn.sparseTau (X t).data) := by
      intro t
      have := (sparseReg_eq (hne t)).1
      rw [hX.len] at this
      exact this
    have hPm : ∀ w, P w = Max.max (w - VecFn.sparseTau x.data) 0 := by
      intro w
      simp only [hP]
      split
      · rename_i h; rw [max_eq_left h.le]
      · rename_i h; rw [max_eq_right (not_lt.mp h)]
    have hT0 : IsTau x.data.length x.val (VecFn.sparseTau x.data) := (sparseReg_eq hxne).1
    have hb := fun t => spVal_bound hT0 (hTt t)
    have hdh : ∀ k < x.data.length, HasDerivAt (fun t => (X t).val k - x.val k) (v k) 0 := fun k hk =>
      (hX.deriv k hk).sub_const _
    have hdg : HasDerivAt (fun t => ∑ k ∈ Finset.range x.data.length, ((X t).val k - x.val k) ^ 2) 0 0 := by
      have := HasDerivAt.fun_sum (u := Finset.range x.data.length)
        (fun k hk => (hdh k (Finset.mem_range.mp hk)).fun_pow 2)
      refine this.congr_deriv ?_
      refine Finset.sum_eq_zero fun k _ => ?_
      rw [hX.start]; simp
    have hde := hasDerivAt_of_squeeze (by rw [hX.start]; simp) (by rw [hX.start]; simp) hdg
      (fun t => (hb t).1) (fun t => (hb t).2)
    have hlin : HasDerivAt (fun t => ∑ k ∈ Finset.range x.data.length,
        Max.max (x.val k - VecFn.sparseTau x.data) 0 * ((X t).val k - x.val k))
        (∑ k ∈ Finset.range x.data.length, Max.max (x.val k - VecFn.sparseTau x.data) 0 * v k) 0 :=
      HasDerivAt.fun_sum fun k hk => (hdh k (Finset.mem_range.mp hk)).const_mul _
    have hsum := (hde.fun_add hlin).add_const (spVal x.data.length x.val (VecFn.sparseTau x.data) + 1 / 2)
    simp only [hPm]
    rw [zero_add] at hsum
    refine hsum.congr_of_eventuallyEq (Filter.Eventually.of_forall fun t => ?_)
    beta_reduce
    rw [hCt]; ring
  · intro v
    rw [e1]
    have e2 : ∀ i ∈ Finset.range x.data.length, (zip2 (· - ·) gy (x.map fun v => P v * gy.sum)).val i * v i =
        gy.val i * v i - gy.sum * (P (x.val i) * v i) := by
      intro i hi
      have hi := Finset.mem_range.mp hi
      rw [val_zip2 _ (by omega) (by simpa using hi), val_map _ _ hi]; ring
    rw [Finset.sum_congr rfl e2, Finset.sum_sub_distrib, ← Finset.mul_sum, sum_eq_val, e1]
    simp only [mul_sub]
    rw [Finset.sum_sub_distrib, Finset.sum_mul]

/-! ## SparseMax -/

/-- Where the threshold is not negative `SparseMax` is the projection. -/
theorem sparseMax_forward {x : Dense ℝ} {tau : ℝ} (h : IsTau x.data.length x.val tau) (h0 : 0 ≤ tau) :
    VecFn.sparseMax x = some (x.map fun v => Max.max (v - tau) 0) := by
  have hs := (isTau_iff x tau).mp h
  have hne : x.data ≠ [] := by
    intro e; rw [e] at hs; simp at hs
  obtain ⟨m, hm⟩ := Option.isSome_iff_exists.mp ((VecFn.max_spec x).1.mpr hne)
  obtain ⟨-, hmax⟩ := (VecFn.max_spec x).2 m hm
  have hmt : tau < m := by
    by_contra hc
    have : (x.data.map fun v => Max.max (v - tau) 0).sum = 0 := by
      refine List.sum_eq_zero fun w hw => ?_
      obtain ⟨v, hv, rfl⟩ := List.mem_map.mp hw
      exact max_eq_right (by linarith [hmax v hv, not_lt.mp hc])
    rw [this] at hs; norm_num at hs
  exact VecFn.sparseMax_partial hm ⟨tau, rfl, hs⟩ (by
    intro v hv
    obtain ⟨w, hw, rfl⟩ := List.mem_map.mp hv
    exact max_le (by linarith [hmax w hw]) (by linarith))

theorem sum_filter_range (n : Nat) (q : Nat → Bool) (f : Nat → ℝ) :
    (((List.range n).filter q).map f).sum = ∑ i ∈ Finset.range n, if q i then f i else 0 := by
  induction n with
  | zero => simp
  | succ n ih =>
    rw [List.range_succ, List.filter_append, List.map_append, List.sum_append, ih, Finset.sum_range_succ]
    congr 1
    by_cases h : q n <;> simp [h]

theorem foldlM_at1 {gy : Dense ℝ} (hv : gy.isVector) : ∀ (L : List Nat) (a : ℝ), (∀ i ∈ L, i < gy.data.length) →
    L.foldlM (fun s (i : Nat) => do
      let g ← gy.at1 i
      some (s + g)) a = some (a + (L.map gy.val).sum)
  | [], a, _ => by simp
  | i :: L, a, h => by
    rw [List.foldlM_cons, at1_vec hv (h i (by simp))]
    simp only [Option.bind_eq_bind, Option.bind_some]
    have := foldlM_at1 hv L (a + gy.val i) fun j hj => h j (by simp [hj])
    simp only [Option.bind_eq_bind] at this
    rw [this, List.map_cons, List.sum_cons, add_assoc]

theorem foldlM_set1 {gy x : Dense ℝ} (hx : x.WF) (hv : gy.isVector) (hxv : x.isVector) (c : ℝ) :
    ∀ (L : List Nat) (gx : Dense ℝ), x.Like gx → (∀ i ∈ L, i < gy.data.length ∧ i < x.data.length) →
    ∃ gx', L.foldlM (fun gx (i : Nat) => do
        let g ← gy.at1 i
        gx.set1 (g - c) i) gx = some gx' ∧ x.Like gx' ∧
      ∀ i, gx'.val i = if i ∈ L then gy.val i - c else gx.val i
  | [], gx, hl, _ => ⟨gx, rfl, hl, by simp⟩
  | i :: L, gx, hl, h => by
    obtain ⟨h1, h2⟩ := h i (by simp)
    have hlen := hl.len hx
    have hgv : gx.isVector := by rw [isVector_like hl]; exact hxv
    have hset := set1_vec hgv (gy.val i - c) (i := i) (by omega)
    obtain ⟨gx', g1, g2, g3⟩ := foldlM_set1 hx hv hxv c L ⟨gx.rows, gx.cols, gx.data.set i (gy.val i - c)⟩
      ⟨by simp only [WF, List.length_set]; exact hl.wf, hl.rows, hl.cols⟩ fun j hj => h j (by simp [hj])
    refine ⟨gx', ?_, g2, fun j => ?_⟩
    · rw [List.foldlM_cons, at1_vec hv h1]
      simp only [Option.bind_eq_bind, Option.bind_some, hset] at g1 ⊢
      exact g1
    · rw [g3 j]
      by_cases hj : j ∈ L
      · simp [hj]
      · rw [if_neg hj]
        by_cases hji : j = i
        · subst hji
          rw [if_pos (by simp), val_of_lt _ (by simp; omega)]; simp
        · rw [if_neg (by simp [hj, hji])]
          simp [val, List.getElem?_set, Ne.symm hji]

/-- `SparseMax` is right where the threshold is positive and no entry equals it. It is wrong at every vector with
negative threshold and positive maximum (`sparseMax_negative_wrong`). Missing: the kinks, where the threshold is 0
or an entry equals it. -/
theorem sparseMax_correct_partial {x : Dense ℝ} (hx : x.WF) (hv : x.isVector) {tau : ℝ} (hpos : 0 < tau)
    (htau : IsTau x.data.length x.val tau) (hne : ∀ i < x.data.length, x.val i ≠ tau) :
    Correct sparseMax [x] := by
  classical
  set n := x.data.length with hn
  set S : Finset Nat := (Finset.range n).filter fun i => tau < x.val i with hS
  have hSn : ∀ i ∈ S, i < n := fun i hi => Finset.mem_range.mp (Finset.mem_filter.mp hi).1
  -- the threshold as a function of the entries in the support
  set T : Dense ℝ → ℝ := fun d => (∑ i ∈ S, d.val i - 1) / S.card with hT
  have hsplit : ∀ (d : Dense ℝ) (t : ℝ), (∀ i ∈ S, t ≤ d.val i) → (∀ i < n, i ∉ S → d.val i ≤ t) →
      ∑ i ∈ Finset.range n, Max.max (d.val i - t) 0 = ∑ i ∈ S, d.val i - S.card * t := by
    intro d t h1 h2
    have : ∑ i ∈ Finset.range n, Max.max (d.val i - t) 0 = ∑ i ∈ Finset.range n, if tau < x.val i then d.val i - t else 0 := by
      refine Finset.sum_congr rfl fun i hi => ?_
      have hi' := Finset.mem_range.mp hi
      by_cases hc : tau < x.val i
      · rw [if_pos hc, max_eq_left (by linarith [h1 i (Finset.mem_filter.mpr ⟨hi, hc⟩)])]
      · rw [if_neg hc, max_eq_right (by
          linarith [h2 i hi' (fun h => hc (Finset.mem_filter.mp h).2)])]
    rw [this, ← Finset.sum_filter, Finset.sum_sub_distrib, Finset.sum_const, nsmul_eq_mul]
  have hSne : (S.card : ℝ) ≠ 0 := by
    intro h
    have h' : S.card = 0 := by exact_mod_cast h
    have hem : S = ∅ := Finset.card_eq_zero.mp h'
    have := hsplit x tau (by simp [hem]) (fun i hi _ => by
      by_contra hc
      have : i ∈ S := Finset.mem_filter.mpr ⟨Finset.mem_range.mpr hi, not_le.mp hc⟩
      rw [hem] at this; simp at this)
    rw [htau, hem] at this
    simp at this
  have hScard : (0 : ℝ) < S.card := lt_of_le_of_ne (Nat.cast_nonneg _) (Ne.symm hSne)
  have hTx : T x = tau := by
    have := hsplit x tau (fun i hi => (Finset.mem_filter.mp hi).2.le) (fun i hi h => by
      by_contra hc
      exact h (Finset.mem_filter.mpr ⟨Finset.mem_range.mpr hi, not_le.mp hc⟩))
    rw [htau] at this
    simp only [hT]
    rw [div_eq_iff hSne]; linarith
  set F : Dense ℝ → Dense ℝ := fun d => d.map fun v => Max.max (v - T d) 0 with hF
  have hfw : ∀ d, x.Like d → 0 < T d → (∀ i ∈ S, T d < d.val i) → (∀ i < n, i ∉ S → d.val i < T d) →
      sparseMax.forward [d] = some (F d) := by
    intro d hd h0 h1 h2
    refine sparseMax_forward ?_ h0.le
    rw [IsTau, hd.len hx, hsplit d (T d) (fun i hi => (h1 i hi).le) (fun i hi h => (h2 i hi h).le)]
    simp only [hT]
    field_simp
    ring
  have hin : ∀ i ∈ S, T x < x.val i := fun i hi => by rw [hTx]; exact (Finset.mem_filter.mp hi).2
  have hout : ∀ i < n, i ∉ S → x.val i < T x := fun i hi h => by
    rw [hTx]
    refine lt_of_le_of_ne ?_ (hne i hi)
    by_contra hc
    exact h (Finset.mem_filter.mpr ⟨Finset.mem_range.mpr hi, not_le.mp hc⟩)
  intro y hy gy hgy
  have hfx := hfw x (Like.refl hx) (by rw [hTx]; exact hpos) hin hout
  rw [hfx] at hy
  cases hy
  have hg : x.Like gy := (like_map (Like.refl hx) _).trans hgy
  have hgl : gy.data.length = n := hg.len hx
  have hgv : gy.isVector := by rw [isVector_like hg]; exact hv
  -- the non-zero elements of the result
  set q : Nat → Bool := fun i => decide (i ∈ S) with hq
  have hnz : nonZero (F x) = (List.range n).filter q := by
    simp only [nonZero, hF, map_length, ← hn]
    refine List.filter_congr fun i hi => ?_
    have hi := List.mem_range.mp hi
    have : (x.map fun v => Max.max (v - T x) 0).data.getD i 0 = Max.max (x.val i - T x) 0 :=
      val_map x (fun v => Max.max (v - T x) 0) hi
    rw [this]
    by_cases hc : i ∈ S
    · have := hin i hc
      simp only [hq, hc, decide_true, decide_eq_true_eq]
      rw [max_eq_left (by linarith)]
      exact (sub_pos.mpr this).ne'
    · have := hout i hi hc
      simp only [hq, hc, decide_false, decide_eq_false_iff_not, not_not]
      exact max_eq_right (by linarith)
  have hsumS : ∀ f : Nat → ℝ, (((List.range n).filter q).map f).sum = ∑ i ∈ S, f i := by
    intro f
    rw [sum_filter_range, ← Finset.sum_filter]
    refine Finset.sum_congr ?_ fun _ _ => rfl
    ext i
    simp only [Finset.mem_filter, Finset.mem_range, hq, decide_eq_true_eq]
    exact ⟨fun h => h.2, fun h => ⟨hSn i h, h⟩⟩
  have hcard : (((List.range n).filter q).length : ℝ) = S.card := by
    have := hsumS fun _ => 1
    simpa using this
  set mean := (∑ i ∈ S, gy.val i) / (S.card : ℝ) with hmean
  have hmem : ∀ i, i ∈ (List.range n).filter q ↔ i ∈ S := by
    intro i
    simp only [List.mem_filter, List.mem_range, hq, decide_eq_true_eq]
    exact ⟨fun h => h.2, fun h => ⟨hSn i h, h⟩⟩
  obtain ⟨gx, g1, g2, g3⟩ := foldlM_set1 hx hgv hv mean ((List.range n).filter q) (zeros x.rows x.cols) zeros_like
    (fun i hi => by
      have := hSn i ((hmem i).mp hi)
      exact ⟨by omega, this⟩)
  refine ⟨[some gx], ?_, gradShapes1 g2, isVJPOn_of_entries ?_⟩
  · have hs : VecFn.sparseMax x = some (F x) := hfx
    have hFv : (F x).isVector := hv
    have ha := foldlM_at1 hgv ((List.range n).filter q) 0 (fun i hi => by
      have := hSn i ((hmem i).mp hi); omega)
    rw [hsumS, zero_add] at ha
    simp only [Option.bind_eq_bind] at ha g1
    simp only [sparseMax, hs, Option.bind_eq_bind, Option.bind_some, hFv, not_true_eq_false, if_false, hnz, ha,
      hcard, ← hmean, g1]
  · intro X v hX _ _
    have h0 := hX 0 x rfl
    have hTd : HasDerivAt (fun t => T (X 0 t)) ((∑ i ∈ S, v 0 i) / S.card) 0 :=
      ((HasDerivAt.fun_sum fun i hi => h0.deriv i (hSn i hi)).sub_const 1).div_const _
    have hT0 : T (X 0 0) = tau := by rw [h0.start, hTx]
    refine ⟨fun t => F (X 0 t), fun i => if i ∈ S then v 0 i - (∑ k ∈ S, v 0 k) / S.card else 0, ?_, ?_, ?_⟩
    · have c1 : ∀ᶠ t in 𝓝 0, 0 < T (X 0 t) := hTd.continuousAt.eventually (lt_mem_nhds (by
        beta_reduce; rw [hT0]; exact hpos))
      have c2 : ∀ᶠ t in 𝓝 0, ∀ i ∈ S, T (X 0 t) < (X 0 t).val i := by
        refine (Finset.eventually_all S).mpr fun i hi => ?_
        refine hTd.continuousAt.eventually_lt (h0.deriv i (hSn i hi)).continuousAt ?_
        rw [h0.start]; exact hin i hi
      have c3 : ∀ᶠ t in 𝓝 0, ∀ i ∈ Finset.range n, i ∉ S → (X 0 t).val i < T (X 0 t) := by
        refine (Finset.eventually_all _).mpr fun i hi => ?_
        have hi := Finset.mem_range.mp hi
        by_cases hc : i ∈ S
        · exact Filter.Eventually.of_forall fun t h => absurd hc h
        · have := (h0.deriv i hi).continuousAt.eventually_lt hTd.continuousAt (by
            rw [h0.start]; exact hout i hi hc)
          exact this.mono fun t ht _ => ht
      filter_upwards [c1, c2, c3] with t k1 k2 k3
      refine ⟨?_, (hg.symm hx).trans (like_map (h0.like t) _)⟩
      simpa using hfw _ (h0.like t) k1 k2 fun i hi => k3 i (Finset.mem_range.mpr hi)
    · intro i hi
      have hi : i < n := by omega
      have e : (fun t => (F (X 0 t)).val i) = fun t => Max.max ((X 0 t).val i - T (X 0 t)) 0 := by
        funext t
        exact val_map _ _ (by rw [h0.len]; exact hi)
      rw [e]
      beta_reduce
      have hd := (h0.deriv i hi).sub hTd
      by_cases hc : i ∈ S
      · rw [if_pos hc]
        refine hd.congr_of_eventuallyEq ?_
        have := hTd.continuousAt.eventually_lt (h0.deriv i hi).continuousAt (by rw [h0.start]; exact hin i hc)
        filter_upwards [this] with t ht
        rw [max_eq_left (by linarith)]; rfl
      · rw [if_neg hc]
        refine (hasDerivAt_const (0 : ℝ) (0 : ℝ)).congr_of_eventuallyEq ?_
        have := (h0.deriv i hi).continuousAt.eventually_lt hTd.continuousAt (by rw [h0.start]; exact hout i hi hc)
        filter_upwards [this] with t ht
        exact max_eq_right (by linarith)
    · rw [hgl]
      simp only [List.length_singleton, Finset.sum_range_one, gradVal, List.getElem?_cons_zero, List.map_cons,
        List.map_nil, List.getD_cons_zero, ← hn]
      have hz : ∀ i, (zeros x.rows x.cols : Dense ℝ).val i = 0 := by
        intro i
        simp only [val, zeros, List.getD_eq_getElem?_getD, List.getElem?_replicate]; split <;> rfl
      have hfil : (Finset.range n).filter (· ∈ S) = S := by
        ext i; simp only [Finset.mem_filter, Finset.mem_range]; exact ⟨fun h => h.2, fun h => ⟨hSn i h, h⟩⟩
      have l1 : ∀ i ∈ Finset.range n, gy.val i * (if i ∈ S then v 0 i - (∑ k ∈ S, v 0 k) / S.card else 0) =
          if i ∈ S then gy.val i * v 0 i - gy.val i * ((∑ k ∈ S, v 0 k) / S.card) else 0 := by
        intro i _; split <;> ring
      have l2 : ∀ i ∈ Finset.range n, gx.val i * v 0 i =
          if i ∈ S then gy.val i * v 0 i - v 0 i * mean else 0 := by
        intro i _
        rw [g3 i, hz]
        by_cases hc : i ∈ S
        · rw [if_pos ((hmem i).mpr hc), if_pos hc]; ring
        · rw [if_neg (mt (hmem i).mp hc), if_neg hc]; ring
      rw [Finset.sum_congr rfl l1, Finset.sum_congr rfl l2, ← Finset.sum_filter, ← Finset.sum_filter, hfil,
        Finset.sum_sub_distrib, Finset.sum_sub_distrib, ← Finset.sum_mul, ← Finset.sum_mul, hmean]
      ring

/-- `SparseMaxLoss` needs no hypothesis: here at a point where two entries tie with the threshold. -/
example : Correct sparseMaxLoss [column [1, 0, 0]] := sparseMaxLoss_correct (by rfl)

example : Correct sparseMax [column [3, 2.5, 1]] := by
  refine sparseMax_correct_partial (x := column [3, 2.5, 1]) (by rfl) rfl (tau := 2.25) (by norm_num) ?_ ?_
  · rw [isTau_iff]; norm_num [column]
  · intro i hi
    have : i < 3 := hi
    interval_cases i <;> norm_num [val, column]

/-! ## Negative thresholds -/

/-- What `SparseMax` computes, whatever the threshold: the projection, cut off at the largest element. -/
theorem sparseMax_value {x : Dense ℝ} {tau m : ℝ} (h : IsTau x.data.length x.val tau) (hm : x.max = some m)
    (h0 : 0 ≤ m) : VecFn.sparseMax x = some (x.map fun v => Min.min (Max.max (v - tau) 0) m) := by
  obtain ⟨p, hp, he⟩ := VecFn.sparseMax_eq hm
  have : p = x.data.map fun v => Max.max (v - tau) 0 :=
    VecFn.isSparsemax_unique hp ⟨tau, rfl, (isTau_iff x tau).mp h⟩
  rw [he, if_neg (not_lt.mpr h0), this, List.map_map]
  rfl

/-- The gradients the backward pass of `SparseMax` puts out always sum up to 0. -/
theorem sparseMax_backward_sum {x y gy : Dense ℝ} (hx : x.WF) (hv : x.isVector) (hy : VecFn.sparseMax x = some y)
    (hyx : x.Like y) (hg : x.Like gy) :
    ∃ gx, sparseMax.backward [x] gy = some [some gx] ∧ ∑ i ∈ Finset.range x.data.length, gx.val i = 0 := by
  classical
  have hgl : gy.data.length = x.data.length := hg.len hx
  have hyl : y.data.length = x.data.length := hyx.len hx
  have hgv : gy.isVector := by rw [isVector_like hg]; exact hv
  have hyv : y.isVector := by rw [isVector_like hyx]; exact hv
  set q : Nat → Bool := fun i => decide (y.data.getD i 0 ≠ 0) with hq
  have hnz : nonZero y = (List.range x.data.length).filter q := by rw [nonZero, hyl]
  have hlt : ∀ i ∈ nonZero y, i < x.data.length := fun i hi => by
    rw [hnz] at hi; exact List.mem_range.mp (List.mem_filter.mp hi).1
  set mean := ((nonZero y).map gy.val).sum / ((nonZero y).length : ℝ) with hmean
  obtain ⟨gx, g1, g2, g3⟩ := foldlM_set1 hx hgv hv mean (nonZero y) (zeros x.rows x.cols) zeros_like
    (fun i hi => ⟨by rw [hgl]; exact hlt i hi, hlt i hi⟩)
  refine ⟨gx, ?_, ?_⟩
  · have ha := foldlM_at1 hgv (nonZero y) 0 (fun i hi => by rw [hgl]; exact hlt i hi)
    rw [zero_add] at ha
    simp only [Option.bind_eq_bind] at ha g1
    simp only [sparseMax, hy, Option.bind_eq_bind, Option.bind_some, hyv, not_true_eq_false, if_false, ha,
      ← hmean, g1]
  · have hz : ∀ i, (zeros x.rows x.cols : Dense ℝ).val i = 0 := by
      intro i
      simp only [val, zeros, List.getD_eq_getElem?_getD, List.getElem?_replicate]; split <;> rfl
    have e : ∀ i ∈ Finset.range x.data.length, gx.val i = if q i then gy.val i - mean else 0 := by
      intro i hi
      rw [g3 i, hz, hnz]
      have hi := Finset.mem_range.mp hi
      by_cases hc : q i
      · rw [if_pos (List.mem_filter.mpr ⟨List.mem_range.mpr hi, hc⟩), if_pos hc]
      · rw [if_neg (fun h => hc (List.mem_filter.mp h).2), if_neg hc]
    have es : ∀ L : List Nat, (L.map fun i => gy.val i - mean).sum = (L.map gy.val).sum - L.length * mean := by
      intro L
      induction L with
      | nil => simp
      | cons i L ih => simp only [List.map_cons, List.sum_cons, List.length_cons, ih]; push_cast; ring
    rw [Finset.sum_congr rfl e, ← sum_filter_range, ← hnz, es, hmean]
    by_cases hl : (nonZero y).length = 0
    · rw [List.eq_nil_of_length_eq_zero hl]; simp
    · have : ((nonZero y).length : ℝ) ≠ 0 := by exact_mod_cast hl
      field_simp
      ring

/-- **C47, violated.** At every vector whose threshold is negative and whose largest element is positive `SparseMax`
is cut off at that element, and the backward pass does not know. -/
theorem sparseMax_negative_wrong {x : Dense ℝ} (hx : x.WF) (hv : x.isVector) {tau m : ℝ} (hneg : tau < 0)
    (htau : IsTau x.data.length x.val tau) (hm : x.max = some m) (hpos : 0 < m) : ¬ Correct sparseMax [x] := by
  intro hc
  obtain ⟨hmem, hmax⟩ := (VecFn.max_spec x).2 m hm
  obtain ⟨k, hk, hkm⟩ := List.mem_iff_getElem.mp hmem
  have hkv : x.val k = m := by rw [val_of_lt _ hk, hkm]
  have hf := sparseMax_value htau hm hpos.le
  have hyl : x.Like (x.map fun v => Min.min (Max.max (v - tau) 0) m) := like_map (Like.refl hx) _
  set gy : Dense ℝ := ⟨x.rows, x.cols, (List.range x.data.length).map fun i => if i = k then 1 else 0⟩ with hgy
  have hgl : gy.data.length = x.data.length := by simp [hgy]
  have hg : x.Like gy := ⟨by rw [WF, hgl]; exact hx, rfl, rfl⟩
  have hgval : ∀ i < x.data.length, gy.val i = if i = k then 1 else 0 := by
    intro i hi
    rw [val_of_lt _ (by rw [hgl]; exact hi)]
    simp [hgy]
  obtain ⟨gs, hb, -, hvjp⟩ := hc _ hf gy ((hyl.symm hx).trans hg)
  obtain ⟨gx, hb', hsum⟩ := sparseMax_backward_sum hx hv hf hyl hg
  rw [hb'] at hb
  cases hb
  obtain ⟨Y, hY, hd⟩ := hvjp (fun _ t => x.map (· + t)) (fun _ _ => 1) (by
    intro j x' hj
    obtain ⟨rfl, rfl⟩ : j = 0 ∧ x' = x := by
      cases j with
      | zero => simpa using hj.symm
      | succ j => simp at hj
    refine ⟨?_, fun t => like_map (Like.refl hx) _, fun i hi => ?_⟩
    · simp [Dense.map]
    · have e : (fun t : ℝ => (x'.map (· + t)).val i) = fun t => x'.val i + t := by
        funext t; exact val_map _ _ hi
      rw [e]
      exact (hasDerivAt_id (0 : ℝ)).const_add _) (fun _ h => absurd trivial h) (fun _ h => absurd trivial h)
  have hval : (fun t => ∑ i ∈ Finset.range gy.data.length, gy.val i * (Y t).val i) =ᶠ[𝓝 0] fun t => m + t := by
    have c1 : ∀ᶠ t : ℝ in 𝓝 0, -m < t := lt_mem_nhds (by linarith)
    have c2 : ∀ᶠ t : ℝ in 𝓝 0, t < -tau := gt_mem_nhds (by linarith)
    filter_upwards [hY, c1, c2] with t ht k1 k2
    have hl : (x.map (· + t)).data.length = x.data.length := by simp [Dense.map]
    have htau' : IsTau (x.map (· + t)).data.length (x.map (· + t)).val (tau + t) := by
      rw [IsTau, hl, ← htau]
      refine Finset.sum_congr rfl fun i hi => ?_
      rw [val_map _ _ (Finset.mem_range.mp hi)]
      congr 1; ring
    have hm' : (x.map (· + t)).max = some (m + t) := by
      obtain ⟨m', h'⟩ := Option.isSome_iff_exists.mp ((VecFn.max_spec (x.map (· + t))).1.mpr (by
        intro e; rw [e] at hl; simp at hl; rw [← hl] at hk; simp at hk))
      obtain ⟨h1, h2⟩ := (VecFn.max_spec _).2 m' h'
      rw [h']
      obtain ⟨w, hw, rfl⟩ := List.mem_map.mp h1
      have := h2 (m + t) (List.mem_map.mpr ⟨m, hmem, rfl⟩)
      congr 1
      linarith [hmax w hw]
    have hft := sparseMax_value htau' hm' (by linarith)
    have hYt : Y t = (x.map (· + t)).map fun v => Min.min (Max.max (v - (tau + t)) 0) (m + t) := by
      have h1 : sparseMax.forward [x.map (· + t)] = some (Y t) := by simpa using ht.1
      rw [show sparseMax.forward [x.map (· + t)] = VecFn.sparseMax (x.map (· + t)) from rfl, hft] at h1
      exact (Option.some.inj h1).symm
    rw [hgl, Finset.sum_eq_single k]
    · rw [hgval k hk, if_pos rfl, hYt, val_map _ _ (by rw [hl]; exact hk), val_map _ _ hk, hkv, one_mul]
      rw [max_eq_left (by linarith), min_eq_right (by linarith)]
    · intro i hi hne
      rw [hgval i (Finset.mem_range.mp hi), if_neg hne, zero_mul]
    · intro h; exact absurd (Finset.mem_range.mpr hk) h
  have h1 : HasDerivAt (fun t : ℝ => m + t) 1 0 := (hasDerivAt_id (0 : ℝ)).const_add _
  have := (hd.congr_of_eventuallyEq hval.symm).unique h1
  simp only [List.length_singleton, Finset.sum_range_one, gradVal, List.getElem?_cons_zero, List.map_cons,
    List.map_nil, List.getD_cons_zero, mul_one] at this
  rw [hsum] at this
  norm_num at this

/-- The vector (0.25, 0): the projection is (0.625, 0.375), `SparseMax` gives (0.25, 0.25), and moving both elements
by `t` moves the result with them. -/
example : ¬ Correct sparseMax [column [0.25, 0]] := by
  refine sparseMax_negative_wrong (x := column [0.25, 0]) (by rfl) rfl (tau := -0.375) (m := 0.25) (by norm_num) ?_ ?_
    (by norm_num)
  · rw [isTau_iff]; norm_num [column]
  · simp [Dense.max, column]; norm_num

end Verif.GradFn
