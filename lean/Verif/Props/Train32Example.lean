import Verif.Props.Train32Loss
import Verif.Props.Back32Example

set_option autoImplicit false
set_option linter.unusedSimpArgs false

/-!
# C98: an example

The network of the example of C96, a batch of two examples with the input 3 and the targets 2 and 1, and the rate 1/64.  The first weight
goes from 1 to 1 - 54/64.
-/

namespace Verif.Train32.Example
open Verif.F32 Verif.Asm Verif.Spec Verif.Spec.Net32 Verif.Net32 Verif.Back32 Verif.Spec.Back32 Verif.Net32.Example Verif.Spec.Train32
open Verif.Back32.Example

def rate : F32.W := 0x3c800000
theorem rate_val : val rate = 1 / 64 := by unfold rate; simp [val, unpack]; norm_num

def data : List (List F32.W × List F32.W) := [([0x40400000], [p2]), ([0x40400000], [p1])]

theorem wA : 0 ≤ weightErr 3 0 34 hR ∧ weightErr 3 0 34 hR ≤ 1 / 1000 := by
  obtain ⟨r0, r1⟩ := hR_le
  have d : dotErr 1 (34 + hR) (3 + 0) ≤ 1 / 2 ^ 23 * (36 * 4) := by
    unfold dotErr
    push_cast
    refine mul_le_mul_of_nonneg_left (mul_le_mul ?_ (by norm_num) (by norm_num) (by norm_num)) (by norm_num)
    norm_num at r1 ⊢; linarith
  have d0 := dotErr_nonneg (n := 1) (show 0 ≤ 34 + hR by linarith) (show (0 : ℝ) ≤ 3 + 0 by norm_num)
  unfold weightErr
  generalize dotErr 1 (34 + hR) (3 + 0) = D at *
  constructor
  · linarith
  · norm_num at *
    linarith

theorem wB : 0 ≤ weightErr 5 eA 17 hO ∧ weightErr 5 eA 17 hO ≤ 1 := by
  obtain ⟨o0, o1⟩ := hO_le
  obtain ⟨a0, a1⟩ := eA_le
  have o2 : hO ≤ 1 := o1.trans (by norm_num)
  have a2 : eA ≤ 1 := a1.trans (by norm_num)
  have d : dotErr 1 (17 + hO) (5 + eA) ≤ 1 / 2 ^ 23 * (20 * 7) := by
    unfold dotErr
    push_cast
    refine mul_le_mul_of_nonneg_left (mul_le_mul ?_ ?_ (by positivity) (by norm_num)) (by norm_num) <;> norm_num <;> linarith
  have d0 := dotErr_nonneg (n := 1) (show 0 ≤ 17 + hO by linarith) (show 0 ≤ 5 + eA by linarith)
  have m1 : eA * (17 + hO) ≤ 1 / 2 ^ 20 * 18 := mul_le_mul a1 (by linarith) (by linarith) (by norm_num)
  have m0 : 0 ≤ eA * (17 + hO) := mul_nonneg a0 (by linarith)
  unfold weightErr
  generalize dotErr 1 (17 + hO) (5 + eA) = D at *
  generalize eA * (17 + hO) = Y at *
  constructor
  · linarith
  · norm_num at *
    linarith

theorem sizeR : size steepest 17 [.act .relu, .lin 1 2 [p2, p1] [0]] = 34 := by simp only [size, colB, steepest]; norm_num

/-- The errors of the two layers. -/
theorem offs : biasOff real lipOf actErr steepest slopeErr 17 hO 3 0 [] (.lin 2 1 [p1, m1] [0, p2]) [.act .relu, .lin 1 2 [p2, p1] [0]] = hR ∧
    weightOff real lipOf actErr steepest slopeErr 17 hO 3 0 [] (.lin 2 1 [p1, m1] [0, p2]) [.act .relu, .lin 1 2 [p2, p1] [0]] = weightErr 3 0 34 hR ∧
    biasOff real lipOf actErr steepest slopeErr 17 hO 3 0 [.lin 2 1 [p1, m1] [0, p2], .act .relu] (.lin 1 2 [p2, p1] [0]) [] = hO ∧
    weightOff real lipOf actErr steepest slopeErr 17 hO 3 0 [.lin 2 1 [p1, m1] [0, p2], .act .relu] (.lin 1 2 [p2, p1] [0]) [] = weightErr 5 eA 17 hO := by
  have e1 : biasOff real lipOf actErr steepest slopeErr 17 hO 3 0 [] (.lin 2 1 [p1, m1] [0, p2]) [.act .relu, .lin 1 2 [p2, p1] [0]] = hR := by
    unfold biasOff
    rw [show ranges real lipOf ([] : List (Layer Act)) 3 = 3 from rfl, show errors real lipOf actErr ([] : List (Layer Act)) 3 0 = 0 from rfl, rangeA, errorA, offR]
  have e2 : biasOff real lipOf actErr steepest slopeErr 17 hO 3 0 [.lin 2 1 [p1, m1] [0, p2], .act .relu] (.lin 1 2 [p2, p1] [0]) [] = hO := rfl
  have r2 : ranges real lipOf [.lin 2 1 [p1, m1] [0, p2], .act .relu] 3 = 5 := by simp only [ranges, rangeA, rangeR]
  have s2 : errors real lipOf actErr [.lin 2 1 [p1, m1] [0, p2], .act .relu] 3 0 = eA := by simp only [errors, rangeA, errorA, errorR]
  refine ⟨e1, ?_, e2, ?_⟩
  · unfold weightOff
    rw [e1, sizeR]
    rfl
  · unfold weightOff
    rw [e2, r2, s2]
    rfl

theorem small_total {X : ℝ} (h : X ≤ 1000) : total 2 X ≤ 2 ^ 120 ∧ 1 / 64 * total 2 X ≤ 2 ^ 120 := by
  unfold total
  push_cast
  have : (10000 : ℝ) ≤ 2 ^ 120 := by norm_num
  constructor <;> linarith

theorem vals : ∀ v ∈ [p1, m1, p2, 0], |val v| ≤ 2 := by
  intro v hv
  simp only [List.mem_cons, List.not_mem_nil, or_false] at hv
  rcases hv with rfl | rfl | rfl | rfl
  · rw [v1]; norm_num
  · rw [vm]; norm_num
  · rw [v2]; norm_num
  · rw [show val 0 = 0 from v0]; norm_num

theorem valsA : (∀ v ∈ [p1, m1], |val v| ≤ 2) ∧ ∀ v ∈ [0, p2], |val v| ≤ 2 :=
  ⟨fun v hv => vals v (by simp at hv ⊢; tauto), fun v hv => vals v (by simp at hv ⊢; tauto)⟩
theorem valsB : (∀ v ∈ [p2, p1], |val v| ≤ 2) ∧ ∀ v ∈ [0], |val v| ≤ 2 :=
  ⟨fun v hv => vals v (by simp at hv ⊢; tauto), fun v hv => vals v (by simp at hv ⊢; tauto)⟩

theorem v3' : val 1077936128#32 = 3 := v3

theorem fitsStep : FitsStep real lipOf actErr steepest slopeErr 17 hO 3 0 2 |val rate| data.length back := by
  obtain ⟨o1, o2, o3, o4⟩ := offs
  have hl : |val rate| = 1 / 64 := by rw [rate_val]; norm_num
  have r0 := hR_le.2
  have h0 := hO_le.2
  have i1 : (1 : ℝ) / 2 ^ 12 ≤ 1 := by norm_num
  have i2 : (1 : ℝ) / 2 ^ 15 ≤ 1 := by norm_num
  have wA := wA.2
  have wB := wB.2
  rw [hl]
  intro pre rows cols w b post e
  unfold back at e
  match pre, e with
  | [], e =>
    simp only [List.nil_append, List.cons.injEq, Layer.lin.injEq] at e
    obtain ⟨⟨rfl, rfl, rfl, rfl⟩, rfl⟩ := e
    rw [o1, o2, sizeR, show ranges real lipOf ([] : List (Layer Act)) 3 = 3 from rfl, show data.length = 2 from rfl]
    have t1 := small_total (X := 34 * 3 + weightErr 3 0 34 hR) (by linarith)
    have t2 := small_total (X := 34 + hR) (by linarith)
    exact ⟨valsA.1, valsA.2, t1.1, t1.2, t2.1, t2.2⟩
  | [a], e => simp at e
  | [a, c], e =>
    simp only [List.cons_append, List.nil_append, List.cons.injEq, Layer.lin.injEq] at e
    obtain ⟨rfl, rfl, ⟨rfl, rfl, rfl, rfl⟩, rfl⟩ := e
    have r2 : ranges real lipOf [.lin 2 1 [p1, m1] [0, p2], .act .relu] 3 = 5 := by simp only [ranges, rangeA, rangeR]
    rw [o3, o4, r2, show size steepest 17 ([] : List (Layer Act)) = 17 from rfl, show data.length = 2 from rfl]
    have t1 := small_total (X := 17 * 5 + weightErr 5 eA 17 hO) (by linarith)
    have t2 := small_total (X := 17 + hO) (by linarith)
    exact ⟨valsB.1, valsB.2, t1.1, t1.2, t2.1, t2.2⟩
  | a :: c :: k :: pre, e => simp at e

/-- The step is there, and the first weight ends close to 10/64. -/
example (cpu : Cpu) (j : ExpLog.Lane) : ∃ lib sl ls' w' b', Step cpu (acts cpu j lib) (slopes cpu j lib sl) rate
      (data.map fun q => ⟨q.1, MseGrad cpu p1 q.2⟩) back ls' ∧ ls'[0]? = some (.lin 2 1 w' b') ∧ |val (w'.getD 0 0) - 10 / 64| ≤ 1 / 1000 := by
  obtain ⟨lib, h⟩ := exists_lib cpu j
  obtain ⟨sl, hs⟩ := exists_slopes
  have h1 : |val p1| ≤ 1 := by rw [v1]; norm_num
  obtain ⟨⟨ls', hstep⟩, hall⟩ := train_mse cpu j h hs (r := p1) (by unfold F32.Finite; decide) h1 (ls := back) (d := 1) (M := 3) (T := 2) (W := 2)
    (by norm_num) (by norm_num) (by norm_num) (lr := rate) (by unfold F32.Finite; decide) fits (by
      rw [rangesAll, errorsAll]
      have := eB_le.2
      have : (1 : ℝ) / 2 ^ 16 ≤ 1 := by norm_num
      have : (18 : ℝ) ≤ 2 ^ 100 := by norm_num
      linarith) (P := 17) (H := hO) (by rw [rangesAll]; norm_num) (by rw [rangesAll, errorsAll]; rfl) (data := data) (by decide) (by
      intro q hq
      have hx : ∀ i < 1, F32.Finite ([(0x40400000 : F32.W)].getD i 0) ∧ |val ([(0x40400000 : F32.W)].getD i 0)| ≤ 3 := by
        intro i hi
        have : i = 0 := by omega
        subst this
        refine ⟨by unfold F32.Finite; decide, ?_⟩
        rw [show [(0x40400000 : F32.W)].getD 0 0 = 0x40400000 from rfl, v3]; norm_num
      have hb : FitsBack real lipOf actErr steepest slopeErr safeAt 17 hO back 1 (fun i => val ([(0x40400000 : F32.W)].getD i 0)) 3 0 := by
        obtain ⟨f1, ⟨f2, f3⟩, f4, -⟩ := fitsBack
        refine ⟨f1, ⟨f2, fun i hi => ?_⟩, f4, trivial⟩
        have e : layer real (.lin 2 1 [p1, m1] [0, p2]) (fun i => val ([(0x40400000 : F32.W)].getD i 0)) i =
            layer real (.lin 2 1 [p1, m1] [0, p2]) (fun _ => 3) i := by
          simp [layer, v3']
        rw [e]
        exact f3 i hi
      simp only [data, List.mem_cons, List.not_mem_nil, or_false] at hq
      rcases hq with rfl | rfl
      · refine ⟨rfl, rfl, hx, fun i hi => ?_, hb⟩
        have : i = 0 := by change i < 1 at hi; omega
        subst this
        exact ⟨by unfold F32.Finite; decide, by rw [show [p2].getD 0 0 = p2 from rfl, v2]; norm_num⟩
      · refine ⟨rfl, rfl, hx, fun i hi => ?_, hb⟩
        have : i = 0 := by change i < 1 at hi; omega
        subst this
        exact ⟨by unfold F32.Finite; decide, by rw [show [p1].getD 0 0 = p1 from rfl, v1]; norm_num⟩) fitsStep
  obtain ⟨-, -, hlin⟩ := hall ls' hstep
  obtain ⟨w', b', g1, -, -, g4, -⟩ := hlin [] 2 1 [p1, m1] [0, p2] [.act .relu, .lin 1 2 [p2, p1] [0]] rfl
  refine ⟨lib, sl, ls', w', b', hstep, g1, ?_⟩
  obtain ⟨-, Δ, d1, d2⟩ := g4 0 (by norm_num) 0 (by norm_num)
  rw [offs.2.1, sizeR, show ranges real lipOf ([] : List (Layer Act)) 3 = 3 from rfl] at d2
  have hΔ : Δ = 54 := by
    refine d1.unique ?_
    have e : (fun s => batchLoss (data.map (mseTarget cpu back p1)) fun T => network real [.act .relu, .lin 1 2 [p2, p1] [0]]
        (nudged 2 1 [p1, m1] [0, p2] 0 0 (network real [] T.u) s)) =
        fun s => (2 * max 0 ((1 + s) * 3) + max 0 (-1) - 2) ^ 2 / 2 + (2 * max 0 ((1 + s) * 3) + max 0 (-1) - 1) ^ 2 / 2 := by
      funext s
      simp [batchLoss, data, mseTarget, squared, network, layer, nudged, real, at2, Finset.sum_range_succ, v1, v2, vm, v0, v3']
      norm_num
    rw [e]
    have hm : HasDerivAt (fun s : ℝ => max 0 ((1 + s) * 3)) 3 0 := by
      have inner : HasDerivAt (fun s : ℝ => (1 + s) * 3) 3 0 := by
        simpa using ((hasDerivAt_id (0 : ℝ)).const_add 1).mul_const 3
      have outer := relu_der (u := (1 + 0) * 3) (by norm_num)
      have := HasDerivAt.comp (0 : ℝ) outer inner
      refine this.congr_deriv ?_
      norm_num
    refine (((((hm.const_mul 2).add_const (max 0 (-1))).sub_const 2).pow 2 |>.div_const 2).fun_add
      ((((hm.const_mul 2).add_const (max 0 (-1))).sub_const 1).pow 2 |>.div_const 2)).congr_deriv ?_
    norm_num
  rw [hΔ, show [p1, m1].getD (0 * 1 + 0) 0 = p1 from rfl, v1, rate_val] at d2
  rw [show 0 * 1 + 0 = 0 from rfl] at d2
  have e10 : (1 : ℝ) - 1 / 64 * 54 = 10 / 64 := by norm_num
  rw [e10] at d2
  refine d2.trans ?_
  have hl : |(1 : ℝ) / 64| = 1 / 64 := by norm_num
  rw [hl, show (data.map (mseTarget cpu back p1)).length = 2 from rfl]
  obtain ⟨w0, w1⟩ := wA
  unfold stepErr total
  generalize weightErr 3 0 34 hR = β at *
  have t : (1 : ℝ) / 2 ^ 126 ≤ 1 := by norm_num
  generalize (1 : ℝ) / 2 ^ 126 = τ at *
  norm_num at *
  linarith

end Verif.Train32.Example
