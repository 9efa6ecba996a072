import Verif.Props.Train32
import Verif.Props.CeGrad32

set_option autoImplicit false
set_option linter.unusedSimpArgs false

/-!
# C98: training on the squared error and on the cross entropy

A regression and a classifier with the activations `ReLU`, `Sigmoid` and `Tanh`; the inputs are the words themselves.
-/

namespace Verif.Train32
open Verif.F32 Verif.Asm Verif.Spec Verif.Spec.Kernels Verif.Spec.Net32 Verif.Net32 Verif.Back32 Verif.Spec.Back32 Verif.Spec.Train32 Verif.CeGrad32
open Verif.Spec.CeGrad32 Verif.Spec.CrossEntropy32 Verif.CrossEntropy32 Verif.Spec.Softmax32

/-- An input and a target with the squared error, to which `r` is handed. -/
noncomputable def mseTarget (cpu : Cpu) (ls : List (Layer Act)) (r : F32.W) (q : List F32.W × List F32.W) : Target where
  ex := ⟨q.1, MseGrad cpu r q.2⟩
  u := fun i => val (q.1.getD i 0)
  J := squared q.2.length (val r) fun i => val (q.2.getD i 0)
  γ := fun i => val r * (network real ls (fun i => val (q.1.getD i 0)) i - val (q.2.getD i 0))

/-- **C98: a step of a regression.** -/
theorem train_mse (cpu : Cpu) (j : ExpLog.Lane) {lib : Lib} (h : GoodLib lib) {sl : Slopes} (hs : GoodSlopeLib sl) {r : F32.W}
    (hr : F32.Finite r) (h1 : |val r| ≤ 1) {ls : List (Layer Act)} {d : Nat} {M T W : ℝ} (hM : 0 ≤ M) (hT : 0 ≤ T) (hW : W ≤ 2 ^ 120)
    {lr : F32.W} (flr : F32.Finite lr) (hfit : Fits real lipOf actErr ls d M 0)
    (hX : ranges real lipOf ls M + errors real lipOf actErr ls M 0 + T ≤ 2 ^ 100) {P H : ℝ} (hP : P = ranges real lipOf ls M + T)
    (hH : H = mseErr (errors real lipOf actErr ls M 0) (ranges real lipOf ls M + errors real lipOf actErr ls M 0 + T))
    {data : List (List F32.W × List F32.W)} (hn : data.length ≤ 2 ^ 20)
    (hdata : ∀ q ∈ data, q.1.length = d ∧ q.2.length = width ls d ∧ (∀ i < d, F32.Finite (q.1.getD i 0) ∧ |val (q.1.getD i 0)| ≤ M) ∧
      (∀ i < width ls d, F32.Finite (q.2.getD i 0) ∧ |val (q.2.getD i 0)| ≤ T) ∧
      FitsBack real lipOf actErr steepest slopeErr safeAt P H ls d (fun i => val (q.1.getD i 0)) M 0)
    (hst : FitsStep real lipOf actErr steepest slopeErr P H M 0 W |val lr| data.length ls) :
    (∃ ls', Step cpu (acts cpu j lib) (slopes cpu j lib sl) lr (data.map fun q => ⟨q.1, MseGrad cpu r q.2⟩) ls ls') ∧
      ∀ ls', Step cpu (acts cpu j lib) (slopes cpu j lib sl) lr (data.map fun q => ⟨q.1, MseGrad cpu r q.2⟩) ls ls' →
        CloseStep real lipOf actErr steepest slopeErr P H M 0 W lr (data.map (mseTarget cpu ls r)) ls ls' := by
  have hF := acts_good cpu j h
  obtain ⟨hR, hEr, -⟩ := fits_pre ls (ls := []) (fun a => (hF.pos a).1) (fun a => (hF.pos a).2) hM le_rfl (by rw [List.append_nil]; exact hfit)
  have hP0 : 0 ≤ P := by rw [hP]; exact add_nonneg hR hT
  have hH0 : 0 ≤ H := by rw [hH]; unfold mseErr; positivity
  have key := train_close cpu hF (slopes_good cpu j h hs) hP0 hH0 hM le_rfl hW flr hfit (Ts := data.map (mseTarget cpu ls r)) (by
    intro T hT
    obtain ⟨q, hq, rfl⟩ := List.mem_map.mp hT
    obtain ⟨a1, a2, a3, a4, a5⟩ := hdata q hq
    refine ⟨a1, fun i hi => ⟨(a3 i hi).1, ?_, (a3 i hi).2⟩, a5, ?_, ?_⟩
    · show |val (q.1.getD i 0) - val (q.1.getD i 0)| ≤ 0
      rw [sub_self, abs_zero]
    · rw [hP, hH]
      exact mse_good cpu hr h1 a2 a4 hX
    · rw [← a2]
      exact squared_grad _ _ _ _) (by rw [List.length_map]; exact hn) (by rw [List.length_map]; exact hst)
  rw [List.map_map] at key
  exact key

/-- An input and a class with the cross entropy. -/
noncomputable def ceTarget (cpu : Cpu) (j : ExpLog.Lane) (exp inv : F32.W → F32.W) (ls : List (Layer Act)) (n : Nat) (q : List F32.W × Nat) : Target where
  ex := ⟨q.1, CeGrad cpu j exp inv q.2⟩
  u := fun i => val (q.1.getD i 0)
  J := fun f => crossEntropyOf n f q.2
  γ := ceGrad n q.2 (network real ls fun i => val (q.1.getD i 0))

/-- **C98: a step of a classifier.** -/
theorem train_ce (cpu : Cpu) (j : ExpLog.Lane) {lib : Lib} (h : GoodLib lib) (hexp : GoodExp lib.exp) {inv : F32.W → F32.W} (hinv : GoodInv inv)
    {sl : Slopes} (hs : GoodSlopeLib sl) {ls : List (Layer Act)} {d n : Nat} {M W : ℝ} (hM : 0 ≤ M) (hW : W ≤ 2 ^ 120)
    {lr : F32.W} (flr : F32.Finite lr) (hfit : Fits real lipOf actErr ls d M 0) (hnw : width ls d = n) (hn20 : n ≤ 2 ^ 20) {H : ℝ}
    (hH : H = ceErr n (errors real lipOf actErr ls M 0)) {data : List (List F32.W × Nat)} (hn : data.length ≤ 2 ^ 20)
    (hdata : ∀ q ∈ data, q.1.length = d ∧ q.2 < n ∧ (∀ i < d, F32.Finite (q.1.getD i 0) ∧ |val (q.1.getD i 0)| ≤ M) ∧
      FitsBack real lipOf actErr steepest slopeErr safeAt 1 H ls d (fun i => val (q.1.getD i 0)) M 0)
    (hst : FitsStep real lipOf actErr steepest slopeErr 1 H M 0 W |val lr| data.length ls) :
    (∃ ls', Step cpu (acts cpu j lib) (slopes cpu j lib sl) lr (data.map fun q => ⟨q.1, CeGrad cpu j lib.exp inv q.2⟩) ls ls') ∧
      ∀ ls', Step cpu (acts cpu j lib) (slopes cpu j lib sl) lr (data.map fun q => ⟨q.1, CeGrad cpu j lib.exp inv q.2⟩) ls ls' →
        CloseStep real lipOf actErr steepest slopeErr 1 H M 0 W lr (data.map (ceTarget cpu j lib.exp inv ls n)) ls ls' := by
  subst hnw
  have hF := acts_good cpu j h
  obtain ⟨hR, hEr, -⟩ := fits_pre ls (ls := []) (fun a => (hF.pos a).1) (fun a => (hF.pos a).2) hM le_rfl (by rw [List.append_nil]; exact hfit)
  have hH0 : 0 ≤ H := by
    rw [hH]
    unfold ceErr
    have := Real.one_le_exp (show 0 ≤ 2 * errors real lipOf actErr ls M 0 by linarith)
    have : (0 : ℝ) ≤ 1 / 2 ^ 14 + (width ls d : ℝ) / 2 ^ 21 := by positivity
    linarith
  have key := train_close cpu hF (slopes_good cpu j h hs) zero_le_one hH0 hM le_rfl hW flr hfit (Ts := data.map (ceTarget cpu j lib.exp inv ls (width ls d))) (by
    intro T hT
    obtain ⟨q, hq, rfl⟩ := List.mem_map.mp hT
    obtain ⟨a1, a2, a3, a4⟩ := hdata q hq
    refine ⟨a1, fun i hi => ⟨(a3 i hi).1, ?_, (a3 i hi).2⟩, a4, ?_, ?_⟩
    · show |val (q.1.getD i 0) - val (q.1.getD i 0)| ≤ 0
      rw [sub_self, abs_zero]
    · rw [hH]
      exact ce_good cpu j hexp hinv a2 hn20 _ _ _
    · exact ce_grad a2 _) (by rw [List.length_map]; exact hn) (by rw [List.length_map]; exact hst)
  rw [List.map_map] at key
  exact key

end Verif.Train32
