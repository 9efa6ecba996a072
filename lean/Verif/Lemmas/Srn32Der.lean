import Verif.Spec.Srn32
import Verif.Props.Back32Acts

set_option autoImplicit false
set_option linter.unusedSimpArgs false

/-!
# The derivatives of the loss of a simple recurrent network (C100)
-/

namespace Verif.Srn32
open Verif.F32 Verif.Net32 Verif.Rec32 Verif.Spec.Net32 Verif.Spec.Rec32 Verif.Spec.Back32 Verif.Spec.Srn32

variable {n m : Nat}

/-- The chain rule through all steps. -/
theorem loss_der {E P H : ℝ} (c : ℝ → Theta) (c' : Theta) (s : ℝ)
    (hw : ∀ i < n, ∀ k < m, HasDerivAt (fun t => (c t).w i k) (c'.w i k) s)
    (hu : ∀ i < n, ∀ k < n, HasDerivAt (fun t => (c t).u i k) (c'.u i k) s)
    (hb : ∀ i < n, HasDerivAt (fun t => (c t).b i) (c'.b i) s) :
    ∀ (es : List SStep) (y : ℝ → Nat → ℝ) (y' : Nat → ℝ), GoodSteps n m (c s) E P H (y s) es →
      (∀ k < n, HasDerivAt (fun t => y t k) (y' k) s) →
      HasDerivAt (fun t => lossOf n m (c t) (y t) es)
        (((deltas n m (c s) (y s) es).map fun d => ∑ i ∈ Finset.range n, d.δ i *
          (∑ k ∈ Finset.range m, c'.w i k * d.x k + c'.b i + ∑ k ∈ Finset.range n, c'.u i k * d.y k)).sum +
          ∑ k ∈ Finset.range n, back n m (c s) (y s) es k * y' k) s
  | [], y, y', _, _ => by simpa [lossOf, deltas, back] using hasDerivAt_const s (0 : ℝ)
  | e :: es, y, y', hg, hy => by
    obtain ⟨hl, hes⟩ := hg
    have harg : ∀ i < n, HasDerivAt (fun t => arg n m (c t) (vals e.x) (y t) i)
        (∑ k ∈ Finset.range m, c'.w i k * vals e.x k + c'.b i +
          ∑ k ∈ Finset.range n, (c'.u i k * y s k + (c s).u i k * y' k)) s := by
      intro i hi
      have h1 : HasDerivAt (fun t => ∑ k ∈ Finset.range m, (c t).w i k * vals e.x k) (∑ k ∈ Finset.range m, c'.w i k * vals e.x k) s :=
        HasDerivAt.fun_sum fun k hk => (hw i hi k (Finset.mem_range.mp hk)).mul_const _
      have h2 : HasDerivAt (fun t => ∑ k ∈ Finset.range n, (c t).u i k * y t k)
          (∑ k ∈ Finset.range n, (c'.u i k * y s k + (c s).u i k * y' k)) s :=
        HasDerivAt.fun_sum fun k hk => (hu i hi k (Finset.mem_range.mp hk)).fun_mul (hy k (Finset.mem_range.mp hk))
      exact (h1.fun_add (hb i hi)).fun_add h2
    have hout : ∀ i < n, HasDerivAt (fun t => out n m (c t) (vals e.x) (y t) i)
        ((1 - Real.tanh (arg n m (c s) (vals e.x) (y s) i) ^ 2) * (∑ k ∈ Finset.range m, c'.w i k * vals e.x k + c'.b i +
          ∑ k ∈ Finset.range n, (c'.u i k * y s k + (c s).u i k * y' k))) s := by
      intro i hi
      have ht : HasDerivAt Real.tanh (1 - Real.tanh (arg n m (c s) (vals e.x) (y s) i) ^ 2) (arg n m (c s) (vals e.x) (y s) i) :=
        Back32.tanh_der _
      exact ht.comp s (harg i hi)
    have ih := loss_der c c' s hw hu hb es (fun t => out n m (c t) (vals e.x) (y t)) _ hes hout
    have hJ : HasDerivAt (fun t => e.J (out n m (c t) (vals e.x) (y t))) (∑ i ∈ Finset.range n, e.γ i *
        ((1 - Real.tanh (arg n m (c s) (vals e.x) (y s) i) ^ 2) * (∑ k ∈ Finset.range m, c'.w i k * vals e.x k + c'.b i +
          ∑ k ∈ Finset.range n, (c'.u i k * y s k + (c s).u i k * y' k)))) s := by
      unfold SStep.J SStep.γ
      cases h : e.loss with
      | none => simp only [zero_mul, Finset.sum_const_zero]; exact hasDerivAt_const s (0 : ℝ)
      | some l => exact (hl l h).2 (fun t => out n m (c t) (vals e.x) (y t)) _ s rfl hout
    refine (hJ.fun_add ih).congr_deriv ?_
    simp only [deltas, back, List.map_cons, List.sum_cons]
    generalize (List.map (fun d : Delta => ∑ i ∈ Finset.range n, d.δ i *
          (∑ k ∈ Finset.range m, c'.w i k * d.x k + c'.b i + ∑ k ∈ Finset.range n, c'.u i k * d.y k)) (deltas n m (c s) (out n m (c s) (vals e.x) (y s)) es)).sum = A
    generalize back n m (c s) (out n m (c s) (vals e.x) (y s)) es = q
    generalize e.γ = γ
    generalize arg n m (c s) (vals e.x) (y s) = a
    have e1 : ∑ k ∈ Finset.range n, (∑ i ∈ Finset.range n, (1 - Real.tanh (a i) ^ 2) * (γ i + q i) * (c s).u i k) * y' k =
        ∑ i ∈ Finset.range n, (1 - Real.tanh (a i) ^ 2) * (γ i + q i) * ∑ k ∈ Finset.range n, (c s).u i k * y' k := by
      simp only [Finset.sum_mul, Finset.mul_sum]
      rw [Finset.sum_comm]
      exact Finset.sum_congr rfl fun i _ => Finset.sum_congr rfl fun k _ => by ring
    rw [e1]
    rw [add_left_comm, ← Finset.sum_add_distrib, add_right_comm, ← Finset.sum_add_distrib, add_comm]
    congr 1
    refine Finset.sum_congr rfl fun i _ => ?_
    rw [Finset.sum_add_distrib]
    ring

end Verif.Srn32
