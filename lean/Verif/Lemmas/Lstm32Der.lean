import Verif.Spec.Lstm32
import Verif.Props.Back32Acts

set_option autoImplicit false
set_option linter.unusedSimpArgs false

/-!
# The derivatives of the loss of an LSTM (C102)
-/

namespace Verif.Lstm32
open Verif.F32 Verif.Net32 Verif.Rec32 Verif.Spec.Net32 Verif.Spec.Rec32 Verif.Spec.Back32 Verif.Spec.Srn32 Verif.Spec.Lstm32

variable {n m : Nat}

theorem sigmoid_der (u : ℝ) : HasDerivAt (fun x => Spec.Sigmoid32.sigmoid x) (Spec.Sigmoid32.sigmoid u * (1 - Spec.Sigmoid32.sigmoid u)) u := by
  have e : (fun x => Spec.Sigmoid32.sigmoid x) = Real.sigmoid := funext Back32.sig_eq
  rw [e, Back32.sig_eq]
  exact Real.hasDerivAt_sigmoid u

theorem gate_der (q : Gt) (u : ℝ) : HasDerivAt (real (actOf q)) (slope (actOf q) u) u := by
  cases q
  · exact sigmoid_der u
  · exact sigmoid_der u
  · exact sigmoid_der u
  · exact Back32.tanh_der u

/-- How the cell and the output move, when the sums of the gates move like `A` and the previous cell like `c'`. -/
noncomputable def cellMoves (n m : Nat) (Θ : Thetas) (x c y : Nat → ℝ) (A : Gt → Nat → ℝ) (c' : Nat → ℝ) (i : Nat) : ℝ :=
  gateS n m Θ x y .inp i * A .inp i * gateV n m Θ x y .cand i + gateV n m Θ x y .inp i * (gateS n m Θ x y .cand i * A .cand i) +
    (gateS n m Θ x y .forget i * A .forget i * c i + gateV n m Θ x y .forget i * c' i)
noncomputable def outMoves (n m : Nat) (Θ : Thetas) (x c y : Nat → ℝ) (A : Gt → Nat → ℝ) (c' : Nat → ℝ) (i : Nat) : ℝ :=
  gateS n m Θ x y .out i * A .out i * Real.tanh (cellL n m Θ x c y i) +
    gateV n m Θ x y .out i * ((1 - Real.tanh (cellL n m Θ x c y i) ^ 2) * cellMoves n m Θ x c y A c' i)

theorem step_der {Θ : ℝ → Thetas} {x c y : ℝ → Nat → ℝ} {A : Gt → Nat → ℝ} {c' : Nat → ℝ} {s : ℝ}
    (hA : ∀ q, ∀ i < n, HasDerivAt (fun t => arg n m (Θ t q) (x t) (y t) i) (A q i) s) (hc : ∀ i < n, HasDerivAt (fun t => c t i) (c' i) s) {i : Nat} (hi : i < n) :
    HasDerivAt (fun t => cellL n m (Θ t) (x t) (c t) (y t) i) (cellMoves n m (Θ s) (x s) (c s) (y s) A c' i) s ∧
    HasDerivAt (fun t => outL n m (Θ t) (x t) (c t) (y t) i) (outMoves n m (Θ s) (x s) (c s) (y s) A c' i) s := by
  have hv : ∀ q, HasDerivAt (fun t => gateV n m (Θ t) (x t) (y t) q i) (gateS n m (Θ s) (x s) (y s) q i * A q i) s :=
    fun q => (gate_der q _).comp s (hA q i hi)
  have h1 : HasDerivAt (fun t => cellL n m (Θ t) (x t) (c t) (y t) i) (cellMoves n m (Θ s) (x s) (c s) (y s) A c' i) s :=
    ((hv .inp).fun_mul (hv .cand)).fun_add ((hv .forget).fun_mul (hc i hi))
  have h2 : HasDerivAt (fun t => Real.tanh (cellL n m (Θ t) (x t) (c t) (y t) i))
      ((1 - Real.tanh (cellL n m (Θ s) (x s) (c s) (y s) i) ^ 2) * cellMoves n m (Θ s) (x s) (c s) (y s) A c' i) s :=
    by
    have ht : HasDerivAt Real.tanh (1 - Real.tanh (cellL n m (Θ s) (x s) (c s) (y s) i) ^ 2) (cellL n m (Θ s) (x s) (c s) (y s) i) := Back32.tanh_der _
    exact ht.comp s h1
  exact ⟨h1, (hv .out).fun_mul h2⟩

/-- The loss of one output. -/
theorem own_der {E P H : ℝ} {e : SStep} {v : ℝ → Nat → ℝ} {v' : Nat → ℝ} {s : ℝ}
    (hl : ∀ l, e.loss = some l → GoodLoss l.G n (v s) l.γ 1 E P H ∧ IsGrad n l.J (v s) l.γ) (hv : ∀ i < n, HasDerivAt (fun t => v t i) (v' i) s) :
    HasDerivAt (fun t => e.J (v t)) (∑ i ∈ Finset.range n, e.γ i * v' i) s := by
  unfold SStep.J SStep.γ
  cases h : e.loss with
  | none => simp only [zero_mul, Finset.sum_const_zero]; exact hasDerivAt_const s (0 : ℝ)
  | some l => exact (hl l h).2 v _ s rfl hv

/-- The chain rule at one element. -/
theorem key_sum (Θ : Thetas) (c y : Nat → ℝ) (e : SStep) (b : (Nat → ℝ) × (Nat → ℝ)) (A : Gt → Nat → ℝ) (c' : Nat → ℝ) (i : Nat) :
    e.γ i * outMoves n m Θ (vals e.x) c y A c' i + (b.1 i * cellMoves n m Θ (vals e.x) c y A c' i + b.2 i * outMoves n m Θ (vals e.x) c y A c' i) =
      (sumG fun q => argGrad n m Θ c y e b q i * A q i) + gateV n m Θ (vals e.x) y .forget i * cellGrad n m Θ c y e b i * c' i := by
  simp only [sumG, argGrad, valGrad, cellGrad, outMoves, cellMoves]
  ring

/-- What the derivative of the loss is, from the gradients in front of the activations and the movement `c'` of the parameters. -/
noncomputable def pairing (n m : Nat) (c' : Thetas) (d : Gt → Delta) : ℝ := ∑ i ∈ Finset.range n, sumG fun q => (d q).δ i *
  (∑ k ∈ Finset.range m, (c' q).w i k * (d q).x k + (c' q).b i + ∑ k ∈ Finset.range n, (c' q).u i k * (d q).y k)

theorem sumG_add (f g : Gt → ℝ) : (sumG fun q => f q + g q) = sumG f + sumG g := by unfold sumG; ring

theorem sum_sumG (s : Finset Nat) (f : Gt → Nat → ℝ) : (∑ i ∈ s, sumG fun q => f q i) = sumG fun q => ∑ i ∈ s, f q i := by
  simp only [sumG, Finset.sum_add_distrib]

theorem sumG_congr {f g : Gt → ℝ} (h : ∀ q, f q = g q) : sumG f = sumG g := by rw [show f = g from funext h]

/-- The chain rule through all steps. -/
theorem loss_der {E P H : ℝ} (Θ : ℝ → Thetas) (Θ' : Thetas) (s : ℝ)
    (hw : ∀ q, ∀ i < n, ∀ k < m, HasDerivAt (fun t => (Θ t q).w i k) ((Θ' q).w i k) s)
    (hu : ∀ q, ∀ i < n, ∀ k < n, HasDerivAt (fun t => (Θ t q).u i k) ((Θ' q).u i k) s)
    (hb : ∀ q, ∀ i < n, HasDerivAt (fun t => (Θ t q).b i) ((Θ' q).b i) s) :
    ∀ (es : List SStep) (c y : ℝ → Nat → ℝ) (c' y' : Nat → ℝ), GoodL n m (Θ s) E P H (c s) (y s) es →
      (∀ k < n, HasDerivAt (fun t => c t k) (c' k) s) → (∀ k < n, HasDerivAt (fun t => y t k) (y' k) s) →
      HasDerivAt (fun t => lossL n m (Θ t) (c t) (y t) es)
        (((deltasL n m (Θ s) (c s) (y s) es).map (pairing n m Θ')).sum +
          ∑ k ∈ Finset.range n, ((backL n m (Θ s) (c s) (y s) es).1 k * c' k + (backL n m (Θ s) (c s) (y s) es).2 k * y' k)) s
  | [], c, y, c', y', _, _, _ => by simpa [lossL, deltasL, backL] using hasDerivAt_const s (0 : ℝ)
  | e :: es, c, y, c', y', hg, hc, hy => by
    obtain ⟨hl, hes⟩ := hg
    have harg : ∀ q, ∀ i < n, HasDerivAt (fun t => arg n m (Θ t q) (vals e.x) (y t) i)
        (∑ k ∈ Finset.range m, (Θ' q).w i k * vals e.x k + (Θ' q).b i +
          ∑ k ∈ Finset.range n, ((Θ' q).u i k * y s k + (Θ s q).u i k * y' k)) s := by
      intro q i hi
      have h1 : HasDerivAt (fun t => ∑ k ∈ Finset.range m, (Θ t q).w i k * vals e.x k) (∑ k ∈ Finset.range m, (Θ' q).w i k * vals e.x k) s :=
        HasDerivAt.fun_sum fun k hk => (hw q i hi k (Finset.mem_range.mp hk)).mul_const _
      have h2 : HasDerivAt (fun t => ∑ k ∈ Finset.range n, (Θ t q).u i k * y t k)
          (∑ k ∈ Finset.range n, ((Θ' q).u i k * y s k + (Θ s q).u i k * y' k)) s :=
        HasDerivAt.fun_sum fun k hk => (hu q i hi k (Finset.mem_range.mp hk)).fun_mul (hy k (Finset.mem_range.mp hk))
      exact (h1.fun_add (hb q i hi)).fun_add h2
    have hst := fun i (hi : i < n) => step_der (x := fun _ => vals e.x) harg hc hi
    have ih := loss_der Θ Θ' s hw hu hb es (fun t => cellL n m (Θ t) (vals e.x) (c t) (y t)) (fun t => outL n m (Θ t) (vals e.x) (c t) (y t)) _ _ hes
      (fun i hi => (hst i hi).1) (fun i hi => (hst i hi).2)
    have hJ := own_der (e := e) (v := fun t => outL n m (Θ t) (vals e.x) (c t) (y t)) hl (fun i hi => (hst i hi).2)
    refine (hJ.fun_add ih).congr_deriv ?_
    beta_reduce
    simp only [deltasL, List.map_cons, List.sum_cons]
    rw [backL]
    generalize (List.map (pairing n m Θ') (deltasL n m (Θ s) (cellL n m (Θ s) (vals e.x) (c s) (y s)) (outL n m (Θ s) (vals e.x) (c s) (y s)) es)).sum = Z
    generalize backL n m (Θ s) (cellL n m (Θ s) (vals e.x) (c s) (y s)) (outL n m (Θ s) (vals e.x) (c s) (y s)) es = b
    rw [add_left_comm, ← Finset.sum_add_distrib]
    rw [Finset.sum_congr rfl fun i _ => key_sum (Θ s) (c s) (y s) e b _ c' i]
    rw [Finset.sum_add_distrib]
    dsimp only
    rw [Finset.sum_add_distrib]
    have e1 : ∑ k ∈ Finset.range n, (sumG fun q => ∑ i ∈ Finset.range n, argGrad n m (Θ s) (c s) (y s) e b q i * (Θ s q).u i k) * y' k =
        ∑ i ∈ Finset.range n, sumG fun q => argGrad n m (Θ s) (c s) (y s) e b q i * ∑ k ∈ Finset.range n, (Θ s q).u i k * y' k := by
      have e2 : ∀ k, (sumG fun q => ∑ i ∈ Finset.range n, argGrad n m (Θ s) (c s) (y s) e b q i * (Θ s q).u i k) * y' k =
          sumG fun q => (∑ i ∈ Finset.range n, argGrad n m (Θ s) (c s) (y s) e b q i * (Θ s q).u i k) * y' k := fun k => by unfold sumG; ring
      simp only [e2]
      rw [sum_sumG, sum_sumG]
      refine sumG_congr fun q => ?_
      simp only [Finset.sum_mul, Finset.mul_sum]
      rw [Finset.sum_comm]
      exact Finset.sum_congr rfl fun i _ => Finset.sum_congr rfl fun k _ => by ring
    rw [e1]
    have e3 : ∑ i ∈ Finset.range n, (sumG fun q => argGrad n m (Θ s) (c s) (y s) e b q i * (∑ k ∈ Finset.range m, (Θ' q).w i k * vals e.x k + (Θ' q).b i +
          ∑ k ∈ Finset.range n, ((Θ' q).u i k * y s k + (Θ s q).u i k * y' k))) =
        pairing n m Θ' (fun q => ⟨argGrad n m (Θ s) (c s) (y s) e b q, vals e.x, y s⟩) +
          ∑ i ∈ Finset.range n, sumG fun q => argGrad n m (Θ s) (c s) (y s) e b q i * ∑ k ∈ Finset.range n, (Θ s q).u i k * y' k := by
      unfold pairing
      rw [← Finset.sum_add_distrib]
      refine Finset.sum_congr rfl fun i _ => ?_
      rw [← sumG_add]
      refine sumG_congr fun q => ?_
      dsimp only
      rw [Finset.sum_add_distrib]
      ring
    rw [e3]
    ring

end Verif.Lstm32
