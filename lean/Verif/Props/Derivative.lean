import Verif.Spec.Derivative
import Verif.Props.BackwardHang
import Mathlib.Analysis.Calculus.FDeriv.Pi
import Mathlib.Analysis.Calculus.FDeriv.Comp
import Mathlib.Analysis.Calculus.FDeriv.Add
import Mathlib.Analysis.Calculus.FDeriv.Linear
import Mathlib.Analysis.Calculus.Gradient.Basic
import Mathlib.Analysis.Calculus.FDeriv.Mul
import Mathlib.Algebra.Group.WithOne.Basic
import Mathlib.Tactic.FinCases

/-! # Property C09: the gradients are the derivatives -/

set_option linter.unusedSimpArgs false
set_option autoImplicit false

namespace Verif.Backward
open Function (update update_self update_of_ne)
open scoped BigOperators
section
variable {n : Nat} {E : Type} [NormedAddCommGroup E] [InnerProductSpace ℝ E] [CompleteSpace E]
  {G : Graph n} {φ : Forward G E} {F : Fns n E} {A : Partials G E} {xs : List (Fin n)}

/-- an amount as an element of `E` -/
noncomputable def ofAmount : WithZero E →+ E := WithZero.lift (AddHom.id E)

omit [InnerProductSpace ℝ E] [CompleteSpace E] in
theorem ofAmount_coe (e : E) : ofAmount (e : WithZero E) = e := rfl

omit [InnerProductSpace ℝ E] [CompleteSpace E] in
theorem ofAmount_amount (g : Option E) : ofAmount (amount g) = gval g := by
  cases g with
  | none => exact map_zero ofAmount
  | some g => rfl

omit [InnerProductSpace ℝ E] [CompleteSpace E] in
theorem ofAmount_contrib (c : Fin n) (g : E) (x : Fin n) :
    ofAmount (contrib F c (some g) x) = ((F.bw c g).map fun p => if p.1 = x then p.2 else 0).sum := by
  simp only [contrib, map_list_sum, List.map_map]
  congr 1
  apply List.map_congr_left
  intro p _
  simp only [Function.comp]
  split
  · rfl
  · exact map_zero ofAmount

/-- the derivative of every value in the direction of leaf `l` exists -/
theorem exists_tangent (hac : G.Acyclic) {V : (Fin n → E) → Fin n → E}
    (hV : ∀ θ, IsEval G φ θ (V θ)) (θ : Fin n → E) (hA : IsPartials G φ (V θ) A) (l : Fin n)
    (hl : G.isOp l = false) :
    ∃ d : Fin n → E →L[ℝ] E,
      (∀ x, HasFDerivAt (fun t => V (update θ l t) x) (d x) (θ l)) ∧
      (∀ x, G.isOp x = false → d x = if x = l then ContinuousLinearMap.id ℝ E else 0) ∧
      (∀ x, G.isOp x = true → d x = ∑ i, (A x i).comp (d ((G.operands x).get i))) := by
  classical
  suffices H : ∀ k, ∃ d : Fin n → E →L[ℝ] E,
      (∀ x, x.val < k → HasFDerivAt (fun t => V (update θ l t) x) (d x) (θ l)) ∧
      (∀ x, x.val < k → G.isOp x = false → d x = if x = l then ContinuousLinearMap.id ℝ E else 0) ∧
      (∀ x, x.val < k → G.isOp x = true → d x = ∑ i, (A x i).comp (d ((G.operands x).get i))) by
    obtain ⟨d, h1, h2, h3⟩ := H n
    exact ⟨d, fun x => h1 x x.isLt, fun x => h2 x x.isLt, fun x => h3 x x.isLt⟩
  intro k
  induction k with
  | zero => exact ⟨fun _ => 0, by simp, by simp, by simp⟩
  | succ k ih =>
    obtain ⟨d, h1, h2, h3⟩ := ih
    by_cases hk : k < n
    · let x : Fin n := ⟨k, hk⟩
      let dx : E →L[ℝ] E := if G.isOp x = true then ∑ i, (A x i).comp (d ((G.operands x).get i))
        else if x = l then ContinuousLinearMap.id ℝ E else 0
      have hlt : ∀ i, ((G.operands x).get i).val < k := by
        intro i
        exact hac x _ (List.get_mem _ i)
      have hold : ∀ y : Fin n, y.val < k → y ≠ x := by
        intro y hy he
        rw [he] at hy
        exact absurd hy (lt_irrefl k)
      have hnew : ∀ y : Fin n, y.val < k + 1 → y.val < k ∨ y = x := by
        intro y hy
        rcases Nat.lt_succ_iff_lt_or_eq.mp hy with h | h
        · exact Or.inl h
        · exact Or.inr (Fin.ext h)
      have hsum : ∀ y : Fin n, y.val < k + 1 →
          (∑ i, (A y i).comp ((update d x dx) ((G.operands y).get i))) =
            ∑ i, (A y i).comp (d ((G.operands y).get i)) := by
        intro y hy
        apply Finset.sum_congr rfl
        intro i _
        have : ((G.operands y).get i).val < y.val := hac y _ (List.get_mem _ i)
        rw [update_of_ne (hold _ (by omega))]
      refine ⟨update d x dx, ?_, ?_, ?_⟩
      · intro y hy
        rcases hnew y hy with hy | rfl
        · rw [update_of_ne (hold y hy)]; exact h1 y hy
        · rw [update_self]
          by_cases ho : G.isOp x = true
          · have hdx : dx = ∑ i, (A x i).comp (d ((G.operands x).get i)) := if_pos ho
            rw [hdx]
            have hfun : (fun t => V (update θ l t) x) =
                φ x ∘ (fun t => fun i => V (update θ l t) ((G.operands x).get i)) := by
              funext t
              have := hV (update θ l t) x
              rw [if_pos ho] at this
              exact this
            rw [hfun]
            have hpi : HasFDerivAt (fun t => fun i => V (update θ l t) ((G.operands x).get i))
                (ContinuousLinearMap.pi fun i => d ((G.operands x).get i)) (θ l) :=
              hasFDerivAt_pi.mpr fun i => h1 _ (hlt i)
            have hφ := hA x ho
            have hpt : (fun i => V θ ((G.operands x).get i)) =
                (fun i => V (update θ l (θ l)) ((G.operands x).get i)) := by
              rw [Function.update_eq_self]
            rw [hpt] at hφ
            have hcomp := hφ.comp (θ l) hpi
            convert hcomp using 1
            ext e
            simp [ContinuousLinearMap.sum_apply]
          · have hdx : dx = if x = l then ContinuousLinearMap.id ℝ E else 0 := if_neg ho
            rw [hdx]
            have hfun : (fun t => V (update θ l t) x) = fun t => update θ l t x := by
              funext t
              have := hV (update θ l t) x
              rw [if_neg ho] at this
              exact this
            rw [hfun]
            by_cases hxl : x = l
            · rw [if_pos hxl, hxl]
              simp only [update_self]
              exact hasFDerivAt_id _
            · rw [if_neg hxl]
              simp only [update_of_ne hxl]
              exact hasFDerivAt_const _ _
      · intro y hy ho
        rcases hnew y hy with hy | rfl
        · rw [update_of_ne (hold y hy)]; exact h2 y hy ho
        · rw [update_self]
          show dx = _
          have : ¬ G.isOp x = true := by simp [ho]
          exact if_neg this
      · intro y hy ho
        rw [hsum y hy]
        rcases hnew y hy with hy | rfl
        · rw [update_of_ne (hold y hy)]; exact h3 y hy ho
        · rw [update_self]; exact if_pos ho
    · refine ⟨d, ?_, ?_, ?_⟩
      · intro x _; exact h1 x (by have := x.isLt; omega)
      · intro x _; exact h2 x (by have := x.isLt; omega)
      · intro x _; exact h3 x (by have := x.isLt; omega)

/-- tensors that do not require gradients do not depend on a leaf that does -/
theorem tangent_zero (hac : G.Acyclic) {d : Fin n → E →L[ℝ] E} {l : Fin n}
    (hl : G.requiresGrad l = true)
    (h2 : ∀ x, G.isOp x = false → d x = if x = l then ContinuousLinearMap.id ℝ E else 0)
    (h3 : ∀ x, G.isOp x = true → d x = ∑ i, (A x i).comp (d ((G.operands x).get i))) :
    ∀ x, G.requiresGrad x = false → d x = 0 := by
  suffices H : ∀ k, ∀ x : Fin n, x.val < k → G.requiresGrad x = false → d x = 0 from
    fun x => H n x x.isLt
  intro k
  induction k with
  | zero => intro x hx; omega
  | succ k ih =>
    intro x hx hr
    by_cases ho : G.isOp x = true
    · rw [h3 x ho]
      apply Finset.sum_eq_zero
      intro i _
      have hm : (G.operands x).get i ∈ G.operands x := List.get_mem _ i
      have hlt : ((G.operands x).get i).val < x.val := hac x _ hm
      rw [ih _ (by omega) ?_, ContinuousLinearMap.comp_zero]
      rw [Graph.requiresGrad_eq hac] at hr
      cases hn : G.node x with
      | leaf b => simp [Graph.isOp, hn] at ho
      | blocker w => simp [Graph.isOp, hn] at ho
      | op os =>
        rw [hn] at hr
        simp only [List.any_eq_false, Bool.not_eq_true] at hr
        have : (G.operands x).get i ∈ os := by simpa [Graph.operands, hn] using hm
        exact hr _ this
    · rw [h2 x (by simpa using ho), if_neg]
      rintro rfl
      rw [hl] at hr; cases hr

open Classical in
/-- **C09.** When `Backward` has returned, the gradient that has been added to a leaf `l` that
requires gradients is the gradient with respect to `l` of the sum of the outputs' values, each
weighted (scalar product) with its seeded gradient. -/
theorem gradients_are_derivatives (hac : G.Acyclic) (ham : AtMost G F xs)
    {V : (Fin n → E) → Fin n → E} (hV : ∀ θ, IsEval G φ θ (V θ)) (θ : Fin n → E)
    (hA : IsPartials G φ (V θ) A) (hF : IsAdjoint G F A)
    {s₀ s : St n E} (hcl : Clean G s₀) (hr : Reach G F xs s₀ s) (hm : s.main = .returned)
    {l : Fin n} (hl : G.node l = .leaf true) :
    HasGradientAt
      (fun t => ∑ x, if Reached G xs x then
        inner ℝ (gval (seeded G F xs s₀.grad x)) (V (update θ l t) x) else 0)
      (gval (s.grad l) - gval (s₀.grad l)) (θ l) := by
  have hlop : G.isOp l = false := by simp [Graph.isOp, hl]
  have hlrg : G.requiresGrad l = true := by rw [Graph.requiresGrad_eq hac, hl]
  obtain ⟨d, h1, h2, h3⟩ := exists_tangent hac hV θ hA l hlop
  have hz := tangent_zero (A := A) hac hlrg h2 h3
  have hchain := backward_chain_rule hac ham hcl hr hm
  set g₁ := seeded G F xs s₀.grad with hg₁
  have hsome : ∀ c, Reached G xs c → ∃ g, s.grad c = some g := by
    intro c hc
    obtain ⟨g, hg⟩ := (backward_once_with_complete_gradient hac ham hcl hr).2.2 hm c hc
    exact ⟨g, ((backward_once_with_complete_gradient hac ham hcl hr).2.1 _ hg).2⟩
  -- the chain rule in E
  have hE : ∀ x, G.isBlocker x = false → G.requiresGrad x = true →
      gval (s.grad x) = gval (g₁ x) + ∑ c, if Reached G xs c then
        ∑ i, (if (G.operands c).get i = x then
          ContinuousLinearMap.adjoint (A c i) (gval (s.grad c)) else 0) else 0 := by
    intro x hb hrg
    rw [← ofAmount_amount, hchain x hb, map_add, ofAmount_amount, map_sum]
    congr 1
    apply Finset.sum_congr rfl
    intro c _
    split
    · rename_i hc
      obtain ⟨g, hg⟩ := hsome c hc
      rw [hg, ofAmount_contrib, hF c g x hrg]
      rfl
    · exact map_zero ofAmount
  have hb : ∀ {x}, G.isOp x = true → G.isBlocker x = false := isBlocker_of_isOp
  -- duality
  have hdual : ∀ h : E, (∑ x, if Reached G xs x then inner ℝ (gval (g₁ x)) (d x h) else 0) =
      inner ℝ (gval (s.grad l) - gval (s₀.grad l)) h := by
    intro h
    -- contributions along all edges
    let T : Fin n → (c : Fin n) → Fin (G.operands c).length → ℝ := fun x c i =>
      if (G.operands c).get i = x then inner ℝ (gval (s.grad c)) (A c i (d x h)) else 0
    have hlhs : ∀ c, Reached G xs c → inner ℝ (gval (s.grad c)) (d c h) =
        (∑ x, if Reached G xs x then ∑ i, T x c i else 0) + ∑ i, T l c i := by
      intro c hc
      rw [h3 c hc.isOp, ContinuousLinearMap.sum_apply, inner_sum]
      rw [← Finset.sum_filter, Finset.sum_comm, ← Finset.sum_add_distrib]
      apply Finset.sum_congr rfl
      intro i _
      simp only [ContinuousLinearMap.comp_apply, T]
      set o := (G.operands c).get i with ho
      have hmo : o ∈ G.operands c := List.get_mem _ i
      by_cases hre : Reached G xs o
      · have hne : o ≠ l := by rintro rfl; rw [hre.isOp] at hlop; cases hlop
        rw [if_neg hne, add_zero, Finset.sum_ite_eq, if_pos (by simp [hre])]
      · rw [Finset.sum_ite_eq, if_neg (by simp [hre]), zero_add]
        by_cases hol : o = l
        · rw [if_pos hol, hol]
        · rw [if_neg hol]
          have hd0 : d o = 0 := by
            by_cases hop : G.isOp o = true
            · apply hz
              by_contra hrg
              exact hre (.operand hc hmo hop (by simpa using hrg))
            · rw [h2 o (by simpa using hop), if_neg hol]
          rw [hd0]
          simp
    have hx : ∀ x, Reached G xs x → inner ℝ (gval (s.grad x)) (d x h) =
        inner ℝ (gval (g₁ x)) (d x h) + ∑ c, if Reached G xs c then ∑ i, T x c i else 0 := by
      intro x hx
      rw [hE x (hb hx.isOp) hx.rg, inner_add_left, sum_inner]
      congr 1
      apply Finset.sum_congr rfl
      intro c _
      split
      · rw [sum_inner]
        apply Finset.sum_congr rfl
        intro i _
        simp only [T]
        split
        · rw [ContinuousLinearMap.adjoint_inner_left]
        · exact inner_zero_left _
      · exact inner_zero_left _
    have hll : inner ℝ (gval (s.grad l) - gval (s₀.grad l)) h =
        ∑ c, if Reached G xs c then ∑ i, T l c i else 0 := by
      have hbl : G.isBlocker l = false := by simp [Graph.isBlocker, hl]
      have hsl : g₁ l = s₀.grad l := by
        rw [hg₁]; unfold seeded; rw [if_neg]; simp [hlop]
      rw [hE l hbl hlrg, hsl, add_sub_cancel_left, sum_inner]
      apply Finset.sum_congr rfl
      intro c _
      split
      · rw [sum_inner]
        apply Finset.sum_congr rfl
        intro i _
        simp only [T]
        split
        · rw [ContinuousLinearMap.adjoint_inner_left, h2 l hlop, if_pos rfl]; rfl
        · exact inner_zero_left _
      · exact inner_zero_left _
    -- sum both decompositions over the reached operators
    have e1 : (∑ x, if Reached G xs x then inner ℝ (gval (s.grad x)) (d x h) else 0) =
        (∑ x, if Reached G xs x then inner ℝ (gval (g₁ x)) (d x h) else 0) +
        ∑ x, ∑ c, if Reached G xs x then (if Reached G xs c then ∑ i, T x c i else 0) else 0 := by
      rw [← Finset.sum_add_distrib]
      apply Finset.sum_congr rfl
      intro x _
      by_cases hre : Reached G xs x
      · simp only [if_pos hre]; exact hx x hre
      · simp only [if_neg hre]; simp
    have e2 : (∑ c, if Reached G xs c then inner ℝ (gval (s.grad c)) (d c h) else 0) =
        (∑ c, ∑ x, if Reached G xs c then (if Reached G xs x then ∑ i, T x c i else 0) else 0) +
        ∑ c, if Reached G xs c then ∑ i, T l c i else 0 := by
      rw [← Finset.sum_add_distrib]
      apply Finset.sum_congr rfl
      intro c _
      by_cases hre : Reached G xs c
      · simp only [if_pos hre]; exact hlhs c hre
      · simp only [if_neg hre]; simp
    have e3 : (∑ x, ∑ c, if Reached G xs x then (if Reached G xs c then ∑ i, T x c i else 0) else 0)
        = ∑ c, ∑ x, if Reached G xs c then (if Reached G xs x then ∑ i, T x c i else 0) else 0 := by
      rw [Finset.sum_comm]
      apply Finset.sum_congr rfl
      intro c _
      apply Finset.sum_congr rfl
      intro x _
      by_cases hc : Reached G xs c <;> by_cases hx : Reached G xs x <;> simp [hc, hx]
    rw [hll]
    linarith
  -- differentiate
  have hder : HasFDerivAt
      (fun t => ∑ x, if Reached G xs x then inner ℝ (gval (g₁ x)) (V (update θ l t) x) else 0)
      (∑ x, if Reached G xs x then (innerSL ℝ (gval (g₁ x))).comp (d x) else 0) (θ l) := by
    apply HasFDerivAt.fun_sum
    intro x _
    by_cases hx : Reached G xs x
    · simp only [if_pos hx]
      exact ((innerSL ℝ (gval (g₁ x))).hasFDerivAt).comp (θ l) (h1 x)
    · simp only [if_neg hx]
      exact hasFDerivAt_const _ _
  rw [hasGradientAt_iff_hasFDerivAt]
  refine hder.congr_fderiv ?_
  ext h
  rw [InnerProductSpace.toDual_apply_apply, ← hdual h, ContinuousLinearMap.sum_apply]
  apply Finset.sum_congr rfl
  intro x _
  by_cases hx : Reached G xs x
  · rw [if_pos hx, if_pos hx]; rfl
  · rw [if_neg hx, if_neg hx]; rfl

/-- **C09, one output.** Starting without gradients, `Backward(y)` leaves on every leaf that
requires gradients the gradient of `⟨seed, y⟩` with respect to that leaf. -/
theorem gradients_are_derivatives_single (hac : G.Acyclic) {y : Fin n} (ham : AtMost G F [y])
    {V : (Fin n → E) → Fin n → E} (hV : ∀ θ, IsEval G φ θ (V θ)) (θ : Fin n → E)
    (hA : IsPartials G φ (V θ) A) (hF : IsAdjoint G F A)
    {s₀ s : St n E} (hcl : Clean G s₀) (hno : ∀ x, s₀.grad x = none)
    (hr : Reach G F [y] s₀ s) (hm : s.main = .returned)
    (hy : G.isOp y = true) (hyr : G.requiresGrad y = true) {u : E} (hu : F.seed y = some u)
    {l : Fin n} (hl : G.node l = .leaf true) :
    HasGradientAt (fun t => inner ℝ u (V (update θ l t) y)) (gval (s.grad l)) (θ l) := by
  classical
  have h := gradients_are_derivatives hac ham hV θ hA hF hcl hr hm hl
  have hre : Reached G [y] y := .out (by simp) hy hyr
  have hfun : (fun t => ∑ x, if Reached G [y] x then
        inner ℝ (gval (seeded G F [y] s₀.grad x)) (V (update θ l t) x) else 0) =
      fun t => inner ℝ u (V (update θ l t) y) := by
    funext t
    rw [Finset.sum_eq_single y]
    · rw [if_pos hre]; simp [seeded, hy, hno, hu, gval]
    · intro x _ hx
      split
      · simp [seeded, hx, hno, gval]
      · rfl
    · simp
  have h0 : gval (s₀.grad l) = 0 := by rw [hno]; rfl
  rw [h0, sub_zero] at h
  convert h using 1
  exact hfun.symm

omit [CompleteSpace E] [InnerProductSpace ℝ E] in
/-- The values exist and are determined by the leaves. -/
theorem exists_unique_eval (hac : G.Acyclic) (φ : Forward G E) (θ : Fin n → E) :
    ∃! v, IsEval G φ θ v := by
  have hun : ∀ v w, IsEval G φ θ v → IsEval G φ θ w → v = w := by
    intro v w hv hw
    funext x
    suffices H : ∀ k, ∀ x : Fin n, x.val < k → v x = w x from H n x x.isLt
    intro k
    induction k with
    | zero => intro x hx; omega
    | succ k ih =>
      intro x hx
      rw [hv x, hw x]
      split
      · congr 1
        funext i
        have : ((G.operands x).get i).val < x.val := hac x _ (List.get_mem _ i)
        exact ih _ (by omega)
      · rfl
  suffices H : ∀ k, ∃ v : Fin n → E, ∀ x : Fin n, x.val < k →
      v x = if G.isOp x = true then φ x (fun i => v ((G.operands x).get i)) else θ x by
    obtain ⟨v, hv⟩ := H n
    exact ⟨v, fun x => hv x x.isLt, fun w hw => hun _ _ hw fun x => hv x x.isLt⟩
  intro k
  induction k with
  | zero => exact ⟨θ, by simp⟩
  | succ k ih =>
    obtain ⟨v, hv⟩ := ih
    refine ⟨fun y => if y.val = k then
      (if G.isOp y = true then φ y (fun i => v ((G.operands y).get i)) else θ y) else v y, ?_⟩
    intro x hx
    have hops : (fun i => (fun y : Fin n => if y.val = k then
        (if G.isOp y = true then φ y (fun i => v ((G.operands y).get i)) else θ y) else v y)
          ((G.operands x).get i)) = fun i => v ((G.operands x).get i) := by
      funext i
      have : ((G.operands x).get i).val < x.val := hac x _ (List.get_mem _ i)
      simp only
      rw [if_neg (by omega)]
    by_cases hxk : x.val = k
    · simp only [hxk, if_true]
      simp only [hxk, if_true] at hops ⊢
      rw [hops]
    · rw [hops]
      simp only [hxk, if_false]
      exact hv x (by omega)

end

/-! ### An instance: `y = x * x + x` over the reals (operator 1 is the product, 2 the sum) -/

namespace ExDeriv

def G : Graph 3 where
  node := ![.leaf true, .op [0, 0], .op [1, 0]]

noncomputable def φ : Forward G ℝ := fun c =>
  if h : c = 1 then fun a => a ⟨0, by subst h; decide⟩ * a ⟨1, by subst h; decide⟩
  else if h : c = 2 then fun a => a ⟨0, by subst h; decide⟩ + a ⟨1, by subst h; decide⟩
  else fun _ => 0

/-- the local derivatives when the leaf has value `x` -/
noncomputable def A (x : ℝ) : Partials G ℝ := fun c _ =>
  if c = 1 then x • ContinuousLinearMap.id ℝ ℝ else ContinuousLinearMap.id ℝ ℝ

noncomputable def F (x : ℝ) : Fns 3 ℝ where
  bw := ![fun _ => [], fun g => [(0, x * g), (0, x * g)], fun g => [(1, g), (0, g)]]
  seed := fun _ => some 1

noncomputable def V (θ : Fin 3 → ℝ) : Fin 3 → ℝ := ![θ 0, θ 0 * θ 0, θ 0 * θ 0 + θ 0]

def s₀ : St 3 ℝ where
  grad := fun _ => none
  st := fun _ => .idle
  pend := fun _ => 0
  chan := fun _ => .unmade
  thr := fun _ => .none
  wg := 0
  main := .returned
  panicked := false
  log := []

theorem acyclic : G.Acyclic := by decide

theorem clean : Clean G s₀ := ⟨fun _ => rfl, fun _ => rfl, fun _ _ => rfl, rfl⟩

theorem isEval (θ : Fin 3 → ℝ) : IsEval G φ θ (V θ) := by
  intro x
  fin_cases x
  · rfl
  · rfl
  · rfl

theorem contract (x : ℝ) (xs : List (Fin 3)) : Contract G (F x) xs := by
  intro c _ g y hy hr
  fin_cases c
  · rfl
  · rfl
  · rfl

theorem isPartials (θ : Fin 3 → ℝ) : IsPartials G φ (V θ) (A (θ 0)) := by
  intro c hc
  fin_cases c
  · cases hc
  · have h : HasFDerivAt (fun a : Fin 2 → ℝ => a 0 * a 1)
        (∑ i : Fin 2, (θ 0 • ContinuousLinearMap.id ℝ ℝ).comp
          (ContinuousLinearMap.proj (R := ℝ) (φ := fun _ : Fin 2 => ℝ) i)) (fun _ => θ 0) := by
      have h0 := (ContinuousLinearMap.proj (R := ℝ) (φ := fun _ : Fin 2 => ℝ) 0).hasFDerivAt
        (x := fun _ => θ 0)
      have h1 := (ContinuousLinearMap.proj (R := ℝ) (φ := fun _ : Fin 2 => ℝ) 1).hasFDerivAt
        (x := fun _ => θ 0)
      refine (h0.mul h1).congr_fderiv ?_
      ext a
      simp [Fin.sum_univ_two]
      ring
    have hp : (fun i => V θ ((G.operands 1).get i)) = fun _ => θ 0 := by
      funext i
      fin_cases i <;> rfl
    show HasFDerivAt _ _ (fun i => V θ ((G.operands 1).get i))
    rw [hp]
    exact h
  · have h : HasFDerivAt (fun a : Fin 2 → ℝ => a 0 + a 1)
        (∑ i : Fin 2, (ContinuousLinearMap.id ℝ ℝ).comp
          (ContinuousLinearMap.proj (R := ℝ) (φ := fun _ : Fin 2 => ℝ) i))
        (![θ 0 * θ 0, θ 0]) := by
      have h0 := (ContinuousLinearMap.proj (R := ℝ) (φ := fun _ : Fin 2 => ℝ) 0).hasFDerivAt
        (x := ![θ 0 * θ 0, θ 0])
      have h1 := (ContinuousLinearMap.proj (R := ℝ) (φ := fun _ : Fin 2 => ℝ) 1).hasFDerivAt
        (x := ![θ 0 * θ 0, θ 0])
      refine (h0.add h1).congr_fderiv ?_
      ext a
      simp [Fin.sum_univ_two]
    have hp : (fun i => V θ ((G.operands 2).get i)) = ![θ 0 * θ 0, θ 0] := by
      funext i
      fin_cases i <;> rfl
    show HasFDerivAt _ _ (fun i => V θ ((G.operands 2).get i))
    rw [hp]
    exact h

theorem isAdjoint (x : ℝ) : IsAdjoint G (F x) (A x) := by
  have hid : ContinuousLinearMap.adjoint (ContinuousLinearMap.id ℝ ℝ) =
      ContinuousLinearMap.id ℝ ℝ := ContinuousLinearMap.adjoint_id
  have hsm : ContinuousLinearMap.adjoint (x • ContinuousLinearMap.id ℝ ℝ) =
      x • ContinuousLinearMap.id ℝ ℝ := by
    rw [map_smulₛₗ, hid]; simp
  intro c g y hy
  fin_cases c
  · rfl
  · show _ = ∑ i : Fin 2, (if (0 : Fin 3) = y then
      ContinuousLinearMap.adjoint (x • ContinuousLinearMap.id ℝ ℝ) g else 0)
    rw [hsm]
    by_cases h : (0 : Fin 3) = y <;> simp [F, h, Fin.sum_univ_two, two_mul]
  · have : ∀ i : Fin 2, A x 2 i = ContinuousLinearMap.id ℝ ℝ := fun _ => rfl
    show _ = ∑ i : Fin 2, (if (![1, 0] : Fin 2 → Fin 3) i = y then
      ContinuousLinearMap.adjoint (ContinuousLinearMap.id ℝ ℝ) g else 0)
    rw [hid]
    simp [F, Fin.sum_univ_two]
    rfl

/-- the theorem applies: `Backward` leaves `2x + 1` on the leaf -/
example (x : ℝ) : ∃ s, Reach G (F x) [2] s₀ s ∧ s.main = .returned ∧
    gval (s.grad 0) = 2 * x + 1 := by
  obtain ⟨s, hs, hstuck⟩ := exists_final acyclic (contract x [2]).atMost (clean.start _)
    (Reach.init (G := G) (F := F x) (xs := [2]) (s₀ := s₀))
  have hm : s.main = .returned := by
    rcases (backward_returns acyclic (contract x [2]) clean).done s hs hstuck with h | h
    · exact h
    · exact absurd h (not_failed acyclic (contract x [2]).atMost (clean.start _)
        (fun _ _ _ => Or.inr (by simp [F])) hs)
  refine ⟨s, hs, hm, ?_⟩
  have h := gradients_are_derivatives_single (A := A x) (θ := fun _ => x) acyclic
    (contract x [2]).atMost isEval (isPartials fun _ => x) (isAdjoint x) clean (fun _ => rfl)
    hs hm rfl (by decide) (u := 1) rfl (l := 0) rfl
  have h' : HasGradientAt (fun t : ℝ => inner ℝ (1 : ℝ) (V (update (fun _ => x) 0 t) 2))
      (2 * x + 1) x := by
    have e : (fun t : ℝ => inner ℝ (1 : ℝ) (V (update (fun _ => x) 0 t) 2)) =
        fun t => t * t + t := by
      funext t; simp [V]
    rw [e, hasGradientAt_iff_hasFDerivAt]
    have h1 := ((hasFDerivAt_id (𝕜 := ℝ) x).mul (hasFDerivAt_id (𝕜 := ℝ) x)).add
      (hasFDerivAt_id (𝕜 := ℝ) x)
    refine h1.congr_fderiv ?_
    ext
    simp
    ring
  exact h.unique h'

end ExDeriv
end Verif.Backward
