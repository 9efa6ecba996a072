import Verif.Lemmas.Back32Step
import Mathlib.Analysis.Calculus.Deriv.Mul
import Mathlib.Analysis.Calculus.Deriv.Add
import Mathlib.Analysis.Calculus.Deriv.Comp

set_option autoImplicit false
set_option linter.unusedSimpArgs false

/-!
# C96: the backward pass through a feed-forward network of float32

For every network of linear layers and element-wise activations that stays away from overflow, every input, every loss and every amd64
processor: the forward and the backward pass end, every gradient is finite, and it is as close to the derivative of the loss of the
network of real numbers as `off` and `weightErr` say.
-/

namespace Verif.Back32
open Verif.F32 Verif.Asm Verif.Spec Verif.Spec.Kernels Verif.Spec.Net32 Verif.Net32 Verif.Rec32 Verif.Att32 Verif.Spec.Back32

variable {α : Type} {φ φ' : α → ℝ → ℝ} {L ε S : α → ℝ} {κ : α → ℝ → ℝ} {safe : α → ℝ → ℝ → Prop}

/-! ### Signs -/

theorem range_nonneg (hL : ∀ a, 0 ≤ L a) (l : Layer α) {M : ℝ} (hM : 0 ≤ M) : 0 ≤ range φ L l M := by
  cases l with
  | lin rows cols w b => exact add_nonneg (mul_nonneg (largest_nonneg _ _) hM) (largest_nonneg _ _)
  | act a => exact add_nonneg (mul_nonneg (hL a) hM) (abs_nonneg _)

theorem error_nonneg (hL : ∀ a, 0 ≤ L a) (hε : ∀ a, 0 ≤ ε a) (l : Layer α) {M E : ℝ} (hM : 0 ≤ M) (hE : 0 ≤ E) : 0 ≤ error L ε l M E := by
  cases l with
  | lin rows cols w b =>
    show 0 ≤ norm rows cols w * E + dotErr cols (norm rows cols w) (M + E) + (top rows cols w b (M + E) + (2 : ℝ) ^ (-126 : Int)) / 2 ^ 24
    have hΛ : 0 ≤ norm rows cols w := largest_nonneg _ _
    have h8 := dotErr_nonneg (n := cols) hΛ (add_nonneg hM hE)
    have h9 := top_nonneg (rows := rows) (cols := cols) (w := w) (b := b) (add_nonneg hM hE)
    positivity
  | act a => exact add_nonneg (mul_nonneg (hL a) hE) (hε a)

theorem size_nonneg (hS : ∀ a, 0 ≤ S a) {P : ℝ} (hP : 0 ≤ P) : ∀ ls : List (Layer α), 0 ≤ size S P ls
  | [] => hP
  | .lin _ _ _ _ :: ls => mul_nonneg (largest_nonneg _ _) (size_nonneg hS hP ls)
  | .act a :: ls => mul_nonneg (hS a) (size_nonneg hS hP ls)

theorem reach_nonneg {rows : Nat} {w : List F32.W} {Q : ℝ} (hQ : 0 ≤ Q) : 0 ≤ reach rows w Q :=
  add_nonneg (mul_nonneg (Nat.cast_nonneg _) (mul_nonneg (largest_nonneg _ _) hQ)) (by positivity)

theorem off_nonneg (hL : ∀ a, 0 ≤ L a) (hε : ∀ a, 0 ≤ ε a) (hS : ∀ a, 0 ≤ S a) (hκ : ∀ a E, 0 ≤ E → 0 ≤ κ a E) {P H : ℝ} (hP : 0 ≤ P)
    (hH : 0 ≤ H) : ∀ (ls : List (Layer α)) {M E : ℝ}, 0 ≤ M → 0 ≤ E → 0 ≤ off φ L ε S κ P H ls M E
  | [], _, _, _, _ => hH
  | .lin rows cols w b :: ls, M, E, hM, hE => by
    have ih := off_nonneg hL hε hS hκ hP hH ls (range_nonneg (φ := φ) hL (.lin rows cols w b) hM) (error_nonneg hL hε (.lin rows cols w b) hM hE)
    have hs := size_nonneg hS hP ls
    have hr : 0 ≤ reach rows w (size S P ls + off φ L ε S κ P H ls (range φ L (.lin rows cols w b) M) (error L ε (.lin rows cols w b) M E)) :=
      reach_nonneg (add_nonneg hs ih)
    exact add_nonneg (mul_nonneg (largest_nonneg _ _) ih) (mul_nonneg (Nat.cast_nonneg _) (by positivity))
  | .act a :: ls, M, E, hM, hE => by
    have ih := off_nonneg hL hε hS hκ hP hH ls (range_nonneg (φ := φ) hL (.act a) hM) (error_nonneg hL hε (.act a) hM hE)
    have hs := size_nonneg hS hP ls
    have h1 := hS a
    have h2 := hκ a E hE
    refine add_nonneg (add_nonneg (mul_nonneg h1 ih) (mul_nonneg h2 (add_nonneg hs ih))) (div_nonneg (add_nonneg (mul_nonneg (add_nonneg h1 h2) (add_nonneg hs ih)) ?_) ?_) <;> positivity

/-! ### The words -/

/-- **C96: the words.**  The backward pass ends, and whatever it ends with is finite and close to what the chain rule gives: the gradient
of the input, and those of the weights and the bias of every linear layer. -/
theorem back_ok (cpu : Cpu) {F D : α → List F32.W → List F32.W → Prop} {G : List F32.W → List F32.W → Prop} (hF : Good F φ L ε)
    (hD : GoodSlopes D φ φ' S κ safe) {γ : Nat → ℝ} {P H : ℝ} (hP : 0 ≤ P) (hH : 0 ≤ H) (ls : List (Layer α)) :
    ∀ {n : Nat} {x : List F32.W} {u : Nat → ℝ} {M E : ℝ}, 0 ≤ M → 0 ≤ E → Fits φ L ε ls n M E →
    FitsBack φ L ε S κ safe P H ls n u M E → Close n x u M E →
    GoodLoss G (width ls n) (network φ ls u) γ (ranges φ L ls M) (errors φ L ε ls M E) P H →
    (∃ z ps, Back cpu F D G ls x z ps) ∧ ∀ z ps, Back cpu F D G ls x z ps →
      Close n z (adj φ φ' γ ls u) (size S P ls) (off φ L ε S κ P H ls M E) ∧ ps.length = ls.length ∧
      ∀ pre rows cols w b post, ls = pre ++ .lin rows cols w b :: post → ∃ p, ps[pre.length]? = some p ∧
        ParOk rows cols p (adj φ φ' γ post (layer φ (.lin rows cols w b) (network φ pre u))) (network φ pre u) (ranges φ L pre M)
          (errors φ L ε pre M E) (size S P post)
          (off φ L ε S κ P H post (range φ L (.lin rows cols w b) (ranges φ L pre M))
            (error L ε (.lin rows cols w b : Layer α) (ranges φ L pre M) (errors φ L ε pre M E))) := by
  have hL : ∀ a, 0 ≤ L a := fun a => (hF.pos a).1
  have hε : ∀ a, 0 ≤ ε a := fun a => (hF.pos a).2
  have hS : ∀ a, 0 ≤ S a := fun a => (hD.pos a 0 le_rfl).1
  have hκ : ∀ a E, 0 ≤ E → 0 ≤ κ a E := fun a E h => (hD.pos a E h).2
  induction ls with
  | nil =>
    intro n x u M E _ _ _ _ hx hG
    obtain ⟨⟨g, hg⟩, hall⟩ := hG x hx.1 hx.2
    refine ⟨⟨g, [], hg, rfl⟩, ?_⟩
    rintro z ps ⟨hz, rfl⟩
    refine ⟨hall z hz, rfl, fun pre rows cols w b post h => ?_⟩
    simp at h
  | cons l ls ih =>
    intro n x u M E hM hE hfit hback hx hG
    have hM' := range_nonneg (φ := φ) hL l hM
    have hE' := error_nonneg (ε := ε) hL hε l hM hE
    have hsz := size_nonneg hS hP ls
    have hof := off_nonneg (φ := φ) hL hε hS hκ hP hH ls hM' hE'
    cases l with
    | lin rows cols w b =>
      obtain ⟨⟨rfl, h1, h2, h3, h4, h5, h6, h7⟩, hr⟩ := hfit
      obtain ⟨⟨b1, b2, b3⟩, hbr⟩ := hback
      obtain ⟨⟨y, hy⟩, fall⟩ := lin_ok cpu hM hE h1 h2 h3 h4 h5 h6 h7 hx
      constructor
      · obtain ⟨⟨g, qs, hg⟩, gall⟩ := ih hM' hE' hr hbr (fall y hy) hG
        obtain ⟨⟨z, p, hz⟩, -⟩ := lin_back cpu D (b := b) h2 h3 (fun v hv => (h4 v hv).1) b1 hM hE hsz hof h6 b2 b3 hx (gall g qs hg).1
        exact ⟨z, p :: qs, y, g, p, qs, hy, hg, hz, rfl⟩
      · rintro z ps ⟨y, g, p, qs, hy, hg, hz, rfl⟩
        obtain ⟨g1, g2, g3⟩ := (ih hM' hE' hr hbr (fall y hy) hG).2 g qs hg
        obtain ⟨s1, s2⟩ := (lin_back cpu D (b := b) h2 h3 (fun v hv => (h4 v hv).1) b1 hM hE hsz hof h6 b2 b3 hx g1).2 z p hz
        refine ⟨s1, by simp [g2], fun pre rows' cols' w' b' post h => ?_⟩
        cases pre with
        | nil =>
          simp only [List.nil_append, List.cons.injEq, Layer.lin.injEq] at h
          obtain ⟨⟨rfl, rfl, rfl, rfl⟩, rfl⟩ := h
          exact ⟨p, rfl, s2⟩
        | cons k pre =>
          simp only [List.cons_append, List.cons.injEq] at h
          obtain ⟨rfl, rfl⟩ := h
          obtain ⟨q, q1, q2⟩ := g3 pre rows' cols' w' b' post rfl
          exact ⟨q, by simpa using q1, q2⟩
    | act a =>
      obtain ⟨⟨b1, b2⟩, hbr⟩ := hback
      obtain ⟨⟨y, hy⟩, fall⟩ := act_ok hF a hx
      constructor
      · obtain ⟨⟨g, qs, hg⟩, gall⟩ := ih hM' hE' hfit hbr (fall y hy) hG
        obtain ⟨⟨z, p, hz⟩, -⟩ := act_back cpu hD a hE hsz hof b1 b2 hx (gall g qs hg).1
        exact ⟨z, p :: qs, y, g, p, qs, hy, hg, hz, rfl⟩
      · rintro z ps ⟨y, g, p, qs, hy, hg, hz, rfl⟩
        obtain ⟨g1, g2, g3⟩ := (ih hM' hE' hfit hbr (fall y hy) hG).2 g qs hg
        obtain ⟨s1, s2⟩ := (act_back cpu hD a hE hsz hof b1 b2 hx g1).2 z p hz
        refine ⟨s1, by simp [g2], fun pre rows' cols' w' b' post h => ?_⟩
        cases pre with
        | nil => simp at h
        | cons k pre =>
          simp only [List.cons_append, List.cons.injEq] at h
          obtain ⟨rfl, rfl⟩ := h
          obtain ⟨q, q1, q2⟩ := g3 pre rows' cols' w' b' post rfl
          exact ⟨q, by simpa using q1, q2⟩

/-! ### The derivatives -/

/-- **C96: the chain rule.**  What the chain rule gives is the derivative of the loss. -/
theorem adj_grad {D : α → List F32.W → List F32.W → Prop} (hL : ∀ a, 0 ≤ L a) (hε : ∀ a, 0 ≤ ε a) (hD : GoodSlopes D φ φ' S κ safe)
    {J : (Nat → ℝ) → ℝ} {γ : Nat → ℝ} {P H : ℝ} (ls : List (Layer α)) :
    ∀ {n : Nat} {u : Nat → ℝ} {M E : ℝ}, 0 ≤ M → 0 ≤ E → Fits φ L ε ls n M E → FitsBack φ L ε S κ safe P H ls n u M E →
    IsGrad (width ls n) J (network φ ls u) γ → IsGrad n (fun v => J (network φ ls v)) u (adj φ φ' γ ls u) := by
  induction ls with
  | nil => intro n u M E _ _ _ _ hJ; exact hJ
  | cons l ls ih =>
    intro n u M E hM hE hfit hback hJ c c' s hs hc
    have hM' := range_nonneg (φ := φ) hL l hM
    have hE' := error_nonneg (ε := ε) hL hε l hM hE
    cases l with
    | lin rows cols w b =>
      obtain ⟨⟨rfl, -⟩, hr⟩ := hfit
      have key := ih hM' hE' hr hback.2 hJ (fun t => layer φ (.lin rows n w b) (c t))
        (fun i => ∑ k ∈ Finset.range n, at2 n w i k * c' k) s (by rw [hs]) (fun i _ => by
          refine HasDerivAt.add_const _ ?_
          exact HasDerivAt.fun_sum fun k hk => (hc k (Finset.mem_range.mp hk)).const_mul _)
      refine key.congr_deriv ?_
      symm
      simp only [adj, Finset.sum_mul, Finset.mul_sum]
      rw [Finset.sum_comm]
      exact Finset.sum_congr rfl fun i _ => Finset.sum_congr rfl fun k _ => by ring
    | act a =>
      have key := ih hM' hE' hfit hback.2 hJ (fun t => layer φ (.act a) (c t)) (fun i => φ' a (u i) * c' i) s (by rw [hs])
        (fun i hi => by
          have h1 := hD.der a E (u i) hE (hback.1.2 i hi)
          have h2 : c s i = u i := by rw [hs]
          rw [← h2] at h1
          have := h1.comp s (hc i hi)
          rw [h2] at this
          exact this)
      refine key.congr_deriv ?_
      simp only [adj]
      exact Finset.sum_congr rfl fun i _ => by ring

/-- The derivative with respect to one coordinate. -/
theorem grad_at {n : Nat} {J : (Nat → ℝ) → ℝ} {v γ : Nat → ℝ} (h : IsGrad n J v γ) {i : Nat} (hi : i < n) :
    HasDerivAt (fun t => J (Function.update v i t)) (γ i) (v i) := by
  have := h (fun t => Function.update v i t) (fun k => if k = i then 1 else 0) (v i) (by simp) (fun k _ => by
    by_cases hk : k = i
    · subst hk
      simp only [Function.update_self, if_true]
      exact hasDerivAt_id _
    · simp only [Function.update_of_ne hk, if_neg hk]
      exact hasDerivAt_const _ _)
  simpa [hi] using this

theorem weight_grad {rows cols : Nat} {w b : List F32.W} {J : (Nat → ℝ) → ℝ} {v γ : Nat → ℝ} {i j : Nat}
    (h : IsGrad rows J (layer φ (.lin rows cols w b) v) γ) (hi : i < rows) (hj : j < cols) :
    HasDerivAt (fun t => J (nudged rows cols w b i j v t)) (γ i * v j) 0 := by
  have := h (fun t => nudged rows cols w b i j v t) (fun r => if r = i then v j else 0) 0 (by
    funext r
    simp [nudged, layer]) (fun r _ => by
      unfold nudged
      refine HasDerivAt.add_const _ ?_
      have e : (if r = i then v j else 0) = ∑ k ∈ Finset.range cols, (if r = i ∧ k = j then 1 else 0) * v k := by
        by_cases hr : r = i
        · simp [hr, hj]
        · simp [hr]
      rw [e]
      refine HasDerivAt.fun_sum fun k _ => HasDerivAt.mul_const ?_ _
      by_cases hk : r = i ∧ k = j
      · simp only [hk, and_self, if_true]
        exact (hasDerivAt_id _).const_add _
      · simp only [hk, if_false]
        exact hasDerivAt_const _ _)
  simpa [hi] using this

theorem bias_grad {rows cols : Nat} {w b : List F32.W} {J : (Nat → ℝ) → ℝ} {v γ : Nat → ℝ} {i : Nat}
    (h : IsGrad rows J (layer φ (.lin rows cols w b) v) γ) (hi : i < rows) :
    HasDerivAt (fun t => J (shifted rows cols w b i v t)) (γ i) 0 := by
  have := h (fun t => shifted rows cols w b i v t) (fun r => if r = i then 1 else 0) 0 (by
    funext r
    simp [shifted, layer]) (fun r _ => by
      unfold shifted
      refine HasDerivAt.const_add _ ?_
      refine HasDerivAt.const_add _ ?_
      by_cases hr : r = i
      · simp only [hr, if_true]; exact hasDerivAt_id _
      · simp only [hr, if_false]; exact hasDerivAt_const _ _)
  simpa [hi] using this

theorem network_append (pre ls : List (Layer α)) : ∀ u, network φ (pre ++ ls) u = network φ ls (network φ pre u) := by
  induction pre with
  | nil => intro u; rfl
  | cons l pre ih => intro u; exact ih _

theorem fits_append (pre : List (Layer α)) {ls : List (Layer α)} {P H : ℝ} (hL : ∀ a, 0 ≤ L a) (hε : ∀ a, 0 ≤ ε a) :
    ∀ {n : Nat} {u : Nat → ℝ} {M E : ℝ}, 0 ≤ M → 0 ≤ E →
    Fits φ L ε (pre ++ ls) n M E → FitsBack φ L ε S κ safe P H (pre ++ ls) n u M E →
    0 ≤ ranges φ L pre M ∧ 0 ≤ errors φ L ε pre M E ∧ width (pre ++ ls) n = width ls (width pre n) ∧
    Fits φ L ε ls (width pre n) (ranges φ L pre M) (errors φ L ε pre M E) ∧
    FitsBack φ L ε S κ safe P H ls (width pre n) (network φ pre u) (ranges φ L pre M) (errors φ L ε pre M E) := by
  induction pre with
  | nil => intro n u M E hM hE h1 h2; exact ⟨hM, hE, rfl, h1, h2⟩
  | cons l pre ih =>
    intro n u M E hM hE h1 h2
    have hM' := range_nonneg (φ := φ) hL l hM
    have hE' := error_nonneg (ε := ε) hL hε l hM hE
    cases l with
    | lin rows cols w b => exact ih hM' hE' h1.2 h2.2
    | act a => exact ih hM' hE' h1 h2.2

/-- **C96.**  The backward pass ends.  Every gradient it ends with is finite and close to the derivative of the loss `J` of the network of
real numbers: with respect to every input, every weight and every bias. -/
theorem backward_close (cpu : Cpu) {F D : α → List F32.W → List F32.W → Prop} {G : List F32.W → List F32.W → Prop} (hF : Good F φ L ε)
    (hD : GoodSlopes D φ φ' S κ safe) {J : (Nat → ℝ) → ℝ} {γ : Nat → ℝ} {P H : ℝ} (hP : 0 ≤ P) (hH : 0 ≤ H) {ls : List (Layer α)}
    {x : List F32.W} {u : Nat → ℝ} {M E : ℝ} (hM : 0 ≤ M) (hE : 0 ≤ E) (hfit : Fits φ L ε ls x.length M E)
    (hback : FitsBack φ L ε S κ safe P H ls x.length u M E)
    (hx : ∀ i < x.length, F32.Finite (x.getD i 0) ∧ |val (x.getD i 0) - u i| ≤ E ∧ |u i| ≤ M)
    (hG : GoodLoss G (width ls x.length) (network φ ls u) γ (ranges φ L ls M) (errors φ L ε ls M E) P H)
    (hJ : IsGrad (width ls x.length) J (network φ ls u) γ) :
    (∃ z ps, Back cpu F D G ls x z ps) ∧ ∀ z ps, Back cpu F D G ls x z ps →
      (z.length = x.length ∧ ∀ i < x.length, F32.Finite (z.getD i 0) ∧
        ∃ δ, HasDerivAt (fun t => J (network φ ls (Function.update u i t))) δ (u i) ∧ |val (z.getD i 0) - δ| ≤ off φ L ε S κ P H ls M E) ∧
      ∀ pre rows cols w b post, ls = pre ++ .lin rows cols w b :: post → ∃ gw gb, ps[pre.length]? = some (some (gw, gb)) ∧
        gw.length = rows * cols ∧ gb.length = rows ∧
        (∀ i < rows, ∀ j < cols, F32.Finite (gw.getD (i * cols + j) 0) ∧
          ∃ δ, HasDerivAt (fun t => J (network φ post (nudged rows cols w b i j (network φ pre u) t))) δ 0 ∧
            |val (gw.getD (i * cols + j) 0) - δ| ≤ weightErr (ranges φ L pre M) (errors φ L ε pre M E) (size S P post)
              (off φ L ε S κ P H post (range φ L (.lin rows cols w b) (ranges φ L pre M))
                (error L ε (.lin rows cols w b : Layer α) (ranges φ L pre M) (errors φ L ε pre M E)))) ∧
        ∀ i < rows, F32.Finite (gb.getD i 0) ∧
          ∃ δ, HasDerivAt (fun t => J (network φ post (shifted rows cols w b i (network φ pre u) t))) δ 0 ∧
            |val (gb.getD i 0) - δ| ≤ off φ L ε S κ P H post (range φ L (.lin rows cols w b) (ranges φ L pre M))
              (error L ε (.lin rows cols w b : Layer α) (ranges φ L pre M) (errors φ L ε pre M E)) := by
  have hL : ∀ a, 0 ≤ L a := fun a => (hF.pos a).1
  have hε : ∀ a, 0 ≤ ε a := fun a => (hF.pos a).2
  obtain ⟨h1, h2⟩ := back_ok cpu (G := G) hF hD hP hH ls hM hE hfit hback ⟨rfl, hx⟩ hG
  refine ⟨h1, fun z ps hz => ?_⟩
  obtain ⟨⟨k1, k2⟩, -, k4⟩ := h2 z ps hz
  have hin := adj_grad hL hε hD ls hM hE hfit hback hJ
  refine ⟨⟨k1, fun i hi => ⟨(k2 i hi).1, _, grad_at hin hi, (k2 i hi).2.1⟩⟩, fun pre rows cols w b post h => ?_⟩
  obtain ⟨p, p1, gw, gb, rfl, l1, l2, w1, w2, -⟩ := k4 pre rows cols w b post h
  subst h
  obtain ⟨hM1, hE1, e1, f1, f2⟩ := fits_append pre hL hε hM hE hfit hback
  rw [e1, network_append] at hJ
  have hp : IsGrad rows (fun v => J (network φ post v)) (layer φ (.lin rows cols w b) (network φ pre u))
      (adj φ φ' γ post (layer φ (.lin rows cols w b) (network φ pre u))) :=
    adj_grad hL hε hD post (range_nonneg hL _ hM1) (error_nonneg hL hε _ hM1 hE1) f1.2 f2.2 hJ
  exact ⟨gw, gb, p1, l1, l2, fun i hi j hj => ⟨(w1 i hi j hj).1, _, weight_grad hp hi hj, (w1 i hi j hj).2⟩,
    fun i hi => ⟨(w2 i hi).1, _, bias_grad hp hi, (w2 i hi).2⟩⟩

end Verif.Back32
