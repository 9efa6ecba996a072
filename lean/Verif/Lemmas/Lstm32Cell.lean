import Verif.Lemmas.Lstm32Gate

set_option autoImplicit false
set_option linter.unusedSimpArgs false

/-!
# The backward pass of the cell (C102)
-/

namespace Verif.Lstm32
open Verif.F32 Verif.Asm Verif.Spec Verif.Spec.Kernels Verif.Net32 Verif.Rec32 Verif.Att32 Verif.Back32 Verif.Srn32 Verif.Spec.Net32 Verif.Spec.Rec32
  Verif.Spec.Back32 Verif.Spec.Srn32 Verif.Spec.Train32 Verif.Spec.Lstm32

variable {n m : Nat} {M : Machine} {sl : Slopes} {τ : Tol} {P H : ℝ} {p : Later}

/-- The errors of the forward pass are not negative, and small. -/
structure TolOk (τ : Tol) : Prop where
  ev0 : ∀ q, 0 ≤ τ.ev q
  ka0 : ∀ q, 0 ≤ τ.ka q
  ec0 : 0 ≤ τ.ec
  C0 : 0 ≤ τ.C
  ev1 : ∀ q, τ.ev q ≤ 1
  ka1 : ∀ q, τ.ka q ≤ 1
  ec1 : slopeErr .tanh τ.ec ≤ 1
  C1 : τ.C ≤ 2 ^ 20

structure LaterOk (p : Later) : Prop where
  y1 : ∀ q, 0 ≤ (p.y q).1
  y2 : ∀ q, 0 ≤ (p.y q).2
  c1 : 0 ≤ p.c.1
  c2 : 0 ≤ p.c.2

theorem sumG_nonneg {f : Gt → ℝ} (h : ∀ q, 0 ≤ f q) : 0 ≤ sumG f := by
  have := h .inp; have := h .out; have := h .forget; have := h .cand
  unfold sumG; linarith

theorem slopeErr_tanh (h : 0 ≤ τ.ec) : 0 ≤ slopeErr .tanh τ.ec := by
  show 0 ≤ 2 * τ.ec + 1 / 2 ^ 23
  positivity

/-- The sizes and the errors are not negative. -/
structure Signs (τ : Tol) (P H : ℝ) (p : Later) : Prop where
  yT : 0 ≤ yTop P p
  yO : 0 ≤ yOff P H p
  thr : 0 ≤ thruOff τ P H p
  tO : 0 ≤ tOff τ P H p
  cT : 0 ≤ cellTop P p
  cO : 0 ≤ cellOff τ P H p
  vT : ∀ q, 0 ≤ valTop τ P p q
  vO : ∀ q, 0 ≤ valOff τ P H p q
  aT : ∀ q, 0 ≤ argTop τ P p q
  aO : ∀ q, 0 ≤ argOffL τ P H p q

theorem steepest_nonneg (a : Act) : 0 ≤ steepest a := by cases a <;> simp [steepest]

theorem signs (hτ : TolOk τ) (hP : 0 ≤ P) (hH : 0 ≤ H) (hp : LaterOk p) : Signs τ P H p := by
  have yT : 0 ≤ yTop P p := add_nonneg hP (sumG_nonneg hp.y1)
  have yO : 0 ≤ yOff P H p := by
    have h1 := sumG_nonneg hp.y2
    have h2 : 0 ≤ sumG fun q => (p.y q).1 + (p.y q).2 := sumG_nonneg fun q => add_nonneg (hp.y1 q) (hp.y2 q)
    unfold yOff; positivity
  have hs := slopeErr_tanh hτ.ec0
  have thr : 0 ≤ thruOff τ P H p := mulOff_nonneg zero_le_one (hτ.ev0 _) yT yO
  have tO : 0 ≤ tOff τ P H p := mulOff_nonneg zero_le_one hs yT thr
  have cT : 0 ≤ cellTop P p := add_nonneg yT hp.c1
  have cO : 0 ≤ cellOff τ P H p := by
    have h1 := hp.c1
    have h2 := hp.c2
    unfold cellOff; positivity
  have vT : ∀ q, 0 ≤ valTop τ P p q := by
    intro q
    cases q
    · exact cT
    · exact yT
    · exact mul_nonneg hτ.C0 cT
    · exact cT
  have vO : ∀ q, 0 ≤ valOff τ P H p q := by
    have := hτ.ec0
    intro q
    cases q
    · exact mulOff_nonneg zero_le_one (hτ.ev0 _) cT cO
    · exact mulOff_nonneg zero_le_one (by positivity) yT yO
    · exact mulOff_nonneg hτ.C0 hτ.ec0 cT cO
    · exact mulOff_nonneg zero_le_one (hτ.ev0 _) cT cO
  exact ⟨yT, yO, thr, tO, cT, cO, vT, vO, fun q => mul_nonneg (steepest_nonneg _) (vT q), fun q => mulOff_nonneg (steepest_nonneg _) (hτ.ka0 q) (vT q) (vO q)⟩

theorem mulTOff_nonneg {n cols : Nat} {w : List F32.W} {S D : ℝ} (hS : 0 ≤ S) (hD : 0 ≤ D) : 0 ≤ mulTOff n cols w S D := by
  have h4 : 0 ≤ colNorm n cols w := largest_nonneg _ _
  have h5 : 0 ≤ most w := largest_nonneg _ _
  unfold mulTOff reach
  positivity

theorem later_ok (g : Lstm) (hτ : TolOk τ) (hP : 0 ≤ P) (hH : 0 ≤ H) : ∀ r, LaterOk (laterL n g τ P H r)
  | 0 => ⟨fun _ => le_rfl, fun _ => le_rfl, le_rfl, le_rfl⟩
  | r + 1 => by
    have s := signs hτ hP hH (later_ok g hτ hP hH r)
    exact ⟨fun q => mul_nonneg (largest_nonneg _ _) (s.aT q), fun q => mulTOff_nonneg (s.aT q) (s.aO q), s.cT, mulOff_nonneg zero_le_one (hτ.ev0 _) s.cT s.cO⟩

/-- The hyperbolic tangent of a cell and its slope. -/
theorem tanh_close (hM : GoodLib M.lib) {x : List F32.W} {u : Nat → ℝ} {A E : ℝ} (h : Close n x u A E) :
    Close n (x.map M.lib.tanh) (fun i => Real.tanh (u i)) 1 (1 / 2 ^ 23 + E) := by
  have hF := acts_good M.cpu M.lane hM
  have hfin : ∀ v ∈ x, F32.Finite v := fun v hv => (close_mem h v hv).1
  obtain ⟨n1, n2⟩ := hF.near .tanh x _ hfin rfl
  refine ⟨n1.trans h.1, fun i hi => ?_⟩
  obtain ⟨f, e⟩ := n2 i (by rw [h.1]; exact hi)
  refine ⟨f, ?_, tanh_unit _⟩
  have e : |val ((x.map M.lib.tanh).getD i 0) - Real.tanh (val (x.getD i 0))| ≤ 1 / 2 ^ 23 := e
  have l := tanh_lip (val (x.getD i 0)) (u i)
  rw [one_mul] at l
  exact (abs_sub_le _ _ _).trans (add_le_add e (l.trans (h.2 i hi).2.1))

theorem tanh_slope_close (hM : GoodLib M.lib) (hS : GoodSlopeLib sl) {x : List F32.W} {u : Nat → ℝ} {A E : ℝ} (h : Close n x u A E) :
    Close n (x.map sl.tanh) (fun i => 1 - Real.tanh (u i) ^ 2) 1 (slopeErr .tanh E) := by
  have hF := slopes_good M.cpu M.lane hM hS
  have hfin : ∀ v ∈ x, F32.Finite v := fun v hv => (close_mem h v hv).1
  obtain ⟨n1, n2⟩ := hF.near .tanh x _ hfin rfl
  refine ⟨n1.trans h.1, fun i hi => ?_⟩
  obtain ⟨f, e⟩ := n2 i (by rw [h.1]; exact hi)
  exact ⟨f, e E (u i) (h.2 i hi).2.1 trivial, hF.size .tanh (u i)⟩

theorem small_prod {A E B : ℝ} (hE : A + E ≤ 2 ^ 21) (hB0 : 0 ≤ B) (hB : B ≤ 2 ^ 100) : (A + E) * B ≤ 2 ^ 121 := by
  calc (A + E) * B ≤ 2 ^ 21 * B := mul_le_mul_of_nonneg_right hE hB0
    _ ≤ 2 ^ 21 * 2 ^ 100 := mul_le_mul_of_nonneg_left hB (by positivity)
    _ = 2 ^ 121 := by norm_num

/-- The gradient of the value of a gate, from those of the output `Γ` and of the cell `χ`. -/
noncomputable def share (V : Gt → Nat → ℝ) (cE cP Γ χ : Nat → ℝ) : Gt → Nat → ℝ
  | .inp => fun i => V .cand i * χ i
  | .out => fun i => Real.tanh (cE i) * Γ i
  | .forget => fun i => cP i * χ i
  | .cand => fun i => V .inp i * χ i

/-- `Backward` of the operations behind the gates. -/
theorem cell_back (hM : GoodLib M.lib) (hS : GoodSlopeLib sl) (hτ : TolOk τ) (hP : 0 ≤ P) (hH : 0 ≤ H) (hp : LaterOk p)
    (f1 : yTop P p + yOff P H p ≤ 2 ^ 50) (f2 : cellTop P p + cellOff τ P H p ≤ 2 ^ 50)
    {prev : Option Cell} {v : Gt → List F32.W} {s : Cell} {V : Gt → Nat → ℝ} {cE cP Γ β : Nat → ℝ} {Mc : ℝ}
    (hv : ∀ q, Close n (v q) (V q) 1 (τ.ev q)) (hc : Close n s.cell cE Mc τ.ec) (hcp : ∀ sp, prev = some sp → Close n sp.cell cP τ.C τ.ec)
    {gy : List F32.W} (hgy : Close n gy Γ (yTop P p) (yOff P H p)) {hc' : Option (List F32.W)} (hhc : OkG n hc' β p.c.1 p.c.2) :
    (∃ gc d zc, CellBack M sl prev v s gy hc' gc d zc) ∧ ∀ gc d zc, CellBack M sl prev v s gy hc' gc d zc →
      (∀ q, ¬(prev.isNone = true ∧ q = .forget) →
        Close n (d q) (share V cE cP Γ (fun i => (1 - Real.tanh (cE i) ^ 2) * (V .out i * Γ i) + β i) q) (valTop τ P p q) (valOff τ P H p q)) ∧
      ∀ sp, prev = some sp → ∃ w, zc = some w ∧
        Close n w (fun i => V .forget i * ((1 - Real.tanh (cE i) ^ 2) * (V .out i * Γ i) + β i)) (cellTop P p) (mulOff 1 (τ.ev .forget) (cellTop P p) (cellOff τ P H p)) := by
  obtain ⟨yT, yO, thr, tO, cT, cO, vT, vO, aT, aO⟩ := signs hτ hP hH hp
  have hs0 := slopeErr_tanh hτ.ec0
  have hp1 := hp.c1
  have hp2 := hp.c2
  have h100 : (2 : ℝ) ^ 50 ≤ 2 ^ 100 := by norm_num
  have h21 : (1 : ℝ) + 1 ≤ 2 ^ 21 := by norm_num
  have hec : τ.ec ≤ 1 := by
    have := hτ.ec1
    have e : slopeErr .tanh τ.ec = 2 * τ.ec + 1 / 2 ^ 23 := rfl
    rw [e] at this
    have := hτ.ec0
    have : (0 : ℝ) < 1 / 2 ^ 23 := by positivity
    linarith
  have hec' : 1 / 2 ^ 23 + τ.ec ≤ 1 := by
    have := hτ.ec1
    have e : slopeErr .tanh τ.ec = 2 * τ.ec + 1 / 2 ^ 23 := rfl
    rw [e] at this
    have := hτ.ec0
    linarith
  have t1 := tanh_close hM hc
  have t2 := tanh_slope_close hM hS hc
  -- what the cell error contains
  have le1 : 1 * thruOff τ P H p ≤ tOff τ P H p := le_mulOff zero_le_one hs0 yT thr
  have le2 : yTop P p + tOff τ P H p + (p.c.1 + p.c.2) ≤ cellTop P p + cellOff τ P H p := by
    unfold cellTop cellOff
    have : 0 ≤ 4 * (yTop P p + tOff τ P H p + (p.c.1 + p.c.2)) / 2 ^ 24 := by positivity
    linarith
  obtain ⟨⟨dO, hdO⟩, oAll⟩ := prod_close zero_le_one (by have := hτ.ec0; positivity) (small_prod (by linarith) (add_nonneg yT yO) (f1.trans h100)) t1 hgy
  obtain ⟨⟨gt0, hgt0⟩, gtAll⟩ := prod_close zero_le_one (hτ.ev0 .out) (small_prod (by linarith [hτ.ev1 .out]) (add_nonneg yT yO) (f1.trans h100)) (hv .out) hgy
  have gctB := fun gt (h : Close n gt (fun i => V .out i * Γ i) (1 * yTop P p) (mulOff 1 (τ.ev .out) (yTop P p) (yOff P H p))) =>
    prod_close zero_le_one hs0 (small_prod (by linarith [hτ.ec1]) (add_nonneg yT thr) (by linarith)) t2
      (close_mono h (fun _ _ => rfl) (le_of_eq (one_mul _)) (le_refl (thruOff τ P H p)))
  have gathB : ∀ gct, Close n gct (fun i => (1 - Real.tanh (cE i) ^ 2) * (V .out i * Γ i)) (1 * yTop P p) (tOff τ P H p) →
      (∃ gc, Gather M.cpu (gct :: hc'.toList) gc) ∧ ∀ gc, Gather M.cpu (gct :: hc'.toList) gc → ∃ q, gc = some q ∧
        Close n q (fun i => (1 - Real.tanh (cE i) ^ 2) * (V .out i * Γ i) + β i) (cellTop P p) (cellOff τ P H p) := by
    intro gct hgct
    have el : [some gct, hc'].filterMap id = gct :: hc'.toList := by cases hc' <;> rfl
    have hf : List.Forall₂ (ItOk n) [some gct, hc'] [⟨fun i => (1 - Real.tanh (cE i) ^ 2) * (V .out i * Γ i), yTop P p, tOff τ P H p⟩, ⟨β, p.c.1, p.c.2⟩] :=
      .cons ⟨close_mono hgct (fun _ _ => rfl) (le_of_eq (one_mul _)) le_rfl, yT, tO⟩ (.cons ⟨hhc, hp1, hp2⟩ .nil)
    have hsum : (([⟨fun i => (1 - Real.tanh (cE i) ^ 2) * (V .out i * Γ i), yTop P p, tOff τ P H p⟩, ⟨β, p.c.1, p.c.2⟩] : List It).map fun t => t.P + t.H).sum =
        yTop P p + tOff τ P H p + (p.c.1 + p.c.2) := by simp
    have h115 : (2 : ℝ) ^ 50 ≤ 2 ^ 115 := by norm_num
    obtain ⟨g1, g2⟩ := gather_items M.cpu hf (N := 2) rfl (by norm_num) (by rw [hsum]; linarith) ⟨gct, by simp⟩
    rw [el] at g1 g2
    refine ⟨g1, fun gc hgc => ?_⟩
    obtain ⟨q, rfl, hq⟩ := g2 gc hgc
    refine ⟨q, rfl, close_mono hq (fun i _ => by simp) (by simp [cellTop]) ?_⟩
    rw [hsum]
    unfold cellOff
    have e4 : ((2 : ℕ) : ℝ) * ((2 : ℕ) : ℝ) = 4 := by norm_num
    rw [e4]
    simp
  have prodC := fun {A E : ℝ} {u : Nat → ℝ} {a gc : List F32.W} (hA : 0 ≤ A) (hE : 0 ≤ E) (hAE : A + E ≤ 2 ^ 21) (ha : Close n a u A E)
      (hgc : Close n gc (fun i => (1 - Real.tanh (cE i) ^ 2) * (V .out i * Γ i) + β i) (cellTop P p) (cellOff τ P H p)) =>
    prod_close hA hE (small_prod hAE (add_nonneg cT cO) (f2.trans h100)) ha hgc
  have hCe : τ.C + τ.ec ≤ 2 ^ 21 := by
    have := hτ.C1
    have e : (2 : ℝ) ^ 21 = 2 ^ 20 + 2 ^ 20 := by norm_num
    have : (1 : ℝ) ≤ 2 ^ 20 := by norm_num
    linarith
  have hev : ∀ q, 1 + τ.ev q ≤ 2 ^ 21 := fun q => by linarith [hτ.ev1 q]
  refine ⟨?_, ?_⟩
  · obtain ⟨gct, hgct⟩ := (gctB gt0 (gtAll gt0 hgt0)).1
    have cg := (gctB gt0 (gtAll gt0 hgt0)).2 gct hgct
    obtain ⟨⟨gc', hgc'⟩, gAll⟩ := gathB gct cg
    obtain ⟨gc, rfl, cgc⟩ := gAll gc' hgc'
    obtain ⟨dI, hdI⟩ := (prodC zero_le_one (hτ.ev0 .cand) (hev _) (hv .cand) cgc).1
    obtain ⟨dC, hdC⟩ := (prodC zero_le_one (hτ.ev0 .inp) (hev _) (hv .inp) cgc).1
    cases prev with
    | none => exact ⟨gc, fun | .inp => dI | .out => dO | .forget => [] | .cand => dC, none, gt0, gct, hdO, hgt0, hgct, hgc', hdI, hdC, rfl⟩
    | some sp =>
      obtain ⟨dF, hdF⟩ := (prodC hτ.C0 hτ.ec0 hCe (hcp sp rfl) cgc).1
      obtain ⟨w, hw⟩ := (prodC zero_le_one (hτ.ev0 .forget) (hev _) (hv .forget) cgc).1
      exact ⟨gc, fun | .inp => dI | .out => dO | .forget => dF | .cand => dC, some w, gt0, gct, hdO, hgt0, hgct, hgc', hdI, hdC, hdF, w, hw, rfl⟩
  · rintro gc d zc ⟨gt, gct, h1, h2, h3, h4, h5, h6, h7⟩
    have cg := (gctB gt (gtAll gt h2)).2 gct h3
    obtain ⟨gc', he, cgc⟩ := (gathB gct cg).2 _ h4
    obtain rfl := Option.some.inj he
    refine ⟨fun q hq => ?_, fun sp hsp => ?_⟩
    · cases q with
      | inp => exact close_mono ((prodC zero_le_one (hτ.ev0 .cand) (hev _) (hv .cand) cgc).2 _ h5) (fun _ _ => rfl) (le_of_eq (one_mul _)) le_rfl
      | out => exact close_mono (oAll _ h1) (fun _ _ => rfl) (le_of_eq (one_mul _)) le_rfl
      | forget =>
        cases prev with
        | none => simp at hq
        | some sp => exact (prodC hτ.C0 hτ.ec0 hCe (hcp sp rfl) cgc).2 _ h7.1
      | cand => exact close_mono ((prodC zero_le_one (hτ.ev0 .inp) (hev _) (hv .inp) cgc).2 _ h6) (fun _ _ => rfl) (le_of_eq (one_mul _)) le_rfl
    · subst hsp
      obtain ⟨-, w, hw, rfl⟩ := h7
      exact ⟨w, rfl, close_mono ((prodC zero_le_one (hτ.ev0 .forget) (hev _) (hv .forget) cgc).2 _ hw) (fun _ _ => rfl) (le_of_eq (one_mul _)) le_rfl⟩

end Verif.Lstm32
