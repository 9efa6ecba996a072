import Verif.Model.ClipStep32
import Verif.Spec.ClipStep32
import Verif.Props.Clip32
import Verif.Lemmas.Norm32Sum

set_option autoImplicit false
set_option linter.unusedSimpArgs false

/-!
# C107: with clipping the parameters stay bounded

Plain SGD on clipped gradients: whatever finite gradients there are, also some near the largest float32, a step moves no parameter by more
than the learning rate times `MaxNorm`, up to rounding.
-/

namespace Verif.ClipStep32
open Verif.F32 Verif.Asm Verif.Clip32 Verif.Spec.Clip32 Verif.Spec.ClipStep32 Verif.Opt32 Verif.Adam32 Verif.Att32

theorem elem {lr a g : F32.W} {B G : ℝ} (hlr : F32.Finite lr) (l0 : 0 ≤ val lr) (l1 : val lr ≤ 1) (ha : F32.Finite a) (hB : |val a| ≤ B)
    (hB2 : B ≤ 2 ^ 100) (hg : F32.Finite g) (hG : |val g| ≤ G) (hG2 : G ≤ 2 ^ 62) :
    Near (val lr * G * (1 + 1 / 2 ^ 22) + (2 : ℝ) ^ (-148 : Int) + B / 2 ^ 23) a (addIeee a (F32.flip (mulIeee g lr))) := by
  have hG0 : 0 ≤ G := (abs_nonneg _).trans hG
  have hB0 : 0 ≤ B := (abs_nonneg _).trans hB
  have e1 : |val g * val lr| ≤ val lr * G := by
    rw [abs_mul, abs_of_nonneg l0, mul_comm]; exact mul_le_mul_of_nonneg_left hG l0
  have e2 : val lr * G ≤ G := by nlinarith
  have hf : F32.Finite (mulIeee g lr) := mul_fin hg hlr (big_fin (e1.trans (e2.trans (hG2.trans (by norm_num)))))
  have hr := mul_rel hf
  have p0 : (0 : ℝ) < (2 : ℝ) ^ (-150 : Int) := by positivity
  have p1 : (2 : ℝ) ^ (-148 : Int) = 4 * (2 : ℝ) ^ (-150 : Int) := by
    rw [show (-148 : Int) = 2 + -150 by norm_num, zpow_add₀ (by norm_num)]; norm_num
  have p2 : (2 : ℝ) ^ (-150 : Int) ≤ 1 := zpow_le_one_of_nonpos₀ (by norm_num) (by norm_num)
  have e3 : |val (mulIeee g lr)| ≤ val lr * G + val lr * G / 2 ^ 24 + (2 : ℝ) ^ (-150 : Int) := by
    have := abs_sub_abs_le_abs_sub (val (mulIeee g lr)) (val g * val lr)
    have q : |val g * val lr| / 2 ^ 24 ≤ val lr * G / 2 ^ 24 := div_le_div_of_nonneg_right e1 (by positivity)
    linarith
  have h0 : 0 ≤ val lr * G := mul_nonneg l0 hG0
  rw [p1]
  generalize (2 : ℝ) ^ (-150 : Int) = E at *
  generalize val lr * G = A at *
  set d := mulIeee g lr with hd
  have e4 : |val a + val (F32.flip d)| ≤ B + (A + A / 2 ^ 24 + E) := by
    refine (abs_add_le _ _).trans ?_
    rw [flip_val, abs_neg]; linarith
  have hs : F32.Finite (addIeee a (F32.flip d)) := add_fin ha (flip_finite hf) (by
    apply big_fin
    refine e4.trans ?_
    norm_num at *
    linarith)
  refine ⟨hs, ?_⟩
  have h5 := Norm32.add_pure hs
  have h6 : |val a + val (F32.flip d)| / 2 ^ 24 ≤ (B + (A + A / 2 ^ 24 + E)) / 2 ^ 24 := div_le_div_of_nonneg_right e4 (by positivity)
  rw [flip_val] at h5 h6
  have h7 := abs_sub_le (val (addIeee a (F32.flip d))) (val a + -val d) (val a)
  rw [show val a + -val d - val a = -val d by ring, abs_neg] at h7
  norm_num at *
  linarith

theorem zip_near {R : F32.W → F32.W → Prop} {P Q : F32.W → Prop} {f : F32.W → F32.W → F32.W} (h : ∀ a b, P a → Q b → R a (f a b)) :
    ∀ w g : List F32.W, w.length = g.length → (∀ a ∈ w, P a) → (∀ b ∈ g, Q b) → List.Forall₂ R w (List.zipWith f w g) := by
  intro w
  induction w with
  | nil => intro g _ _ _; exact .nil
  | cons a w ih =>
    intro g hl hP hQ
    cases g with
    | nil => cases hl
    | cons b g =>
      exact .cons (h a b (hP a (by simp)) (hQ b (by simp))) (ih g (by simpa using hl) (fun x hx => hP x (by simp [hx])) (fun x hx => hQ x (by simp [hx])))

theorem sgd_iff (cpu : Cpu) (lr : F32.W) (w g w' : List F32.W) :
    (∃ v v', Sgd cpu .plain lr w g v w' v') ↔ w.length = g.length ∧ w' = List.zipWith (fun a x => addIeee a (F32.flip (mulIeee x lr))) w g := by
  constructor
  · rintro ⟨v, v', d, ⟨_, h1, rfl⟩, h2⟩
    rw [scale_iff] at h1
    rw [subIn_iff, h1] at h2
    obtain ⟨h3, rfl⟩ := h2
    exact ⟨by simpa using h3, by rw [List.zipWith_map_right]⟩
  · rintro ⟨hl, rfl⟩
    refine ⟨g, _, _, ⟨rfl, (scale_iff _ _ _ _).mpr rfl, rfl⟩, (subIn_iff _ _ _ _).mpr ⟨by simpa using hl, ?_⟩⟩
    rw [List.zipWith_map_right]

theorem update_near (cpu : Cpu) {lr : F32.W} {R : F32.W → F32.W → Prop} {P Q : F32.W → Prop}
    (h : ∀ a b, P a → Q b → R a (addIeee a (F32.flip (mulIeee b lr)))) : ∀ ws gs : List (List F32.W),
    List.Forall₂ (fun w g => w.length = g.length) ws gs → (∀ w ∈ ws, ∀ a ∈ w, P a) → (∀ g ∈ gs, ∀ b ∈ g, Q b) →
    (∃ ws', Update cpu lr ws gs ws') ∧ ∀ ws', Update cpu lr ws gs ws' → List.Forall₂ (List.Forall₂ R) ws ws' := by
  intro ws gs hl
  induction hl with
  | nil => intro _ _; exact ⟨⟨[], rfl⟩, fun ws' h => by rw [show ws' = [] from h]; exact .nil⟩
  | @cons w g ws gs hwg _ ih =>
    intro hP hQ
    obtain ⟨⟨r, hr⟩, i2⟩ := ih (fun x hx => hP x (by simp [hx])) (fun x hx => hQ x (by simp [hx]))
    constructor
    · obtain ⟨v, v', hs⟩ := (sgd_iff cpu lr w g _).mpr ⟨hwg, rfl⟩
      exact ⟨_ :: r, v, _, v', r, hs, hr, rfl⟩
    · rintro ws' ⟨v, w', v', r, hs, hr, rfl⟩
      obtain ⟨-, rfl⟩ := (sgd_iff cpu lr w g w').mp ⟨v, v', hs⟩
      exact .cons (zip_near h w g hwg (hP w (by simp)) (hQ g (by simp))) (i2 r hr)

/-- An update is one only when every parameter has a gradient of its size. -/
theorem update_sizes (cpu : Cpu) (lr : F32.W) : ∀ ws gs ws' : List (List F32.W), Update cpu lr ws gs ws' →
    List.Forall₂ (fun w g => w.length = g.length) ws gs := by
  intro ws
  induction ws with
  | nil =>
    intro gs ws' h
    cases gs with
    | nil => exact .nil
    | cons g gs => exact h.elim
  | cons w ws ih =>
    intro gs ws' h
    cases gs with
    | nil => exact h.elim
    | cons g gs =>
      obtain ⟨v, w', v', r, hs, hr, -⟩ := h
      exact .cons ((sgd_iff cpu lr w g w').mp ⟨v, v', hs⟩).1 (ih gs r hr)

/-- Two parameters and one gradient: no update. -/
example (cpu : Cpu) (ws' : List (List F32.W)) : ¬ Update cpu 0x3f800000 [[0x3f800000], [0x40000000]] [[0x3f800000]] ws' := by
  intro h
  have := (update_sizes cpu _ _ _ _ h).length_eq
  simp at this

theorem forall₂_comp {α : Type} {R S T : α → α → Prop} (h : ∀ a b c, R a b → S b c → T a c) :
    ∀ {x y z : List α}, List.Forall₂ R x y → List.Forall₂ S y z → List.Forall₂ T x z := by
  intro x y z h1
  induction h1 generalizing z with
  | nil => intro h2; cases h2; exact .nil
  | cons ha _ ih => intro h2; cases h2 with | cons hb h2 => exact .cons (h _ _ _ ha hb) (ih h2)

theorem forall₂_right {α : Type} {R : α → α → Prop} {P Q : α → Prop} (h : ∀ a b, P a → R a b → Q b) :
    ∀ {x y : List α}, List.Forall₂ R x y → (∀ a ∈ x, P a) → ∀ b ∈ y, Q b := by
  intro x y h1
  induction h1 with
  | nil => intro _ b hb; cases hb
  | cons ha _ ih =>
    intro hP b hb
    rcases List.mem_cons.mp hb with rfl | hb
    · exact h _ _ (hP _ (by simp)) ha
    · exact ih (fun a ha => hP a (by simp [ha])) b hb

theorem forall₂_len {R : F32.W → F32.W → Prop} {x y : List (List F32.W)} (h : List.Forall₂ (List.Forall₂ R) x y) :
    List.Forall₂ (fun a b => a.length = b.length) x y := h.imp fun _ _ k => k.length_eq

theorem len_trans {x y z : List (List F32.W)} (h1 : List.Forall₂ (fun a b => a.length = b.length) x y)
    (h2 : List.Forall₂ (fun a b => a.length = b.length) y z) : List.Forall₂ (fun a b => a.length = b.length) x z :=
  forall₂_comp (R := fun a b : List F32.W => a.length = b.length) (S := fun a b => a.length = b.length) (fun _ _ _ e1 e2 => e1.trans e2) h1 h2

theorem near_trans {D E F : ℝ} (h : D + E = F) {x y z : List (List F32.W)} (h1 : List.Forall₂ (List.Forall₂ (Near D)) x y)
    (h2 : List.Forall₂ (List.Forall₂ (Near E)) y z) : List.Forall₂ (List.Forall₂ (Near F)) x z :=
  forall₂_comp (R := List.Forall₂ (Near D)) (S := List.Forall₂ (Near E)) (fun _ _ _ r1 r2 => forall₂_comp (R := Near D) (S := Near E) (T := Near F)
    (fun a b c t1 t2 => ⟨t2.1, by
      have := abs_sub_le (val c) (val b) (val a)
      linarith [t1.2, t2.2]⟩) r1 r2) h1 h2

/-- **C107.**  Steps of plain SGD with clipping, on any finite gradients: they end, all parameters are finite after them, and none has moved
by more than `reach` per step. -/
theorem clipped_steps (cpu : Cpu) {K : ℝ} (hK : 0 < K) (hK2 : K ≤ 2 ^ 60) {coef : F32.W → Option F32.W} (hc : GoodCoef K coef) {lr : F32.W}
    (hlr : F32.Finite lr) (l0 : 0 ≤ val lr) (l1 : val lr ≤ 1) {B : ℝ} (hB0 : 0 ≤ B) (hB : B ≤ 2 ^ 100) (l : List (List (List F32.W))) :
    ∀ (W : ℝ) (ws : List (List F32.W)), W + l.length * reach K (val lr) B ≤ B → (∀ w ∈ ws, ∀ a ∈ w, F32.Finite a ∧ |val a| ≤ W) →
    (∀ gs ∈ l, List.Forall₂ (fun w g => w.length = g.length) ws gs ∧ ∀ g ∈ gs, g ≠ [] ∧ ∀ x ∈ g, F32.Finite x) →
    (∃ ws', Steps cpu coef lr l ws ws') ∧
    ∀ ws', Steps cpu coef lr l ws ws' → List.Forall₂ (List.Forall₂ (Near (l.length * reach K (val lr) B))) ws ws' := by
  induction l with
  | nil =>
    intro W ws _ hw _
    refine ⟨⟨ws, rfl⟩, fun ws' h => ?_⟩
    rw [show ws' = ws from h, List.forall₂_same]
    intro w hw'
    rw [List.forall₂_same]
    intro a ha
    exact ⟨(hw w hw' a ha).1, by simp⟩
  | cons gs l ih =>
    intro W ws hWB hw hl
    obtain ⟨hsh, hgs⟩ := hl gs (by simp)
    obtain ⟨N, hN, gs', h1, h2⟩ := Clip32.clip_partial cpu hK hc (fun g hg => (hgs g hg).1) (fun g hg => (hgs g hg).2)
    have hN2 : N * (2 : ℝ) ^ (-148 : Int) ≤ 1 / 2 ^ 20 := by
      have : N ≤ 2 ^ 128 := by
        rcases hN.2 with h | ⟨g, hg, x, hx, h⟩
        · rw [h]; norm_num
        · rw [h]
          refine (Clip32.abs_val_le ((hgs g hg).2 x hx)).trans ?_
          unfold maxFin; norm_num
      calc N * (2 : ℝ) ^ (-148 : Int) ≤ 2 ^ 128 * (2 : ℝ) ^ (-148 : Int) := mul_le_mul_of_nonneg_right this (by positivity)
        _ = 1 / 2 ^ 20 := by norm_num
    have hG : ∀ g ∈ gs', ∀ x ∈ g, F32.Finite x ∧ |val x| ≤ K * (1 + 1 / 2 ^ 21) + 1 / 2 ^ 19 :=
      forall₂_right (P := fun _ => True) (fun g g' _ k => forall₂_right (P := fun _ => True) (fun x r _ c => ⟨c.finite, by
        have := c.bound
        have p : (2 : ℝ) ^ (-150 : Int) ≤ 1 / 2 ^ 20 := by norm_num
        have q : (1 : ℝ) / 2 ^ 19 = 1 / 2 ^ 20 + 1 / 2 ^ 20 := by norm_num
        rw [q]; linarith⟩) k (fun _ _ => trivial)) h2 (fun _ _ => trivial)
    have hM : 0 ≤ reach K (val lr) B := by unfold reach; positivity
    rw [List.length_cons] at hWB ⊢
    push_cast at hWB ⊢
    have hlM : 0 ≤ (l.length : ℝ) * reach K (val lr) B := by positivity
    have hG2 : K * (1 + 1 / 2 ^ 21) + 1 / 2 ^ 19 ≤ (2 : ℝ) ^ 62 := by
      norm_num at *
      linarith
    obtain ⟨⟨w₁, u1⟩, u2⟩ := update_near cpu (lr := lr) (R := Near (reach K (val lr) B)) (P := fun a => F32.Finite a ∧ |val a| ≤ W)
      (Q := fun x => F32.Finite x ∧ |val x| ≤ K * (1 + 1 / 2 ^ 21) + 1 / 2 ^ 19)
      (fun a b ha hb => elem hlr l0 l1 ha.1 (ha.2.trans (by linarith)) hB hb.1 hb.2 hG2) ws gs'
      (len_trans hsh (forall₂_len h2)) hw hG
    have next : ∀ w₁, List.Forall₂ (List.Forall₂ (Near (reach K (val lr) B))) ws w₁ → (∃ ws', Steps cpu coef lr l w₁ ws') ∧
        ∀ ws', Steps cpu coef lr l w₁ ws' → List.Forall₂ (List.Forall₂ (Near (l.length * reach K (val lr) B))) w₁ ws' := by
      intro w₁ hn
      refine ih (W + reach K (val lr) B) w₁ (by linarith) ?_ fun k hk => ⟨?_, (hl k (by simp [hk])).2⟩
      · exact forall₂_right (P := fun w => ∀ a ∈ w, F32.Finite a ∧ |val a| ≤ W) (fun w w' hP k => forall₂_right
          (P := fun a => F32.Finite a ∧ |val a| ≤ W) (fun a b ha n => ⟨n.1, by
            have := abs_sub_abs_le_abs_sub (val b) (val a)
            linarith [n.2, ha.2]⟩) k hP) hn hw
      · have hf : List.Forall₂ (fun a b : List F32.W => a.length = b.length) w₁ ws := (forall₂_len hn).flip.imp fun _ _ e => Eq.symm e
        exact len_trans hf (hl k (by simp [hk])).1
    constructor
    · obtain ⟨ws', hs⟩ := (next w₁ (u2 w₁ u1)).1
      exact ⟨ws', gs', w₁, (h1 gs').mpr rfl, u1, hs⟩
    · rintro ws' ⟨k, w₂, k1, k2, k3⟩
      rw [h1] at k1
      subst k1
      have n1 := u2 w₂ k2
      have n2 := (next w₂ n1).2 ws' k3
      exact near_trans (by ring) n1 n2

/-- Two parameter tensors 1 and 2, 3, one step with gradients of 2^127, -2^127 and 1 and one with 1, 0, 0, learning rate 1, `MaxNorm` 8. -/
example (cpu : Cpu) : ∃ coef, GoodCoef 8 coef ∧ ∃ ws', Steps cpu coef 0x3f800000
    [[[0x7f000000], [0xff000000, 0x3f800000]], [[0x3f800000], [0, 0]]] [[0x3f800000], [0x40000000, 0x40400000]] ws' ∧
    List.Forall₂ (List.Forall₂ (Near (2 * reach 8 1 100))) [[0x3f800000], [0x40000000, 0x40400000]] ws' := by
  obtain ⟨coef, hc⟩ := exists_coef
  have a1 : val (0x3f800000 : F32.W) = 1 := F32.one_val
  have a2 : val (0x40000000 : F32.W) = 2 := by simp [val, unpack]; norm_num
  have a3 : val (0x40400000 : F32.W) = 3 := by simp [val, unpack]; norm_num
  obtain ⟨⟨ws', h⟩, k⟩ := clipped_steps cpu (K := 8) (by norm_num) (by norm_num) hc (lr := 0x3f800000) (by unfold F32.Finite; decide)
    (by rw [a1]; norm_num) a1.le (B := 100) (by norm_num) (by norm_num)
    [[[0x7f000000], [0xff000000, 0x3f800000]], [[0x3f800000], [0, 0]]] 3 [[0x3f800000], [0x40000000, 0x40400000]]
    (by rw [a1]; unfold reach; norm_num) (by
      intro w hw a ha
      simp only [List.mem_cons, List.not_mem_nil, or_false] at hw
      rcases hw with rfl | rfl
      · simp only [List.mem_cons, List.not_mem_nil, or_false] at ha
        subst ha
        exact ⟨by simp [F32.Finite], by rw [a1]; norm_num⟩
      · simp only [List.mem_cons, List.not_mem_nil, or_false] at ha
        rcases ha with rfl | rfl
        · exact ⟨by simp [F32.Finite], by rw [a2]; norm_num⟩
        · exact ⟨by simp [F32.Finite], by rw [a3]; norm_num⟩) (by simp [F32.Finite])
  refine ⟨coef, hc, ws', h, ?_⟩
  have := k ws' h
  rw [a1] at this
  exact this

end Verif.ClipStep32
