import Verif.Lemmas.Lstm32Der
import Verif.Lemmas.Srn32

set_option autoImplicit false
set_option linter.unusedSimpArgs false

/-!
# The words of the operations of an LSTM (C102)
-/

namespace Verif.Lstm32
open Verif.F32 Verif.Asm Verif.Spec Verif.Spec.Kernels Verif.Net32 Verif.Rec32 Verif.Att32 Verif.Back32 Verif.Srn32 Verif.Spec.Net32 Verif.Spec.Rec32
  Verif.Spec.Back32 Verif.Spec.Srn32 Verif.Spec.Train32 Verif.Spec.Lstm32

variable {n m : Nat}

/-- A product. -/
theorem prod_close {a g : List F32.W} {u γ : Nat → ℝ} {A E P H : ℝ} (hA : 0 ≤ A) (hE : 0 ≤ E) (hB : (A + E) * (P + H) ≤ 2 ^ 121)
    (ha : Close n a u A E) (hg : Close n g γ P H) :
    (∃ z, Prod a g z) ∧ ∀ z, Prod a g z → Close n z (fun i => u i * γ i) (A * P) (mulOff A E P H) := by
  refine ⟨⟨_, by rw [ha.1, hg.1], rfl⟩, ?_⟩
  rintro z ⟨-, rfl⟩
  refine ⟨by simp [ha.1, hg.1], fun i hi => ?_⟩
  rw [getD_zip (n := n) ha.1 hg.1 hi]
  obtain ⟨fd, e1, b1⟩ := ha.2 i hi
  obtain ⟨fg, e2, b2⟩ := hg.2 i hi
  have b3 := (close_le hg i hi).2
  have bd := (close_le ha i hi).2
  have ht : (0 : ℝ) < (2 : ℝ) ^ (-126 : Int) := by positivity
  have ht1 : (2 : ℝ) ^ (-126 : Int) ≤ 1 := by norm_num
  have bp : |val (a.getD i 0) * val (g.getD i 0)| ≤ (A + E) * (P + H) := by
    rw [abs_mul]; exact mul_le_mul bd b3 (abs_nonneg _) (add_nonneg hA hE)
  have hpos : 0 ≤ (A + E) * (P + H) := (abs_nonneg _).trans bp
  obtain ⟨f, e3⟩ := Opt32.mul_in fd fg (B := (A + E) * (P + H) + (2 : ℝ) ^ (-126 : Int)) (by linarith) (by linarith) (by
    have : (2 : ℝ) ^ 121 + 1 ≤ 2 ^ 127 := by norm_num
    linarith)
  refine ⟨f, ?_, by beta_reduce; rw [abs_mul]; exact mul_le_mul b1 b2 (abs_nonneg _) hA⟩
  unfold mulOff
  beta_reduce
  generalize val (mulIeee (a.getD i 0) (g.getD i 0)) = Z at *
  generalize val (a.getD i 0) = Dv at *
  generalize val (g.getD i 0) = G at *
  generalize u i = s at *
  generalize γ i = Γ at *
  generalize ((A + E) * (P + H) + (2 : ℝ) ^ (-126 : Int)) / 2 ^ 24 = T at *
  have e : Z - s * Γ = (Z - Dv * G) + ((Dv - s) * G + s * (G - Γ)) := by ring
  rw [e]
  have a1 := abs_add_le (Z - Dv * G) ((Dv - s) * G + s * (G - Γ))
  have a2 := abs_add_le ((Dv - s) * G) (s * (G - Γ))
  have a3 : |(Dv - s) * G| ≤ E * (P + H) := by rw [abs_mul]; exact mul_le_mul e1 b3 (abs_nonneg _) hE
  have a4 : |s * (G - Γ)| ≤ A * H := by rw [abs_mul]; exact mul_le_mul b1 e2 (abs_nonneg _) hA
  linarith

theorem mulOff_nonneg {A E P H : ℝ} (hA : 0 ≤ A) (hE : 0 ≤ E) (hP : 0 ≤ P) (hH : 0 ≤ H) : 0 ≤ mulOff A E P H := by
  unfold mulOff; positivity

/-- It is at least what the first factor makes of the error of the second. -/
theorem le_mulOff {A E P H : ℝ} (hA : 0 ≤ A) (hE : 0 ≤ E) (hP : 0 ≤ P) (hH : 0 ≤ H) : A * H ≤ mulOff A E P H := by
  unfold mulOff
  have h1 : 0 ≤ E * (P + H) := by positivity
  have h2 : 0 ≤ ((A + E) * (P + H) + (2 : ℝ) ^ (-126 : Int)) / 2 ^ 24 := by positivity
  linarith

/-! ## Sums in any order -/

/-- What is known of a contribution. -/
structure It where
  γ : Nat → ℝ
  P : ℝ
  H : ℝ

def ItOk (n : Nat) (c : Option (List F32.W)) (t : It) : Prop := OkG n c t.γ t.P t.H ∧ 0 ≤ t.P ∧ 0 ≤ t.H

theorem items_up : ∀ {l : List (Option (List F32.W))} {ts : List It}, List.Forall₂ (ItOk n) l ts →
    0 ≤ (ts.map fun t => t.P + t.H).sum ∧ ∀ q ∈ l.filterMap id, Train32.Upto n (ts.map fun t => t.P + t.H).sum q
  | _, _, .nil => by simp
  | _, _, .cons (a := c) (b := t) (l₁ := l) (l₂ := ts) h hs => by
    obtain ⟨i3, i4⟩ := items_up hs
    obtain ⟨h1, h2, h3⟩ := h
    simp only [List.map_cons, List.sum_cons]
    have keep : ∀ q ∈ l.filterMap id, Train32.Upto n (t.P + t.H + (ts.map fun t => t.P + t.H).sum) q := fun q hq => by
      obtain ⟨u1, u2⟩ := i4 q hq
      exact ⟨u1, fun i hi => ⟨(u2 i hi).1, (u2 i hi).2.trans (by linarith)⟩⟩
    cases c with
    | none => exact ⟨by linarith, fun q hq => keep q (by simpa using hq)⟩
    | some c =>
      have h1 : Close n c t.γ t.P t.H := h1
      have ef : (some c :: l).filterMap id = c :: l.filterMap id := by simp
      rw [ef]
      refine ⟨by linarith, fun q hq => ?_⟩
      rcases List.mem_cons.mp hq with rfl | hq
      · exact ⟨h1.1, fun i hi => ⟨(close_le h1 i hi).1, (close_le h1 i hi).2.trans (by linarith)⟩⟩
      · exact keep q hq

theorem items_sum : ∀ {l : List (Option (List F32.W))} {ts : List It}, List.Forall₂ (ItOk n) l ts → ∀ {i : Nat}, i < n →
    |Train32.cellSum (l.filterMap id) i - (ts.map fun t => t.γ i).sum| ≤ (ts.map (·.H)).sum ∧ |(ts.map fun t => t.γ i).sum| ≤ (ts.map (·.P)).sum
  | _, _, .nil, i, hi => by simp [Train32.cellSum]
  | _, _, .cons (a := c) (b := t) (l₁ := l) (l₂ := ts) h hs, i, hi => by
    obtain ⟨i1, i2⟩ := items_sum hs hi
    obtain ⟨h1, h2, h3⟩ := h
    simp only [List.map_cons, List.sum_cons]
    cases c with
    | none =>
      have h1 : ∀ i, t.γ i = 0 := h1
      rw [List.filterMap_cons_none rfl, h1, zero_add]
      exact ⟨by linarith, by linarith⟩
    | some c =>
      have h1 : Close n c t.γ t.P t.H := h1
      have ef : (some c :: l).filterMap id = c :: l.filterMap id := by simp
      rw [ef]
      have e : Train32.cellSum (c :: l.filterMap id) i = val (c.getD i 0) + Train32.cellSum (l.filterMap id) i := by simp [Train32.cellSum]
      rw [e]
      refine ⟨?_, (abs_add_le _ _).trans (add_le_add (h1.2 i hi).2.2 i2)⟩
      have e' : val (c.getD i 0) + Train32.cellSum (l.filterMap id) i - (t.γ i + (ts.map fun t => t.γ i).sum) =
        (val (c.getD i 0) - t.γ i) + (Train32.cellSum (l.filterMap id) i - (ts.map fun t => t.γ i).sum) := by ring
      rw [e']
      exact (abs_add_le _ _).trans (add_le_add (h1.2 i hi).2.1 i1)

/-- Up to five contributions, some of which may be missing. -/
theorem gather_items (cpu : Cpu) {l : List (Option (List F32.W))} {ts : List It} (h : List.Forall₂ (ItOk n) l ts) {N : Nat} (hN : l.length = N) (hN5 : N ≤ 5)
    (hB : (ts.map fun t => t.P + t.H).sum ≤ 2 ^ 115) (hs : ∃ c, some c ∈ l) :
    (∃ gy, Gather cpu (l.filterMap id) gy) ∧ ∀ gy, Gather cpu (l.filterMap id) gy → ∃ q, gy = some q ∧
      Close n q (fun i => (ts.map fun t => t.γ i).sum) (ts.map (·.P)).sum ((ts.map (·.H)).sum + N * N * (ts.map fun t => t.P + t.H).sum / 2 ^ 24) := by
  have hX := (items_up h).1
  have hup := (items_up h).2
  have hL : (l.filterMap id).length ≤ N := hN ▸ List.length_filterMap_le _ _
  have hLr : ((l.filterMap id).length : ℝ) ≤ N := by exact_mod_cast hL
  have hNr : (N : ℝ) ≤ 5 := by exact_mod_cast hN5
  have hL0 : (0 : ℝ) ≤ (l.filterMap id).length := Nat.cast_nonneg _
  generalize hXe : (ts.map fun t => t.P + t.H).sum = X at *
  have hsq : ((l.filterMap id).length : ℝ) * (l.filterMap id).length * X / 2 ^ 24 ≤ (N : ℝ) * N * X / 2 ^ 24 :=
    div_le_div_of_nonneg_right (mul_le_mul_of_nonneg_right (mul_le_mul hLr hLr hL0 (hL0.trans hLr)) hX) (by positivity)
  have htot : total (l.filterMap id).length X ≤ 2 ^ 120 := by
    unfold total
    have h1 : ((l.filterMap id).length : ℝ) * X ≤ 5 * X := mul_le_mul_of_nonneg_right (hLr.trans hNr) hX
    have h2 : ((l.filterMap id).length : ℝ) * (l.filterMap id).length * X ≤ 5 * 5 * X :=
      mul_le_mul_of_nonneg_right (mul_le_mul (hLr.trans hNr) (hLr.trans hNr) hL0 (by norm_num)) hX
    have h3 : ((l.filterMap id).length : ℝ) * (l.filterMap id).length * X / 2 ^ 24 ≤ 5 * 5 * X / 2 ^ 24 := div_le_div_of_nonneg_right h2 (by positivity)
    have h4 : 5 * 5 * X / 2 ^ 24 ≤ X := by
      rw [div_le_iff₀ (by positivity)]
      have : (25 : ℝ) ≤ 2 ^ 24 := by norm_num
      nlinarith
    have h5 : (2 : ℝ) ^ 120 = 32 * 2 ^ 115 := by norm_num
    rw [h5]
    linarith
  have acc := fun (o : List (List F32.W)) (ho : o.Perm (l.filterMap id)) => Train32.acc_ok (cpu := cpu) hX (l := o)
    (fun q hq => hup q (ho.subset hq)) (by rw [ho.length_eq]; omega) (by rw [ho.length_eq]; exact htot)
  refine ⟨?_, ?_⟩
  · obtain ⟨z, hz⟩ := (acc _ (List.Perm.refl _)).1
    exact ⟨z, _, List.Perm.refl _, hz⟩
  · rintro z ⟨o, ho, hz⟩
    have key := (acc o ho).2 z hz
    cases z with
    | none =>
      have key : o = [] := key
      subst key
      have he : l.filterMap id = [] := by simpa using ho.symm
      obtain ⟨c, hc⟩ := hs
      have : c ∈ l.filterMap id := List.mem_filterMap.mpr ⟨some c, hc, rfl⟩
      rw [he] at this
      simp at this
    | some q =>
      obtain ⟨k1, k2⟩ := key
      refine ⟨q, rfl, k1, fun i hi => ?_⟩
      obtain ⟨f1, f2, -⟩ := k2 i hi
      have ec : Train32.cellSum o i = Train32.cellSum (l.filterMap id) i := (ho.map _).sum_eq
      rw [ec, ho.length_eq] at f2
      obtain ⟨s1, s2⟩ := items_sum h hi
      refine ⟨f1, ?_, s2⟩
      have h3 := abs_sub_le (val (q.getD i 0)) (Train32.cellSum (l.filterMap id) i) ((ts.map fun t => t.γ i).sum)
      linarith

/-! ## The forward pass -/

variable {M : Machine} {sl : Slopes} {g : Lstm} {X Ec Ey P H : ℝ}

theorem real_unit (q : Gt) (u : ℝ) : |real (actOf q) u| ≤ 1 := by
  cases q
  · exact sig_abs u
  · exact sig_abs u
  · exact sig_abs u
  · exact tanh_unit u

theorem sumErr_nonneg (hX : 0 ≤ X) (hE : 0 ≤ Ey) (q : Gt) : 0 ≤ sumErr n m g X Ey q :=
  add_nonneg (preErr_nonneg hX) (mul_nonneg (largest_nonneg _ _) hE)

/-- The sums and the values of the gates. -/
theorem gate_close (hM : GoodLib M.lib) {q : Gt} (hg : Fits n m (gateOf g q) X) {x : List F32.W} (hx : Within m x X) {prev : Option (List F32.W)}
    (hp : ∀ y, prev = some y → Within n y 1) {y : Nat → ℝ} (hd : 0 ≤ Ey) (hy : ∀ k < n, |pv prev k - y k| ≤ Ey) :
    (∃ a, Pre M.cpu n m (gateOf g q) x prev a) ∧ ∀ a, Pre M.cpu n m (gateOf g q) x prev a →
      Close n a (arg n m (thetas n m g q) (vals x) y) (largest n fun i => |arg n m (thetas n m g q) (vals x) y i|) (sumErr n m g X Ey q) ∧
      (∃ v, acts M.cpu M.lane M.lib (actOf q) a v) ∧ ∀ v, acts M.cpu M.lane M.lib (actOf q) a v →
        Close n v (gateV n m (thetas n m g) (vals x) y q) 1 (actErr (actOf q) + lipOf (actOf q) * sumErr n m g X Ey q) := by
  obtain ⟨h1, h2⟩ := forward_close hM hg hx hp hd hy
  refine ⟨h1, fun a ha => ?_⟩
  have ca := (h2 a ha).1
  have hF := acts_good M.cpu M.lane hM
  have hfin : ∀ v ∈ a, F32.Finite v := fun v hv => (close_mem ca v hv).1
  refine ⟨ca, hF.ends _ a hfin, fun v hv => ?_⟩
  obtain ⟨n1, n2⟩ := hF.near _ a v hfin hv
  refine ⟨n1.trans ca.1, fun i hi => ?_⟩
  obtain ⟨f, e⟩ := n2 i (by rw [ca.1]; exact hi)
  refine ⟨f, ?_, real_unit q _⟩
  have l := hF.lip (actOf q) (val (a.getD i 0)) (arg n m (thetas n m g q) (vals x) y i)
  have l2 := mul_le_mul_of_nonneg_left (ca.2 i hi).2.1 (hF.pos (actOf q)).1
  have t := abs_sub_le (val (v.getD i 0)) (real (actOf q) (val (a.getD i 0))) (real (actOf q) (arg n m (thetas n m g q) (vals x) y i))
  unfold gateV
  exact t.trans (add_le_add e (l.trans l2))

theorem step_next {prev : Option Cell} {x : List F32.W} {a v : Gt → List F32.W} {s : Cell} (h : Step M n m g prev x a v s) : lstmNext M n m g prev x s := by
  obtain ⟨h1, h2, p, h3, h4, h5⟩ := h
  exact ⟨v .inp, v .out, v .forget, v .cand, p, ⟨_, h1 .inp, h2 .inp⟩, ⟨_, h1 .out, h2 .out⟩, ⟨_, h1 .forget, h2 .forget⟩, ⟨_, h1 .cand, h2 .cand⟩, h3, h4, h5⟩

theorem next_step {prev : Option Cell} {x : List F32.W} {s : Cell} (h : lstmNext M n m g prev x s) : ∃ a v, Step M n m g prev x a v s := by
  obtain ⟨i, o, f, c, p, ⟨ai, i1, i2⟩, ⟨ao, o1, o2⟩, ⟨af, f1, f2⟩, ⟨ac, c1, c2⟩, h3, h4, h5⟩ := h
  refine ⟨fun | .inp => ai | .out => ao | .forget => af | .cand => ac, fun | .inp => i | .out => o | .forget => f | .cand => c, ?_, ?_, p, h3, h4, h5⟩
  · intro q; cases q <;> assumption
  · intro q; cases q <;> assumption

/-- What holds before a step, after `t` steps, with the exact cell `c` and output `y`. -/
structure Inv (n m : Nat) (g : Lstm) (X : ℝ) (t : Nat) (prev : Option Cell) (c y : Nat → ℝ) : Prop where
  words : ∀ s, prev = some s → Within n s.cell (2 ^ 25) ∧ Within n s.y 1
  size : ∀ k < n, |c k| ≤ t
  cell : ∀ k < n, |pc prev k - c k| ≤ (lstmBound n m g X t).1
  out : ∀ k < n, |pv (prev.map Cell.y) k - y k| ≤ (lstmBound n m g X t).2

/-- Steps keep it. -/
theorem inv_step (hM : GoodLib M.lib) (hg : ∀ q, Fits n m (gateOf g q) X) {x : List F32.W} (hx : Within m x X) {t : Nat} {prev : Option Cell} {c y : Nat → ℝ}
    (h : Inv n m g X t prev c y) :
    (∃ s, lstmNext M n m g prev x s) ∧ ∀ s, lstmNext M n m g prev x s →
      Inv n m g X (t + 1) (some s) (cellL n m (thetas n m g) (vals x) c y) (outL n m (thetas n m g) (vals x) c y) := by
  obtain ⟨p1, p2, p3, p4⟩ := h
  obtain ⟨b1, b2⟩ := lstmBound_nonneg (n := n) (m := m) (g := g) (hg .inp).x0 t
  have ht : (0 : ℝ) ≤ t := Nat.cast_nonneg t
  have hC : 1 ≤ (t : ℝ) + (lstmBound n m g X t).1 + 1 := by linarith
  have hcC : ∀ k < n, |pc prev k| ≤ (t : ℝ) + (lstmBound n m g X t).1 + 1 := by
    intro k hk
    have q := abs_sub_le (pc prev k) (c k) 0
    rw [sub_zero, sub_zero] at q
    linarith [p2 k hk, p3 k hk]
  obtain ⟨g1, g2⟩ := lstm_step hM (hg .inp) (hg .out) (hg .forget) (hg .cand) hx p1 hC hcC
  refine ⟨g1, fun s hs => ?_⟩
  obtain ⟨w, v⟩ := g2 s hs
  have hmove : ∀ k < n, |lstmCell n m g (vals x) (pc prev) (pv (prev.map Cell.y)) k - lstmCell n m g (vals x) c y k| ≤
      cellMove n g t (lstmBound n m g X t).1 (lstmBound n m g X t).2 := fun k hk => cell_move b2 p4 p3 p2 hk
  refine ⟨fun s' h => by obtain rfl := Option.some.inj h; exact w, fun k hk => ?_, fun k hk => ?_, fun k hk => ?_⟩
  · push_cast
    exact cell_grow (g := g) (p2 k hk)
  · exact (abs_sub_le _ _ _).trans (add_le_add (v k hk).1 (hmove k hk))
  · have e1 := (v k hk).2
    have e2 := tanh_lip (lstmCell n m g (vals x) (pc prev) (pv (prev.map Cell.y)) k) (lstmCell n m g (vals x) c y k)
    rw [one_mul] at e2
    have e3 := mul_move (sig_abs (pre n m g.out (vals x) (pv (prev.map Cell.y)) k)) (tanh_unit (lstmCell n m g (vals x) c y k))
      (sig_move (m := m) (g := g.out) (x := vals x) b2 p4 hk) (e2.trans (hmove k hk))
    refine (abs_sub_le _ _ _).trans ((add_le_add e1 e3).trans (le_of_eq ?_))
    rw [lstmBound]
    dsimp only
    ring

end Verif.Lstm32
