import Verif.Lemmas.Srn32Der
import Verif.Props.Rec32Forward
import Verif.Props.Train32

set_option autoImplicit false
set_option linter.unusedSimpArgs false

/-!
# The words of back-propagation through time (C100)
-/

namespace Verif.Srn32
open Verif.F32 Verif.Asm Verif.Spec Verif.Spec.Kernels Verif.Net32 Verif.Rec32 Verif.Att32 Verif.Back32 Verif.Spec.Net32 Verif.Spec.Rec32
  Verif.Spec.Back32 Verif.Spec.Srn32 Verif.Spec.Train32

variable {n m : Nat}

theorem perm_two {β : Type} {a b : β} {o : List β} (h : o.Perm [a, b]) : o = [a, b] ∨ o = [b, a] := by
  have hl := h.length_eq
  match o, hl with
  | [p, q], _ =>
    have hp : p ∈ [a, b] := h.subset (by simp)
    simp at hp
    rcases hp with rfl | rfl
    · have := h.cons_inv
      simp at this
      exact Or.inl (by rw [this])
    · have := (h.trans (List.Perm.swap _ _ _)).cons_inv
      simp at this
      exact Or.inr (by rw [this])

/-- A contribution, or none when it is 0. -/
def OkG (n : Nat) (c : Option (List F32.W)) (γ : Nat → ℝ) (P H : ℝ) : Prop :=
  match c with
  | none => ∀ i, γ i = 0
  | some c => Close n c γ P H

theorem close_mono {n : Nat} {x : List F32.W} {u u' : Nat → ℝ} {M E M' E' : ℝ} (h : Close n x u M E) (hu : ∀ i < n, u i = u' i) (h1 : M ≤ M') (h2 : E ≤ E') :
    Close n x u' M' E' :=
  ⟨h.1, fun i hi => by rw [← hu i hi]; exact ⟨(h.2 i hi).1, (h.2 i hi).2.1.trans h2, (h.2 i hi).2.2.trans h1⟩⟩

theorem add_close {n : Nat} {a b : List F32.W} {γ β : Nat → ℝ} {P H Q K : ℝ} (hB : P + H + Q + K ≤ 2 ^ 120) (ha : Close n a γ P H) (hb : Close n b β Q K) :
    Close n (List.zipWith addIeee a b) (fun i => γ i + β i) (P + Q) (H + K + (P + H + Q + K) / 2 ^ 24) := by
  refine ⟨by simp [ha.1, hb.1], fun i hi => ?_⟩
  rw [getD_zip ha.1 hb.1 hi]
  obtain ⟨f1, e1, s1⟩ := ha.2 i hi
  obtain ⟨f2, e2, s2⟩ := hb.2 i hi
  have l1 := (close_le ha i hi).2
  have l2 := (close_le hb i hi).2
  generalize a.getD i 0 = x at *
  generalize b.getD i 0 = y at *
  have hs : |val x + val y| ≤ P + H + Q + K := (abs_add_le _ _).trans (by linarith)
  obtain ⟨f, e⟩ := Opt32.add_in f1 f2 hs (hB.trans (by norm_num))
  refine ⟨f, ?_, (abs_add_le _ _).trans (add_le_add s1 s2)⟩
  have e' : val (addIeee x y) - (γ i + β i) = (val (addIeee x y) - (val x + val y)) + ((val x - γ i) + (val y - β i)) := by ring
  rw [e']
  have t1 := abs_add_le (val (addIeee x y) - (val x + val y)) ((val x - γ i) + (val y - β i))
  have t2 := abs_add_le (val x - γ i) (val y - β i)
  linarith

/-- The gradient of an output. -/
theorem gather_ok (cpu : Cpu) {c h : Option (List F32.W)} {γ β : Nat → ℝ} {P H : ℝ} {p : ℝ × ℝ} (hP : 0 ≤ P) (hH : 0 ≤ H) (hQ : 0 ≤ p.1) (hK : 0 ≤ p.2)
    (hB : P + H + p.1 + p.2 ≤ 2 ^ 120) (hc : OkG n c γ P H) (hh : OkG n h β p.1 p.2) (hs : c.isSome = true ∨ h.isSome = true) :
    (∃ gy, Gather cpu (c.toList ++ h.toList) gy) ∧ ∀ gy, Gather cpu (c.toList ++ h.toList) gy →
      ∃ q, gy = some q ∧ Close n q (fun i => γ i + β i) (P + p.1) (outOff P H p) := by
  have hr : 0 ≤ (P + H + p.1 + p.2) / 2 ^ 24 := by positivity
  cases c with
  | none =>
    cases h with
    | none => simp at hs
    | some h =>
      refine ⟨⟨some h, _, List.Perm.refl _, h, rfl, rfl⟩, ?_⟩
      rintro gy ⟨o, ho, ha⟩
      have ho : o = [h] := by simpa using ho
      subst ho
      obtain ⟨q, rfl, rfl⟩ := ha
      have hc : ∀ i, γ i = 0 := hc
      refine ⟨_, rfl, close_mono hh (fun i _ => by rw [hc, zero_add]) (by linarith) (by unfold outOff; linarith)⟩
  | some c =>
    cases h with
    | none =>
      refine ⟨⟨some c, _, List.Perm.refl _, c, rfl, rfl⟩, ?_⟩
      rintro gy ⟨o, ho, ha⟩
      have ho : o = [c] := by simpa using ho
      subst ho
      obtain ⟨q, rfl, rfl⟩ := ha
      have hh : ∀ i, β i = 0 := hh
      refine ⟨_, rfl, close_mono hc (fun i _ => by rw [hh, add_zero]) (by linarith) (by unfold outOff; linarith)⟩
    | some h =>
      have hc : Close n c γ P H := hc
      have hh : Close n h β p.1 p.2 := hh
      refine ⟨⟨_, _, List.Perm.refl _, _, ⟨_, (addIn_iff ..).mpr ⟨by rw [hc.1, hh.1], rfl⟩, rfl⟩, rfl⟩, ?_⟩
      rintro gy ⟨o, ho, ha⟩
      rcases perm_two ho with rfl | rfl
      · obtain ⟨q, ⟨r, h1, rfl⟩, rfl⟩ := ha
        rw [addIn_iff] at h1
        obtain ⟨-, rfl⟩ := h1
        exact ⟨_, rfl, add_close hB hc hh⟩
      · obtain ⟨q, ⟨r, h1, rfl⟩, rfl⟩ := ha
        rw [addIn_iff] at h1
        obtain ⟨-, rfl⟩ := h1
        refine ⟨_, rfl, close_mono (add_close (by linarith) hh hc) (fun i _ => add_comm _ _) (by linarith) ?_⟩
        unfold outOff
        have e : p.1 + p.2 + P + H = P + H + p.1 + p.2 := by ring
        rw [e]
        linarith

/-- What is known of the contributions of one step. -/
structure ConOk (n m : Nat) (g : Gate) (κ P H X E : ℝ) (T : Nat) (c : Con) (d : Delta) : Prop where
  w : Train32.Upto (n * m) (conSize n g.wRec κ P H X 0 T) c.gw
  w' : ∀ i < n, ∀ j < m, |val (c.gw.getD (i * m + j) 0) - d.δ i * d.x j| ≤ conOff n g.wRec κ P H X 0 T
  b : Train32.Upto n (biasSize n g.wRec κ P H T) c.gb
  b' : ∀ i < n, |val (c.gb.getD i 0) - d.δ i| ≤ biasOffT n g.wRec κ P H T
  u : match c.gu with
    | none => ∀ k, d.y k = 0
    | some gu => Train32.Upto (n * n) (conSize n g.wRec κ P H 1 E T) gu ∧
        ∀ i < n, ∀ j < n, |val (gu.getD (i * n + j) 0) - d.δ i * d.y j| ≤ conOff n g.wRec κ P H 1 E T
  x : c.gx.length = m ∧ ∀ j < m, F32.Finite (c.gx.getD j 0) ∧
    |val (c.gx.getD j 0) - ∑ i ∈ Finset.range n, d.δ i * at2 m g.w i j| ≤ inOff n m g κ P H T

theorem outOff_nonneg {P H : ℝ} {p : ℝ × ℝ} (hP : 0 ≤ P) (hH : 0 ≤ H) (hQ : 0 ≤ p.1) (hK : 0 ≤ p.2) : 0 ≤ outOff P H p := by
  unfold outOff; positivity

theorem argOff_nonneg {κ P H : ℝ} {p : ℝ × ℝ} (hκ : 0 ≤ κ) (hP : 0 ≤ P) (hH : 0 ≤ H) (hQ : 0 ≤ p.1) (hK : 0 ≤ p.2) : 0 ≤ argOff κ P H p := by
  have := outOff_nonneg hP hH hQ hK
  unfold argOff
  positivity

theorem later_nonneg (n : Nat) (u : List F32.W) {κ P H : ℝ} (hκ : 0 ≤ κ) (hP : 0 ≤ P) (hH : 0 ≤ H) :
    ∀ r, 0 ≤ (later n u κ P H r).1 ∧ 0 ≤ (later n u κ P H r).2
  | 0 => ⟨le_rfl, le_rfl⟩
  | r + 1 => by
    obtain ⟨h1, h2⟩ := later_nonneg n u hκ hP hH r
    have h3 := argOff_nonneg (p := later n u κ P H r) hκ hP hH h1 h2
    have h4 : 0 ≤ colNorm n n u := largest_nonneg _ _
    have h5 : 0 ≤ most u := largest_nonneg _ _
    refine ⟨mul_nonneg h4 (by linarith), ?_⟩
    show 0 ≤ colNorm n n u * argOff κ P H _ + n * (5 * reach n u _ / 2 ^ 24)
    unfold reach
    positivity

/-- A cell of a product. -/
theorem upto_cell {rows cols : Nat} {S M E : ℝ} {gw : List F32.W} {γ v : Nat → ℝ} (hl : gw.length = rows * cols)
    (h : ∀ i < rows, ∀ j < cols, F32.Finite (gw.getD (i * cols + j) 0) ∧ |val (gw.getD (i * cols + j) 0) - γ i * v j| ≤ E)
    (hγ : ∀ i < rows, |γ i| ≤ S) (hv : ∀ j < cols, |v j| ≤ M) : Train32.Upto (rows * cols) (S * M + E) gw := by
  refine ⟨hl, fun k hk => ?_⟩
  have hc : 0 < cols := by
    rcases Nat.eq_zero_or_pos cols with h | h
    · subst h; simp at hk
    · exact h
  have hi : k / cols < rows := Nat.div_lt_of_lt_mul (by rw [Nat.mul_comm]; exact hk)
  have hj : k % cols < cols := Nat.mod_lt _ hc
  have e : k / cols * cols + k % cols = k := Nat.div_add_mod' k cols
  obtain ⟨f, b⟩ := h _ hi _ hj
  rw [e] at f b
  refine ⟨f, ?_⟩
  have h1 : |γ (k / cols) * v (k % cols)| ≤ S * M := by
    rw [abs_mul]
    exact mul_le_mul (hγ _ hi) (hv _ hj) (abs_nonneg _) ((abs_nonneg _).trans (hγ _ hi))
  have := abs_sub_abs_le_abs_sub (val (gw.getD k 0)) (γ (k / cols) * v (k % cols))
  linarith

variable {M : Machine} {sl : Slopes} {g : Gate} {X E P H : ℝ}

/-- The argument of `Tanh` and the output. -/
theorem forward_close (hM : GoodLib M.lib) (hg : Fits n m g X) {x : List F32.W} (hx : Within m x X) {prev : Option (List F32.W)}
    (hp : ∀ y, prev = some y → Within n y 1) {y : Nat → ℝ} {d : ℝ} (hd : 0 ≤ d) (hy : ∀ k < n, |pv prev k - y k| ≤ d) :
    (∃ a, Pre M.cpu n m g x prev a) ∧ ∀ a, Pre M.cpu n m g x prev a →
      Close n a (arg n m (theta n m g) (vals x) y) (largest n fun i => |arg n m (theta n m g) (vals x) y i|) (preErr n m g X + Net32.norm n n g.wRec * d) ∧
      Within n (a.map M.lib.tanh) 1 ∧
      Close n (a.map M.lib.tanh) (out n m (theta n m g) (vals x) y) 1 (tanhErr n m g X + Net32.norm n n g.wRec * d) := by
  obtain ⟨h1, h2⟩ := pre_ok M.cpu hg hx hp
  refine ⟨h1, fun a ha => ?_⟩
  obtain ⟨al, hall⟩ := h2 a ha
  have hs : TanhGate M n m g x prev (a.map M.lib.tanh) := ⟨a, ha, rfl⟩
  obtain ⟨w, e⟩ := (srn_step hM hg hx hp).2 _ hs
  refine ⟨⟨al, fun i hi => ⟨(hall i hi).1, ?_, le_largest (f := fun i => |arg n m (theta n m g) (vals x) y i|) hi⟩⟩, w,
    ⟨w.1, fun i hi => ⟨(w.2 i hi).1, ?_, tanh_unit _⟩⟩⟩
  · exact (abs_sub_le _ _ _).trans (add_le_add (hall i hi).2 (pre_move hd hy hi))
  · exact (abs_sub_le _ _ _).trans (add_le_add (e i hi) (tanh_move hd hy hi))

end Verif.Srn32
