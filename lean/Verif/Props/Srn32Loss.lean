import Verif.Props.Srn32
import Verif.Props.Rec32Example
import Verif.Props.Back32Example

set_option autoImplicit false
set_option linter.unusedSimpArgs false

/-!
# C100: the squared error of some of the outputs, and an example
-/

namespace Verif.Srn32
open Verif.F32 Verif.Asm Verif.Spec Verif.Spec.Kernels Verif.Net32 Verif.Rec32 Verif.Att32 Verif.Back32 Verif.Spec.Net32 Verif.Spec.Rec32
  Verif.Spec.Back32 Verif.Spec.Srn32 Verif.Spec.Train32

variable {n m : Nat}

/-- Inputs with targets for some of the outputs; the losses get the gradient `r`. -/
noncomputable def mseSteps (cpu : Cpu) (n m : Nat) (θ : Theta) (r : F32.W) : (Nat → ℝ) → List (List F32.W × Option (List F32.W)) → List SStep
  | _, [] => []
  | y, q :: qs => ⟨q.1, q.2.map fun t => ⟨MseGrad cpu r t, squared n (val r) fun i => val (t.getD i 0),
      fun i => val r * (out n m θ (vals q.1) y i - val (t.getD i 0))⟩⟩ :: mseSteps cpu n m θ r (out n m θ (vals q.1) y) qs

theorem mse_words (cpu : Cpu) (θ : Theta) (r : F32.W) : ∀ (qs : List (List F32.W × Option (List F32.W))) (y : Nat → ℝ),
    (mseSteps cpu n m θ r y qs).map word = qs.map fun q => (q.1, q.2.map (MseGrad cpu r))
  | [], _ => rfl
  | q :: qs, y => by
    rw [mseSteps, List.map_cons, List.map_cons, mse_words cpu θ r qs]
    simp [word, Function.comp_def]

/-- **C100: the squared error of the outputs that have a target.** -/
theorem mse_steps (cpu : Cpu) (θ : Theta) {r : F32.W} (hr : F32.Finite r) (h1 : |val r| ≤ 1) {E T : ℝ} (hX : 1 + E + T ≤ 2 ^ 100) :
    ∀ (qs : List (List F32.W × Option (List F32.W))) (y : Nat → ℝ),
      (∀ q ∈ qs, ∀ t, q.2 = some t → t.length = n ∧ ∀ i < n, F32.Finite (t.getD i 0) ∧ |val (t.getD i 0)| ≤ T) →
      GoodSteps n m θ E (1 + T) (mseErr E (1 + E + T)) y (mseSteps cpu n m θ r y qs)
  | [], _, _ => trivial
  | q :: qs, y, h => by
    refine ⟨fun l hl => ?_, mse_steps cpu θ hr h1 hX qs _ fun q hq => h q (List.mem_cons_of_mem _ hq)⟩
    obtain ⟨t, ht, rfl⟩ := Option.map_eq_some_iff.mp hl
    obtain ⟨a1, a2⟩ := h q List.mem_cons_self t ht
    exact ⟨mse_good cpu hr h1 a1 a2 hX, squared_grad _ _ _ _⟩

/-! ## An example: the inputs 1 and 1, and the target 1/2 for the second output -/

namespace Example
open Verif.Rec32.Example Verif.Net32.Example

def data : List (List F32.W × Option (List F32.W)) := [([p1], none), ([p1], some [Rec32.Example.half])]

theorem colR : colNorm 1 1 gate.wRec = 1 / 2 := by
  simp [gate, colNorm, largest, at2, Finset.sum_range_succ, List.range_succ, vh]
theorem colW : colNorm 1 1 gate.w = 1 := by
  simp [gate, colNorm, largest, at2, Finset.sum_range_succ, List.range_succ, v1]
theorem mostR : most gate.wRec = 1 / 2 := by simp [gate, most, largest, List.range_succ, vh]
theorem mostW : most gate.w = 1 := by simp [gate, most, largest, List.range_succ, v1]

theorem preSmall : preErr 1 1 gate 1 ≤ 1 / 2 ^ 21 := by
  have := gate_err
  unfold tanhErr at this
  have h : (0 : ℝ) ≤ 1 / 2 ^ 23 := by norm_num
  linarith

theorem slopeSmall : 0 ≤ slopeOff 1 1 gate 1 (1 / 2 ^ 20) ∧ slopeOff 1 1 gate 1 (1 / 2 ^ 20) ≤ 1 / 2 ^ 18 := by
  refine ⟨slopeOff_nonneg (by norm_num) (by norm_num), ?_⟩
  have := preSmall
  unfold slopeOff slopeErr
  rw [normR]
  norm_num at *
  linarith

/-- The errors of the gradients, with no and with one step to come. -/
theorem argSmall {κ H : ℝ} {p : ℝ × ℝ} (hκ : 0 ≤ κ) (hκ' : κ ≤ 1 / 2 ^ 18) (hH : 0 ≤ H) (hH' : H ≤ 1 / 2 ^ 18) (hp : 0 ≤ p.1) (hp' : p.1 ≤ 1)
    (hq : 0 ≤ p.2) (hq' : p.2 ≤ 1 / 2 ^ 14) : 0 ≤ outOff (3 / 2) H p ∧ outOff (3 / 2) H p ≤ p.2 + 1 / 2 ^ 17 ∧ 0 ≤ argOff κ (3 / 2) H p ∧ argOff κ (3 / 2) H p ≤ p.2 + 1 / 2 ^ 14 := by
  have o0 := outOff_nonneg (P := 3 / 2) (by norm_num) hH hp hq
  have o1 : outOff (3 / 2) H p ≤ p.2 + 1 / 2 ^ 17 := by unfold outOff; norm_num at *; linarith
  refine ⟨o0, o1, argOff_nonneg hκ (by norm_num) hH hp hq, ?_⟩
  unfold argOff
  generalize outOff (3 / 2) H p = o at *
  have s1 : (2 : ℝ) ^ (-126 : Int) ≤ 1 := by norm_num
  have h1 : κ * (3 / 2 + p.1 + o) ≤ 1 / 2 ^ 18 * 3 := mul_le_mul hκ' (by norm_num at *; linarith) (by linarith) (by norm_num)
  have h2 : (1 + κ) * (3 / 2 + p.1 + o) ≤ 2 * 3 := mul_le_mul (by norm_num at *; linarith) (by norm_num at *; linarith) (by linarith) (by norm_num)
  generalize (2 : ℝ) ^ (-126 : Int) = s at *
  generalize κ * (3 / 2 + p.1 + o) = a at *
  generalize (1 + κ) * (3 / 2 + p.1 + o) = b at *
  norm_num at *
  linarith

theorem mseSmall : 0 ≤ mseErr (1 / 2 ^ 20) (1 + 1 / 2 ^ 20 + 1 / 2) ∧ mseErr (1 / 2 ^ 20) (1 + 1 / 2 ^ 20 + 1 / 2) ≤ 1 / 2 ^ 18 := by
  unfold mseErr
  have s0 : (0 : ℝ) ≤ (2 : ℝ) ^ (-126 : Int) := by positivity
  have s1 : (2 : ℝ) ^ (-126 : Int) ≤ 1 := by norm_num
  generalize (2 : ℝ) ^ (-126 : Int) = s at *
  constructor <;> norm_num <;> linarith

theorem reachSmall {w : List F32.W} {Q : ℝ} (h0 : 0 ≤ most w) (h1 : most w ≤ 1) (hQ : 0 ≤ Q) (hQ' : Q ≤ 3) : 0 ≤ reach 1 w Q ∧ reach 1 w Q ≤ 4 := by
  unfold reach
  have s0 : (0 : ℝ) ≤ (2 : ℝ) ^ (-126 : Int) := by positivity
  have s1 : (2 : ℝ) ^ (-126 : Int) ≤ 1 := by norm_num
  have m1 : most w * Q ≤ 1 * 3 := mul_le_mul h1 hQ' hQ (by norm_num)
  have m0 := mul_nonneg h0 hQ
  generalize (2 : ℝ) ^ (-126 : Int) = s at *
  constructor <;> push_cast <;> linarith

theorem laterSmall {κ H : ℝ} (hκ : 0 ≤ κ) (hκ' : κ ≤ 1 / 2 ^ 18) (hH : 0 ≤ H) (hH' : H ≤ 1 / 2 ^ 18) : ∀ r < 2,
    0 ≤ (later 1 gate.wRec κ (3 / 2) H r).1 ∧ (later 1 gate.wRec κ (3 / 2) H r).1 ≤ 1 ∧ 0 ≤ (later 1 gate.wRec κ (3 / 2) H r).2 ∧
      (later 1 gate.wRec κ (3 / 2) H r).2 ≤ 1 / 2 ^ 14 := by
  intro r hr
  match r, hr with
  | 0, _ => exact ⟨le_rfl, by simp [later], le_rfl, by simp [later]⟩
  | 1, _ =>
    obtain ⟨l1, l2⟩ := later_nonneg 1 gate.wRec hκ (by norm_num : (0 : ℝ) ≤ 3 / 2) hH 1
    obtain ⟨-, -, a0, a1⟩ := argSmall (p := (0, 0)) hκ hκ' hH hH' le_rfl (by norm_num) le_rfl (by norm_num)
    have a1 : argOff κ (3 / 2) H (0, 0) ≤ 0 + 1 / 2 ^ 14 := a1
    obtain ⟨-, r1⟩ := reachSmall (w := gate.wRec) (Q := 3 / 2 + 0 + argOff κ (3 / 2) H (0, 0)) (by rw [mostR]; norm_num) (by rw [mostR]; norm_num)
      (by linarith) (by norm_num at *; linarith)
    refine ⟨l1, ?_, l2, ?_⟩
    · show colNorm 1 1 gate.wRec * (3 / 2 + 0) ≤ 1
      rw [colR]; norm_num
    · show colNorm 1 1 gate.wRec * argOff κ (3 / 2) H (0, 0) + (1 : Nat) * (5 * reach 1 gate.wRec (3 / 2 + 0 + argOff κ (3 / 2) H (0, 0)) / 2 ^ 24) ≤ 1 / 2 ^ 14
      rw [colR]
      generalize reach 1 gate.wRec (3 / 2 + 0 + argOff κ (3 / 2) H (0, 0)) = R at *
      generalize argOff κ (3 / 2) H (0, 0) = A at *
      norm_num at *
      linarith

/-- With at most one step to come everything is small. -/
theorem allSmall {κ H : ℝ} (hκ : 0 ≤ κ) (hκ' : κ ≤ 1 / 2 ^ 18) (hH : 0 ≤ H) (hH' : H ≤ 1 / 2 ^ 18) {r : Nat} (hr : r < 2) :
    (later 1 gate.wRec κ (3 / 2) H r).1 ≤ 1 ∧ (later 1 gate.wRec κ (3 / 2) H r).2 ≤ 1 ∧ 0 ≤ outOff (3 / 2) H (later 1 gate.wRec κ (3 / 2) H r) ∧
      outOff (3 / 2) H (later 1 gate.wRec κ (3 / 2) H r) ≤ 1 / 4 ∧ 0 ≤ argOff κ (3 / 2) H (later 1 gate.wRec κ (3 / 2) H r) ∧
      argOff κ (3 / 2) H (later 1 gate.wRec κ (3 / 2) H r) ≤ 1 / 2 ^ 13 ∧ 0 ≤ (later 1 gate.wRec κ (3 / 2) H r).1 := by
  obtain ⟨l0, l1, l2, l3⟩ := laterSmall hκ hκ' hH hH' r hr
  obtain ⟨o0, o1, a0, a1⟩ := argSmall hκ hκ' hH hH' l0 l1 l2 l3
  refine ⟨l1, ?_, o0, ?_, a0, ?_, l0⟩ <;> norm_num at * <;> linarith

theorem weightSmall {M E S A : ℝ} (hM : 0 ≤ M) (hM' : M ≤ 1) (hE : 0 ≤ E) (hE' : E ≤ 1 / 2 ^ 20) (hS : 0 ≤ S) (hS' : S ≤ 5 / 2) (hA : 0 ≤ A) (hA' : A ≤ 1 / 2 ^ 13) :
    weightErr M E S A ≤ 1 / 2 ^ 12 := by
  unfold weightErr dotErr
  have m1 : M * A ≤ 1 * (1 / 2 ^ 13) := mul_le_mul hM' hA' hA (by norm_num)
  have m2 : E * (S + A) ≤ 1 / 2 ^ 20 * 3 := mul_le_mul hE' (by norm_num at *; linarith) (by linarith) (by norm_num)
  have m3 : (S + A + (1 : Nat) / 2 ^ 63) * (M + E + 1 / 2 ^ 63) ≤ 4 * 3 :=
    mul_le_mul (by norm_num at *; linarith) (by norm_num at *; linarith) (by positivity) (by norm_num)
  generalize (S + A + (1 : Nat) / 2 ^ 63) * (M + E + 1 / 2 ^ 63) = a at *
  generalize M * A = b at *
  generalize E * (S + A) = c at *
  norm_num at *
  linarith

theorem largest_le {k : Nat} {f : Nat → ℝ} {B : ℝ} (hB : 0 ≤ B) (h : ∀ i < k, f i ≤ B) : largest k f ≤ B := by
  unfold largest
  have : ∀ l : List Nat, (∀ i ∈ l, i < k) → (l.map f).foldr max 0 ≤ B := by
    intro l
    induction l with
    | nil => intro _; simpa using hB
    | cons a l ih =>
      intro hl
      rw [List.map_cons, List.foldr_cons]
      exact max_le (h a (hl a List.mem_cons_self)) (ih fun i hi => hl i (List.mem_cons_of_mem _ hi))
  exact this _ fun i hi => List.mem_range.mp hi

theorem totalSmall {Y : ℝ} (h : Y ≤ 10) : total 2 Y ≤ 2 ^ 120 := by
  unfold total
  push_cast
  have : (1000 : ℝ) ≤ 2 ^ 120 := by norm_num
  linarith

theorem bounds : conSize 1 gate.wRec (slopeOff 1 1 gate 1 (1 / 2 ^ 20)) (3 / 2) (mseErr (1 / 2 ^ 20) (1 + 1 / 2 ^ 20 + 1 / 2)) 1 0 2 ≤ 10 ∧
    conOff 1 gate.wRec (slopeOff 1 1 gate 1 (1 / 2 ^ 20)) (3 / 2) (mseErr (1 / 2 ^ 20) (1 + 1 / 2 ^ 20 + 1 / 2)) 1 0 2 ≤ 1 / 2 ^ 12 ∧
    conSize 1 gate.wRec (slopeOff 1 1 gate 1 (1 / 2 ^ 20)) (3 / 2) (mseErr (1 / 2 ^ 20) (1 + 1 / 2 ^ 20 + 1 / 2)) 1 (1 / 2 ^ 20) 2 ≤ 10 ∧
    conOff 1 gate.wRec (slopeOff 1 1 gate 1 (1 / 2 ^ 20)) (3 / 2) (mseErr (1 / 2 ^ 20) (1 + 1 / 2 ^ 20 + 1 / 2)) 1 (1 / 2 ^ 20) 2 ≤ 1 / 2 ^ 12 ∧
    biasSize 1 gate.wRec (slopeOff 1 1 gate 1 (1 / 2 ^ 20)) (3 / 2) (mseErr (1 / 2 ^ 20) (1 + 1 / 2 ^ 20 + 1 / 2)) 2 ≤ 10 := by
  obtain ⟨k0, k1⟩ := slopeSmall
  obtain ⟨h0, h1⟩ := mseSmall
  generalize slopeOff 1 1 gate 1 (1 / 2 ^ 20) = κ at *
  generalize mseErr (1 / 2 ^ 20) (1 + 1 / 2 ^ 20 + 1 / 2) = H at *
  have w : ∀ E : ℝ, 0 ≤ E → E ≤ 1 / 2 ^ 20 → ∀ r < 2, weightErr 1 E (3 / 2 + (later 1 gate.wRec κ (3 / 2) H r).1) (argOff κ (3 / 2) H (later 1 gate.wRec κ (3 / 2) H r)) ≤ 1 / 2 ^ 12 := by
    intro E hE hE' r hr
    obtain ⟨a1, a2, a3, a4, a5, a6, a7⟩ := allSmall k0 k1 h0 h1 hr
    exact weightSmall (by norm_num) le_rfl hE hE' (by linarith) (by linarith) a5 a6
  have w' : ∀ E : ℝ, 0 ≤ E → E ≤ 1 / 2 ^ 20 → ∀ r < 2, (3 / 2 + (later 1 gate.wRec κ (3 / 2) H r).1) * 1 + weightErr 1 E (3 / 2 + (later 1 gate.wRec κ (3 / 2) H r).1) (argOff κ (3 / 2) H (later 1 gate.wRec κ (3 / 2) H r)) ≤ 10 := by
    intro E hE hE' r hr
    have := w E hE hE' r hr
    obtain ⟨a1, a2, a3, a4, a5, a6, a7⟩ := allSmall k0 k1 h0 h1 hr
    generalize weightErr 1 E (3 / 2 + (later 1 gate.wRec κ (3 / 2) H r).1) (argOff κ (3 / 2) H (later 1 gate.wRec κ (3 / 2) H r)) = z at *
    norm_num at *
    linarith
  have z : (0 : ℝ) ≤ 1 / 2 ^ 20 := by norm_num
  refine ⟨largest_le (by norm_num) (w' 0 le_rfl z), largest_le (by norm_num) (w 0 le_rfl z), largest_le (by norm_num) (w' _ z le_rfl),
    largest_le (by norm_num) (w _ z le_rfl), largest_le (by norm_num) fun r hr => ?_⟩
  obtain ⟨a1, a2, a3, a4, a5, a6, a7⟩ := allSmall k0 k1 h0 h1 hr
  norm_num at *
  linarith

theorem sound (cpu : Cpu) : Sound 1 1 gate 1 (1 / 2 ^ 20) (3 / 2) (mseErr (1 / 2 ^ 20) (1 + 1 / 2 ^ 20 + 1 / 2))
    (mseSteps cpu 1 1 (theta 1 1 gate) p1 (fun _ => 0) data) where
  gate := fits
  input := by
    intro e he
    have : e.x = [p1] := by
      simp [mseSteps, data] at he
      rcases he with rfl | rfl <;> rfl
    rw [this]
    exact one_within
  losses := by
    have := mse_steps (n := 1) (m := 1) cpu (theta 1 1 Rec32.Example.gate) (r := p1) (by unfold F32.Finite; decide) (by rw [v1]; norm_num) (E := 1 / 2 ^ 20) (T := 1 / 2)
      (by norm_num) data (fun _ => 0) (by
        intro q hq t ht
        obtain rfl : t = [Rec32.Example.half] := by
          simp [data] at hq
          rcases hq with rfl | rfl <;> simp at ht
          exact ht.symm
        refine ⟨rfl, fun i hi => ?_⟩
        obtain rfl : i = 0 := by omega
        refine ⟨by unfold F32.Finite; decide, ?_⟩
        change |val Rec32.Example.half| ≤ 1 / 2
        rw [vh]; norm_num)
    rw [show (1 : ℝ) + 1 / 2 = 3 / 2 by norm_num] at this
    exact this
  last := rfl
  steps := ⟨by simp [mseSteps, data], by simp [mseSteps, data]⟩
  out := by
    intro t _
    have := srn_uniform (n := 1) (m := 1) (g := Rec32.Example.gate) (X := 1) (by norm_num) (by rw [normR]; norm_num) t
    rw [normR] at this
    refine this.trans ?_
    rw [div_le_iff₀ (by norm_num)]
    exact gate_err.trans (by norm_num)
  e50 := by norm_num
  p0 := by norm_num
  h0 := mseSmall.1
  time := by
    intro r hr
    have hr : r < 2 := hr
    obtain ⟨k0, k1⟩ := slopeSmall
    obtain ⟨h0, h1⟩ := mseSmall
    generalize slopeOff 1 1 Rec32.Example.gate 1 (1 / 2 ^ 20) = κ at *
    generalize mseErr (1 / 2 ^ 20) (1 + 1 / 2 ^ 20 + 1 / 2) = H at *
    obtain ⟨a1, a2, a3, a4, a5, a6, a7⟩ := allSmall k0 k1 h0 h1 hr
    have a6' : argOff κ (3 / 2) H (later 1 Rec32.Example.gate.wRec κ (3 / 2) H r) ≤ 1 / 2 := a6.trans (by norm_num)
    have h1' : H ≤ 1 := h1.trans (by norm_num)
    have k1' : κ ≤ 1 := k1.trans (by norm_num)
    have b1 : (100 : ℝ) ≤ 2 ^ 120 := by norm_num
    have b2 : (100 : ℝ) ≤ 2 ^ 121 := by norm_num
    have b3 : (100 : ℝ) ≤ 2 ^ 50 := by norm_num
    have r1 := (reachSmall (w := Rec32.Example.gate.w) (Q := 3 / 2 + (later 1 Rec32.Example.gate.wRec κ (3 / 2) H r).1 + argOff κ (3 / 2) H (later 1 Rec32.Example.gate.wRec κ (3 / 2) H r))
      (by rw [mostW]; norm_num) (by rw [mostW]) (by linarith) (by linarith)).2
    have r2 := (reachSmall (w := Rec32.Example.gate.wRec) (Q := 3 / 2 + (later 1 Rec32.Example.gate.wRec κ (3 / 2) H r).1 + argOff κ (3 / 2) H (later 1 Rec32.Example.gate.wRec κ (3 / 2) H r))
      (by rw [mostR]; norm_num) (by rw [mostR]; norm_num) (by linarith) (by linarith)).2
    have m1 : (1 + κ) * (3 / 2 + (later 1 Rec32.Example.gate.wRec κ (3 / 2) H r).1 + outOff (3 / 2) H (later 1 Rec32.Example.gate.wRec κ (3 / 2) H r)) ≤ 2 * 3 :=
      mul_le_mul (by linarith) (by linarith) (by linarith) (by norm_num)
    exact ⟨by linarith, by linarith, by linarith, by linarith, by linarith⟩
  sumW := totalSmall bounds.1
  sumU := totalSmall bounds.2.2.1
  sumB := totalSmall bounds.2.2.2.2

/-- The gradients of the weight and of the recurrent weight are there, and within `1/1000` of the derivatives of the loss. -/
example (cpu : Cpu) (j : ExpLog.Lane) : ∃ lib sl z cs gw gu dw du, Bptt ⟨cpu, j, lib⟩ sl 1 1 gate none (data.map fun q => (q.1, q.2.map (MseGrad cpu p1))) z cs ∧
    Gather cpu (cs.map (·.gw)) (some gw) ∧ Gather cpu (cs.filterMap (·.gu)) (some gu) ∧
    HasDerivAt (fun t => lossOf 1 1 ((theta 1 1 gate).addW 0 0 t) (fun _ => 0) (mseSteps cpu 1 1 (theta 1 1 gate) p1 (fun _ => 0) data)) dw 0 ∧
    HasDerivAt (fun t => lossOf 1 1 ((theta 1 1 gate).addU 0 0 t) (fun _ => 0) (mseSteps cpu 1 1 (theta 1 1 gate) p1 (fun _ => 0) data)) du 0 ∧
    |val (gw.getD 0 0) - dw| ≤ 1 / 1000 ∧ |val (gu.getD 0 0) - du| ≤ 1 / 1000 := by
  obtain ⟨lib, h⟩ := exists_lib cpu j
  obtain ⟨sl, hs⟩ := Back32.Example.exists_slopes
  have hM : GoodLib (⟨cpu, j, lib⟩ : Machine).lib := h
  obtain ⟨⟨z, cs, hb⟩, -⟩ := srn_ends (M := ⟨cpu, j, lib⟩) (sl := sl) hM hs (sound cpu)
  obtain ⟨⟨gw, hgw⟩, wall⟩ := srn_weights (M := ⟨cpu, j, lib⟩) hM hs (sound cpu) hb
  obtain ⟨⟨gu, hgu⟩, uall⟩ := srn_recurrent (M := ⟨cpu, j, lib⟩) hM hs (sound cpu) hb
  obtain ⟨q, rfl, -, hq⟩ := wall gw hgw
  obtain ⟨-, dw, hdw, ew⟩ := hq 0 (by norm_num) 0 (by norm_num)
  obtain ⟨-, hu⟩ := uall gu hgu
  obtain ⟨du, hdu, -, hsome⟩ := hu 0 (by norm_num) 0 (by norm_num)
  have hne := srn_recurrent_some (M := ⟨cpu, j, lib⟩) hM hs (sound cpu) (by simp [mseSteps, data]) hb hgu
  obtain ⟨q', rfl⟩ := Option.ne_none_iff_exists'.mp hne
  obtain ⟨-, eu⟩ := hsome q' rfl
  obtain ⟨b1, b2, b3, b4, -⟩ := bounds
  have small : ∀ Y β : ℝ, Y ≤ 10 → β ≤ 1 / 2 ^ 12 → sumOff 2 Y β ≤ 1 / 1000 := by
    intro Y β hY hβ
    unfold sumOff
    push_cast
    norm_num at *
    linarith
  rw [mse_words] at hb
  refine ⟨lib, sl, z, cs, q, q', dw, du, hb, hgw, hgu, hdw, hdu, ?_, ?_⟩
  · exact ew.trans (small _ _ b1 b2)
  · exact eu.trans (small _ _ b3 b4)

end Example
end Verif.Srn32
