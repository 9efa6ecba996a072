import Verif.Props.Lstm32
import Verif.Props.Srn32Loss

set_option autoImplicit false
set_option linter.unusedSimpArgs false

/-!
# C102: the squared error of some of the outputs, and an example
-/

namespace Verif.Lstm32
open Verif.F32 Verif.Asm Verif.Spec Verif.Spec.Kernels Verif.Net32 Verif.Rec32 Verif.Att32 Verif.Back32 Verif.Srn32 Verif.Spec.Net32 Verif.Spec.Rec32
  Verif.Spec.Back32 Verif.Spec.Srn32 Verif.Spec.Train32 Verif.Spec.Lstm32

variable {n m : Nat}

/-- Inputs with targets for some of the outputs; the losses get the gradient `r`. -/
noncomputable def mseSteps (cpu : Cpu) (n m : Nat) (Θ : Thetas) (r : F32.W) : (Nat → ℝ) → (Nat → ℝ) → List (List F32.W × Option (List F32.W)) → List SStep
  | _, _, [] => []
  | c, y, q :: qs => ⟨q.1, q.2.map fun t => ⟨MseGrad cpu r t, squared n (val r) fun i => val (t.getD i 0),
      fun i => val r * (outL n m Θ (vals q.1) c y i - val (t.getD i 0))⟩⟩ :: mseSteps cpu n m Θ r (cellL n m Θ (vals q.1) c y) (outL n m Θ (vals q.1) c y) qs

theorem mse_words (cpu : Cpu) (Θ : Thetas) (r : F32.W) : ∀ (qs : List (List F32.W × Option (List F32.W))) (c y : Nat → ℝ),
    (mseSteps cpu n m Θ r c y qs).map word = qs.map fun q => (q.1, q.2.map (MseGrad cpu r))
  | [], _, _ => rfl
  | q :: qs, c, y => by
    rw [mseSteps, List.map_cons, List.map_cons, mse_words cpu Θ r qs]
    simp [word, Function.comp_def]

/-- **C102: the squared error of the outputs that have a target.** -/
theorem mse_steps (cpu : Cpu) (Θ : Thetas) {r : F32.W} (hr : F32.Finite r) (h1 : |val r| ≤ 1) {E T : ℝ} (hX : 1 + E + T ≤ 2 ^ 100) :
    ∀ (qs : List (List F32.W × Option (List F32.W))) (c y : Nat → ℝ),
      (∀ q ∈ qs, ∀ t, q.2 = some t → t.length = n ∧ ∀ i < n, F32.Finite (t.getD i 0) ∧ |val (t.getD i 0)| ≤ T) →
      GoodL n m Θ E (1 + T) (mseErr E (1 + E + T)) c y (mseSteps cpu n m Θ r c y qs)
  | [], _, _, _ => trivial
  | q :: qs, c, y, h => by
    refine ⟨fun l hl => ?_, mse_steps cpu Θ hr h1 hX qs _ _ fun q hq => h q (List.mem_cons_of_mem _ hq)⟩
    obtain ⟨t, ht, rfl⟩ := Option.map_eq_some_iff.mp hl
    obtain ⟨a1, a2⟩ := h q List.mem_cons_self t ht
    exact ⟨mse_good cpu hr h1 a1 a2 hX, squared_grad _ _ _ _⟩

/-! ## An example: the inputs 1 and 1, and the target 1/2 for the second output -/

namespace Example
open Verif.Rec32.Example Verif.Net32.Example Verif.Srn32.Example

def net : Lstm := ⟨gate, gate, gate, gate⟩

theorem net_gate (q : Gt) : gateOf net q = gate := by cases q <;> rfl

theorem outSmall : ∀ t ≤ 2, (lstmBound 1 1 net 1 t).1 ≤ 1 / 2 ^ 16 ∧ (lstmBound 1 1 net 1 t).2 ≤ 1 / 2 ^ 16 := by
  intro t ht
  match t, ht with
  | 0, _ => simp [lstmBound]
  | 1, _ =>
    simp only [lstmBound, cellErr, outErr, cellMove, net, sigErr, tanhErr, preErr, preTop, top, dotErr, normW, normR, biasG]; norm_num
  | 2, _ =>
    simp only [lstmBound, cellErr, outErr, cellMove, net, sigErr, tanhErr, preErr, preTop, top, dotErr, normW, normR, biasG]; norm_num

noncomputable def τ : Tol := tol 1 1 net 1 (1 / 2 ^ 16) (1 / 2 ^ 16) 2

theorem sumSmall (q : Gt) : sumErr 1 1 net 1 (1 / 2 ^ 16) q ≤ 5 / 2 ^ 19 := by
  unfold sumErr
  rw [net_gate, normR]
  have := preSmall
  norm_num at *
  linarith

theorem evSmall (q : Gt) : τ.ev q ≤ 1 / 2 ^ 16 := by
  have := sumSmall q
  show actErr (actOf q) + lipOf (actOf q) * sumErr 1 1 net 1 (1 / 2 ^ 16) q ≤ 1 / 2 ^ 16
  generalize sumErr 1 1 net 1 (1 / 2 ^ 16) q = s at *
  cases q <;> simp only [actOf, actErr, lipOf] <;> norm_num at * <;> linarith

theorem kaSmall (q : Gt) : τ.ka q ≤ 3 / 2 ^ 17 := by
  have := sumSmall q
  show slopeErr (actOf q) (sumErr 1 1 net 1 (1 / 2 ^ 16) q) ≤ 3 / 2 ^ 17
  generalize sumErr 1 1 net 1 (1 / 2 ^ 16) q = s at *
  cases q <;> simp only [actOf, slopeErr] <;> norm_num at * <;> linarith

theorem tolOk : TolOk τ := by
  have hs : ∀ q, 0 ≤ sumErr 1 1 net 1 (1 / 2 ^ 16) q := sumErr_nonneg (by norm_num) (by norm_num)
  refine ⟨fun q => ?_, fun q => ?_, by show (0 : ℝ) ≤ 1 / 2 ^ 16; norm_num, Nat.cast_nonneg _, fun q => (evSmall q).trans (by norm_num),
    fun q => (kaSmall q).trans (by norm_num), by show 2 * (1 / 2 ^ 16) + 1 / 2 ^ 23 ≤ (1 : ℝ); norm_num, by show ((2 : ℕ) : ℝ) ≤ 2 ^ 20; norm_num⟩
  · have := hs q
    show 0 ≤ actErr (actOf q) + lipOf (actOf q) * sumErr 1 1 net 1 (1 / 2 ^ 16) q
    cases q <;> simp only [actOf, actErr, lipOf] <;> positivity
  · have := hs q
    show 0 ≤ slopeErr (actOf q) (sumErr 1 1 net 1 (1 / 2 ^ 16) q)
    cases q <;> simp only [actOf, slopeErr] <;> positivity

theorem mulOff_le {A E P H A' E' P' H' B : ℝ} (hA : 0 ≤ A) (hE : 0 ≤ E) (hP : 0 ≤ P) (hH : 0 ≤ H) (a : A ≤ A') (e : E ≤ E') (p : P ≤ P') (h : H ≤ H')
    (hB : A' * H' + E' * (P' + H') + ((A' + E') * (P' + H') + 1) / 2 ^ 24 ≤ B) : mulOff A E P H ≤ B := by
  refine le_trans ?_ hB
  unfold mulOff
  have s1 : (2 : ℝ) ^ (-126 : Int) ≤ 1 := by norm_num
  have m1 : A * H ≤ A' * H' := mul_le_mul a h hH (hA.trans a)
  have m2 : E * (P + H) ≤ E' * (P' + H') := mul_le_mul e (by linarith) (by linarith) (hE.trans e)
  have m3 : (A + E) * (P + H) ≤ (A' + E') * (P' + H') := mul_le_mul (by linarith) (by linarith) (by linarith) (by linarith)
  generalize (2 : ℝ) ^ (-126 : Int) = s at *
  have : ((A + E) * (P + H) + s) / 2 ^ 24 ≤ ((A' + E') * (P' + H') + 1) / 2 ^ 24 := by gcongr
  linarith

/-- Bounds in front of the activations, from those behind the cell. -/
structure Stage (p : Later) (H Y η Cc κ w : ℝ) (D : Gt → ℝ) : Prop where
  y : yTop (3 / 2) p ≤ Y
  y' : yOff (3 / 2) H p ≤ η
  c : cellTop (3 / 2) p ≤ Cc
  c' : cellOff τ (3 / 2) H p ≤ κ
  f : mulOff 1 (τ.ev .forget) (cellTop (3 / 2) p) (cellOff τ (3 / 2) H p) ≤ w
  v : ∀ q, valTop τ (3 / 2) p q ≤ 2 * Cc ∧ valOff τ (3 / 2) H p q ≤ 1
  a : ∀ q, argTop τ (3 / 2) p q ≤ (match q with | .inp => 1 / 4 * Cc | .out => 1 / 4 * Y | .forget => 1 / 2 * Cc | .cand => Cc)
  a' : ∀ q, argOffL τ (3 / 2) H p q ≤ D q

theorem stage {p : Later} {H : ℝ} (hp : LaterOk p) (hH : 0 ≤ H) (hH' : H ≤ 1 / 2 ^ 15) {a b : Gt → ℝ} {c1 c2 Y η t s Cc κ w wo wf : ℝ} {D : Gt → ℝ}
    (ha : ∀ q, (p.y q).1 ≤ a q) (hb : ∀ q, (p.y q).2 ≤ b q) (hc1 : p.c.1 ≤ c1) (hc2 : p.c.2 ≤ c2)
    (h1 : 3 / 2 + sumG a ≤ Y) (h2 : 1 / 2 ^ 15 + sumG b + 25 * (3 / 2 + 1 / 2 ^ 15 + (sumG a + sumG b)) / 2 ^ 24 ≤ η)
    (h3 : 1 * η + 1 / 2 ^ 16 * (Y + η) + ((1 + 1 / 2 ^ 16) * (Y + η) + 1) / 2 ^ 24 ≤ t)
    (h4 : 1 * t + 1 / 2 ^ 14 * (Y + t) + ((1 + 1 / 2 ^ 14) * (Y + t) + 1) / 2 ^ 24 ≤ s)
    (h5 : Y + c1 ≤ Cc) (h6 : s + c2 + 4 * (Y + s + (c1 + c2)) / 2 ^ 24 ≤ κ)
    (h7 : 1 * κ + 1 / 2 ^ 16 * (Cc + κ) + ((1 + 1 / 2 ^ 16) * (Cc + κ) + 1) / 2 ^ 24 ≤ w)
    (h8 : 1 * η + 1 / 2 ^ 15 * (Y + η) + ((1 + 1 / 2 ^ 15) * (Y + η) + 1) / 2 ^ 24 ≤ wo)
    (h9 : 2 * κ + 1 / 2 ^ 16 * (Cc + κ) + ((2 + 1 / 2 ^ 16) * (Cc + κ) + 1) / 2 ^ 24 ≤ wf)
    (w1 : w ≤ 1) (w2 : wo ≤ 1) (w3 : wf ≤ 1) (hY : Y ≤ Cc) (hCc : 0 ≤ Cc)
    (d1 : 1 / 4 * w + 3 / 2 ^ 17 * (Cc + w) + ((1 / 4 + 3 / 2 ^ 17) * (Cc + w) + 1) / 2 ^ 24 ≤ D .inp)
    (d2 : 1 / 4 * wo + 3 / 2 ^ 17 * (Y + wo) + ((1 / 4 + 3 / 2 ^ 17) * (Y + wo) + 1) / 2 ^ 24 ≤ D .out)
    (d3 : 1 / 4 * wf + 3 / 2 ^ 17 * (2 * Cc + wf) + ((1 / 4 + 3 / 2 ^ 17) * (2 * Cc + wf) + 1) / 2 ^ 24 ≤ D .forget)
    (d4 : 1 * w + 3 / 2 ^ 17 * (Cc + w) + ((1 + 3 / 2 ^ 17) * (Cc + w) + 1) / 2 ^ 24 ≤ D .cand) : Stage p H Y η Cc κ w D := by
  have S := signs tolOk (by norm_num : (0 : ℝ) ≤ 3 / 2) hH hp
  have sa : sumG (fun q => (p.y q).1) ≤ sumG a := by
    have := ha .inp; have := ha .out; have := ha .forget; have := ha .cand
    unfold sumG; linarith
  have sb : sumG (fun q => (p.y q).2) ≤ sumG b := by
    have := hb .inp; have := hb .out; have := hb .forget; have := hb .cand
    unfold sumG; linarith
  have sab : sumG (fun q => (p.y q).1 + (p.y q).2) ≤ sumG a + sumG b := by
    unfold sumG at *; linarith
  have y1 : yTop (3 / 2) p ≤ Y := by unfold yTop; linarith
  have y2 : yOff (3 / 2) H p ≤ η := by
    refine le_trans ?_ h2
    unfold yOff
    gcongr
  have t1 : thruOff τ (3 / 2) H p ≤ t := mulOff_le zero_le_one (tolOk.ev0 _) S.yT S.yO le_rfl (evSmall _) y1 y2 h3
  have es : slopeErr .tanh τ.ec ≤ 1 / 2 ^ 14 := by
    show 2 * (1 / 2 ^ 16) + 1 / 2 ^ 23 ≤ (1 : ℝ) / 2 ^ 14
    norm_num
  have es0 : 0 ≤ slopeErr .tanh τ.ec := by
    show 0 ≤ 2 * (1 / 2 ^ 16) + (1 : ℝ) / 2 ^ 23
    norm_num
  have s1 : tOff τ (3 / 2) H p ≤ s := mulOff_le zero_le_one es0 S.yT S.thr le_rfl es y1 t1 h4
  have c1' : cellTop (3 / 2) p ≤ Cc := by unfold cellTop; linarith
  have k1 : cellOff τ (3 / 2) H p ≤ κ := by
    refine le_trans ?_ h6
    unfold cellOff
    gcongr
  have V1 : ∀ q, valTop τ (3 / 2) p q ≤ (match q with | .inp => Cc | .out => Y | .forget => 2 * Cc | .cand => Cc) := by
    intro q
    cases q
    · exact c1'
    · exact y1
    · show ((2 : ℕ) : ℝ) * cellTop (3 / 2) p ≤ 2 * Cc
      push_cast; linarith
    · exact c1'
  have ecs : τ.ec = 1 / 2 ^ 16 := rfl
  have V2 : ∀ q, valOff τ (3 / 2) H p q ≤ (match q with | .inp => w | .out => wo | .forget => wf | .cand => w) := by
    intro q
    cases q
    · exact mulOff_le zero_le_one (tolOk.ev0 _) S.cT S.cO le_rfl (evSmall _) c1' k1 h7
    · exact mulOff_le zero_le_one (by rw [ecs]; norm_num) S.yT S.yO le_rfl (by rw [ecs]; norm_num : 1 / 2 ^ 23 + τ.ec ≤ 1 / 2 ^ 15) y1 y2 h8
    · exact mulOff_le tolOk.C0 tolOk.ec0 S.cT S.cO (by show ((2 : ℕ) : ℝ) ≤ 2; norm_num) (by rw [ecs]) c1' k1 h9
    · exact mulOff_le zero_le_one (tolOk.ev0 _) S.cT S.cO le_rfl (evSmall _) c1' k1 h7
  refine ⟨y1, y2, c1', k1, mulOff_le zero_le_one (tolOk.ev0 _) S.cT S.cO le_rfl (evSmall _) c1' k1 h7, fun q => ⟨?_, ?_⟩, fun q => ?_, fun q => ?_⟩
  · have := V1 q
    cases q <;> simp only at this <;> linarith
  · have := V2 q
    cases q <;> simp only at this <;> linarith
  · have := V1 q
    unfold argTop
    cases q <;> simp only [actOf, steepest] at this ⊢ <;> linarith
  · have v1 := V1 q
    have v2 := V2 q
    have n1 := S.vT q
    have n2 := S.vO q
    cases q
    · exact mulOff_le (by simp [actOf, steepest]) (tolOk.ka0 _) n1 n2 le_rfl (kaSmall _) v1 v2 d1
    · exact mulOff_le (by simp [actOf, steepest]) (tolOk.ka0 _) n1 n2 le_rfl (kaSmall _) v1 v2 d2
    · exact mulOff_le (by simp [actOf, steepest]) (tolOk.ka0 _) n1 n2 le_rfl (kaSmall _) v1 v2 d3
    · exact mulOff_le (by simp [actOf, steepest]) (tolOk.ka0 _) n1 n2 le_rfl (kaSmall _) v1 v2 d4

/-- The errors in units of `2^-14`. -/
noncomputable def D0 : Gt → ℝ
  | .inp => 2 / 2 ^ 14 | .out => 2 / 2 ^ 14 | .forget => 4 / 2 ^ 14 | .cand => 5 / 2 ^ 14
noncomputable def D1 : Gt → ℝ
  | .inp => 9 / 2 ^ 14 | .out => 5 / 2 ^ 14 | .forget => 16 / 2 ^ 14 | .cand => 20 / 2 ^ 14

theorem stage0 {H : ℝ} (hH : 0 ≤ H) (hH' : H ≤ 1 / 2 ^ 15) : Stage (laterL 1 net τ (3 / 2) H 0) H (3 / 2) (6 / 10 / 2 ^ 14) (3 / 2) (27 / 10 / 2 ^ 14) (31 / 10 / 2 ^ 14) D0 :=
  stage (a := fun _ => 0) (b := fun _ => 0) (c1 := 0) (c2 := 0) (t := 1 / 2 ^ 14) (s := 26 / 10 / 2 ^ 14) (wo := 14 / 10 / 2 ^ 14) (wf := 58 / 10 / 2 ^ 14)
    (later_ok net tolOk (by norm_num) hH 0) hH hH' (fun _ => le_rfl) (fun _ => le_rfl) le_rfl le_rfl (by simp [sumG]) (by simp only [sumG]; norm_num) (by norm_num) (by norm_num)
    (by norm_num) (by norm_num) (by norm_num) (by norm_num) (by norm_num) (by norm_num) (by norm_num) (by norm_num) (by norm_num) (by norm_num)
    (by simp only [D0]; norm_num) (by simp only [D0]; norm_num) (by simp only [D0]; norm_num) (by simp only [D0]; norm_num)

noncomputable def A1 : Gt → ℝ
  | .inp => 3 / 16 | .out => 3 / 16 | .forget => 3 / 8 | .cand => 3 / 4
noncomputable def B1 : Gt → ℝ
  | .inp => 11 / 10 / 2 ^ 14 | .out => 11 / 10 / 2 ^ 14 | .forget => 21 / 10 / 2 ^ 14 | .cand => 26 / 10 / 2 ^ 14

theorem reachLe {w : List F32.W} {S D S' D' : ℝ} (h0 : 0 ≤ S) (h0' : 0 ≤ D) (m1 : most w ≤ 1) (hS : S ≤ S') (hD : D ≤ D') : reach 1 w (S + D) ≤ S' + D' + 1 := by
  unfold reach
  have s1 : (2 : ℝ) ^ (-126 : Int) ≤ 1 := by norm_num
  have : most w * (S + D) ≤ 1 * (S' + D') := mul_le_mul m1 (by linarith) (by linarith) (by norm_num)
  generalize (2 : ℝ) ^ (-126 : Int) = s at *
  push_cast
  linarith

theorem stage1 {H : ℝ} (hH : 0 ≤ H) (hH' : H ≤ 1 / 2 ^ 15) : Stage (laterL 1 net τ (3 / 2) H 1) H 3 (8 / 2 ^ 14) (9 / 2) (152 / 10 / 2 ^ 14) (165 / 10 / 2 ^ 14) D1 := by
  have s0 := stage0 hH hH'
  have S := signs tolOk (by norm_num : (0 : ℝ) ≤ 3 / 2) hH (later_ok (n := 1) net tolOk (by norm_num : (0 : ℝ) ≤ 3 / 2) hH 0)
  refine stage (a := A1) (b := B1) (c1 := 3 / 2) (c2 := 31 / 10 / 2 ^ 14) (t := 88 / 10 / 2 ^ 14) (s := 119 / 10 / 2 ^ 14) (wo := 97 / 10 / 2 ^ 14) (wf := 318 / 10 / 2 ^ 14)
    (later_ok net tolOk (by norm_num) hH 1) hH hH' (fun q => ?_) (fun q => ?_) s0.c s0.f (by simp only [sumG, A1]; norm_num) (by simp only [sumG, A1, B1]; norm_num) (by norm_num) (by norm_num)
    (by norm_num) (by norm_num) (by norm_num) (by norm_num) (by norm_num) (by norm_num) (by norm_num) (by norm_num) (by norm_num) (by norm_num)
    (by simp only [D1]; norm_num) (by simp only [D1]; norm_num) (by simp only [D1]; norm_num) (by simp only [D1]; norm_num)
  · show colNorm 1 1 (gateOf net q).wRec * argTop τ (3 / 2) (laterL 1 net τ (3 / 2) H 0) q ≤ A1 q
    rw [net_gate, colR]
    have := s0.a q
    cases q <;> simp only [A1] at this ⊢ <;> linarith
  · show mulTOff 1 1 (gateOf net q).wRec (argTop τ (3 / 2) (laterL 1 net τ (3 / 2) H 0) q) (argOffL τ (3 / 2) H (laterL 1 net τ (3 / 2) H 0) q) ≤ B1 q
    have a1 : argTop τ (3 / 2) (laterL 1 net τ (3 / 2) H 0) q ≤ 3 / 2 := by
      have := s0.a q
      cases q <;> simp only at this <;> linarith
    have a2 := s0.a' q
    have a3 : D0 q ≤ 1 / 2 := by cases q <;> simp only [D0] <;> norm_num
    unfold mulTOff
    rw [net_gate, colR]
    have r := reachLe (w := gate.wRec) (S.aT q) (S.aO q) (by rw [mostR]; norm_num) a1 (a2.trans a3)
    generalize reach 1 gate.wRec _ = R at *
    generalize argOffL τ (3 / 2) H (laterL 1 net τ (3 / 2) H 0) q = o at *
    clear a3
    cases q <;> simp only [D0, B1] at a2 ⊢ <;> norm_num at * <;> linarith

/-- With at most one step to come. -/
theorem small {H : ℝ} (hH : 0 ≤ H) (hH' : H ≤ 1 / 2 ^ 15) {r : Nat} (hr : r < 2) :
    Stage (laterL 1 net τ (3 / 2) H r) H 3 (8 / 2 ^ 14) (9 / 2) (152 / 10 / 2 ^ 14) (165 / 10 / 2 ^ 14) D1 := by
  match r, hr with
  | 0, _ =>
    have s := stage0 hH hH'
    refine ⟨s.y.trans (by norm_num), s.y'.trans (by norm_num), s.c.trans (by norm_num), s.c'.trans (by norm_num), s.f.trans (by norm_num),
      fun q => ⟨(s.v q).1.trans (by norm_num), (s.v q).2⟩, fun q => (s.a q).trans ?_, fun q => (s.a' q).trans ?_⟩
    · cases q <;> norm_num
    · cases q <;> simp only [D0, D1] <;> norm_num
  | 1, _ => exact stage1 hH hH'

/-- In front of the activations. -/
theorem argSmall {H : ℝ} (hH : 0 ≤ H) (hH' : H ≤ 1 / 2 ^ 15) {r : Nat} (hr : r < 2) (q : Gt) :
    0 ≤ tops 1 net τ (3 / 2) H q r ∧ tops 1 net τ (3 / 2) H q r ≤ 9 / 2 ∧ 0 ≤ offs 1 net τ (3 / 2) H q r ∧ offs 1 net τ (3 / 2) H q r ≤ 20 / 2 ^ 14 := by
  have s := small hH hH' hr
  have S := signs tolOk (by norm_num : (0 : ℝ) ≤ 3 / 2) hH (later_ok (n := 1) net tolOk (by norm_num : (0 : ℝ) ≤ 3 / 2) hH r)
  refine ⟨S.aT q, (s.a q).trans ?_, S.aO q, (s.a' q).trans ?_⟩
  · cases q <;> norm_num
  · cases q <;> simp only [D1] <;> norm_num

theorem weightSmall {M E S A : ℝ} (hM : 0 ≤ M) (hM' : M ≤ 1) (hE : 0 ≤ E) (hE' : E ≤ 1 / 2 ^ 16) (hS : 0 ≤ S) (hS' : S ≤ 9 / 2) (hA : 0 ≤ A) (hA' : A ≤ 20 / 2 ^ 14) :
    weightErr M E S A ≤ 24 / 2 ^ 14 := by
  unfold weightErr dotErr
  have m1 : M * A ≤ 1 * (20 / 2 ^ 14) := mul_le_mul hM' hA' hA (by norm_num)
  have m2 : E * (S + A) ≤ 1 / 2 ^ 16 * 5 := mul_le_mul hE' (by norm_num at *; linarith) (by linarith) (by norm_num)
  have m3 : (S + A + (1 : Nat) / 2 ^ 63) * (M + E + 1 / 2 ^ 63) ≤ 6 * 3 :=
    mul_le_mul (by norm_num at *; linarith) (by norm_num at *; linarith) (by positivity) (by norm_num)
  generalize (S + A + (1 : Nat) / 2 ^ 63) * (M + E + 1 / 2 ^ 63) = a at *
  generalize M * A = b at *
  generalize E * (S + A) = c at *
  norm_num at *
  linarith

theorem bounds {H : ℝ} (hH : 0 ≤ H) (hH' : H ≤ 1 / 2 ^ 15) (q : Gt) {E : ℝ} (hE : 0 ≤ E) (hE' : E ≤ 1 / 2 ^ 16) :
    conTop (tops 1 net τ (3 / 2) H q) (offs 1 net τ (3 / 2) H q) 1 E 2 ≤ 10 ∧ conErr (tops 1 net τ (3 / 2) H q) (offs 1 net τ (3 / 2) H q) 1 E 2 ≤ 24 / 2 ^ 14 ∧
    biasTop (tops 1 net τ (3 / 2) H q) (offs 1 net τ (3 / 2) H q) 2 ≤ 10 ∧ inTop 1 1 (gateOf net q).w (tops 1 net τ (3 / 2) H q) 2 ≤ 10 ∧
    inErr 1 1 (gateOf net q).w (tops 1 net τ (3 / 2) H q) (offs 1 net τ (3 / 2) H q) 2 ≤ 10 := by
  have w : ∀ r < 2, weightErr 1 E (tops 1 net τ (3 / 2) H q r) (offs 1 net τ (3 / 2) H q r) ≤ 24 / 2 ^ 14 := fun r hr => by
    obtain ⟨a1, a2, a3, a4⟩ := argSmall hH hH' hr q
    exact weightSmall (by norm_num) le_rfl hE hE' a1 a2 a3 a4
  have b : (20 : ℝ) / 2 ^ 14 ≤ 1 := by norm_num
  have b' : (24 : ℝ) / 2 ^ 14 ≤ 1 := by norm_num
  refine ⟨largest_le (by norm_num) fun r hr => ?_, largest_le (by norm_num) w, largest_le (by norm_num) fun r hr => ?_, largest_le (by norm_num) fun r hr => ?_,
    largest_le (by norm_num) fun r hr => ?_⟩
  · have := w r hr
    obtain ⟨a1, a2, a3, a4⟩ := argSmall hH hH' hr q
    linarith
  · obtain ⟨a1, a2, a3, a4⟩ := argSmall hH hH' hr q
    linarith
  · obtain ⟨a1, a2, a3, a4⟩ := argSmall hH hH' hr q
    rw [net_gate, colW]
    linarith
  · obtain ⟨a1, a2, a3, a4⟩ := argSmall hH hH' hr q
    unfold mulTOff
    rw [net_gate, colW]
    have r := reachLe (w := gate.w) a1 a3 (by rw [mostW]) a2 a4
    generalize reach 1 gate.w _ = R at *
    norm_num at *
    linarith

theorem lossErr : 0 ≤ mseErr (1 / 2 ^ 16) (1 + 1 / 2 ^ 16 + 1 / 2) ∧ mseErr (1 / 2 ^ 16) (1 + 1 / 2 ^ 16 + 1 / 2) ≤ 1 / 2 ^ 15 := by
  unfold mseErr
  have s0 : (0 : ℝ) ≤ (2 : ℝ) ^ (-126 : Int) := by positivity
  have s1 : (2 : ℝ) ^ (-126 : Int) ≤ 1 := by norm_num
  generalize (2 : ℝ) ^ (-126 : Int) = s at *
  constructor <;> norm_num <;> linarith

theorem sound (cpu : Cpu) : Sound 1 1 net 1 (1 / 2 ^ 16) (1 / 2 ^ 16) (3 / 2) (mseErr (1 / 2 ^ 16) (1 + 1 / 2 ^ 16 + 1 / 2))
    (mseSteps cpu 1 1 (thetas 1 1 net) p1 (fun _ => 0) (fun _ => 0) data) where
  gate := fun q => by rw [net_gate]; exact fits
  input := by
    intro e he
    have : e.x = [p1] := by
      simp [mseSteps, data] at he
      rcases he with rfl | rfl <;> rfl
    rw [this]
    exact one_within
  losses := by
    have := mse_steps (n := 1) (m := 1) cpu (thetas 1 1 net) (r := p1) (by unfold F32.Finite; decide) (by rw [v1]; norm_num) (E := 1 / 2 ^ 16) (T := 1 / 2)
      (by norm_num) data (fun _ => 0) (fun _ => 0) (by
        intro q hq t ht
        obtain rfl : t = [Rec32.Example.half] := by
          simp [data] at hq
          rcases hq with rfl | rfl <;> simp at ht
          exact ht.symm
        refine ⟨rfl, fun i hi => ?_⟩
        obtain rfl : i = 0 := by omega
        refine ⟨by unfold F32.Finite; decide, ?_⟩
        change |val Rec32.Example.half| ≤ 1 / 2
        rw [vh]; norm_num)
    rw [show (1 : ℝ) + 1 / 2 = 3 / 2 by norm_num] at this
    exact this
  last := rfl
  steps := ⟨by simp [mseSteps, data], by simp [mseSteps, data]⟩
  out := outSmall
  e50 := by norm_num
  p0 := by norm_num
  h0 := lossErr.1
  gates := fun q => ⟨tolOk.ev1 q, tolOk.ka1 q⟩
  cells := tolOk.ec1
  time := by
    intro r hr
    have hr : r < 2 := hr
    obtain ⟨h0, h1⟩ := lossErr
    have s := small h0 h1 hr
    have b1 : (100 : ℝ) ≤ 2 ^ 100 := by norm_num
    have b2 : (100 : ℝ) ≤ 2 ^ 121 := by norm_num
    have b3 : (100 : ℝ) ≤ 2 ^ 50 := by norm_num
    have b4 : (20 : ℝ) / 2 ^ 14 ≤ 1 := by norm_num
    refine ⟨(add_le_add s.y s.y').trans (by norm_num), (add_le_add s.c s.c').trans (by norm_num), fun q => ?_⟩
    obtain ⟨a1, a2, a3, a4⟩ := argSmall h0 h1 hr q
    refine ⟨(add_le_add (s.v q).1 (s.v q).2).trans (by norm_num), (add_le_add a2 a4).trans (by norm_num), ?_, ?_⟩
    · rw [net_gate]
      exact (reachLe (w := Rec32.Example.gate.w) a1 a3 (by rw [mostW]) a2 a4).trans (by norm_num)
    · rw [net_gate]
      exact (reachLe (w := Rec32.Example.gate.wRec) a1 a3 (by rw [mostR]; norm_num) a2 a4).trans (by norm_num)
  sumW := fun q => totalSmall (bounds lossErr.1 lossErr.2 q le_rfl (by norm_num)).1
  sumU := fun q => totalSmall (bounds lossErr.1 lossErr.2 q (by norm_num) le_rfl).1
  sumB := fun q => totalSmall (bounds lossErr.1 lossErr.2 q le_rfl (by norm_num)).2.2.1
  sumX := by
    have h := fun q => (bounds lossErr.1 lossErr.2 q (E := 0) le_rfl (by norm_num)).2.2.2
    have i1 := h .inp; have i2 := h .out; have i3 := h .forget; have i4 := h .cand
    have b : (80 : ℝ) ≤ 2 ^ 115 := by norm_num
    refine le_trans ?_ b
    unfold xSum sumG
    exact (add_le_add (add_le_add (add_le_add (add_le_add i1.1 i1.2) (add_le_add i2.1 i2.2)) (add_le_add i3.1 i3.2)) (add_le_add i4.1 i4.2)).trans (by norm_num)

/-- The gradients of the weight and of the recurrent weight of every gate are there, and within `1/200` of the derivatives of the loss. -/
example (cpu : Cpu) (j : ExpLog.Lane) : ∃ lib sl zy zc cs, Bptt ⟨cpu, j, lib⟩ sl 1 1 net none (data.map fun q => (q.1, q.2.map (MseGrad cpu p1))) zy zc cs ∧
    ∀ q, ∃ gw gu dw du, Gather cpu (cs.filterMap (toW q)) (some gw) ∧ Gather cpu (cs.filterMap (toU q)) (some gu) ∧
    HasDerivAt (fun t => lossL 1 1 ((thetas 1 1 net).set q ((thetas 1 1 net q).addW 0 0 t)) (fun _ => 0) (fun _ => 0)
      (mseSteps cpu 1 1 (thetas 1 1 net) p1 (fun _ => 0) (fun _ => 0) data)) dw 0 ∧
    HasDerivAt (fun t => lossL 1 1 ((thetas 1 1 net).set q ((thetas 1 1 net q).addU 0 0 t)) (fun _ => 0) (fun _ => 0)
      (mseSteps cpu 1 1 (thetas 1 1 net) p1 (fun _ => 0) (fun _ => 0) data)) du 0 ∧
    |val (gw.getD 0 0) - dw| ≤ 1 / 200 ∧ |val (gu.getD 0 0) - du| ≤ 1 / 200 := by
  obtain ⟨lib, h⟩ := exists_lib cpu j
  obtain ⟨sl, hs⟩ := Back32.Example.exists_slopes
  have hM : GoodLib (⟨cpu, j, lib⟩ : Machine).lib := h
  obtain ⟨⟨zy, zc, cs, hb⟩, -⟩ := lstm_ends (M := ⟨cpu, j, lib⟩) (sl := sl) hM hs (sound cpu)
  have hb' := hb
  rw [mse_words] at hb'
  refine ⟨lib, sl, zy, zc, cs, hb', fun q => ?_⟩
  have two : 2 ≤ (mseSteps cpu 1 1 (thetas 1 1 net) p1 (fun _ => 0) (fun _ => 0) data).length := by simp [mseSteps, data]
  obtain ⟨⟨gw, hgw⟩, wall⟩ := lstm_weights (M := ⟨cpu, j, lib⟩) hM hs (sound cpu) hb q
  obtain ⟨⟨gu, hgu⟩, uall⟩ := lstm_recurrent (M := ⟨cpu, j, lib⟩) hM hs (sound cpu) hb q
  obtain ⟨⟨gb, hgb⟩, -⟩ := lstm_bias (M := ⟨cpu, j, lib⟩) hM hs (sound cpu) hb q
  obtain ⟨s1, s2⟩ := lstm_some (M := ⟨cpu, j, lib⟩) hM hs (sound cpu) hb q
  obtain ⟨w, rfl⟩ := Option.ne_none_iff_exists'.mp (s1 (Or.inr two) gw gb hgw hgb).1
  obtain ⟨u, rfl⟩ := Option.ne_none_iff_exists'.mp (s2 two gu hgu)
  obtain ⟨dw, hdw, -, ew⟩ := (wall _ hgw).2 0 (by norm_num) 0 (by norm_num)
  obtain ⟨du, hdu, -, eu⟩ := (uall _ hgu).2 0 (by norm_num) 0 (by norm_num)
  have small : ∀ Y β : ℝ, Y ≤ 10 → β ≤ 24 / 2 ^ 14 → sumOff 2 Y β ≤ 1 / 200 := by
    intro Y β hY hβ
    unfold sumOff
    push_cast
    norm_num at *
    linarith
  obtain ⟨b1, b2, -⟩ := bounds lossErr.1 lossErr.2 q (E := 0) le_rfl (by norm_num)
  obtain ⟨b3, b4, -⟩ := bounds lossErr.1 lossErr.2 q (E := 1 / 2 ^ 16) (by norm_num) le_rfl
  exact ⟨w, u, dw, du, hgw, hgu, hdw, hdu, (ew w rfl).2.trans (small _ _ b1 b2), (eu u rfl).2.trans (small _ _ b3 b4)⟩

end Example
end Verif.Lstm32
