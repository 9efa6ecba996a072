import Verif.Props.Tagger32

set_option autoImplicit false
set_option linter.unusedSimpArgs false

/-!
# C104: taggers with the squared error and with the cross entropy, and an example
-/

namespace Verif.Tagger32
open Verif.F32 Verif.Asm Verif.Spec Verif.Spec.Kernels Verif.Net32 Verif.Rec32 Verif.Att32 Verif.Back32 Verif.Srn32 Verif.Spec.Net32 Verif.Spec.Rec32
  Verif.Spec.Back32 Verif.Spec.Srn32 Verif.Spec.Train32 Verif.Spec.Lstm32 Verif.Spec.Tagger32 Verif.Lstm32 Verif.Train32
open Verif.CeGrad32 Verif.Spec.CeGrad32 Verif.Spec.CrossEntropy32 Verif.CrossEntropy32 Verif.Spec.Softmax32

variable {n m : Nat} {ls : List (Layer Act)}

theorem out_unit (Θ : Thetas) (x c y : Nat → ℝ) : ∀ i < n, |outL n m Θ x c y i| ≤ 1 := fun i _ => by
  unfold outL
  exact (mul_unit_le (real_unit .out _)).trans (tanh_unit _)

/-- Inputs with targets for some of the outputs of the head; the squared errors get the gradient `r`. -/
noncomputable def mseTags (cpu : Cpu) (n m : Nat) (Θ : Thetas) (ls : List (Layer Act)) (r : F32.W) :
    (Nat → ℝ) → (Nat → ℝ) → List (List F32.W × Option (List F32.W)) → List SStep
  | _, _, [] => []
  | c, y, q :: qs => ⟨q.1, q.2.map fun t => ⟨MseGrad cpu r t, squared (width ls n) (val r) fun i => val (t.getD i 0),
      fun i => val r * (network real ls (outL n m Θ (vals q.1) c y) i - val (t.getD i 0))⟩⟩ ::
      mseTags cpu n m Θ ls r (cellL n m Θ (vals q.1) c y) (outL n m Θ (vals q.1) c y) qs

theorem mse_tags_words (cpu : Cpu) (Θ : Thetas) (r : F32.W) : ∀ (qs : List (List F32.W × Option (List F32.W))) (c y : Nat → ℝ),
    (mseTags cpu n m Θ ls r c y qs).map word = qs.map fun q => (q.1, q.2.map (MseGrad cpu r))
  | [], _, _ => rfl
  | q :: qs, c, y => by
    rw [mseTags, List.map_cons, List.map_cons, mse_tags_words cpu Θ r qs]
    simp [word, Function.comp_def]

/-- **C104: the squared error of the outputs of the head that have a target.** -/
theorem mse_tags (cpu : Cpu) (Θ : Thetas) {r : F32.W} (hr : F32.Finite r) (h1 : |val r| ≤ 1) {E T P H : ℝ}
    (hX : ranges real lipOf ls 1 + errors real lipOf actErr ls 1 E + T ≤ 2 ^ 100) (hP : P = ranges real lipOf ls 1 + T)
    (hH : H = mseErr (errors real lipOf actErr ls 1 E) (ranges real lipOf ls 1 + errors real lipOf actErr ls 1 E + T))
    (hback : ∀ u, (∀ i < n, |u i| ≤ 1) → FitsBack real lipOf actErr steepest slopeErr safeAt P H ls n u 1 E) :
    ∀ (qs : List (List F32.W × Option (List F32.W))) (c y : Nat → ℝ),
      (∀ q ∈ qs, ∀ t, q.2 = some t → t.length = width ls n ∧ ∀ i < width ls n, F32.Finite (t.getD i 0) ∧ |val (t.getD i 0)| ≤ T) →
      GoodT real lipOf actErr steepest slopeErr safeAt n m Θ ls E P H c y (mseTags cpu n m Θ ls r c y qs)
  | [], _, _, _ => trivial
  | q :: qs, c, y, h => by
    refine ⟨fun l hl => ?_, mse_tags cpu Θ hr h1 hX hP hH hback qs _ _ fun q hq => h q (List.mem_cons_of_mem _ hq)⟩
    obtain ⟨t, ht, rfl⟩ := Option.map_eq_some_iff.mp hl
    obtain ⟨a1, a2⟩ := h q List.mem_cons_self t ht
    refine ⟨hback _ (out_unit _ _ _ _), ?_, squared_grad _ _ _ _⟩
    rw [hP, hH]
    exact mse_good cpu hr h1 a1 a2 hX

/-- Inputs with classes for some of the outputs of the head, with the cross entropy. -/
noncomputable def ceTags (cpu : Cpu) (j : ExpLog.Lane) (exp inv : F32.W → F32.W) (n m : Nat) (Θ : Thetas) (ls : List (Layer Act)) :
    (Nat → ℝ) → (Nat → ℝ) → List (List F32.W × Option Nat) → List SStep
  | _, _, [] => []
  | c, y, q :: qs => ⟨q.1, q.2.map fun k => ⟨CeGrad cpu j exp inv k, fun f => crossEntropyOf (width ls n) f k,
      ceGrad (width ls n) k (network real ls (outL n m Θ (vals q.1) c y))⟩⟩ ::
      ceTags cpu j exp inv n m Θ ls (cellL n m Θ (vals q.1) c y) (outL n m Θ (vals q.1) c y) qs

theorem ce_tags_words (cpu : Cpu) (j : ExpLog.Lane) (exp inv : F32.W → F32.W) (Θ : Thetas) : ∀ (qs : List (List F32.W × Option Nat)) (c y : Nat → ℝ),
    (ceTags cpu j exp inv n m Θ ls c y qs).map word = qs.map fun q => (q.1, q.2.map (CeGrad cpu j exp inv))
  | [], _, _ => rfl
  | q :: qs, c, y => by
    rw [ceTags, List.map_cons, List.map_cons, ce_tags_words cpu j exp inv Θ qs]
    simp [word, Function.comp_def]

/-- **C104: the cross entropy of the outputs of the head that have a class.** -/
theorem ce_tags (cpu : Cpu) (j : ExpLog.Lane) {exp inv : F32.W → F32.W} (hexp : GoodExp exp) (hinv : GoodInv inv) (Θ : Thetas) {E H : ℝ}
    (hn : width ls n ≤ 2 ^ 20) (hH : H = ceErr (width ls n) (errors real lipOf actErr ls 1 E))
    (hback : ∀ u, (∀ i < n, |u i| ≤ 1) → FitsBack real lipOf actErr steepest slopeErr safeAt 1 H ls n u 1 E) :
    ∀ (qs : List (List F32.W × Option Nat)) (c y : Nat → ℝ), (∀ q ∈ qs, ∀ k, q.2 = some k → k < width ls n) →
      GoodT real lipOf actErr steepest slopeErr safeAt n m Θ ls E 1 H c y (ceTags cpu j exp inv n m Θ ls c y qs)
  | [], _, _, _ => trivial
  | q :: qs, c, y, h => by
    refine ⟨fun l hl => ?_, ce_tags cpu j hexp hinv Θ hn hH hback qs _ _ fun q hq => h q (List.mem_cons_of_mem _ hq)⟩
    obtain ⟨k, hk, rfl⟩ := Option.map_eq_some_iff.mp hl
    have a := h q List.mem_cons_self k hk
    refine ⟨hback _ (out_unit _ _ _ _), ?_, ce_grad a _⟩
    rw [hH]
    exact ce_good cpu j hexp hinv a hn _ _ _

/-! ## An example: the LSTM and the two sequences of the example of C103, and a linear layer of one neuron -/

namespace Example
open Verif.Rec32.Example Verif.Net32.Example Verif.Srn32.Example Verif.Lstm32.Example

def head : List (Layer Act) := [.lin 1 1 Rec32.Example.gate.w Rec32.Example.gate.b]

noncomputable def E1 : ℝ := errors real lipOf actErr head 1 (1 / 2 ^ 16)

theorem rangeHead : ranges real lipOf head 1 = 1 := by
  simp only [head, ranges, range, normW, biasG]; norm_num

theorem err1 : 0 ≤ E1 ∧ E1 ≤ 5 / 2 ^ 18 := by
  unfold E1
  simp only [head, errors, error, top, dotErr, normW, biasG]
  have s0 : (0 : ℝ) ≤ (2 : ℝ) ^ (-126 : Int) := by positivity
  have s1 : (2 : ℝ) ^ (-126 : Int) ≤ 1 := by norm_num
  generalize (2 : ℝ) ^ (-126 : Int) = s at *
  constructor <;> norm_num <;> linarith

noncomputable def H1 : ℝ := mseErr E1 (1 + E1 + 1 / 2)

theorem errH : 0 ≤ H1 ∧ H1 ≤ 6 / 2 ^ 18 := by
  unfold H1 mseErr
  obtain ⟨e0, e1⟩ := err1
  have s0 : (0 : ℝ) ≤ (2 : ℝ) ^ (-126 : Int) := by positivity
  have s1 : (2 : ℝ) ^ (-126 : Int) ≤ 1 := by norm_num
  generalize (2 : ℝ) ^ (-126 : Int) = s at *
  generalize E1 = e at *
  constructor <;> norm_num at * <;> linarith

theorem reach1 : reach 1 Rec32.Example.gate.w (3 / 2 + H1) ≤ 4 := by
  have := reachLe (w := Rec32.Example.gate.w) (S := 3 / 2) (D := H1) (S' := 3 / 2) (D' := 1) (by norm_num) errH.1 (by rw [mostW]) le_rfl (errH.2.trans (by norm_num))
  linarith

theorem fitsHead : Net32.Fits real lipOf actErr head 1 1 (1 / 2 ^ 16) := by
  refine ⟨⟨rfl, by norm_num, rfl, rfl, fits.wv, fits.bv, by norm_num, ?_⟩, trivial⟩
  simp only [top, dotErr, normW, biasG, maxFin]
  norm_num

theorem fitsBackHead (u : Nat → ℝ) : FitsBack real lipOf actErr steepest slopeErr safeAt (3 / 2) H1 head 1 u 1 (1 / 2 ^ 16) := by
  have r := reach1
  obtain ⟨h0, h1⟩ := errH
  refine ⟨⟨by norm_num, ?_, ?_⟩, trivial⟩
  · show 3 / 2 + H1 ≤ 2 ^ 50
    norm_num at *; linarith
  · show reach 1 Rec32.Example.gate.w (3 / 2 + H1) ≤ 2 ^ 121
    exact r.trans (by norm_num)

noncomputable def tags (cpu : Cpu) : List SStep := mseTags cpu 1 1 (thetas 1 1 net) head p1 (fun _ => 0) (fun _ => 0) data

theorem oneLayer {pre post : List (Layer Act)} {rows cols : Nat} {w b : List F32.W} (h : head = pre ++ .lin rows cols w b :: post) :
    pre = [] ∧ rows = 1 ∧ cols = 1 ∧ w = Rec32.Example.gate.w ∧ b = Rec32.Example.gate.b ∧ post = [] := by
  cases pre with
  | nil =>
    rw [List.nil_append] at h
    injection h with h1 h2
    injection h1 with a1 a2 a3 a4
    exact ⟨rfl, a1.symm, a2.symm, a3.symm, a4.symm, h2.symm⟩
  | cons p pre =>
    rw [List.cons_append] at h
    injection h with h1 h2
    simp at h2

theorem biasOff1 {l : Layer Act} : biasOff real lipOf actErr steepest slopeErr (3 / 2) H1 1 (1 / 2 ^ 16) [] l [] = H1 := rfl

theorem weightOff1 {l : Layer Act} : weightOff real lipOf actErr steepest slopeErr (3 / 2) H1 1 (1 / 2 ^ 16) [] l [] ≤ 24 / 2 ^ 14 := by
  obtain ⟨h0, h1⟩ := errH
  exact weightSmall (M := 1) (E := 1 / 2 ^ 16) (S := 3 / 2) (A := H1) (by norm_num) le_rfl (by norm_num) le_rfl (by norm_num) (by norm_num) h0 (h1.trans (by norm_num))

theorem sound (cpu : Cpu) : Sound real lipOf actErr steepest slopeErr safeAt 1 1 net head 1 (1 / 2 ^ 16) (1 / 2 ^ 16) (3 / 2) H1 (3 / 2) (1 / 2 ^ 15) 1 |val rate| 2
    [tags cpu, tags cpu] := by
  have s := Lstm32.Example.sound cpu
  have hH0 : (0 : ℝ) ≤ 1 / 2 ^ 15 := by norm_num
  have one : ∀ {p : List SStep → Prop}, p (tags cpu) → ∀ es ∈ [tags cpu, tags cpu], p es := by
    intro p hp es he
    simp only [List.mem_cons, List.not_mem_nil, or_false, or_self] at he
    rw [he]; exact hp
  have b := fun q => bounds hH0 le_rfl q (E := 0) le_rfl (by norm_num)
  have b' := fun q => bounds hH0 le_rfl q (E := 1 / 2 ^ 16) (by norm_num) le_rfl
  have hc : stepCount [tags cpu, tags cpu] = 4 := by simp [stepCount, tags, mseTags, data]
  have hl : lossCount [tags cpu, tags cpu] = 2 := by simp [lossCount, tags, mseTags, data]
  have ew : ∀ v ∈ Rec32.Example.gate.w, |val v| ≤ 1 := by
    intro v hv
    obtain rfl : v = p1 := by simpa [gate] using hv
    rw [v1]; norm_num
  have eb : ∀ v ∈ Rec32.Example.gate.b, |val v| ≤ 1 := by
    intro v hv
    obtain rfl : v = 0 := by simpa [gate] using hv
    rw [show val 0 = 0 from v0]; norm_num
  have big : ∀ Y : ℝ, 0 ≤ Y → Y ≤ 10 → total 2 Y ≤ 2 ^ 120 ∧ |val rate| * total 2 Y ≤ 2 ^ 120 := by
    intro Y h0 h1
    have t := totalSmall h1
    have t0 : 0 ≤ total 2 Y := by unfold total; positivity
    refine ⟨t, le_trans ?_ t⟩
    rw [rate_val]
    have : |(1 / 64 : ℝ)| ≤ 1 := by norm_num
    nlinarith
  obtain ⟨h0, h1⟩ := errH
  refine ⟨s.gate, fun q v hv => ?_, by norm_num, one ?_, one rfl, one (p := fun es => es.length ≤ 2) (by simp [tags, mseTags, data]), by norm_num,
    by rw [hc]; norm_num, outSmall, s.e50, s.gates, s.cells, ?_, fun q => ?_, fun q => ?_, fun q => ?_, by norm_num, h0, fitsHead, one ?_, ?_, ?_, ?_⟩
  · rw [net_gate] at hv
    simp only [gate, List.mem_cons, List.not_mem_nil, or_false] at hv
    rcases hv with rfl | rfl | rfl
    · rw [v1]; norm_num
    · rw [vh]; norm_num
    · rw [show val 0 = 0 from v0]; norm_num
  · intro e he
    have : e.x = [p1] := by
      simp [tags, mseTags, data] at he
      rcases he with rfl | rfl <;> rfl
    rw [this]
    exact one_within
  · intro r hr
    have hr : r < 2 := hr
    have s := small hH0 le_rfl hr
    have b1 : (100 : ℝ) ≤ 2 ^ 100 := by norm_num
    have b2 : (100 : ℝ) ≤ 2 ^ 121 := by norm_num
    have b3 : (100 : ℝ) ≤ 2 ^ 50 := by norm_num
    have b4 : (20 : ℝ) / 2 ^ 14 ≤ 1 := by norm_num
    refine ⟨(add_le_add s.y s.y').trans (by norm_num), (add_le_add s.c s.c').trans (by norm_num), fun q => ?_⟩
    obtain ⟨a1, a2, a3, a4⟩ := argSmall hH0 le_rfl hr q
    refine ⟨(add_le_add (s.v q).1 (s.v q).2).trans (by norm_num), (add_le_add a2 a4).trans (by norm_num), ?_, ?_⟩
    · rw [net_gate]
      exact (reachLe (w := Rec32.Example.gate.w) a1 a3 (by rw [mostW]) a2 a4).trans (by norm_num)
    · rw [net_gate]
      exact (reachLe (w := Rec32.Example.gate.wRec) a1 a3 (by rw [mostR]; norm_num) a2 a4).trans (by norm_num)
  · rw [hc]; exact total4 (nonneg_largest _ _) (b q).1
  · rw [hc]; exact total4 (nonneg_largest _ _) (b' q).1
  · rw [hc]; exact total4 (nonneg_largest _ _) (b q).2.2.1
  · refine mse_tags (T := 1 / 2) cpu _ (by unfold F32.Finite; decide) (by rw [v1]; norm_num) ?_ ?_ ?_ (fun u _ => fitsBackHead u) data _ _ ?_
    · show ranges real lipOf head 1 + E1 + 1 / 2 ≤ 2 ^ 100
      rw [rangeHead]
      have := err1.2
      generalize E1 = e at *
      norm_num at *; linarith
    · rw [rangeHead]; norm_num
    · rw [rangeHead]; rfl
    · intro q hq t ht
      obtain rfl : t = [Rec32.Example.half] := by
        simp [data] at hq
        rcases hq with rfl | rfl <;> simp at ht
        exact ht.symm
      refine ⟨rfl, fun i hi => ?_⟩
      obtain rfl : i = 0 := by
        have : i < 1 := hi
        omega
      refine ⟨by unfold F32.Finite; decide, ?_⟩
      change |val Rec32.Example.half| ≤ 1 / 2
      rw [vh]; norm_num
  · show colNorm 1 1 Rec32.Example.gate.w * (3 / 2) ≤ 3 / 2
    rw [colW]; norm_num
  · show colNorm 1 1 Rec32.Example.gate.w * H1 + (1 : Nat) * (5 * reach 1 Rec32.Example.gate.w (3 / 2 + H1) / 2 ^ 24) ≤ 1 / 2 ^ 15
    rw [colW]
    have := reach1
    generalize reach 1 Rec32.Example.gate.w (3 / 2 + H1) = R at *
    push_cast
    norm_num at *
    linarith
  · rw [hl]
    intro pre rows cols w b post e
    obtain ⟨rfl, rfl, rfl, rfl, rfl, rfl⟩ := oneLayer e
    have w1 := weightOff1 (l := .lin 1 1 Rec32.Example.gate.w Rec32.Example.gate.b)
    have w0 : 0 ≤ weightOff real lipOf actErr steepest slopeErr (3 / 2) H1 1 (1 / 2 ^ 16) [] (.lin 1 1 Rec32.Example.gate.w Rec32.Example.gate.b) [] :=
      weightErr_nonneg (M := 1) (E := 1 / 2 ^ 16) (P := 3 / 2) (H := H1) (by norm_num) (by norm_num) (by norm_num) h0
    rw [biasOff1]
    have c1 := big (3 / 2 * 1 + weightOff real lipOf actErr steepest slopeErr (3 / 2) H1 1 (1 / 2 ^ 16) [] (.lin 1 1 Rec32.Example.gate.w Rec32.Example.gate.b) [])
      (by linarith) (by norm_num at *; linarith)
    have c2 := big (3 / 2 + H1) (by linarith) (by norm_num at *; linarith)
    exact ⟨ew, eb, c1.1, c1.2, c2.1, c2.2⟩

/-- The step ends, and the recurrent weight of every gate and the weight of the head are within `1/1000` of those after a step of gradient descent. -/
example (cpu : Cpu) (j : ExpLog.Lane) : ∃ lib sl g' w' b', TrainStep ⟨cpu, j, lib⟩ sl (acts cpu j lib) (slopes cpu j lib sl) rate 1 1
      [data.map fun q => (q.1, q.2.map (MseGrad cpu p1)), data.map fun q => (q.1, q.2.map (MseGrad cpu p1))] net head g' [.lin 1 1 w' b'] ∧
    (∀ q, ∃ Δ, HasDerivAt (fun t => batchT 1 1 ((thetas 1 1 net).set q ((thetas 1 1 net q).addU 0 0 t)) (network real head) [tags cpu, tags cpu]) Δ 0 ∧
      |val ((gateOf g' q).wRec.getD 0 0) - (1 / 2 - 1 / 64 * Δ)| ≤ 1 / 1000) ∧
    ∃ Δ, HasDerivAt (fun t => batchT 1 1 (thetas 1 1 net) (fun v => nudged 1 1 [p1] [0] 0 0 v t) [tags cpu, tags cpu]) Δ 0 ∧
      |val (w'.getD 0 0) - (1 - 1 / 64 * Δ)| ≤ 1 / 1000 := by
  obtain ⟨lib, h⟩ := exists_lib cpu j
  obtain ⟨sl, hs⟩ := Back32.Example.exists_slopes
  have hM : GoodLib (⟨cpu, j, lib⟩ : Machine).lib := h
  obtain ⟨⟨g', ls', hg'⟩, hall⟩ := tagger_train (M := ⟨cpu, j, lib⟩) (sl := sl) (lr := rate) hM hs (acts_good cpu j h) (slopes_good cpu j h hs) (by unfold F32.Finite; decide) (sound cpu)
  have hg'' := hg'
  simp only [tags, List.map_cons, List.map_nil, mse_tags_words] at hg''
  obtain ⟨hgates, hlen, -, hlin⟩ := hall g' ls' hg'
  obtain ⟨w', b', e1, -, -, hw, -⟩ := hlin [] 1 1 _ _ [] rfl
  obtain rfl : ls' = [.lin 1 1 w' b'] := by
    match ls', hlen, e1 with
    | [l], _, e1 => simpa using e1
  have el : |val rate| = 1 / 64 := by rw [rate_val]; norm_num
  refine ⟨lib, sl, g', w', b', hg'', fun q => ?_, ?_⟩
  · obtain ⟨-, -, -, -, hu, -⟩ := hgates q
    obtain ⟨-, Δ, hΔ, e⟩ := hu 0 (by norm_num) 0 (by norm_num)
    refine ⟨Δ, hΔ, ?_⟩
    have ev : val ((gateOf net q).wRec.getD (0 * 1 + 0) 0) = 1 / 2 := by rw [net_gate]; exact vh
    rw [ev, el, rate_val] at e
    refine e.trans ?_
    obtain ⟨b3, b4, -⟩ := bounds (H := 1 / 2 ^ 15) (by norm_num) le_rfl q (E := 1 / 2 ^ 16) (by norm_num) le_rfl
    rw [show stepCount [tags cpu, tags cpu] = 4 by simp [stepCount, tags, mseTags, data]]
    change stepOff 4 (1 / 64) 1 (conTop (tops 1 net τ (3 / 2) _ q) (offs 1 net τ (3 / 2) _ q) 1 (1 / 2 ^ 16) 2) (conErr (tops 1 net τ (3 / 2) _ q) (offs 1 net τ (3 / 2) _ q) 1 (1 / 2 ^ 16) 2) ≤ _
    generalize conTop _ _ 1 (1 / 2 ^ 16) 2 = Y at *
    generalize conErr _ _ 1 (1 / 2 ^ 16) 2 = β at *
    unfold stepOff total
    push_cast
    norm_num at *
    linarith
  · obtain ⟨-, Δ, hΔ, e⟩ := hw 0 (by norm_num) 0 (by norm_num)
    refine ⟨Δ, hΔ, ?_⟩
    have ev : val (Rec32.Example.gate.w.getD (0 * 1 + 0) 0) = 1 := v1
    rw [ev, el, rate_val] at e
    refine e.trans ?_
    have w1 := weightOff1 (l := .lin 1 1 Rec32.Example.gate.w Rec32.Example.gate.b)
    rw [show lossCount [tags cpu, tags cpu] = 2 by simp [lossCount, tags, mseTags, data]]
    change stepErr 2 (1 / 64) 1 (3 / 2 * 1) _ ≤ _
    generalize weightOff real lipOf actErr steepest slopeErr (3 / 2) H1 1 (1 / 2 ^ 16) [] _ [] = β at *
    unfold stepErr total
    push_cast
    norm_num at *
    linarith

end Example
end Verif.Tagger32
