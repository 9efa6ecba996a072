import Verif.Props.LstmTrain32
import Verif.Props.Train32Loss
import Verif.Spec.Tagger32

set_option autoImplicit false
set_option linter.unusedSimpArgs false

/-!
# C104: one step of training of an LSTM with a head on the words of float32
-/

namespace Verif.Tagger32
open Verif.F32 Verif.Asm Verif.Spec Verif.Spec.Kernels Verif.Net32 Verif.Rec32 Verif.Att32 Verif.Back32 Verif.Srn32 Verif.Spec.Net32 Verif.Spec.Rec32
  Verif.Spec.Back32 Verif.Spec.Srn32 Verif.Spec.Train32 Verif.Spec.Lstm32 Verif.Spec.Tagger32 Verif.Lstm32 Verif.Train32

variable {α : Type} {φ φ' : α → ℝ → ℝ} {L ε S : α → ℝ} {κ : α → ℝ → ℝ} {safe : α → ℝ → ℝ → Prop} {F D : α → List F32.W → List F32.W → Prop}
  {n m : Nat} {M : Machine} {sl : Slopes} {g : Lstm} {ls : List (Layer α)} {X Ec Ey P H P' H' W : ℝ} {T : Nat} {ess : List (List SStep)} {lr : F32.W}

/-! ## The head as a loss of the outputs of the LSTM -/

/-- What the head may hand to an output. -/
def HeadGrad (cpu : Cpu) (F D : α → List F32.W → List F32.W → Prop) (ls : List (Layer α)) (G : List F32.W → List F32.W → Prop) (y z : List F32.W) : Prop :=
  ∃ ps, Back cpu F D G ls y z ps

def wrap (cpu : Cpu) (F D : α → List F32.W → List F32.W → Prop) (ls : List (Layer α)) (e : In) : In := (e.1, e.2.map (HeadGrad cpu F D ls))

/-- The steps with the head in the losses. -/
noncomputable def headed (φ φ' : α → ℝ → ℝ) (cpu : Cpu) (F D : α → List F32.W → List F32.W → Prop) (n m : Nat) (Θ : Thetas) (ls : List (Layer α)) :
    (Nat → ℝ) → (Nat → ℝ) → List SStep → List SStep
  | _, _, [] => []
  | c, y, e :: es => ⟨e.x, e.loss.map fun l => ⟨HeadGrad cpu F D ls l.G, fun v => l.J (network φ ls v), adj φ φ' l.γ ls (outL n m Θ (vals e.x) c y)⟩⟩ ::
      headed φ φ' cpu F D n m Θ ls (cellL n m Θ (vals e.x) c y) (outL n m Θ (vals e.x) c y) es

theorem headed_word {cpu : Cpu} {Θ : Thetas} : ∀ (es : List SStep) (c y : Nat → ℝ),
    (headed φ φ' cpu F D n m Θ ls c y es).map word = (es.map word).map (wrap cpu F D ls)
  | [], _, _ => rfl
  | e :: es, c, y => by
    rw [headed, List.map_cons, List.map_cons, List.map_cons, headed_word es]
    simp [word, wrap, Function.comp_def]

theorem headed_length {cpu : Cpu} {Θ : Thetas} : ∀ (es : List SStep) (c y : Nat → ℝ), (headed φ φ' cpu F D n m Θ ls c y es).length = es.length
  | [], _, _ => rfl
  | e :: es, c, y => by rw [headed, List.length_cons, List.length_cons, headed_length es]

theorem headed_input {cpu : Cpu} {Θ : Thetas} : ∀ (es : List SStep) (c y : Nat → ℝ), (∀ e ∈ es, Within m e.x X) →
    ∀ e ∈ headed φ φ' cpu F D n m Θ ls c y es, Within m e.x X
  | [], _, _, _ => by simp [headed]
  | e :: es, c, y, h => by
    intro e' he
    rw [headed, List.mem_cons] at he
    rcases he with rfl | he
    · exact h e List.mem_cons_self
    · exact headed_input es _ _ (fun e he => h e (List.mem_cons_of_mem _ he)) e' he

theorem headed_last {cpu : Cpu} {Θ : Thetas} : ∀ (es : List SStep) (c y : Nat → ℝ), EndsWithLoss es → EndsWithLoss (headed φ φ' cpu F D n m Θ ls c y es)
  | [], _, _, _ => trivial
  | [e], c, y, h => by
    have h : e.loss.isSome = true := h
    simpa [headed, EndsWithLoss] using h
  | e :: e' :: es, c, y, h => headed_last (e' :: es) _ _ h

theorem headed_loss {cpu : Cpu} {Θ : Thetas} (Θ' : Thetas) : ∀ (es : List SStep) (c y c' y' : Nat → ℝ),
    lossL n m Θ' c' y' (headed φ φ' cpu F D n m Θ ls c y es) = lossT n m Θ' (network φ ls) c' y' es
  | [], _, _, _, _ => rfl
  | e :: es, c, y, c', y' => by
    rw [headed, lossL, lossT, headed_loss Θ' es]
    congr 1
    cases he : e.loss <;> simp [SStep.J, he]

theorem good_mono {G : List F32.W → List F32.W → Prop} {v γ : Nat → ℝ} {A E a b a' b' : ℝ} (h : GoodLoss G n v γ A E a b) (ha : a ≤ a') (hb : b ≤ b') :
    GoodLoss G n v γ A E a' b' := fun y hy hyv => by
  obtain ⟨h1, h2⟩ := h y hy hyv
  refine ⟨h1, fun z hz => ?_⟩
  obtain ⟨k1, k2⟩ := h2 z hz
  exact ⟨k1, fun i hi => ⟨(k2 i hi).1, (k2 i hi).2.1.trans hb, (k2 i hi).2.2.trans ha⟩⟩

/-- **C104: the head is a good loss of the outputs in front of it.** -/
theorem head_good (cpu : Cpu) (hF : Good F φ L ε) (hD : GoodSlopes D φ φ' S κ safe) {G : List F32.W → List F32.W → Prop} {J : (Nat → ℝ) → ℝ} {γ v : Nat → ℝ}
    {A E : ℝ} (hP : 0 ≤ P) (hH : 0 ≤ H) (hA : 0 ≤ A) (hE : 0 ≤ E) (hfit : Net32.Fits φ L ε ls n A E) (hback : FitsBack φ L ε S κ safe P H ls n v A E)
    (hG : GoodLoss G (width ls n) (network φ ls v) γ (ranges φ L ls A) (errors φ L ε ls A E) P H) (hJ : IsGrad (width ls n) J (network φ ls v) γ) :
    GoodLoss (HeadGrad cpu F D ls G) n v (adj φ φ' γ ls v) A E (size S P ls) (off φ L ε S κ P H ls A E) ∧
    IsGrad n (fun u => J (network φ ls u)) v (adj φ φ' γ ls v) := by
  refine ⟨fun y hy hyv => ?_, adj_grad (fun a => (hF.pos a).1) (fun a => (hF.pos a).2) hD ls hA hE hfit hback hJ⟩
  obtain ⟨h1, h2⟩ := back_ok cpu (G := G) hF hD hP hH ls hA hE hfit hback ⟨hy, hyv⟩ hG
  exact ⟨h1, fun z ⟨ps, hz⟩ => (h2 z ps hz).1⟩

theorem headed_good {cpu : Cpu} {Θ : Thetas} (hF : Good F φ L ε) (hD : GoodSlopes D φ φ' S κ safe) (hP : 0 ≤ P) (hH : 0 ≤ H) (hE : 0 ≤ Ey)
    (hfit : Net32.Fits φ L ε ls n 1 Ey) (hp : size S P ls ≤ P') (hh : off φ L ε S κ P H ls 1 Ey ≤ H') : ∀ (es : List SStep) (c y : Nat → ℝ),
    GoodT φ L ε S κ safe n m Θ ls Ey P H c y es → GoodL n m Θ Ey P' H' c y (headed φ φ' cpu F D n m Θ ls c y es)
  | [], _, _, _ => trivial
  | e :: es, c, y, h => by
    refine ⟨fun l hl => ?_, headed_good hF hD hP hH hE hfit hp hh es _ _ h.2⟩
    obtain ⟨l0, hl0, rfl⟩ := Option.map_eq_some_iff.mp hl
    obtain ⟨a1, a2, a3⟩ := h.1 l0 hl0
    obtain ⟨b1, b2⟩ := head_good cpu hF hD hP hH zero_le_one hE hfit a1 a2 a3
    exact ⟨good_mono b1 hp hh, b2⟩

/-! ## The records -/

abbrev zipped (cpu : Cpu) (F D : α → List F32.W → List F32.W → Prop) (ls : List (Layer α)) (s : List In) (rs : List Rec) : List In :=
  List.zipWith (fun e r => (e.1, handed cpu F D ls e.2 r)) s rs

/-- The passes with records are the passes with the head as a loss. -/
theorem records : ∀ (s : List In) (prev : Option Cell) (zy : List (List F32.W)) (zc : Option (List F32.W)) (cs : List (Gt → Option Con)),
    Bptt M sl n m g prev (s.map (wrap M.cpu F D ls)) zy zc cs ↔ ∃ rs : List Rec, rs.length = s.length ∧ Bptt M sl n m g prev (zipped M.cpu F D ls s rs) zy zc cs
  | [], prev, zy, zc, cs => by
    constructor
    · intro h; exact ⟨[], rfl, h⟩
    · rintro ⟨rs, -, h⟩; simpa using h
  | e :: s, prev, zy, zc, cs => by
    constructor
    · rintro ⟨a, v, st, hy, hc, qs, c, gy, h1, h2, h3, h4, h5⟩
      obtain ⟨rs, hl, hr⟩ := (records s (some st) hy hc qs).mp h2
      obtain ⟨r, hown⟩ : ∃ r : Rec, Own (handed M.cpu F D ls e.2 r) st.y c := by
        cases he : e.2 with
        | none =>
          refine ⟨none, ?_⟩
          simpa [wrap, he, handed] using h3
        | some G =>
          simp only [wrap, he, Option.map_some, Own] at h3
          obtain ⟨z, ⟨ps, hz⟩, rfl⟩ := h3
          exact ⟨some ps, z, hz, rfl⟩
      exact ⟨r :: rs, by simp [hl], a, v, st, hy, hc, qs, c, gy, h1, hr, hown, h4, h5⟩
    · rintro ⟨rs, hl, h⟩
      cases rs with
      | nil => simp at hl
      | cons r rs =>
        obtain ⟨a, v, st, hy, hc, qs, c, gy, h1, h2, h3, h4, h5⟩ := h
        have h2' := (records s (some st) hy hc qs).mpr ⟨rs, by simpa using hl, h2⟩
        refine ⟨a, v, st, hy, hc, qs, c, gy, h1, h2', ?_, h4, h5⟩
        cases he : e.2 with
        | none =>
          cases r with
          | none => simpa [wrap, he, handed, Own] using h3
          | some r => simp [he, handed, Own] at h3
        | some G =>
          cases r with
          | none => simp [he, handed, Own] at h3
          | some r =>
            simp only [he, handed, Own] at h3
            obtain ⟨z, hz, rfl⟩ := h3
            simp only [wrap, he, Option.map_some, Own]
            exact ⟨z, ⟨_, hz⟩, rfl⟩

/-- What the head saw: examples close to the exact outputs of the LSTM. -/
theorem seen (hM : GoodLib M.lib) (hg : ∀ q, Rec32.Fits n m (gateOf g q) X) (hB : ∀ t ≤ T, (lstmBound n m g X t).1 ≤ Ec ∧ (lstmBound n m g X t).2 ≤ Ey) :
    ∀ (es : List SStep) (t : Nat) (prev : Option Cell) (c y : Nat → ℝ) (rs : List Rec) (zy : List (List F32.W)) (zc : Option (List F32.W))
      (cs : List (Gt → Option Con)), t + es.length ≤ T → (∀ e ∈ es, Within m e.x X) →
      GoodT φ L ε S κ safe n m (thetas n m g) ls Ey P H c y es → Inv n m g X t prev c y → rs.length = es.length →
      Bptt M sl n m g prev (zipped M.cpu F D ls (es.map word) rs) zy zc cs →
      ∃ Ts : List Target, (∀ T ∈ Ts, GoodEx φ L ε S κ safe P H 1 Ey ls n T) ∧ Passes M.cpu F D ls (Ts.map (·.ex)) (rs.filterMap id) ∧
        (∀ N : (Nat → ℝ) → Nat → ℝ, batchLoss Ts (fun T => N T.u) = lossT n m (thetas n m g) N c y es) ∧ Ts.length = (es.filter (·.loss.isSome)).length
  | [], t, prev, c, y, rs, zy, zc, cs, _, _, _, _, hl, _ => by
    have : rs = [] := by simpa using hl
    subst this
    exact ⟨[], by simp, List.Forall₂.nil, fun N => rfl, rfl⟩
  | e :: es, t, prev, c, y, [], zy, zc, cs, _, _, _, _, hl, _ => by simp at hl
  | e :: es, t, prev, c, y, r :: rs, zy, zc, cs, ht, hx, hgood, hinv, hl, hb => by
    obtain ⟨a, v, st, hy, hc, qs, c', gy, h1, h2, h3, -, -⟩ := hb
    have hi := (inv_step hM hg (hx e List.mem_cons_self) hinv).2 st (step_next h1)
    have ht1 : t + 1 + es.length ≤ T := by simp at ht; omega
    obtain ⟨Ts, k1, k2, k3, k4⟩ := seen hM hg hB es (t + 1) (some st) _ _ rs hy hc qs ht1 (fun e he => hx e (List.mem_cons_of_mem _ he)) hgood.2 hi
      (by simpa using hl) h2
    have h3 : Own (handed M.cpu F D ls (e.loss.map (·.G)) r) st.y c' := h3
    cases he : e.loss with
    | none =>
      rw [he] at h3
      cases r with
      | some r => simp [handed, Own] at h3
      | none =>
        refine ⟨Ts, k1, by simpa using k2, fun N => ?_, by simp [he, k4]⟩
        rw [lossT, k3 N]
        simp [SStep.J, he]
    | some l =>
      rw [he] at h3
      cases r with
      | none => simp [handed, Own] at h3
      | some r =>
        obtain ⟨z, hz, -⟩ := h3
        obtain ⟨f1, f2, f3⟩ := hgood.1 l he
        have hw := (hi.words st rfl).2
        refine ⟨⟨⟨st.y, l.G⟩, outL n m (thetas n m g) (vals e.x) c y, l.J, l.γ⟩ :: Ts, ?_, ?_, fun N => ?_, by simp [he, k4]⟩
        · intro T' hT'
          rcases List.mem_cons.mp hT' with rfl | hT'
          · refine ⟨hw.1, fun i hi' => ⟨(hw.2 i hi').1, (hi.out i hi').trans (hB (t + 1) (by omega)).2, ?_⟩, f1, f2, f3⟩
            unfold outL
            exact (mul_unit_le (real_unit .out _)).trans (tanh_unit _)
          · exact k1 T' hT'
        · exact List.Forall₂.cons ⟨z, hz⟩ k2
        · have : e.J = l.J := by funext v; simp [SStep.J, he]
          rw [lossT, ← k3 N, this]
          simp [batchLoss]

/-- The same for all sequences. -/
theorem seenAll (hM : GoodLib M.lib) {r : ℝ} (h : Sound φ L ε S κ safe n m g ls X Ec Ey P H P' H' W r T ess) : ∀ (ess' : List (List SStep)), (∀ es ∈ ess', es ∈ ess) →
    ∀ ps, List.Forall₂ (Pass M sl F D n m g ls) (ess'.map (·.map word)) ps →
      ∃ Ts : List Target, (∀ T ∈ Ts, GoodEx φ L ε S κ safe P H 1 Ey ls n T) ∧
        Passes M.cpu F D ls (Ts.map (·.ex)) ((ps.map (·.2)).flatten.filterMap id) ∧
        (∀ N : (Nat → ℝ) → Nat → ℝ, batchLoss Ts (fun T => N T.u) = batchT n m (thetas n m g) N ess') ∧ Ts.length = lossCount ess'
  | [], _, ps, hp => by
    cases hp
    exact ⟨[], by simp, List.Forall₂.nil, fun N => rfl, rfl⟩
  | es :: ess', hsub, ps, hp => by
    cases hp with
    | @cons _ p _ ps h1 h2 =>
      obtain ⟨Ts, k1, k2, k3, k4⟩ := seenAll hM h ess' (fun es he => hsub es (List.mem_cons_of_mem _ he)) ps h2
      obtain ⟨hl, zy, zc, hb⟩ := h1
      have hm := hsub es List.mem_cons_self
      obtain ⟨Us, u1, u2, u3, u4⟩ := seen (sl := sl) (F := F) (D := D) hM h.gate h.out es 0 none (fun _ => 0) (fun _ => 0) p.2 zy zc p.1
        (by have := h.length es hm; omega) (h.input es hm) (h.losses es hm)
        ⟨fun _ h => by simp at h, fun k _ => by simp, fun k _ => by simp [pc, lstmBound], fun k _ => by simp [pv, lstmBound]⟩ (by simpa using hl) hb
      refine ⟨Us ++ Ts, fun T hT => ?_, ?_, fun N => ?_, ?_⟩
      · rcases List.mem_append.mp hT with hT | hT
        · exact u1 T hT
        · exact k1 T hT
      · rw [List.map_append, List.map_cons, List.flatten_cons, List.filterMap_append]
        exact List.rel_append u2 k2
      · have : batchT n m (thetas n m g) N (es :: ess') = lossT n m (thetas n m g) N (fun _ => 0) (fun _ => 0) es + batchT n m (thetas n m g) N ess' := by
          simp [batchT]
        rw [this, ← u3 N, ← k3 N]
        simp [batchLoss]
      · simp [lossCount, u4, k4] at *

/-! ## The step -/

noncomputable def headedAll (φ φ' : α → ℝ → ℝ) (cpu : Cpu) (F D : α → List F32.W → List F32.W → Prop) (n m : Nat) (g : Lstm) (ls : List (Layer α))
    (ess : List (List SStep)) : List (List SStep) :=
  ess.map fun es => headed φ φ' cpu F D n m (thetas n m g) ls (fun _ => 0) (fun _ => 0) es

theorem headed_count {cpu : Cpu} : stepCount (headedAll φ φ' cpu F D n m g ls ess) = stepCount ess := by
  simp only [stepCount, headedAll, List.map_map, Function.comp_def, headed_length]

theorem headed_batch {cpu : Cpu} (Θ : Thetas) : batchL n m Θ (headedAll φ φ' cpu F D n m g ls ess) = batchT n m Θ (network φ ls) ess := by
  simp only [batchL, batchT, headedAll, List.map_map, Function.comp_def, headed_loss]

theorem headed_words {cpu : Cpu} : (headedAll φ φ' cpu F D n m g ls ess).map (·.map word) = ess.map fun es => (es.map word).map (wrap cpu F D ls) := by
  simp only [headedAll, List.map_map, Function.comp_def]
  exact List.map_congr_left fun es _ => by rw [headed_word, List.map_map]; rfl

theorem headed_sound (hF : Good F φ L ε) (hD : GoodSlopes D φ φ' S κ safe) (cpu : Cpu) {r : ℝ} (h : Sound φ L ε S κ safe n m g ls X Ec Ey P H P' H' W r T ess) :
    SoundBatch n m g X Ec Ey P' H' W r T (headedAll φ φ' cpu F D n m g ls ess) := by
  have hL : ∀ a, 0 ≤ L a := fun a => (hF.pos a).1
  have hε : ∀ a, 0 ≤ ε a := fun a => (hF.pos a).2
  have hS : ∀ a, 0 ≤ S a := fun a => (hD.pos a 0 le_rfl).1
  have hκ : ∀ a E, 0 ≤ E → 0 ≤ κ a E := fun a E h => (hD.pos a E h).2
  have hE : 0 ≤ Ey := (lstmBound_nonneg (n := n) (m := m) (g := g) (h.gate .inp).x0 0).2.trans (h.out 0 (by omega)).2
  have all : ∀ {p : List SStep → Prop}, (∀ es ∈ ess, p (headed φ φ' cpu F D n m (thetas n m g) ls (fun _ => 0) (fun _ => 0) es)) →
      ∀ es ∈ headedAll φ φ' cpu F D n m g ls ess, p es := by
    intro p hp es he
    obtain ⟨es', he', rfl⟩ := List.mem_map.mp he
    exact hp es' he'
  exact ⟨h.gate, h.params, h.w120, all fun es he => headed_input es _ _ (h.input es he),
    all fun es he => headed_good hF hD h.p0 h.h0 hE h.head h.size h.off es _ _ (h.losses es he), all fun es he => headed_last es _ _ (h.last es he),
    all (p := fun es => es.length ≤ T) fun es he => by rw [headed_length]; exact h.length es he, h.steps, by rw [headed_count]; exact h.count, h.out, h.e50,
    (size_nonneg hS h.p0 ls).trans h.size, (off_nonneg (φ := φ) hL hε hS hκ h.p0 h.h0 ls zero_le_one hE).trans h.off, h.gates, h.cells, h.time,
    by rw [headed_count]; exact h.sumW, by rw [headed_count]; exact h.sumU, by rw [headed_count]; exact h.sumB⟩

theorem split_passes : ∀ (seqs : List (List In)), 
    (∀ ps, List.Forall₂ (Pass M sl F D n m g ls) seqs ps → PassesL M sl n m g (seqs.map (·.map (wrap M.cpu F D ls))) (ps.map (·.1))) ∧
    ∀ css, PassesL M sl n m g (seqs.map (·.map (wrap M.cpu F D ls))) css → ∃ ps, List.Forall₂ (Pass M sl F D n m g ls) seqs ps ∧ ps.map (·.1) = css
  | [] => by
    refine ⟨fun ps h => ?_, fun css h => ?_⟩
    · cases h; exact List.Forall₂.nil
    · cases h; exact ⟨[], List.Forall₂.nil, rfl⟩
  | s :: seqs => by
    obtain ⟨i1, i2⟩ := split_passes seqs
    refine ⟨fun ps h => ?_, fun css h => ?_⟩
    · cases h with
      | cons h1 h2 =>
        obtain ⟨hl, zy, zc, hb⟩ := h1
        exact List.Forall₂.cons ⟨zy, zc, (records s none zy zc _).mpr ⟨_, hl, hb⟩⟩ (i1 _ h2)
    · cases h with
      | cons h1 h2 =>
        obtain ⟨zy, zc, hb⟩ := h1
        obtain ⟨rs, hl, hr⟩ := (records s none zy zc _).mp hb
        obtain ⟨ps, hps, rfl⟩ := i2 _ h2
        exact ⟨(_, rs) :: ps, List.Forall₂.cons ⟨hl, zy, zc, hr⟩ hps, rfl⟩

/-- **C104: one step of training of an LSTM with a head.** It ends, in any order of the gradients; and whatever it ends with is close to a step of
gradient descent on the loss of all sequences, in every parameter of the LSTM and of the head. -/
theorem tagger_train (hM : GoodLib M.lib) (hS : GoodSlopeLib sl) (hF : Good F φ L ε) (hD : GoodSlopes D φ φ' S κ safe) (flr : F32.Finite lr)
    (h : Sound φ L ε S κ safe n m g ls X Ec Ey P H P' H' W |val lr| T ess) :
    (∃ g' ls', TrainStep M sl F D lr n m (ess.map (·.map word)) g ls g' ls') ∧
    ∀ g' ls', TrainStep M sl F D lr n m (ess.map (·.map word)) g ls g' ls' →
      GatesClose n m g g' (network φ ls) X Ec Ey P' H' W lr T ess ∧ HeadClose φ L ε S κ n m g Ey P H W lr ess ls ls' := by
  have hE : 0 ≤ Ey := (lstmBound_nonneg (n := n) (m := m) (g := g) (h.gate .inp).x0 0).2.trans (h.out 0 (by omega)).2
  have hcount : lossCount ess ≤ 2 ^ 20 := by
    refine le_trans ?_ h.count
    unfold lossCount stepCount
    exact List.sum_le_sum fun es _ => List.length_filter_le _ _
  obtain ⟨l1, l2⟩ := lstm_train (sl := sl) hM hS flr (headed_sound (φ' := φ') hF hD M.cpu h)
  rw [headed_words] at l1 l2
  have hw : (ess.map fun es => (es.map word).map (wrap M.cpu F D ls)) = (ess.map (·.map word)).map (·.map (wrap M.cpu F D ls)) := by
    rw [List.map_map]; rfl
  rw [hw] at l1 l2
  obtain ⟨s1, s2⟩ := split_passes (M := M) (sl := sl) (F := F) (D := D) (n := n) (m := m) (g := g) (ls := ls) (ess.map (·.map word))
  have hhead := fun ps hps => seenAll (sl := sl) (F := F) (D := D) hM h ess (fun _ he => he) ps hps
  have tr := fun (Ts : List Target) (k1 : ∀ T ∈ Ts, GoodEx φ L ε S κ safe P H 1 Ey ls n T) (k4 : Ts.length = lossCount ess) =>
    train_all (lr := lr) M.cpu hF hD h.p0 h.h0 zero_le_one hE h.w120 flr h.head k1 (by rw [k4]; exact hcount) (by rw [k4]; exact h.step)
  constructor
  · obtain ⟨g', css, hp, hlearn⟩ := l1
    obtain ⟨ps, hps, rfl⟩ := s2 css hp
    obtain ⟨Ts, k1, k2, -, k4⟩ := hhead ps hps
    obtain ⟨ls', hls⟩ := (tr Ts k1 k4).1 _ k2
    exact ⟨g', ls', ps, hps, hlearn, hls⟩
  · rintro g' ls' ⟨ps, hps, hlearn, hls⟩
    constructor
    · have := l2 g' ⟨_, s1 ps hps, hlearn⟩
      simp only [headed_batch, headed_count] at this
      exact this
    · obtain ⟨Ts, k1, k2, k3, k4⟩ := hhead ps hps
      obtain ⟨c1, c2, c3⟩ := (tr Ts k1 k4).2.2 ls' ⟨_, k2, hls⟩
      refine ⟨c1, c2, fun pre rows cols w b post e => ?_⟩
      obtain ⟨w', b', d1, d2, d3, d4, d5⟩ := c3 pre rows cols w b post e
      rw [k4] at d4 d5
      refine ⟨w', b', d1, d2, d3, fun i hi j hj => ?_, fun i hi => ?_⟩
      · obtain ⟨f1, Δ, f2, f3⟩ := d4 i hi j hj
        refine ⟨f1, Δ, ?_, f3⟩
        have e' := fun t => k3 fun v => network φ post (nudged rows cols w b i j (network φ pre v) t)
        simp only [e'] at f2
        exact f2
      · obtain ⟨f1, Δ, f2, f3⟩ := d5 i hi
        refine ⟨f1, Δ, ?_, f3⟩
        have e' := fun t => k3 fun v => network φ post (shifted rows cols w b i (network φ pre v) t)
        simp only [e'] at f2
        exact f2

end Verif.Tagger32
