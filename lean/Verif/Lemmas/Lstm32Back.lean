import Verif.Lemmas.Lstm32Cell
import Verif.Lemmas.Srn32Back

set_option autoImplicit false
set_option linter.unusedSimpArgs false

/-!
# Back-propagation through time of an LSTM, step by step (C102)
-/

namespace Verif.Lstm32
open Verif.F32 Verif.Asm Verif.Spec Verif.Spec.Kernels Verif.Net32 Verif.Rec32 Verif.Att32 Verif.Back32 Verif.Srn32 Verif.Spec.Net32 Verif.Spec.Rec32
  Verif.Spec.Back32 Verif.Spec.Srn32 Verif.Spec.Train32 Verif.Spec.Lstm32

variable {n m : Nat} {M : Machine} {sl : Slopes} {g : Lstm} {X Ec Ey P H : ℝ} {τ : Tol}

theorem all_sum (f : Gt → ℝ) : (Gt.all.map f).sum = sumG f := by simp [Gt.all, sumG]; ring

/-- The gradient of an output. -/
theorem out_gather (cpu : Cpu) {p : Later} (hP : 0 ≤ P) (hH : 0 ≤ H) (hp : LaterOk p) (hB : yTop P p + yOff P H p ≤ 2 ^ 50)
    {c : Option (List F32.W)} {γ : Nat → ℝ} (hc : OkG n c γ P H) {o : Gt → Option (List F32.W)} {β : Gt → Nat → ℝ} (ho : ∀ q, OkG n (o q) (β q) (p.y q).1 (p.y q).2)
    (hs : c.isSome = true ∨ ∃ d, o .inp = some d) :
    (∃ gy, Gather cpu (c.toList ++ Gt.all.filterMap o) gy) ∧ ∀ gy, Gather cpu (c.toList ++ Gt.all.filterMap o) gy → ∃ q, gy = some q ∧
      Close n q (fun i => γ i + sumG fun q => β q i) (yTop P p) (yOff P H p) := by
  have el : (c :: Gt.all.map o).filterMap id = c.toList ++ Gt.all.filterMap o := by
    have e : (Gt.all.map o).filterMap id = Gt.all.filterMap o := by rw [List.filterMap_map]; rfl
    cases c with
    | none => rw [List.filterMap_cons_none rfl, e]; rfl
    | some c => rw [← e]; simp
  have hf : List.Forall₂ (ItOk n) (c :: Gt.all.map o) ((⟨γ, P, H⟩ : It) :: Gt.all.map fun q => ⟨β q, (p.y q).1, (p.y q).2⟩) := by
    refine .cons ⟨hc, hP, hH⟩ ?_
    rw [List.forall₂_map_left_iff, List.forall₂_map_right_iff]
    exact List.forall₂_same.mpr fun q _ => ⟨ho q, hp.y1 q, hp.y2 q⟩
  have hsum : (((⟨γ, P, H⟩ : It) :: Gt.all.map fun q => (⟨β q, (p.y q).1, (p.y q).2⟩ : It)).map fun t => t.P + t.H).sum =
      P + H + sumG fun q => (p.y q).1 + (p.y q).2 := by
    rw [List.map_cons, List.sum_cons, List.map_map, ← all_sum]; rfl
  have hle : (P + H + sumG fun q => (p.y q).1 + (p.y q).2) ≤ yTop P p + yOff P H p := by
    have h0 : 0 ≤ sumG fun q => (p.y q).1 + (p.y q).2 := sumG_nonneg fun q => add_nonneg (hp.y1 q) (hp.y2 q)
    have : 0 ≤ 25 * (P + H + sumG fun q => (p.y q).1 + (p.y q).2) / 2 ^ 24 := by positivity
    have e := sumG_add (fun q => (p.y q).1) (fun q => (p.y q).2)
    unfold yTop yOff
    linarith
  have h115 : (2 : ℝ) ^ 50 ≤ 2 ^ 115 := by norm_num
  obtain ⟨g1, g2⟩ := gather_items cpu hf (N := 5) (by simp [Gt.all]) (by norm_num) (by rw [hsum]; linarith) (by
    rcases hs with h | ⟨d, h⟩
    · obtain ⟨d, rfl⟩ := Option.isSome_iff_exists.mp h
      exact ⟨d, by simp⟩
    · exact ⟨d, by simp [Gt.all, ← h]⟩)
  rw [el] at g1 g2
  refine ⟨g1, fun gy hgy => ?_⟩
  obtain ⟨q, rfl, hq⟩ := g2 gy hgy
  refine ⟨q, rfl, close_mono hq (fun i _ => ?_) ?_ ?_⟩
  · rw [List.map_cons, List.sum_cons, List.map_map, ← all_sum]; rfl
  · rw [List.map_cons, List.sum_cons, List.map_map, yTop, ← all_sum]; exact le_rfl
  · rw [hsum, List.map_cons, List.sum_cons, List.map_map]
    unfold yOff
    rw [← all_sum (fun q => (p.y q).2)]
    have e : ((5 : ℕ) : ℝ) * ((5 : ℕ) : ℝ) = 25 := by norm_num
    rw [e]
    exact le_rfl

/-- What is known of the contributions of one step. -/
def StepOk (n m : Nat) (g : Lstm) (τ : Tol) (P H X Ey : ℝ) (T : Nat) (k : Gt → Option Con) (d : Gt → Delta) : Prop :=
  ∀ q, match k q with
    | none => ∀ i, (d q).δ i = 0
    | some c => GateOk n m (gateOf g q) (tops n g τ P H q) (offs n g τ P H q) X Ey T c (d q)

/-- What is known of what the previous state gets. -/
def Handed (n : Nat) (p : Later) (b : (Nat → ℝ) × (Nat → ℝ)) (some? : Prop) (zy : List (List F32.W)) (zc : Option (List F32.W)) : Prop :=
  (∃ (o : Gt → Option (List F32.W)) (β : Gt → Nat → ℝ), zy = Gt.all.filterMap o ∧ (∀ q, OkG n (o q) (β q) (p.y q).1 (p.y q).2) ∧
    (∀ i, b.2 i = sumG fun q => β q i) ∧ (some? → ∃ d, o .inp = some d)) ∧ OkG n zc b.1 p.c.1 p.c.2

theorem safe_gate (q : Gt) (E u : ℝ) : safeAt (actOf q) E u := by cases q <;> exact trivial

/-- All steps. -/
theorem bptt_ok (hM : GoodLib M.lib) (hS : GoodSlopeLib sl) (hg : ∀ q, Fits n m (gateOf g q) X) (hE' : 1 + Ey ≤ 2 ^ 50) (hP : 0 ≤ P) (hH : 0 ≤ H) {T : Nat}
    (hτe : τ = tol n m g X Ec Ey T) (hτ : TolOk τ)
    (hT : FitsL n g τ P H T) (hB : ∀ t ≤ T, (lstmBound n m g X t).1 ≤ Ec ∧ (lstmBound n m g X t).2 ≤ Ey) :
    ∀ (es : List SStep) (t : Nat) (prev : Option Cell) (c y : Nat → ℝ), t + es.length ≤ T → (∀ e ∈ es, Within m e.x X) →
      GoodL n m (thetas n m g) Ey P H c y es → EndsWithLoss es → Inv n m g X t prev c y →
      (∀ k < n, |y k| ≤ 1) → (prev = none → (∀ k, c k = 0) ∧ ∀ k, y k = 0) →
      (∃ zy zc cs, Bptt M sl n m g prev (es.map word) zy zc cs) ∧ ∀ zy zc cs, Bptt M sl n m g prev (es.map word) zy zc cs →
        (∀ sp, prev = some sp → Handed n (laterL n g τ P H es.length) (backL n m (thetas n m g) c y es) (es ≠ []) zy zc) ∧
        List.Forall₂ (StepOk n m g τ P H X Ey T) cs (deltasL n m (thetas n m g) c y es)
  | [], t, prev, c, y, _, _, _, _, _, _, _ => by
    refine ⟨⟨[], none, [], rfl, rfl, rfl⟩, ?_⟩
    rintro zy zc cs ⟨rfl, rfl, rfl⟩
    exact ⟨fun _ _ => ⟨⟨fun _ => none, fun _ _ => 0, rfl, fun _ _ => rfl, fun i => by simp [backL, sumG], fun h => absurd rfl h⟩, fun _ => rfl⟩, List.Forall₂.nil⟩
  | e :: es, t, prev, c, y, ht, hx, hgs, hend, hinv, hy1, hp0 => by
    have hlen : t + 1 + es.length ≤ T := by simp at ht; omega
    have hX0 := (hg .inp).x0
    have hE : 0 ≤ Ey := (lstmBound_nonneg (n := n) (m := m) (g := g) hX0 0).2.trans (hB 0 (by omega)).2
    obtain ⟨hl, hgs'⟩ := hgs
    obtain ⟨hend', hsome⟩ := ends_tail hend
    have hxe := hx e List.mem_cons_self
    have hr : es.length < T := by omega
    have hbt := hB t (by omega)
    have hbt1 := hB (t + 1) (by omega)
    have hlat := later_ok (n := n) g hτ hP hH es.length
    obtain ⟨f1, f2, f3⟩ := hT es.length hr
    have sg := signs hτ hP hH hlat
    have hec : τ.ec = Ec := by rw [hτe]; rfl
    have hev : ∀ q, τ.ev q = actErr (actOf q) + lipOf (actOf q) * sumErr n m g X Ey q := fun q => by rw [hτe]; rfl
    have hka : ∀ q, τ.ka q = slopeErr (actOf q) (sumErr n m g X Ey q) := fun q => by rw [hτe]; rfl
    have hC : τ.C = T := by rw [hτe]; rfl
    obtain ⟨⟨s0, hs0⟩, nextAll⟩ := inv_step hM hg hxe hinv
    have hpy : ∀ yw, prev.map Cell.y = some yw → Within n yw 1 := fun yw h => by
      obtain ⟨s, hs, rfl⟩ := Option.map_eq_some_iff.mp h
      exact (hinv.words s hs).2
    have gates := fun q => gate_close (q := q) hM (hg q) hxe hpy hE (fun k hk => (hinv.out k hk).trans hbt.2)
    have hprev : ∀ yw, prev.map Cell.y = some yw → Close n yw y 1 Ey := by
      intro yw h
      have hw := hpy yw h
      refine ⟨hw.1, fun i hi => ⟨(hw.2 i hi).1, ?_, hy1 i hi⟩⟩
      have := hinv.out i hi
      rw [h] at this
      exact this.trans hbt.2
    have hcp : ∀ sp, prev = some sp → Close n sp.cell c τ.C τ.ec := by
      intro sp h
      have hw := (hinv.words sp h).1
      refine ⟨hw.1, fun i hi => ⟨(hw.2 i hi).1, ?_, ?_⟩⟩
      · have := hinv.cell i hi
        rw [h] at this
        rw [hec]
        have e : pc (some sp) i = val (sp.cell.getD i 0) := by simp [pc, vals]
        rw [e] at this
        exact this.trans hbt.1
      · rw [hC]
        exact (hinv.size i hi).trans (by exact_mod_cast (by omega : t ≤ T))
    have out1 : ∀ k < n, |outL n m (thetas n m g) (vals e.x) c y k| ≤ 1 := fun k _ => by
      unfold outL
      exact (mul_unit_le (real_unit .out _)).trans (tanh_unit _)
    have sofar : ∀ s, lstmNext M n m g prev e.x s →
        (∃ zy zc cs, Bptt M sl n m g (some s) (es.map word) zy zc cs) ∧
        (∃ c', Own (e.loss.map (·.G)) s.y c') ∧
        ∀ hy hc qs c', Bptt M sl n m g (some s) (es.map word) hy hc qs → Own (e.loss.map (·.G)) s.y c' →
          List.Forall₂ (StepOk n m g τ P H X Ey T) qs (deltasL n m (thetas n m g) (cellL n m (thetas n m g) (vals e.x) c y) (outL n m (thetas n m g) (vals e.x) c y) es) ∧
          OkG n hc (backL n m (thetas n m g) (cellL n m (thetas n m g) (vals e.x) c y) (outL n m (thetas n m g) (vals e.x) c y) es).1
            (laterL n g τ P H es.length).c.1 (laterL n g τ P H es.length).c.2 ∧
          (∃ gy, Gather M.cpu (c'.toList ++ hy) gy) ∧ ∀ gy, Gather M.cpu (c'.toList ++ hy) gy → ∃ q, gy = some q ∧
            Close n q (fun i => e.γ i + (backL n m (thetas n m g) (cellL n m (thetas n m g) (vals e.x) c y) (outL n m (thetas n m g) (vals e.x) c y) es).2 i)
              (yTop P (laterL n g τ P H es.length)) (yOff P H (laterL n g τ P H es.length)) := by
      intro s hs
      have hi := nextAll s hs
      obtain ⟨i1, i2⟩ := bptt_ok hM hS hg hE' hP hH hτe hτ hT hB es (t + 1) (some s) (cellL n m (thetas n m g) (vals e.x) c y) (outL n m (thetas n m g) (vals e.x) c y) hlen
        (fun e he => hx e (List.mem_cons_of_mem _ he)) hgs' hend' hi out1 (fun h => by simp at h)
      have hw := (hi.words s rfl).2
      have hloss : ∀ l, e.loss = some l → (∃ q, l.G s.y q) ∧ ∀ q, l.G s.y q → Close n q l.γ P H := by
        intro l hl'
        exact (hl l hl').1 s.y hw.1 (fun i hi' => ⟨(hw.2 i hi').1, (hi.out i hi').trans hbt1.2, out1 i hi'⟩)
      refine ⟨i1, ?_, fun hy hc qs c' hb hown => ?_⟩
      · cases hl' : e.loss with
        | none => exact ⟨none, rfl⟩
        | some l =>
          obtain ⟨q, hq⟩ := (hloss l hl').1
          exact ⟨some q, q, hq, rfl⟩
      · obtain ⟨j1, j2⟩ := i2 hy hc qs hb
        obtain ⟨⟨o, β, rfl, ho, hβ, hne⟩, hcl⟩ := j1 s rfl
        refine ⟨j2, hcl, ?_⟩
        have hc : OkG n c' e.γ P H ∧ (e.loss.isSome = true → c'.isSome = true) := by
          cases hl' : e.loss with
          | none =>
            rw [hl'] at hown
            obtain rfl : c' = none := hown
            refine ⟨fun i => ?_, fun h => by simp at h⟩
            unfold SStep.γ; rw [hl']
          | some l =>
            rw [hl'] at hown
            obtain ⟨q, hq, rfl⟩ := hown
            refine ⟨?_, fun _ => rfl⟩
            have : e.γ = l.γ := by unfold SStep.γ; rw [hl']
            rw [this]
            exact (hloss l hl').2 q hq
        have := out_gather M.cpu hP hH hlat f1 hc.1 ho (by
          by_cases hes : es = []
          · exact Or.inl (hc.2 (hsome hes))
          · exact Or.inr (hne hes))
        refine ⟨this.1, fun gy hgy => ?_⟩
        obtain ⟨q, rfl, hq⟩ := this.2 gy hgy
        exact ⟨q, rfl, close_mono hq (fun i _ => by rw [hβ]) le_rfl le_rfl⟩
    -- the backward pass of this step
    generalize hbe : backL n m (thetas n m g) (cellL n m (thetas n m g) (vals e.x) c y) (outL n m (thetas n m g) (vals e.x) c y) es = b at sofar
    generalize hpe : laterL n g τ P H es.length = p at *
    have hvg : ∀ q, share (gateV n m (thetas n m g) (vals e.x) y) (cellL n m (thetas n m g) (vals e.x) c y) c (fun i => e.γ i + b.2 i)
        (fun i => (1 - Real.tanh (cellL n m (thetas n m g) (vals e.x) c y i) ^ 2) * (gateV n m (thetas n m g) (vals e.x) y .out i * (e.γ i + b.2 i)) + b.1 i) q =
        valGrad n m (thetas n m g) c y e b q := fun q => by cases q <;> rfl
    have cellB := fun a v s (h : Step M n m g prev e.x a v s) gy hgy hc hhc => cell_back (M := M) (sl := sl) (prev := prev) (v := v) (s := s)
      (V := gateV n m (thetas n m g) (vals e.x) y) (cE := cellL n m (thetas n m g) (vals e.x) c y) (cP := c) (Γ := fun i => e.γ i + b.2 i) (β := b.1)
      (Mc := largest n fun i => |cellL n m (thetas n m g) (vals e.x) c y i|) (gy := gy) (hc' := hc) hM hS hτ hP hH hlat f1 f2
      (fun q => by rw [hev]; exact ((gates q).2 _ (h.1 q)).2.2 _ (h.2.1 q))
      (by
        have hi := nextAll s (step_next h)
        have hw := (hi.words s rfl).1
        refine ⟨hw.1, fun i hi' => ⟨(hw.2 i hi').1, ?_, le_largest (f := fun i => |cellL n m (thetas n m g) (vals e.x) c y i|) hi'⟩⟩
        have := hi.cell i hi'
        have e' : pc (some s) i = val (s.cell.getD i 0) := by simp [pc, vals]
        rw [e'] at this
        rw [hec]
        exact this.trans hbt1.1)
      hcp hgy hhc
    have gateB := fun a v s (h : Step M n m g prev e.x a v s) (d : Gt → List F32.W) q
        (hd : Close n (d q) (valGrad n m (thetas n m g) c y e b q) (valTop τ P p q) (valOff τ P H p q)) =>
      gate_back (M := M) (sl := sl) (g := gateOf g q) (act := actOf q) (Ea := sumErr n m g X Ey q) (S := tops n g τ P H q) (D := offs n g τ P H q) (T := T) (r := es.length)
        (y := y) (prev := prev.map Cell.y) hM hS (hg q) (sumErr_nonneg hX0 hE q) hE hE' (sg.vT q) (sg.vO q) hr (by unfold tops argTop; rw [hpe])
        (by unfold offs argOffL; rw [hpe, hka]) (small_prod (by
          have h1 := hτ.ka1 q
          rw [hka] at h1
          have h2 : steepest (actOf q) ≤ 1 := by cases q <;> simp [actOf, steepest] <;> norm_num
          have : (1 : ℝ) + 1 ≤ 2 ^ 21 := by norm_num
          linarith) (add_nonneg (sg.vT q) (sg.vO q)) (f3 q).1)
        (by unfold tops offs; rw [hpe]; exact (f3 q).2.1) (by unfold tops offs; rw [hpe]; exact (f3 q).2.2.1) (by unfold tops offs; rw [hpe]; exact (f3 q).2.2.2)
        hxe (fun i _ => safe_gate q _ _) ((gates q).2 _ (h.1 q)).1 hd hprev (fun hn => (hp0 (by simpa using hn)).2)
    refine ⟨?_, ?_⟩
    · obtain ⟨a, v, hst⟩ := next_step hs0
      obtain ⟨⟨hy, hc, qs, hb⟩, ⟨c', hc'⟩, rest⟩ := sofar s0 hs0
      obtain ⟨-, hhc, ⟨gy, hgy⟩, gall⟩ := rest hy hc qs c' hb hc'
      obtain ⟨q, rfl, hq⟩ := gall gy hgy
      obtain ⟨⟨gc, d, zc, hcb⟩, cAll⟩ := cellB a v s0 hst q hq hc hhc
      have hd := (cAll gc d zc hcb).1
      have ex : ∀ q, ∃ kz : Option Con × Option (List F32.W), if prev.isNone = true ∧ q = .forget then kz.1 = none ∧ kz.2 = none
          else ∃ c, kz.1 = some c ∧ GateBack M sl n m (gateOf g q) (actOf q) (a q) (d q) e.x (prev.map Cell.y) c kz.2 := by
        intro q
        by_cases h : prev.isNone = true ∧ q = .forget
        · exact ⟨(none, none), by rw [if_pos h]; exact ⟨rfl, rfl⟩⟩
        · obtain ⟨c0, z0, h0⟩ := (gateB a v s0 hst d q (by rw [← hvg]; exact hd q h)).1
          exact ⟨(some c0, z0), by rw [if_neg h]; exact ⟨c0, rfl, h0⟩⟩
      choose kz hkz using ex
      exact ⟨_, zc, _, a, v, s0, hy, hc, qs, c', some q, hst, hb, hc', hgy, gc, d, fun q => (kz q).1, fun q => (kz q).2, hcb, hkz, rfl, rfl⟩
    · rintro zy zc cs ⟨a, v, s, hy, hc, qs, c', gy, hst, hb, hc', hgy, hrest⟩
      obtain ⟨-, -, rest⟩ := sofar s (step_next hst)
      obtain ⟨k1, hhc, -, gall⟩ := rest hy hc qs c' hb hc'
      obtain ⟨q, rfl, hq⟩ := gall gy hgy
      obtain ⟨gc, d, k, z, hcb, hk, rfl, rfl⟩ := hrest
      obtain ⟨hd, hz⟩ := (cellB a v s hst q hq hc hhc).2 gc d zc hcb
      have hgate := fun q (h : ¬(prev.isNone = true ∧ q = .forget)) => gateB a v s hst d q (by rw [← hvg]; exact hd q h)
      refine ⟨fun sp hsp => ⟨⟨z, fun q k => ∑ i ∈ Finset.range n, argGrad n m (thetas n m g) c y e b q i * (thetas n m g q).u i k, rfl, fun q => ?_, fun i => ?_, fun _ => ?_⟩, ?_⟩,
        List.Forall₂.cons (fun q => ?_) k1⟩
      · have hn : ¬(prev.isNone = true ∧ q = .forget) := by rw [hsp]; simp
        have := hk q
        rw [if_neg hn] at this
        obtain ⟨c0, -, h0⟩ := this
        obtain ⟨zz, hzz, hcl⟩ := ((hgate q hn).2 c0 (z q) h0).2.2 sp.y (by rw [hsp]; rfl)
        rw [hzz]
        unfold tops offs at hcl
        rw [hpe] at hcl
        have hl1 : (laterL n g τ P H (e :: es).length).y q =
            (colNorm n n (gateOf g q).wRec * argTop τ P p q, mulTOff n n (gateOf g q).wRec (argTop τ P p q) (argOffL τ P H p q)) := by rw [← hpe]; rfl
        rw [hl1]
        exact hcl
      · rw [backL]
        simp only [hbe]
      · have hn : ¬(prev.isNone = true ∧ Gt.inp = .forget) := by simp
        have := hk .inp
        rw [if_neg hn] at this
        obtain ⟨c0, -, h0⟩ := this
        obtain ⟨zz, hzz, -⟩ := ((hgate .inp hn).2 c0 (z .inp) h0).2.2 sp.y (by rw [hsp]; rfl)
        exact ⟨zz, hzz⟩
      · obtain ⟨w, rfl, hw⟩ := hz sp hsp
        have hl1 : (laterL n g τ P H (e :: es).length).c = (cellTop P p, mulOff 1 (τ.ev .forget) (cellTop P p) (cellOff τ P H p)) := by rw [← hpe]; rfl
        rw [hl1, backL]
        simp only [hbe]
        exact hw
      · have := hk q
        by_cases h : prev.isNone = true ∧ q = .forget
        · rw [if_pos h] at this
          rw [this.1]
          obtain ⟨h1, rfl⟩ := h
          intro i
          show argGrad n m (thetas n m g) c y e _ .forget i = 0
          unfold argGrad valGrad
          rw [(hp0 (by simpa using h1)).1 i, zero_mul, mul_zero]
        · rw [if_neg h] at this
          obtain ⟨c0, hc0, h0⟩ := this
          rw [hc0]
          have hok := ((hgate q h).2 c0 (z q) h0).1
          rw [← hbe] at hok
          exact hok

end Verif.Lstm32
