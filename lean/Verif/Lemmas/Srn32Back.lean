import Verif.Lemmas.Srn32

set_option autoImplicit false
set_option linter.unusedSimpArgs false

/-!
# Back-propagation through time, step by step (C100)
-/

namespace Verif.Srn32
open Verif.F32 Verif.Asm Verif.Spec Verif.Spec.Kernels Verif.Net32 Verif.Rec32 Verif.Att32 Verif.Back32 Verif.Spec.Net32 Verif.Spec.Rec32
  Verif.Spec.Back32 Verif.Spec.Srn32 Verif.Spec.Train32

variable {n m : Nat} {M : Machine} {sl : Slopes} {g : Gate} {X E P H : ℝ}

/-- The words of a step. -/
def word (e : SStep) : In := (e.x, e.loss.map (·.G))

theorem slopeOff_nonneg (hX : 0 ≤ X) (hE : 0 ≤ E) : 0 ≤ slopeOff n m g X E := by
  unfold slopeOff slopeErr
  have h1 := preErr_nonneg (n := n) (m := m) (g := g) hX
  have h2 : 0 ≤ Net32.norm n n g.wRec := largest_nonneg _ _
  positivity

/-- `Backward` of `Tanh` and of `Affine` in one step, with `r` steps after it. -/
theorem step_back (hM : GoodLib M.lib) (hS : GoodSlopeLib sl) (hg : Fits n m g X) (hE : 0 ≤ E) (hE' : 1 + E ≤ 2 ^ 50) (hP : 0 ≤ P) (hH : 0 ≤ H)
    {T r : Nat} (hr : r < T) (hT : FitsTime n m g (slopeOff n m g X E) P H T) {e : SStep} (hx : Within m e.x X) {a gy : List F32.W} {v Γ y : Nat → ℝ} {Ma : ℝ}
    (ha : Close n a v Ma (preErr n m g X + Net32.norm n n g.wRec * E))
    (hgy : Close n gy Γ (P + (later n g.wRec (slopeOff n m g X E) P H r).1) (outOff P H (later n g.wRec (slopeOff n m g X E) P H r))) :
    (∃ δ gw gx, Prod (a.map sl.tanh) gy δ ∧ δ.length = g.b.length ∧ Outer M.cpu δ e.x gw ∧ MulT n m g.w δ gx) ∧
    ∀ δ gw gx, Prod (a.map sl.tanh) gy δ → δ.length = g.b.length → Outer M.cpu δ e.x gw → MulT n m g.w δ gx →
      ((∀ k, y k = 0) → ConOk n m g (slopeOff n m g X E) P H X E T ⟨gw, δ, none, gx⟩ ⟨fun i => (1 - Real.tanh (v i) ^ 2) * Γ i, vals e.x, y⟩) ∧
      ∀ yw, Close n yw y 1 E → (∃ gu zz, Outer M.cpu δ yw gu ∧ MulT n n g.wRec δ zz) ∧
        ∀ gu zz, Outer M.cpu δ yw gu → MulT n n g.wRec δ zz →
          ConOk n m g (slopeOff n m g X E) P H X E T ⟨gw, δ, some gu, gx⟩ ⟨fun i => (1 - Real.tanh (v i) ^ 2) * Γ i, vals e.x, y⟩ ∧
          Close n zz (fun k => ∑ i ∈ Finset.range n, (1 - Real.tanh (v i) ^ 2) * Γ i * at2 n g.wRec i k)
            (later n g.wRec (slopeOff n m g X E) P H (r + 1)).1 (later n g.wRec (slopeOff n m g X E) P H (r + 1)).2 := by
  have hX0 := hg.x0
  have hκ := slopeOff_nonneg (n := n) (m := m) (g := g) hX0 hE
  obtain ⟨b1, b2, b3, b4, b5⟩ := hT r hr
  obtain ⟨l1, l2⟩ := later_nonneg n g.wRec hκ hP hH r
  have hA := outOff_nonneg (p := later n g.wRec (slopeOff n m g X E) P H r) hP hH l1 l2
  have hG := argOff_nonneg (p := later n g.wRec (slopeOff n m g X E) P H r) hκ hP hH l1 l2
  have hEa : 0 ≤ preErr n m g X + Net32.norm n n g.wRec * E :=
    add_nonneg (preErr_nonneg hX0) (mul_nonneg (largest_nonneg _ _) hE)
  have hS0 : 0 ≤ P + (later n g.wRec (slopeOff n m g X E) P H r).1 := by linarith
  -- the four largest values
  have w1 : weightErr X 0 (P + (later n g.wRec (slopeOff n m g X E) P H r).1) (argOff (slopeOff n m g X E) P H (later n g.wRec (slopeOff n m g X E) P H r)) ≤
      conOff n g.wRec (slopeOff n m g X E) P H X 0 T := le_largest (f := fun r => weightErr X 0 (P + (later n g.wRec (slopeOff n m g X E) P H r).1) (argOff (slopeOff n m g X E) P H (later n g.wRec (slopeOff n m g X E) P H r))) hr
  have w2 : (P + (later n g.wRec (slopeOff n m g X E) P H r).1) * X + weightErr X 0 (P + (later n g.wRec (slopeOff n m g X E) P H r).1) (argOff (slopeOff n m g X E) P H (later n g.wRec (slopeOff n m g X E) P H r)) ≤
      conSize n g.wRec (slopeOff n m g X E) P H X 0 T := le_largest (f := fun r => (P + (later n g.wRec (slopeOff n m g X E) P H r).1) * X + weightErr X 0 (P + (later n g.wRec (slopeOff n m g X E) P H r).1) (argOff (slopeOff n m g X E) P H (later n g.wRec (slopeOff n m g X E) P H r))) hr
  have w3 : weightErr 1 E (P + (later n g.wRec (slopeOff n m g X E) P H r).1) (argOff (slopeOff n m g X E) P H (later n g.wRec (slopeOff n m g X E) P H r)) ≤
      conOff n g.wRec (slopeOff n m g X E) P H 1 E T := le_largest (f := fun r => weightErr 1 E (P + (later n g.wRec (slopeOff n m g X E) P H r).1) (argOff (slopeOff n m g X E) P H (later n g.wRec (slopeOff n m g X E) P H r))) hr
  have w4 : (P + (later n g.wRec (slopeOff n m g X E) P H r).1) * 1 + weightErr 1 E (P + (later n g.wRec (slopeOff n m g X E) P H r).1) (argOff (slopeOff n m g X E) P H (later n g.wRec (slopeOff n m g X E) P H r)) ≤
      conSize n g.wRec (slopeOff n m g X E) P H 1 E T := le_largest (f := fun r => (P + (later n g.wRec (slopeOff n m g X E) P H r).1) * 1 + weightErr 1 E (P + (later n g.wRec (slopeOff n m g X E) P H r).1) (argOff (slopeOff n m g X E) P H (later n g.wRec (slopeOff n m g X E) P H r))) hr
  have w5 : argOff (slopeOff n m g X E) P H (later n g.wRec (slopeOff n m g X E) P H r) ≤ biasOffT n g.wRec (slopeOff n m g X E) P H T :=
    le_largest (f := fun r => argOff (slopeOff n m g X E) P H (later n g.wRec (slopeOff n m g X E) P H r)) hr
  have w6 : P + (later n g.wRec (slopeOff n m g X E) P H r).1 + argOff (slopeOff n m g X E) P H (later n g.wRec (slopeOff n m g X E) P H r) ≤
      biasSize n g.wRec (slopeOff n m g X E) P H T :=
    le_largest (f := fun r => P + (later n g.wRec (slopeOff n m g X E) P H r).1 + argOff (slopeOff n m g X E) P H (later n g.wRec (slopeOff n m g X E) P H r)) hr
  have w7 := le_largest (f := fun r => colNorm n m g.w * argOff (slopeOff n m g X E) P H (later n g.wRec (slopeOff n m g X E) P H r) +
    n * (5 * reach n g.w (P + (later n g.wRec (slopeOff n m g X E) P H r).1 + argOff (slopeOff n m g X E) P H (later n g.wRec (slopeOff n m g X E) P H r)) / 2 ^ 24)) hr
  obtain ⟨⟨δ0, p0, hδ0⟩, actAll⟩ := act_back M.cpu (slopes_good M.cpu M.lane hM hS) .tanh hEa hS0 hA b2 (fun i _ => trivial) ha hgy
  have hδ : ∀ δ, Prod (a.map sl.tanh) gy δ → Close n δ (fun i => (1 - Real.tanh (v i) ^ 2) * Γ i) (P + (later n g.wRec (slopeOff n m g X E) P H r).1)
      (argOff (slopeOff n m g X E) P H (later n g.wRec (slopeOff n m g X E) P H r)) := fun δ h => by
    have := (actAll δ none ⟨_, rfl, h, rfl⟩).1
    exact close_mono this (fun i _ => rfl) (le_of_eq (one_mul _)) le_rfl
  have hxc : Close m e.x (vals e.x) X 0 := ⟨hx.1, fun i hi => ⟨(hx.2 i hi).1, by simp [vals], (hx.2 i hi).2⟩⟩
  have linW := fun δ h => lin_back (α := Act) M.cpu (slopes M.cpu M.lane M.lib sl) hg.w hg.b (fun v hv => (hg.wv v hv).1) hg.n20 hX0 le_rfl hS0 hG
    (by rw [add_zero]; exact hg.x50) b3 b4 hxc (hδ δ h)
  have linU := fun δ h yw (hyw : Close n yw y 1 E) => lin_back (α := Act) M.cpu (slopes M.cpu M.lane M.lib sl) hg.wRec hg.b (fun v hv => (hg.wRecv v hv).1) hg.n20
    zero_le_one hE hS0 hG hE' b3 b5 hyw (hδ δ h)
  have all : ∀ δ gw gx, Prod (a.map sl.tanh) gy δ → δ.length = g.b.length → Outer M.cpu δ e.x gw → MulT n m g.w δ gx → ∀ gu,
      (match gu with
        | none => ∀ k, y k = 0
        | some gu => Train32.Upto (n * n) (conSize n g.wRec (slopeOff n m g X E) P H 1 E T) gu ∧
            ∀ i < n, ∀ j < n, |val (gu.getD (i * n + j) 0) - (1 - Real.tanh (v i) ^ 2) * Γ i * y j| ≤ conOff n g.wRec (slopeOff n m g X E) P H 1 E T) →
      ConOk n m g (slopeOff n m g X E) P H X E T ⟨gw, δ, gu, gx⟩ ⟨fun i => (1 - Real.tanh (v i) ^ 2) * Γ i, vals e.x, y⟩ := by
    intro δ gw gx h1 h2 h3 h4 gu h5
    obtain ⟨z1, gw', gb', hp, q1, q2, q3, q4, q5, q6⟩ := (linW δ h1).2 gx _ ⟨h2, gw, h3, h4, rfl⟩
    obtain ⟨rfl, rfl⟩ := Prod.mk.inj (Option.some.inj hp)
    have u1 := upto_cell q1 q3 q5 q6
    refine ⟨⟨u1.1, fun i hi => ⟨(u1.2 i hi).1, (u1.2 i hi).2.trans w2⟩⟩, fun i hi j hj => (q3 i hi j hj).2.trans w1,
      ⟨q2, fun i hi => ⟨(q4 i hi).1, ((close_le (hδ δ h1) i hi).2).trans w6⟩⟩, fun i hi => (q4 i hi).2.trans w5, h5, z1.1, fun j hj => ⟨(z1.2 j hj).1, (z1.2 j hj).2.1.trans w7⟩⟩
  refine ⟨?_, ?_⟩
  · obtain ⟨d0, hd0, hp, -⟩ := hδ0
    obtain rfl : d0 = a.map sl.tanh := hd0
    obtain ⟨z, p, s1, gw, s2, s3, -⟩ := (linW δ0 hp).1
    exact ⟨δ0, gw, z, hp, s1, s2, s3⟩
  · intro δ gw gx h1 h2 h3 h4
    refine ⟨fun hy => all δ gw gx h1 h2 h3 h4 none hy, fun yw hyw => ?_⟩
    obtain ⟨⟨z, p, s1, gu, s2, s3, -⟩, uAll⟩ := linU δ h1 yw hyw
    refine ⟨⟨gu, z, s2, s3⟩, fun gu zz t1 t2 => ?_⟩
    obtain ⟨z1, gw', gb', hp, q1, q2, q3, q4, q5, q6⟩ := uAll zz _ ⟨h2, gu, t1, t2, rfl⟩
    obtain ⟨rfl, rfl⟩ := Prod.mk.inj (Option.some.inj hp)
    have u1 := upto_cell q1 q3 q5 q6
    exact ⟨all δ gw gx h1 h2 h3 h4 (some gu) ⟨⟨u1.1, fun i hi => ⟨(u1.2 i hi).1, (u1.2 i hi).2.trans w4⟩⟩, fun i hi j hj => (q3 i hi j hj).2.trans w3⟩, z1⟩

theorem ends_tail {e : SStep} {es : List SStep} (h : EndsWithLoss (e :: es)) : EndsWithLoss es ∧ (es = [] → e.loss.isSome = true) := by
  cases es with
  | nil => exact ⟨trivial, fun _ => h⟩
  | cons f fs => exact ⟨h, fun h => by simp at h⟩

/-- All steps. -/
theorem bptt_ok (hM : GoodLib M.lib) (hS : GoodSlopeLib sl) (hg : Fits n m g X) (hE' : 1 + E ≤ 2 ^ 50) (hP : 0 ≤ P) (hH : 0 ≤ H) {T : Nat}
    (hT : FitsTime n m g (slopeOff n m g X E) P H T) (hB : ∀ t ≤ T, srnBound n m g X t ≤ E) :
    ∀ (es : List SStep) (t : Nat) (prev : Option (List F32.W)) (y : Nat → ℝ), t + es.length ≤ T → (∀ e ∈ es, Within m e.x X) →
      GoodSteps n m (theta n m g) E P H y es → EndsWithLoss es → (∀ yw, prev = some yw → Within n yw 1) →
      (∀ k < n, |pv prev k - y k| ≤ srnBound n m g X t) → (∀ k < n, |y k| ≤ 1) → (prev = none → ∀ k, y k = 0) →
      (∃ z cs, Bptt M sl n m g prev (es.map word) z cs) ∧ ∀ z cs, Bptt M sl n m g prev (es.map word) z cs →
        (es = [] → z = none) ∧
        (es ≠ [] → ∀ yw, prev = some yw → ∃ zz, z = some zz ∧ Close n zz (back n m (theta n m g) y es)
          (later n g.wRec (slopeOff n m g X E) P H es.length).1 (later n g.wRec (slopeOff n m g X E) P H es.length).2) ∧
        List.Forall₂ (ConOk n m g (slopeOff n m g X E) P H X E T) cs (deltas n m (theta n m g) y es)
  | [], t, prev, y, _, _, _, _, _, _, _, _ => by
    refine ⟨⟨none, [], rfl, rfl⟩, ?_⟩
    rintro z cs ⟨rfl, rfl⟩
    exact ⟨fun _ => rfl, fun h => absurd rfl h, List.Forall₂.nil⟩
  | e :: es, t, prev, y, ht, hx, hgs, hend, hpw, hpe, hy1, hp0 => by
    have hlen : t + 1 + es.length ≤ T := by simp at ht; omega
    have hE : 0 ≤ E := (srnBound_nonneg hg.x0 0).trans (hB 0 (by omega))
    have hX0 := hg.x0
    have hκ := slopeOff_nonneg (n := n) (m := m) (g := g) hX0 hE
    obtain ⟨hl, hgs'⟩ := hgs
    obtain ⟨hend', hsome⟩ := ends_tail hend
    have hxe := hx e List.mem_cons_self
    have hNn : 0 ≤ Net32.norm n n g.wRec := largest_nonneg _ _
    obtain ⟨⟨a0, ha0⟩, fwd⟩ := forward_close hM hg hxe hpw (srnBound_nonneg hX0 t) hpe
    have hr : es.length < T := by omega
    obtain ⟨l1, l2⟩ := later_nonneg n g.wRec hκ hP hH es.length
    have hbt := hB t (by omega)
    have hbt1 := hB (t + 1) (by omega)
    have sofar : ∀ a, Pre M.cpu n m g e.x prev a →
        (∃ z cs, Bptt M sl n m g (some (a.map M.lib.tanh)) (es.map word) z cs) ∧
        (∃ c, Own (e.loss.map (·.G)) (a.map M.lib.tanh) c) ∧
        ∀ h qs c, Bptt M sl n m g (some (a.map M.lib.tanh)) (es.map word) h qs → Own (e.loss.map (·.G)) (a.map M.lib.tanh) c →
          List.Forall₂ (ConOk n m g (slopeOff n m g X E) P H X E T) qs (deltas n m (theta n m g) (out n m (theta n m g) (vals e.x) y) es) ∧
          (∃ gy, Gather M.cpu (c.toList ++ h.toList) gy) ∧ ∀ gy, Gather M.cpu (c.toList ++ h.toList) gy → ∃ q, gy = some q ∧
            Close n q (fun i => e.γ i + back n m (theta n m g) (out n m (theta n m g) (vals e.x) y) es i)
              (P + (later n g.wRec (slopeOff n m g X E) P H es.length).1) (outOff P H (later n g.wRec (slopeOff n m g X E) P H es.length)) := by
      intro a ha
      obtain ⟨c1, c2, c3⟩ := fwd a ha
      obtain ⟨i1, i2⟩ := bptt_ok hM hS hg hE' hP hH hT hB es (t + 1) (some (a.map M.lib.tanh)) (out n m (theta n m g) (vals e.x) y) hlen
        (fun e he => hx e (List.mem_cons_of_mem _ he)) hgs' hend' (fun yw h => by obtain rfl := Option.some.inj h; exact c2)
        (fun k hk => (c3.2 k hk).2.1) (fun k _ => tanh_unit _) (fun h => by simp at h)
      have hloss : ∀ l, e.loss = some l → (∃ q, l.G (a.map M.lib.tanh) q) ∧ ∀ q, l.G (a.map M.lib.tanh) q → Close n q l.γ P H := by
        intro l hl'
        have := (hl l hl').1 (a.map M.lib.tanh) c2.1 (fun i hi => ⟨(c3.2 i hi).1, (c3.2 i hi).2.1.trans hbt1, (c3.2 i hi).2.2⟩)
        exact this
      refine ⟨i1, ?_, fun h qs c hb hown => ?_⟩
      · cases hl' : e.loss with
        | none => exact ⟨none, rfl⟩
        | some l =>
          obtain ⟨q, hq⟩ := (hloss l hl').1
          exact ⟨some q, q, hq, rfl⟩
      · obtain ⟨j1, j2, j3⟩ := i2 h qs hb
        refine ⟨j3, ?_⟩
        have hc : OkG n c e.γ P H ∧ (e.loss.isSome = true → c.isSome = true) := by
          cases hl' : e.loss with
          | none =>
            rw [hl'] at hown
            obtain rfl : c = none := hown
            refine ⟨fun i => ?_, fun h => by simp at h⟩
            unfold SStep.γ; rw [hl']
          | some l =>
            rw [hl'] at hown
            obtain ⟨q, hq, rfl⟩ := hown
            refine ⟨?_, fun _ => rfl⟩
            have : e.γ = l.γ := by unfold SStep.γ; rw [hl']
            rw [this]
            exact (hloss l hl').2 q hq
        have hh : OkG n h (back n m (theta n m g) (out n m (theta n m g) (vals e.x) y) es) (later n g.wRec (slopeOff n m g X E) P H es.length).1
            (later n g.wRec (slopeOff n m g X E) P H es.length).2 ∧ (es ≠ [] → h.isSome = true) := by
          by_cases hes : es = []
          · rw [j1 hes]
            refine ⟨fun i => ?_, fun h => absurd hes h⟩
            rw [hes]; rfl
          · obtain ⟨zz, rfl, hz⟩ := j2 hes _ rfl
            exact ⟨hz, fun _ => rfl⟩
        refine gather_ok M.cpu hP hH l1 l2 (hT es.length hr).1 hc.1 hh.1 ?_
        by_cases hes : es = []
        · exact Or.inl (hc.2 (hsome hes))
        · exact Or.inr (hh.2 hes)
    have argc : ∀ a, Pre M.cpu n m g e.x prev a → Close n a (arg n m (theta n m g) (vals e.x) y) (largest n fun i => |arg n m (theta n m g) (vals e.x) y i|)
        (preErr n m g X + Net32.norm n n g.wRec * E) := fun a ha =>
      close_mono (fwd a ha).1 (fun _ _ => rfl) le_rfl (by have := mul_le_mul_of_nonneg_left hbt hNn; linarith)
    have hprev : ∀ yw, prev = some yw → Close n yw y 1 E := by
      intro yw h
      have hw := hpw yw h
      refine ⟨hw.1, fun i hi => ⟨(hw.2 i hi).1, ?_, hy1 i hi⟩⟩
      have := hpe i hi
      rw [h] at this
      exact this.trans hbt
    have stepB := fun a ha q hq => step_back (y := y) hM hS hg hE hE' hP hH hr hT hxe (argc a ha) (gy := q)
      (Γ := fun i => e.γ i + back n m (theta n m g) (out n m (theta n m g) (vals e.x) y) es i) hq
    refine ⟨?_, ?_⟩
    · obtain ⟨⟨h, qs, hb⟩, ⟨c, hc⟩, rest⟩ := sofar a0 ha0
      obtain ⟨-, ⟨gy, hgy⟩, gall⟩ := rest h qs c hb hc
      obtain ⟨q, rfl, hq⟩ := gall gy hgy
      obtain ⟨⟨δ, gw, gx, t1, t2, t3, t4⟩, sall⟩ := stepB a0 ha0 q hq
      cases prev with
      | none => exact ⟨none, _, a0, h, qs, c, some q, ha0, hb, hc, hgy, δ, gw, gx, t1, t2, t3, t4, rfl, rfl⟩
      | some yw =>
        obtain ⟨⟨gu, zz, v1, v2⟩, -⟩ := (sall δ gw gx t1 t2 t3 t4).2 yw (hprev yw rfl)
        exact ⟨_, _, a0, h, qs, c, some q, ha0, hb, hc, hgy, δ, gw, gx, t1, t2, t3, t4, gu, zz, v1, v2, rfl, rfl⟩
    · rintro z cs ⟨a, h, qs, c, gy, ha, hb, hc, hgy, hrest⟩
      obtain ⟨-, -, rest⟩ := sofar a ha
      obtain ⟨k1, -, gall⟩ := rest h qs c hb hc
      obtain ⟨q, rfl, hq⟩ := gall gy hgy
      obtain ⟨δ, gw, gx, t1, t2, t3, t4, hlast⟩ := hrest
      obtain ⟨s1, s2⟩ := (stepB a ha q hq).2 δ gw gx t1 t2 t3 t4
      refine ⟨fun h => by simp at h, ?_⟩
      cases prev with
      | none =>
        obtain ⟨rfl, rfl⟩ := hlast
        exact ⟨fun _ yw h => by simp at h, List.Forall₂.cons (s1 (hp0 rfl)) k1⟩
      | some yw =>
        obtain ⟨gu, zz, v1, v2, rfl, rfl⟩ := hlast
        obtain ⟨r1, r2⟩ := (s2 yw (hprev yw rfl)).2 gu zz v1 v2
        refine ⟨fun _ yw' h => ?_, List.Forall₂.cons r1 k1⟩
        exact ⟨zz, rfl, r2⟩

end Verif.Srn32
