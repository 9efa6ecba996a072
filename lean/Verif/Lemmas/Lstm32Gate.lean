import Verif.Lemmas.Lstm32

set_option autoImplicit false
set_option linter.unusedSimpArgs false

/-!
# The backward pass of a gate (C102)
-/

namespace Verif.Lstm32
open Verif.F32 Verif.Asm Verif.Spec Verif.Spec.Kernels Verif.Net32 Verif.Rec32 Verif.Att32 Verif.Back32 Verif.Srn32 Verif.Spec.Net32 Verif.Spec.Rec32
  Verif.Spec.Back32 Verif.Spec.Srn32 Verif.Spec.Train32 Verif.Spec.Lstm32

variable {n m : Nat} {M : Machine} {sl : Slopes}

/-- What is known of the contributions of one step to the parameters of a gate. -/
structure GateOk (n m : Nat) (g : Gate) (S D : Nat → ℝ) (X E : ℝ) (T : Nat) (c : Con) (d : Delta) : Prop where
  w : Train32.Upto (n * m) (conTop S D X 0 T) c.gw
  w' : ∀ i < n, ∀ j < m, |val (c.gw.getD (i * m + j) 0) - d.δ i * d.x j| ≤ conErr S D X 0 T
  b : Train32.Upto n (biasTop S D T) c.gb
  b' : ∀ i < n, |val (c.gb.getD i 0) - d.δ i| ≤ biasErr D T
  u : match c.gu with
    | none => ∀ k, d.y k = 0
    | some gu => Train32.Upto (n * n) (conTop S D 1 E T) gu ∧
        ∀ i < n, ∀ j < n, |val (gu.getD (i * n + j) 0) - d.δ i * d.y j| ≤ conErr S D 1 E T
  x : Close m c.gx (fun j => ∑ i ∈ Finset.range n, d.δ i * at2 m g.w i j) (inTop n m g.w S T) (inErr n m g.w S D T)

/-- `Backward` of the activation and of `Affine`. -/
theorem gate_back (hM : GoodLib M.lib) (hS : GoodSlopeLib sl) {g : Gate} {act : Act} {X Ea Ey V K : ℝ} (hg : Fits n m g X) (hEa : 0 ≤ Ea) (hE : 0 ≤ Ey)
    (hE' : 1 + Ey ≤ 2 ^ 50) (hV : 0 ≤ V) (hK : 0 ≤ K) {S D : Nat → ℝ} {T r : Nat} (hr : r < T) (hSr : S r = steepest act * V)
    (hDr : D r = mulOff (steepest act) (slopeErr act Ea) V K) (b1 : (steepest act + slopeErr act Ea) * (V + K) ≤ 2 ^ 121) (b2 : S r + D r ≤ 2 ^ 50)
    (b3 : reach n g.w (S r + D r) ≤ 2 ^ 121) (b4 : reach n g.wRec (S r + D r) ≤ 2 ^ 121)
    {x : List F32.W} (hx : Within m x X) {a gv : List F32.W} {u Γ y : Nat → ℝ} {Ma : ℝ} (hsafe : ∀ i < n, safeAt act Ea (u i)) (ha : Close n a u Ma Ea) (hgv : Close n gv Γ V K)
    {prev : Option (List F32.W)} (hprev : ∀ yw, prev = some yw → Close n yw y 1 Ey) (hp0 : prev = none → ∀ k, y k = 0) :
    (∃ c z, GateBack M sl n m g act a gv x prev c z) ∧ ∀ c z, GateBack M sl n m g act a gv x prev c z →
      GateOk n m g S D X Ey T c ⟨fun i => slope act (u i) * Γ i, vals x, y⟩ ∧ (prev = none → z = none) ∧
      ∀ yw, prev = some yw → ∃ zz, z = some zz ∧ Close n zz (fun k => ∑ i ∈ Finset.range n, slope act (u i) * Γ i * at2 n g.wRec i k)
        (colNorm n n g.wRec * S r) (mulTOff n n g.wRec (S r) (D r)) := by
  have hX0 := hg.x0
  have hgood := slopes_good M.cpu M.lane hM hS
  obtain ⟨hs0, hk0⟩ := hgood.pos act Ea hEa
  have hS0 : 0 ≤ S r := by rw [hSr]; exact mul_nonneg hs0 hV
  have hG : 0 ≤ D r := by rw [hDr]; exact mulOff_nonneg hs0 hk0 hV hK
  have w1 : weightErr X 0 (S r) (D r) ≤ conErr S D X 0 T := le_largest (f := fun r => weightErr X 0 (S r) (D r)) hr
  have w2 : S r * X + weightErr X 0 (S r) (D r) ≤ conTop S D X 0 T := le_largest (f := fun r => S r * X + weightErr X 0 (S r) (D r)) hr
  have w3 : weightErr 1 Ey (S r) (D r) ≤ conErr S D 1 Ey T := le_largest (f := fun r => weightErr 1 Ey (S r) (D r)) hr
  have w4 : S r * 1 + weightErr 1 Ey (S r) (D r) ≤ conTop S D 1 Ey T := le_largest (f := fun r => S r * 1 + weightErr 1 Ey (S r) (D r)) hr
  have w5 : D r ≤ biasErr D T := le_largest (f := D) hr
  have w6 : S r + D r ≤ biasTop S D T := le_largest (f := fun r => S r + D r) hr
  have w7 : mulTOff n m g.w (S r) (D r) ≤ inErr n m g.w S D T := le_largest (f := fun r => mulTOff n m g.w (S r) (D r)) hr
  have w8 : colNorm n m g.w * S r ≤ inTop n m g.w S T := le_largest (f := fun r => colNorm n m g.w * S r) hr
  obtain ⟨⟨δ0, p0, hδ0⟩, actAll⟩ := act_back M.cpu hgood act hEa hV hK b1 hsafe ha hgv
  have hδ : ∀ s δ, slopes M.cpu M.lane M.lib sl act a s → Prod s gv δ → Close n δ (fun i => slope act (u i) * Γ i) (S r) (D r) := fun s δ h h' => by
    have := (actAll δ none ⟨s, h, h', rfl⟩).1
    exact close_mono this (fun i _ => rfl) (le_of_eq hSr.symm) (le_of_eq hDr.symm)
  have hxc : Close m x (vals x) X 0 := ⟨hx.1, fun i hi => ⟨(hx.2 i hi).1, by simp [vals], (hx.2 i hi).2⟩⟩
  have linW := fun δ (h : Close n δ (fun i => slope act (u i) * Γ i) (S r) (D r)) => lin_back (α := Act) M.cpu (slopes M.cpu M.lane M.lib sl) hg.w hg.b (fun v hv => (hg.wv v hv).1) hg.n20 hX0 le_rfl hS0 hG
    (by rw [add_zero]; exact hg.x50) b2 b3 hxc h
  have linU := fun δ (h : Close n δ (fun i => slope act (u i) * Γ i) (S r) (D r)) yw (hyw : Close n yw y 1 Ey) => lin_back (α := Act) M.cpu (slopes M.cpu M.lane M.lib sl) hg.wRec hg.b (fun v hv => (hg.wRecv v hv).1) hg.n20
    zero_le_one hE hS0 hG hE' b2 b4 hyw h
  refine ⟨?_, ?_⟩
  · obtain ⟨d0, hd0, hp, -⟩ := hδ0
    have hc := hδ d0 δ0 hd0 hp
    obtain ⟨z, p, s1, gw, s2, s3, -⟩ := (linW δ0 hc).1
    cases prev with
    | none => exact ⟨⟨gw, δ0, none, z⟩, none, d0, hd0, hp, s1, s2, s3, rfl, rfl⟩
    | some yw =>
      obtain ⟨zz, p, t1, gu, t2, t3, -⟩ := (linU δ0 hc yw (hprev yw rfl)).1
      exact ⟨⟨gw, δ0, some gu, z⟩, some zz, d0, hd0, hp, s1, s2, s3, gu, zz, t2, t3, rfl, rfl⟩
  · rintro ⟨gw, δ, gu', gx⟩ z ⟨s, h1, h2, h3, h4, h5, h6⟩
    dsimp only at h2 h3 h4 h5 h6
    have hc := hδ s δ h1 h2
    obtain ⟨z1, gw', gb', hp, q1, q2, q3, q4, q5, q6⟩ := (linW δ hc).2 gx _ ⟨h3, gw, h4, h5, rfl⟩
    obtain ⟨rfl, rfl⟩ := Prod.mk.inj (Option.some.inj hp)
    have u1 := upto_cell q1 q3 q5 q6
    have all : ∀ ug : Option (List F32.W), (match ug with
        | none => ∀ k, y k = 0
        | some gu => Train32.Upto (n * n) (conTop S D 1 Ey T) gu ∧
            ∀ i < n, ∀ j < n, |val (gu.getD (i * n + j) 0) - slope act (u i) * Γ i * y j| ≤ conErr S D 1 Ey T) →
        GateOk n m g S D X Ey T ⟨gw, δ, ug, gx⟩ ⟨fun i => slope act (u i) * Γ i, vals x, y⟩ := fun ug hu =>
      ⟨⟨u1.1, fun i hi => ⟨(u1.2 i hi).1, (u1.2 i hi).2.trans w2⟩⟩, fun i hi j hj => (q3 i hi j hj).2.trans w1,
        ⟨q2, fun i hi => ⟨(q4 i hi).1, ((close_le hc i hi).2).trans w6⟩⟩, fun i hi => (q4 i hi).2.trans w5, hu,
        close_mono z1 (fun _ _ => rfl) w8 w7⟩
    cases prev with
    | none =>
      obtain ⟨rfl, rfl⟩ := h6
      exact ⟨all none (hp0 rfl), fun _ => rfl, fun _ h => by simp at h⟩
    | some yw =>
      obtain ⟨gu, zz, t1, t2, rfl, rfl⟩ := h6
      obtain ⟨y1, gw', gb', hp', r1, r2, r3, r4, r5, r6⟩ := (linU δ hc yw (hprev yw rfl)).2 zz _ ⟨h3, gu, t1, t2, rfl⟩
      obtain ⟨rfl, rfl⟩ := Prod.mk.inj (Option.some.inj hp')
      have u2 := upto_cell r1 r3 r5 r6
      refine ⟨all (some gu) ⟨⟨u2.1, fun i hi => ⟨(u2.2 i hi).1, (u2.2 i hi).2.trans w4⟩⟩, fun i hi j hj => (r3 i hi j hj).2.trans w3⟩, fun h => by simp at h, fun yw' _ => ⟨zz, rfl, y1⟩⟩

end Verif.Lstm32
