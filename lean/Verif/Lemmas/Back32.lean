import Verif.Spec.Back32
import Verif.Lemmas.Att32
import Verif.Lemmas.Adam32
import Verif.Props.Opt32Sgd

set_option autoImplicit false
set_option linter.unusedSimpArgs false

namespace Verif.Back32
open Verif.F32 Verif.Asm Verif.Spec Verif.Spec.Kernels Verif.Spec.Net32 Verif.Net32 Verif.Rec32 Verif.Att32 Verif.Spec.Back32

theorem axpy1_iff {a : F32.W} {row out z : List F32.W} (hl : row.length = out.length) :
    Axpy1 a row out z ↔ z = List.zipWith (fun u v => addIeee (mulIeee u a) v) row out := by
  have main : ∀ (p q : Nat) (s : Gonum.St F32.W), q % 4 = 0 → Apart 4 out.length p q → elems 4 s.mem p row.length = row →
      elems 4 s.mem q out.length = out → s.frame = Gonum.axpyFrame ⟨p, row.length⟩ ⟨q, out.length⟩ →
      ∃ s', (∀ t, Gonum.Call (Gonum.axpyEnv .f32 (F32.alu divIeee) a ⟨p, row.length⟩ ⟨q, out.length⟩)
        (Gonum.axpyUnitary .f32) s t ↔ t = s') ∧
        elems 4 s'.mem q out.length = List.zipWith (fun u v => addIeee (mulIeee u a) v) row out := by
    intro p q s hq ha h1 h2 hf
    have hm : min row.length out.length = out.length := by omega
    obtain ⟨s', g1, g2, -⟩ := Gonum.axpyUnitary_kernel .f32 (F32.alu divIeee) a hf hq (.inr (by rw [hm]; exact ha))
    refine ⟨s', g1, ?_⟩
    simp only [hm] at g2
    have g2' : elems 4 s'.mem q out.length = List.zipWith (fun u v => addIeee (mulIeee u a) v) (elems 4 s.mem p out.length)
      (elems 4 s.mem q out.length) := g2
    rw [g2', h2, ← hl, h1]
  constructor
  · rintro ⟨p, q, s, t, hq, ha, h1, h2, hf, hc, hz⟩
    obtain ⟨s', g1, g2⟩ := main p q s hq ha h1 h2 hf
    obtain rfl := (g1 t).mp hc
    rw [← hz, g2]
  · rintro rfl
    have ha : Apart 4 out.length 0 (4 * row.length) := by unfold Apart; omega
    obtain ⟨s', g1, g2⟩ := main 0 (4 * row.length) (gstate row out (Gonum.axpyFrame ⟨0, row.length⟩
      ⟨4 * row.length, out.length⟩)) (by omega) ha (memOf_fst row out) (memOf_snd row out) rfl
    exact ⟨0, 4 * row.length, _, s', by omega, ha, memOf_fst row out, memOf_snd row out, rfl, (g1 _).mpr rfl, g2⟩

theorem eqZero_iff {v : F32.W} (h : F32.Finite v) : eqZero v = true ↔ val v = 0 := by
  have h0 : F32.Finite 0 := by unfold F32.Finite; decide
  unfold eqZero
  rw [h.not_nan]
  simp only [Bool.not_false, Bool.true_and, Bool.and_eq_true, Bool.not_eq_true']
  rw [← Bool.not_eq_true, ← Bool.not_eq_true, lt_iff h h0, lt_iff h0 h, val_zero]
  constructor
  · rintro ⟨h1, h2⟩; linarith [not_lt.mp h1, not_lt.mp h2]
  · intro h; rw [h]; simp

theorem rep_get {n j : Nat} {r : F32.W} (h : j < n) : (List.replicate n r).getD j 0 = r := by
  rw [List.getD_eq_getElem _ _ (by simpa using h)]; simp

/-- The product of two words that are small enough, with the error of a dot product. -/
theorem prod_ok {v x : F32.W} (hv : F32.Finite v) (hx : F32.Finite x) {Q X : ℝ} (h1 : |val v| ≤ Q) (h2 : |val x| ≤ X) (hQ : Q ≤ 2 ^ 50)
    (hX : X ≤ 2 ^ 50) : F32.Finite (addIeee (mulIeee x v) 0) ∧ |val (addIeee (mulIeee x v) 0) - val v * val x| ≤ dotErr 1 Q X := by
  have hQ0 := (abs_nonneg _).trans h1
  have hX0 := (abs_nonneg _).trans h2
  have hb : |val x * val v| ≤ Q * X + (2 : ℝ) ^ (-126 : Int) := by
    have : (0 : ℝ) < (2 : ℝ) ^ (-126 : Int) := by positivity
    rw [abs_mul]
    nlinarith [mul_le_mul h1 h2 (abs_nonneg _) hQ0]
  have ht : Q * X ≤ 2 ^ 50 * 2 ^ 50 := mul_le_mul hQ hX hX0 (by positivity)
  have hs : (2 : ℝ) ^ (-126 : Int) ≤ 1 := by norm_num
  have hQX : 0 ≤ Q * X := mul_nonneg hQ0 hX0
  obtain ⟨f, e⟩ := Opt32.mul_in hx hv hb (by linarith) (by
    have : (2 : ℝ) ^ 50 * 2 ^ 50 + 1 ≤ 2 ^ 127 := by norm_num
    linarith)
  obtain ⟨f', e'⟩ := add_zero_word f
  refine ⟨f', ?_⟩
  rw [e', mul_comm (val v)]
  refine e.trans ?_
  unfold dotErr
  have hs2 : (2 : ℝ) ^ (-126 : Int) = 1 / 2 ^ 63 * (1 / 2 ^ 63) := by norm_num
  rw [hs2]
  push_cast
  have e1 : (Q + 1 / 2 ^ 63) * (X + 1 / 2 ^ 63) = Q * X + Q * (1 / 2 ^ 63) + 1 / 2 ^ 63 * X + 1 / 2 ^ 63 * (1 / 2 ^ 63) := by ring
  rw [e1]
  have i1 : 0 ≤ Q * (1 / 2 ^ 63) := by positivity
  have i2 : 0 ≤ 1 / 2 ^ 63 * X := by positivity
  have i3 : (0 : ℝ) ≤ 1 / 2 ^ 63 * (1 / 2 ^ 63) := by positivity
  generalize Q * (1 / 2 ^ 63) = a at *
  generalize 1 / 2 ^ 63 * X = b at *
  generalize (1 : ℝ) / 2 ^ 63 * (1 / 2 ^ 63) = c at *
  generalize Q * X = d at *
  rw [div_mul_eq_mul_div, one_mul, div_le_div_iff₀ (by positivity) (by positivity)]
  norm_num
  linarith

theorem zeroErr {Q X : ℝ} (hQ : 0 ≤ Q) (hX : 0 ≤ X) : 0 ≤ dotErr 1 Q X := by unfold dotErr; positivity

theorem append_get {a b : List F32.W} {n : Nat} (ha : a.length = n) (i j : Nat) (hj : j < n) :
    (a ++ b).getD (0 * n + j) 0 = a.getD j 0 ∧ (a ++ b).getD ((i + 1) * n + j) 0 = b.getD (i * n + j) 0 := by
  constructor
  · rw [Nat.zero_mul, zero_add, List.getD_append _ _ _ _ (by omega)]
  · rw [List.getD_append_right _ _ _ _ (by rw [ha]; nlinarith), ha]
    congr 1
    rw [Nat.add_mul]; omega

/-- What is known of the gradient of the weights. -/
def OuterOk (g x z : List F32.W) (Q X : ℝ) : Prop :=
  z.length = g.length * x.length ∧ ∀ i < g.length, ∀ j < x.length, F32.Finite (z.getD (i * x.length + j) 0) ∧
    |val (z.getD (i * x.length + j) 0) - val (g.getD i 0) * val (x.getD j 0)| ≤ dotErr 1 Q X

theorem outerRows_ok {x : List F32.W} {Q X : ℝ} (hQ0 : 0 ≤ Q) (hX0 : 0 ≤ X) (hQ : Q ≤ 2 ^ 50) (hX : X ≤ 2 ^ 50)
    (hx : ∀ j < x.length, F32.Finite (x.getD j 0) ∧ |val (x.getD j 0)| ≤ X) :
    ∀ {g : List F32.W}, (∀ v ∈ g, F32.Finite v ∧ |val v| ≤ Q) → (∃ z, OuterRows x g z) ∧ ∀ z, OuterRows x g z → OuterOk g x z Q X := by
  intro g
  induction g with
  | nil =>
    intro _
    refine ⟨⟨[], rfl⟩, fun z hz => ?_⟩
    rw [show z = [] from hz]
    exact ⟨by simp, fun i hi => by simp at hi⟩
  | cons v g ih =>
    intro hg
    obtain ⟨⟨rs, hrs⟩, hall⟩ := ih fun u hu => hg u (by simp [hu])
    obtain ⟨fv, bv⟩ := hg v (by simp)
    have hl : x.length = (List.replicate x.length (0 : F32.W)).length := by simp
    constructor
    · by_cases hz : eqZero v = true
      · exact ⟨_, _, rs, rfl, by rw [if_pos hz], hrs⟩
      · exact ⟨_, _, rs, rfl, by rw [if_neg hz]; exact (axpy1_iff hl).mpr rfl, hrs⟩
    · rintro z ⟨r, rs, rfl, hr, hrs⟩
      obtain ⟨l1, k1⟩ := hall rs hrs
      have hrl : r.length = x.length ∧ ∀ j < x.length, F32.Finite (r.getD j 0) ∧ |val (r.getD j 0) - val v * val (x.getD j 0)| ≤ dotErr 1 Q X := by
        split at hr
        · rename_i hz
          subst hr
          refine ⟨by simp, fun j hj => ?_⟩
          rw [rep_get hj, (eqZero_iff fv).mp hz, val_zero]
          exact ⟨by unfold F32.Finite; decide, by simpa using zeroErr hQ0 hX0⟩
        · rw [axpy1_iff hl] at hr
          subst hr
          refine ⟨by simp, fun j hj => ?_⟩
          rw [getD_zip (n := x.length) (f := fun u w => addIeee (mulIeee u v) w) rfl (by simp) hj, rep_get hj]
          exact prod_ok fv (hx j hj).1 bv (hx j hj).2 hQ hX
      refine ⟨by rw [List.length_append, hrl.1, l1, List.length_cons]; ring, fun i hi j hj => ?_⟩
      cases i with
      | zero => rw [(append_get hrl.1 0 j hj).1]; exact hrl.2 j hj
      | succ i =>
        rw [(append_get hrl.1 i j hj).2, List.getD_cons_succ]
        exact k1 i (by simpa using hi) j hj

theorem outer_ok (cpu : Cpu) {g x : List F32.W} {Q X : ℝ} (hQ0 : 0 ≤ Q) (hX0 : 0 ≤ X) (hQ : Q ≤ 2 ^ 50) (hX : X ≤ 2 ^ 50)
    (hg : ∀ v ∈ g, F32.Finite v ∧ |val v| ≤ Q) (hx : ∀ j < x.length, F32.Finite (x.getD j 0) ∧ |val (x.getD j 0)| ≤ X) :
    (∃ z, Outer cpu g x z) ∧ ∀ z, Outer cpu g x z → OuterOk g x z Q X := by
  unfold Outer
  split
  · rename_i h1
    obtain ⟨a, rfl⟩ := List.length_eq_one_iff.mp h1
    have ha := hx 0 (by simp)
    simp only [List.getD_cons_zero] at ha
    have row : ∀ i < g.length, RowOk cpu 1 g [a] (fun i z => F32.Finite z ∧ |val z - val (g.getD i 0) * val a| ≤ dotErr 1 Q X) i := by
      intro i hi
      have hr : ((g.drop (i * 1)).take 1) = [g.getD i 0] := by
        rw [Nat.mul_one, List.getD_eq_getElem _ _ hi, List.take_one_drop_eq_of_lt_length hi]; rfl
      have hm : g.getD i 0 ∈ g := by rw [List.getD_eq_getElem _ _ hi]; exact List.getElem_mem _
      have key := dot_ok cpu (l := [g.getD i 0]) (k := [a]) rfl (by simp) (fun v hv => by
        rw [List.mem_singleton] at hv; subst hv; exact ⟨(hg _ hm).1, (hg _ hm).2.trans hQ⟩) hX (fun v hv => by
        rw [List.mem_singleton] at hv; subst hv; exact ha) (Λ := Q) (by simpa using (hg _ hm).2) hX0
      unfold RowOk
      rw [hr]
      refine ⟨key.1, fun z hz => ?_⟩
      have := key.2 z hz
      simpa using this
    obtain ⟨⟨z, hz⟩, hall⟩ := mulVec_ok cpu (rows := g.length) (by simp) row g.length 0 (by omega)
    rw [Nat.zero_mul] at hz hall
    refine ⟨⟨z, hz⟩, fun z hz => ?_⟩
    obtain ⟨k1, k2⟩ := hall z hz
    refine ⟨by simpa using k1, fun i hi j hj => ?_⟩
    have hj0 : j = 0 := by simpa using hj
    subst hj0
    have := k2 i hi
    simpa using this
  · exact outerRows_ok hQ0 hX0 hQ hX hx hg

/-- `MulT` with gradients up to `Q`. -/
theorem mulT_ok {rows cols : Nat} {w g : List F32.W} (hw : w.length = rows * cols) (hwf : ∀ v ∈ w, F32.Finite v) (hr : rows ≤ 2 ^ 20)
    (hgl : g.length = rows) {Q : ℝ} (hQ0 : 0 ≤ Q) (hg : ∀ i < rows, F32.Finite (g.getD i 0) ∧ |val (g.getD i 0)| ≤ Q)
    (hB : reach rows w Q ≤ 2 ^ 121) :
    (∃ z, MulT rows cols w g z) ∧ ∀ z, MulT rows cols w g z → z.length = cols ∧ ∀ j < cols, F32.Finite (z.getD j 0) ∧
      |val (z.getD j 0) - ∑ i ∈ Finset.range rows, val (g.getD i 0) * at2 cols w i j| ≤ rows * (5 * reach rows w Q / 2 ^ 24) := by
  have hm0 : 0 ≤ most w := largest_nonneg _ _
  have hmem : ∀ v ∈ w, |val v| ≤ most w := fun v hv => by
    obtain ⟨k, hk, rfl⟩ := List.mem_iff_getElem.mp hv
    have := le_largest (f := fun k => |val (w.getD k 0)|) hk
    rwa [List.getD_eq_getElem _ _ hk] at this
  have ht0 : (0 : ℝ) < (2 : ℝ) ^ (-126 : Int) := by positivity
  have hrn : (rows : ℝ) ≤ 1048576 := by exact_mod_cast (show rows ≤ 1048576 from hr)
  have hsum : (g.map fun v => |val v|).sum ≤ rows * Q := by
    have : (g.map fun v => |val v|).sum = ∑ i ∈ Finset.range g.length, |val (g.getD i 0)| := by
      rw [sum_range_list]
      congr 1
      apply List.ext_getElem
      · simp
      · intro j h1 h2; simp at h1; simp [h1]
    rw [this, hgl]
    calc _ ≤ ∑ i ∈ Finset.range rows, Q := Finset.sum_le_sum fun i hi => (hg i (Finset.mem_range.mp hi)).2
      _ = _ := by simp
  have hR : 0 ≤ rows * (most w * Q) := mul_nonneg (Nat.cast_nonneg _) (mul_nonneg hm0 hQ0)
  have key := loop_ok hw hwf (B := most w) (B' := reach rows w Q) hm0 hB (by unfold reach; linarith) hmem g 0
    (List.replicate cols 0) (by rw [hgl]; omega)
    (fun v hv => by
      obtain ⟨j, hj, rfl⟩ := List.mem_iff_getElem.mp hv
      have := (hg j (hgl ▸ hj)).1
      rwa [List.getD_eq_getElem _ _ hj] at this) (by simp)
    (fun l hl => by
      rw [rep_get hl]
      refine ⟨by unfold F32.Finite; decide, ?_⟩
      rw [val_zero, abs_zero, zero_add, hgl]
      have i1 := mul_le_mul_of_nonneg_right hsum hm0
      have hB0 : 0 < reach rows w Q := by unfold reach; linarith
      have i2 : (rows : ℝ) * (5 * reach rows w Q / 2 ^ 24) ≤ 1048576 * (5 * reach rows w Q / 2 ^ 24) :=
        mul_le_mul_of_nonneg_right hrn (by positivity)
      have i3 : (1048576 : ℝ) * (5 * reach rows w Q / 2 ^ 24) = 5 / 16 * reach rows w Q := by ring
      have i4 : rows * Q * most w ≤ reach rows w Q := by
        unfold reach
        have : rows * Q * most w = rows * (most w * Q) := by ring
        linarith
      linarith)
  rw [Nat.zero_mul] at key
  refine ⟨⟨key.1.choose, hgl, key.1.choose_spec⟩, fun z hz' => ?_⟩
  obtain ⟨k1, k2⟩ := key.2 z hz'.2
  refine ⟨k1, fun l hl => ⟨(k2 l hl).1, ?_⟩⟩
  have := (k2 l hl).2
  rw [rep_get hl, val_zero, zero_add, hgl] at this
  simpa using this

end Verif.Back32
