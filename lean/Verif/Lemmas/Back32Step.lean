import Verif.Lemmas.Back32
import Verif.Props.Net32

set_option autoImplicit false
set_option linter.unusedSimpArgs false

namespace Verif.Back32
open Verif.F32 Verif.Asm Verif.Spec Verif.Spec.Kernels Verif.Spec.Net32 Verif.Net32 Verif.Rec32 Verif.Att32 Verif.Spec.Back32

variable {α : Type}

theorem close_le {n : Nat} {x : List F32.W} {u : Nat → ℝ} {M E : ℝ} (h : Close n x u M E) :
    ∀ i < n, F32.Finite (x.getD i 0) ∧ |val (x.getD i 0)| ≤ M + E := fun i hi => by
  obtain ⟨h1, h2, h3⟩ := h.2 i hi
  have := abs_sub_abs_le_abs_sub (val (x.getD i 0)) (u i)
  exact ⟨h1, by linarith⟩

theorem close_mem {n : Nat} {x : List F32.W} {u : Nat → ℝ} {M E : ℝ} (h : Close n x u M E) :
    ∀ v ∈ x, F32.Finite v ∧ |val v| ≤ M + E := fun v hv => by
  obtain ⟨i, hi, rfl⟩ := List.mem_iff_getElem.mp hv
  have := close_le h i (h.1 ▸ hi)
  rwa [List.getD_eq_getElem _ _ hi] at this

/-- What is known of the gradients of one linear layer. -/
def ParOk (rows cols : Nat) (p : Par) (γ v : Nat → ℝ) (M E P H : ℝ) : Prop :=
  ∃ gw gb, p = some (gw, gb) ∧ gw.length = rows * cols ∧ gb.length = rows ∧
    (∀ i < rows, ∀ j < cols, F32.Finite (gw.getD (i * cols + j) 0) ∧
      |val (gw.getD (i * cols + j) 0) - γ i * v j| ≤ weightErr M E P H) ∧
    (∀ i < rows, F32.Finite (gb.getD i 0) ∧ |val (gb.getD i 0) - γ i| ≤ H) ∧ (∀ i < rows, |γ i| ≤ P) ∧ ∀ j < cols, |v j| ≤ M

theorem lin_back (cpu : Cpu) (D : α → List F32.W → List F32.W → Prop) {rows cols : Nat} {w b : List F32.W} (hw : w.length = rows * cols)
    (hb : b.length = rows) (hwf : ∀ v ∈ w, F32.Finite v) (hr : rows ≤ 2 ^ 20) {x g : List F32.W} {u γ : Nat → ℝ} {M E P H : ℝ}
    (hM : 0 ≤ M) (hE : 0 ≤ E) (hP : 0 ≤ P) (hH : 0 ≤ H) (hX : M + E ≤ 2 ^ 50) (hQ : P + H ≤ 2 ^ 50) (hB : reach rows w (P + H) ≤ 2 ^ 121)
    (hx : Close cols x u M E) (hg : Close rows g γ P H) :
    (∃ z p, StepBack D cpu (.lin rows cols w b) x g z p) ∧ ∀ z p, StepBack D cpu (.lin rows cols w b) x g z p →
      Close cols z (fun j => ∑ i ∈ Finset.range rows, γ i * at2 cols w i j) (colNorm rows cols w * P)
        (colNorm rows cols w * H + rows * (5 * reach rows w (P + H) / 2 ^ 24)) ∧ ParOk rows cols p γ u M E P H := by
  have hxl := hx.1
  have hgl := hg.1
  obtain ⟨⟨gw, hgw⟩, oall⟩ := outer_ok cpu (add_nonneg hP hH) (add_nonneg hM hE) hQ hX (close_mem hg) (x := x)
    (by rw [hxl]; exact close_le hx)
  obtain ⟨⟨z, hz⟩, mall⟩ := mulT_ok (cols := cols) hw hwf hr hgl (add_nonneg hP hH) (close_le hg) hB
  refine ⟨⟨z, _, by rw [hgl, hb], gw, hgw, hz, rfl⟩, ?_⟩
  rintro z p ⟨-, gw, hgw, hz, rfl⟩
  obtain ⟨k1, k2⟩ := mall z hz
  obtain ⟨o1, o2⟩ := oall gw hgw
  rw [hgl, hxl] at o1 o2
  refine ⟨⟨k1, fun j hj => ⟨(k2 j hj).1, ?_, ?_⟩⟩, gw, g, rfl, o1, hgl, fun i hi j hj => ⟨(o2 i hi j hj).1, ?_⟩, fun i hi => ⟨(hg.2 i hi).1, (hg.2 i hi).2.1⟩,
    fun i hi => (hg.2 i hi).2.2, fun j hj => (hx.2 j hj).2.2⟩
  · have hcol : ∑ i ∈ Finset.range rows, |at2 cols w i j| ≤ colNorm rows cols w :=
      le_largest (f := fun j => ∑ i ∈ Finset.range rows, |at2 cols w i j|) hj
    have hd := sum_dev (a := fun i => at2 cols w i j) (u := fun i => val (g.getD i 0) - γ i) hcol hH fun i hi => (hg.2 i hi).2.1
    have he : ∑ i ∈ Finset.range rows, at2 cols w i j * (val (g.getD i 0) - γ i) =
        ∑ i ∈ Finset.range rows, val (g.getD i 0) * at2 cols w i j - ∑ i ∈ Finset.range rows, γ i * at2 cols w i j := by
      rw [← Finset.sum_sub_distrib]
      exact Finset.sum_congr rfl fun i _ => by ring
    rw [he] at hd
    have h1 := (k2 j hj).2
    have h2 := abs_sub_le (val (z.getD j 0)) (∑ i ∈ Finset.range rows, val (g.getD i 0) * at2 cols w i j)
      (∑ i ∈ Finset.range rows, γ i * at2 cols w i j)
    linarith
  · have hcol : ∑ i ∈ Finset.range rows, |at2 cols w i j| ≤ colNorm rows cols w :=
      le_largest (f := fun j => ∑ i ∈ Finset.range rows, |at2 cols w i j|) hj
    have hd := sum_dev (a := fun i => at2 cols w i j) (u := γ) hcol hP fun i hi => (hg.2 i hi).2.2
    refine le_trans (le_of_eq ?_) hd
    congr 1
    exact Finset.sum_congr rfl fun i _ => mul_comm _ _
  · have h1 := (o2 i hi j hj).2
    obtain ⟨-, e1, b1⟩ := hg.2 i hi
    obtain ⟨-, e2, b2⟩ := hx.2 j hj
    have h2 := (close_le hg i hi).2
    generalize val (gw.getD (i * cols + j) 0) = Z at *
    generalize val (g.getD i 0) = G at *
    generalize val (x.getD j 0) = Y at *
    generalize u j = U at *
    generalize γ i = Γ at *
    unfold weightErr
    have e : Z - Γ * U = (Z - G * Y) + ((G - Γ) * U + G * (Y - U)) := by ring
    rw [e]
    have a1 := abs_add_le (Z - G * Y) ((G - Γ) * U + G * (Y - U))
    have a2 := abs_add_le ((G - Γ) * U) (G * (Y - U))
    have a3 : |(G - Γ) * U| ≤ H * M := by rw [abs_mul]; exact mul_le_mul e1 b2 (abs_nonneg _) hH
    have a4 : |G * (Y - U)| ≤ (P + H) * E := by rw [abs_mul]; exact mul_le_mul h2 e2 (abs_nonneg _) (add_nonneg hP hH)
    have a5 : H * M = M * H := mul_comm _ _
    have a6 : (P + H) * E = E * (P + H) := mul_comm _ _
    linarith

theorem act_back (cpu : Cpu) {D : α → List F32.W → List F32.W → Prop} {φ φ' : α → ℝ → ℝ} {S : α → ℝ} {κ : α → ℝ → ℝ}
    {safe : α → ℝ → ℝ → Prop} (hD : GoodSlopes D φ φ' S κ safe) (a : α) {n : Nat} {x g : List F32.W} {u γ : Nat → ℝ} {M E P H : ℝ}
    (hE : 0 ≤ E) (hP : 0 ≤ P) (hH : 0 ≤ H) (hB : (S a + κ a E) * (P + H) ≤ 2 ^ 121) (hs : ∀ i < n, safe a E (u i))
    (hx : Close n x u M E) (hg : Close n g γ P H) :
    (∃ z p, StepBack D cpu (.act a) x g z p) ∧ ∀ z p, StepBack D cpu (.act a) x g z p →
      Close n z (fun i => φ' a (u i) * γ i) (S a * P)
        (S a * H + κ a E * (P + H) + ((S a + κ a E) * (P + H) + (2 : ℝ) ^ (-126 : Int)) / 2 ^ 24) ∧ p = none := by
  have hfin : ∀ v ∈ x, F32.Finite v := fun v hv => (close_mem hx v hv).1
  obtain ⟨d, hd⟩ := hD.ends a x hfin
  have hdl := (hD.near a x d hfin hd).1
  refine ⟨⟨_, none, d, hd, ⟨by rw [hdl, hx.1, hg.1], rfl⟩, rfl⟩, ?_⟩
  rintro z p ⟨d, hd, ⟨hl, rfl⟩, rfl⟩
  refine ⟨⟨?_, fun i hi => ?_⟩, rfl⟩
  · rw [List.length_zipWith, (hD.near a x d hfin hd).1, hx.1, hg.1]; simp
  · obtain ⟨n1, n2⟩ := hD.near a x d hfin hd
    rw [getD_zip (n := n) (by rw [n1, hx.1]) hg.1 hi]
    obtain ⟨fd, hnear⟩ := n2 i (by rw [hx.1]; exact hi)
    have e1 := hnear E (u i) (hx.2 i hi).2.1 (hs i hi)
    have b1 := hD.size a (u i)
    obtain ⟨fg, e2, b2⟩ := hg.2 i hi
    have b3 := (close_le hg i hi).2
    obtain ⟨hS, hκ⟩ := hD.pos a E hE
    have bd : |val (d.getD i 0)| ≤ S a + κ a E := by
      have := abs_sub_abs_le_abs_sub (val (d.getD i 0)) (φ' a (u i)); linarith
    have ht : (0 : ℝ) < (2 : ℝ) ^ (-126 : Int) := by positivity
    have ht1 : (2 : ℝ) ^ (-126 : Int) ≤ 1 := by norm_num
    have bp : |val (d.getD i 0) * val (g.getD i 0)| ≤ (S a + κ a E) * (P + H) := by
      rw [abs_mul]; exact mul_le_mul bd b3 (abs_nonneg _) (add_nonneg hS hκ)
    have hpos : 0 ≤ (S a + κ a E) * (P + H) := (abs_nonneg _).trans bp
    obtain ⟨f, e3⟩ := Opt32.mul_in fd fg (B := (S a + κ a E) * (P + H) + (2 : ℝ) ^ (-126 : Int)) (by linarith) (by linarith) (by
      have : (2 : ℝ) ^ 121 + 1 ≤ 2 ^ 127 := by norm_num
      linarith)
    refine ⟨f, ?_, by beta_reduce; rw [abs_mul]; exact mul_le_mul b1 b2 (abs_nonneg _) hS⟩
    beta_reduce
    generalize val (mulIeee (d.getD i 0) (g.getD i 0)) = Z at *
    generalize val (d.getD i 0) = Dv at *
    generalize val (g.getD i 0) = G at *
    generalize φ' a (u i) = s at *
    generalize γ i = Γ at *
    generalize ((S a + κ a E) * (P + H) + (2 : ℝ) ^ (-126 : Int)) / 2 ^ 24 = T at *
    have e : Z - s * Γ = (Z - Dv * G) + ((Dv - s) * G + s * (G - Γ)) := by ring
    rw [e]
    have a1 := abs_add_le (Z - Dv * G) ((Dv - s) * G + s * (G - Γ))
    have a2 := abs_add_le ((Dv - s) * G) (s * (G - Γ))
    have a3 : |(Dv - s) * G| ≤ κ a E * (P + H) := by rw [abs_mul]; exact mul_le_mul e1 b3 (abs_nonneg _) hκ
    have a4 : |s * (G - Γ)| ≤ S a * H := by rw [abs_mul]; exact mul_le_mul b1 e2 (abs_nonneg _) hS
    linarith

end Verif.Back32
