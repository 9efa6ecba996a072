import Verif.Lemmas.F32Int

set_option autoImplicit false
set_option linter.unusedSimpArgs false

/-!
# Forward error analysis
-/

namespace Verif.F32

/-- `w` is finite and `X` up to an error `E`. -/
def Approx (w : W) (X E : ℝ) : Prop := Finite w ∧ |val w - X| ≤ E

theorem Near.le {w : W} {R B : ℝ} (h : Near w R) (hB : |R| ≤ B) : |val w - R| ≤ B / 2 ^ 24 + 1 / 2 ^ 150 := by
  refine h.2.trans ?_
  have e : (2 : ℝ) ^ (-126 : Int) / 2 ^ 24 = 1 / 2 ^ 150 := by norm_num
  have hB0 : 0 ≤ B := (abs_nonneg _).trans hB
  rcases le_total |R| ((2 : ℝ) ^ (-126 : Int)) with h | h
  · rw [max_eq_right h, e]
    have : 0 ≤ B / 2 ^ 24 := by positivity
    linarith
  · rw [max_eq_left h]
    have : |R| / 2 ^ 24 ≤ B / 2 ^ 24 := by gcongr
    have : (0 : ℝ) ≤ 1 / 2 ^ 150 := by positivity
    linarith

theorem Approx.const {w : W} {X : ℝ} (h : Finite w) (hv : val w = X) : Approx w X 0 := ⟨h, by rw [hv]; simp⟩

theorem Approx.mono {w : W} {X E E' : ℝ} (h : Approx w X E) (hE : E ≤ E') : Approx w X E' := ⟨h.1, h.2.trans hE⟩

theorem Approx.shift {w : W} {X Y E E' : ℝ} (h : Approx w X E) (hE : E + |X - Y| ≤ E') : Approx w Y E' :=
  ⟨h.1, by
    have : val w - Y = (val w - X) + (X - Y) := by ring
    rw [this]
    exact (abs_add_le _ _).trans ((add_le_add_left h.2 _).trans hE)⟩

theorem lt127 {B : ℝ} (h : B ≤ 2 ^ 100) : B ≤ maxFin := h.trans (by unfold maxFin; norm_num)

theorem Approx.add {x y : W} {X Y Ex Ey B E : ℝ} (hx : Approx x X Ex) (hy : Approx y Y Ey) (hB : |X + Y| ≤ B)
    (hE : Ex + Ey + (B + Ex + Ey) / 2 ^ 24 + 1 / 2 ^ 150 ≤ E) (hbig : B + Ex + Ey ≤ 2 ^ 100) :
    Approx (ieee.add x y) (X + Y) E := by
  have e1 : |val x + val y - (X + Y)| ≤ Ex + Ey := by
    have : val x + val y - (X + Y) = (val x - X) + (val y - Y) := by ring
    rw [this]; exact (abs_add_le _ _).trans (add_le_add hx.2 hy.2)
  have e2 : |val x + val y| ≤ B + Ex + Ey := by
    have : val x + val y = (X + Y) + (val x + val y - (X + Y)) := by ring
    rw [this]; exact (abs_add_le _ _).trans (by linarith)
  obtain ⟨hn, -⟩ := add_near hx.1 hy.1 (e2.trans (lt127 hbig))
  refine ⟨hn.1, ?_⟩
  have := hn.le e2
  have e3 : val (ieee.add x y) - (X + Y) = (val (addIeee x y) - (val x + val y)) + (val x + val y - (X + Y)) := by
    show val (addIeee x y) - (X + Y) = _; ring
  rw [e3]; exact (abs_add_le _ _).trans (by linarith)

theorem Approx.mul {x y : W} {X Y Ex Ey Bx By E : ℝ} (hx : Approx x X Ex) (hy : Approx y Y Ey) (hX : |X| ≤ Bx) (hY : |Y| ≤ By)
    (hE : Bx * Ey + By * Ex + Ex * Ey + (Bx + Ex) * (By + Ey) / 2 ^ 24 + 1 / 2 ^ 150 ≤ E)
    (hbig : (Bx + Ex) * (By + Ey) ≤ 2 ^ 100) :
    Approx (ieee.mul x y) (X * Y) E := by
  have hEx : 0 ≤ Ex := (abs_nonneg _).trans hx.2
  have hEy : 0 ≤ Ey := (abs_nonneg _).trans hy.2
  have hBx : 0 ≤ Bx := (abs_nonneg _).trans hX
  have hBy : 0 ≤ By := (abs_nonneg _).trans hY
  have e1 : |val x * val y - X * Y| ≤ Bx * Ey + By * Ex + Ex * Ey := by
    have : val x * val y - X * Y = X * (val y - Y) + (val x - X) * Y + (val x - X) * (val y - Y) := by ring
    rw [this]
    have a := mul_le_mul hX hy.2 (abs_nonneg _) hBx
    have b := mul_le_mul hx.2 hY (abs_nonneg _) hEx
    have c := mul_le_mul hx.2 hy.2 (abs_nonneg _) hEx
    rw [← abs_mul] at a b c
    have t1 := abs_add_le (X * (val y - Y) + (val x - X) * Y) ((val x - X) * (val y - Y))
    have t2 := abs_add_le (X * (val y - Y)) ((val x - X) * Y)
    linarith
  have e2 : |val x * val y| ≤ (Bx + Ex) * (By + Ey) := by
    have a : |val x| ≤ Bx + Ex := by
      have : val x = X + (val x - X) := by ring
      rw [this]; exact (abs_add_le _ _).trans (add_le_add hX hx.2)
    have b : |val y| ≤ By + Ey := by
      have : val y = Y + (val y - Y) := by ring
      rw [this]; exact (abs_add_le _ _).trans (add_le_add hY hy.2)
    rw [abs_mul]; exact mul_le_mul a b (abs_nonneg _) (by linarith)
  obtain ⟨hn, -⟩ := mul_near hx.1 hy.1 (e2.trans (lt127 hbig))
  refine ⟨hn.1, ?_⟩
  have := hn.le e2
  have e3 : val (ieee.mul x y) - X * Y = (val (mulIeee x y) - val x * val y) + (val x * val y - X * Y) := by
    show val (mulIeee x y) - X * Y = _; ring
  rw [e3]; exact (abs_add_le _ _).trans (by linarith)

/-- One step of Horner's rule: multiply with `r`, then add the constant `c`. -/
theorem Approx.horner {r p c : W} {R P C Er Ep Br Bp B E : ℝ} (hr : Approx r R Er) (hp : Approx p P Ep) (hc : Approx c C 0)
    (hR : |R| ≤ Br) (hP : |P| ≤ Bp) (hB : |C| + Br * Bp ≤ B)
    (hE : Br * Ep + Bp * Er + Er * Ep + (Br + Er) * (Bp + Ep) / 2 ^ 24 + (B + E) / 2 ^ 24 + 2 / 2 ^ 150 ≤ E) (hbig : B + E ≤ 2 ^ 100)
    (hbig' : (Br + Er) * (Bp + Ep) ≤ 2 ^ 100) :
    Approx (ieee.add (ieee.mul r p) c) (C + R * P) E ∧ |C + R * P| ≤ B := by
  have hEr : 0 ≤ Er := (abs_nonneg _).trans hr.2
  have hEp : 0 ≤ Ep := (abs_nonneg _).trans hp.2
  have hBr : 0 ≤ Br := (abs_nonneg _).trans hR
  have hBp : 0 ≤ Bp := (abs_nonneg _).trans hP
  have hB' : |C + R * P| ≤ B := by
    have := abs_add_le C (R * P)
    have h2 := mul_le_mul hR hP (abs_nonneg _) hBr
    rw [← abs_mul] at h2
    linarith
  refine ⟨?_, hB'⟩
  have h1 := hr.mul hp hR hP (E := Br * Ep + Bp * Er + Er * Ep + (Br + Er) * (Bp + Ep) / 2 ^ 24 + 1 / 2 ^ 150) le_rfl hbig'
  have hB0 : 0 ≤ B := (abs_nonneg _).trans hB'
  have hE0 : Br * Ep + Bp * Er + Er * Ep + (Br + Er) * (Bp + Ep) / 2 ^ 24 + 1 / 2 ^ 150 ≤ E := by
    have t : 0 ≤ B / 2 ^ 24 := by positivity
    have t1 : 0 ≤ Br * Ep + Bp * Er + Er * Ep + (Br + Er) * (Bp + Ep) / 2 ^ 24 := by positivity
    have t2 : (1 : ℝ) / 2 ^ 150 > 0 := by positivity
    have t3 : (2 : ℝ) / 2 ^ 150 = 1 / 2 ^ 150 + 1 / 2 ^ 150 := by ring
    have t4 : (B + E) / 2 ^ 24 = B / 2 ^ 24 + E / 2 ^ 24 := by ring
    by_contra hc
    have hE1 : 0 < E := by
      by_contra hE1
      have : E / 2 ^ 24 ≥ E := by
        rw [ge_iff_le, le_div_iff₀ (by positivity)]
        nlinarith
      linarith
    have : 0 ≤ E / 2 ^ 24 := by positivity
    linarith
  have h2 := h1.add hc (B := B) (E := E) (by rw [add_comm]; exact hB') (by
    have t3 : (2 : ℝ) / 2 ^ 150 = 1 / 2 ^ 150 + 1 / 2 ^ 150 := by ring
    have : (B + (Br * Ep + Bp * Er + Er * Ep + (Br + Er) * (Bp + Ep) / 2 ^ 24 + 1 / 2 ^ 150) + 0) / 2 ^ 24 ≤ (B + E) / 2 ^ 24 := by
      exact div_le_div_of_nonneg_right (by linarith) (by positivity)
    linarith) (by linarith)
  rw [add_comm C]
  exact h2

end Verif.F32
