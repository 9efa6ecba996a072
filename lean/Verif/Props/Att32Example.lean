import Verif.Props.Att32
import Verif.Props.Acts32Example

set_option autoImplicit false
set_option linter.unusedSimpArgs false

/-!
# C91: an example

Two positions with the keys 1 and -1 and the values 1 and 2.
-/

namespace Verif.Att32.Example
open Verif.F32 Verif.Asm Verif.Spec Verif.Net32 Verif.Spec.Net32 Verif.Rec32 Verif.Spec.Rec32 Verif.Spec.Att32

def mem : Mem := ⟨2, 1, 1, [Net32.Example.p1, Net32.Example.m1], [Net32.Example.p1, Net32.Example.p2], Net32.Example.p1⟩

theorem fits : Fits mem 1 1 2 where
  k := rfl
  v := rfl
  kv := fun x hx => Net32.Example.fin x (by revert hx; simp [mem]; tauto)
  row := fun j hj => by
    have : j = 0 ∨ j = 1 := by change j < 2 at hj; omega
    rcases this with rfl | rfl <;> simp [mem, at2, Net32.Example.v1, Net32.Example.vm]
  vv := fun x hx => by
    refine ⟨(Net32.Example.fin x (by revert hx; simp [mem]; tauto)).1, ?_⟩
    have : x = Net32.Example.p1 ∨ x = Net32.Example.p2 := by simpa [mem] using hx
    rcases this with rfl | rfl
    · rw [Net32.Example.v1]; norm_num
    · rw [Net32.Example.v2]; norm_num
  b0 := by norm_num
  b120 := by norm_num
  cv := by unfold F32.Finite; decide
  pos := by decide
  n20 := by decide
  d20 := by decide
  q0 := by norm_num
  q50 := by norm_num
  top := by
    change |val Net32.Example.p1| * dotTop 1 1 1 ≤ maxFin
    rw [Net32.Example.v1]; unfold dotTop dotErr maxFin; norm_num

theorem one_within : Within 1 [Net32.Example.p1] 1 := by
  refine ⟨rfl, fun i hi => ?_⟩
  obtain rfl : i = 0 := by omega
  exact ⟨by unfold F32.Finite; decide, by change |val Net32.Example.p1| ≤ 1; rw [Net32.Example.v1]; norm_num⟩

theorem err : attErr 2 1 1 1 1 2 ≤ 1 / 2 ^ 13 := by
  have hs : 2 * scoreErr 1 1 1 1 ≤ 1 / 2 ^ 20 := by unfold scoreErr dotTop dotErr; norm_num
  have he : Real.exp (2 * scoreErr 1 1 1 1) ≤ 1 / (1 - 1 / 2 ^ 20) :=
    (Real.exp_le_exp.mpr hs).trans (Real.exp_bound_div_one_sub_of_interval (by norm_num) (by norm_num))
  have : (1 : ℝ) / (1 - 1 / 2 ^ 20) ≤ 1 + 1 / 2 ^ 19 := by norm_num
  have hw : weightErr 2 1 1 1 1 ≤ 1 / 2 ^ 19 + (1 / 2 ^ 16 + 2 / 2 ^ 23) + 2 * (2 : ℝ) ^ (-124 : Int) := by
    unfold weightErr Softmax32.tol; push_cast; linarith
  unfold attErr
  refine (add_le_add (mul_le_mul_of_nonneg_left hw (by norm_num)) le_rfl).trans ?_
  norm_num

/-- The first of two queries, with the mask, sees the first position only: its result is near the value 1, the weight of the second
position is 0. -/
example (cpu : Cpu) (j : ExpLog.Lane) : ∃ (lib : Lib) (out : List (List F32.W × List F32.W)) (w z : List F32.W),
    Attention ⟨cpu, j, lib⟩ mem true [[Net32.Example.p1], [Net32.Example.p1]] out ∧
    out.length = 2 ∧ out[0]? = some (w, z) ∧ val (w.getD 1 0) = 0 ∧ |val (z.getD 0 0) - 1| ≤ 1 / 2 ^ 13 := by
  obtain ⟨⟨out, ho⟩, h⟩ := attention_close (M := ⟨cpu, j, ⟨(Softmax32.expKernel cpu j).2, id⟩⟩) (Softmax32.good_kernel cpu j) fits true
    [[Net32.Example.p1], [Net32.Example.p1]] (fun q hq => by
      obtain rfl : q = [Net32.Example.p1] := by simpa using hq
      exact one_within)
  obtain ⟨h1, h2⟩ := h out ho
  change out.length = 2 at h1
  obtain ⟨⟨w, z⟩, hw⟩ : ∃ p, out[0]? = some p := ⟨_, List.getElem?_eq_getElem (by omega)⟩
  obtain ⟨-, g2, -, -, g5⟩ := h2 0 [Net32.Example.p1] w z rfl hw
  refine ⟨_, out, w, z, ho, h1, hw, (g2 1 (by decide)).2.2 (by simp [sees]), ?_⟩
  have e := (g5 0 (by decide)).2
  have hx : attend mem.n mem.d (sees (true && decide (1 < [[Net32.Example.p1], [Net32.Example.p1]].length)) 0) (val mem.c)
      (at2 mem.d mem.k) (at2 mem.vd mem.v) (vals [Net32.Example.p1]) 0 = 1 := by
    simp [attend, share, sees, mem, Finset.sum_range_succ, at2, Net32.Example.v1]
  rw [hx] at e
  refine e.trans ?_
  change attErr 2 1 (val Net32.Example.p1) 1 1 2 ≤ _
  rw [Net32.Example.v1]
  exact err

end Verif.Att32.Example
