import Verif.Props.Rec32Forward
import Verif.Props.Acts32Example

set_option autoImplicit false
set_option linter.unusedSimpArgs false

/-!
# C90: examples

One input and one output; a gate computes `x + y / 2`.
-/

namespace Verif.Rec32.Example
open Verif.F32 Verif.Asm Verif.Spec Verif.Net32 Verif.Spec.Net32 Verif.Spec.Rec32

def half : F32.W := 0x3f000000
theorem vh : val half = 1 / 2 := by simp [half, val, unpack]; norm_num

def gate : Gate := ⟨[Net32.Example.p1], [half], [0]⟩

theorem normW : Net32.norm 1 1 gate.w = 1 := by
  simp [gate, Net32.norm, largest, at2, Finset.sum_range_succ, List.range_succ, Net32.Example.v1]

theorem normR : Net32.norm 1 1 gate.wRec = 1 / 2 := by
  simp [gate, Net32.norm, largest, at2, Finset.sum_range_succ, List.range_succ, vh]

theorem biasG : bias 1 gate.b = 0 := by
  simp [gate, bias, largest, List.range_succ, Net32.Example.v0]

theorem fits : Rec32.Fits 1 1 gate 1 where
  w := rfl
  wRec := rfl
  b := rfl
  wv := fun v hv => Net32.Example.fin v (by revert hv; simp [gate]; tauto)
  wRecv := fun v hv => by
    obtain rfl : v = half := by simpa [gate] using hv
    exact ⟨by unfold F32.Finite; decide, by rw [vh]; norm_num⟩
  bv := fun v hv => (Net32.Example.fin v (by revert hv; simp [gate]; tauto)).1
  m20 := by norm_num
  n20 := by norm_num
  x0 := by norm_num
  x50 := by norm_num
  top := by
    simp only [preTop, top, dotErr, normW, normR, biasG]; unfold maxFin; norm_num

theorem gate_err : tanhErr 1 1 gate 1 ≤ 1 / 2 ^ 21 := by
  simp only [tanhErr, preErr, preTop, top, dotErr, normW, normR, biasG]; norm_num

theorem one_within : Within 1 [Net32.Example.p1] 1 := by
  refine ⟨rfl, fun i hi => ?_⟩
  obtain rfl : i = 0 := by omega
  exact ⟨by unfold F32.Finite; decide, by change |val Net32.Example.p1| ≤ 1; rw [Net32.Example.v1]; norm_num⟩

/-- However many ones it is given, the simple recurrent network stays within `2^-20` of the exact one. -/
example (cpu : Cpu) (j : ExpLog.Lane) (N : Nat) : ∃ lib out, Forward (srnNext ⟨cpu, j, lib⟩ 1 1 gate) none (List.replicate N [Net32.Example.p1]) out ∧
    out.length = N ∧ ∀ i y, out[i]? = some y → |vals y 0 - after (fun x => srn 1 1 gate (vals x)) (fun _ => 0)
      ((List.replicate N [Net32.Example.p1]).take (i + 1)) 0| ≤ 1 / 2 ^ 20 := by
  obtain ⟨lib, hlib⟩ := exists_lib cpu j
  obtain ⟨⟨out, ho⟩, h⟩ := srn_forward (M := ⟨cpu, j, lib⟩) hlib fits (List.replicate N [Net32.Example.p1])
    (fun x hx => by rw [List.eq_of_mem_replicate hx]; exact one_within)
  obtain ⟨h1, h2⟩ := h out ho
  refine ⟨lib, out, ho, by simpa using h1, fun i y hy => ((h2 i y hy).2 0 (by norm_num)).trans ?_⟩
  have := srn_uniform (n := 1) (m := 1) (g := gate) (X := 1) (by norm_num) (by rw [normR]; norm_num) (i + 1)
  rw [normR] at this
  refine this.trans ?_
  rw [div_le_iff₀ (by norm_num)]
  exact gate_err.trans (by norm_num)

/-- The LSTM and the GRU of these gates end on any number of ones, with finite outputs. -/
example (cpu : Cpu) (j : ExpLog.Lane) (N : Nat) : ∃ lib,
    (∃ out, Forward (lstmNext ⟨cpu, j, lib⟩ 1 1 ⟨gate, gate, gate, gate⟩) none (List.replicate N [Net32.Example.p1]) out ∧
      out.length = N ∧ ∀ s ∈ out, Within 1 s.cell (2 ^ 25) ∧ Within 1 s.y 1) ∧
    ∃ out, Forward (gruNext ⟨cpu, j, lib⟩ 1 1 ⟨gate, gate, gate⟩) none (List.replicate N [Net32.Example.p1]) out ∧
      out.length = N ∧ ∀ y ∈ out, Within 1 y 1 := by
  obtain ⟨lib, hlib⟩ := exists_lib cpu j
  have hx : ∀ x ∈ List.replicate N [Net32.Example.p1], Within 1 x 1 :=
    fun x hx => by rw [List.eq_of_mem_replicate hx]; exact one_within
  obtain ⟨⟨o1, h1⟩, g1⟩ := lstm_forward (M := ⟨cpu, j, lib⟩) (g := ⟨gate, gate, gate, gate⟩) hlib fits fits fits fits _ hx
  obtain ⟨⟨o2, h2⟩, g2⟩ := gru_forward (M := ⟨cpu, j, lib⟩) (g := ⟨gate, gate, gate⟩) hlib fits fits fits _ hx
  refine ⟨lib, ⟨o1, h1, by simpa using (g1 o1 h1).1, fun s hs => ?_⟩, o2, h2, by simpa using (g2 o2 h2).1, fun y hy => ?_⟩
  · obtain ⟨i, hi⟩ := List.mem_iff_getElem?.mp hs
    have := (g1 o1 h1).2 i s hi
    exact ⟨this.1, this.2.1⟩
  · obtain ⟨i, hi⟩ := List.mem_iff_getElem?.mp hy
    exact ((g2 o2 h2).2 i y hi).1

/-- After two inputs the error of the GRU is small. -/
example : gruBound 1 1 ⟨gate, gate, gate⟩ 1 2 ≤ 1 / 2 ^ 15 := by
  simp only [gruBound, gruErr, sigErr, tanhErr, preErr, preTop, top, dotErr, normW, normR, biasG]; norm_num

end Verif.Rec32.Example
