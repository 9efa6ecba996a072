import Verif.Props.Net32
import Mathlib.Tactic.IntervalCases

set_option autoImplicit false
set_option linter.unusedSimpArgs false

/-!
# C88: an example

Two inputs, a hidden layer of two with `ReLU`, and three classes; the input is (3, -2).
-/

namespace Verif.Net32.Example
open Verif.F32 Verif.Asm Verif.Spec Verif.Spec.Net32 Verif.Net32 Verif.CrossEntropy32

/-- 1, -1 and 2. -/
def p1 : F32.W := 0x3f800000
def m1 : F32.W := 0xbf800000
def p2 : F32.W := 0x40000000

theorem v1 : val p1 = 1 := by simp [p1, val, unpack]; norm_num
theorem vm : val m1 = -1 := by simp [m1, val, unpack]; norm_num
theorem v2 : val p2 = 2 := by simp [p2, val, unpack]; norm_num
theorem v0 : val 0#32 = 0 := val_zero
theorem v3 : val 0x40400000 = 3 := by simp [val, unpack]; norm_num
theorem vm2 : val 0xc0000000 = -2 := by simp [val, unpack]; norm_num

/-- `(x, y) ↦ (x + y, x - y + 2)`, `ReLU`, `(a, b) ↦ (a, b, 2 a - b)`. -/
def net : List (Layer Unit) :=
  [.lin 2 2 [p1, p1, p1, m1] [0, p2], .act (), .lin 3 2 [p1, 0, 0, p1, p2, m1] [0, 0, 0]]

noncomputable def φ : Unit → ℝ → ℝ := fun _ x => max 0 x

theorem norm1 : Net32.norm 2 2 [p1, p1, p1, m1] = 2 := by
  simp [Net32.norm, largest, at2, Finset.sum_range_succ, List.range_succ, v1, vm]; norm_num

theorem bias1 : bias 2 [0, p2] = 2 := by
  simp [bias, largest, List.range_succ, v2, v0]

theorem norm2 : Net32.norm 3 2 [p1, 0, 0, p1, p2, m1] = 3 := by
  simp [Net32.norm, largest, at2, Finset.sum_range_succ, List.range_succ, v1, v2, vm, v0]; norm_num

theorem bias2 : bias 3 [0, 0, 0] = 0 := by
  simp [bias, largest, List.range_succ, v0]

theorem fin (v : F32.W) (h : v ∈ [p1, m1, p2, 0]) : F32.Finite v ∧ |val v| ≤ 2 ^ 50 := by
  simp only [List.mem_cons, List.not_mem_nil, or_false] at h
  rcases h with rfl | rfl | rfl | rfl
  · exact ⟨by unfold F32.Finite; decide, by rw [v1]; norm_num⟩
  · exact ⟨by unfold F32.Finite; decide, by rw [vm]; norm_num⟩
  · exact ⟨by unfold F32.Finite; decide, by rw [v2]; norm_num⟩
  · exact ⟨by unfold F32.Finite; decide, by rw [val_zero]; norm_num⟩

/-- The error after the first layer. -/
theorem error1 : error (α := Unit) (fun _ => 1) (fun _ => 0) (.lin 2 2 [p1, p1, p1, m1] [0, p2]) 3 0 ≤ 1 / 2 ^ 16 := by
  simp only [error, top, dotErr, norm1, bias1]; norm_num

theorem error1_nonneg : 0 ≤ error (α := Unit) (fun _ => 1) (fun _ => 0) (.lin 2 2 [p1, p1, p1, m1] [0, p2]) 3 0 := by
  simp only [error, top, dotErr, norm1, bias1]; norm_num

theorem fits : Fits φ (fun _ => 1) (fun _ => 0) net 2 3 0 := by
  have e1 := error1
  have e0 := error1_nonneg
  simp only [net, Fits]
  refine ⟨⟨trivial, by norm_num, rfl, rfl, fun v hv => fin v ?_, fun v hv => (fin v ?_).1, by norm_num, ?_⟩,
    ⟨trivial, by norm_num, rfl, rfl, fun v hv => fin v ?_, fun v hv => (fin v ?_).1, ?_, ?_⟩, trivial⟩
  · revert hv; simp; tauto
  · revert hv; simp; tauto
  · simp only [top, dotErr, norm1, bias1]; unfold maxFin; norm_num
  · revert hv; simp; tauto
  · revert hv; simp; tauto
  · simp only [range, norm1, bias1, φ, error.eq_2] at e1 ⊢
    norm_num at e1 ⊢; linarith
  · simp only [range, norm1, bias1, φ, error.eq_2, top, dotErr, norm2, bias2] at e1 e0 ⊢
    generalize error (α := Unit) (fun _ => 1) (fun _ => 0) (.lin 2 2 [p1, p1, p1, m1] [0, p2]) 3 0 = e at *
    unfold maxFin
    norm_num at e1 ⊢; linarith

/-- The error after all. -/
theorem error_all : errors φ (fun _ => 1) (fun _ => 0) net 3 0 ≤ 1 / 1000 := by
  have e1 := error1
  have e0 := error1_nonneg
  simp only [net, errors, range, norm1, bias1, φ, error.eq_2]
  rw [error.eq_1]
  simp only [top, dotErr, norm2, bias2]
  generalize error (α := Unit) (fun _ => 1) (fun _ => 0) (.lin 2 2 [p1, p1, p1, m1] [0, p2]) 3 0 = e at *
  norm_num at e1 ⊢; linarith

/-- The exact outputs: `(1, 7, -5)`. -/
theorem exact_out : network φ net (fun i => if i = 0 then 3 else -2) 0 = 1 ∧
    network φ net (fun i => if i = 0 then 3 else -2) 1 = 7 ∧ network φ net (fun i => if i = 0 then 3 else -2) 2 = -5 := by
  simp [net, network, layer, at2, Finset.sum_range_succ, v1, v2, vm, v0, φ]
  norm_num

theorem input : ∀ i < [(0x40400000 : F32.W), 0xc0000000].length,
    F32.Finite ([(0x40400000 : F32.W), 0xc0000000].getD i 0) ∧
    |val ([(0x40400000 : F32.W), 0xc0000000].getD i 0) - (if i = 0 then 3 else -2)| ≤ 0 ∧
    |(if i = 0 then 3 else -2 : ℝ)| ≤ 3 := by
  intro i hi
  simp only [List.length_cons, List.length_nil] at hi
  have f1 : F32.Finite 0x40400000 := by unfold F32.Finite; decide
  have f2 : F32.Finite 0xc0000000 := by unfold F32.Finite; decide
  interval_cases i
  · refine ⟨f1, ?_, by norm_num⟩
    change |val 0x40400000 - 3| ≤ 0
    rw [v3]; norm_num
  · refine ⟨f2, ?_, by norm_num⟩
    change |val 0xc0000000 - (-2)| ≤ 0
    rw [vm2]; norm_num

/-- The outputs are within 0.001 of (1, 7, -5), and the class is 1. -/
example (cpu : Cpu) : ∃ y, Runs cpu (fun _ : Unit => relu32) net [0x40400000, 0xc0000000] y ∧ y.length = 3 ∧
    |val (y.getD 1 0) - 7| ≤ 1 / 1000 ∧ argMax32 y = some 1 := by
  obtain ⟨⟨y, hy⟩, h⟩ := forward_close cpu (φ := φ) (ls := net) (x := [0x40400000, 0xc0000000]) relu_good (by norm_num) le_rfl fits input
  obtain ⟨h1, h2⟩ := h y hy
  have e := error_all
  obtain ⟨x0, x1, x2⟩ := exact_out
  refine ⟨y, hy, h1, ?_, ?_⟩
  · have := (h2 1 (by simp [net, width])).2
    rw [x1] at this
    exact this.trans e
  · refine forward_class cpu (φ := φ) relu_good (by norm_num) le_rfl fits input (c := 1) (by simp [net, width]) ?_ y hy
    intro i hi hne
    change network φ net (fun i => if i = 0 then 3 else -2) i + 2 * errors φ (fun _ => 1) (fun _ => 0) net 3 0 <
      network φ net (fun i => if i = 0 then 3 else -2) 1
    simp only [net, width] at hi
    rw [x1]
    interval_cases i
    · rw [x0]; linarith
    · exact absurd rfl hne
    · rw [x2]; linarith

end Verif.Net32.Example
