/-
Slices that overlap without being equal (C59): the result of an in-place operation depends on the
platform.
-/
import Verif.Props.AsmKernels
import Mathlib.Tactic.IntervalCases
set_option autoImplicit false
set_option linter.unusedSimpArgs false
set_option maxRecDepth 20000

namespace Verif.Asm

open Verif.Spec.Kernels

variable {R : Type}

/-! ### An evaluator for the machine -/

/-- At most `k` lines. -/
def run (E : Env R) (code : List Line) : Nat → List Line → St R → Option (St R)
  | 0, _, _ => none
  | _ + 1, [], _ => none
  | k + 1, .label _ :: rest, s => run E code k rest s
  | k + 1, .i x :: rest, s => (exec E x s).bind (run E code k rest)
  | k + 1, .jmp l :: _, s => run E code k (after l code) s
  | k + 1, .jcc c l :: rest, s =>
    if c.holds s then run E code k (after l code) s else run E code k rest s
  | _ + 1, .ret :: _, s => some s

theorem run_sound {E : Env R} {code : List Line} :
    ∀ k rest s t, run E code k rest s = some t → Run E code rest s t := by
  intro k
  induction k with
  | zero => intro rest s t h; simp [run] at h
  | succ k ih =>
    intro rest s t h
    match rest with
    | [] => simp [run] at h
    | .label _ :: rest => exact .label (ih _ _ _ h)
    | .i x :: rest =>
      simp only [run, Option.bind_eq_some_iff] at h
      obtain ⟨s1, h1, h2⟩ := h
      exact .ins h1 (ih _ _ _ h2)
    | .jmp l :: _ => exact .jmp (ih _ _ _ h)
    | .jcc c l :: rest =>
      simp only [run] at h
      split at h
      · rename_i hc; exact .taken hc (ih _ _ _ h)
      · rename_i hc; exact .falls (by simpa using hc) (ih _ _ _ h)
    | .ret :: _ => simp only [run, Option.some.injEq] at h; subst h; exact .ret

/-! ### `y = x1` one element after `x2` -/

/-- The portable loop adds prefix sums: with `x1 = y` one element after `x2`, the `i`-th element
becomes the sum of all elements before and at `i`, since the loop reads what it wrote. -/
theorem purego_shifted [AddCommMonoid R] {es : Nat} (hes : 0 < es) (p n : Nat) (m : Nat → R) :
    ∃ m', puregoZip (· + ·) es ⟨p + es, n⟩ ⟨p, n⟩ ⟨p + es, n⟩ m = some m' ∧
      ∀ i, i < n → m' (p + es + es * i) = ((elems es m p (i + 2)).sum) := by
  have key : ∀ k i m1, (∀ j, m1 (p + es + es * (i + j)) = m (p + es + es * (i + j))) →
      (m1 (p + es * i) = (elems es m p (i + 1)).sum) →
      (∀ j, j < i → m1 (p + es + es * j) = (elems es m p (j + 2)).sum) →
      ∀ j, j < i + k → zipLoop (· + ·) es (p + es) p (p + es) k i m1 (p + es + es * j) =
        (elems es m p (j + 2)).sum := by
    intro k
    induction k with
    | zero => intro i m1 _ _ h3 j hj; exact h3 j hj
    | succ k ih =>
      intro i m1 h1 h2 h3 j hj
      have hne : ∀ a b, a ≠ b → p + es + es * a ≠ p + es + es * b := by
        intro a b hab h
        exact hab (Nat.eq_of_mul_eq_mul_left hes (Nat.add_left_cancel h))
      have hval : m1 (p + es + es * i) + m1 (p + es * i) = (elems es m p (i + 2)).sum := by
        have h10 := h1 0
        simp only [Nat.add_zero] at h10
        have hs : (elems es m p (i + 2)).sum =
            (elems es m p (i + 1)).sum + m (p + es * (i + 1)) := by
          simp only [elems]
          rw [List.range_succ (n := i + 1), List.map_append, List.sum_append]
          simp
        rw [h2, h10, hs, add_comm, show p + es + es * i = p + es * (i + 1) by ring]
      refine ih (i + 1) _ ?_ ?_ ?_ j (by omega)
      · intro j
        rw [poke, if_neg (hne _ _ (by omega)), show i + 1 + j = i + (1 + j) by omega, h1]
      · rw [poke, if_pos (by ring)]; exact hval
      · intro j hj
        by_cases hji : j = i
        · subst hji; simp [poke, hval]
        · rw [poke, if_neg (hne _ _ hji), h3 j (by omega)]
  simp only [puregoZip]
  by_cases h0 : n = 0
  · exact ⟨m, by simp [h0], by omega⟩
  · exact ⟨_, by simp [h0], fun i hi => key n 0 m (by simp) (by simp [elems]) (by omega) i (by omega)⟩

/-- The AVX code with 8 elements reads everything before it writes: each element becomes the sum of
its old value and the old value before it. -/
theorem avx_shifted (alu : Alu R) (s : St R) :
    ∃ t, Call (frame3 4 alu ⟨4, 8⟩ ⟨0, 8⟩ ⟨4, 8⟩) addAVX32 s t ∧
      elems 4 t.mem 4 8 =
        List.zipWith (alu.op .add) (elems 4 s.mem 4 8) (elems 4 s.mem 0 8) := by
  have h : (run (frame3 4 alu ⟨4, 8⟩ ⟨0, 8⟩ ⟨4, 8⟩) addAVX32 30 addAVX32 s).map
      (fun t => elems 4 t.mem 4 8) =
      some (List.zipWith (alu.op .add) (elems 4 s.mem 4 8) (elems 4 s.mem 0 8)) := by
    with_unfolding_all rfl
  obtain ⟨t, h1, h2⟩ := Option.map_eq_some_iff.1 h
  exact ⟨t, run_sound 30 _ _ _ h1, h2⟩

/-- In place with a shifted operand, the portable code and the assembly disagree: on 1, …, 1 the
portable result is 2, 3, …, 9, the AVX result 2, 2, …, 2. -/
theorem shifted_differs :
    (∃ m', puregoZip (intAlu.op .add) 4 ⟨4, 8⟩ ⟨0, 8⟩ ⟨4, 8⟩ (fun _ => 1) = some m' ∧
      elems 4 m' 4 8 = [2, 3, 4, 5, 6, 7, 8, 9]) ∧
    ∀ s t : St Int, s.mem = (fun _ => 1) →
      Call (frame3 4 intAlu ⟨4, 8⟩ ⟨0, 8⟩ ⟨4, 8⟩) addAVX32 s t →
      elems 4 t.mem 4 8 = [2, 2, 2, 2, 2, 2, 2, 2] := by
  constructor
  · obtain ⟨m', h1, h2⟩ := purego_shifted (es := 4) (by omega) 0 8 (fun _ => (1 : Int))
    refine ⟨m', h1, ?_⟩
    have : elems 4 m' 4 8 = (List.range 8).map fun i => (elems 4 (fun _ => (1 : Int)) 0 (i + 2)).sum :=
      List.map_congr_left fun i hi => h2 i (by simpa using hi)
    rw [this]; rfl
  · intro s t hs ht
    obtain ⟨t', h1, h2⟩ := avx_shifted intAlu s
    obtain rfl := Run.det ht h1
    rw [h2, hs]; rfl

end Verif.Asm
