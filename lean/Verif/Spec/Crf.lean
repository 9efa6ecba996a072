import Mathlib.Algebra.BigOperators.Group.List.Basic
import Mathlib.Data.List.Nodup

set_option autoImplicit false

/-!
# What a linear-chain CRF should compute

A sequence of labels `y_0 ... y_{L-1}`, together with the extra state 0 before and after it, is a path.
Its score is the sum of the transition scores along the path plus the emission scores.
-/

namespace Verif.CrfSpec

/-- The states on the path of a label sequence: label `y` is state `y + 1`, 0 is start and end. -/
def path (ys : List Nat) : List Nat := 0 :: (ys.map (· + 1) ++ [0])

/-- The score of a label sequence: `trans i j` is the score of going from state `i` to state `j`,
`emis` holds for every position the score of each label. -/
def score {R : Type} [AddCommMonoid R] (trans : Nat → Nat → R) (emis : List (Nat → R))
    (ys : List Nat) : R :=
  (((path ys).zip (path ys).tail).map fun p => trans p.1 p.2).sum +
    (List.zipWith (fun e y => e y) emis ys).sum

/-- All sequences of `len` labels below `n`. -/
def labelings (n : Nat) : Nat → List (List Nat)
  | 0 => [[]]
  | len + 1 => (List.range n).flatMap fun y => (labelings n len).map (y :: ·)

theorem mem_labelings {n len : Nat} {ys : List Nat} :
    ys ∈ labelings n len ↔ ys.length = len ∧ ∀ y ∈ ys, y < n := by
  induction len generalizing ys with
  | zero => cases ys <;> simp [labelings]
  | succ len ih =>
    simp only [labelings, List.mem_flatMap, List.mem_range, List.mem_map]
    constructor
    · rintro ⟨y, hy, zs, hzs, rfl⟩
      obtain ⟨h1, h2⟩ := ih.mp hzs
      exact ⟨by simp [h1], by intro z hz; rcases List.mem_cons.mp hz with rfl | hz; exacts [hy, h2 z hz]⟩
    · rintro ⟨h1, h2⟩
      cases ys with
      | nil => simp at h1
      | cons y ys =>
        exact ⟨y, h2 y (by simp), ys, ih.mpr ⟨by simpa using h1, fun z hz => h2 z (by simp [hz])⟩, rfl⟩

theorem nodup_labelings (n len : Nat) : (labelings n len).Nodup := by
  induction len with
  | zero => simp [labelings]
  | succ len ih =>
    simp only [labelings]
    rw [List.nodup_flatMap]
    refine ⟨fun y _ => ih.map (fun a b h => by simpa using h), ?_⟩
    refine List.nodup_range.imp ?_
    intro a b hab
    simp only [Function.onFun]
    intro l h1 h2
    simp only [List.mem_map] at h1 h2
    obtain ⟨_, _, rfl⟩ := h1
    obtain ⟨_, _, h⟩ := h2
    simp at h
    exact hab h.1.symm

end Verif.CrfSpec
