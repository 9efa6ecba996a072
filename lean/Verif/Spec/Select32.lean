import Verif.Lemmas.F32Int
import Mathlib.Data.EReal.Basic

set_option autoImplicit false

/-!
# The numbers that float32 words stand for, with the infinities
-/

namespace Verif.Spec.Select32
open Verif.F32

/-- The number of a word that is not a NaN. -/
noncomputable def number (x : W) : EReal := if x = posInf then ⊤ else if x = negInf then ⊥ else (val x : EReal)

/-- `m` is a largest number of `l`, of those words that are not NaN. -/
def Largest (l : List W) (m : W) : Prop := m ∈ l ∧ isNaN m = false ∧ ∀ v ∈ l, isNaN v = false → number v ≤ number m
def Smallest (l : List W) (m : W) : Prop := m ∈ l ∧ isNaN m = false ∧ ∀ v ∈ l, isNaN v = false → number m ≤ number v

/-- `i` is the first index of a largest number. -/
def FirstLargest (l : List W) (i : Nat) : Prop :=
  ∃ m, l[i]? = some m ∧ isNaN m = false ∧ (∀ v ∈ l, isNaN v = false → number v ≤ number m) ∧
    ∀ k v, k < i → l[k]? = some v → isNaN v = false → number v < number m

end Verif.Spec.Select32
