import Verif.Model.Loop
import Mathlib.Tactic.Common

set_option autoImplicit false
set_option linter.unusedSimpArgs false

namespace Verif.Loop
variable {α β : Type}

theorem forUpd_range' {upd : Nat → α → Option α} {u : Nat → α → α} (m k : Nat) (s : List α)
    (hs : k + m ≤ s.length) (hu : ∀ j, k ≤ j → j < k + m → ∀ v, upd j v = some (u j v)) :
    ∃ r, forUpd upd (List.range' k m) s = some r ∧ r.length = s.length ∧
      ∀ j : Nat, r[j]? = if k ≤ j ∧ j < k + m then (s[j]?).map (u j) else s[j]? := by
  induction m generalizing k s with
  | zero => exact ⟨s, rfl, rfl, fun j => by rw [if_neg (by omega)]⟩
  | succ m ih =>
    have hk : k < s.length := by omega
    obtain ⟨r, h1, h2, h3⟩ := ih (k + 1) (s.set k (u k s[k])) (by simp; omega)
      (fun j h1 h2 => hu j (by omega) (by omega))
    refine ⟨r, ?_, by simpa using h2, ?_⟩
    · simp only [List.range'_succ, forUpd, List.getElem?_eq_getElem hk, Option.bind_eq_bind,
        Option.bind_some, hu k (Nat.le_refl _) (by omega)]
      exact h1
    · intro j
      rw [h3]
      by_cases hj : j = k
      · subst hj
        rw [if_neg (by omega), if_pos (by omega), List.getElem?_set_self hk,
          List.getElem?_eq_getElem hk]
        rfl
      · rw [List.getElem?_set_ne (by omega)]
        by_cases h : k + 1 ≤ j ∧ j < k + 1 + m
        · rw [if_pos h, if_pos (by omega)]
        · rw [if_neg h, if_neg (by omega)]

theorem forUpd_range {upd : Nat → α → Option α} {u : Nat → α → α} {n : Nat} {s : List α}
    (hs : s.length = n) (hu : ∀ j < n, ∀ v, upd j v = some (u j v)) :
    forUpd upd (List.range n) s = some (s.mapIdx u) := by
  obtain ⟨r, h1, h2, h3⟩ := forUpd_range' n 0 s (by omega) (fun j _ h => hu j (by omega))
  rw [List.range_eq_range', h1]
  congr 1
  apply List.ext_getElem?
  intro j
  rw [h3, List.getElem?_mapIdx]
  by_cases hj : j < n
  · rw [if_pos (by omega)]
  · rw [if_neg (by omega), List.getElem?_eq_none (by omega)]; rfl

theorem mapM_some {f : α → Option β} {g : α → β} {l : List α} (h : ∀ x ∈ l, f x = some (g x)) :
    l.mapM f = some (l.map g) := by
  induction l with
  | nil => rfl
  | cons x xs ih =>
    rw [List.mapM_cons, h x (by simp), ih (fun y hy => h y (by simp [hy]))]
    rfl

theorem foldlM_some {f : β → α → Option β} {g : β → α → β} {l : List α} {P : β → Prop}
    (h : ∀ b, P b → ∀ x ∈ l, f b x = some (g b x) ∧ P (g b x)) {b : β} (hb : P b) :
    l.foldlM f b = some (l.foldl g b) ∧ P (l.foldl g b) := by
  induction l generalizing b with
  | nil => exact ⟨rfl, hb⟩
  | cons x xs ih =>
    obtain ⟨h1, h2⟩ := h b hb x (by simp)
    rw [List.foldlM_cons, h1]
    exact ih (fun b hb y hy => h b hb y (by simp [hy])) h2

/-- a fold of `mapIdx` acts on every position separately -/
theorem foldl_mapIdx (u : Nat → Nat → α → α) (l : List Nat) (s : List α) :
    l.foldl (fun s i => s.mapIdx (u i)) s = s.mapIdx (fun j v => l.foldl (fun v i => u i j v) v) := by
  induction l generalizing s with
  | nil =>
    simp only [List.foldl_nil]
    apply List.ext_getElem?
    intro i
    simp
  | cons x xs ih =>
    rw [List.foldl_cons, ih, List.mapIdx_mapIdx]
    rfl

end Verif.Loop
