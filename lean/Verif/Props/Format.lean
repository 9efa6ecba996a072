import Verif.Model.Format
import Mathlib.Tactic.Linarith

/-!
# C46: printing a matrix

Elements are printed by an arbitrary function `str`; `x (i * c + j)` is the element at row `i` and column `j`.
-/

set_option autoImplicit false
set_option linter.unusedSimpArgs false

namespace Verif.Format

open Dense

variable {R : Type}

/-- The matrix with the given elements in row-major order. -/
def tab (r c : Nat) (x : Nat → R) : Dense R := ⟨r, c, (List.range (r * c)).map x⟩

theorem tab_rows (r c : Nat) (x : Nat → R) : (tab r c x).rows = r := rfl
theorem tab_cols (r c : Nat) (x : Nat → R) : (tab r c x).cols = c := rfl

/-- How far the decimal point of a printed number is from its start; its length if there is none. -/
def lead (s : List Char) : Nat := (s.takeWhile (· ≠ '.')).length

theorem lead_le (s : List Char) : lead s ≤ s.length := (List.takeWhile_prefix _).length_le

theorem indexDot_eq (s : List Char) : indexDot s = if '.' ∈ s then some (lead s) else none := by
  unfold indexDot lead
  induction s with
  | nil => rfl
  | cons a s ih =>
    rw [List.findIdx?_cons, ih]
    by_cases ha : a = '.'
    · subst ha; simp
    · have : ('.' : Char) ≠ a := fun h => ha h.symm
      by_cases hs : '.' ∈ s <;> simp [ha, hs, this]

theorem lead_of_not_mem {s : List Char} (h : '.' ∉ s) : lead s = s.length := by
  unfold lead
  induction s with
  | nil => rfl
  | cons a s ih =>
    simp only [List.mem_cons, not_or] at h
    have ha : a ≠ '.' := fun e => h.1 e.symm
    simpa [ha] using ih h.2

theorem lead_lt {s : List Char} (h : '.' ∈ s) : lead s < s.length := by
  unfold lead
  induction s with
  | nil => simp at h
  | cons a s ih =>
    by_cases ha : a = '.'
    · subst ha; simp
    · have hs : '.' ∈ s := by
        rcases List.mem_cons.1 h with h | h
        · exact absurd h.symm ha
        · exact h
      have := ih hs
      simp [ha]
      simpa using this

/-- The room to the left of the point a printed number asks for. -/
def want (minWidth : Nat) (s : List Char) : Nat := lead s + if '.' ∈ s then minWidth - s.length else 0

/-- The number of characters after the point. -/
def frac (s : List Char) : Nat := s.length - lead s - 1

theorem frac_of_not_mem {s : List Char} (h : '.' ∉ s) : frac s = 0 := by
  unfold frac; rw [lead_of_not_mem h]; omega

theorem maxInt_eq (a b : Nat) : maxInt a b = max a b := by
  unfold maxInt
  split <;> omega

theorem widthStep_eq (m : Nat) (s : List Char) (w : LR) :
    widthStep m s w = ⟨max w.left (want m s), max w.right (frac s)⟩ := by
  unfold widthStep want
  rw [indexDot_eq]
  by_cases h : '.' ∈ s
  · simp only [h, if_true, maxInt_eq, frac]
    congr 2
    split <;> omega
  · simp only [h, if_false, maxInt_eq, frac_of_not_mem h, lead_of_not_mem h]
    congr 1
    omega

theorem foldlM_range {α : Type} (f : α → Nat → Option α) (g : Nat → α) (n : Nat)
    (h : ∀ k < n, f (g k) k = some (g (k + 1))) : (List.range n).foldlM f (g 0) = some (g n) := by
  induction n with
  | zero => rfl
  | succ n ih =>
    rw [List.range_succ, List.foldlM_append, ih (fun k hk => h k (by omega))]
    simp [h n (by omega)]

theorem foldlM_range_isSome {α : Type} (f : α → Nat → Option α) (P : Nat → Prop) (n : Nat)
    (h : ∀ k < n, ∀ a, (f a k).isSome ↔ P k) (a : α) : ((List.range n).foldlM f a).isSome ↔ ∀ k < n, P k := by
  induction n with
  | zero => simp
  | succ n ih =>
    rw [List.range_succ, List.foldlM_append]
    have ih := ih fun k hk => h k (by omega)
    cases hf : (List.range n).foldlM f a with
    | none =>
      rw [hf] at ih
      simp only [Option.isSome_none, Bool.false_eq_true, false_iff] at ih
      constructor
      · intro h; simp at h
      · intro h'; exact absurd (fun k hk => h' k (by omega)) ih
    | some b =>
      rw [hf] at ih
      simp only [Option.isSome_some, true_iff] at ih
      have hn := h n (by omega) b
      simp only [Option.bind_eq_bind, Option.bind_some, List.foldlM_cons, List.foldlM_nil, Option.pure_def]
      have hb : ((f b n).bind fun s => some s) = f b n := by cases f b n <;> rfl
      rw [hb, hn]
      constructor
      · intro hp k hk
        rcases Nat.lt_succ_iff_lt_or_eq.1 hk with hk | rfl
        · exact ih k hk
        · exact hp
      · intro hp; exact hp n (by omega)

/-- The largest of `f 0`, …, `f (n-1)`. -/
def maxOf (n : Nat) (f : Nat → Nat) : Nat := (List.range n).foldl (fun m i => max m (f i)) 0

theorem maxOf_succ (n : Nat) (f : Nat → Nat) : maxOf (n + 1) f = max (maxOf n f) (f n) := by
  unfold maxOf
  rw [List.range_succ, List.foldl_append]
  rfl

theorem le_maxOf {n : Nat} {f : Nat → Nat} {i : Nat} (hi : i < n) : f i ≤ maxOf n f := by
  induction n with
  | zero => omega
  | succ n ih =>
    rw [maxOf_succ]
    rcases Nat.lt_succ_iff_lt_or_eq.1 hi with h | rfl
    · have := ih h; omega
    · omega

theorem maxOf_le {n : Nat} {f : Nat → Nat} {b : Nat} : maxOf n f ≤ b ↔ ∀ i < n, f i ≤ b := by
  constructor
  · intro h i hi
    exact le_trans (le_maxOf hi) h
  · intro h
    induction n with
    | zero => exact Nat.zero_le _
    | succ n ih =>
      rw [maxOf_succ]
      have := ih fun i hi => h i (by omega)
      have := h n (by omega)
      omega

section
variable (str : R → List Char) (r c : Nat) (x : Nat → R)

theorem getElem_tab {i j : Nat} (hi : i < r) (hj : j < c) : (tab r c x).data[i * c + j]? = some (x (i * c + j)) := by
  have : i * c + j < r * c := by nlinarith
  simp [tab, this]

/-- The widths after `n` rows. -/
def widthsAfter (m n : Nat) : List LR :=
  (List.range c).map fun j => ⟨maxOf n fun i => want m (str (x (i * c + j))), maxOf n fun i => frac (str (x (i * c + j)))⟩

/-- The width of the widest element of `n` rows. -/
def maxAfter (n : Nat) : Nat := maxOf n fun i => maxOf c fun j => (str (x (i * c + j))).length

theorem widthRow_eq (m i : Nat) (hi : i < r) :
    widthRow str m (tab r c x) (widthsAfter str c x m i, maxAfter str c x i) i
      = some (widthsAfter str c x m (i + 1), maxAfter str c x (i + 1)) := by
  have key := foldlM_range (widthCol str m (tab r c x) i)
    (fun n => ((List.range c).map fun j =>
        if j < n then (⟨maxOf (i + 1) fun i => want m (str (x (i * c + j))), maxOf (i + 1) fun i => frac (str (x (i * c + j)))⟩ : LR)
        else ⟨maxOf i fun i => want m (str (x (i * c + j))), maxOf i fun i => frac (str (x (i * c + j)))⟩,
      max (maxAfter str c x i) (maxOf n fun j => (str (x (i * c + j))).length))) c ?_
  · unfold widthRow
    have e0 : ((List.range c).map fun j =>
        if j < 0 then (⟨maxOf (i + 1) fun i => want m (str (x (i * c + j))), maxOf (i + 1) fun i => frac (str (x (i * c + j)))⟩ : LR)
        else ⟨maxOf i fun i => want m (str (x (i * c + j))), maxOf i fun i => frac (str (x (i * c + j)))⟩)
        = widthsAfter str c x m i := by
      unfold widthsAfter
      apply List.map_congr_left
      intro j _
      rw [if_neg (by omega)]
    have e1 : ((List.range c).map fun j =>
        if j < c then (⟨maxOf (i + 1) fun i => want m (str (x (i * c + j))), maxOf (i + 1) fun i => frac (str (x (i * c + j)))⟩ : LR)
        else ⟨maxOf i fun i => want m (str (x (i * c + j))), maxOf i fun i => frac (str (x (i * c + j)))⟩)
        = widthsAfter str c x m (i + 1) := by
      unfold widthsAfter
      apply List.map_congr_left
      intro j hj
      rw [if_pos (List.mem_range.1 hj)]
    have e2 : max (maxAfter str c x i) (maxOf 0 fun j => (str (x (i * c + j))).length) = maxAfter str c x i := by
      simp [maxOf]
    have e3 : max (maxAfter str c x i) (maxOf c fun j => (str (x (i * c + j))).length) = maxAfter str c x (i + 1) := by
      unfold maxAfter
      rw [maxOf_succ]
    rw [e0, e1, e2, e3] at key
    exact key
  · intro k hk
    unfold widthCol
    rw [tab_cols, getElem_tab r c x hi hk]
    simp only [Option.bind_eq_bind, Option.bind_some, List.getElem?_map, List.getElem?_range hk, Option.map_some,
      lt_irrefl, if_false, widthStep_eq, maxInt_eq]
    congr 2
    · apply List.ext_getElem (by simp)
      intro j h1 h2
      rw [List.getElem_set]
      simp only [List.getElem_map, List.getElem_range]
      by_cases hjk : k = j
      · subst hjk
        rw [if_pos rfl, if_pos (by omega)]
        simp only [maxOf_succ]
      · rw [if_neg hjk]
        by_cases hlt : j < k
        · rw [if_pos hlt, if_pos (by omega)]
        · rw [if_neg hlt, if_neg (by omega)]
    · rw [maxOf_succ]
      omega

theorem widths_eq (width : Option Nat) : widths str width (tab r c x)
    = some (widthsAfter str c x (width.getD 0) r, maxAfter str c x r) := by
  have := foldlM_range (widthRow str (width.getD 0) (tab r c x))
    (fun n => (widthsAfter str c x (width.getD 0) n, maxAfter str c x n)) r
    (fun k hk => widthRow_eq str r c x (width.getD 0) k hk)
  unfold widths
  rw [tab_rows, tab_cols]
  rw [← this]
  congr 2
  apply List.ext_getElem (by simp [widthsAfter])
  intro j h1 h2
  simp [widthsAfter, maxOf]

theorem spaceSlice_isSome (n : Nat) (k : Int) : (spaceSlice n k).isSome ↔ 0 ≤ k ∧ k ≤ n := by
  unfold spaceSlice
  split <;> simp_all

/-- The paddings of a printed number in a column of the given widths. -/
theorem cell_eq (spaces : Nat) (s : List Char) (w : LR) :
    cell spaces s w = (spaceSlice spaces ((w.left : Int) - lead s)).bind fun l =>
      (spaceSlice spaces (if '.' ∈ s then (w.right : Int) - frac s
        else if w.right > 0 then (w.right : Int) + 1 else 0)).bind fun t => some (l ++ s ++ t) := by
  unfold cell
  rw [indexDot_eq]
  by_cases h : '.' ∈ s
  · have := lead_lt h
    simp only [h, if_true, Option.bind_eq_bind, frac]
    rw [show ((s.length - lead s - 1 : Nat) : Int) = (s.length : Int) - lead s - 1 by omega]
  · simp only [h, if_false, Option.bind_eq_bind, lead_of_not_mem h]
    have e : (if w.right > 0 then (w.right : Int) + 1 else (w.right : Int)) = if w.right > 0 then (w.right : Int) + 1 else 0 := by
      split <;> omega
    rw [e]

theorem frac_le {s : List Char} : '.' ∈ s → frac s + 1 ≤ s.length := by
  intro h
  have := lead_lt h
  unfold frac
  omega

theorem cell_isSome (m : Nat) {i j : Nat} (hi : i < r) (hj : j < c) :
    (cell (maxAfter str c x r) (str (x (i * c + j)))
      ⟨maxOf r fun i => want m (str (x (i * c + j))), maxOf r fun i => frac (str (x (i * c + j)))⟩).isSome
      ↔ ∀ i' < r, want m (str (x (i' * c + j))) ≤ maxAfter str c x r + lead (str (x (i * c + j))) := by
  have hM : ∀ i < r, (str (x (i * c + j))).length ≤ maxAfter str c x r := fun i hi =>
    le_trans (le_maxOf (f := fun j => (str (x (i * c + j))).length) hj)
      (le_maxOf (f := fun i => maxOf c fun j => (str (x (i * c + j))).length) hi)
  have hR : ∀ i < r, frac (str (x (i * c + j))) + 1 ≤ maxAfter str c x r ∨ frac (str (x (i * c + j))) = 0 := by
    intro i hi
    by_cases h : '.' ∈ str (x (i * c + j))
    · left; exact le_trans (frac_le h) (hM i hi)
    · right; exact frac_of_not_mem h
  have hRmax : (maxOf r fun i => frac (str (x (i * c + j)))) ≤ maxAfter str c x r - 1 :=
    maxOf_le.2 fun i hi => by rcases hR i hi with h | h <;> omega
  have hfr := le_maxOf (f := fun i => frac (str (x (i * c + j)))) hi
  have hwl : lead (str (x (i * c + j))) ≤ maxOf r fun i => want m (str (x (i * c + j))) :=
    le_trans (by unfold want; omega) (le_maxOf (f := fun i => want m (str (x (i * c + j)))) hi)
  rw [← maxOf_le (f := fun i' => want m (str (x (i' * c + j)))), cell_eq]
  generalize hLdef : (maxOf r fun i => want m (str (x (i * c + j)))) = L at *
  generalize hRdef : (maxOf r fun i => frac (str (x (i * c + j)))) = Rr at *
  have hr2 : (spaceSlice (maxAfter str c x r) (if '.' ∈ str (x (i * c + j)) then (Rr : Int) - frac (str (x (i * c + j)))
        else if Rr > 0 then (Rr : Int) + 1 else 0)).isSome := by
    rw [spaceSlice_isSome]
    split
    · omega
    · split <;> omega
  obtain ⟨t, ht⟩ := Option.isSome_iff_exists.1 hr2
  simp only [ht, Option.bind_some]
  have e : ((spaceSlice (maxAfter str c x r) ((L : Int) - lead (str (x (i * c + j))))).bind
      fun l => some (l ++ str (x (i * c + j)) ++ t)).isSome
      ↔ (spaceSlice (maxAfter str c x r) ((L : Int) - lead (str (x (i * c + j))))).isSome := by
    cases spaceSlice (maxAfter str c x r) ((L : Int) - lead (str (x (i * c + j)))) <;> simp
  rw [e, spaceSlice_isSome]
  omega

theorem widthsAfter_get (m n : Nat) {j : Nat} (hj : j < c) : (widthsAfter str c x m n)[j]?
    = some ⟨maxOf n fun i => want m (str (x (i * c + j))), maxOf n fun i => frac (str (x (i * c + j)))⟩ := by
  simp [widthsAfter, List.getElem?_range hj]

/-- **C46.** Exactly when printing succeeds: not if, in some column, the room asked for by a number with a decimal point
(`width` less what follows the point) exceeds another number's by more than the widest element. -/
theorem format_isSome_iff (width : Option Nat) : (format str width (tab r c x)).isSome ↔
    ∀ i < r, ∀ j < c, ∀ i' < r,
      want (width.getD 0) (str (x (i' * c + j))) ≤ maxAfter str c x r + lead (str (x (i * c + j))) := by
  unfold format
  rw [widths_eq]
  simp only [Option.bind_eq_bind, Option.bind_some, tab_rows]
  apply foldlM_range_isSome
  intro i hi out
  unfold writeRow
  have hin := foldlM_range_isSome
    (writeCol str (widthsAfter str c x (width.getD 0) r) (maxAfter str c x r) (tab r c x) i)
    (fun j => ∀ i' < r, want (width.getD 0) (str (x (i' * c + j))) ≤ maxAfter str c x r + lead (str (x (i * c + j)))) c
    (by
      intro j hj o
      rw [← cell_isSome str r c x (width.getD 0) hi hj]
      unfold writeCol
      rw [tab_cols, getElem_tab r c x hi hj]
      simp only [Option.bind_eq_bind, Option.bind_some, widthsAfter_get str c x _ _ hj]
      generalize cell _ _ _ = o
      cases o <;> simp)
    (out ++ (prefixSuffix (tab r c x).rows i).1)
  rw [← hin]
  simp only [Option.bind_eq_bind, tab_cols, tab_rows]
  generalize List.foldlM (m := Option) _ _ _ = o
  cases o <;> simp

/-- **C46 (part).** Without a width, or with one not above the widest element, printing never panics, for every matrix
and whatever the elements look like. Partial: the claim is for every width, and false for larger ones
(`format_large`). -/
theorem format_ok_partial (width : Option Nat) (h : ∀ w, width = some w → ∃ i < r, ∃ j < c, w ≤ (str (x (i * c + j))).length) :
    (format str width (tab r c x)).isSome := by
  rw [format_isSome_iff]
  intro i hi j hj i' hi'
  have hM : ∀ i < r, ∀ j < c, (str (x (i * c + j))).length ≤ maxAfter str c x r := fun i hi j hj =>
    le_trans (le_maxOf (f := fun j => (str (x (i * c + j))).length) hj)
      (le_maxOf (f := fun i => maxOf c fun j => (str (x (i * c + j))).length) hi)
  have h1 := hM i' hi' j hj
  have h2 := lead_le (str (x (i' * c + j)))
  unfold want
  cases width with
  | none => simp only [Option.getD_none]; split <;> omega
  | some w =>
    obtain ⟨a, ha, b, hb, hw⟩ := h w rfl
    have h3 := hM a ha b hb
    simp only [Option.getD_some]
    split <;> omega

/-- C46 is violated: a width of more than twice the widest element panics as soon as one element has a decimal point. -/
theorem format_large (w : Nat) (h : ∀ i < r, ∀ j < c, 2 * (str (x (i * c + j))).length < w)
    {i j : Nat} (hi : i < r) (hj : j < c) (hdot : '.' ∈ str (x (i * c + j))) :
    format str (some w) (tab r c x) = none := by
  rw [← Option.not_isSome_iff_eq_none, format_isSome_iff]
  intro hall
  have h1 := hall i hi j hj i hi
  unfold want at h1
  rw [if_pos hdot] at h1
  simp only [Option.getD_some] at h1
  have hM : 2 * maxAfter str c x r < w := by
    have h0 := h i hi j hj
    have : maxAfter str c x r ≤ (w - 1) / 2 :=
      maxOf_le.2 fun i hi => maxOf_le.2 fun j hj => by have := h i hi j hj; omega
    omega
  have h2 : (str (x (i * c + j))).length ≤ maxAfter str c x r :=
    le_trans (le_maxOf (f := fun j => (str (x (i * c + j))).length) hj)
      (le_maxOf (f := fun i => maxOf c fun j => (str (x (i * c + j))).length) hi)
  omega

/-- Accumulating an output: each step appends its own part. -/
theorem foldlM_append_out (f : List Char → Nat → Option (List Char)) (g : Nat → List Char) (n : Nat) (out res : List Char)
    (h : ∀ k < n, ∀ o o', f o k = some o' → o' = o ++ g k) (hf : (List.range n).foldlM f out = some res) :
    res = out ++ ((List.range n).map g).flatten := by
  induction n generalizing res with
  | zero => simpa using hf.symm
  | succ n ih =>
    rw [List.range_succ, List.foldlM_append] at hf
    cases h1 : (List.range n).foldlM f out with
    | none => rw [h1] at hf; simp at hf
    | some o =>
      rw [h1] at hf
      simp only [Option.bind_eq_bind, Option.bind_some, List.foldlM_cons, List.foldlM_nil, Option.pure_def,
        Option.bind_eq_some_iff] at hf
      obtain ⟨b, hb, hr⟩ := hf
      obtain rfl := Option.some.inj hr
      rw [h n (by omega) o b hb, ih o (fun k hk => h k (by omega)) h1, List.range_succ]
      simp

/-- The spaces before a number in column `j`. -/
def leftPad (m i j : Nat) : Nat := (maxOf r fun i => want m (str (x (i * c + j)))) - lead (str (x (i * c + j)))

/-- The spaces after a number in column `j`: up to the longest fraction, and one for the missing point. -/
def rightPad (i j : Nat) : Nat :=
  if '.' ∈ str (x (i * c + j)) then (maxOf r fun i => frac (str (x (i * c + j)))) - frac (str (x (i * c + j)))
  else if (maxOf r fun i => frac (str (x (i * c + j)))) > 0 then (maxOf r fun i => frac (str (x (i * c + j)))) + 1 else 0

/-- What is printed for one element. -/
def cellText (m i j : Nat) : List Char :=
  List.replicate (leftPad str r c x m i j) ' ' ++ str (x (i * c + j)) ++ List.replicate (rightPad str r c x i j) ' '

theorem spaceSlice_some {n : Nat} {k : Int} {l : List Char} (h : spaceSlice n k = some l) :
    l = List.replicate k.toNat ' ' := by
  unfold spaceSlice at h
  by_cases hc : 0 ≤ k ∧ k ≤ n
  · rw [if_pos hc] at h; exact (Option.some.inj h).symm
  · rw [if_neg hc] at h; simp at h

theorem cell_text (m : Nat) {i j : Nat} (hi : i < r) {o : List Char}
    (h : cell (maxAfter str c x r) (str (x (i * c + j)))
      ⟨maxOf r fun i => want m (str (x (i * c + j))), maxOf r fun i => frac (str (x (i * c + j)))⟩ = some o) :
    o = cellText str r c x m i j := by
  rw [cell_eq] at h
  simp only [Option.bind_eq_some_iff] at h
  obtain ⟨l, hl, t, ht, ho⟩ := h
  obtain rfl := Option.some.inj ho
  rw [spaceSlice_some hl, spaceSlice_some ht]
  have hfr := le_maxOf (f := fun i => frac (str (x (i * c + j)))) hi
  unfold cellText leftPad rightPad
  congr 2
  · congr 2
    omega
  · split
    · omega
    · split <;> omega

/-- **C46.** What is printed: the rows in order, each with its brackets, the elements separated by spaces and padded. -/
theorem format_text (width : Option Nat) {out : List Char} (h : format str width (tab r c x) = some out) :
    out = ((List.range r).map fun i => (prefixSuffix r i).1
      ++ ((List.range c).map fun j => (if j > 0 then [' '] else []) ++ cellText str r c x (width.getD 0) i j).flatten
      ++ (prefixSuffix r i).2).flatten := by
  unfold format at h
  rw [widths_eq] at h
  simp only [Option.bind_eq_bind, Option.bind_some, tab_rows] at h
  refine (foldlM_append_out _ _ r [] out ?_ h).trans (List.nil_append _)
  intro i hi o o' ho
  unfold writeRow at ho
  simp only [Option.bind_eq_bind, Option.bind_eq_some_iff, tab_rows, tab_cols] at ho
  obtain ⟨q, hq, hqo⟩ := ho
  obtain rfl := Option.some.inj hqo
  have hq' := foldlM_append_out _ (fun j => (if j > 0 then [' '] else []) ++ cellText str r c x (width.getD 0) i j) c _ q
    (by
      intro j hj a a' ha
      unfold writeCol at ha
      rw [tab_cols, getElem_tab r c x hi hj] at ha
      simp only [Option.bind_eq_bind, Option.bind_some, widthsAfter_get str c x _ _ hj, Option.bind_eq_some_iff] at ha
      obtain ⟨u, hu, hua⟩ := ha
      obtain rfl := Option.some.inj hua
      rw [cell_text str r c x _ hi hu]
      by_cases h0 : j > 0 <;> simp [h0]) hq
  rw [hq']
  simp [List.append_assoc]

/-- **C46.** The brackets: a single row has square ones; otherwise the first row has the upper corners, the last row the
lower ones, the others the middle parts. Every row but the last ends its line. -/
theorem prefixSuffix_spec (rows i : Nat) (hi : i < rows) :
    ((prefixSuffix rows i).2.getLast? = some '\n' ↔ i + 1 < rows) ∧
    (rows = 1 → prefixSuffix rows i = ("[".toList, "]".toList)) ∧
    (rows ≠ 1 → i = 0 → prefixSuffix rows i = ("⎡".toList, "⎤\n".toList)) ∧
    (i ≠ 0 → i + 1 = rows → prefixSuffix rows i = ("⎣".toList, "⎦".toList)) ∧
    (i ≠ 0 → i + 1 < rows → prefixSuffix rows i = ("⎢".toList, "⎥\n".toList)) := by
  unfold prefixSuffix
  by_cases h1 : rows = 1
  · subst h1
    obtain rfl : i = 0 := by omega
    simp
  · by_cases h0 : i = 0
    · subst h0
      simp [h1]
      omega
    · by_cases h2 : i = rows - 1
      · have : ¬ i + 1 < rows := by omega
        simp [h1, h0, this]
        rw [if_pos h2]
        simp
        omega
      · have h3 : i + 1 < rows := by omega
        have h4 : i + 1 ≠ rows := by omega
        simp [h1, h0, h2, h3, h4]

/-- **C46.** Columns are aligned: the cells of a column have the same width, and their decimal points the same place,
unless some number ends with its point (which `strconv` never prints). -/
theorem format_aligned (m : Nat) {j : Nat} (hdot : ∀ i < r, '.' ∈ str (x (i * c + j)) → 0 < frac (str (x (i * c + j))))
    {i i' : Nat} (hi : i < r) (hi' : i' < r) :
    (cellText str r c x m i j).length = (cellText str r c x m i' j).length ∧
    leftPad str r c x m i j + lead (str (x (i * c + j))) = leftPad str r c x m i' j + lead (str (x (i' * c + j))) := by
  have key : ∀ i < r, (cellText str r c x m i j).length = (maxOf r fun i => want m (str (x (i * c + j))))
      + (if (maxOf r fun i => frac (str (x (i * c + j)))) > 0 then (maxOf r fun i => frac (str (x (i * c + j)))) + 1 else 0) ∧
      leftPad str r c x m i j + lead (str (x (i * c + j))) = maxOf r fun i => want m (str (x (i * c + j))) := by
    intro i hi
    have hwl : lead (str (x (i * c + j))) ≤ maxOf r fun i => want m (str (x (i * c + j))) :=
      le_trans (by unfold want; omega) (le_maxOf (f := fun i => want m (str (x (i * c + j)))) hi)
    have hfr : frac (str (x (i * c + j))) ≤ maxOf r fun i => frac (str (x (i * c + j))) :=
      le_maxOf (f := fun i => frac (str (x (i * c + j)))) hi
    refine ⟨?_, by unfold leftPad; omega⟩
    simp only [cellText, List.length_append, List.length_replicate, leftPad, rightPad]
    by_cases h : '.' ∈ str (x (i * c + j))
    · have h1 := hdot i hi h
      have h2 := lead_lt h
      have h3 : frac (str (x (i * c + j))) = (str (x (i * c + j))).length - lead (str (x (i * c + j))) - 1 := rfl
      rw [if_pos h, if_pos (by omega)]
      omega
    · rw [if_neg h, lead_of_not_mem h]
      rw [lead_of_not_mem h] at hwl
      omega
  exact ⟨((key i hi).1.trans (key i' hi').1.symm), ((key i hi).2.trans (key i' hi').2.symm)⟩

end

/-- **C46.** Through the verbs: without a width every verb works on every matrix. -/
theorem formatVerb_ok (appendFloat : R → Char → Int → List Char) (sharp plus : List R → List Char) (hash add : Bool)
    (precision : Option Nat) (verb : Char) (d : Dense R) (hd : d.WF) :
    (formatVerb appendFloat sharp plus hash add none precision verb d).isSome := by
  have key : ∀ str : R → List Char, d.data.length ≠ 0 → (format str none d).isSome := by
    intro str h0
    have : Nonempty R := by
      cases hl : d.data with
      | nil => simp [hl] at h0
      | cons a _ => exact ⟨a⟩
    obtain ⟨a⟩ := this
    have e : d = tab d.rows d.cols fun k => d.data.getD k a := by
      obtain ⟨dr, dc, dd⟩ := d
      unfold tab
      congr 1
      apply List.ext_getElem (by simpa [Dense.WF] using hd)
      intro k h1 h2
      simp [List.getD_eq_getElem?_getD, h1]
    rw [e]
    exact format_ok_partial str d.rows d.cols _ none (by simp)
  unfold formatVerb
  split
  · rfl
  · split
    · rfl
    · simp only
      split
      · rfl
      · rename_i h0; exact key _ h0

/-- The hypotheses are met: `%10g` of the 1×1 matrix printed as "1.5" panics, `%3g` and `%g` do not. -/
example : format (fun _ : Unit => "1.5".toList) (some 10) (tab 1 1 fun _ => ()) = none ∧
    format (fun _ : Unit => "1.5".toList) (some 3) (tab 1 1 fun _ => ()) = some "[1.5]".toList := by
  constructor <;> decide

/-- A column of numbers with and without a point. -/
example : format (fun b : Bool => if b then "1.25".toList else "10".toList) none (tab 2 1 fun k => k == 0)
    = some "⎡ 1.25⎤\n⎣10   ⎦".toList := by decide

end Verif.Format
