import Verif.Model.Clip
import Verif.Lemmas.Grid
import Mathlib.Tactic.Positivity
import Mathlib.Algebra.BigOperators.Field

set_option autoImplicit false
set_option linter.unusedSimpArgs false

/-!
# C28: gradient clipping
-/

namespace Verif.Clip
open Dense
open Function (update)

/-! ## Specification -/

/-- All elements of all gradients. -/
def entries (ids : List Nat) (h : Heap) : List ℝ := ids.flatMap fun id => ((h id).map (·.data)).getD []

/-- The `p`-norm of a list of numbers. -/
noncomputable def pNorm (p : ℝ) (xs : List ℝ) : ℝ := ((xs.map fun x => |x| ^ p).sum) ^ (1 / p)

/-- `n` is the largest absolute value of the numbers (0 if there are none). -/
def IsSupNorm (n : ℝ) (xs : List ℝ) : Prop := 0 ≤ n ∧ (∀ x ∈ xs, |x| ≤ n) ∧ (n = 0 ∨ ∃ x ∈ xs, |x| = n)

/-- `n` is the norm of type `t` of the numbers. -/
def IsNorm (t : NormType) (n : ℝ) (xs : List ℝ) : Prop :=
  match t with
  | .fin p => n = pNorm p xs
  | .inf => IsSupNorm n xs

/-- The gradients `h'` are those of `h`, with the ones of the given parameters multiplied by `a`. -/
def ScaledBy (a : ℝ) (ids : List Nat) (h h' : Heap) : Prop :=
  ∀ j, h' j = if j ∈ ids then (h j).map (fun g => ⟨g.rows, g.cols, g.data.map (· * a)⟩) else h j

/-! ## The loops -/

theorem forEach_none {f : Dense ℝ → Option (Dense ℝ)} : ∀ {ids : List Nat} {h : Heap} {id : Nat}, id ∈ ids →
    h id = none → forEach f ids h = none := by
  intro ids
  induction ids with
  | nil => intro h id hm; simp at hm
  | cons a as ih =>
    intro h id hm hn
    simp only [forEach]
    by_cases ha : a = id
    · subst ha; simp [hn]
    · have hm' : id ∈ as := by simpa [Ne.symm ha] using hm
      cases hg : h a with
      | none => rfl
      | some g =>
        cases hf : f g with
        | none => simp [hf]
        | some g' =>
          simp only [Option.bind_eq_bind, Option.bind_some, hf]
          exact ih hm' (by rw [Function.update_of_ne (Ne.symm ha)]; exact hn)

/-- A loop over distinct parameters applies the operation once to each of their gradients. -/
theorem forEach_nodup (F : Dense ℝ → Dense ℝ) : ∀ {ids : List Nat} {h : Heap}, ids.Nodup → (∀ id ∈ ids, h id ≠ none) →
    ∃ h', forEach (fun g => some (F g)) ids h = some h' ∧ ∀ j, h' j = if j ∈ ids then (h j).map F else h j := by
  intro ids
  induction ids with
  | nil => intro h _ _; exact ⟨h, rfl, fun j => by simp⟩
  | cons a as ih =>
    intro h hd hn
    obtain ⟨hna, hd'⟩ := List.nodup_cons.mp hd
    obtain ⟨g, hg⟩ := Option.ne_none_iff_exists'.mp (hn a List.mem_cons_self)
    obtain ⟨h', hr, hj⟩ := ih (h := update h a (some (F g))) hd' (fun id hid => by
      rw [Function.update_of_ne (fun e : id = a => hna (e ▸ hid))]; exact hn id (List.mem_cons_of_mem _ hid))
    refine ⟨h', by simp only [forEach, hg, Option.bind_eq_bind, Option.bind_some, hr], fun j => ?_⟩
    rw [hj]
    by_cases hja : j = a
    · subst hja; simp [hna, hg]
    · simp [hja]

/-- A loop with an idempotent operation applies it to the gradients of all the parameters, repeated or not. -/
theorem forEach_idem (F : Dense ℝ → Dense ℝ) (hF : ∀ g, F (F g) = F g) : ∀ {ids : List Nat} {h : Heap},
    (∀ id ∈ ids, h id ≠ none) →
    ∃ h', forEach (fun g => some (F g)) ids h = some h' ∧ ∀ j, h' j = if j ∈ ids then (h j).map F else h j := by
  intro ids
  induction ids with
  | nil => intro h _; exact ⟨h, rfl, fun j => by simp⟩
  | cons a as ih =>
    intro h hn
    obtain ⟨g, hg⟩ := Option.ne_none_iff_exists'.mp (hn a List.mem_cons_self)
    obtain ⟨h', hr, hj⟩ := ih (h := update h a (some (F g))) (fun id hid => by
      by_cases e : id = a
      · subst e; simp
      · rw [Function.update_of_ne e]; exact hn id (List.mem_cons_of_mem _ hid))
    refine ⟨h', by simp only [forEach, hg, Option.bind_eq_bind, Option.bind_some, hr], fun j => ?_⟩
    rw [hj]
    by_cases hja : j = a
    · subst hja; simp [hg, hF]
    · simp [hja]

/-! ## Clipping by value -/

/-- With a limit `v ≥ 0`, every entry of every gradient ends in `[-v, v]`, entries already there are kept, entries
beyond are moved to the nearest bound, and the other gradients are untouched; repeated parameters do no harm. -/
theorem clipValue_spec {v : ℝ} (hv : 0 ≤ v) (ids : List Nat) (h : Heap) (hn : ∀ id ∈ ids, h id ≠ none) :
    ∃ h', clipValue v ids h = some h' ∧ (∀ j ∉ ids, h' j = h j) ∧
      ∀ j ∈ ids, ∀ g, h j = some g → ∃ g', h' j = some g' ∧ g'.rows = g.rows ∧ g'.cols = g.cols ∧
        g'.data.length = g.data.length ∧ ∀ (i : Nat) (x : ℝ), g.data[i]? = some x → ∃ y, g'.data[i]? = some y ∧
          |y| ≤ v ∧ (|x| ≤ v → y = x) ∧ (v < x → y = v) ∧ (x < -v → y = -v) := by
  set F : Dense ℝ → Dense ℝ := fun g => g.map fun x => if x < -v then -v else if v < x then v else x with hF
  have hclip : ∀ g : Dense ℝ, g.clip (-v) v = some (F g) := fun g => by
    simp only [clip, if_neg (show ¬ v < -v by linarith), hF]
  have hidem : ∀ g, F (F g) = F g := fun g => by
    simp only [hF, Dense.map, List.map_map, Dense.mk.injEq, true_and]
    refine List.map_congr_left fun x _ => ?_
    simp only [Function.comp]
    split_ifs <;> first | rfl | linarith
  obtain ⟨h', hr, hj⟩ := forEach_idem F hidem hn
  refine ⟨h', by simp only [clipValue, hclip]; exact hr, fun j hj' => by rw [hj, if_neg hj'], fun j hj' g hg =>
    ⟨F g, by rw [hj, if_pos hj', hg]; rfl, rfl, rfl, by simp [hF, Dense.map], fun i x hx => ?_⟩⟩
  refine ⟨if x < -v then -v else if v < x then v else x, by simp [hF, Dense.map, hx], ?_, ?_, ?_, ?_⟩
  · rw [abs_le]; split_ifs <;> constructor <;> linarith
  · intro hx; rw [abs_le] at hx; rw [if_neg (by linarith), if_neg (by linarith)]
  · intro hx; rw [if_neg (by linarith), if_pos hx]
  · intro hx; rw [if_pos hx]

/-- Violation: a parameter without gradient makes the clipping panic. -/
theorem clipValue_panics (v : ℝ) (ids : List Nat) (h : Heap) (id : Nat) (hm : id ∈ ids) (hn : h id = none) :
    clipValue v ids h = none := forEach_none hm hn

/-! ## Clipping by norm -/

theorem powSum_spec (p : ℝ) (h : Heap) : ∀ (ids : List Nat) (s : ℝ), (∀ id ∈ ids, h id ≠ none) →
    powSum p h ids s = some (s + ((entries ids h).map fun x => |x| ^ p).sum) := by
  intro ids
  induction ids with
  | nil => intro s _; simp [powSum, entries]
  | cons a as ih =>
    intro s hn
    obtain ⟨g, hg⟩ := Option.ne_none_iff_exists'.mp (hn a List.mem_cons_self)
    have hs : ((g.map fun x => |x|).map (· ^ p)).sum = (g.data.map fun x => |x| ^ p).sum := by
      simp only [Dense.sum, Dense.map, List.map_map, List.sum_eq_foldl]
      rfl
    simp only [powSum, hg, Option.bind_eq_bind, Option.bind_some, hs]
    rw [ih _ fun id hid => hn id (List.mem_cons_of_mem _ hid)]
    simp only [entries, List.flatMap_cons, hg, Option.map_some, Option.getD_some, List.map_append, List.sum_append,
      add_assoc]

theorem powSum_none (p : ℝ) (h : Heap) : ∀ (ids : List Nat) (s : ℝ) (id : Nat), id ∈ ids → h id = none →
    powSum p h ids s = none := by
  intro ids
  induction ids with
  | nil => intro s id hm; simp at hm
  | cons a as ih =>
    intro s id hm hn
    cases hg : h a with
    | none => simp [powSum, hg]
    | some g =>
      have hm' : id ∈ as := by
        rcases List.mem_cons.mp hm with rfl | h'
        · rw [hn] at hg; exact absurd hg (by simp)
        · exact h'
      simp only [powSum, hg, Option.bind_eq_bind, Option.bind_some]
      exact ih _ id hm' hn

/-- The largest absolute value of a nonempty list, as `Abs().Max()` finds it. -/
theorem max_abs (g : Dense ℝ) (hg : g.data ≠ []) : ∃ m, (g.map fun x => |x|).max = some m ∧
    (∀ x ∈ g.data, |x| ≤ m) ∧ ∃ x ∈ g.data, |x| = m := by
  obtain ⟨r, c, d⟩ := g
  cases d with
  | nil => exact absurd rfl hg
  | cons a as =>
    have key : ∀ (l : List ℝ) (a : ℝ), a ≤ l.foldl (fun m v => if m < v then v else m) a ∧
        (∀ x ∈ l, x ≤ l.foldl (fun m v => if m < v then v else m) a) ∧
        (l.foldl (fun m v => if m < v then v else m) a = a ∨ l.foldl (fun m v => if m < v then v else m) a ∈ l) := by
      intro l
      induction l with
      | nil => intro a; simp
      | cons b bs ih =>
        intro a
        simp only [List.foldl_cons]
        obtain ⟨h1, h2, h3⟩ := ih (if a < b then b else a)
        have hab : a ≤ (if a < b then b else a) ∧ b ≤ (if a < b then b else a) := by split_ifs <;> constructor <;> linarith
        refine ⟨hab.1.trans h1, ?_, ?_⟩
        · intro x hx
          rcases List.mem_cons.mp hx with rfl | hx
          · exact hab.2.trans h1
          · exact h2 x hx
        · rcases h3 with h3 | h3
          · rw [h3]
            split_ifs
            · exact Or.inr List.mem_cons_self
            · exact Or.inl rfl
          · exact Or.inr (List.mem_cons_of_mem _ h3)
    obtain ⟨h1, h2, h3⟩ := key (as.map fun x => |x|) |a|
    refine ⟨_, by simp only [Dense.max, Dense.map, List.map_cons]; rfl, ?_, ?_⟩
    · intro x hx
      rcases List.mem_cons.mp hx with rfl | hx
      · exact h1
      · exact h2 _ (List.mem_map_of_mem hx)
    · rcases h3 with h3 | h3
      · exact ⟨a, List.mem_cons_self, h3.symm⟩
      · obtain ⟨x, hx, he⟩ := List.mem_map.mp h3
        exact ⟨x, List.mem_cons_of_mem _ hx, he⟩

theorem maxLoop_spec (h : Heap) : ∀ (ids : List Nat) (s : ℝ), 0 ≤ s →
    (∀ id ∈ ids, ∃ g, h id = some g ∧ g.data ≠ []) →
    ∃ n, maxLoop h ids s = some n ∧ s ≤ n ∧ (∀ x ∈ entries ids h, |x| ≤ n) ∧
      (n = s ∨ ∃ x ∈ entries ids h, |x| = n) := by
  intro ids
  induction ids with
  | nil => intro s hs _; exact ⟨s, rfl, le_rfl, by simp [entries], Or.inl rfl⟩
  | cons a as ih =>
    intro s hs hn
    obtain ⟨g, hg, hne⟩ := hn a List.mem_cons_self
    obtain ⟨m, hm, h1, h2⟩ := max_abs g hne
    obtain ⟨n, hr, h3, h4, h5⟩ := ih (Max.max m s) (le_trans hs (le_max_right _ _))
      fun id hid => hn id (List.mem_cons_of_mem _ hid)
    have he : entries (a :: as) h = g.data ++ entries as h := by
      simp [entries, hg]
    refine ⟨n, by simp only [maxLoop, hg, hm, Option.bind_eq_bind, Option.bind_some, hr],
      (le_max_right _ _).trans h3, ?_, ?_⟩
    · intro x hx
      rw [he] at hx
      rcases List.mem_append.mp hx with hx | hx
      · exact (h1 x hx).trans ((le_max_left _ _).trans h3)
      · exact h4 x hx
    · rw [he]
      rcases h5 with h5 | ⟨x, hx, h5⟩
      · rcases max_choice m s with hc | hc
        · obtain ⟨x, hx, h2⟩ := h2
          exact Or.inr ⟨x, List.mem_append_left _ hx, by rw [h5, hc, h2]⟩
        · exact Or.inl (by rw [h5, hc])
      · exact Or.inr ⟨x, List.mem_append_right _ hx, h5⟩

theorem maxLoop_none (h : Heap) : ∀ (ids : List Nat) (s : ℝ) (id : Nat), id ∈ ids → h id = none →
    maxLoop h ids s = none := by
  intro ids
  induction ids with
  | nil => intro s id hm; simp at hm
  | cons a as ih =>
    intro s id hm hn
    cases hg : h a with
    | none => simp [maxLoop, hg]
    | some g =>
      have hm' : id ∈ as := by
        rcases List.mem_cons.mp hm with rfl | h'
        · rw [hn] at hg; exact absurd hg (by simp)
        · exact h'
      simp only [maxLoop, hg, Option.bind_eq_bind, Option.bind_some]
      cases (g.map fun x => |x|).max with
      | none => rfl
      | some m => exact ih _ id hm' hn

/-- The total norm is the norm of all entries together. -/
theorem totalNorm_spec (t : NormType) (h : Heap) (ids : List Nat) (hn : ∀ id ∈ ids, ∃ g, h id = some g ∧ g.data ≠ []) :
    ∃ n, totalNorm t h ids = some n ∧ IsNorm t n (entries ids h) := by
  cases t with
  | fin p =>
    refine ⟨pNorm p (entries ids h), ?_, rfl⟩
    simp only [totalNorm]
    rw [powSum_spec p h ids 0 fun id hid => by obtain ⟨g, hg, _⟩ := hn id hid; rw [hg]; simp]
    simp [pNorm]
  | inf =>
    obtain ⟨n, hr, h1, h2, h3⟩ := maxLoop_spec h ids 0 le_rfl hn
    exact ⟨n, hr, h1, h2, h3⟩

theorem isNorm_nonneg {t : NormType} {n : ℝ} {xs : List ℝ} (h : IsNorm t n xs) : 0 ≤ n := by
  cases t with
  | inf => exact h.1
  | fin p =>
    rw [show n = pNorm p xs from h]
    exact Real.rpow_nonneg (List.sum_nonneg fun y hy => by
      obtain ⟨x, _, rfl⟩ := List.mem_map.mp hy
      exact Real.rpow_nonneg (abs_nonneg x) p) _

/-- Norms are homogeneous. -/
theorem isNorm_scale {t : NormType} (ht : validNormType t) {n a : ℝ} {xs : List ℝ} (ha : 0 ≤ a) (h : IsNorm t n xs) :
    IsNorm t (a * n) (xs.map (· * a)) := by
  cases t with
  | inf =>
    obtain ⟨h1, h2, h3⟩ := h
    refine ⟨mul_nonneg ha h1, ?_, ?_⟩
    · intro y hy
      obtain ⟨x, hx, rfl⟩ := List.mem_map.mp hy
      rw [abs_mul, abs_of_nonneg ha, mul_comm]
      exact mul_le_mul_of_nonneg_left (h2 x hx) ha
    · rcases h3 with h3 | ⟨x, hx, h3⟩
      · left; rw [h3, mul_zero]
      · right; exact ⟨x * a, List.mem_map_of_mem hx, by rw [abs_mul, abs_of_nonneg ha, h3, mul_comm]⟩
  | fin p =>
    have hp : 0 < p := by have : ¬ p ≤ 1 := ht; linarith
    have h' : n = pNorm p xs := h
    change a * n = pNorm p (xs.map (· * a))
    have hs : 0 ≤ (xs.map fun x => |x| ^ p).sum := List.sum_nonneg fun y hy => by
      obtain ⟨x, _, rfl⟩ := List.mem_map.mp hy
      exact Real.rpow_nonneg (abs_nonneg x) p
    have hm : ((xs.map (· * a)).map fun x => |x| ^ p).sum = a ^ p * (xs.map fun x => |x| ^ p).sum := by
      rw [List.map_map, ← List.sum_map_mul_left]
      congr 1
      refine List.map_congr_left fun x _ => ?_
      simp only [Function.comp]
      rw [abs_mul, abs_of_nonneg ha, Real.mul_rpow (abs_nonneg x) ha, mul_comm]
    rw [h', pNorm, pNorm, hm, Real.mul_rpow (Real.rpow_nonneg ha p) hs, ← Real.rpow_mul ha,
      mul_one_div_cancel hp.ne', Real.rpow_one]

theorem entries_scaled {a : ℝ} {ids : List Nat} {h h' : Heap} (hs : ScaledBy a ids h h') :
    entries ids h' = (entries ids h).map (· * a) := by
  have : ∀ l : List Nat, (∀ id ∈ l, id ∈ ids) → entries l h' = (entries l h).map (· * a) := by
    intro l
    induction l with
    | nil => intro _; rfl
    | cons b bs ih =>
      intro hl
      simp only [entries, List.flatMap_cons, List.map_append]
      congr 1
      · rw [hs b, if_pos (hl b List.mem_cons_self)]
        cases h b <;> simp
      · exact ih fun id hid => hl id (List.mem_cons_of_mem _ hid)
  exact this ids fun _ h => h

/-- Norm clipping, for distinct parameters which all have a (nonempty) gradient: if the total norm plus `1e-7` is at
most the limit nothing changes; otherwise all gradients are multiplied by one factor in `(0, 1)`, and the total norm is
then below the limit. -/
theorem clipNorm_spec {maxNorm : ℝ} (hmax : 0 < maxNorm) {t : NormType} (ht : validNormType t) {ids : List Nat}
    (hd : ids.Nodup) {h : Heap} (hn : ∀ id ∈ ids, ∃ g, h id = some g ∧ g.data ≠ []) :
    ∃ n h', IsNorm t n (entries ids h) ∧ clipNorm maxNorm t ids h = some h' ∧
      (n + 1e-7 ≤ maxNorm → h' = h) ∧
      (maxNorm < n + 1e-7 → ∃ a, 0 < a ∧ a < 1 ∧ ScaledBy a ids h h' ∧ IsNorm t (a * n) (entries ids h') ∧
        a * n < maxNorm) := by
  obtain ⟨n, hr, hN⟩ := totalNorm_spec t h ids hn
  have hn0 := isNorm_nonneg hN
  have hpos : 0 < n + 1e-7 := by have : (0:ℝ) < 1e-7 := by norm_num
                                 linarith
  by_cases hc : maxNorm / (n + 1e-7) < 1
  · obtain ⟨h', hf, hj⟩ := forEach_nodup (h := h) (fun g => g.map (· * (maxNorm / (n + 1e-7)))) hd
      (fun id hid => by obtain ⟨g, hg, _⟩ := hn id hid; rw [hg]; simp)
    have hsc : ScaledBy (maxNorm / (n + 1e-7)) ids h h' := hj
    have ha : 0 < maxNorm / (n + 1e-7) := div_pos hmax hpos
    refine ⟨n, h', hN, ?_, ?_, ?_⟩
    · simp only [clipNorm, if_pos ht, hr, Option.bind_eq_bind, Option.bind_some, if_pos hc, hf]
    · intro hle
      rw [div_lt_one hpos] at hc
      linarith
    · intro _
      refine ⟨_, ha, hc, hsc, ?_, ?_⟩
      · rw [entries_scaled hsc]; exact isNorm_scale ht ha.le hN
      · rw [div_mul_eq_mul_div, div_lt_iff₀ hpos]
        have : (0:ℝ) < 1e-7 := by norm_num
        nlinarith
  · refine ⟨n, h, hN, ?_, fun _ => rfl, ?_⟩
    · simp only [clipNorm, if_pos ht, hr, Option.bind_eq_bind, Option.bind_some, if_neg hc]
    · intro hlt
      exact absurd ((div_lt_one hpos).mpr hlt) hc

/-- Violation: a parameter without gradient makes the clipping panic. -/
theorem clipNorm_panics (maxNorm : ℝ) (t : NormType) (ids : List Nat) (h : Heap) (id : Nat) (hm : id ∈ ids)
    (hn : h id = none) : clipNorm maxNorm t ids h = none := by
  have : totalNorm t h ids = none := by
    cases t with
    | inf => exact maxLoop_none h ids 0 id hm hn
    | fin p => simp [totalNorm, powSum_none p h ids 0 id hm hn]
  simp only [clipNorm, this]
  split_ifs <;> rfl

/-- A norm type of at most 1 panics. -/
theorem clipNorm_invalid (maxNorm p : ℝ) (hp : p ≤ 1) (ids : List Nat) (h : Heap) :
    clipNorm maxNorm (.fin p) ids h = none := by
  simp only [clipNorm, validNormType, hp, not_true_eq_false, if_false]

/-- Violation: within `1e-7` below the limit nonzero gradients are changed although their norm does not exceed it. -/
theorem clipNorm_window {maxNorm : ℝ} (hmax : 0 < maxNorm) {t : NormType} (ht : validNormType t) {ids : List Nat}
    (hd : ids.Nodup) {h : Heap} (hn : ∀ id ∈ ids, ∃ g, h id = some g ∧ g.data ≠ [])
    (hN : ∀ n, IsNorm t n (entries ids h) → n ≤ maxNorm ∧ maxNorm < n + 1e-7)
    (hx : ∃ x ∈ entries ids h, x ≠ 0) : ∃ h', clipNorm maxNorm t ids h = some h' ∧ h' ≠ h := by
  obtain ⟨n, h', h1, h2, -, h3⟩ := clipNorm_spec hmax ht hd hn
  obtain ⟨a, ha0, ha1, hs, -⟩ := h3 (hN n h1).2
  refine ⟨h', h2, fun he => ?_⟩
  have hen := entries_scaled hs
  rw [he] at hen
  obtain ⟨x, hx, hx0⟩ := hx
  obtain ⟨i, hi, hxi⟩ := List.getElem_of_mem hx
  have h4 : (entries ids h)[i]? = ((entries ids h).map (· * a))[i]? := by rw [← hen]
  rw [List.getElem?_map, List.getElem?_eq_getElem hi, hxi] at h4
  simp only [Option.map_some, Option.some.injEq] at h4
  have : x * (1 - a) = 0 := by linarith
  rcases mul_eq_zero.mp this with h5 | h5
  · exact hx0 h5
  · linarith

/-- A loop of scalings multiplies the gradient of a parameter once for each time the parameter occurs. -/
theorem forEach_scale (a : ℝ) : ∀ {ids : List Nat} {h : Heap}, (∀ id ∈ ids, h id ≠ none) →
    ∃ h', forEach (fun g => some (g.map (· * a))) ids h = some h' ∧
      ∀ j, h' j = (h j).map fun g => ⟨g.rows, g.cols, g.data.map (· * a ^ ids.count j)⟩ := by
  intro ids
  induction ids with
  | nil =>
    intro h _
    refine ⟨h, rfl, fun j => ?_⟩
    cases h j <;> simp
  | cons b bs ih =>
    intro h hn
    obtain ⟨g, hg⟩ := Option.ne_none_iff_exists'.mp (hn b List.mem_cons_self)
    obtain ⟨h', hr, hj⟩ := ih (h := update h b (some (g.map (· * a)))) (fun id hid => by
      by_cases e : id = b
      · subst e; simp
      · rw [Function.update_of_ne e]; exact hn id (List.mem_cons_of_mem _ hid))
    refine ⟨h', by simp only [forEach, hg, Option.bind_eq_bind, Option.bind_some, hr], fun j => ?_⟩
    rw [hj]
    by_cases hjb : j = b
    · subst hjb
      simp only [Function.update_self, hg, Option.map_some, Option.some.injEq, Dense.map, List.map_map,
        List.count_cons_self, Dense.mk.injEq, true_and]
      refine List.map_congr_left fun x _ => ?_
      simp only [Function.comp]
      ring
    · rw [Function.update_of_ne hjb, List.count_cons_of_ne (Ne.symm hjb)]

/-- Violation: when a parameter is delivered more than once (shared weights), its gradient is scaled once per
occurrence, not by the common factor. -/
theorem clipNorm_shared {maxNorm : ℝ} (hmax : 0 < maxNorm) {t : NormType} (ht : validNormType t) {ids : List Nat}
    {h : Heap} (hn : ∀ id ∈ ids, ∃ g, h id = some g ∧ g.data ≠ []) {n : ℝ} (hN : totalNorm t h ids = some n)
    (hlt : maxNorm < n + 1e-7) :
    ∃ a h', 0 < a ∧ a < 1 ∧ clipNorm maxNorm t ids h = some h' ∧
      ∀ j, h' j = (h j).map fun g => ⟨g.rows, g.cols, g.data.map (· * a ^ ids.count j)⟩ := by
  have hpos : 0 < n + 1e-7 := hmax.trans hlt
  have hc : maxNorm / (n + 1e-7) < 1 := (div_lt_one hpos).mpr hlt
  obtain ⟨h', hr, hj⟩ := forEach_scale (maxNorm / (n + 1e-7)) (ids := ids) (h := h)
    (fun id hid => by obtain ⟨g, hg, _⟩ := hn id hid; rw [hg]; simp)
  exact ⟨_, h', div_pos hmax hpos, hc,
    by simp only [clipNorm, if_pos ht, hN, Option.bind_eq_bind, Option.bind_some, if_pos hc, hr], hj⟩

/-! ## Examples -/

/-- Two parameters with gradients `[3, 0]` and `[-4]`. -/
def exHeap : Heap := fun j => if j = 0 then some ⟨1, 2, [3, 0]⟩ else if j = 1 then some ⟨1, 1, [-4]⟩ else none

/-- The hypotheses of `clipNorm_spec` hold for it, its Euclidean norm is 5 and its maximum norm is 4. -/
example : [0, 1].Nodup ∧ (∀ id ∈ [0, 1], ∃ g, exHeap id = some g ∧ g.data ≠ []) ∧ validNormType (.fin 2) ∧
    IsNorm (.fin 2) 5 (entries [0, 1] exHeap) ∧ IsNorm .inf 4 (entries [0, 1] exHeap) := by
  refine ⟨by decide, ?_, ?_, ?_, ?_⟩
  · intro id hid
    simp only [List.mem_cons, List.not_mem_nil, or_false] at hid
    rcases hid with rfl | rfl
    · exact ⟨_, rfl, by simp⟩
    · exact ⟨_, rfl, by simp⟩
  · simp [validNormType]
  · have h25 : (3:ℝ) ^ (2:ℝ) + (0 + 4 ^ (2:ℝ)) = 5 ^ (2:ℝ) := by norm_num
    simp only [IsNorm, pNorm, entries, exHeap, List.flatMap_cons, List.flatMap_nil, if_true, Option.map_some,
      Option.getD_some, one_ne_zero, if_false, List.append_nil, List.cons_append, List.nil_append, List.map_cons,
      List.map_nil, List.sum_cons, List.sum_nil, abs_neg, abs_zero, add_zero]
    rw [abs_of_pos (by norm_num : (0:ℝ) < 3), abs_of_pos (by norm_num : (0:ℝ) < 4),
      Real.zero_rpow (by norm_num : (2:ℝ) ≠ 0), h25, ← Real.rpow_mul (by norm_num)]
    norm_num
  · simp only [IsNorm, IsSupNorm, entries, exHeap]
    refine ⟨by norm_num, ?_, Or.inr ⟨-4, by simp, by norm_num⟩⟩
    intro x hx
    simp at hx
    rcases hx with rfl | rfl | rfl <;> norm_num

end Verif.Clip
