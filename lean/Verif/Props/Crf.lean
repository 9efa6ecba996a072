import Verif.Model.Crf
import Verif.Spec.Crf
import Verif.Lemmas.Loop
import Verif.Props.DenseMul
import Verif.Props.VecFn

set_option autoImplicit false
set_option linter.unusedSimpArgs false

/-!
# C32, C33: the CRF loss and Viterbi decoding
-/

namespace Verif.Crf
open Dense Loop CrfSpec

section shape
variable {R : Type} [AddCommMonoid R]

/-- The matrices have the shapes that `crf.New` and its callers use: transitions
`(size+1) × (size+1)`, every emission a column of `size` scores. -/
structure Shaped (n : Nat) (tr : Dense R) (xs : List (Dense R)) : Prop where
  wf : tr.WF
  rows : tr.rows = n + 1
  cols : tr.cols = n + 1
  ems : ∀ x ∈ xs, x.WF ∧ x.rows = n ∧ x.cols = 1

/-- The transition scores of a matrix. -/
def trans (tr : Dense R) (i j : Nat) : R := (tr.at2 i j).getD 0

/-- The emission scores of a column. -/
def emis (x : Dense R) (i : Nat) : R := (x.at2 i 0).getD 0

theorem Shaped.at_tr {n : Nat} {tr : Dense R} {xs : List (Dense R)} (h : Shaped n tr xs) {i j : Nat}
    (hi : i ≤ n) (hj : j ≤ n) : tr.at2 i j = some (trans tr i j) := by
  have := (at2_isSome h.wf i j).mpr ⟨by rw [h.rows]; omega, by rw [h.cols]; omega⟩
  obtain ⟨v, hv⟩ := Option.isSome_iff_exists.mp this
  rw [trans, hv]; rfl

theorem Shaped.at_x {n : Nat} {tr : Dense R} {xs : List (Dense R)} (h : Shaped n tr xs) {x : Dense R}
    (hx : x ∈ xs) {i : Nat} (hi : i < n) : x.at2 i 0 = some (emis x i) := by
  obtain ⟨h1, h2, h3⟩ := h.ems x hx
  have := (at2_isSome h1 i 0).mpr ⟨by omega, by omega⟩
  obtain ⟨v, hv⟩ := Option.isSome_iff_exists.mp this
  have hv' : x.at2 i 0 = some v := hv
  rw [emis, hv']; rfl

theorem Shaped.at1_x {n : Nat} {tr : Dense R} {xs : List (Dense R)} (h : Shaped n tr xs) {x : Dense R}
    (hx : x ∈ xs) {i : Nat} (hi : i < n) : x.at1 i = some (emis x i) := by
  obtain ⟨h1, h2, h3⟩ := h.ems x hx
  rw [← h.at_x hx hi]
  have hl : x.data.length = n := by rw [h1, h2, h3, Nat.mul_one]
  have e : x.at2 i 0 = _ := at2_nat x i 0
  unfold at1
  rw [if_neg (by omega), if_neg (by omega), e, if_pos (by omega), h3]
  simp

theorem Shaped.tail {n : Nat} {tr x : Dense R} {xs : List (Dense R)} (h : Shaped n tr (x :: xs)) :
    Shaped n tr xs :=
  ⟨h.wf, h.rows, h.cols, fun y hy => h.ems y (by simp [hy])⟩

/-- the score of the rest of a path that is in state `prev` -/
def pathScore (tr : Nat → Nat → R) : Nat → List (Nat → R) → List Nat → R
  | prev, e :: es, y :: ys => tr prev (y + 1) + e y + pathScore tr (y + 1) es ys
  | prev, _, _ => tr prev 0

theorem pathScore_eq (tr : Nat → Nat → R) (es : List (Nat → R)) (ys : List Nat) (prev : Nat)
    (h : es.length = ys.length) :
    pathScore tr prev es ys =
      (((prev :: (ys.map (· + 1) ++ [0])).zip (ys.map (· + 1) ++ [0])).map fun p => tr p.1 p.2).sum +
      (List.zipWith (fun e y => e y) es ys).sum := by
  induction es generalizing ys prev with
  | nil =>
    have : ys = [] := List.eq_nil_of_length_eq_zero (by simpa using h.symm)
    subst this
    simp [pathScore]
  | cons e es ih =>
    cases ys with
    | nil => simp at h
    | cons y ys =>
      simp only [pathScore, ih ys (y + 1) (by simpa using h), List.map_cons, List.cons_append,
        List.zip_cons_cons, List.sum_cons, List.zipWith_cons_cons]
      abel

theorem score_eq (tr : Nat → Nat → R) (es : List (Nat → R)) (ys : List Nat)
    (h : es.length = ys.length) : score tr es ys = pathScore tr 0 es ys := by
  rw [pathScore_eq tr es ys 0 h]; rfl

theorem goldLoop_eq {n : Nat} {tr : Dense R} {xs : List (Dense R)} (h : Shaped n tr xs)
    (ys : List Nat) (hl : xs.length = ys.length) (hy : ∀ y ∈ ys, y < n) (prev : Nat) (hp : prev ≤ n)
    (s : R) : ∃ r, goldLoop tr xs ys prev s = some r ∧ r.1 ≤ n ∧
      r.2 + trans tr r.1 0 = s + pathScore (trans tr) prev (xs.map emis) ys := by
  induction xs generalizing ys prev s with
  | nil =>
    have : ys = [] := List.eq_nil_of_length_eq_zero (by simpa using hl.symm)
    subst this
    exact ⟨(prev, s), rfl, hp, rfl⟩
  | cons x xs ih =>
    cases ys with
    | nil => simp at hl
    | cons y ys =>
      have hyn := hy y (by simp)
      obtain ⟨r, h1, h2, h3⟩ := ih h.tail ys (by simpa using hl) (fun z hz => hy z (by simp [hz]))
        (y + 1) (by omega) (s + emis x y + trans tr prev (y + 1))
      refine ⟨r, ?_, h2, ?_⟩
      · simp only [goldLoop, h.at1_x (by simp : x ∈ x :: xs) hyn, h.at_tr hp (by omega : y + 1 ≤ n),
          Option.bind_eq_bind, Option.bind_some, h1]
      · rw [h3]
        simp only [List.map_cons, pathScore]
        abel

/-- **C32.** The gold score is the score of the given label sequence. -/
theorem goldScore_spec {n : Nat} {tr : Dense R} {xs : List (Dense R)} (h : Shaped n tr xs)
    (hne : xs ≠ []) {ys : List Nat} (hy : ys ∈ labelings n xs.length) :
    goldScore tr xs ys = some (score (trans tr) (xs.map emis) ys) := by
  obtain ⟨hl, hb⟩ := mem_labelings.mp hy
  cases xs with
  | nil => exact absurd rfl hne
  | cons x xs =>
    cases ys with
    | nil => simp at hl
    | cons y ys =>
      have hyn := hb y (by simp)
      obtain ⟨r, h1, h2, h3⟩ := goldLoop_eq h.tail ys (by simpa using hl.symm)
        (fun z hz => hb z (by simp [hz])) (y + 1) (by omega) (emis x y + trans tr 0 (y + 1))
      have e1 : tr.at2 0 (y + 1 : Nat) = _ := h.at_tr (Nat.zero_le n) (by omega : y + 1 ≤ n)
      have e2 : tr.at2 r.1 0 = _ := h.at_tr h2 (Nat.zero_le n)
      simp only [goldScore, h.at_x (by simp : x ∈ x :: xs) hyn, e1, e2, h1, Option.bind_eq_bind, Option.bind_some,
        h3]
      rw [score_eq _ _ _ (by simpa using hl.symm)]
      simp only [List.map_cons, pathScore, Option.some.injEq]
      abel

end shape

section total

theorem foldl_addNil (f : Nat → ℝ) (l : List Nat) (a : ℝ) :
    l.foldl (fun v i => some (addNil v (f i))) (some a) = some (a + (l.map f).sum) := by
  induction l generalizing a with
  | nil => simp
  | cons x xs ih =>
    rw [List.foldl_cons]
    show xs.foldl _ (some (a + f x)) = _
    rw [ih, List.map_cons, List.sum_cons, add_assoc]

theorem separateVec_eq {n : Nat} {tr : Dense ℝ} {xs : List (Dense ℝ)} (h : Shaped n tr xs)
    {x : Dense ℝ} (hx : x ∈ xs) : separateVec x = some ((List.range n).map (emis x)) := by
  obtain ⟨h1, h2, h3⟩ := h.ems x hx
  have hl : x.data.length = n := by rw [h1, h2, h3, Nat.mul_one]
  unfold separateVec
  rw [hl]
  exact mapM_some fun i hi => h.at1_x hx (List.mem_range.mp hi)

theorem mapIdx_replicate {α β : Type} (n : Nat) (a : α) (u : Nat → α → β) :
    (List.replicate n a).mapIdx u = (List.range n).map fun j => u j a := by
  apply List.ext_getElem?
  intro j
  by_cases hj : j < n
  · simp [hj]
  · simp [hj]

theorem totalScoreStep_eq {n : Nat} {tr : Dense ℝ} {xs : List (Dense ℝ)} (h : Shaped n tr xs)
    {x : Dense ℝ} (hx : x ∈ xs) (tot : Nat → ℝ) :
    totalScoreStep Real.exp Real.log n tr ((List.range n).map tot) ((List.range n).map (emis x)) =
      some ((List.range n).map fun j => Real.log ((List.range n).map fun i =>
        Real.exp (tot i + emis x j + trans tr (i + 1) (j + 1))).sum) := by
  have hget : ∀ (f : Nat → ℝ) (i : Nat), i < n → ((List.range n).map f)[i]? = some (f i) := by
    intro f i hi
    simp [hi]
  unfold totalScoreStep
  obtain ⟨h1, -⟩ := foldlM_some (P := fun s : List (Option ℝ) => s.length = n) (l := List.range n)
    (f := fun (scores : List (Option ℝ)) (i : Nat) => do
      let nodei ← ((List.range n).map tot)[i]?
      forUpd (fun j s => do
        let e ← ((List.range n).map (emis x))[j]?
        let t ← tr.at2 (i + 1 : Nat) (j + 1 : Nat)
        some (some (addNil s (Real.exp (nodei + e + t))))) (List.range n) scores)
    (g := fun s i => s.mapIdx fun j v =>
      some (addNil v (Real.exp (tot i + emis x j + trans tr (i + 1) (j + 1)))))
    (b := List.replicate n none) (by
      intro s hs i hi
      have hi := List.mem_range.mp hi
      refine ⟨?_, by simpa using hs⟩
      rw [hget tot i hi]
      simp only [Option.bind_eq_bind, Option.bind_some]
      apply forUpd_range hs
      intro j hj v
      rw [hget _ j hj, h.at_tr (by omega) (by omega)]
      rfl) (by simp)
  rw [h1, foldl_mapIdx (fun i j v =>
    some (addNil v (Real.exp (tot i + emis x j + trans tr (i + 1) (j + 1))))), mapIdx_replicate]
  simp only [Option.bind_eq_bind, Option.bind_some]
  have hsome : ∀ j, 0 < n → (List.range n).foldl (fun v i =>
      some (addNil v (Real.exp (tot i + emis x j + trans tr (i + 1) (j + 1))))) none =
      some ((List.range n).map fun i => Real.exp (tot i + emis x j + trans tr (i + 1) (j + 1))).sum := by
    intro j hn
    obtain ⟨m, rfl⟩ : ∃ m, n = m + 1 := ⟨n - 1, by omega⟩
    rw [List.range_succ_eq_map, List.foldl_cons, List.map_cons, List.sum_cons]
    exact foldl_addNil (fun i => Real.exp (tot i + emis x j + trans tr (i + 1) (j + 1))) _ _
  rcases Nat.eq_zero_or_pos n with rfl | hn
  · rfl
  · have : (List.range n).map (fun j => (List.range n).foldl (fun v i =>
        some (addNil v (Real.exp (tot i + emis x j + trans tr (i + 1) (j + 1))))) none) =
        (List.range n).map fun j => some ((List.range n).map fun i =>
          Real.exp (tot i + emis x j + trans tr (i + 1) (j + 1))).sum :=
      List.map_congr_left fun j _ => hsome j hn
    rw [this, List.mapM_map]
    exact mapM_some fun j _ => rfl

/-- sum of `exp(pathScore)` over all continuations -/
noncomputable def Z (n : Nat) (tr : Nat → Nat → ℝ) (prev : Nat) (es : List (Nat → ℝ)) : ℝ :=
  ((labelings n es.length).map fun ys => Real.exp (pathScore tr prev es ys)).sum

theorem sum_flatMap {α : Type} (l : List α) (f : α → List ℝ) :
    (l.flatMap f).sum = (l.map fun a => (f a).sum).sum := by
  induction l with
  | nil => rfl
  | cons a l ih => simp [List.flatMap_cons, ih]

theorem Z_cons (n : Nat) (tr : Nat → Nat → ℝ) (prev : Nat) (e : Nat → ℝ) (es : List (Nat → ℝ)) :
    Z n tr prev (e :: es) =
      ((List.range n).map fun y => Real.exp (tr prev (y + 1) + e y) * Z n tr (y + 1) es).sum := by
  unfold Z
  simp only [List.length_cons, labelings]
  rw [List.map_flatMap, sum_flatMap]
  congr 1
  apply List.map_congr_left
  intro y _
  rw [← List.sum_map_mul_left, List.map_map]
  congr 1
  apply List.map_congr_left
  intro ys _
  simp only [Function.comp_apply, pathScore]
  rw [Real.exp_add]

theorem sum_comm_list (l m : List Nat) (f : Nat → Nat → ℝ) :
    (l.map fun i => (m.map fun j => f i j).sum).sum = (m.map fun j => (l.map fun i => f i j).sum).sum := by
  induction l with
  | nil => simp
  | cons a l ih =>
    simp only [List.map_cons, List.sum_cons, ih]
    rw [← List.sum_map_add]

theorem exp_sum_pos {n : Nat} (hn : 0 < n) (f : Nat → ℝ) :
    0 < ((List.range n).map fun i => Real.exp (f i)).sum := by
  apply List.sum_pos
  · intro v hv
    obtain ⟨i, -, rfl⟩ := List.mem_map.mp hv
    exact Real.exp_pos _
  · simp; omega

theorem totalLoop_eq {n : Nat} (hn : 0 < n) {tr : Dense ℝ} {xs : List (Dense ℝ)} (h : Shaped n tr xs)
    (tot : Nat → ℝ) :
    ∃ tot' : Nat → ℝ, totalLoop Real.exp Real.log n tr xs ((List.range n).map tot) =
        some ((List.range n).map tot') ∧
      ((List.range n).map fun i => Real.exp (tot' i) * Real.exp (trans tr (i + 1) 0)).sum =
        ((List.range n).map fun i => Real.exp (tot i) * Z n (trans tr) (i + 1) (xs.map emis)).sum := by
  induction xs generalizing tot with
  | nil =>
    refine ⟨tot, rfl, ?_⟩
    congr 1
    apply List.map_congr_left
    intro i _
    simp [Z, labelings, pathScore]
  | cons x xs ih =>
    obtain ⟨tot', h1, h2⟩ := ih h.tail (fun j => Real.log ((List.range n).map fun i =>
        Real.exp (tot i + emis x j + trans tr (i + 1) (j + 1))).sum)
    refine ⟨tot', ?_, ?_⟩
    · simp only [totalLoop, separateVec_eq h (by simp : x ∈ x :: xs), Option.bind_eq_bind,
        Option.bind_some, totalScoreStep_eq h (by simp : x ∈ x :: xs) tot, h1]
    · rw [h2]
      have e1 : ∀ j, Real.exp (Real.log ((List.range n).map fun i =>
          Real.exp (tot i + emis x j + trans tr (i + 1) (j + 1))).sum) *
            Z n (trans tr) (j + 1) (xs.map emis) =
          ((List.range n).map fun i => Real.exp (tot i) *
            (Real.exp (trans tr (i + 1) (j + 1) + emis x j) * Z n (trans tr) (j + 1) (xs.map emis))).sum := by
        intro j
        rw [Real.exp_log (exp_sum_pos hn _), ← List.sum_map_mul_right]
        congr 1
        apply List.map_congr_left
        intro i _
        rw [← _root_.mul_assoc, ← Real.exp_add]
        congr 2
        ring
      simp only [e1]
      rw [sum_comm_list]
      congr 1
      apply List.map_congr_left
      intro i _
      rw [List.map_cons, Z_cons, List.sum_map_mul_left]

/-- **C32.** The total score is the logarithm of the sum of `exp(score)` over all label sequences. -/
theorem totalScore_spec {n : Nat} (hn : 0 < n) {tr : Dense ℝ} {xs : List (Dense ℝ)}
    (h : Shaped n tr xs) (hne : xs ≠ []) :
    totalScore Real.exp Real.log n tr xs = some (Real.log
      ((labelings n xs.length).map fun ys => Real.exp (score (trans tr) (xs.map emis) ys)).sum) := by
  have hZ : ((labelings n xs.length).map fun ys => Real.exp (score (trans tr) (xs.map emis) ys)).sum =
      Z n (trans tr) 0 (xs.map emis) := by
    unfold Z
    rw [List.length_map]
    congr 1
    apply List.map_congr_left
    intro ys hys
    rw [score_eq _ _ _ (by simpa using (mem_labelings.mp hys).1.symm)]
  rw [hZ]
  cases xs with
  | nil => exact absurd rfl hne
  | cons x xs =>
    have hs : totalScoreStart n tr x =
        some ((List.range n).map fun i => emis x i + trans tr 0 (i + 1)) := by
      apply mapM_some
      intro i hi
      have hi := List.mem_range.mp hi
      have e1 : tr.at2 0 (i + 1 : Nat) = _ := h.at_tr (Nat.zero_le n) (by omega : i + 1 ≤ n)
      rw [h.at1_x (by simp) hi, e1]
      rfl
    obtain ⟨tot', h1, h2⟩ := totalLoop_eq hn h.tail (fun i => emis x i + trans tr 0 (i + 1))
    have hend : totalScoreEnd Real.exp n tr ((List.range n).map tot') =
        some ((List.range n).map fun i => Real.exp (tot' i + trans tr (i + 1) 0)) := by
      apply mapM_some
      intro i hi
      have hi := List.mem_range.mp hi
      have e1 : tr.at2 (i + 1 : Nat) 0 = _ := h.at_tr (by omega : i + 1 ≤ n) (Nat.zero_le n)
      rw [e1]
      simp [hi, addNil]
    simp only [totalScore, hs, h1, hend, Option.bind_eq_bind, Option.bind_some, Option.some.injEq]
    congr 1
    rw [VecFn.foldl_add_eq, zero_add]
    simp only [Real.exp_add] at h2 ⊢
    rw [h2, List.map_cons, Z_cons]
    congr 1
    apply List.map_congr_left
    intro i _
    rw [Real.exp_add]
    ring

theorem labelings_exp_pos {n : Nat} (hn : 0 < n) (len : Nat) (f : List Nat → ℝ) :
    0 < ((labelings n len).map fun ys => Real.exp (f ys)).sum := by
  apply List.sum_pos
  · intro v hv
    obtain ⟨i, -, rfl⟩ := List.mem_map.mp hv
    exact Real.exp_pos _
  · have : List.replicate len 0 ∈ labelings n len :=
      mem_labelings.mpr ⟨by simp, fun y hy => by rw [List.eq_of_mem_replicate hy]; exact hn⟩
    intro hc
    rw [List.map_eq_nil_iff] at hc
    rw [hc] at this
    simp at this

/-- **C32.** The loss of a label sequence is the negative logarithm of its probability
`exp(score) / Σ exp(score)`. -/
theorem negativeLogLoss_spec {n : Nat} (hn : 0 < n) {tr : Dense ℝ} {xs : List (Dense ℝ)}
    (h : Shaped n tr xs) (hne : xs ≠ []) {ys : List Nat} (hy : ys ∈ labelings n xs.length) :
    ∃ l, negativeLogLoss Real.exp Real.log n tr xs ys = some l ∧ 0 ≤ l ∧
      Real.exp (-l) = Real.exp (score (trans tr) (xs.map emis) ys) /
        ((labelings n xs.length).map fun zs => Real.exp (score (trans tr) (xs.map emis) zs)).sum := by
  have hpos := labelings_exp_pos hn xs.length (fun ys => score (trans tr) (xs.map emis) ys)
  refine ⟨_, by simp only [negativeLogLoss, goldScore_spec h hne hy, totalScore_spec hn h hne,
    Option.bind_eq_bind, Option.bind_some]; rfl, ?_, ?_⟩
  · rw [sub_nonneg, Real.le_log_iff_exp_le hpos]
    apply List.single_le_sum
    · intro v hv
      obtain ⟨i, -, rfl⟩ := List.mem_map.mp hv
      exact le_of_lt (Real.exp_pos _)
    · exact List.mem_map.mpr ⟨ys, hy, rfl⟩
  · rw [neg_sub, Real.exp_sub, Real.exp_log hpos]

/-- **C32.** The probabilities `exp(-loss)` of all label sequences sum to 1. -/
theorem loss_normalised {n : Nat} (hn : 0 < n) {tr : Dense ℝ} {xs : List (Dense ℝ)}
    (h : Shaped n tr xs) (hne : xs ≠ []) :
    ∃ ls, (labelings n xs.length).mapM (negativeLogLoss Real.exp Real.log n tr xs) = some ls ∧
      (ls.map fun l => Real.exp (-l)).sum = 1 := by
  have hpos := labelings_exp_pos hn xs.length (fun ys => score (trans tr) (xs.map emis) ys)
  have key : ∀ L : List (List Nat), (∀ ys ∈ L, ys ∈ labelings n xs.length) →
      ∃ ls, L.mapM (negativeLogLoss Real.exp Real.log n tr xs) = some ls ∧
      (ls.map fun l => Real.exp (-l)).sum =
        (L.map fun zs => Real.exp (score (trans tr) (xs.map emis) zs)).sum /
        ((labelings n xs.length).map fun zs => Real.exp (score (trans tr) (xs.map emis) zs)).sum := by
    intro L
    induction L with
    | nil => exact fun _ => ⟨[], rfl, by simp⟩
    | cons y L ih =>
      intro hL
      obtain ⟨ls, h1, h2⟩ := ih fun ys hys => hL ys (by simp [hys])
      obtain ⟨l, h3, -, h4⟩ := negativeLogLoss_spec hn h hne (hL y (by simp))
      refine ⟨l :: ls, by rw [List.mapM_cons, h3, h1]; rfl, ?_⟩
      rw [List.map_cons, List.sum_cons, h4, h2, List.map_cons, List.sum_cons, add_div]
  obtain ⟨ls, h1, h2⟩ := key _ fun ys h => h
  exact ⟨ls, h1, by rw [h2, div_self (ne_of_gt hpos)]⟩

end total

section viterbi
variable {R : Type} [AddCommMonoid R] [LinearOrder R] [IsOrderedAddMonoid R]

/-- the state before the next label of a reversed prefix -/
def prevOf : List Nat → Nat
  | [] => 0
  | y :: _ => y + 1

/-- score of a prefix; emissions and labels latest first -/
def prefR (tr : Nat → Nat → R) : List (Nat → R) → List Nat → R
  | e :: es, y :: ys => prefR tr es ys + (tr (prevOf ys) (y + 1) + e y)
  | _, _ => 0

theorem prefR_path (tr : Nat → Nat → R) (es : List (Nat → R)) (ys : List Nat)
    (h : es.length = ys.length) (E : List (Nat → R)) (Y : List Nat) :
    prefR tr (es.reverse ++ E) (ys.reverse ++ Y) + tr (prevOf (ys.reverse ++ Y)) 0 =
      prefR tr E Y + pathScore tr (prevOf Y) es ys := by
  induction es generalizing ys E Y with
  | nil =>
    have : ys = [] := List.eq_nil_of_length_eq_zero (by simpa using h.symm)
    subst this
    rfl
  | cons e es ih =>
    cases ys with
    | nil => simp at h
    | cons y ys =>
      have := ih ys (by simpa using h) (e :: E) (y :: Y)
      simp only [List.reverse_cons, List.append_assoc, List.singleton_append]
      rw [this]
      simp only [prefR, prevOf, pathScore]
      abel

theorem foldl_relax (f : Nat → R) (l : List Nat) (e : WithBot R × Nat) :
    let r := l.foldl (fun e i => relax e (f i : WithBot R) i) e
    e.1 ≤ r.1 ∧ (∀ i ∈ l, (f i : WithBot R) ≤ r.1) ∧ (r = e ∨ ∃ i ∈ l, r = (↑(f i), i)) := by
  induction l generalizing e with
  | nil => simp
  | cons i l ih =>
    obtain ⟨h1, h2, h3⟩ := ih (relax e (f i) i)
    have hr : e.1 ≤ (relax e (f i : WithBot R) i).1 ∧ (f i : WithBot R) ≤ (relax e (f i : WithBot R) i).1 := by
      unfold relax
      split
      · rename_i h; exact ⟨le_of_lt h, le_refl _⟩
      · rename_i h; exact ⟨le_refl _, not_lt.mp h⟩
    refine ⟨le_trans hr.1 h1, ?_, ?_⟩
    · intro j hj
      rcases List.mem_cons.mp hj with rfl | hj
      · exact le_trans hr.2 h1
      · exact h2 j hj
    · rcases h3 with h3 | ⟨j, hj, h3⟩
      · simp only [List.foldl_cons]
        rw [h3]
        unfold relax
        split
        · exact Or.inr ⟨i, by simp, rfl⟩
        · exact Or.inl rfl
      · exact Or.inr ⟨j, by simp [hj], h3⟩

/-- the table holds for every label the best score of a prefix ending there, and the back-pointers
lead to such a prefix -/
def Inv (n : Nat) (tr : Nat → Nat → R) (E : List (Nat → R)) (t : Table R) (ts : List (Table R)) : Prop :=
  t.length = n ∧ ∀ j < n, ∃ (s : R) (b : Nat), t[j]? = some ((s : WithBot R), b) ∧
    (∀ Y, Y.length + 1 = E.length → (∀ y ∈ Y, y < n) → prefR tr E (j :: Y) ≤ s) ∧
    ∃ Y, Y.length + 1 = E.length ∧ (∀ y ∈ Y, y < n) ∧ prefR tr E (j :: Y) = s ∧
      ∀ acc, backtrack t ts j acc = some (Y.reverse ++ j :: acc)

theorem start_inv {n : Nat} {tr x : Dense R} {xs : List (Dense R)} (h : Shaped n tr (x :: xs)) :
    ∃ t, viterbiStepStart tr x = some t ∧ Inv n (trans tr) [emis x] t [] := by
  have hrun : viterbiStepStart tr x = some ((newTable R n).mapIdx fun i e =>
      relax e ((emis x i + trans tr 0 (i + 1) : R) : WithBot R) i) := by
    unfold viterbiStepStart
    rw [h.rows]
    apply forUpd_range (by simp [newTable])
    intro i hi v
    have hi : i < n := by omega
    have e1 : tr.at2 0 (i + 1 : Nat) = _ := h.at_tr (Nat.zero_le n) (by omega : i + 1 ≤ n)
    rw [h.at_x (by simp) hi, e1]
    rfl
  refine ⟨_, hrun, by simp [newTable], ?_⟩
  intro j hj
  refine ⟨emis x j + trans tr 0 (j + 1), j, ?_, ?_, [], rfl, by simp, ?_, fun acc => rfl⟩
  · simp [newTable, hj, relax]
  · intro Y hY _
    have : Y = [] := List.eq_nil_of_length_eq_zero (by simpa using hY)
    subst this
    simp only [prefR, prevOf, zero_add]
    rw [add_comm]
  · simp only [prefR, prevOf, zero_add]
    rw [add_comm]

theorem step_inv {n : Nat} {tr x : Dense R} {xs : List (Dense R)} (h : Shaped n tr (x :: xs))
    {E : List (Nat → R)} (hE : E ≠ []) {t : Table R} {ts : List (Table R)} (hI : Inv n (trans tr) E t ts)
    (hn : 0 < n) :
    ∃ t', viterbiStep tr t x = some t' ∧ Inv n (trans tr) (emis x :: E) t' (t :: ts) := by
  obtain ⟨hlen, hI⟩ := hI
  let S : Nat → R := fun j => if hj : j < n then (hI j hj).choose else 0
  have hS : ∀ j < n, ∃ b, t[j]? = some ((S j : WithBot R), b) ∧
      (∀ Y, Y.length + 1 = E.length → (∀ y ∈ Y, y < n) → prefR (trans tr) E (j :: Y) ≤ S j) ∧
      ∃ Y, Y.length + 1 = E.length ∧ (∀ y ∈ Y, y < n) ∧ prefR (trans tr) E (j :: Y) = S j ∧
        ∀ acc, backtrack t ts j acc = some (Y.reverse ++ j :: acc) := by
    intro j hj
    simp only [S, hj, dite_true]
    exact (hI j hj).choose_spec
  let φ : Nat → Nat → R := fun j i => S i + emis x j + trans tr (i + 1) (j + 1)
  have hrun : viterbiStep tr t x = some ((newTable R n).mapIdx fun j e =>
      (List.range n).foldl (fun e i => relax e (φ j i : WithBot R) i) e) := by
    unfold viterbiStep
    rw [h.rows, h.cols]
    rw [show n + 1 - 1 = n by omega]
    obtain ⟨h1, -⟩ := foldlM_some (P := fun y : Table R => y.length = n) (l := List.range n)
      (f := fun (y : Table R) (i : Nat) =>
        forUpd (fun (j : Nat) e => do
          let mv ← t[i]?
          let sv ← x.at2 j 0
          let tv ← tr.at2 (i + 1 : Nat) (j + 1 : Nat)
          some (relax e (mv.1 + (sv : WithBot R) + (tv : WithBot R)) i))
          (List.range n) y)
      (g := fun y i => y.mapIdx fun j e => relax e (φ j i : WithBot R) i)
      (b := newTable R n) (by
        intro y hy i hi
        have hi := List.mem_range.mp hi
        refine ⟨?_, by simpa using hy⟩
        apply forUpd_range hy
        intro j hj v
        obtain ⟨b, hb, -⟩ := hS i hi
        rw [hb, h.at_x (by simp) hj, h.at_tr (by omega) (by omega)]
        simp only [Option.bind_eq_bind, Option.bind_some, φ, WithBot.coe_add]) (by simp [newTable])
    rw [h1, foldl_mapIdx (fun i j e => relax e (φ j i : WithBot R) i)]
  refine ⟨_, hrun, by simp [newTable], ?_⟩
  intro j hj
  obtain ⟨-, h2, h3⟩ := foldl_relax (φ j) (List.range n) (⊥, 0)
  have hget : ((newTable R n).mapIdx fun j e =>
      (List.range n).foldl (fun e i => relax e (φ j i : WithBot R) i) e)[j]? =
      some ((List.range n).foldl (fun e i => relax e (φ j i : WithBot R) i) (⊥, 0)) := by
    simp [newTable, hj]
  rcases h3 with h3 | ⟨i, hi, h3⟩
  · exfalso
    have := h2 0 (List.mem_range.mpr hn)
    rw [h3] at this
    simp at this
  · have hi := List.mem_range.mp hi
    rw [h3] at hget h2
    obtain ⟨b, hb, hle, Y, hY1, hY2, hY3, hY4⟩ := hS i hi
    refine ⟨φ j i, i, hget, ?_, i :: Y, by simpa using hY1, ?_, ?_, ?_⟩
    · intro Z hZ hZn
      cases Z with
      | nil =>
        have : E = [] := List.eq_nil_of_length_eq_zero (by simpa using hZ.symm)
        exact absurd this hE
      | cons z Z =>
        have hz : z < n := hZn z (by simp)
        obtain ⟨_, -, hle', -⟩ := hS z hz
        have h4 := hle' Z (by simpa using hZ) (fun y hy => hZn y (by simp [hy]))
        have h5 : φ j z ≤ φ j i := by
          have := h2 z (List.mem_range.mpr hz)
          exact WithBot.coe_le_coe.mp this
        refine le_trans ?_ h5
        simp only [prefR, prevOf, φ]
        calc prefR (trans tr) E (z :: Z) + (trans tr (z + 1) (j + 1) + emis x j)
            ≤ S z + (trans tr (z + 1) (j + 1) + emis x j) := by gcongr
          _ = _ := by abel
    · intro y hy
      rcases List.mem_cons.mp hy with rfl | hy
      · exact hi
      · exact hY2 y hy
    · simp only [prefR, prevOf, φ]
      have : prefR (trans tr) E (i :: Y) = S i := hY3
      rw [this]
      abel
    · intro acc
      simp only [backtrack]
      rw [hget]
      simp only [Option.bind_eq_bind, Option.bind_some]
      rw [hY4]
      simp

theorem loop_inv {n : Nat} (hn : 0 < n) {tr : Dense R} {xs : List (Dense R)} (h : Shaped n tr xs)
    {E : List (Nat → R)} (hE : E ≠ []) {t : Table R} {ts : List (Table R)} (hI : Inv n (trans tr) E t ts) :
    ∃ r, viterbiLoop tr xs t ts = some r ∧
      Inv n (trans tr) ((xs.map emis).reverse ++ E) r.1 r.2 := by
  induction xs generalizing E t ts with
  | nil => exact ⟨(t, ts), rfl, hI⟩
  | cons x xs ih =>
    obtain ⟨t', h1, h2⟩ := step_inv h hE hI hn
    obtain ⟨r, h3, h4⟩ := ih h.tail (by simp : emis x :: E ≠ []) h2
    refine ⟨r, ?_, ?_⟩
    · simp only [viterbiLoop, h1, Option.bind_eq_bind, Option.bind_some, h3]
    · simpa using h4

/-- **C33.** `Decode` returns a label sequence of the right length, with labels in range, whose score
is at least that of every label sequence. -/
theorem viterbi_spec {n : Nat} (hn : 0 < n) {tr : Dense R} {xs : List (Dense R)}
    (h : Shaped n tr xs) (hne : xs ≠ []) :
    ∃ ys, viterbi tr xs = some ys ∧ ys.length = xs.length ∧ (∀ y ∈ ys, y < n) ∧
      ∀ zs, zs.length = xs.length → (∀ z ∈ zs, z < n) →
        score (trans tr) (xs.map emis) zs ≤ score (trans tr) (xs.map emis) ys := by
  cases xs with
  | nil => exact absurd rfl hne
  | cons x xs =>
    obtain ⟨a0, h1, h2⟩ := start_inv h
    obtain ⟨r, h3, hlen, hI⟩ := loop_inv hn h.tail (by simp) h2
    have hEe : (xs.map emis).reverse ++ [emis x] = ((x :: xs).map emis).reverse := by simp
    rw [hEe] at hI
    set E := ((x :: xs).map emis).reverse with hE
    let S : Nat → R := fun j => if hj : j < n then (hI j hj).choose else 0
    have hS : ∀ j < n, ∃ b, r.1[j]? = some ((S j : WithBot R), b) ∧
        (∀ Y, Y.length + 1 = E.length → (∀ y ∈ Y, y < n) → prefR (trans tr) E (j :: Y) ≤ S j) ∧
        ∃ Y, Y.length + 1 = E.length ∧ (∀ y ∈ Y, y < n) ∧ prefR (trans tr) E (j :: Y) = S j ∧
          ∀ acc, backtrack r.1 r.2 j acc = some (Y.reverse ++ j :: acc) := by
      intro j hj
      simp only [S, hj, dite_true]
      exact (hI j hj).choose_spec
    have hend : viterbiStepEnd tr r.1 = some ((newTable R n).mapIdx fun i e =>
        relax e ((S i + trans tr (i + 1) 0 : R) : WithBot R) i) := by
      unfold viterbiStepEnd
      rw [h.rows]
      apply forUpd_range (by simp [newTable])
      intro i hi v
      have hi : i < n := by omega
      have e1 : tr.at2 (i + 1 : Nat) 0 = _ := h.at_tr (by omega : i + 1 ≤ n) (Nat.zero_le n)
      obtain ⟨b, hb, -⟩ := hS i hi
      rw [hb, e1]
      simp only [Option.bind_eq_bind, Option.bind_some, WithBot.coe_add]
    have hmap : ((newTable R n).mapIdx fun i e =>
        relax e ((S i + trans tr (i + 1) 0 : R) : WithBot R) i).map (·.1) =
        (List.range n).map fun i => ((S i + trans tr (i + 1) 0 : R) : WithBot R) := by
      rw [newTable, mapIdx_replicate, List.map_map]
      apply List.map_congr_left
      intro i _
      simp [relax]
    let d : Dense (WithBot R) := Dense.column ((List.range n).map fun i =>
      ((S i + trans tr (i + 1) 0 : R) : WithBot R))
    obtain ⟨ha1, ha2⟩ := VecFn.argMax_spec d
    obtain ⟨y, hy⟩ := Option.isSome_iff_exists.mp (ha1.mpr ⟨by simp [d, Dense.column, isVector], by
      simp [d, Dense.column]; omega⟩)
    obtain ⟨m, hm1, hm2, -⟩ := ha2 y hy
    have hyn : y < n := by
      by_contra hc
      rw [List.getElem?_eq_none (by simp [d, Dense.column]; omega)] at hm1; cases hm1
    have hm : m = ((S y + trans tr (y + 1) 0 : R) : WithBot R) := by
      simp [d, Dense.column, hyn] at hm1
      rw [← hm1]; rfl
    obtain ⟨b, -, -, Y, hY1, hY2, hY3, hY4⟩ := hS y hyn
    have hElen : E.length = xs.length + 1 := by simp [hE]
    have hyb : ∀ z ∈ Y.reverse ++ [y], z < n := by
      intro z hz
      simp only [List.mem_append, List.mem_reverse, List.mem_singleton] at hz
      rcases hz with hz | rfl
      · exact hY2 z hz
      · exact hyn
    have hscore : ∀ zs : List Nat, zs.length = (x :: xs).length →
        score (trans tr) ((x :: xs).map emis) zs =
          prefR (trans tr) E zs.reverse + trans tr (prevOf zs.reverse) 0 := by
      intro zs hz
      have := prefR_path (trans tr) ((x :: xs).map emis) zs (by simpa using hz.symm) [] []
      rw [score_eq _ _ _ (by simpa using hz.symm)]
      simp only [List.append_nil] at this
      rw [hE, this]
      simp [prefR, prevOf]
    refine ⟨Y.reverse ++ [y], ?_, ?_, hyb, ?_⟩
    · have hy' : (Dense.column (((newTable R n).mapIdx fun i e =>
        relax e ((S i + trans tr (i + 1) 0 : R) : WithBot R) i).map (·.1))).argMax = some y := by
        rw [hmap]; exact hy
      simp only [viterbi, h1, h3, hend, Option.bind_eq_bind, Option.bind_some, hy', hY4]
    · simp only [List.length_append, List.length_reverse, List.length_nil, List.length_cons]
      omega
    · intro zs hz hzn
      rw [hscore zs hz, hscore (Y.reverse ++ [y]) (by
        simp only [List.length_append, List.length_reverse, List.length_nil, List.length_cons]
        omega)]
      simp only [List.reverse_append, List.reverse_reverse, List.reverse_singleton,
        List.singleton_append, prevOf]
      rw [hY3]
      cases hzr : zs.reverse with
      | nil =>
        have : zs.length = 0 := by rw [← List.length_reverse, hzr]; rfl
        simp at hz; omega
      | cons z Z =>
        have hzl : (z :: Z).length = zs.length := by rw [← hzr, List.length_reverse]
        have hzmem : ∀ w ∈ z :: Z, w < n := by
          intro w hw; rw [← hzr] at hw; exact hzn w (List.mem_reverse.mp hw)
        obtain ⟨_, -, hle, -⟩ := hS z (hzmem z (by simp))
        have h4 := hle Z (by simp at hzl hz; omega) (fun w hw => hzmem w (by simp [hw]))
        have h5 : S z + trans tr (z + 1) 0 ≤ S y + trans tr (y + 1) 0 := by
          have := hm2 ((S z + trans tr (z + 1) 0 : R) : WithBot R) (by
            simp only [d, Dense.column]
            exact List.mem_map.mpr ⟨z, List.mem_range.mpr (hzmem z (by simp)), rfl⟩)
          rw [hm] at this
          exact WithBot.coe_le_coe.mp this
        simp only [prevOf]
        refine le_trans ?_ h5
        gcongr

end viterbi

section Examples

/-- a transition matrix for two labels and three emissions; it meets the shape hypotheses, and the
model computes the best of the 8 sequences -/
example :
    let tr : Dense ℤ := ⟨3, 3, [0, 1, -1, 0, 3, 0, 2, 0, 1]⟩
    let xs : List (Dense ℤ) := [⟨2, 1, [1, 4]⟩, ⟨2, 1, [2, 0]⟩, ⟨2, 1, [0, 2]⟩]
    Shaped 2 tr xs ∧ viterbi tr xs = some [0, 0, 1] ∧
    goldScore tr xs [0, 0, 1] = some 11 ∧ (labelings 2 3).length = 8 ∧
    (labelings 2 3).map (score (trans tr) (xs.map emis)) = [10, 11, 2, 7, 8, 9, 4, 9] := by
  refine ⟨⟨by decide, rfl, rfl, by decide⟩, ?_, ?_, ?_, ?_⟩ <;> decide +kernel

end Examples
end Verif.Crf
