import Verif.Props.GradSparse

set_option autoImplicit false
set_option linter.unusedSimpArgs false

/-!
# Max pooling (C24)
-/

namespace Verif.GradFn
open Dense
open scoped BigOperators Topology

/-- Position `(i, j)` belongs to window `(row, col)` of `r` rows and `c` columns. -/
def InWindow (r c row col i j : Nat) : Prop :=
  row * r ≤ i ∧ i < row * r + r ∧ col * c ≤ j ∧ j < col * c + c

/-- What the loops of `Forward` know after the positions in `seen`. -/
def PoolInv (x : Dense ℝ) (eps : ℝ) (seen : Nat → Nat → Prop) (st : ℝ × Nat × Nat) : Prop :=
  eps ≤ st.1 ∧ (∀ i j, seen i j → x.el i j ≤ st.1) ∧
    (st = (eps, 0, 0) ∨ seen st.2.1 st.2.2 ∧ st.1 = x.el st.2.1 st.2.2 ∧ eps < st.1)

theorem PoolInv.congr {x : Dense ℝ} {eps : ℝ} {s s' : Nat → Nat → Prop} {st : ℝ × Nat × Nat}
    (h : PoolInv x eps s st) (e : ∀ i j, s i j ↔ s' i j) : PoolInv x eps s' st :=
  ⟨h.1, fun i j hs => h.2.1 i j ((e i j).mpr hs), h.2.2.imp id fun h => ⟨(e _ _).mp h.1, h.2⟩⟩

theorem PoolInv.step {x : Dense ℝ} {eps : ℝ} {s : Nat → Nat → Prop} {st : ℝ × Nat × Nat}
    (h : PoolInv x eps s st) (i j : Nat) :
    PoolInv x eps (fun i' j' => s i' j' ∨ i' = i ∧ j' = j) (if st.1 < x.el i j then (x.el i j, i, j) else st) := by
  obtain ⟨h1, h2, h3⟩ := h
  split
  · rename_i hlt
    refine ⟨h1.trans hlt.le, ?_, Or.inr ⟨Or.inr ⟨rfl, rfl⟩, rfl, lt_of_le_of_lt h1 hlt⟩⟩
    rintro i' j' (hs | ⟨rfl, rfl⟩)
    · exact (h2 i' j' hs).trans hlt.le
    · exact le_refl _
  · rename_i hlt
    refine ⟨h1, ?_, h3.imp id fun h => ⟨Or.inl h.1, h.2⟩⟩
    rintro i' j' (hs | ⟨rfl, rfl⟩)
    · exact h2 i' j' hs
    · exact not_lt.mp hlt

theorem poolRow_inv {x : Dense ℝ} (hx : x.WF) {eps : ℝ} {i j0 : Nat} (hi : i < x.rows) :
    ∀ (n : Nat) (s : Nat → Nat → Prop) (st : ℝ × Nat × Nat), j0 + n ≤ x.cols → PoolInv x eps s st →
    ∃ st', (List.range n).foldlM (fun (st : ℝ × Nat × Nat) (b : Nat) => do
        let v ← x.at2 i (j0 + b : Nat)
        some (if st.1 < v then (v, i, j0 + b) else st)) st = some st' ∧
      PoolInv x eps (fun i' j' => s i' j' ∨ i' = i ∧ j0 ≤ j' ∧ j' < j0 + n) st'
  | 0, s, st, _, h => ⟨st, rfl, h.congr fun i' j' => by
      constructor
      · exact Or.inl
      · rintro (h | h)
        · exact h
        · omega⟩
  | n + 1, s, st, hn, h => by
    obtain ⟨st', h1, h2⟩ := poolRow_inv hx (j0 := j0) hi n s st (by omega) h
    refine ⟨_, ?_, (h2.step i (j0 + n)).congr fun i' j' => ?_⟩
    · rw [List.range_succ, List.foldlM_append, h1]
      simp only [Option.bind_eq_bind, Option.bind_some, List.foldlM_cons, List.foldlM_nil,
        at2_el hx hi (j := j0 + n) (by omega)]
      rfl
    · constructor
      · rintro ((h | h) | h)
        · exact Or.inl h
        · right; omega
        · right; omega
      · rintro (h | h)
        · exact Or.inl (Or.inl h)
        · by_cases hj : j' = j0 + n
          · exact Or.inr ⟨h.1, hj⟩
          · left; right; omega

/-- The loops over one window, when the window (with `rows` columns) is inside the matrix. -/
theorem poolWindow_inv {x : Dense ℝ} (hx : x.WF) (eps : ℝ) {rows cols row col : Nat}
    (h1 : row * rows + rows ≤ x.rows) (h2 : col * cols + rows ≤ x.cols) :
    ∃ st, poolWindow eps rows cols x row col = some st ∧ PoolInv x eps
      (fun i j => row * rows ≤ i ∧ i < row * rows + rows ∧ col * cols ≤ j ∧ j < col * cols + rows) st := by
  have key : ∀ (n : Nat), n ≤ rows →
      ∃ st, (List.range n).foldlM (fun (st : ℝ × Nat × Nat) (a : Nat) =>
        (List.range rows).foldlM (fun (st : ℝ × Nat × Nat) (b : Nat) => do
          let v ← x.at2 (row * rows + a : Nat) (col * cols + b : Nat)
          some (if st.1 < v then (v, row * rows + a, col * cols + b) else st)) st) (eps, 0, 0) = some st ∧
        PoolInv x eps (fun i j => row * rows ≤ i ∧ i < row * rows + n ∧ col * cols ≤ j ∧ j < col * cols + rows) st := by
    intro n
    induction n with
    | zero =>
      intro _
      refine ⟨(eps, 0, 0), rfl, le_refl _, ?_, Or.inl rfl⟩
      intro i j h
      omega
    | succ n ih =>
      intro hn
      obtain ⟨st, e1, e2⟩ := ih (by omega)
      obtain ⟨st', e3, e4⟩ := poolRow_inv hx (eps := eps) (i := row * rows + n) (j0 := col * cols) (by omega) rows _ st
        h2 e2
      refine ⟨st', ?_, e4.congr fun i j => by omega⟩
      rw [List.range_succ, List.foldlM_append, e1]
      simp only [Option.bind_eq_bind, Option.bind_some, List.foldlM_cons, List.foldlM_nil] at e3 ⊢
      rw [e3]; rfl
  exact key rows (le_refl _)

/-! ## All windows -/

theorem range_pairs (R C : Nat) : ((List.range R).flatMap fun row => (List.range C).map fun col => (row, col)) =
    (List.range (R * C)).map fun k => (k / C, k % C) := by
  induction R with
  | zero => simp
  | succ R ih =>
    rw [List.range_succ, List.flatMap_append, ih, Nat.succ_mul, List.range_add, List.map_append]
    congr 1
    simp only [List.flatMap_cons, List.flatMap_nil, List.append_nil, List.map_map, Function.comp_def]
    refine List.map_congr_left fun j hj => ?_
    have hj := List.mem_range.mp hj
    rw [Nat.mul_comm, Nat.mul_add_div (by omega), Nat.div_eq_of_lt hj, Nat.add_zero, Nat.mul_add_mod,
      Nat.mod_eq_of_lt hj]

theorem mapM_some {α β : Type} {f : α → Option β} {g : α → β} : ∀ (L : List α), (∀ a ∈ L, f a = some (g a)) →
    L.mapM f = some (L.map g)
  | [], _ => rfl
  | a :: L, h => by
    rw [List.mapM_cons, h a (by simp), mapM_some L fun b hb => h b (by simp [hb])]; rfl

theorem mapM_none {α β : Type} {f : α → Option β} {a : α} : ∀ (L : List α), a ∈ L → f a = none → L.mapM f = none
  | [], h, _ => by simp at h
  | b :: L, h, ha => by
    rw [List.mapM_cons]
    rcases List.mem_cons.mp h with rfl | h
    · rw [ha]; rfl
    · rw [mapM_none L h ha]
      cases f b <;> rfl

theorem foldlM_none {α β : Type} {f : β → α → Option β} {a : α} (ha : ∀ s, f s a = none) :
    ∀ (L : List α) (s : β), a ∈ L → L.foldlM f s = none
  | [], _, h => by simp at h
  | b :: L, s, h => by
    rw [List.foldlM_cons]
    rcases List.mem_cons.mp h with rfl | h
    · rw [ha]; rfl
    · cases hf : f s b with
      | none => rfl
      | some s' => exact foldlM_none ha L s' h

theorem poolAll_eq {x : Dense ℝ} {eps : ℝ} {rows cols : Nat} {g : Nat → Nat → ℝ × Nat × Nat}
    (hg : ∀ row < x.rows / rows, ∀ col < x.cols / cols, poolWindow eps rows cols x row col = some (g row col)) :
    poolAll eps rows cols x =
      some ((List.range (x.rows / rows * (x.cols / cols))).map fun k => g (k / (x.cols / cols)) (k % (x.cols / cols))) := by
  rw [poolAll, range_pairs, mapM_some (g := fun p : Nat × Nat => g p.1 p.2), List.map_map]
  · rfl
  · intro p hp
    obtain ⟨k, hk, rfl⟩ := List.mem_map.mp hp
    have hk := List.mem_range.mp hk
    have hc : 0 < x.cols / cols := by
      rcases Nat.eq_zero_or_pos (x.cols / cols) with h | h
      · rw [h] at hk; omega
      · exact h
    exact hg _ (Nat.div_lt_of_lt_mul (by rwa [Nat.mul_comm] at hk)) _ (Nat.mod_lt _ hc)

/-- The forward pass in terms of the results for the windows. -/
theorem maxPooling_forward {x : Dense ℝ} {eps : ℝ} {rows cols : Nat} {g : Nat → Nat → ℝ × Nat × Nat}
    (hr : 0 < rows) (hc : 0 < cols) (h1 : x.rows % rows = 0) (h2 : x.cols % cols = 0)
    (hg : ∀ row < x.rows / rows, ∀ col < x.cols / cols, poolWindow eps rows cols x row col = some (g row col)) :
    ∃ y, (maxPooling eps rows cols).forward [x] = some y ∧ y.WF ∧ y.rows = x.rows / rows ∧ y.cols = x.cols / cols ∧
      ∀ row < x.rows / rows, ∀ col < x.cols / cols, y.el row col = (g row col).1 := by
  refine ⟨⟨x.rows / rows, x.cols / cols, ((List.range (x.rows / rows * (x.cols / cols))).map
      fun k => g (k / (x.cols / cols)) (k % (x.cols / cols))).map fun w => w.1⟩, ?_, ?_, rfl, rfl, ?_⟩
  · simp only [maxPooling]
    rw [if_neg (by omega), if_neg (by omega), poolAll_eq hg]
    rfl
  · simp [WF]
  · intro row hrow col hcol
    have hlt : row * (x.cols / cols) + col < x.rows / rows * (x.cols / cols) := GoSlice.idx_lt hrow hcol
    rw [el_val _ hrow hcol]
    simp only [val, List.getD_eq_getElem?_getD, List.getElem?_map, List.getElem?_range hlt, Option.map_some,
      Option.getD_some]
    rw [Nat.mul_comm, Nat.mul_add_div (by omega), Nat.div_eq_of_lt hcol, Nat.add_zero, Nat.mul_add_mod,
      Nat.mod_eq_of_lt hcol]

theorem window_le {n r k : Nat} (hn : n % r = 0) (hk : k < n / r) : k * r + r ≤ n := by
  have h1 : n = n / r * r := by
    have := Nat.div_add_mod n r
    rw [hn, Nat.add_zero, Nat.mul_comm] at this
    exact this.symm
  have h2 : (k + 1) * r ≤ n / r * r := Nat.mul_le_mul_right _ hk
  rw [Nat.succ_mul] at h2
  omega

/-- **C24 (partial).** For square windows that contain an entry above `eps` (the smallest positive
float), `MaxPooling` gives the maximum of every window. Missing: windows without such entries
(`maxPooling_small`) and windows that are not square (`maxPooling_wide`, `maxPooling_narrow`). -/
theorem maxPooling_forward_partial {x : Dense ℝ} (hx : x.WF) {eps : ℝ} {r : Nat} (hr : 0 < r)
    (h1 : x.rows % r = 0) (h2 : x.cols % r = 0)
    (hpos : ∀ row < x.rows / r, ∀ col < x.cols / r, ∃ i j, InWindow r r row col i j ∧ eps < x.el i j) :
    ∃ y, (maxPooling eps r r).forward [x] = some y ∧ y.WF ∧ y.rows = x.rows / r ∧ y.cols = x.cols / r ∧
      ∀ row < x.rows / r, ∀ col < x.cols / r,
        (∃ i j, InWindow r r row col i j ∧ y.el row col = x.el i j) ∧
        ∀ i j, InWindow r r row col i j → x.el i j ≤ y.el row col := by
  have hw : ∀ row col, ∃ st, row < x.rows / r → col < x.cols / r → poolWindow eps r r x row col = some st ∧
      PoolInv x eps (fun i j => row * r ≤ i ∧ i < row * r + r ∧ col * r ≤ j ∧ j < col * r + r) st := by
    intro row col
    by_cases h : row < x.rows / r ∧ col < x.cols / r
    · obtain ⟨st, e1, e2⟩ := poolWindow_inv hx eps (window_le h1 h.1) (window_le h2 h.2)
      exact ⟨st, fun _ _ => ⟨e1, e2⟩⟩
    · exact ⟨(0, 0, 0), fun a b => absurd ⟨a, b⟩ h⟩
  choose g hg using hw
  obtain ⟨y, e1, e2, e3, e4, e5⟩ := maxPooling_forward hr hr h1 h2 (g := g) fun row hrow col hcol =>
    (hg row col hrow hcol).1
  refine ⟨y, e1, e2, e3, e4, fun row hrow col hcol => ?_⟩
  obtain ⟨-, p1, p2, p3⟩ := hg row col hrow hcol
  rw [e5 row hrow col hcol]
  refine ⟨?_, fun i j h => p2 i j h⟩
  rcases p3 with p3 | ⟨p3, p4, -⟩
  · obtain ⟨i, j, hw, hlt⟩ := hpos row hrow col hcol
    have := p2 i j hw
    rw [p3] at this
    exact absurd this (not_le.mpr hlt)
  · exact ⟨_, _, p3, p4⟩

/-- **C24 fails.** A square window without entries above `eps` gives `eps`, whatever its entries. -/
theorem maxPooling_small {x : Dense ℝ} (hx : x.WF) {eps : ℝ} {r : Nat} (hr : 0 < r) (h1 : x.rows % r = 0)
    (h2 : x.cols % r = 0) {row col : Nat} (hrow : row < x.rows / r) (hcol : col < x.cols / r)
    (hle : ∀ i j, InWindow r r row col i j → x.el i j ≤ eps) :
    ∃ y, (maxPooling eps r r).forward [x] = some y ∧ y.el row col = eps := by
  have hw : ∀ row col, ∃ st, row < x.rows / r → col < x.cols / r → poolWindow eps r r x row col = some st ∧
      PoolInv x eps (fun i j => row * r ≤ i ∧ i < row * r + r ∧ col * r ≤ j ∧ j < col * r + r) st := by
    intro row col
    by_cases h : row < x.rows / r ∧ col < x.cols / r
    · obtain ⟨st, e1, e2⟩ := poolWindow_inv hx eps (window_le h1 h.1) (window_le h2 h.2)
      exact ⟨st, fun _ _ => ⟨e1, e2⟩⟩
    · exact ⟨(0, 0, 0), fun a b => absurd ⟨a, b⟩ h⟩
  choose g hg using hw
  obtain ⟨y, e1, -, -, -, e5⟩ := maxPooling_forward hr hr h1 h2 (g := g) fun row hrow col hcol =>
    (hg row col hrow hcol).1
  refine ⟨y, e1, ?_⟩
  obtain ⟨-, -, -, p3⟩ := hg row col hrow hcol
  rw [e5 row hrow col hcol]
  rcases p3 with p3 | ⟨p3, p4, p5⟩
  · rw [p3]
  · rw [p4] at p5
    exact absurd (hle _ _ p3) (not_le.mpr p5)

/-- **C24 fails.** Windows with more rows than columns: the loop over the columns leaves the matrix, the
call panics for every non-empty matrix. -/
theorem maxPooling_wide {x : Dense ℝ} {eps : ℝ} {r c : Nat} (hc : 0 < c) (hrc : c < r) (h2 : x.cols % c = 0)
    (hx0 : r ≤ x.rows) (hy0 : 0 < x.cols) : (maxPooling eps r c).forward [x] = none := by
  have hC : x.cols / c * c = x.cols := by
    have := Nat.div_add_mod x.cols c
    rw [h2, Nat.add_zero, Nat.mul_comm] at this
    exact this
  have hC0 : 0 < x.cols / c := by
    rcases Nat.eq_zero_or_pos (x.cols / c) with h | h
    · rw [h] at hC; omega
    · exact h
  have hR0 : 0 < x.rows / r := Nat.div_pos hx0 (by omega)
  have hnone : poolWindow eps r c x 0 (x.cols / c - 1) = none := by
    unfold poolWindow
    refine foldlM_none (a := 0) (fun s => ?_) _ _ (List.mem_range.mpr (by omega))
    refine foldlM_none (a := c) (fun s => ?_) _ _ (List.mem_range.mpr hrc)
    have : (x.cols / c - 1) * c + c = x.cols := by
      rw [← Nat.succ_mul]
      have : (x.cols / c - 1).succ = x.cols / c := by omega
      rw [this, hC]
    have hat : x.at2 ((0 * r + 0 : Nat) : Int) (((x.cols / c - 1) * c + c : Nat) : Int) = none := by
      rw [this]
      unfold at2
      split
      · rfl
      · rw [if_pos (Or.inr (le_refl _))]
    show (x.at2 ((0 * r + 0 : Nat) : Int) (((x.cols / c - 1) * c + c : Nat) : Int)).bind _ = none
    rw [hat]; rfl
  have hall : poolAll eps r c x = none := by
    rw [poolAll]
    refine mapM_none (a := (0, x.cols / c - 1)) _ ?_ hnone
    refine List.mem_flatMap.mpr ⟨0, List.mem_range.mpr hR0, List.mem_map.mpr ⟨_, List.mem_range.mpr ?_, rfl⟩⟩
    omega
  simp only [maxPooling]
  rw [if_neg (by omega)]
  split
  · rfl
  · rw [hall]; rfl

theorem foldlM_congr_mem {α β : Type} {f f' : β → α → Option β} : ∀ (L : List α) (s : β),
    (∀ s, ∀ a ∈ L, f s a = f' s a) → L.foldlM f s = L.foldlM f' s
  | [], _, _ => rfl
  | a :: L, s, h => by
    rw [List.foldlM_cons, List.foldlM_cons, h s a (by simp)]
    cases f' s a with
    | none => rfl
    | some s' => exact foldlM_congr_mem L s' fun s b hb => h s b (by simp [hb])

theorem mapM_congr_mem {α β : Type} {f f' : α → Option β} : ∀ (L : List α), (∀ a ∈ L, f a = f' a) →
    L.mapM f = L.mapM f'
  | [], _ => rfl
  | a :: L, h => by
    rw [List.mapM_cons, List.mapM_cons, h a (by simp), mapM_congr_mem L fun b hb => h b (by simp [hb])]

/-- **C24 fails.** Windows with more columns than rows: only the first `r` columns of every window count,
the result is the same for matrices that differ elsewhere. -/
theorem maxPooling_narrow {x x' : Dense ℝ} (hx : x.WF) (hx' : x.Like x') {eps : ℝ} {r c : Nat} (hrc : r < c)
    (h1 : x.rows % r = 0) (h2 : x.cols % c = 0)
    (he : ∀ i < x.rows, ∀ j < x.cols, j % c < r → x'.el i j = x.el i j) :
    (maxPooling eps r c).forward [x'] = (maxPooling eps r c).forward [x] := by
  simp only [maxPooling, hx'.rows, hx'.cols]
  split
  · rfl
  rename_i h0
  have hall : poolAll eps r c x' = poolAll eps r c x := by
    unfold poolAll
    rw [hx'.rows, hx'.cols]
    refine mapM_congr_mem _ fun p hp => ?_
    obtain ⟨row, hrow, hp⟩ := List.mem_flatMap.mp hp
    obtain ⟨col, hcol, rfl⟩ := List.mem_map.mp hp
    have w1 := window_le h1 (List.mem_range.mp hrow)
    have w2 := window_le h2 (List.mem_range.mp hcol)
    unfold poolWindow
    refine foldlM_congr_mem _ _ fun s a ha => foldlM_congr_mem _ _ fun s b hb => ?_
    have ha := List.mem_range.mp ha
    have hb := List.mem_range.mp hb
    have hat : x'.at2 ((row * r + a : Nat) : Int) ((col * c + b : Nat) : Int) =
        x.at2 ((row * r + a : Nat) : Int) ((col * c + b : Nat) : Int) := by
      rw [at2_el hx'.wf (by rw [hx'.rows]; omega) (by rw [hx'.cols]; omega), at2_el hx (by omega) (by omega),
        he _ (by omega) _ (by omega)]
      rw [Nat.mul_comm, Nat.mul_add_mod, Nat.mod_eq_of_lt (by omega)]
      exact hb
    show (x'.at2 ((row * r + a : Nat) : Int) ((col * c + b : Nat) : Int)).bind _ = _
    rw [hat]; rfl
  rw [hall]

/-! ## The backward pass -/

/-- **C24 (partial).** For square windows whose maximum is unique and above `eps`, the gradient goes to the
position of the maximum, and the gradients are right. -/
theorem maxPooling_correct_partial {x : Dense ℝ} (hx : x.WF) {eps : ℝ} {r : Nat} (hr : 0 < r) (A B : Nat → Nat → Nat)
    (hA : ∀ row < x.rows / r, ∀ col < x.cols / r, InWindow r r row col (A row col) (B row col) ∧
      eps < x.el (A row col) (B row col) ∧
      ∀ i j, InWindow r r row col i j → ¬ (i = A row col ∧ j = B row col) → x.el i j < x.el (A row col) (B row col)) :
    Correct (maxPooling eps r r) [x] := by
  by_cases hdiv : x.rows % r = 0 ∧ x.cols % r = 0
  swap
  · intro y hy
    simp only [maxPooling] at hy
    rw [if_neg (by omega), if_pos hdiv] at hy
    cases hy
  obtain ⟨h1, h2⟩ := hdiv
  have hin : ∀ row < x.rows / r, ∀ col < x.cols / r, ∀ i j, InWindow r r row col i j → i < x.rows ∧ j < x.cols := by
    intro row hrow col hcol i j h
    have w1 := window_le h1 hrow
    have w2 := window_le h2 hcol
    obtain ⟨a1, a2, a3, a4⟩ := h
    omega
  -- near `x`
  set Q : Dense ℝ → Prop := fun d => ∀ row ∈ Finset.range (x.rows / r), ∀ col ∈ Finset.range (x.cols / r),
    eps < d.el (A row col) (B row col) ∧
      ∀ i ∈ Finset.range x.rows, ∀ j ∈ Finset.range x.cols, InWindow r r row col i j →
        ¬ (i = A row col ∧ j = B row col) → d.el i j < d.el (A row col) (B row col) with hQ
  have hwin : ∀ d, x.Like d → Q d → ∀ row < x.rows / r, ∀ col < x.cols / r,
      poolWindow eps r r d row col = some (d.el (A row col) (B row col), A row col, B row col) := by
    intro d hd hq row hrow col hcol
    obtain ⟨st, e1, e2, e3, e4⟩ := poolWindow_inv hd.wf eps (rows := r) (cols := r) (row := row) (col := col)
      (by rw [hd.rows]; exact window_le h1 hrow) (by rw [hd.cols]; exact window_le h2 hcol)
    obtain ⟨q1, q2⟩ := hq row (Finset.mem_range.mpr hrow) col (Finset.mem_range.mpr hcol)
    have hAw := (hA row hrow col hcol).1
    have h5 := e3 _ _ hAw
    rw [e1]
    rcases e4 with e4 | ⟨e4, e5, e6⟩
    · rw [e4] at h5
      exact absurd h5 (not_le.mpr q1)
    · have : st.2.1 = A row col ∧ st.2.2 = B row col := by
        by_contra hc
        have hb := hin row hrow col hcol _ _ e4
        have := q2 _ (Finset.mem_range.mpr hb.1) _ (Finset.mem_range.mpr hb.2) e4 hc
        linarith
      obtain ⟨s1, s2, s3⟩ := st
      simp only at this e5
      rw [this.1, this.2] at e5
      rw [e5, this.1, this.2]
  refine select_correct_near hx (x.rows / r) (x.cols / r) A B Q ?_ ?_ ?_ ?_ ?_ ?_
  · intro X v hX
    simp only [hQ]
    refine (Finset.eventually_all _).mpr fun row hrow => (Finset.eventually_all _).mpr fun col hcol => ?_
    have hrow := Finset.mem_range.mp hrow
    have hcol := Finset.mem_range.mp hcol
    obtain ⟨a1, a2, a3⟩ := hA row hrow col hcol
    obtain ⟨b1, b2⟩ := hin row hrow col hcol _ _ a1
    have hd := hX.el b1 b2
    refine Filter.Eventually.and (hd.continuousAt.eventually (lt_mem_nhds (by
      beta_reduce; rw [hX.start]; exact a2))) ?_
    refine (Finset.eventually_all _).mpr fun i hi => (Finset.eventually_all _).mpr fun j hj => ?_
    by_cases hw : InWindow r r row col i j ∧ ¬ (i = A row col ∧ j = B row col)
    · have := (hX.el (Finset.mem_range.mp hi) (Finset.mem_range.mp hj)).continuousAt.eventually_lt hd.continuousAt (by
        rw [hX.start]; exact a3 i j hw.1 hw.2)
      exact this.mono fun t ht _ _ => ht
    · exact Filter.Eventually.of_forall fun t c1 c2 => absurd ⟨c1, c2⟩ hw
  · intro row hrow col hcol
    obtain ⟨a1, a2, a3⟩ := hA row (Finset.mem_range.mp hrow) col (Finset.mem_range.mp hcol)
    exact ⟨a2, fun i _ j _ => a3 i j⟩
  · intro d hd hq
    have hw := hwin d hd hq
    rw [← hd.rows, ← hd.cols] at hw ⊢
    exact maxPooling_forward hr hr (by rw [hd.rows]; exact h1) (by rw [hd.cols]; exact h2)
      (g := fun row col => (d.el (A row col) (B row col), A row col, B row col)) hw
  · intro row hrow col hcol
    exact hin row hrow col hcol _ _ (hA row hrow col hcol).1
  · intro row hrow col hcol row' hrow' col' hcol' ea eb
    obtain ⟨a1, a2, a3, a4⟩ := (hA row hrow col hcol).1
    obtain ⟨b1, b2, b3, b4⟩ := (hA row' hrow' col' hcol').1
    rw [← ea] at b1 b2
    rw [← eb] at b3 b4
    have div : ∀ k n, k * r ≤ n → n < k * r + r → n / r = k := by
      intro k n h1 h2
      rw [Nat.div_eq_iff (by omega)]
      omega
    exact ⟨(div _ _ a1 a2).symm.trans (div _ _ b1 b2), (div _ _ a3 a4).symm.trans (div _ _ b3 b4)⟩
  · intro gy hg hgr hgc
    have hQx : Q x := by
      intro row hrow col hcol
      obtain ⟨a1, a2, a3⟩ := hA row (Finset.mem_range.mp hrow) col (Finset.mem_range.mp hcol)
      exact ⟨a2, fun i _ j _ => a3 i j⟩
    have hp := poolAll_eq (g := fun row col => (x.el (A row col) (B row col), A row col, B row col))
      (hwin x (Like.refl hx) hQx)
    set C := x.cols / r with hC
    set ws := (List.range (x.rows / r * C)).map fun k =>
      (fun row col => (x.el (A row col) (B row col), A row col, B row col)) (k / C) (k % C) with hws
    have hget : ∀ row < x.rows / r, ∀ col < C, ws[row * C + col]? =
        some (x.el (A row col) (B row col), A row col, B row col) := by
      intro row hrow col hcol
      have hlt : row * C + col < x.rows / r * C := GoSlice.idx_lt hrow hcol
      simp only [hws, List.getElem?_map, List.getElem?_range hlt, Option.map_some]
      rw [Nat.mul_comm, Nat.mul_add_div (by omega), Nat.div_eq_of_lt hcol, Nat.add_zero, Nat.mul_add_mod,
        Nat.mod_eq_of_lt hcol]
    have div : ∀ k n, k * r ≤ n → n < k * r + r → n / r = k := by
      intro k n h1 h2
      rw [Nat.div_eq_iff (by omega)]
      omega
    have hV : ∀ row < x.rows / r, ∀ col < C, gy.el (A row col / r) (B row col / r) = gy.el row col := by
      intro row hrow col hcol
      obtain ⟨a1, a2, a3, a4⟩ := (hA row hrow col hcol).1
      rw [div _ _ a1 a2, div _ _ a3 a4]
    obtain ⟨gx, g1, g2, g3⟩ := foldBlock (x := x) (fun i j => gy.el (i / r) (j / r))
      (fun row i j => ∃ col ∈ List.range C, i = A row col ∧ j = B row col)
      (fun gx (row : Nat) => (List.range C).foldlM (fun gx (col : Nat) => do
        let w ← ws[row * C + col]?
        let g ← gy.at2 row col
        gx.set2 g w.2.1 w.2.2) gx) (List.range (x.rows / r)) (by
        intro gx hgx row hrow
        have hrow := List.mem_range.mp hrow
        suffices hin' : ∀ gx, x.Like gx → ∀ col ∈ List.range C, ∃ gx', (do
            let w ← ws[row * C + col]?
            let g ← gy.at2 row col
            gx.set2 g w.2.1 w.2.2) = some gx' ∧ x.Like gx' ∧ ∀ i < x.rows, ∀ j < x.cols,
              ((i = A row col ∧ j = B row col) → gx'.el i j = gy.el (i / r) (j / r)) ∧
              (¬ (i = A row col ∧ j = B row col) → gx'.el i j = gx.el i j) by
          obtain ⟨g', k1, k2, k3⟩ := foldBlock (x := x) (fun i j => gy.el (i / r) (j / r))
            (fun col i j => i = A row col ∧ j = B row col) _ _ hin' gx hgx
          refine ⟨g', k1, k2, fun i hi j hj => ⟨(k3 i hi j hj).1, fun hne => (k3 i hi j hj).2 ?_⟩⟩
          intro col hcol h
          exact hne ⟨col, hcol, h⟩
        intro gx hgx col hcol
        have hcol := List.mem_range.mp hcol
        obtain ⟨b1, b2⟩ := hin row hrow col hcol _ _ (hA row hrow col hcol).1
        obtain ⟨gx', c1, c2, c3⟩ := set2_block hgx (V := fun i j => gy.el (i / r) (j / r)) (v := gy.el row col) b1 b2
          (hV row hrow col hcol)
        refine ⟨gx', ?_, c2, c3⟩
        simp only [hget row hrow col hcol, at2_el hg (i := row) (j := col) (by omega) (by omega), Option.bind_eq_bind,
          Option.bind_some, c1]) (zeros x.rows x.cols) zeros_like
    refine ⟨gx, ?_, g2, ?_, ?_⟩
    · simp only [maxPooling]
      rw [if_neg (by omega), if_neg (by omega), hp]
      simp only [Option.bind_eq_bind, Option.bind_some] at g1 ⊢
      rw [g1]; rfl
    · intro row hrow col hcol
      obtain ⟨b1, b2⟩ := hin row hrow col hcol _ _ (hA row hrow col hcol).1
      rw [(g3 _ b1 _ b2).1 ⟨row, List.mem_range.mpr hrow, col, List.mem_range.mpr hcol, rfl, rfl⟩,
        hV row hrow col hcol]
    · intro i hi j hj hn
      rw [(g3 i hi j hj).2, zeros_el hi hj]
      rintro row hrow ⟨col, hcol, rfl, rfl⟩
      exact hn row (List.mem_range.mp hrow) col (List.mem_range.mp hcol) ⟨rfl, rfl⟩

/-- **C24 fails.** If no entry of the matrix exceeds `eps`, the gradient of every window is written to
position `(0, 0)`; the last one stays. -/
theorem maxPooling_small_grad {x gy : Dense ℝ} (hx : x.WF) {eps : ℝ} {r : Nat} (hr : 0 < r) (h1 : x.rows % r = 0)
    (h2 : x.cols % r = 0) (h3 : r ≤ x.rows) (h4 : r ≤ x.cols)
    (hle : ∀ i < x.rows, ∀ j < x.cols, x.el i j ≤ eps) (hg : gy.WF) (hgr : gy.rows = x.rows / r)
    (hgc : gy.cols = x.cols / r) :
    ∃ gx, (maxPooling eps r r).backward [x] gy = some [some gx] ∧ x.Like gx ∧
      gx.el 0 0 = gy.el (x.rows / r - 1) (x.cols / r - 1) ∧
      ∀ i < x.rows, ∀ j < x.cols, ¬ (i = 0 ∧ j = 0) → gx.el i j = 0 := by
  have hwin : ∀ row < x.rows / r, ∀ col < x.cols / r, poolWindow eps r r x row col = some (eps, 0, 0) := by
    intro row hrow col hcol
    have w1 := window_le h1 hrow
    have w2 := window_le h2 hcol
    obtain ⟨st, e1, e2, e3, e4⟩ := poolWindow_inv hx eps (rows := r) (cols := r) w1 w2
    rw [e1]
    rcases e4 with e4 | ⟨⟨a1, a2, a3, a4⟩, e5, e6⟩
    · rw [e4]
    · have := hle st.2.1 (by omega) st.2.2 (by omega)
      linarith
  have hp := poolAll_eq (g := fun _ _ => (eps, 0, 0)) hwin
  have hR0 : 0 < x.rows / r := Nat.div_pos h3 hr
  have hC0 : 0 < x.cols / r := Nat.div_pos h4 hr
  set C := x.cols / r with hC
  set ws := (List.range (x.rows / r * C)).map fun k => (fun _ _ => (eps, 0, 0) : Nat → Nat → ℝ × Nat × Nat) (k / C) (k % C)
    with hws
  have hget : ∀ row < x.rows / r, ∀ col < C, ws[row * C + col]? = some (eps, 0, 0) := by
    intro row hrow col hcol
    have hlt : row * C + col < x.rows / r * C := GoSlice.idx_lt hrow hcol
    simp only [hws, List.getElem?_map, List.getElem?_range hlt, Option.map_some]
  -- what a prefix of the loops leaves
  have inner : ∀ row < x.rows / r, ∀ (n : Nat), n ≤ C → ∀ gx, x.Like gx →
      (∀ i < x.rows, ∀ j < x.cols, ¬ (i = 0 ∧ j = 0) → gx.el i j = 0) →
      ∃ gx', (List.range n).foldlM (fun gx (col : Nat) => do
          let w ← ws[row * C + col]?
          let g ← gy.at2 row col
          gx.set2 g w.2.1 w.2.2) gx = some gx' ∧ x.Like gx' ∧
        (∀ i < x.rows, ∀ j < x.cols, ¬ (i = 0 ∧ j = 0) → gx'.el i j = 0) ∧
        (0 < n → gx'.el 0 0 = gy.el row (n - 1)) := by
    intro row hrow n
    induction n with
    | zero => intro _ gx hgx hz; exact ⟨gx, rfl, hgx, hz, by omega⟩
    | succ n ih =>
      intro hn gx hgx hz
      obtain ⟨g', e1, e2, e3, -⟩ := ih (by omega) gx hgx hz
      obtain ⟨g'', c1, c2, c3⟩ := set2_block e2 (V := fun _ _ => gy.el row n) (v := gy.el row n) (i := 0) (j := 0)
        (by omega) (by omega) rfl
      refine ⟨g'', ?_, c2, ?_, fun _ => (c3 0 (by omega) 0 (by omega)).1 ⟨rfl, rfl⟩⟩
      · rw [List.range_succ, List.foldlM_append, e1]
        simp only [Option.bind_eq_bind, Option.bind_some, List.foldlM_cons, List.foldlM_nil,
          hget row hrow n (by omega), at2_el hg (i := row) (j := n) (by omega) (by omega)]
        simp only [Nat.cast_zero] at c1 ⊢
        rw [c1]; rfl
      · intro i hi j hj hne
        rw [(c3 i hi j hj).2 hne, e3 i hi j hj hne]
  have outer : ∀ (n : Nat), n ≤ x.rows / r →
      ∃ gx', (List.range n).foldlM (fun gx (row : Nat) => (List.range C).foldlM (fun gx (col : Nat) => do
          let w ← ws[row * C + col]?
          let g ← gy.at2 row col
          gx.set2 g w.2.1 w.2.2) gx) (zeros x.rows x.cols) = some gx' ∧ x.Like gx' ∧
        (∀ i < x.rows, ∀ j < x.cols, ¬ (i = 0 ∧ j = 0) → gx'.el i j = 0) ∧
        (0 < n → gx'.el 0 0 = gy.el (n - 1) (C - 1)) := by
    intro n
    induction n with
    | zero => intro _; exact ⟨_, rfl, zeros_like, fun i hi j hj _ => zeros_el hi hj, by omega⟩
    | succ n ih =>
      intro hn
      obtain ⟨g', e1, e2, e3, -⟩ := ih (by omega)
      obtain ⟨g'', c1, c2, c3, c4⟩ := inner n (by omega) C (le_refl _) g' e2 e3
      refine ⟨g'', ?_, c2, c3, fun _ => c4 hC0⟩
      rw [List.range_succ, List.foldlM_append, e1]
      simp only [Option.bind_eq_bind, Option.bind_some, List.foldlM_cons, List.foldlM_nil] at c1 ⊢
      rw [c1]; rfl
  obtain ⟨gx, e1, e2, e3, e4⟩ := outer (x.rows / r) (le_refl _)
  refine ⟨gx, ?_, e2, e4 hR0, e3⟩
  simp only [maxPooling]
  rw [if_neg (by omega), if_neg (by omega), hp]
  simp only [Option.bind_eq_bind, Option.bind_some] at e1 ⊢
  rw [e1]; rfl

section Examples

/-- the model on rationals: a 2x2 window of negative entries gives `eps`; a 1x2 window ignores its second
column; a 2x1 window panics -/
example : (maxPooling (1/1000 : ℚ) 2 2).forward [⟨2, 4, [1, 5, -1, -2, 3, 4, -3, -4]⟩] = some ⟨1, 2, [5, 1/1000]⟩ ∧
    (maxPooling (1/1000 : ℚ) 1 2).forward [⟨1, 2, [1, 5]⟩] = some ⟨1, 1, [1]⟩ ∧
    (maxPooling (1/1000 : ℚ) 2 1).forward [⟨2, 1, [1, 5]⟩] = none ∧
    (maxPooling (1/1000 : ℚ) 2 2).backward [⟨2, 4, [1, 5, -1, -2, 3, 4, -3, -4]⟩] ⟨1, 2, [7, 8]⟩ =
      some [some ⟨2, 4, [8, 7, 0, 0, 0, 0, 0, 0]⟩] := by
  decide +kernel

/-- a matrix that satisfies the hypotheses of the partial theorems -/
example : Correct (maxPooling (1 / 1000) 1 1) [⟨1, 2, [3, 4]⟩] := by
  refine maxPooling_correct_partial (x := ⟨1, 2, [3, 4]⟩) (by rfl) (by omega) (fun row _ => row) (fun _ col => col) ?_
  intro row hrow col hcol
  have hrow : row < 1 := hrow
  have hcol : col < 2 := hcol
  refine ⟨⟨by omega, by omega, by omega, by omega⟩, ?_, ?_⟩
  · interval_cases row
    interval_cases col <;> norm_num [el, at2]
  · rintro i j ⟨a1, a2, a3, a4⟩ hne
    omega

end Examples

end Verif.GradFn
