import Verif.Props.MultiHead
import Verif.Props.OnceGraph

set_option autoImplicit false
set_option linter.unusedSimpArgs false

/-!
# C35: the graph of multi-head attention and `Backward` through it
-/

namespace Verif.MultiHead
open Verif.Attention Dense

/-- A graph seen inside a larger one. -/
def mapNode {A B : Type} (e : A → B) : Node A → Node B
  | .leaf b => .leaf b
  | .blocker => .blocker
  | .op os => .op (os.map e)

section
variable {heads : List (List (Dense ℝ))} {L : Nat} {w b : Dense ℝ} {s : PState ℝ} {xs : List Ref}
  {ys : List (Dense ℝ)} {inner : Nat → Node Nat} {headName : Nat → Nat → Nat} {bias weights : Nat}

theorem graph_concat (hn : heads ≠ []) (hlen : ∀ h ∈ heads, L ≤ h.length)
    (hvec : ∀ h ∈ heads, ∀ v ∈ h, v.isVector = true) (h : project w b heads L = some (s, xs, ys))
    {i : Nat} (hi : i < L) :
    graphOf inner headName bias weights s xs (.concat i) = .op ((List.range heads.length).map fun j =>
      if i * heads.length + j < L then .concat (i * heads.length + j) else .inner (headName j i)) := by
  obtain ⟨-, h2⟩ := project_operands w b hn hlen hvec h
  obtain ⟨sl, h3, h4⟩ := h2 i hi
  simp only [graphOf, h3, Option.bind_some, h4, Option.getD_some, List.map_map, Node.op.injEq]
  apply List.map_congr_left
  intro j _
  simp only [Function.comp_apply]
  split <;> rfl

theorem graph_out (hn : heads ≠ []) (hlen : ∀ h ∈ heads, L ≤ h.length)
    (hvec : ∀ h ∈ heads, ∀ v ∈ h, v.isVector = true) (h : project w b heads L = some (s, xs, ys))
    {i : Nat} (hi : i < L) :
    graphOf inner headName bias weights s xs (.out i) =
      .op [.inner bias, .inner weights, .concat i] := by
  obtain ⟨rfl, -⟩ := project_operands w b hn hlen hvec h
  simp [graphOf, hi, Ref.name]

/-- **C35 fails: a cycle.** Whatever the number of heads and the sequence length, the first
concatenation is its own first operand; with one head every concatenation is. -/
theorem concat_self (hn : heads ≠ []) (hlen : ∀ h ∈ heads, L ≤ h.length)
    (hvec : ∀ h ∈ heads, ∀ v ∈ h, v.isVector = true) (h : project w b heads L = some (s, xs, ys))
    {i : Nat} (hi : i < L) (h1 : i = 0 ∨ heads.length = 1) :
    ∃ os, graphOf inner headName bias weights s xs (.concat i) = .op (.concat i :: os) := by
  rw [graph_concat hn hlen hvec h hi]
  have hp := List.length_pos_of_ne_nil hn
  have e : i * heads.length = i := by
    rcases h1 with rfl | h1
    · simp
    · rw [h1, Nat.mul_one]
  obtain ⟨m, hm⟩ : ∃ m, heads.length = m + 1 := ⟨heads.length - 1, by omega⟩
  rw [e, hm, List.range_succ_eq_map, List.map_cons, Nat.add_zero, if_pos hi]
  exact ⟨_, rfl⟩

/-- **C35 fails: Backward never returns.** In any graph that contains the graph of the layer, a call of
`Backward` on tensors that depend on the first output (with one head: on any output) stays in its
preparation phase for ever, because `RequiresGrad` of the concatenation waits for itself. -/
theorem backward_never_returns {N : Type} [DecidableEq N] (H : N → Node N) (e : Name → N)
    (hH : ∀ x, H (e x) = mapNode e (graphOf inner headName bias weights s xs x))
    (hn : heads ≠ []) (hlen : ∀ h ∈ heads, L ≤ h.length)
    (hvec : ∀ h ∈ heads, ∀ v ∈ h, v.isVector = true) (h : project w b heads L = some (s, xs, ys))
    {i : Nat} (hi : i < L) (h1 : i = 0 ∨ heads.length = 1) {roots : List N}
    (hr : OpReach H roots (e (.out i))) : prepareList H Prep.init roots = none := by
  obtain ⟨os, hos⟩ := concat_self (inner := inner) (headName := headName) (bias := bias)
    (weights := weights) hn hlen hvec h hi h1
  have hc : H (e (.concat i)) = .op (e (.concat i) :: os.map e) := by
    rw [hH, hos]; rfl
  refine prepare_hangs (.child hr ?_ hc) hc
  refine ⟨_, by rw [hH, graph_out hn hlen hvec h hi]; rfl, by simp⟩

/-- The flag itself: asking the first output of the layer whether it requires gradients hangs when
neither the bias nor the weights of the merge layer do; asking the concatenation always hangs. -/
theorem concat_requiresGrad_hangs (hn : heads ≠ []) (hlen : ∀ h ∈ heads, L ≤ h.length)
    (hvec : ∀ h ∈ heads, ∀ v ∈ h, v.isVector = true) (h : project w b heads L = some (s, xs, ys))
    (hL : 0 < L) : requiresGrad (graphOf inner headName bias weights s xs) (fun _ => .fresh) (.concat 0)
      = none := by
  obtain ⟨os, hos⟩ := concat_self (inner := inner) (headName := headName) (bias := bias)
    (weights := weights) hn hlen hvec h hL (Or.inl rfl)
  exact requiresGrad_hangs hos (sound_init (G := graphOf inner headName bias weights s xs)) (by simp)

theorem acc_inner {k : Nat} (h : Acc (Child inner) k) :
    Acc (Child (graphOf inner headName bias weights s xs)) (.inner k) := by
  induction h with
  | intro k _ ih =>
    refine ⟨_, ?_⟩
    rintro y ⟨os, hos, hy⟩
    simp only [graphOf] at hos
    cases hk : inner k with
    | leaf b => rw [hk] at hos; cases hos
    | blocker => rw [hk] at hos; cases hos
    | op os' =>
      rw [hk] at hos
      simp only [innerNode, Node.op.injEq] at hos
      subst hos
      obtain ⟨z, hz, rfl⟩ := List.mem_map.mp hy
      exact ih z ⟨os', hk, hz⟩

/-- With two or more heads, no later concatenation lies on a cycle. -/
theorem acc_concat (hn : heads ≠ []) (hlen : ∀ h ∈ heads, L ≤ h.length)
    (hvec : ∀ h ∈ heads, ∀ v ∈ h, v.isVector = true) (h : project w b heads L = some (s, xs, ys))
    (hin : ∀ j i, Acc (Child inner) (headName j i)) (h2 : 2 ≤ heads.length) (i : Nat) (hi : i < L)
    (hi1 : 1 ≤ i) : Acc (Child (graphOf inner headName bias weights s xs)) (.concat i) := by
  refine ⟨_, ?_⟩
  rintro y ⟨os, hos, hy⟩
  rw [graph_concat hn hlen hvec h hi] at hos
  cases hos
  obtain ⟨j, hj, rfl⟩ := List.mem_map.mp hy
  split
  · rename_i hlt
    have : i < i * heads.length + j := by
      have := Nat.mul_le_mul_left i h2
      omega
    exact acc_concat hn hlen hvec h hin h2 _ hlt (by omega)
  · exact acc_inner (hin j i)
termination_by L - i

/-- With one head the concatenations with `L ≤ i * n` do not exist; with more they have the right
operands, and no cycle. -/
theorem acc_out (hn : heads ≠ []) (hlen : ∀ h ∈ heads, L ≤ h.length)
    (hvec : ∀ h ∈ heads, ∀ v ∈ h, v.isVector = true) (h : project w b heads L = some (s, xs, ys))
    (hin : ∀ j i, Acc (Child inner) (headName j i)) (hb : Acc (Child inner) bias)
    (hw : Acc (Child inner) weights) (h2 : 2 ≤ heads.length) {i : Nat} (hi : i < L) (hi1 : 1 ≤ i) :
    Acc (Child (graphOf inner headName bias weights s xs)) (.out i) := by
  refine ⟨_, ?_⟩
  rintro y ⟨os, hos, hy⟩
  rw [graph_out hn hlen hvec h hi] at hos
  cases hos
  simp only [List.mem_cons, List.not_mem_nil, or_false] at hy
  rcases hy with rfl | rfl | rfl
  · exact acc_inner hb
  · exact acc_inner hw
  · exact acc_concat hn hlen hvec h hin h2 i hi hi1

/-- **C35, the part that holds.** With at least two heads, `Backward` from outputs other than the first
gets through its preparation phase (the heads' graphs being acyclic), and for `L ≤ i * n` the operands of
the concatenation are the outputs of the heads at `i`. (Missing for the full claim: position 0, which
hangs; positions `1 ≤ i` with `i * n < L`, whose backward function panics, see `concat_backward_panics`;
one head, which always hangs.) -/
theorem backward_prepares_partial (hn : heads ≠ []) (hlen : ∀ h ∈ heads, L ≤ h.length)
    (hvec : ∀ h ∈ heads, ∀ v ∈ h, v.isVector = true) (h : project w b heads L = some (s, xs, ys))
    (hin : ∀ j i, Acc (Child inner) (headName j i)) (hb : Acc (Child inner) bias)
    (hw : Acc (Child inner) weights) (h2 : 2 ≤ heads.length) {is : List Nat}
    (his : ∀ i ∈ is, 1 ≤ i ∧ i < L) :
    (∃ t, prepareList (graphOf inner headName bias weights s xs) Prep.init (is.map .out) = some t) ∧
    ∀ i ∈ is, L ≤ i * heads.length → graphOf inner headName bias weights s xs (.concat i) =
      .op ((List.range heads.length).map fun j => .inner (headName j i)) := by
  constructor
  · obtain ⟨t, ht, -⟩ := prepare_returns (G := graphOf inner headName bias weights s xs)
      (roots := is.map .out) (by
        intro x hx
        obtain ⟨i, hi, rfl⟩ := List.mem_map.mp hx
        exact acc_out hn hlen hvec h hin hb hw h2 (his i hi).2 (his i hi).1)
    exact ⟨t, ht⟩
  · intro i hi hL
    rw [graph_concat hn hlen hvec h (his i hi).2]
    congr 1
    apply List.map_congr_left
    intro j _
    rw [if_neg (by omega)]

theorem splitLoop_bound {R : Type} {data : List R} {off : Nat} {sizes : List Int} {r : List (Dense R)}
    (h : splitLoop data off sizes = some r) (ho : off ≤ data.length) (hs : ∀ z ∈ sizes, 0 ≤ z) :
    (off : Int) + sizes.sum ≤ data.length := by
  induction sizes generalizing off r with
  | nil => simpa using ho
  | cons z zs ih =>
    have hz := hs z (by simp)
    rw [splitLoop, if_neg (by omega)] at h
    simp only at h
    split at h
    · cases h
    · simp only [Option.bind_eq_bind, Option.bind_eq_some_iff, GoSlice.sub] at h
      obtain ⟨c, hc, rest, hr, -⟩ := h
      split at hc
      · rename_i hle
        have := ih hr hle.2 fun y hy => hs y (by simp [hy])
        rw [List.sum_cons]
        omega
      · cases hc

/-- **C35 fails: a panic.** With two or more heads whose outputs have the positive size `d`, the backward
function of a concatenation `i` with `i * n < L` panics whatever gradient arrives: its operands are now
other concatenations and their sizes add up to more than the gradient has. -/
theorem concat_backward_panics (hn : heads ≠ []) (hlen : ∀ h ∈ heads, L ≤ h.length)
    (hvec : ∀ h ∈ heads, ∀ v ∈ h, v.isVector = true) (h : project w b heads L = some (s, xs, ys))
    (h2 : 2 ≤ heads.length) {d : Nat} (hd : 0 < d) (hsz : ∀ h ∈ heads, ∀ v ∈ h, v.data.length = d)
    {i : Nat} (hi : i * heads.length < L) (gy : Dense ℝ) :
    ∃ sl refs vs, s.ops[i]? = some sl ∧ sl.toList s.mem = some refs ∧
      refs.mapM (valueOf heads s.vals) = some vs ∧
      concatBackward (heads.length * d) vs gy = none := by
  have hiL : i < L := lt_of_le_of_lt (Nat.le_mul_of_pos_right i (by omega)) hi
  obtain ⟨-, q2⟩ := project_operands w b hn hlen hvec h
  obtain ⟨sl, q3, q4⟩ := q2 i hiL
  set n := heads.length with hnn
  let hv : Nat → Nat → Dense ℝ := fun j i => (heads.getD j []).getD i (zeros 0 0)
  have H : Has heads n L hv := has_of hlen hvec
  rw [project_eq H (by omega)] at h
  obtain ⟨zs, -, h⟩ := Option.map_eq_some_iff.mp h
  cases h
  have hsize : ∀ j < n, ∀ i < L, (hv j i).data.length = d := by
    intro j hj i hi
    obtain ⟨hd, h1, h2⟩ := H.val j hj i hi
    exact hsz hd (List.mem_of_getElem? h1) _ (List.mem_of_getElem? h2)
  have hcat : ∀ k < L, (catV n hv k).data.length = n * d := by
    intro k hk
    simp only [catV, column, List.length_flatMap]
    rw [List.map_congr_left fun j hj => hsize j (List.mem_range.mp hj) k hk, List.map_const',
      List.sum_replicate, List.length_range, smul_eq_mul]
  refine ⟨sl, _, (List.range n).map fun j => if i * n + j < L then catV n hv (i * n + j) else hv j i,
    q3, q4, ?_, ?_⟩
  · rw [List.mapM_map]
    apply mapM_range_some
    intro j hj
    simp only [Function.comp_apply]
    split
    · rename_i hlt
      simp [valueOf, stateAt, hlt]
    · obtain ⟨hd, e1, e2⟩ := H.val j hj i hiL
      simp [valueOf, e1, e2]
  · unfold concatBackward
    split
    · rfl
    · rename_i hgy
      have hgy : n * d = gy.data.length := by simpa using hgy
      by_contra hc
      obtain ⟨r, hr⟩ := Option.ne_none_iff_exists'.mp hc
      unfold splitV at hr
      split at hr
      · cases hr
      · have hb := splitLoop_bound hr (Nat.zero_le _) (by
          intro z hz
          simp only [List.mem_map] at hz
          obtain ⟨_, _, rfl⟩ := hz
          omega)
        rw [List.map_map] at hb
        obtain ⟨m, hm⟩ : ∃ m, n = m + 2 := ⟨n - 2, by omega⟩
        have hge : ∀ z ∈ (List.range m).map (fun j => ((((fun x : Dense ℝ => (x.data.length : Int)) ∘
            fun j => if i * n + j < L then catV n hv (i * n + j) else hv j i) ∘ Nat.succ) ∘ Nat.succ) j),
            0 ≤ z := by
          intro z hz
          obtain ⟨j, -, rfl⟩ := List.mem_map.mp hz
          simp
        have hsum := List.sum_nonneg hge
        have h0 : (((fun x : Dense ℝ => (x.data.length : Int)) ∘
            fun j => if i * n + j < L then catV n hv (i * n + j) else hv j i) 0) = ((n * d : Nat) : Int) := by
          simp only [Function.comp_apply, Nat.add_zero, hi, if_true, hcat _ hi]
        have h1 : (d : Int) ≤ (((fun x : Dense ℝ => (x.data.length : Int)) ∘
            fun j => if i * n + j < L then catV n hv (i * n + j) else hv j i) 1) := by
          simp only [Function.comp_apply]
          split
          · rename_i hlt
            rw [hcat _ hlt]
            exact_mod_cast Nat.le_mul_of_pos_left d (by omega)
          · rw [hsize 1 (by omega) i hiL]
        have hrange : List.range n = 0 :: 1 :: (List.range m).map fun j => j + 1 + 1 := by
          rw [hm, List.range_succ_eq_map, List.range_succ_eq_map]
          simp [List.map_map, Function.comp_def]
        rw [hrange, List.map_cons, List.map_cons, List.sum_cons, List.sum_cons, h0, List.map_map] at hb
        have e2 : ((List.range m).map (((fun x : Dense ℝ => (x.data.length : Int)) ∘
            fun j => if i * n + j < L then catV n hv (i * n + j) else hv j i) ∘ fun j => j + 1 + 1)).sum =
          ((List.range m).map (fun j => ((((fun x : Dense ℝ => (x.data.length : Int)) ∘
            fun j => if i * n + j < L then catV n hv (i * n + j) else hv j i) ∘ Nat.succ) ∘ Nat.succ) j)).sum := rfl
        rw [e2] at hb
        rw [hgy] at hb
        simp only [Nat.cast_zero, zero_add] at hb
        omega

end

/-! ### examples -/

/-- two heads with outputs of size one at two positions -/
def exHeads : List (List (Dense ℝ)) := [[column [1], column [2]], [column [3], column [4]]]

/-- The hypotheses of the theorems above are met: `project` with an identity merge layer returns and its
second output comes from the values 2 and 4. -/
example : ∃ s xs ys, project ⟨2, 2, [1, 0, 0, 1]⟩ (column [0, 0]) exHeads 2 = some (s, xs, ys) ∧
    ys[1]? = linear ⟨2, 2, [1, 0, 0, 1]⟩ (column [0, 0]) (column [2, 4]) := by
  obtain ⟨h1, h2⟩ := project_spec (⟨2, 2, [1, 0, 0, 1]⟩ : Dense ℝ) (column [0, 0]) (heads := exHeads)
    (L := 2) (by simp [exHeads]) (by simp [exHeads]) (by simp [exHeads, column, isVector])
  obtain ⟨⟨s, xs, ys⟩, h⟩ := Option.isSome_iff_exists.mp (h1.mpr (by
    intro i hi
    rw [linear_isSome_iff (o := 2) (i := 2) (by simp [WF]) (by simp [WF, column])]
    have : i = 0 ∨ i = 1 := by omega
    rcases this with rfl | rfl <;> simp [headsAt, exHeads, column]))
  refine ⟨s, xs, ys, h, ?_⟩
  rw [(h2 s xs ys h).2 1 (by omega)]
  simp [headsAt, exHeads, column]

/-- With these heads `Backward` on the first output hangs. -/
example : ∃ s xs ys, project ⟨2, 2, [1, 0, 0, 1]⟩ (column [0, 0]) exHeads 2 = some (s, xs, ys) ∧
    prepareList (graphOf (fun _ => .leaf true) (fun _ _ => 0) 0 0 s xs) Prep.init [.out 0] = none := by
  obtain ⟨h1, -⟩ := project_spec (⟨2, 2, [1, 0, 0, 1]⟩ : Dense ℝ) (column [0, 0]) (heads := exHeads)
    (L := 2) (by simp [exHeads]) (by simp [exHeads]) (by simp [exHeads, column, isVector])
  obtain ⟨⟨s, xs, ys⟩, h⟩ := Option.isSome_iff_exists.mp (h1.mpr (by
    intro i hi
    rw [linear_isSome_iff (o := 2) (i := 2) (by simp [WF]) (by simp [WF, column])]
    have : i = 0 ∨ i = 1 := by omega
    rcases this with rfl | rfl <;> simp [headsAt, exHeads, column]))
  refine ⟨s, xs, ys, h, ?_⟩
  have hm : ∀ x, mapNode (id : Name → Name)
      (graphOf (fun _ => .leaf true) (fun _ _ => 0) 0 0 s xs x) =
      graphOf (fun _ => .leaf true) (fun _ _ => 0) 0 0 s xs x := by
    intro x
    cases graphOf (fun _ => .leaf true) (fun _ _ => 0) 0 0 s xs x <;> simp [mapNode]
  exact backward_never_returns _ id (fun x => (hm x).symm) (by simp [exHeads]) (by simp [exHeads])
    (by simp [exHeads, column, isVector]) h (i := 0) (by omega) (Or.inl rfl)
    (.root (os := _) (by simp) (graph_out (by simp [exHeads]) (by simp [exHeads])
      (by simp [exHeads, column, isVector]) h (by omega)))

end Verif.MultiHead
