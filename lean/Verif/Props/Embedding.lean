import Verif.Model.Embedding
import Mathlib.Algebra.BigOperators.Group.List.Basic
import Mathlib.Data.List.Perm.Basic
import Mathlib.Data.Finset.Card

set_option autoImplicit false
set_option linter.unusedSimpArgs false

/-!
# C31: embeddings
-/

namespace Verif.Embedding

variable {W G : Type}

theorem checkInput_iff (size : Nat) (l : List Int) :
    checkInput size l = true ↔ ∀ i ∈ l, 0 ≤ i ∧ i < size := by
  induction l with
  | nil => simp [checkInput]
  | cons a l ih =>
    rw [checkInput]
    split
    · rename_i h
      simp only [Bool.false_eq_true, List.mem_cons, forall_eq_or_imp, false_iff]
      rintro ⟨h1, -⟩
      omega
    · rename_i h
      rw [ih]
      simp only [List.mem_cons, forall_eq_or_imp]
      constructor
      · intro h'; exact ⟨by omega, h'⟩
      · exact fun h' => h'.2

/-- C31: `Encode` succeeds exactly when all indices are in range, and gives the weight of every index in order. -/
theorem encode_spec (s : St W G) (input : List Int) :
    ((encode s input).isSome ↔ ∀ i ∈ input, 0 ≤ i ∧ i < s.size) ∧
    ∀ out, encode s input = some out → out.length = input.length ∧
      ∀ (k : Nat) (i : Nat), input[k]? = some (i : Int) → out[k]? = some (i, s.weights i) := by
  rw [encode]
  by_cases h : checkInput s.size input = true
  · rw [if_neg (by simp [h])]
    refine ⟨by simp [← checkInput_iff, h], fun out ho => ?_⟩
    obtain rfl := Option.some.inj ho
    refine ⟨by simp, fun k i hk => ?_⟩
    rw [List.getElem?_map, hk]
    rfl
  · rw [if_pos (by simpa using h)]
    refine ⟨by simp [← checkInput_iff, h], fun out ho => ?_⟩
    cases ho

/-- C31: `Embedding` is `Encode` of one index. -/
theorem embedding_spec (s : St W G) (i : Int) : (embedding s i).map (fun e => [e]) = encode s [i] := by
  simp only [embedding, encode, checkInput]
  split <;> simp

/-- The set agrees with the gradients. -/
def Agree (s : St W G) : Prop :=
  ∃ l, s.idx = some l ∧ l.Nodup ∧ ∀ i, i ∈ l ↔ (s.grads i).isSome

/-- The set covers the gradients. -/
def Covers (s : St W G) : Prop :=
  ∃ l, s.idx = some l ∧ l.Nodup ∧ ∀ i, (s.grads i).isSome → i ∈ l

theorem addKey_mem (l : List Nat) (i j : Nat) : j ∈ addKey l i ↔ j = i ∨ j ∈ l := by
  unfold addKey
  split
  · rename_i h
    constructor
    · exact Or.inr
    · rintro (rfl | h') <;> assumption
  · simp [or_comm]

theorem addKey_nodup {l : List Nat} (h : l.Nodup) (i : Nat) : (addKey l i).Nodup := by
  unfold addKey
  split
  · exact h
  · rename_i hi
    exact List.nodup_append.mpr ⟨h, by simp, by
      intro a ha b hb
      simp only [List.mem_singleton] at hb
      rintro rfl
      exact hi (hb ▸ ha)⟩

theorem paramAcc_isSome [Add G] (s : St W G) (i : Nat) (g : G) (j : Nat) :
    ((paramAcc s i g).grads j).isSome = if j = i then true else (s.grads j).isSome := by
  simp only [paramAcc, setGrad]
  split
  · cases s.grads i <;> rfl
  · rfl

theorem foldl_setGrad (l : List Nat) (s : St W G) :
    (l.foldl (fun s i => setGrad s i none) s).idx = s.idx ∧
    (l.foldl (fun s i => setGrad s i none) s).size = s.size ∧
    ∀ j, (l.foldl (fun s i => setGrad s i none) s).grads j = if j ∈ l then none else s.grads j := by
  induction l generalizing s with
  | nil => simp
  | cons a l ih =>
    obtain ⟨h1, h2, h3⟩ := ih (setGrad s a none)
    refine ⟨h1, h2, fun j => ?_⟩
    rw [List.foldl_cons, h3]
    by_cases hj : j ∈ l
    · simp [hj]
    · by_cases ha : j = a <;> simp [hj, ha, setGrad]

theorem zeroLoop_spec (l : List Nat) (s : St W G) :
    (zeroLoop l s).idx = s.idx.map (fun m => l.foldl List.erase m) ∧
    ∀ j, (zeroLoop l s).grads j = if j ∈ l then none else s.grads j := by
  induction l generalizing s with
  | nil => simp [zeroLoop]
  | cons a l ih =>
    obtain ⟨h1, h2⟩ := ih { setGrad s a none with idx := (setGrad s a none).idx.map fun m => m.erase a }
    refine ⟨?_, fun j => ?_⟩
    · rw [zeroLoop, h1]
      cases h : s.idx <;> simp [setGrad, h]
    · rw [zeroLoop, h2]
      by_cases hj : j ∈ l
      · simp [hj]
      · by_cases ha : j = a <;> simp [hj, ha, setGrad]

theorem foldl_erase_self (l : List Nat) : l.foldl List.erase l = [] := by
  have : ∀ (k l : List Nat), k.Perm l → k.foldl List.erase l = [] := by
    intro k
    induction k with
    | nil => intro l h; simpa using h.symm.eq_nil
    | cons a k ih =>
      intro l h
      rw [List.foldl_cons]
      exact ih _ (by have := h.erase a; simpa using this)
  exact this l l (List.Perm.refl l)

/-- The operations that keep the set in step. -/
def Op.Proper : Op G → Prop
  | .acc _ _ | .zero _ | .zeroAll => True
  | _ => False

/-- The operations that never lose an index. -/
def Op.Safe : Op G → Prop
  | .acc _ _ | .zero _ | .zeroAll | .clear | .paramZero _ => True
  | _ => False

theorem step_agree [Add G] {s : St W G} (h : Agree s) {o : Op G} (ho : o.Proper) :
    Agree (step s o).1 ∧ (step s o).2 = false := by
  obtain ⟨l, h1, h2, h3⟩ := h
  cases o with
  | acc i g =>
    simp only [step, h1]
    refine ⟨⟨_, rfl, addKey_nodup h2 i, fun j => ?_⟩, trivial⟩
    rw [addKey_mem, paramAcc_isSome]
    by_cases hj : j = i <;> simp [hj, h3]
  | zero i =>
    simp only [step, h1, Option.map_some]
    refine ⟨⟨_, rfl, h2.erase i, fun j => ?_⟩, trivial⟩
    rw [h2.mem_erase_iff]
    by_cases hj : j = i <;> simp [setGrad, hj, h3]
  | zeroAll =>
    simp only [step, h1, Option.getD_some]
    obtain ⟨e1, e2⟩ := zeroLoop_spec l s
    refine ⟨⟨[], by rw [e1, h1, Option.map_some, foldl_erase_self], by simp, fun j => ?_⟩, trivial⟩
    rw [e2]
    by_cases hj : j ∈ l
    · simp [hj]
    · have := (h3 j).not.mp hj
      simpa [hj] using this
  | clear => exact ho.elim
  | paramAcc _ _ => exact ho.elim
  | paramZero _ => exact ho.elim
  | accBad _ => exact ho.elim
  | reload => exact ho.elim

theorem step_covers [Add G] {s : St W G} (h : Covers s) {o : Op G} (ho : o.Safe) :
    Covers (step s o).1 ∧ (step s o).2 = false := by
  obtain ⟨l, h1, h2, h3⟩ := h
  cases o with
  | acc i g =>
    simp only [step, h1]
    refine ⟨⟨_, rfl, addKey_nodup h2 i, fun j hj => ?_⟩, trivial⟩
    rw [addKey_mem]
    rw [paramAcc_isSome] at hj
    by_cases hji : j = i
    · exact Or.inl hji
    · rw [if_neg hji] at hj
      exact Or.inr (h3 j hj)
  | zero i =>
    simp only [step, h1, Option.map_some]
    refine ⟨⟨_, rfl, h2.erase i, fun j hj => ?_⟩, trivial⟩
    rw [h2.mem_erase_iff]
    by_cases hji : j = i
    · simp [setGrad, hji] at hj
    · simp only [setGrad, hji, if_false] at hj
      exact ⟨hji, h3 j hj⟩
  | zeroAll =>
    simp only [step, h1, Option.getD_some]
    obtain ⟨e1, e2⟩ := zeroLoop_spec l s
    refine ⟨⟨[], by rw [e1, h1, Option.map_some, foldl_erase_self], by simp, fun j hj => ?_⟩, trivial⟩
    rw [e2] at hj
    by_cases hjl : j ∈ l
    · simp [hjl] at hj
    · rw [if_neg hjl] at hj
      exact absurd (h3 j hj) hjl
  | clear =>
    obtain ⟨e1, -, e3⟩ := foldl_setGrad (traverse s) s
    refine ⟨⟨l, by rw [step, e1, h1], h2, fun j hj => ?_⟩, rfl⟩
    rw [step, e3] at hj
    by_cases hjl : j ∈ traverse s
    · simp [hjl] at hj
    · rw [if_neg hjl] at hj
      exact h3 j hj
  | paramZero i =>
    refine ⟨⟨l, h1, h2, fun j hj => ?_⟩, rfl⟩
    by_cases hji : j = i
    · simp [step, setGrad, hji] at hj
    · simp only [step, setGrad, hji, if_false] at hj
      exact h3 j hj
  | paramAcc _ _ => exact ho.elim
  | accBad _ => exact ho.elim
  | reload => exact ho.elim

theorem new_agree (size : Nat) (w : W) : Agree (new size w : St W G) :=
  ⟨[], rfl, by simp, by simp [new]⟩

/-- C31: after any history of `AccGrad` and `ZeroGrad` on embeddings and `ZeroGrad` of the model, the model presents
exactly the weights with a gradient, each once, and counts them; nothing panics. -/
theorem run_agree_partial [Add G] (size : Nat) (w : W) (ops : List (Op G)) (h : ∀ o ∈ ops, o.Proper) :
    let r := run (new size w) ops
    r.2 = false ∧ (traverse r.1).Nodup ∧ (∀ i, i ∈ traverse r.1 ↔ (r.1.grads i).isSome) ∧
      count r.1 = (traverse r.1).length := by
  have key : ∀ (ops : List (Op G)) (s : St W G), Agree s → (∀ o ∈ ops, o.Proper) →
      Agree (run s ops).1 ∧ (run s ops).2 = false := by
    intro ops
    induction ops with
    | nil => intro s hs _; exact ⟨hs, rfl⟩
    | cons o os ih =>
      intro s hs ho
      obtain ⟨a1, a2⟩ := step_agree hs (ho o (by simp))
      obtain ⟨b1, b2⟩ := ih _ a1 fun o' h' => ho o' (by simp [h'])
      exact ⟨b1, by simp [run, a2, b2]⟩
  obtain ⟨⟨l, h1, h2, h3⟩, h4⟩ := key ops _ (new_agree size w) h
  refine ⟨h4, ?_, ?_, rfl⟩
  · simpa [traverse, h1] using h2
  · simpa [traverse, h1] using h3

/-- C31: with optimizer steps, `nn.ZeroGrad` and `ZeroGrad` on single weights in the history as well, no weight with
a gradient is missed. -/
theorem run_covers [Add G] (size : Nat) (w : W) (ops : List (Op G)) (h : ∀ o ∈ ops, o.Safe) :
    let r := run (new size w) ops
    r.2 = false ∧ (traverse r.1).Nodup ∧ ∀ i, (r.1.grads i).isSome → i ∈ traverse r.1 := by
  have key : ∀ (ops : List (Op G)) (s : St W G), Covers s → (∀ o ∈ ops, o.Safe) →
      Covers (run s ops).1 ∧ (run s ops).2 = false := by
    intro ops
    induction ops with
    | nil => intro s hs _; exact ⟨hs, rfl⟩
    | cons o os ih =>
      intro s hs ho
      obtain ⟨a1, a2⟩ := step_covers hs (ho o (by simp))
      obtain ⟨b1, b2⟩ := ih _ a1 fun o' h' => ho o' (by simp [h'])
      exact ⟨b1, by simp [run, a2, b2]⟩
  obtain ⟨⟨l, h1, h2, h3⟩, h4⟩ := key ops (new size w) ⟨[], rfl, by simp, by simp [new]⟩ h
  exact ⟨h4, by simpa [traverse, h1] using h2, by simpa [traverse, h1] using h3⟩

/-- C31: after such a history `ZeroGrad` of the model leaves no gradient, and the set agrees again. -/
theorem zeroAll_clears [Add G] (size : Nat) (w : W) (ops : List (Op G)) (h : ∀ o ∈ ops, o.Safe) :
    let r := run (new size w) (ops ++ [.zeroAll])
    (∀ i, r.1.grads i = none) ∧ traverse r.1 = [] ∧ count r.1 = 0 := by
  have append : ∀ (a b : List (Op G)) (s : St W G), (run s (a ++ b)).1 = (run (run s a).1 b).1 := by
    intro a
    induction a with
    | nil => intros; rfl
    | cons o os ih => intro b s; simp only [List.cons_append, run, ih]
  obtain ⟨h1, h2, h3⟩ := run_covers size w ops h
  simp only [append]
  generalize (run (new size w) ops).1 = s at *
  obtain ⟨e1, e2⟩ := zeroLoop_spec (s.idx.getD []) s
  simp only [run, step]
  have ht : traverse (zeroLoop (s.idx.getD []) s) = [] := by
    rw [traverse, e1]
    cases hs : s.idx with
    | none => simp
    | some l => simp [foldl_erase_self]
  refine ⟨fun i => ?_, ht, by rw [count]; rw [traverse] at ht; rw [ht]; rfl⟩
  rw [e2]
  by_cases hi : i ∈ s.idx.getD []
  · simp [hi]
  · rw [if_neg hi]
    cases hg : s.grads i with
    | none => rfl
    | some g => exact absurd (h3 i (by rw [hg]; rfl)) hi

/-- C31: all occurrences of an index add to the same gradient: after gradients for any indices, in any order, the
gradient of a weight is the sum of those for its index. -/
theorem acc_sum [AddCommMonoid G] (size : Nat) (w : W) (l : List (Nat × G)) (i : Nat) :
    (run (new size w) (l.map fun e => Op.acc e.1 e.2)).1.grads i
      = if i ∈ l.map Prod.fst then some ((l.filter fun e => e.1 = i).map Prod.snd).sum else none := by
  have key : ∀ (l : List (Nat × G)) (s : St W G), Agree s →
      (run s (l.map fun e => Op.acc e.1 e.2)).1.grads i = if i ∈ l.map Prod.fst then
        some ((s.grads i).getD 0 + ((l.filter fun e => e.1 = i).map Prod.snd).sum) else s.grads i := by
    intro l
    induction l with
    | nil => intro s _; simp [run]
    | cons e l ih =>
      intro s hs
      have hs' := (step_agree hs (o := .acc e.1 e.2) trivial).1
      obtain ⟨m, hm, -, -⟩ := hs
      rw [List.map_cons, run]
      simp only
      rw [ih _ hs']
      simp only [step, hm, paramAcc, setGrad]
      by_cases he : e.1 = i
      · subst he
        cases hg : s.grads e.1 <;> by_cases hi : e.1 ∈ l.map Prod.fst
        · simp [hi]
        · have hf : l.filter (fun x => x.1 = e.1) = [] := by
            rw [List.filter_eq_nil_iff]
            intro x hx
            simp only [decide_eq_true_eq]
            exact fun h => hi (h ▸ List.mem_map_of_mem hx)
          simp [hi, hf]
        · simp [hi, add_assoc]
        · have hf : l.filter (fun x => x.1 = e.1) = [] := by
            rw [List.filter_eq_nil_iff]
            intro x hx
            simp only [decide_eq_true_eq]
            exact fun h => hi (h ▸ List.mem_map_of_mem hx)
          simp [hi, hf]
      · have he' : ¬ i = e.1 := fun h => he h.symm
        simp only [he, he', List.map_cons, List.mem_cons, false_or, List.filter_cons, decide_false, Bool.false_eq_true,
          if_false]
  rw [key l _ (new_agree size w)]
  simp [new]

/-- C31 fails: after an optimizer step (or `nn.ZeroGrad` of an enclosing model) no weight has a gradient, but the
model still presents and counts all of them. -/
theorem clear_stale [Add G] (size : Nat) (w : W) (ops : List (Op G)) (h : ∀ o ∈ ops, o.Safe) :
    let s := (run (new size w) ops).1
    let s' := (step s .clear).1
    (∀ i, s'.grads i = none) ∧ traverse s' = traverse s ∧ count s' = count s := by
  obtain ⟨h1, h2, h3⟩ := run_covers size w ops h
  generalize (run (new size w) ops).1 = s at *
  obtain ⟨e1, -, e3⟩ := foldl_setGrad (traverse s) s
  refine ⟨fun i => ?_, by simp only [step]; rw [traverse, e1]; rfl,
    by simp only [step]; rw [count, e1]; rfl⟩
  simp only [step]
  rw [e3]
  by_cases hi : i ∈ traverse s
  · simp [hi]
  · rw [if_neg hi]
    cases hg : s.grads i with
    | none => rfl
    | some g => exact absurd (h3 i (by rw [hg]; rfl)) hi

/-- C31 fails: after loading, accumulating a gradient panics, for every index, and goes on doing so until the model is
replaced. -/
theorem reload_panics [Add G] (s : St W G) (ops : List (Op G)) (i : Nat) (g : G) :
    (step (run (step s .reload).1 ops).1 (.acc i g)).2 = true := by
  have key : ∀ (ops : List (Op G)) (s : St W G), s.idx = none → (run s ops).1.idx = none := by
    intro ops
    induction ops with
    | nil => intro s hs; exact hs
    | cons o os ih =>
      intro s hs
      refine ih _ ?_
      cases o with
      | acc i g => simp [step, hs]
      | zero i => simp [step, hs, setGrad]
      | zeroAll => simp [step, hs, zeroLoop]
      | clear => simp [step, hs, traverse]
      | paramAcc i g => simp [step, hs, paramAcc, setGrad]
      | paramZero i => simp [step, hs, setGrad]
      | accBad i => simp [step, hs]
      | reload => simp [step]
  have := key ops _ (show (step s (.reload : Op G)).1.idx = none from rfl)
  generalize (run (step s Op.reload).1 ops).1 = s' at *
  simp [step, this]

/-- C31 fails: a gradient accumulated directly on a weight is not presented, and `ZeroGrad` of the model leaves it. -/
theorem direct_missed [Add G] (size : Nat) (w : W) (i : Nat) (g : G) :
    let s := (run (new size w) [.paramAcc i g, .zeroAll]).1
    s.grads i = some g ∧ traverse s = [] ∧ count s = 0 := by
  simp [run, step, paramAcc, setGrad, new, zeroLoop, traverse, count]

/-- C31 fails: an `AccGrad` that panics because the gradient has another data type leaves an index without a
gradient. -/
theorem accBad_stale [Add G] (size : Nat) (w : W) (i : Nat) :
    let s := (run (new size w) [(.accBad i : Op G)]).1
    s.grads i = none ∧ traverse s = [i] := by
  simp [run, step, new, addKey, traverse]

/-- A history with a repeated index, a single and a complete `ZeroGrad`. -/
example : let s := (run (new 5 ()) [.acc 3 (1 : Int), .acc 1 10, .acc 3 2, .zero 1]).1
    s.grads 3 = some 3 ∧ s.grads 1 = none ∧ traverse s = [3] ∧ count s = 1 := by decide

example : encode (new 5 () : St Unit Int) [4, 0, 4] = some [(4, ()), (0, ()), (4, ())] ∧
    encode (new 5 () : St Unit Int) [4, 5] = none := by decide

end Verif.Embedding
