import Verif.Model.Heap
import Verif.Props.DenseT

set_option autoImplicit false
set_option linter.unusedSimpArgs false

namespace Verif.Heap
variable {R : Type}

/-- Well-formed heaps: shapes exist and fit the data, gradient objects exist and are owned by one
object only. -/
structure WF (h : Heap R) : Prop where
  fits : ∀ (z : Nat) (o : Obj R), h.objs[z]? = some o → ∃ s : Nat × Nat,
    h.shapes[o.shape]? = some s ∧ o.data.length = s.1 * s.2
  bound : ∀ (z : Nat) (o : Obj R) g, h.objs[z]? = some o → o.grad = some g → g < h.objs.length
  owned : ∀ (z : Nat) (o : Obj R) (z' : Nat) (o' : Obj R) g, h.objs[z]? = some o → h.objs[z']? = some o' → o.grad = some g →
    o'.grad = some g → z = z'

/-- The object whose data the operation overwrites. -/
def writes (h : Heap R) : Op R → Option Nat
  | .setEl x _ _ => some x
  | .addInPlace x _ => some x
  | .transposeInPlace x => some x
  | .accGrad x _ => gradAddr h x
  | _ => none

/-- The object whose shape the operation overwrites. -/
def reshapes (h : Heap R) : Op R → Option Nat
  | .reshapeInPlace x _ _ => some x
  | .flattenInPlace x => some x
  | .transposeInPlace x => some x
  | .softmax _ x =>
    if (value h x).any fun d => d.cols ≠ 1 ∧ d.data.length ≠ 0 then some x else none
  | _ => none

theorem getElem?_set' {α : Type} (l : List α) (x z : Nat) (a : α) :
    (l.set x a)[z]? = if z = x ∧ x < l.length then some a else l[z]? := by
  rw [List.getElem?_set]
  by_cases h : z = x
  · subst h
    by_cases h' : z < l.length <;> simp [h']
  · simp [h, Ne.symm h]

theorem getElem?_push {α : Type} (l : List α) (z : Nat) (a : α) :
    (l ++ [a])[z]? = if z = l.length then some a else l[z]? := by
  rw [List.getElem?_append]
  by_cases h : z < l.length
  · rw [if_pos h, if_neg (by omega)]
  · rw [if_neg h]
    by_cases h' : z = l.length
    · subst h'; simp
    · rw [if_neg h', List.getElem?_eq_none (by simp; omega), List.getElem?_eq_none (by omega)]

theorem lt_of_getElem? {α : Type} {l : List α} {z : Nat} {a : α} (h : l[z]? = some a) :
    z < l.length := by
  by_contra hn
  rw [List.getElem?_eq_none (by omega)] at h
  cases h

theorem length_transposeInPlace {d t : Dense R} (h : d.WF) {fuel : Nat}
    (ht : d.transposeInPlace fuel = some t) (hf : d.data.length ≤ fuel) :
    t.data.length = d.data.length ∧ t.rows = d.cols ∧ t.cols = d.rows := by
  by_cases h0 : d.data.length = 0
  · have : d.transposeInPlace fuel = some ⟨d.cols, d.rows, d.data⟩ := by
      simp [Dense.transposeInPlace, h0]
    rw [this] at ht; cases ht; exact ⟨rfl, rfl, rfl⟩
  · -- a zero is needed to state `T`; any element will do
    obtain ⟨v, hv⟩ : ∃ v, v ∈ d.data := List.exists_mem_of_length_pos (by omega)
    letI : Zero R := ⟨v⟩
    rw [Dense.transposeInPlace_eq_T h hf] at ht
    obtain ⟨t', e1, e2, e3, e4, _⟩ := Dense.T_spec h
    rw [ht] at e1; cases e1
    refine ⟨?_, e3, e4⟩
    have e2 : t.data.length = t.rows * t.cols := e2
    have h : d.data.length = d.rows * d.cols := h
    rw [e2, h, e3, e4, Nat.mul_comm]

theorem transposeInPlace_isSome {d : Dense R} (h : d.WF) {fuel : Nat} (hf : d.data.length ≤ fuel) :
    ∃ t, d.transposeInPlace fuel = some t := by
  by_cases h0 : d.data.length = 0
  · exact ⟨_, by simp only [Dense.transposeInPlace, h0]; simp; rfl⟩
  · obtain ⟨v, hv⟩ : ∃ v, v ∈ d.data := List.exists_mem_of_length_pos (by omega)
    letI : Zero R := ⟨v⟩
    rw [Dense.transposeInPlace_eq_T h hf]
    obtain ⟨t', e1, _⟩ := Dense.T_spec h
    exact ⟨t', e1⟩

/-! ### what the operations do -/

theorem value_eq {h : Heap R} {x : Nat} {o : Obj R} {s : Nat × Nat} (ho : h.objs[x]? = some o)
    (hs : h.shapes[o.shape]? = some s) : value h x = some ⟨s.1, s.2, o.data⟩ := by
  simp [value, ho, hs]

theorem dims_eq {h : Heap R} {x : Nat} {o : Obj R} (ho : h.objs[x]? = some o) :
    dims h x = h.shapes[o.shape]? := by
  simp [dims, ho]

theorem addInPlace_eq [Add R] {h h' : Heap R} {x y : Nat} (hs : addInPlace h x y = some h') :
    ∃ ox oy, h.objs[x]? = some ox ∧ h.objs[y]? = some oy ∧ dims h x = dims h y ∧
      h' = setObj h x { ox with data := List.zipWith (· + ·) ox.data oy.data } := by
  unfold addInPlace at hs
  simp only [Option.bind_eq_bind, Option.bind_eq_some_iff] at hs
  obtain ⟨ox, h1, oy, h2, h3⟩ := hs
  split at h3
  · exact ⟨ox, oy, h1, h2, by assumption, by cases h3; rfl⟩
  · cases h3

theorem transposeInPlace_eq {h h' : Heap R} {x : Nat} (hs : transposeInPlace h x = some h') :
    ∃ o s t, h.objs[x]? = some o ∧ h.shapes[o.shape]? = some s ∧
      (⟨s.1, s.2, o.data⟩ : Dense R).transposeInPlace o.data.length = some t ∧
      h' = setObj (setShape h o t.rows t.cols) x { o with data := t.data } := by
  unfold transposeInPlace at hs
  simp only [Option.bind_eq_bind, Option.bind_eq_some_iff] at hs
  obtain ⟨o, h1, d, h2, t, h3, h4⟩ := hs
  unfold value at h2
  simp only [h1, Option.bind_eq_bind, Option.bind_some, Option.bind_eq_some_iff] at h2
  obtain ⟨s, h5, h6⟩ := h2
  cases h6
  exact ⟨o, s, t, h1, h5, h3, by cases h4; rfl⟩

/-- Every operation is one of: allocate an object, overwrite the data of an object, overwrite a
shape, overwrite a gradient pointer. -/
theorem effect [Add R] {h h' : Heap R} {op : Op R} (hw : WF h) (hs : step h op = some h') :
    (∃ o : Obj R, o.grad = none ∧ (∃ s, h'.shapes[o.shape]? = some s ∧ o.data.length = s.1 * s.2) ∧
        h'.objs = h.objs ++ [o] ∧ writes h op = none ∧ (∀ x y, op ≠ .accGrad x y) ∧
        (∀ x, op ≠ .zeroGrad x) ∧
        ((∃ s, h'.shapes = h.shapes ++ [s] ∧ reshapes h op = none) ∨
          (h'.shapes = h.shapes ∧ reshapes h op = none) ∨
          (∃ x ox s, reshapes h op = some x ∧ h.objs[x]? = some ox ∧
            h.shapes[ox.shape]? = some s ∧ s.2 ≠ 1 ∧ h'.shapes = h.shapes.set ox.shape (s.2, s.1)))) ∨
    (∃ x o data, h.objs[x]? = some o ∧ data.length = o.data.length ∧ writes h op = some x ∧
        (∀ x, op ≠ .zeroGrad x) ∧ (∀ a y, op = .accGrad a y → ∃ oy, h.objs[y]? = some oy ∧
          dims h x = dims h y ∧ data = List.zipWith (· + ·) o.data oy.data) ∧
        h'.objs = h.objs.set x { o with data := data } ∧
        ((h'.shapes = h.shapes ∧ reshapes h op = none) ∨
          (∃ s, reshapes h op = some x ∧ h.shapes[o.shape]? = some s ∧
            h'.shapes = h.shapes.set o.shape (s.2, s.1)))) ∨
    (∃ x o s s', h.objs[x]? = some o ∧ h.shapes[o.shape]? = some s ∧ s.1 * s.2 = s'.1 * s'.2 ∧
        h'.objs = h.objs ∧ reshapes h op = some x ∧ writes h op = none ∧
        (∀ x y, op ≠ .accGrad x y) ∧ (∀ x, op ≠ .zeroGrad x) ∧
        h'.shapes = h.shapes.set o.shape s') ∨
    (∃ x y, ∃ ox oy : Obj R, op = .accGrad x y ∧ h.objs[x]? = some ox ∧ h.objs[y]? = some oy ∧
        ox.grad = none ∧ h'.shapes = h.shapes ∧
        h'.objs = (h.objs ++ [(⟨oy.shape, oy.data, none⟩ : Obj R)]).set x
          { ox with grad := some h.objs.length }) ∨
    (∃ x o, op = .zeroGrad x ∧ h.objs[x]? = some o ∧ h'.shapes = h.shapes ∧
        h'.objs = h.objs.set x { o with grad := none }) := by
  cases op with
  | clone x =>
    left
    simp only [step, Option.bind_eq_bind, Option.bind_eq_some_iff] at hs
    obtain ⟨o, h1, h2⟩ := hs
    cases h2
    obtain ⟨s, e1, e2⟩ := hw.fits x o h1
    exact ⟨⟨o.shape, o.data, none⟩, rfl, ⟨s, e1, e2⟩, rfl, rfl, by simp, by simp,
      Or.inr (Or.inl ⟨rfl, rfl⟩)⟩
  | mapNew x f =>
    left
    simp only [step, Option.bind_eq_bind, Option.bind_eq_some_iff] at hs
    obtain ⟨o, h1, h2⟩ := hs
    cases h2
    obtain ⟨s, e1, e2⟩ := hw.fits x o h1
    exact ⟨⟨o.shape, o.data.map f, none⟩, rfl, ⟨s, e1, by simpa using e2⟩, rfl, rfl, by simp, by simp,
      Or.inr (Or.inl ⟨rfl, rfl⟩)⟩
  | zipNew f x y =>
    left
    simp only [step, Option.bind_eq_bind, Option.bind_eq_some_iff] at hs
    obtain ⟨ox, h1, oy, h2, h3⟩ := hs
    split at h3
    · rename_i hd
      cases h3
      obtain ⟨s, e1, e2⟩ := hw.fits x ox h1
      obtain ⟨s', e3, e4⟩ := hw.fits y oy h2
      rw [dims_eq h1, dims_eq h2, e1, e3] at hd
      cases hd
      exact ⟨⟨ox.shape, List.zipWith f ox.data oy.data, none⟩, rfl, ⟨s, e1, by simp [e2, e4]⟩, rfl,
        rfl, by simp, by simp, Or.inr (Or.inl ⟨rfl, rfl⟩)⟩
    · cases h3
  | fresh f xs =>
    left
    simp only [step, Option.bind_eq_bind, Option.bind_eq_some_iff] at hs
    obtain ⟨vs, h1, d, h2, h3⟩ := hs
    unfold allocFresh at h3
    split at h3
    · rename_i hd
      cases h3
      exact ⟨⟨h.shapes.length, d.data, none⟩, rfl, ⟨(d.rows, d.cols), by simp, hd⟩, rfl,
        rfl, by simp, by simp, Or.inl ⟨_, rfl, rfl⟩⟩
    · cases h3
  | setEl x i v =>
    right; left
    simp only [step, Option.bind_eq_bind, Option.bind_eq_some_iff] at hs
    obtain ⟨o, h1, data, h2, h3⟩ := hs
    cases h3
    refine ⟨x, o, data, h1, ?_, rfl, by simp, by simp, rfl, Or.inl ⟨rfl, rfl⟩⟩
    unfold GoSlice.set at h2
    split at h2
    · cases h2; simp
    · cases h2
  | addInPlace x y =>
    right; left
    obtain ⟨ox, oy, h1, h2, h3, rfl⟩ := addInPlace_eq hs
    refine ⟨x, ox, _, h1, ?_, rfl, by simp, by simp, rfl, Or.inl ⟨rfl, rfl⟩⟩
    obtain ⟨s, e1, e2⟩ := hw.fits x ox h1
    obtain ⟨s', e3, e4⟩ := hw.fits y oy h2
    rw [dims_eq h1, dims_eq h2, e1, e3] at h3
    cases h3
    simp [e2, e4]
  | reshapeInPlace x rows cols =>
    right; right; left
    simp only [step, Option.bind_eq_bind, Option.bind_eq_some_iff] at hs
    obtain ⟨o, h1, h2⟩ := hs
    split at h2
    · rename_i hd
      cases h2
      obtain ⟨s, e1, e2⟩ := hw.fits x o h1
      exact ⟨x, o, s, (rows, cols), h1, e1, by rw [← e2, hd], rfl, rfl, rfl, by simp, by simp, rfl⟩
    · cases h2
  | flattenInPlace x =>
    right; right; left
    simp only [step, Option.bind_eq_bind, Option.bind_eq_some_iff] at hs
    obtain ⟨o, h1, h2⟩ := hs
    cases h2
    obtain ⟨s, e1, e2⟩ := hw.fits x o h1
    exact ⟨x, o, s, (1, o.data.length), h1, e1, by simp [e2], rfl, rfl, rfl, by simp, by simp, rfl⟩
  | transposeInPlace x =>
    right; left
    obtain ⟨o, s, t, h1, h2, h3, rfl⟩ := transposeInPlace_eq hs
    obtain ⟨s', e1, e2⟩ := hw.fits x o h1
    rw [h2] at e1; cases e1
    obtain ⟨l1, l2, l3⟩ := length_transposeInPlace (by exact e2) h3 (le_refl _)
    refine ⟨x, o, t.data, h1, l1, rfl, by simp, by simp, rfl, Or.inr ⟨s, rfl, h2, ?_⟩⟩
    simp only [setObj, setShape]
    rw [l2, l3]
  | softmax f x =>
    left
    simp only [step, Option.bind_eq_bind, Option.bind_eq_some_iff] at hs
    obtain ⟨o, h1, s, h2, h3⟩ := hs
    obtain ⟨s', e1, e2⟩ := hw.fits x o h1
    rw [h2] at e1; cases e1
    split at h3
    · cases h3
    rename_i hvec
    split at h3
    · rename_i h0
      simp only [allocFresh, Dense.WF, List.length_nil, Nat.zero_mul, if_true] at h3
      cases h3
      refine ⟨⟨h.shapes.length, [], none⟩, rfl, ⟨(0, 1), by simp, rfl⟩, rfl, rfl, by simp, by simp,
        Or.inl ⟨_, rfl, ?_⟩⟩
      simp [reshapes, value_eq h1 h2, List.eq_nil_of_length_eq_zero h0]
    · rename_i h0
      split at h3
      · rename_i hc
        obtain ⟨o', s'', t, k1, k2, k3, rfl⟩ := transposeInPlace_eq h3
        have k1' : o' = ⟨o.shape, o.data.map (f o.data), none⟩ := by
          simp only [allocShared, getElem?_push, if_true] at k1
          exact (Option.some.inj k1).symm
        subst k1'
        have k2' : s'' = s := by
          simp only [allocShared] at k2
          rw [h2] at k2; exact (Option.some.inj k2).symm
        subst k2'
        obtain ⟨l1, l2, l3⟩ := length_transposeInPlace (by simp [Dense.WF, e2]) k3 (le_refl _)
        simp only [List.length_map] at l1
        refine ⟨⟨o.shape, t.data, none⟩, rfl, ⟨(s''.2, s''.1), ?_, by simp [l1, e2, Nat.mul_comm]⟩, ?_,
          rfl, by simp, by simp, Or.inr (Or.inr ⟨x, o, s'', ?_, h1, h2, hc, ?_⟩)⟩
        · simp only [setObj, setShape, allocShared]
          rw [getElem?_set', if_pos ⟨rfl, lt_of_getElem? h2⟩, l2, l3]
        · simp only [setObj, setShape, allocShared]
          rw [List.set_append_right _ _ (le_refl _)]
          simp
        · simp [reshapes, value_eq h1 h2, hc, show o.data ≠ [] from fun e => h0 (by simp [e])]
        · simp only [setObj, setShape, allocShared]
          rw [l2, l3]
      · rename_i hc
        cases h3
        refine ⟨⟨o.shape, o.data.map (f o.data), none⟩, rfl, ⟨s, h2, by simpa using e2⟩, rfl, rfl,
          by simp, by simp, Or.inr (Or.inl ⟨rfl, ?_⟩)⟩
        simp at hc
        simp [reshapes, value_eq h1 h2, hc]
  | accGrad x y =>
    simp only [step, Option.bind_eq_bind, Option.bind_eq_some_iff] at hs
    obtain ⟨ox, h1, oy, h2, h3⟩ := hs
    split at h3
    · rename_i hg
      right; right; right; left
      cases h3
      exact ⟨x, y, ox, oy, rfl, h1, h2, hg, rfl, rfl⟩
    · rename_i g hg
      right; left
      obtain ⟨og, oy', k1, k2, k3, rfl⟩ := addInPlace_eq h3
      rw [h2] at k2; cases k2
      refine ⟨g, og, _, k1, ?_, by simp [writes, gradAddr, h1, hg], by simp, ?_, rfl,
        Or.inl ⟨rfl, rfl⟩⟩
      · obtain ⟨s, e1, e2⟩ := hw.fits g og k1
        obtain ⟨s', e3, e4⟩ := hw.fits y oy h2
        rw [dims_eq k1, dims_eq h2, e1, e3] at k3
        cases k3
        simp [e2, e4]
      · intro a y' e; cases e
        exact ⟨oy, h2, k3, rfl⟩
  | zeroGrad x =>
    right; right; right; right
    simp only [step, Option.bind_eq_bind, Option.bind_eq_some_iff] at hs
    obtain ⟨o, h1, h2⟩ := hs
    cases h2
    exact ⟨x, o, rfl, h1, rfl, rfl⟩

end Verif.Heap
