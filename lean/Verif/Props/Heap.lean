import Verif.Lemmas.Heap
import Mathlib.Algebra.BigOperators.Group.List.Basic

set_option autoImplicit false
set_option linter.unusedSimpArgs false

/-!
# C11 (gradient accumulation) and C18 (shapes are not independent)
-/

namespace Verif.Heap
variable {R : Type}

theorem lt_of_obj {h : Heap R} {z : Nat} {o : Obj R} (ho : h.objs[z]? = some o) :
    z < h.objs.length := lt_of_getElem? ho

/-- Every reachable heap is well formed. -/
theorem step_WF [Add R] {h h' : Heap R} {op : Op R} (hw : WF h) (hs : step h op = some h') : WF h' := by
  have shp : ∀ (k : Nat) (s s' : Nat × Nat), h.shapes[k]? = some s → s.1 * s.2 = s'.1 * s'.2 →
      ∀ (z : Nat) (o : Obj R), h.objs[z]? = some o →
        ∃ u : Nat × Nat, (h.shapes.set k s')[o.shape]? = some u ∧ o.data.length = u.1 * u.2 := by
    intro k s s' hk hp z o ho
    obtain ⟨u, e1, e2⟩ := hw.fits z o ho
    rw [getElem?_set']
    by_cases hz : o.shape = k
    · rw [hz, hk] at e1; cases e1
      exact ⟨s', by rw [if_pos ⟨hz, lt_of_getElem? hk⟩], by rw [e2, hp]⟩
    · exact ⟨u, by rw [if_neg (by tauto)]; exact e1, e2⟩
  rcases effect hw hs with ⟨o, hg, hfit, hobj, -, -, -, hsh⟩ |
    ⟨x, o, data, ho, hlen, -, -, -, hobj, hsh⟩ | ⟨x, o, s, s', ho, hs1, hp, hobj, -, -, -, -, hsh⟩ |
    ⟨x, y, ox, oy, -, hx, hy, hg, hsh, hobj⟩ | ⟨x, o, -, ho, hsh, hobj⟩
  · refine ⟨?_, ?_, ?_⟩
    · intro z o' ho'
      rw [hobj, getElem?_push] at ho'
      split at ho'
      · cases ho'; exact hfit
      · rcases hsh with ⟨s, e, -⟩ | ⟨e, -⟩ | ⟨x, ox, s, -, -, e1, -, e⟩
        · obtain ⟨u, e1, e2⟩ := hw.fits z o' ho'
          refine ⟨u, ?_, e2⟩
          rw [e, List.getElem?_append_left (lt_of_getElem? e1)]; exact e1
        · rw [e]; exact hw.fits z o' ho'
        · rw [e]; exact shp _ s (s.2, s.1) e1 (by simp [Nat.mul_comm]) z o' ho'
    · intro z o' g ho' hg'
      rw [hobj, getElem?_push] at ho'
      rw [hobj, List.length_append]
      split at ho'
      · cases ho'; rw [hg] at hg'; cases hg'
      · have := hw.bound z o' g ho' hg'; omega
    · intro z o1 z' o2 g h1 h2 g1 g2
      rw [hobj, getElem?_push] at h1 h2
      split at h1
      · cases h1; rw [hg] at g1; cases g1
      split at h2
      · cases h2; rw [hg] at g2; cases g2
      exact hw.owned z o1 z' o2 g h1 h2 g1 g2
  · have hget : ∀ (z : Nat) (o' : Obj R), h'.objs[z]? = some o' → ∃ o1, h.objs[z]? = some o1 ∧
        o'.shape = o1.shape ∧ o'.data.length = o1.data.length ∧ o'.grad = o1.grad := by
      intro z o' ho'
      rw [hobj, getElem?_set'] at ho'
      split at ho'
      · rename_i hz; cases ho'
        exact ⟨o, by rw [hz.1]; exact ho, rfl, hlen, rfl⟩
      · exact ⟨o', ho', rfl, rfl, rfl⟩
    refine ⟨?_, ?_, ?_⟩
    · intro z o' ho'
      obtain ⟨o1, h1, h2, h3, -⟩ := hget z o' ho'
      rw [h2, h3]
      rcases hsh with ⟨e, -⟩ | ⟨s, -, e1, e⟩
      · rw [e]; exact hw.fits z o1 h1
      · rw [e]; exact shp _ s (s.2, s.1) e1 (by simp [Nat.mul_comm]) z o1 h1
    · intro z o' g ho' hg
      obtain ⟨o1, h1, -, -, h4⟩ := hget z o' ho'
      rw [hobj, List.length_set]
      exact hw.bound z o1 g h1 (h4 ▸ hg)
    · intro z o1 z' o2 g h1 h2 g1 g2
      obtain ⟨p1, k1, -, -, k2⟩ := hget z o1 h1
      obtain ⟨p2, k3, -, -, k4⟩ := hget z' o2 h2
      exact hw.owned z p1 z' p2 g k1 k3 (k2 ▸ g1) (k4 ▸ g2)
  · refine ⟨?_, ?_, ?_⟩
    · intro z o' ho'
      rw [hobj] at ho'; rw [hsh]
      exact shp _ s s' hs1 hp z o' ho'
    · rw [hobj]; exact hw.bound
    · rw [hobj]; exact hw.owned
  · have hget : ∀ (z : Nat) (o' : Obj R), h'.objs[z]? = some o' →
        (z = x ∧ o' = { ox with grad := some h.objs.length }) ∨
        (z ≠ x ∧ z = h.objs.length ∧ o' = ⟨oy.shape, oy.data, none⟩) ∨ (z ≠ x ∧ h.objs[z]? = some o') := by
      intro z o' ho'
      rw [hobj, getElem?_set', getElem?_push] at ho'
      split at ho'
      · rename_i hz; cases ho'; exact Or.inl ⟨hz.1, rfl⟩
      · rename_i hz
        have hz' : z ≠ x := by
          intro e; apply hz; refine ⟨e, ?_⟩
          have := lt_of_obj hx
          rw [List.length_append]; omega
        split at ho'
        · rename_i hz2; cases ho'; exact Or.inr (Or.inl ⟨hz', hz2, rfl⟩)
        · exact Or.inr (Or.inr ⟨hz', ho'⟩)
    refine ⟨?_, ?_, ?_⟩
    · intro z o' ho'
      rw [hsh]
      rcases hget z o' ho' with ⟨-, rfl⟩ | ⟨-, -, rfl⟩ | ⟨-, e⟩
      · exact hw.fits x ox hx
      · exact hw.fits y oy hy
      · exact hw.fits z o' e
    · intro z o' g ho' hg'
      rw [hobj, List.length_set, List.length_append]
      rcases hget z o' ho' with ⟨-, rfl⟩ | ⟨-, -, rfl⟩ | ⟨-, e⟩
      · cases hg'; simp
      · cases hg'
      · have := hw.bound z o' g e hg'; omega
    · intro z o1 z' o2 g h1 h2 g1 g2
      rcases hget z o1 h1 with ⟨e, rfl⟩ | ⟨-, -, rfl⟩ | ⟨-, e⟩
      · rcases hget z' o2 h2 with ⟨e', rfl⟩ | ⟨-, -, rfl⟩ | ⟨-, e'⟩
        · rw [e, e']
        · cases g2
        · cases g1
          have := hw.bound z' o2 _ e' g2
          omega
      · cases g1
      · rcases hget z' o2 h2 with ⟨e', rfl⟩ | ⟨-, -, rfl⟩ | ⟨-, e'⟩
        · cases g2
          have := hw.bound z o1 _ e g1
          omega
        · cases g2
        · exact hw.owned z o1 z' o2 g e e' g1 g2
  · have hget : ∀ (z : Nat) (o' : Obj R), h'.objs[z]? = some o' → ∃ o1, h.objs[z]? = some o1 ∧
        o'.shape = o1.shape ∧ o'.data = o1.data ∧ (o'.grad = o1.grad ∨ o'.grad = none) := by
      intro z o' ho'
      rw [hobj, getElem?_set'] at ho'
      split at ho'
      · rename_i hz; cases ho'
        exact ⟨o, by rw [hz.1]; exact ho, rfl, rfl, Or.inr rfl⟩
      · exact ⟨o', ho', rfl, rfl, Or.inl rfl⟩
    refine ⟨?_, ?_, ?_⟩
    · intro z o' ho'
      obtain ⟨o1, h1, h2, h3, -⟩ := hget z o' ho'
      rw [h2, h3, hsh]
      exact hw.fits z o1 h1
    · intro z o' g ho' hg
      obtain ⟨o1, h1, -, -, h4⟩ := hget z o' ho'
      rw [hobj, List.length_set]
      rcases h4 with h4 | h4
      · exact hw.bound z o1 g h1 (h4 ▸ hg)
      · rw [h4] at hg; cases hg
    · intro z o1 z' o2 g h1 h2 g1 g2
      obtain ⟨p1, k1, -, -, k2⟩ := hget z o1 h1
      obtain ⟨p2, k3, -, -, k4⟩ := hget z' o2 h2
      rcases k2 with k2 | k2
      · rcases k4 with k4 | k4
        · exact hw.owned z p1 z' p2 g k1 k3 (k2 ▸ g1) (k4 ▸ g2)
        · rw [k4] at g2; cases g2
      · rw [k2] at g1; cases g1

theorem run_WF [Add R] {h h' : Heap R} {ops : List (Op R)} (hw : WF h) (hr : run h ops = some h') :
    WF h' := by
  induction ops generalizing h with
  | nil => cases hr; exact hw
  | cons op ops ih =>
    simp only [run, Option.bind_eq_bind, Option.bind_eq_some_iff] at hr
    obtain ⟨h1, e1, e2⟩ := hr
    exact ih (step_WF hw e1) e2

/-- What a step does to an object that exists already. -/
theorem obj_frame [Add R] {h h' : Heap R} {op : Op R} (hw : WF h) (hs : step h op = some h')
    {z : Nat} {o : Obj R} (ho : h.objs[z]? = some o) :
    ∃ o', h'.objs[z]? = some o' ∧ o'.shape = o.shape ∧
      (writes h op ≠ some z → o'.data = o.data) ∧
      ((∀ y, op ≠ .accGrad z y) → op ≠ .zeroGrad z → o'.grad = o.grad) := by
  have hz := lt_of_obj ho
  rcases effect hw hs with ⟨o1, hg, hfit, hobj, -, -, -, hsh⟩ |
    ⟨x, o1, data, ho1, hlen, hwr, -, -, hobj, hsh⟩ | ⟨x, o1, s, s', ho1, hs1, hp, hobj, -, -, -, -, hsh⟩ |
    ⟨x, y, ox, oy, hop, hx, hy, hg, hsh, hobj⟩ | ⟨x, o1, hop, ho1, hsh, hobj⟩
  · refine ⟨o, ?_, rfl, fun _ => rfl, fun _ _ => rfl⟩
    rw [hobj, getElem?_push, if_neg (by omega)]; exact ho
  · by_cases hzx : z = x
    · subst hzx
      rw [ho] at ho1; cases ho1
      refine ⟨{ o with data := data }, ?_, rfl, fun hn => absurd hwr hn, fun _ _ => rfl⟩
      rw [hobj, getElem?_set', if_pos ⟨rfl, hz⟩]
    · refine ⟨o, ?_, rfl, fun _ => rfl, fun _ _ => rfl⟩
      rw [hobj, getElem?_set', if_neg (by tauto)]; exact ho
  · exact ⟨o, by rw [hobj]; exact ho, rfl, fun _ => rfl, fun _ _ => rfl⟩
  · by_cases hzx : z = x
    · subst hzx
      rw [ho] at hx; cases hx
      refine ⟨{ o with grad := some h.objs.length }, ?_, rfl, fun _ => rfl, fun hn => absurd hop (hn y)⟩
      rw [hobj, getElem?_set', if_pos ⟨rfl, by rw [List.length_append]; omega⟩]
    · refine ⟨o, ?_, rfl, fun _ => rfl, fun _ _ => rfl⟩
      rw [hobj, getElem?_set', if_neg (by tauto), getElem?_push, if_neg (by omega)]; exact ho
  · by_cases hzx : z = x
    · subst hzx
      rw [ho] at ho1; cases ho1
      refine ⟨{ o with grad := none }, ?_, rfl, fun _ => rfl, fun _ hn => absurd hop hn⟩
      rw [hobj, getElem?_set', if_pos ⟨rfl, hz⟩]
    · refine ⟨o, ?_, rfl, fun _ => rfl, fun _ _ => rfl⟩
      rw [hobj, getElem?_set', if_neg (by tauto)]; exact ho

/-! ### C11 -/

/-- The elements of the object at `y`. -/
def dataOf (h : Heap R) (y : Nat) : List R := (h.objs[y]?.map (·.data)).getD []

/-- What has been accumulated on `x` since its gradient was last cleared. -/
def record (x : Nat) (acc : List (List R)) (h : Heap R) : Op R → List (List R)
  | .accGrad x' y => if x' = x then acc ++ [dataOf h y] else acc
  | .zeroGrad x' => if x' = x then [] else acc
  | _ => acc

/-- The contributions to `x` during a run: the elements each argument had at the time of the call. -/
def contribs [Add R] (x : Nat) (acc : List (List R)) (h : Heap R) : List (Op R) → List (List R)
  | [] => acc
  | op :: ops =>
    match step h op with
    | none => acc
    | some h' => contribs x (record x acc h op) h' ops

/-- The user does not write into the gradient of `x` (as a gradient clipper would). -/
def NoGradWrites [Add R] (x : Nat) (h : Heap R) : List (Op R) → Prop
  | [] => True
  | op :: ops => (∀ t, writes h op = some t → (∀ y, op ≠ .accGrad x y) → gradAddr h x ≠ some t) ∧
    ∀ h', step h op = some h' → NoGradWrites x h' ops

/-- `g` is the element-wise sum of the contributions, absent when there are none. -/
def IsSum [AddCommMonoid R] (g : Option (List R)) (cs : List (List R)) : Prop :=
  (g = none ↔ cs = []) ∧
  ∀ v, g = some v → (∀ c ∈ cs, c.length = v.length) ∧
    ∀ i, v.getD i 0 = (cs.map fun c => c.getD i 0).sum

theorem dataOf_eq {h : Heap R} {y : Nat} {o : Obj R} (ho : h.objs[y]? = some o) :
    dataOf h y = o.data := by simp [dataOf, ho]

theorem gradData_of {h : Heap R} {x g : Nat} {o og : Obj R} (ho : h.objs[x]? = some o)
    (hg : o.grad = some g) (hog : h.objs[g]? = some og) : gradData h x = some og.data := by
  simp [gradData, gradAddr, ho, hg, hog]

theorem gradData_none {h : Heap R} {x : Nat} {o : Obj R} (ho : h.objs[x]? = some o)
    (hg : o.grad = none) : gradData h x = none := by
  simp [gradData, gradAddr, ho, hg]

theorem grad_step [AddCommMonoid R] {h h' : Heap R} {op : Op R} (hw : WF h) (hs : step h op = some h')
    {x : Nat} (hx : x < h.objs.length)
    (hn : ∀ t, writes h op = some t → (∀ y, op ≠ .accGrad x y) → gradAddr h x ≠ some t)
    {cs : List (List R)} (hsum : IsSum (gradData h x) cs) :
    IsSum (gradData h' x) (record x cs h op) := by
  obtain ⟨ox, hox⟩ : ∃ o, h.objs[x]? = some o := ⟨_, List.getElem?_eq_getElem hx⟩
  obtain ⟨ox', hox', -, -, hgr⟩ := obj_frame hw hs hox
  by_cases hacc : ∃ y, op = .accGrad x y
  · obtain ⟨y, rfl⟩ := hacc
    simp only [record, if_true]
    rcases effect hw hs with ⟨o1, _, _, _, _, hne, _⟩ |
      ⟨t, ot, data, hot, hlen, hwr, -, hdata, hobj, hsh⟩ | ⟨_, _, _, _, _, _, _, _, _, _, hne, _⟩ |
      ⟨x', y', ox1, oy, hop, hx1, hy, hg, hsh, hobj⟩ | ⟨_, _, hne, _⟩
    · exact absurd rfl (hne _ _)
    · obtain ⟨oy, hoy, hdim, rfl⟩ := hdata x y rfl
      simp only [writes, gradAddr, hox, Option.bind_eq_bind, Option.bind_some] at hwr
      have hg0 : gradData h x = some ot.data := gradData_of hox hwr hot
      rw [dataOf_eq hoy]
      obtain ⟨s1, e1, e2⟩ := hw.fits t ot hot
      obtain ⟨s2, e3, e4⟩ := hw.fits y oy hoy
      rw [dims_eq hot, dims_eq hoy, e1, e3] at hdim
      cases hdim
      have hlen2 : ot.data.length = oy.data.length := by rw [e2, e4]
      -- the gradient object after the step
      have hot' : h'.objs[t]? = some { ot with data := List.zipWith (· + ·) ot.data oy.data } := by
        rw [hobj, getElem?_set', if_pos ⟨rfl, lt_of_obj hot⟩]
      have hgrad' : ∃ o', h'.objs[x]? = some o' ∧ o'.grad = some t := by
        rw [hobj, getElem?_set']
        by_cases hxt : x = t
        · subst hxt
          rw [hox] at hot; cases hot
          exact ⟨_, if_pos ⟨rfl, hx⟩, hwr⟩
        · exact ⟨ox, by rw [if_neg (by tauto)]; exact hox, hwr⟩
      obtain ⟨o', ho', hg'⟩ := hgrad'
      rw [gradData_of ho' hg' hot']
      rw [hg0] at hsum
      obtain ⟨-, s2⟩ := hsum
      obtain ⟨l1, l2⟩ := s2 _ rfl
      refine ⟨by simp, ?_⟩
      intro v hv
      cases hv
      refine ⟨?_, ?_⟩
      · intro c hc
        simp only [List.mem_append, List.mem_singleton] at hc
        simp only [List.length_zipWith, hlen2, Nat.min_self]
        rcases hc with hc | rfl
        · rw [l1 c hc, hlen2]
        · rfl
      · intro i
        simp only [List.map_append, List.map_cons, List.map_nil, List.sum_append, List.sum_cons,
          List.sum_nil, add_zero]
        rw [← l2 i]
        simp only [List.getD_eq_getElem?_getD, List.getElem?_zipWith]
        by_cases hi : i < ot.data.length
        · rw [List.getElem?_eq_getElem hi, List.getElem?_eq_getElem (hlen2 ▸ hi)]; simp
        · rw [List.getElem?_eq_none (by omega), List.getElem?_eq_none (by omega)]; simp
    · exact absurd rfl (hne _ _)
    · cases hop
      rw [hox] at hx1; cases hx1
      rw [dataOf_eq hy]
      have hg0 := gradData_none hox hg
      rw [hg0] at hsum
      have hcs : cs = [] := hsum.1.mp rfl
      subst hcs
      have h1 : h'.objs[x]? = some { ox with grad := some h.objs.length } := by
        rw [hobj, getElem?_set', if_pos ⟨rfl, by rw [List.length_append]; omega⟩]
      have h2 : h'.objs[h.objs.length]? = some ⟨oy.shape, oy.data, none⟩ := by
        rw [hobj, getElem?_set', if_neg (by omega), getElem?_push, if_pos rfl]
      rw [gradData_of h1 rfl h2]
      refine ⟨by simp, ?_⟩
      intro v hv; cases hv
      exact ⟨by simp, by simp⟩
    · cases hne
  · by_cases hz : op = .zeroGrad x
    · subst hz
      simp only [record, if_true]
      rcases effect hw hs with ⟨_, _, _, _, _, _, hne, _⟩ | ⟨_, _, _, _, _, _, hne, _⟩ |
        ⟨_, _, _, _, _, _, _, _, _, _, _, hne, _⟩ | ⟨_, _, _, _, hne, _⟩ | ⟨x', o1, hop, ho1, hsh, hobj⟩
      · exact absurd rfl (hne _)
      · exact absurd rfl (hne _)
      · exact absurd rfl (hne _)
      · cases hne
      · cases hop
        have h1 : h'.objs[x]? = some { o1 with grad := none } := by
          rw [hobj, getElem?_set', if_pos ⟨rfl, hx⟩]
        rw [gradData_none h1 rfl]
        exact ⟨by simp, by intro v hv; cases hv⟩
    · have hrec : record x cs h op = cs := by
        unfold record
        split
        · rename_i x' y
          rw [if_neg]; rintro rfl; exact hacc ⟨y, rfl⟩
        · rename_i x'
          rw [if_neg]; rintro rfl; exact hz rfl
        · rfl
      rw [hrec]
      have hgr' := hgr (fun y e => hacc ⟨y, e⟩) hz
      suffices gradData h' x = gradData h x by rw [this]; exact hsum
      cases hg : ox.grad with
      | none => rw [gradData_none hox hg, gradData_none hox' (hgr'.trans hg)]
      | some g =>
        obtain ⟨og, hog⟩ : ∃ o, h.objs[g]? = some o :=
          ⟨_, List.getElem?_eq_getElem (hw.bound x ox g hox hg)⟩
        obtain ⟨og', hog', -, hd, -⟩ := obj_frame hw hs hog
        rw [gradData_of hox hg hog, gradData_of hox' (hgr'.trans hg) hog', hd]
        intro hwr
        exact hn g hwr (fun y e => hacc ⟨y, e⟩) (by simp [gradAddr, hox, hg])

theorem length_step [Add R] {h h' : Heap R} {op : Op R} (hw : WF h) (hs : step h op = some h') :
    h.objs.length ≤ h'.objs.length := by
  rcases effect hw hs with ⟨_, _, _, hobj, _⟩ | ⟨_, _, _, _, _, _, _, _, hobj, _⟩ |
    ⟨_, _, _, _, _, _, _, hobj, _⟩ | ⟨_, _, _, _, _, _, _, _, _, hobj⟩ | ⟨_, _, _, _, _, hobj⟩ <;>
    simp [hobj]

theorem grad_run [AddCommMonoid R] {h h' : Heap R} {ops : List (Op R)} (hw : WF h)
    (hr : run h ops = some h') {x : Nat} (hx : x < h.objs.length) (hn : NoGradWrites x h ops)
    {cs : List (List R)} (hsum : IsSum (gradData h x) cs) :
    IsSum (gradData h' x) (contribs x cs h ops) := by
  induction ops generalizing h cs with
  | nil => cases hr; exact hsum
  | cons op ops ih =>
    simp only [run, Option.bind_eq_bind, Option.bind_eq_some_iff] at hr
    obtain ⟨h1, e1, e2⟩ := hr
    simp only [contribs, e1]
    exact ih (step_WF hw e1) e2 (lt_of_lt_of_le hx (length_step hw e1)) (hn.2 h1 e1)
      (grad_step hw e1 hx hn.1 hsum)

/-- **C11.** Take any well-formed heap in which `x` has no gradient and let any operations happen,
among them any number of `AccGrad` and `ZeroGrad` calls on `x` and on other matrices, arguments
being written, reshaped, cloned or accumulated into elsewhere in between. The gradient of `x` is
then the element-wise sum of the matrices accumulated on `x` since the last `ZeroGrad`, each with the
elements it had when it was accumulated, and is absent exactly if there was none. -/
theorem accGrad_sum [AddCommMonoid R] {h h' : Heap R} {ops : List (Op R)} (hw : WF h)
    (hr : run h ops = some h') {x : Nat} (hx : x < h.objs.length) (hn : NoGradWrites x h ops)
    (h0 : gradAddr h x = none) :
    IsSum (gradData h' x) (contribs x [] h ops) := by
  apply grad_run hw hr hx hn
  have : gradData h x = none := by simp [gradData, h0]
  rw [this]
  exact ⟨by simp, by intro v hv; cases hv⟩

/-- **C11.** The order of the contributions does not matter. -/
theorem isSum_perm [AddCommMonoid R] {g g' : Option (List R)} {cs cs' : List (List R)}
    (h : IsSum g cs) (h' : IsSum g' cs') (hp : cs.Perm cs') : g = g' := by
  cases g with
  | none =>
    have := h.1.mp rfl
    subst this
    exact (h'.1.mpr hp.nil_eq.symm).symm
  | some v =>
    cases g' with
    | none =>
      have := h'.1.mp rfl
      subst this
      exact h.1.mpr hp.eq_nil
    | some v' =>
      obtain ⟨l1, e1⟩ := h.2 v rfl
      obtain ⟨l2, e2⟩ := h'.2 v' rfl
      have hne : cs ≠ [] := fun e => by
        have := h.1.mpr e; cases this
      obtain ⟨c, hc⟩ := List.exists_mem_of_ne_nil _ hne
      have hlen : v.length = v'.length := by rw [← l1 c hc, ← l2 c (hp.mem_iff.mp hc)]
      congr 1
      apply List.ext_getElem hlen
      intro i hi hi'
      have := (e1 i).trans ((hp.map _).sum_eq.trans (e2 i).symm)
      simpa [List.getD_eq_getElem?_getD, hi, hi'] using this

/-- **C11.** An `AccGrad` changes neither its argument nor any other matrix: only the gradient of
its receiver. -/
theorem accGrad_frame [Add R] {h h' : Heap R} {x y : Nat} (hw : WF h)
    (hs : step h (.accGrad x y) = some h') {z : Nat} (hz : z < h.objs.length)
    (hg : gradAddr h x ≠ some z) : value h' z = value h z := by
  obtain ⟨o, ho⟩ : ∃ o, h.objs[z]? = some o := ⟨_, List.getElem?_eq_getElem hz⟩
  obtain ⟨o', ho', h1, h2, -⟩ := obj_frame hw hs ho
  have hsh : h'.shapes = h.shapes := by
    rcases effect hw hs with ⟨_, _, _, _, _, hne, _⟩ |
      ⟨_, _, _, _, _, _, _, _, _, hsh⟩ | ⟨_, _, _, _, _, _, _, _, _, _, hne, _⟩ |
      ⟨_, _, _, _, _, _, _, _, hsh, _⟩ | ⟨_, _, hne, _⟩
    · exact absurd rfl (hne _ _)
    · rcases hsh with ⟨hsh, -⟩ | ⟨_, hsh, _⟩
      · exact hsh
      · cases hsh
    · exact absurd rfl (hne _ _)
    · exact hsh
    · cases hne
  unfold value
  rw [ho, ho', hsh]
  simp only [Option.bind_eq_bind, Option.bind_some, h1]
  rw [h2 hg]

/-! ### C18 -/

/-- **C18 (partial).** An operation changes the shape of a matrix `z` that it is not directed at
only if it reshapes some `x` in place that has the very same shape slice. Missing for the full
claim: matrices do have common shape slices, see `clone_transpose`, `softmax_reshapes_receiver`. -/
theorem shape_frame_partial [Add R] {h h' : Heap R} {op : Op R} (hw : WF h) (hs : step h op = some h')
    {z : Nat} {oz : Obj R} (hz : h.objs[z]? = some oz) (hd : dims h' z ≠ dims h z) :
    ∃ x ox, reshapes h op = some x ∧ h.objs[x]? = some ox ∧ ox.shape = oz.shape := by
  obtain ⟨o', ho', h1, -, -⟩ := obj_frame hw hs hz
  obtain ⟨sz, ez, -⟩ := hw.fits z oz hz
  rw [dims_eq ho', dims_eq hz, h1] at hd
  have key : ∀ k s, h'.shapes = h.shapes.set k s → k = oz.shape := by
    intro k s e
    by_contra hk
    apply hd
    rw [e, getElem?_set', if_neg (fun h => hk h.1.symm)]
  rcases effect hw hs with ⟨_, _, _, _, _, _, _, hsh⟩ |
    ⟨x, o, _, ho, _, _, _, _, _, hsh⟩ | ⟨x, o, _, _, ho, _, _, _, hr, _, _, _, hsh⟩ |
    ⟨_, _, _, _, _, _, _, _, hsh, _⟩ | ⟨_, _, _, _, hsh, _⟩
  · rcases hsh with ⟨s, e, _⟩ | ⟨e, _⟩ | ⟨x, ox, s, hr, hx, _, _, e⟩
    · exfalso; apply hd
      rw [e, List.getElem?_append_left (lt_of_getElem? ez)]
    · rw [e] at hd; exact absurd rfl hd
    · exact ⟨x, ox, hr, hx, key _ _ e⟩
  · rcases hsh with ⟨e, _⟩ | ⟨s, hr, _, e⟩
    · rw [e] at hd; exact absurd rfl hd
    · exact ⟨x, o, hr, ho, key _ _ e⟩
  · exact ⟨x, o, hr, ho, key _ _ hsh⟩
  · rw [hsh] at hd; exact absurd rfl hd
  · rw [hsh] at hd; exact absurd rfl hd

/-- **C18 (partial).** While nothing is reshaped in place (and no `Softmax` of a row is taken) all
shapes are constant, and the data of a matrix is constant unless it is written. -/
theorem shapes_constant_partial [Add R] {h h' : Heap R} {ops : List (Op R)} (hw : WF h)
    (hr : run h ops = some h')
    (hn : ∀ (h : Heap R) (op : Op R), op ∈ ops → reshapes h op = none) {z : Nat}
    (hz : z < h.objs.length) : dims h' z = dims h z := by
  induction ops generalizing h with
  | nil => cases hr; rfl
  | cons op ops ih =>
    simp only [run, Option.bind_eq_bind, Option.bind_eq_some_iff] at hr
    obtain ⟨h1, e1, e2⟩ := hr
    rw [ih (step_WF hw e1) e2 (fun h o ho => hn h o (by simp [ho]))
      (lt_of_lt_of_le hz (length_step hw e1))]
    by_contra hd
    obtain ⟨x, ox, hx, -⟩ := shape_frame_partial hw e1 (List.getElem?_eq_getElem hz) hd
    rw [hn h op (by simp)] at hx
    cases hx

/-- **C18 fails.** Transposing a matrix in place changes the shape of its earlier clone, for every
matrix that is not square; the clone's elements stay where they are, so it is a different matrix
afterwards. -/
theorem clone_transpose [Add R] {h : Heap R} (hw : WF h) {x : Nat} {d : Dense R}
    (hx : value h x = some d) (hsq : d.rows ≠ d.cols) :
    ∃ h1 h2, step h (.clone x) = some h1 ∧ step h1 (.transposeInPlace x) = some h2 ∧
      value h1 h.objs.length = some d ∧
      value h2 h.objs.length = some ⟨d.cols, d.rows, d.data⟩ ∧
      value h2 h.objs.length ≠ value h1 h.objs.length := by
  unfold value at hx
  simp only [Option.bind_eq_bind, Option.bind_eq_some_iff] at hx
  obtain ⟨o, h1, s, h2, h3⟩ := hx
  cases h3
  have hc : step h (.clone x) = some (allocShared h o.shape o.data) := by simp [step, h1]
  have hwf := step_WF hw hc
  have hlt := lt_of_obj h1
  have k1 : (allocShared h o.shape o.data).objs[x]? = some o := by
    simp only [allocShared]; rw [getElem?_push, if_neg (by omega)]; exact h1
  have k2 : (allocShared h o.shape o.data).shapes[o.shape]? = some s := h2
  obtain ⟨s', e1, e2⟩ := hw.fits x o h1
  rw [h2] at e1; cases e1
  obtain ⟨t, ht⟩ := transposeInPlace_isSome (d := ⟨s.1, s.2, o.data⟩) e2 (le_refl _)
  obtain ⟨l1, l2, l3⟩ := length_transposeInPlace (by exact e2) ht (le_refl _)
  have hv1 : value (allocShared h o.shape o.data) h.objs.length = some ⟨s.1, s.2, o.data⟩ :=
    value_eq (o := ⟨o.shape, o.data, none⟩)
      (by simp only [allocShared]; rw [getElem?_push, if_pos rfl]) h2
  have hstep : step (allocShared h o.shape o.data) (.transposeInPlace x) =
      some (setObj (setShape (allocShared h o.shape o.data) o t.rows t.cols) x
        { o with data := t.data }) := by
    simp only [step, transposeInPlace, k1, Option.bind_eq_bind, Option.bind_some, value_eq k1 k2]
    rw [ht]; rfl
  have hv2 : value (setObj (setShape (allocShared h o.shape o.data) o t.rows t.cols) x
        { o with data := t.data }) h.objs.length = some ⟨s.2, s.1, o.data⟩ := by
    refine value_eq (o := ⟨o.shape, o.data, none⟩) (s := (s.2, s.1)) ?_ ?_
    · simp only [setObj, setShape, allocShared]
      rw [getElem?_set', if_neg (by omega), getElem?_push, if_pos rfl]
    · simp only [setObj, setShape, allocShared]
      rw [getElem?_set', if_pos ⟨rfl, lt_of_getElem? h2⟩, l2, l3]
  refine ⟨_, _, hc, hstep, hv1, hv2, ?_⟩
  rw [hv1, hv2]
  intro e
  simp only [Option.some.injEq, Dense.mk.injEq] at e
  exact hsq e.2.1

/-- **C18 fails.** Taking `Softmax` of a row vector turns the row vector itself into a column. -/
theorem softmax_reshapes_receiver [Add R] {h : Heap R} (hw : WF h) {x n : Nat} {data : List R}
    (hx : value h x = some ⟨1, n, data⟩) (hn : 2 ≤ n) (f : List R → R → R) :
    ∃ h', step h (.softmax f x) = some h' ∧ value h' x = some ⟨n, 1, data⟩ := by
  unfold value at hx
  simp only [Option.bind_eq_bind, Option.bind_eq_some_iff] at hx
  obtain ⟨o, h1, s, h2, h3⟩ := hx
  simp only [Option.some.injEq, Dense.mk.injEq] at h3
  obtain ⟨s1, s2, rfl⟩ := h3
  obtain ⟨s', e1, e2⟩ := hw.fits x o h1
  rw [h2] at e1; cases e1
  have hlt := lt_of_obj h1
  rw [s1, s2] at e2
  let h' := allocShared h o.shape (o.data.map (f o.data))
  let o' : Obj R := ⟨o.shape, o.data.map (f o.data), none⟩
  have k1 : h'.objs[h.objs.length]? = some o' := by
    simp only [h', allocShared]; rw [getElem?_push, if_pos rfl]
  have k2 : h'.shapes[o'.shape]? = some s := h2
  have hwf : (⟨s.1, s.2, o'.data⟩ : Dense R).WF := by
    simp [Dense.WF, o', s1, s2, e2]
  obtain ⟨t, ht⟩ := transposeInPlace_isSome hwf (le_refl _)
  obtain ⟨l1, l2, l3⟩ := length_transposeInPlace hwf ht (le_refl _)
  have hstep : step h (.softmax f x) =
      some (setObj (setShape h' o' t.rows t.cols) h.objs.length { o' with data := t.data }) := by
    simp only [step, h1, h2, Option.bind_eq_bind, Option.bind_some]
    rw [if_neg (by simp [s1]), if_neg (by omega), if_pos (by omega)]
    change transposeInPlace h' h.objs.length = _
    simp only [transposeInPlace, k1, value_eq k1 k2, Option.bind_eq_bind, Option.bind_some]
    rw [ht]; rfl
  refine ⟨_, hstep, ?_⟩
  refine value_eq (o := o) (s := (n, 1)) ?_ ?_
  · simp only [setObj, setShape, h', allocShared]
    rw [getElem?_set', if_neg (by omega), getElem?_push, if_neg (by omega)]; exact h1
  · simp only [setObj, setShape, h', o', allocShared]
    rw [getElem?_set', if_pos ⟨rfl, lt_of_getElem? h2⟩, l2, l3]
    simp [s1, s2]

/-- **C11/C18 fails for shapes.** The first gradient accumulated on `x` shares its shape with the
argument: transposing the argument afterwards changes the shape of the gradient of `x`, and the
next contribution of the right shape panics. -/
theorem accGrad_transpose [Add R] {h : Heap R} (hw : WF h) {x y : Nat} {ox : Obj R}
    {d : Dense R} (hx : h.objs[x]? = some ox) (hg : ox.grad = none) (hxy : x ≠ y)
    (hy : value h y = some d) (hsq : d.rows ≠ d.cols) :
    ∃ h1 h2 g, step h (.accGrad x y) = some h1 ∧ step h1 (.transposeInPlace y) = some h2 ∧
      gradAddr h1 x = some g ∧ value h1 g = some d ∧
      gradAddr h2 x = some g ∧ value h2 g = some ⟨d.cols, d.rows, d.data⟩ ∧
      ∀ z, dims h2 z = some (d.rows, d.cols) → step h2 (.accGrad x z) = none := by
  unfold value at hy
  simp only [Option.bind_eq_bind, Option.bind_eq_some_iff] at hy
  obtain ⟨o, h1, s, h2, h3⟩ := hy
  cases h3
  obtain ⟨s', e1, e2⟩ := hw.fits y o h1
  rw [h2] at e1; cases e1
  have hltx := lt_of_obj hx
  have hlty := lt_of_obj h1
  let ox' : Obj R := { ox with grad := some h.objs.length }
  let og : Obj R := ⟨o.shape, o.data, none⟩
  let H1 := setObj (allocShared h o.shape o.data) x ox'
  have hs1 : step h (.accGrad x y) = some H1 := by
    simp only [step, hx, h1, hg, Option.bind_eq_bind, Option.bind_some]; rfl
  have a1 : H1.objs[x]? = some ox' := by
    simp only [H1, setObj, allocShared]
    rw [getElem?_set', if_pos ⟨rfl, by rw [List.length_append]; omega⟩]
  have a2 : H1.objs[y]? = some o := by
    simp only [H1, setObj, allocShared]
    rw [getElem?_set', if_neg (by omega), getElem?_push, if_neg (by omega)]; exact h1
  have a3 : H1.objs[h.objs.length]? = some og := by
    simp only [H1, setObj, allocShared]
    rw [getElem?_set', if_neg (by omega), getElem?_push, if_pos rfl]
  have a4 : H1.shapes[o.shape]? = some s := h2
  obtain ⟨t, ht⟩ := transposeInPlace_isSome (d := ⟨s.1, s.2, o.data⟩) e2 (le_refl _)
  obtain ⟨l1, l2, l3⟩ := length_transposeInPlace (by exact e2) ht (le_refl _)
  let H2 := setObj (setShape H1 o t.rows t.cols) y { o with data := t.data }
  have hs2 : step H1 (.transposeInPlace y) = some H2 := by
    simp only [step, transposeInPlace, a2, Option.bind_eq_bind, Option.bind_some, value_eq a2 a4]
    rw [ht]; rfl
  have b1 : H2.objs[x]? = some ox' := by
    simp only [H2, setObj, setShape]
    rw [getElem?_set', if_neg (by tauto)]; exact a1
  have b3 : H2.objs[h.objs.length]? = some og := by
    simp only [H2, setObj, setShape]
    rw [getElem?_set', if_neg (by omega)]; exact a3
  have b4 : H2.shapes[og.shape]? = some (s.2, s.1) := by
    simp only [H2, setObj, setShape, og]
    rw [getElem?_set', if_pos ⟨rfl, lt_of_getElem? a4⟩, l2, l3]
  refine ⟨H1, H2, h.objs.length, hs1, hs2, by simp [gradAddr, a1, ox'], value_eq (o := og) a3 a4,
    by simp [gradAddr, b1, ox'], value_eq b3 b4, ?_⟩
  intro z hz
  simp only [step, b1, Option.bind_eq_bind, Option.bind_some]
  cases hoz : H2.objs[z]? with
  | none => rfl
  | some oz =>
    simp only [ox', Option.bind_some, addInPlace, b3, hoz, Option.bind_eq_bind]
    rw [if_neg]
    rw [hz, dims_eq b3, b4]
    intro e
    simp only [Option.some.injEq, Prod.mk.injEq] at e
    exact hsq e.1.symm

section Examples

/-- objects: 0 has no gradient, 1 and 2 are accumulated on it; 1 is overwritten in between -/
private def exH : Heap Int := ⟨[⟨0, [0, 0], none⟩, ⟨1, [1, 2], none⟩, ⟨2, [10, 20], none⟩],
  [(2, 1), (2, 1), (2, 1)]⟩

private def exOps : List (Op Int) := [.accGrad 0 1, .setEl 1 0 7, .accGrad 0 2, .accGrad 0 1]

private theorem exH_WF : WF exH := by
  refine ⟨?_, ?_, ?_⟩
  · intro z o ho
    have := lt_of_getElem? ho
    match z, this with
    | 0, _ => cases ho; exact ⟨(2, 1), rfl, rfl⟩
    | 1, _ => cases ho; exact ⟨(2, 1), rfl, rfl⟩
    | 2, _ => cases ho; exact ⟨(2, 1), rfl, rfl⟩
  · intro z o g ho hg
    have := lt_of_getElem? ho
    match z, this with
    | 0, _ => cases ho; cases hg
    | 1, _ => cases ho; cases hg
    | 2, _ => cases ho; cases hg
  · intro z o z' o' g ho _ hg
    have := lt_of_getElem? ho
    match z, this with
    | 0, _ => cases ho; cases hg
    | 1, _ => cases ho; cases hg
    | 2, _ => cases ho; cases hg

/-- the gradient is [1,2] + [10,20] + [7,2]: the later change of matrix 1 counts only for the second
time it is accumulated -/
example : (run exH exOps).bind (gradData · 0) = some [18, 24] ∧
    contribs 0 [] exH exOps = [[1, 2], [10, 20], [7, 2]] ∧ gradAddr exH 0 = none := by decide

/-- the hypotheses of `accGrad_sum` hold for this run -/
example : ∃ h', run exH exOps = some h' ∧ IsSum (gradData h' 0) (contribs 0 [] exH exOps) := by
  refine ⟨_, rfl, accGrad_sum exH_WF rfl (by decide) ?_ rfl⟩
  refine ⟨?_, fun h1 e1 => ?_⟩
  · intro t ht hn; exact absurd rfl (hn 1)
  cases e1
  refine ⟨?_, fun h1 e1 => ?_⟩
  · intro t ht _ e; cases ht; cases e
  cases e1
  refine ⟨?_, fun h1 e1 => ?_⟩
  · intro t ht hn; exact absurd rfl (hn 2)
  cases e1
  refine ⟨?_, fun h1 e1 => trivial⟩
  intro t ht hn; exact absurd rfl (hn 1)

/-- a heap with a non-square matrix and a row vector for the negative theorems -/
example : value (⟨[⟨0, [1, 2, 3, 4, 5, 6], none⟩], [(2, 3)]⟩ : Heap Int) 0 =
      some ⟨2, 3, [1, 2, 3, 4, 5, 6]⟩ ∧
    (run (⟨[⟨0, [1, 2, 3, 4, 5, 6], none⟩], [(2, 3)]⟩ : Heap Int)
      [.clone 0, .transposeInPlace 0]).bind (value · 1) = some ⟨3, 2, [1, 2, 3, 4, 5, 6]⟩ ∧
    (run (⟨[⟨0, [1, 2], none⟩], [(1, 2)]⟩ : Heap Int)
      [.softmax (fun _ v => v) 0]).bind (value · 0) = some ⟨2, 1, [1, 2]⟩ := by decide

end Examples

end Verif.Heap
