import Verif.Spec.Program
import Verif.Props.BackwardHang
import Verif.Props.GradSelect
import Mathlib.Algebra.Group.WithOne.Basic

set_option autoImplicit false
set_option linter.unusedSimpArgs false

/-!
# C48: the gradients that `Backward` leaves are the derivatives, for graphs of library operators
-/

namespace Verif.Backward
open GradFn Dense
open scoped BigOperators Topology
variable {n : Nat} {G : Graph n} {op : Fin n → GradFn ℝ} {V : Fin n → Dense ℝ}

theorem ofVals_like {d : Dense ℝ} (h : d.WF) (g : Nat → ℝ) : d.Like (ofVals d g) :=
  ⟨by simpa [WF, ofVals] using h, rfl, rfl⟩

theorem ofVals_len {d : Dense ℝ} (g : Nat → ℝ) : (ofVals d g).data.length = d.data.length := by
  simp [ofVals]

theorem ofVals_val {d : Dense ℝ} (g : Nat → ℝ) {i : Nat} (h : i < d.data.length) : (ofVals d g).val i = g i := by
  simp [val, ofVals, h]

/-- The operands of `c` as curves by position. -/
noncomputable def argX (G : Graph n) (W : Fin n → ℝ → Dense ℝ) (c : Fin n) (k : Nat) (t : ℝ) : Dense ℝ :=
  ((G.operands c)[k]?.map fun o => W o t).getD ⟨0, 0, []⟩

noncomputable def argV (G : Graph n) (u : Fin n → Nat → ℝ) (c : Fin n) (k : Nat) (i : Nat) : ℝ :=
  ((G.operands c)[k]?.map fun o => u o i).getD 0

theorem argX_list (W : Fin n → ℝ → Dense ℝ) (c : Fin n) (t : ℝ) :
    ((List.range ((G.operands c).map V).length).map fun k => argX G W c k t) = (G.operands c).map fun o => W o t := by
  apply List.ext_getElem
  · simp
  · intro k h1 h2
    have hk : k < (G.operands c).length := by simpa using h2
    simp [argX, hk]

/-- One operator: if its operands move, so does its value, and weighted with any gradient its velocity
is that of the operands weighted with the gradients sent to them. -/
theorem op_moves {c : Fin n} (hwf : ∀ o ∈ G.operands c, (V o).WF) (hVc : (V c).WF)
    (hf : (op c).forward ((G.operands c).map V) = some (V c))
    (hok : CorrectOn (fun k => ∃ o, (G.operands c)[k]? = some o ∧ G.requiresGrad o = true) (op c)
      ((G.operands c).map V)) (W : Fin n → ℝ → Dense ℝ) (u : Fin n → Nat → ℝ)
    (hW : ∀ o ∈ G.operands c, Curve (V o) (W o) (u o))
    (hc : ∀ o ∈ G.operands c, G.requiresGrad o = false → (∀ t, W o t = V o) ∧ ∀ i, u o i = 0) :
    ∃ (Y : ℝ → Dense ℝ) (w : Nat → ℝ), Curve (V c) Y w ∧
      (∀ᶠ t in 𝓝 0, (op c).forward ((G.operands c).map fun o => W o t) = some (Y t)) ∧
      ∀ g : Nat → ℝ, ∃ gs, (op c).backward ((G.operands c).map V) (ofVals (V c) g) = some gs ∧
        GradShapes ((G.operands c).map V) gs ∧
        ∑ i ∈ Finset.range (V c).data.length, g i * w i =
          ∑ k ∈ Finset.range (G.operands c).length,
            ∑ i ∈ Finset.range ((((G.operands c).map V).map fun x => x.data.length).getD k 0),
              gradVal gs k i * argV G u c k i := by
  classical
  set act : Nat → Prop := fun k => ∃ o, (G.operands c)[k]? = some o ∧ G.requiresGrad o = true with hact
  -- the hypotheses of the vector-Jacobian products
  have hX : ∀ k x, ((G.operands c).map V)[k]? = some x → Curve x (argX G W c k) (argV G u c k) := by
    intro k x hx
    rw [List.getElem?_map, Option.map_eq_some_iff] at hx
    obtain ⟨o, ho, rfl⟩ := hx
    have := hW o (List.mem_of_getElem? ho)
    have e1 : argX G W c k = W o := by funext t; simp [argX, ho]
    have e2 : argV G u c k = u o := by funext t; simp [argV, ho]
    rw [e1, e2]; exact this
  have hX0 : ∀ k, ¬ act k → ∀ t, argX G W c k t = argX G W c k 0 := by
    intro k hk t
    cases ho : (G.operands c)[k]? with
    | none => simp [argX, ho]
    | some o =>
      have hr : G.requiresGrad o = false := by
        by_contra h
        exact hk ⟨o, ho, by simpa using h⟩
      have := (hc o (List.mem_of_getElem? ho) hr).1
      simp [argX, ho, this]
  have hV0 : ∀ k, ¬ act k → ∀ i, argV G u c k i = 0 := by
    intro k hk i
    cases ho : (G.operands c)[k]? with
    | none => simp [argV, ho]
    | some o =>
      have hr : G.requiresGrad o = false := by
        by_contra h
        exact hk ⟨o, ho, by simpa using h⟩
      have := (hc o (List.mem_of_getElem? ho) hr).2
      simp [argV, ho, this]
  have hv : ∀ g : Nat → ℝ, ∃ gs, (op c).backward ((G.operands c).map V) (ofVals (V c) g) = some gs ∧
      GradShapes ((G.operands c).map V) gs ∧ ∃ Y : ℝ → Dense ℝ,
        (∀ᶠ t in 𝓝 0, (op c).forward ((G.operands c).map fun o => W o t) = some (Y t) ∧ (V c).Like (Y t)) ∧
        HasDerivAt (fun t => ∑ i ∈ Finset.range (V c).data.length, g i * (Y t).val i)
          (∑ k ∈ Finset.range (G.operands c).length,
            ∑ i ∈ Finset.range ((((G.operands c).map V).map fun x => x.data.length).getD k 0),
              gradVal gs k i * argV G u c k i) 0 := by
    intro g
    obtain ⟨gs, h1, h2, h3⟩ := hok (V c) hf (ofVals (V c) g) (ofVals_like hVc g)
    obtain ⟨Y, k1, k2⟩ := h3 _ _ hX hX0 hV0
    refine ⟨gs, h1, h2, Y, ?_, ?_⟩
    · filter_upwards [k1] with t ht
      rw [argX_list] at ht
      exact ⟨ht.1, (ofVals_like hVc g).trans ht.2⟩
    · rw [List.length_map] at k2
      refine k2.congr_of_eventuallyEq (Filter.Eventually.of_forall fun t => ?_)
      beta_reduce
      rw [ofVals_len]
      exact Finset.sum_congr rfl fun i hi => by rw [ofVals_val g (Finset.mem_range.mp hi)]
  -- the value as a curve
  set Y : ℝ → Dense ℝ := fun t =>
    match (op c).forward ((G.operands c).map fun o => W o t) with
    | some y => if (V c).Like y then y else V c
    | none => V c with hY
  have hlike : ∀ t, (V c).Like (Y t) := by
    intro t
    simp only [hY]
    split
    · split
      · assumption
      · exact Like.refl hVc
    · exact Like.refl hVc
  have hYeq : ∀ {t y}, (op c).forward ((G.operands c).map fun o => W o t) = some y → (V c).Like y → Y t = y := by
    intro t y h1 h2
    simp only [hY, h1, if_pos h2]
  have hstart : Y 0 = V c := by
    refine hYeq ?_ (Like.refl hVc)
    rw [show ((G.operands c).map fun o => W o 0) = (G.operands c).map V from
      List.map_congr_left fun o ho => (hW o ho).start]
    exact hf
  -- velocities of the elements
  have hel : ∀ j, ∃ w, j < (V c).data.length → HasDerivAt (fun t => (Y t).val j) w 0 := by
    intro j
    obtain ⟨gs, -, -, Y', k1, k2⟩ := hv fun i => if i = j then 1 else 0
    refine ⟨_, fun hj => k2.congr_of_eventuallyEq ?_⟩
    filter_upwards [k1] with t ht
    rw [hYeq ht.1 ht.2]
    simp [hj]
  choose w hw using hel
  refine ⟨Y, w, ⟨hstart, hlike, fun i hi => hw i hi⟩, ?_, ?_⟩
  · obtain ⟨gs, -, -, Y', k1, -⟩ := hv 0
    filter_upwards [k1] with t ht
    rw [hYeq ht.1 ht.2, ht.1]
  · intro g
    obtain ⟨gs, h1, h2, Y', k1, k2⟩ := hv g
    refine ⟨gs, h1, h2, ?_⟩
    have d1 : HasDerivAt (fun t => ∑ i ∈ Finset.range (V c).data.length, g i * (Y t).val i)
        (∑ i ∈ Finset.range (V c).data.length, g i * w i) 0 :=
      HasDerivAt.fun_sum fun i hi => (hw i (Finset.mem_range.mp hi)).const_mul (g i)
    refine d1.unique (k2.congr_of_eventuallyEq ?_)
    filter_upwards [k1] with t ht
    rw [hYeq ht.1 ht.2]

/-- What is known about the values while the trainable leaves move. -/
structure Tangent (G : Graph n) (op : Fin n → GradFn ℝ) (V : Fin n → Dense ℝ) (W : Fin n → ℝ → Dense ℝ)
    (u : Fin n → Nat → ℝ) (x : Fin n) : Prop where
  curve : Curve (V x) (W x) (u x)
  const : G.requiresGrad x = false → (∀ t, W x t = V x) ∧ ∀ i, u x i = 0
  eval : G.isOp x = true → ∀ᶠ t in 𝓝 0, (op x).forward ((G.operands x).map fun o => W o t) = some (W x t)
  dual : G.isOp x = true → G.requiresGrad x = true →
    ∀ g : Nat → ℝ, ∃ gs, (op x).backward ((G.operands x).map V) (ofVals (V x) g) = some gs ∧
      GradShapes ((G.operands x).map V) gs ∧
      ∑ i ∈ Finset.range (V x).data.length, g i * u x i =
        ∑ k ∈ Finset.range (G.operands x).length,
          ∑ i ∈ Finset.range ((((G.operands x).map V).map fun x => x.data.length).getD k 0),
            gradVal gs k i * argV G u x k i

theorem Tangent.congr {W W' : Fin n → ℝ → Dense ℝ} {u u' : Fin n → Nat → ℝ} {x : Fin n}
    (h : Tangent G op V W u x) (hx : W' x = W x ∧ u' x = u x)
    (ho : ∀ o ∈ G.operands x, W' o = W o ∧ u' o = u o) : Tangent G op V W' u' x := by
  have e1 : ∀ t, ((G.operands x).map fun o => W' o t) = (G.operands x).map fun o => W o t :=
    fun t => List.map_congr_left fun o h => by rw [(ho o h).1]
  have e2 : argV G u' x = argV G u x := by
    funext k i
    cases hk : (G.operands x)[k]? with
    | none => simp [argV, hk]
    | some o => simp [argV, hk, (ho o (List.mem_of_getElem? hk)).2]
  constructor
  · rw [hx.1, hx.2]; exact h.curve
  · rw [hx.1, hx.2]; exact h.const
  · simp only [e1, hx.1]; exact h.eval
  · rw [e2, hx.2]; exact h.dual

theorem const_curve {x : Dense ℝ} (h : x.WF) : Curve x (fun _ => x) 0 :=
  ⟨rfl, fun _ => Like.refl h, fun _ _ => hasDerivAt_const _ _⟩

/-- The values move when the trainable leaves do. -/
theorem exists_moves (hac : G.Acyclic) (hwf : ∀ x, (V x).WF) (hev : Evaluates G op V) (hok : OpsCorrect G op V)
    {Θ : Fin n → ℝ → Dense ℝ} {v : Fin n → Nat → ℝ}
    (hΘ : ∀ x, G.node x = .leaf true → Curve (V x) (Θ x) (v x)) :
    ∃ W u, (∀ x, Tangent G op V W u x) ∧ (∀ x, G.node x = .leaf true → W x = Θ x ∧ u x = v x) ∧
      ∀ x, G.isOp x = false → G.node x ≠ .leaf true → W x = fun _ => V x := by
  classical
  suffices H : ∀ k, ∃ (W : Fin n → ℝ → Dense ℝ) (u : Fin n → Nat → ℝ), (∀ x, x.val < k → Tangent G op V W u x) ∧
      (∀ x, G.node x = .leaf true → W x = Θ x ∧ u x = v x) ∧
      ∀ x, G.isOp x = false → G.node x ≠ .leaf true → W x = fun _ => V x by
    obtain ⟨W, u, h1, h2, h3⟩ := H n
    exact ⟨W, u, fun x => h1 x x.isLt, h2, h3⟩
  intro k
  induction k with
  | zero =>
    refine ⟨fun x => if G.node x = .leaf true then Θ x else fun _ => V x,
      fun x => if G.node x = .leaf true then v x else 0, fun x hx => absurd hx (Nat.not_lt_zero _), ?_, ?_⟩
    · intro x hx; simp [hx]
    · intro x _ hx; simp [hx]
  | succ k ih =>
    obtain ⟨W, u, h1, h2, h3⟩ := ih
    by_cases hk : k < n
    swap
    · exact ⟨W, u, fun x hx => h1 x (by have := x.isLt; omega), h2, h3⟩
    set c : Fin n := ⟨k, hk⟩ with hc
    have hlt : ∀ o ∈ G.operands c, o.val < k := fun o ho => hac c o ho
    have hrg := Graph.requiresGrad_eq hac c
    -- replace what is known about `c`
    suffices Hc : ∃ (Y : ℝ → Dense ℝ) (w : Nat → ℝ),
        Tangent G op V (Function.update W c Y) (Function.update u c w) c ∧
        (G.node c = .leaf true → Y = Θ c ∧ w = v c) ∧
        (G.isOp c = false → G.node c ≠ .leaf true → Y = fun _ => V c) by
      obtain ⟨Y, w, t1, t2, t3⟩ := Hc
      refine ⟨Function.update W c Y, Function.update u c w, ?_, ?_, ?_⟩
      · intro x hx
        by_cases hxc : x = c
        · rw [hxc]; exact t1
        · have hxk : x.val < k := by
            have : x.val ≠ k := fun h => hxc (Fin.ext h)
            omega
          refine (h1 x hxk).congr ⟨by rw [Function.update_of_ne hxc], by rw [Function.update_of_ne hxc]⟩ ?_
          intro o ho
          have : o ≠ c := by
            have := hac x o ho
            intro h; rw [h] at this
            have := Fin.lt_def.mp this
            simp only [hc] at this
            omega
          exact ⟨by rw [Function.update_of_ne this], by rw [Function.update_of_ne this]⟩
      · intro x hx
        by_cases hxc : x = c
        · subst hxc; simp only [Function.update_self]; exact t2 hx
        · simp only [Function.update_of_ne hxc]; exact h2 x hx
      · intro x hx hx'
        by_cases hxc : x = c
        · subst hxc; simp only [Function.update_self]; exact t3 hx hx'
        · simp only [Function.update_of_ne hxc]; exact h3 x hx hx'
    have hupd : ∀ Y w, ∀ o ∈ G.operands c, Function.update W c Y o = W o ∧ Function.update u c w o = u o := by
      intro Y w o ho
      have : o ≠ c := by
        have := hlt o ho
        intro h; rw [h] at this; simp only [hc] at this; omega
      exact ⟨by rw [Function.update_of_ne this], by rw [Function.update_of_ne this]⟩
    have hlist : ∀ Y t, ((G.operands c).map fun o => Function.update W c Y o t) = (G.operands c).map fun o => W o t :=
      fun Y t => List.map_congr_left fun o h => by rw [(hupd Y 0 o h).1]
    by_cases hop : G.isOp c = true
    · by_cases hrc : G.requiresGrad c = true
      · obtain ⟨Y, w, c1, c2, c3⟩ := op_moves (fun o _ => hwf o) (hwf c) (hev c hop) (hok c hop hrc) W u
          (fun o ho => (h1 o (hlt o ho)).curve) (fun o ho => (h1 o (hlt o ho)).const)
        refine ⟨Y, w, ⟨?_, ?_, ?_, ?_⟩, ?_, ?_⟩
        · simpa using c1
        · intro h; rw [hrc] at h; cases h
        · intro _; simpa only [hlist, Function.update_self] using c2
        · intro _ _
          have e2 : argV G (Function.update u c w) c = argV G u c := by
            funext k i
            cases hk : (G.operands c)[k]? with
            | none => simp [argV, hk]
            | some o => simp [argV, hk, (hupd Y w o (List.mem_of_getElem? hk)).2]
          rw [e2, Function.update_self]; exact c3
        · intro h; simp [Graph.isOp, h] at hop
        · intro h; rw [hop] at h; cases h
      · have hrc : G.requiresGrad c = false := by simpa using hrc
        have hall : ∀ o ∈ G.operands c, G.requiresGrad o = false := by
          intro o ho
          rw [hrc] at hrg
          cases hn : G.node c with
          | leaf b => simp [Graph.isOp, hn] at hop
          | blocker w => simp [Graph.isOp, hn] at hop
          | op os =>
            rw [hn] at hrg
            have := hrg.symm
            rw [List.any_eq_false] at this
            have := this o (by simpa [Graph.operands, hn] using ho)
            simpa using this
        refine ⟨fun _ => V c, 0, ⟨?_, ?_, ?_, ?_⟩, ?_, ?_⟩
        · simpa using const_curve (hwf c)
        · intro _; simp
        · intro _
          refine Filter.Eventually.of_forall fun t => ?_
          simp only [hlist, Function.update_self]
          rw [show ((G.operands c).map fun o => W o t) = (G.operands c).map V from
            List.map_congr_left fun o ho => ((h1 o (hlt o ho)).const (hall o ho)).1 t]
          exact hev c hop
        · intro _ h; rw [hrc] at h; cases h
        · intro h; simp [Graph.isOp, h] at hop
        · intro _ _; rfl
    · by_cases hl : G.node c = .leaf true
      · refine ⟨Θ c, v c, ⟨?_, ?_, fun h => absurd h hop, fun h => absurd h hop⟩, fun _ => ⟨rfl, rfl⟩, ?_⟩
        · simpa using hΘ c hl
        · intro h; rw [hrg, hl] at h; cases h
        · intro _ h; exact absurd hl h
      · refine ⟨fun _ => V c, 0, ⟨?_, ?_, fun h => absurd h hop, fun h => absurd h hop⟩, fun h => absurd h hl, ?_⟩
        · simpa using const_curve (hwf c)
        · intro _; simp
        · intro _ _; rfl

/-- a gradient as a function of the index -/
noncomputable def numAmount : WithZero (Nat → ℝ) →+ (Nat → ℝ) := WithZero.lift (AddHom.id (Nat → ℝ))

theorem numAmount_amount (g : Option (Nat → ℝ)) : numAmount (amount g) = g.getD 0 := by
  cases g with
  | none => exact map_zero numAmount
  | some g => rfl

theorem numAmount_contrib (F : Fns n (Nat → ℝ)) (c : Fin n) (g : Nat → ℝ) (x : Fin n) :
    numAmount (contrib F c (some g) x) = ((F.bw c g).map fun p => if p.1 = x then p.2 else 0).sum := by
  simp only [contrib, map_list_sum, List.map_map]
  congr 1
  apply List.map_congr_left
  intro p _
  simp only [Function.comp]
  split
  · rfl
  · exact map_zero numAmount

/-- The velocity of a tensor weighted with a gradient. -/
noncomputable def pair (V : Fin n → Dense ℝ) (u : Fin n → Nat → ℝ) (x : Fin n) : (Nat → ℝ) →+ ℝ where
  toFun g := ∑ i ∈ Finset.range (V x).data.length, g i * u x i
  map_zero' := by simp
  map_add' a b := by simp [add_mul, Finset.sum_add_distrib]

theorem pair_apply (V : Fin n → Dense ℝ) (u : Fin n → Nat → ℝ) (x : Fin n) (g : Nat → ℝ) :
    pair V u x g = ∑ i ∈ Finset.range (V x).data.length, g i * u x i := rfl

theorem pair_zero {V : Fin n → Dense ℝ} {u : Fin n → Nat → ℝ} {x : Fin n} (h : ∀ i, u x i = 0) (g : Nat → ℝ) :
    pair V u x g = 0 := by
  simp [pair_apply, h]

/-- the calls of `AccGrad` made for a list of operands and their gradients -/
noncomputable def sends (G : Graph n) (l : List (Fin n)) (gs : List (Option (Dense ℝ))) : List (Fin n × (Nat → ℝ)) :=
  (l.zip gs).filterMap fun p => if G.requiresGrad p.1 then p.2.map fun d => (p.1, fun i => d.data.getD i 0) else none

theorem sends_cons (o : Fin n) (l : List (Fin n)) (g : Option (Dense ℝ)) (gs : List (Option (Dense ℝ))) :
    sends G (o :: l) (g :: gs) =
      (match (if G.requiresGrad o then g.map fun d => ((o, fun i => d.val i) : Fin n × (Nat → ℝ)) else none) with
        | some p => [p]
        | none => []) ++ sends G l gs := by
  simp only [sends, List.zip_cons_cons, List.filterMap_cons]
  split <;> rename_i h
  · rw [show (if G.requiresGrad o then g.map fun d => ((o, fun i => d.val i) : Fin n × (Nat → ℝ)) else none) = none from h]
    rfl
  · rw [show (if G.requiresGrad o then g.map fun d => ((o, fun i => d.val i) : Fin n × (Nat → ℝ)) else none) = some _ from h]
    rfl

theorem sends_sublist : ∀ (l : List (Fin n)) (gs : List (Option (Dense ℝ))), ((sends G l gs).map Prod.fst).Sublist l
  | [], gs => by simp [sends]
  | o :: l, [] => by simp [sends]
  | o :: l, g :: gs => by
    rw [sends_cons, List.map_append]
    have ih := sends_sublist l gs
    by_cases hr : G.requiresGrad o = true
    · cases g with
      | none => simpa [hr] using ih.cons o
      | some d => simpa [hr] using ih
    · simpa [hr] using ih.cons o

theorem sends_sum {u : Fin n → Nat → ℝ} : ∀ (l : List (Fin n)) (gs : List (Option (Dense ℝ))), gs.length = l.length →
    (∀ o ∈ l, G.requiresGrad o = false → ∀ i, u o i = 0) →
    ((sends G l gs).map fun p => pair V u p.1 p.2).sum =
      ∑ k ∈ Finset.range l.length, ∑ i ∈ Finset.range (((l.map V).map fun x => x.data.length).getD k 0),
        gradVal gs k i * (l[k]?.map fun o => u o i).getD 0
  | [], gs, _, _ => by simp [sends]
  | o :: l, [], h, _ => by simp at h
  | o :: l, g :: gs, h, h0 => by
    have ih := sends_sum l gs (by simpa using h) (fun o ho => h0 o (by simp [ho]))
    rw [sends_cons, List.map_append, List.sum_append, ih, List.length_cons, Finset.sum_range_succ', add_comm]
    congr 1
    by_cases hr : G.requiresGrad o = true
    · cases g with
      | none => simp [hr, gradVal]
      | some d => simp [hr, gradVal, pair_apply]
    · have hr : G.requiresGrad o = false := by simpa using hr
      simp [hr, h0 o (by simp) hr]

theorem progFns_bw {c : Fin n} {g : Nat → ℝ} {gs : List (Option (Dense ℝ))}
    (h : (op c).backward ((G.operands c).map V) (ofVals (V c) g) = some gs) :
    (progFns G op V).bw c g = sends G (G.operands c) gs := by
  simp only [progFns, h, sends]

theorem progFns_sublist (c : Fin n) (g : Nat → ℝ) : (((progFns G op V).bw c g).map Prod.fst).Sublist (G.operands c) := by
  cases h : (op c).backward ((G.operands c).map V) (ofVals (V c) g) with
  | none => simp [progFns, h]
  | some gs => rw [progFns_bw h]; exact sends_sublist _ _

theorem progFns_atMost (xs : List (Fin n)) : AtMost G (progFns G op V) xs :=
  fun c _ g _ _ _ => (progFns_sublist c g).count_le _

/-- **C48.** A computation of library functions that are right at the values at hand: whatever the schedule,
when `Backward` has returned, the gradients it has added to the trainable leaves are the derivatives of the
outputs' values, weighted with the seeded gradients: however the leaves move, the operators can be
evaluated near the start and the weighted sum of the outputs moves with the velocity of the leaves weighted
with the added gradients. -/
theorem library_gradients_are_derivatives (hac : G.Acyclic) (hwf : ∀ x, (V x).WF) (hev : Evaluates G op V)
    (hok : OpsCorrect G op V) {xs : List (Fin n)} {s₀ s : St n (Nat → ℝ)} (hcl : Clean G s₀)
    (hr : Reach G (progFns G op V) xs s₀ s) (hm : s.main = .returned)
    {Θ : Fin n → ℝ → Dense ℝ} {v : Fin n → Nat → ℝ}
    (hΘ : ∀ x, G.node x = .leaf true → Curve (V x) (Θ x) (v x)) :
    ∃ W, Moves G op V Θ W ∧ ∀ R : Finset (Fin n), (∀ x, x ∈ R ↔ Reached G xs x) →
      ∀ L : Finset (Fin n), (∀ x, x ∈ L ↔ G.node x = .leaf true) →
      HasDerivAt
        (fun t => ∑ x ∈ R, ∑ i ∈ Finset.range (V x).data.length,
          gnum (seeded G (progFns G op V) xs s₀.grad x) i * (W x t).val i)
        (∑ x ∈ L, ∑ i ∈ Finset.range (V x).data.length, (gnum (s.grad x) i - gnum (s₀.grad x) i) * v x i) 0 := by
  classical
  obtain ⟨W, u, hT, hleaf, hconst⟩ := exists_moves hac hwf hev hok hΘ
  refine ⟨W, ⟨fun x => (hT x).curve.start, fun x hx t => by rw [(hleaf x hx).1],
    fun x h1 h2 t => by rw [hconst x h1 h2], ?_⟩, ?_⟩
  · rw [show (∀ᶠ t in 𝓝 (0 : ℝ), Evaluates G op fun x => W x t) ↔
      ∀ᶠ t in 𝓝 (0 : ℝ), ∀ x, G.isOp x = true →
        (op x).forward ((G.operands x).map fun o => W o t) = some (W x t) from Iff.rfl, Filter.eventually_all]
    intro x
    by_cases hx : G.isOp x = true
    · filter_upwards [(hT x).eval hx] with t ht _ using ht
    · exact Filter.Eventually.of_forall fun t h => absurd h hx
  intro R hR L hL
  have ham := progFns_atMost (G := G) (op := op) (V := V) xs
  have hchain := backward_chain_rule hac ham hcl hr hm
  set F := progFns G op V with hF
  set g₁ := seeded G F xs s₀.grad with hg₁
  have hsome : ∀ c, Reached G xs c → ∃ g, s.grad c = some g := by
    intro c hc
    obtain ⟨g, hg⟩ := (backward_once_with_complete_gradient hac ham hcl hr).2.2 hm c hc
    exact ⟨g, ((backward_once_with_complete_gradient hac ham hcl hr).2.1 _ hg).2⟩
  have hu0 : ∀ x, G.requiresGrad x = false → ∀ i, u x i = 0 := fun x hx => ((hT x).const hx).2
  have hbl : ∀ x, G.isBlocker x = true → G.requiresGrad x = false := by
    intro x hx
    rw [Graph.requiresGrad_eq hac]
    cases hn : G.node x <;> simp [Graph.isBlocker, hn] at hx ⊢
  set D : Fin n → ℝ := fun x => pair V u x ((s.grad x).getD 0) with hD
  set S : Fin n → ℝ := fun x => pair V u x ((g₁ x).getD 0) with hS
  set C : Fin n → Fin n → ℝ := fun c x =>
    ((F.bw c ((s.grad c).getD 0)).map fun p => if p.1 = x then pair V u x p.2 else 0).sum with hC
  -- the chain rule, paired with the velocities
  have h1 : ∀ x, D x = S x + ∑ c ∈ R, C c x := by
    intro x
    cases hb : G.isBlocker x with
    | true =>
      have h0 := hu0 x (hbl x hb)
      have hC0 : ∀ c ∈ R, C c x = 0 := by
        intro c _
        simp only [hC, pair_zero h0, ite_self]
        simp
      simp only [hD, hS, pair_zero h0, Finset.sum_eq_zero hC0, add_zero]
    | false =>
      simp only [hD, hS]
      rw [← numAmount_amount, hchain x hb, map_add, numAmount_amount, map_sum, map_add, map_sum,
        ← Finset.sum_subset (Finset.subset_univ R)]
      · congr 1
        refine Finset.sum_congr rfl fun c hc => ?_
        have hc := (hR c).mp hc
        obtain ⟨g, hg⟩ := hsome c hc
        rw [if_pos hc, hg, numAmount_contrib, map_list_sum]
        simp only [hC, hg, Option.getD_some, List.map_map]
        congr 1
        refine List.map_congr_left fun p _ => ?_
        simp only [Function.comp]
        split
        · rfl
        · exact map_zero _
      · intro c _ hc
        rw [if_neg (mt (hR c).mpr hc), map_zero, map_zero]
  -- what an operator sends on is worth its own gradient
  have h2 : ∀ c ∈ R, ∑ x, C c x = D c := by
    intro c hc
    have hc := (hR c).mp hc
    obtain ⟨g, hg⟩ := hsome c hc
    obtain ⟨gs, b1, b2, b3⟩ := (hT c).dual hc.isOp hc.rg g
    have hsw : ∑ x, C c x = ((F.bw c g).map fun p => pair V u p.1 p.2).sum := by
      simp only [hC, hg, Option.getD_some]
      generalize F.bw c g = l
      induction l with
      | nil => simp
      | cons p l ih =>
        simp only [List.map_cons, List.sum_cons, Finset.sum_add_distrib, ih]
        simp
    rw [hsw, hF, progFns_bw b1, sends_sum _ _ (by simpa using b2.1) (fun o _ => hu0 o)]
    simp only [hD, hg, Option.getD_some, pair_apply]
    exact b3.symm
  -- nothing reaches operators that are not concerned
  have h3 : ∀ x, x ∉ R → G.isOp x = true → G.requiresGrad x = true → ∀ c ∈ R, C c x = 0 := by
    intro x hx hop hrg c hc
    simp only [hC]
    apply List.sum_eq_zero
    intro y hy
    obtain ⟨p, hp, rfl⟩ := List.mem_map.mp hy
    split
    · rename_i h
      exfalso
      apply hx
      rw [hR]
      have : p.1 ∈ G.operands c := (progFns_sublist c _).subset (List.mem_map_of_mem hp)
      exact .operand ((hR c).mp hc) (h ▸ this) hop hrg
    · rfl
  have hsum : ∑ x ∈ R, S x = ∑ x ∈ L, (D x - S x) := by
    have e1 : ∑ x, D x = ∑ x, S x + ∑ c ∈ R, D c := by
      rw [Finset.sum_congr rfl fun x _ => h1 x, Finset.sum_add_distrib, Finset.sum_comm]
      congr 1
      exact Finset.sum_congr rfl h2
    have e2 : ∑ x, D x = ∑ c ∈ R, D c + ∑ x ∈ Finset.univ \ R, D x := by
      rw [add_comm, Finset.sum_sdiff (Finset.subset_univ R)]
    have e3 : ∑ x, S x = ∑ c ∈ R, S c + ∑ x ∈ Finset.univ \ R, S x := by
      rw [add_comm, Finset.sum_sdiff (Finset.subset_univ R)]
    have e4 : ∑ x ∈ R, S x = ∑ x ∈ Finset.univ \ R, (D x - S x) := by
      rw [Finset.sum_sub_distrib]; linarith
    rw [e4]
    symm
    apply Finset.sum_subset
    · intro x hx
      simp only [Finset.mem_sdiff, Finset.mem_univ, true_and]
      intro h
      have h5 := ((hR x).mp h).isOp
      rw [hL] at hx
      simp [Graph.isOp, hx] at h5
    · intro x hx hxL
      simp only [Finset.mem_sdiff, Finset.mem_univ, true_and] at hx
      by_cases hrg : G.requiresGrad x = true
      · have hop : G.isOp x = true := by
          have := Graph.requiresGrad_eq hac x
          rw [hrg] at this
          cases hn : G.node x with
          | leaf b =>
            rw [hn] at this
            simp only at this
            exact absurd ((hL x).mpr (by rw [hn, ← this])) hxL
          | blocker w => rw [hn] at this; simp at this
          | op os => simp [Graph.isOp, hn]
        rw [h1 x, Finset.sum_eq_zero (h3 x hx hop hrg)]; ring
      · have h0 := hu0 x (by simpa using hrg)
        simp only [hD, hS, pair_zero h0, sub_zero]
  -- the derivative
  have hder : HasDerivAt (fun t => ∑ x ∈ R, ∑ i ∈ Finset.range (V x).data.length, gnum (g₁ x) i * (W x t).val i)
      (∑ x ∈ R, S x) 0 :=
    HasDerivAt.fun_sum fun x _ => HasDerivAt.fun_sum fun i hi =>
      ((hT x).curve.deriv i (Finset.mem_range.mp hi)).const_mul _
  rw [hsum] at hder
  refine hder.congr_deriv (Finset.sum_congr rfl fun x hx => ?_)
  have hx := (hL x).mp hx
  have hs : g₁ x = s₀.grad x := by
    simp only [hg₁, seeded]
    rw [if_neg]
    simp [Graph.isOp, hx]
  simp only [hD, hS, hs, pair_apply, ← Finset.sum_sub_distrib, (hleaf x hx).2]
  exact Finset.sum_congr rfl fun i _ => by simp only [gnum]; ring

/-- **C48 for one scalar output.** The leaves may hold gradients from before, the operators none: the derivative of the
output is what is added to the gradients. -/
theorem library_gradient_adds (hac : G.Acyclic) (hwf : ∀ x, (V x).WF) (hev : Evaluates G op V)
    (hok : OpsCorrect G op V) {y : Fin n} (hy : G.isOp y = true) (hyr : G.requiresGrad y = true)
    (hy1 : (V y).data.length = 1) {s₀ s : St n (Nat → ℝ)} (hcl : Clean G s₀)
    (hg0 : ∀ x, G.isOp x = true → s₀.grad x = none)
    (hr : Reach G (progFns G op V) [y] s₀ s) (hm : s.main = .returned)
    {Θ : Fin n → ℝ → Dense ℝ} {v : Fin n → Nat → ℝ}
    (hΘ : ∀ x, G.node x = .leaf true → Curve (V x) (Θ x) (v x))
    {L : Finset (Fin n)} (hL : ∀ x, x ∈ L ↔ G.node x = .leaf true) :
    ∃ W, Moves G op V Θ W ∧ HasDerivAt (fun t => (W y t).val 0)
      (∑ x ∈ L, ∑ i ∈ Finset.range (V x).data.length, (gnum (s.grad x) i - gnum (s₀.grad x) i) * v x i) 0 := by
  classical
  obtain ⟨W, h1, h2⟩ := library_gradients_are_derivatives hac hwf hev hok hcl hr hm hΘ
  refine ⟨W, h1, ?_⟩
  have h3 := h2 (Finset.univ.filter fun x => Reached G [y] x) (by simp) L hL
  have e : ∀ t, (∑ x ∈ Finset.univ.filter fun x => Reached G [y] x, ∑ i ∈ Finset.range (V x).data.length,
      gnum (seeded G (progFns G op V) [y] s₀.grad x) i * (W x t).val i) = (W y t).val 0 := by
    intro t
    rw [Finset.sum_eq_single y]
    · simp [hy1, seeded, hy, hg0 y hy, gnum, progFns]
    · intro x hx hxy
      have hx : Reached G [y] x := (Finset.mem_filter.mp hx).2
      simp [seeded, hxy, hg0 x hx.isOp, gnum]
    · intro h
      exact absurd (Finset.mem_filter.mpr ⟨Finset.mem_univ _, .out (by simp) hy hyr⟩) h
  simpa only [e] using h3

/-- **C48 for one scalar output**, no gradients before: the derivative of the output is the gradients'. -/
theorem library_gradient_single (hac : G.Acyclic) (hwf : ∀ x, (V x).WF) (hev : Evaluates G op V)
    (hok : OpsCorrect G op V) {y : Fin n} (hy : G.isOp y = true) (hyr : G.requiresGrad y = true)
    (hy1 : (V y).data.length = 1) {s₀ s : St n (Nat → ℝ)} (hcl : Clean G s₀) (hg0 : ∀ x, s₀.grad x = none)
    (hr : Reach G (progFns G op V) [y] s₀ s) (hm : s.main = .returned)
    {Θ : Fin n → ℝ → Dense ℝ} {v : Fin n → Nat → ℝ}
    (hΘ : ∀ x, G.node x = .leaf true → Curve (V x) (Θ x) (v x))
    {L : Finset (Fin n)} (hL : ∀ x, x ∈ L ↔ G.node x = .leaf true) :
    ∃ W, Moves G op V Θ W ∧ HasDerivAt (fun t => (W y t).val 0)
      (∑ x ∈ L, ∑ i ∈ Finset.range (V x).data.length, gnum (s.grad x) i * v x i) 0 := by
  obtain ⟨W, h1, h2⟩ := library_gradient_adds hac hwf hev hok hy hyr hy1 hcl (fun x _ => hg0 x) hr hm hΘ hL
  refine ⟨W, h1, h2.congr_deriv (Finset.sum_congr rfl fun x _ => Finset.sum_congr rfl fun i _ => ?_)⟩
  simp [gnum, hg0]

theorem bump_curve {d : Dense ℝ} (h : d.WF) (i : Nat) : Curve d (bump d i) (fun j => if j = i then 1 else 0) := by
  refine ⟨?_, fun t => ⟨by simpa [WF, bump] using h, rfl, rfl⟩, ?_⟩
  · by_cases hi : i < d.data.length
    · simp [bump, val_of_lt d hi]
    · simp [bump, List.set_eq_of_length_le (Nat.le_of_not_lt hi)]
  · intro j hj
    by_cases hji : j = i
    · subst hji
      have e : (fun t => (bump d j t).val j) = fun t => d.val j + t := by
        funext t
        rw [val_of_lt _ (by simpa [bump] using hj)]
        simp [bump]
      rw [if_pos rfl, e]
      simpa using (hasDerivAt_id (0 : ℝ)).const_add (d.val j)
    · have e : (fun t => (bump d i t).val j) = fun _ => d.val j := by
        funext t
        rw [val_of_lt _ (by simpa [bump] using hj), val_of_lt _ hj]
        simp [bump, List.getElem_set, Ne.symm hji]
      rw [if_neg hji, e]
      exact hasDerivAt_const _ _

/-- **C48, partial derivatives.** When `Backward` has returned, element `i` of the gradient of the trainable
leaf `l` is the partial derivative of the scalar output in element `i` of `l`. -/
theorem library_partial_derivative (hac : G.Acyclic) (hwf : ∀ x, (V x).WF) (hev : Evaluates G op V)
    (hok : OpsCorrect G op V) {y : Fin n} (hy : G.isOp y = true) (hyr : G.requiresGrad y = true)
    (hy1 : (V y).data.length = 1) {s₀ s : St n (Nat → ℝ)} (hcl : Clean G s₀) (hg0 : ∀ x, s₀.grad x = none)
    (hr : Reach G (progFns G op V) [y] s₀ s) (hm : s.main = .returned)
    {l : Fin n} (hl : G.node l = .leaf true) {i : Nat} (hi : i < (V l).data.length) :
    ∃ W, Moves G op V (fun x t => if x = l then bump (V l) i t else V x) W ∧
      HasDerivAt (fun t => (W y t).val 0) (gnum (s.grad l) i) 0 := by
  classical
  obtain ⟨W, h1, h2⟩ := library_gradient_single hac hwf hev hok hy hyr hy1 hcl hg0 hr hm
    (Θ := fun x t => if x = l then bump (V l) i t else V x)
    (v := fun x j => if x = l then (if j = i then 1 else 0) else 0) (by
      intro x _
      by_cases hx : x = l
      · subst hx; simpa using bump_curve (hwf x) i
      · simp only [if_neg hx]; exact const_curve (hwf x)) (L := Finset.univ.filter fun x => G.node x = .leaf true) (by simp)
  refine ⟨W, h1, h2.congr_deriv ?_⟩
  rw [Finset.sum_eq_single l]
  · simp [hi]
  · intro x _ hx; simp [hx]
  · intro h; exact absurd (by simp [hl]) h

/-- A function that is right for all operands is right for some. -/
theorem correctOn_of_correct {f : GradFn ℝ} {xs : List (Dense ℝ)} (h : Correct f xs) (act : Nat → Prop) :
    CorrectOn act f xs := by
  intro y hy gy hgy
  obtain ⟨gs, h1, h2, h3⟩ := h y hy gy hgy
  exact ⟨gs, h1, h2, fun X v hX _ _ => h3 X v hX (fun _ h => absurd trivial h) (fun _ h => absurd trivial h)⟩

/-- Every operand that is an operator requiring gradients is sent one. False for the parameters of ELU and
the like, and for `ScalarMax` (C05). -/
def Delivers (G : Graph n) (op : Fin n → GradFn ℝ) (V : Fin n → Dense ℝ) : Prop :=
  ∀ c, G.isOp c = true → G.requiresGrad c = true → ∀ g gs,
    (op c).backward ((G.operands c).map V) (ofVals (V c) g) = some gs →
    ∀ (k : Nat) o, (G.operands c)[k]? = some o → G.isOp o = true → G.requiresGrad o = true →
      ∃ d, gs[k]? = some (some d)

theorem sends_count {x : Fin n} (hop : G.isOp x = true) (hr : G.requiresGrad x = true) :
    ∀ (l : List (Fin n)) (gs : List (Option (Dense ℝ))),
      (∀ (k : Nat) o, l[k]? = some o → G.isOp o = true → G.requiresGrad o = true → ∃ d, gs[k]? = some (some d)) →
      ((sends G l gs).map Prod.fst).count x = l.count x
  | [], gs, _ => by simp [sends]
  | o :: l, [], h => by
    have hx : x ∉ o :: l := by
      intro hm
      obtain ⟨k, hk⟩ := List.mem_iff_getElem?.mp hm
      obtain ⟨d, hd⟩ := h k x hk hop hr
      simp at hd
    rw [List.count_eq_zero_of_not_mem hx]
    simp [sends]
  | o :: l, g :: gs, h => by
    have ih := sends_count hop hr l gs fun k o hk => h (k + 1) o (by simpa using hk)
    rw [sends_cons, List.map_append, List.count_append, ih, List.count_cons, Nat.add_comm]
    congr 1
    by_cases hox : o = x
    · subst hox
      obtain ⟨d, hd⟩ := h 0 o rfl hop hr
      have : g = some d := by simpa using hd
      subst this
      simp [hr]
    · by_cases hro : G.requiresGrad o = true
      · cases g with
        | none => simp [hro, hox]
        | some d => simp [hro, hox]
      · simp [hro, hox]

/-- **C48, termination.** With functions that are right and serve all operands, `Backward` returns under
every schedule. -/
theorem library_backward_returns (hac : G.Acyclic) (hwf : ∀ x, (V x).WF) (hev : Evaluates G op V)
    (hok : OpsCorrect G op V) (hdel : Delivers G op V) (xs : List (Fin n)) {s₀ : St n (Nat → ℝ)} (hcl : Clean G s₀) :
    Returns G (progFns G op V) xs s₀ := by
  refine backward_returns hac ?_ hcl
  intro c hc g x hx hr
  obtain ⟨gs, h1, -, -⟩ := hok c hc.isOp hc.rg (V c) (hev c hc.isOp) (ofVals (V c) g) (ofVals_like (hwf c) g)
  rw [progFns_bw h1]
  exact sends_count hx hr _ _ (hdel c hc.isOp hc.rg g gs h1)

end Verif.Backward
