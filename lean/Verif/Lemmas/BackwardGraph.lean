import Verif.Lemmas.BackwardMain

/-! Facts about graphs and the chain rule that do not concern the machine, plus existence of
complete runs. -/

set_option linter.unusedSimpArgs false
set_option autoImplicit false

namespace Verif.Backward
open Function (update)
open scoped BigOperators
variable {n : Nat} {M : Type}

theorem amount_injective : Function.Injective (amount (M := M)) := by
  intro a b h
  cases a <;> cases b <;> simp [amount] at h ⊢
  exact h

/-- A reached operator receives nothing from operators that are not larger. -/
theorem contrib_zero [AddCommSemigroup M] {G : Graph n} {F : Fns n M} {xs : List (Fin n)}
    (ham : AtMost G F xs) {c x : Fin n} (hc : Reached G xs c) (ho : G.isOp x = true)
    (hr : G.requiresGrad x = true) (hx : x ∉ G.operands c) (g : Option M) :
    contrib F c g x = 0 := by
  cases g with
  | none => rfl
  | some g =>
    have h1 := ham c hc g x ho hr
    rw [List.count_eq_zero.mpr hx] at h1
    have h2 : x ∉ (F.bw c g).map Prod.fst := List.count_eq_zero.mp (by omega)
    simp only [contrib]
    apply List.sum_eq_zero
    intro y hy
    obtain ⟨p, hp, rfl⟩ := List.mem_map.mp hy
    rw [if_neg]
    intro he
    exact h2 (he ▸ List.mem_map_of_mem hp)

theorem chainRule_reached [AddCommSemigroup M] {G : Graph n} {F : Fns n M} {xs : List (Fin n)}
    (hac : G.Acyclic) (ham : AtMost G F xs) {g₁ g g' : Fin n → Option M}
    (h : ChainRule G F xs g₁ g) (h' : ChainRule G F xs g₁ g') :
    ∀ c, Reached G xs c → g c = g' c := by
  suffices H : ∀ k, ∀ x : Fin n, n - x.val ≤ k → Reached G xs x → g x = g' x from
    fun c hc => H n c (by omega) hc
  intro k
  induction k with
  | zero => intro x hx; have := x.isLt; omega
  | succ k ih =>
    intro x hx hr
    apply amount_injective
    rw [h x (isBlocker_of_isOp hr.isOp), h' x (isBlocker_of_isOp hr.isOp)]
    congr 1
    apply Finset.sum_congr rfl
    intro c _
    split
    · rename_i hc
      by_cases hm : x ∈ G.operands c
      · have : x.val < c.val := hac c x hm
        rw [ih c (by omega) hc]
      · rw [contrib_zero ham hc hr.isOp hr.rg hm, contrib_zero ham hc hr.isOp hr.rg hm]
    · rfl

theorem chainRule_unique [AddCommSemigroup M] {G : Graph n} {F : Fns n M} {xs : List (Fin n)}
    (hac : G.Acyclic) (ham : AtMost G F xs) {g₁ g g' : Fin n → Option M}
    (h : ChainRule G F xs g₁ g) (h' : ChainRule G F xs g₁ g') :
    ∀ x, G.isBlocker x = false → g x = g' x := by
  have hr := chainRule_reached hac ham h h'
  intro x hx
  apply amount_injective
  rw [h x hx, h' x hx]
  congr 1
  apply Finset.sum_congr rfl
  intro c _
  split
  · rename_i hc; rw [hr c hc]
  · rfl

/-! ### requiresGrad -/

theorem rgFuel_stable {G : Graph n} (hac : G.Acyclic) :
    ∀ k k' (x : Fin n), x.val < k → x.val < k' → G.rgFuel k x = G.rgFuel k' x := by
  intro k
  induction k with
  | zero => intro k' x h; omega
  | succ k ih =>
    intro k' x h h'
    cases k' with
    | zero => omega
    | succ k' =>
      simp only [Graph.rgFuel]
      cases hn : G.node x with
      | leaf b => rfl
      | blocker w => rfl
      | op os =>
        simp only
        apply Bool.eq_iff_iff.mpr
        simp only [List.any_eq_true]
        have hlt : ∀ o ∈ os, o.val < x.val := by
          intro o ho
          exact hac x o (by simp [Graph.operands, hn, ho])
        constructor
        · rintro ⟨o, ho, h1⟩
          have := hlt o ho
          exact ⟨o, ho, by rwa [← ih k' o (by omega) (by omega)]⟩
        · rintro ⟨o, ho, h1⟩
          have := hlt o ho
          exact ⟨o, ho, by rwa [ih k' o (by omega) (by omega)]⟩

/-- the recursion equation of `RequiresGrad` -/
theorem Graph.requiresGrad_eq {G : Graph n} (hac : G.Acyclic) (x : Fin n) :
    G.requiresGrad x = match G.node x with
      | .leaf b => b
      | .blocker _ => false
      | .op os => os.any G.requiresGrad := by
  unfold Graph.requiresGrad
  rw [rgFuel_stable hac n (n + 1) x x.isLt (by omega)]
  rfl

/-! ### complete runs exist -/

theorem exists_final [AddCommSemigroup M] {G : Graph n} {F : Fns n M} {xs : List (Fin n)}
    {e : Fin n → Nat} {s₀ : St n M} (hac : G.Acyclic) (ham : AtMost G F xs)
    (hst : Start G (xs.filter G.isOp) e s₀) {s : St n M} (h : Reach G F xs s₀ s) :
    ∃ s', Reach G F xs s₀ s' ∧ ∀ c, step G F (xs.filter G.isOp) s' c = none := by
  have wf : WellFounded (fun a b : Nat ×ₗ Nat ×ₗ Nat => a < b) := wellFounded_lt
  have hxs : ∀ x ∈ xs.filter G.isOp, G.isOp x = true := fun x hx => (List.mem_filter.mp hx).2
  suffices H : ∀ m : Nat ×ₗ Nat ×ₗ Nat, ∀ s, meas s = m → Reach G F xs s₀ s →
      ∃ s', Reach G F xs s₀ s' ∧ ∀ c, step G F (xs.filter G.isOp) s' c = none from H _ s rfl h
  intro m
  induction m using wf.induction with
  | _ m ih =>
    intro s hm hr
    by_cases hs : ∀ c, step G F (xs.filter G.isOp) s c = none
    · exact ⟨s, hr, hs⟩
    · obtain ⟨c, hc⟩ := not_forall.mp hs
      obtain ⟨s', hs'⟩ := Option.ne_none_iff_exists'.mp hc
      have hlt := (reach_inv hac ham hst hr).meas_lt hxs hac ham.filter hs'
      exact ih (meas s') (hm ▸ hlt) s' rfl (.step c hr hs')

theorem no_infinite [AddCommSemigroup M] {G : Graph n} {F : Fns n M} {xs : List (Fin n)}
    {e : Fin n → Nat} {s₀ : St n M} (hac : G.Acyclic) (ham : AtMost G F xs)
    (hst : Start G (xs.filter G.isOp) e s₀) (run : Nat → St n M) (h0 : run 0 = call G xs s₀)
    (hrun : ∀ i, ∃ c, step G F (xs.filter G.isOp) (run i) c = some (run (i + 1))) : False := by
  have hxs : ∀ x ∈ xs.filter G.isOp, G.isOp x = true := fun x hx => (List.mem_filter.mp hx).2
  have hr : ∀ i, Reach G F xs s₀ (run i) := by
    intro i
    induction i with
    | zero => rw [h0]; exact .init
    | succ i ih => obtain ⟨c, hc⟩ := hrun i; exact .step c ih hc
  have hd : ∀ i, meas (run (i + 1)) < meas (run i) := by
    intro i
    obtain ⟨c, hc⟩ := hrun i
    exact (reach_inv hac ham hst (hr i)).meas_lt hxs hac ham.filter hc
  have wf : WellFounded (fun a b : Nat ×ₗ Nat ×ₗ Nat => a < b) := wellFounded_lt
  have H : ∀ m : Nat ×ₗ Nat ×ₗ Nat, ∀ i, meas (run i) ≠ m := by
    intro m
    induction m using wf.induction with
    | _ m ih => intro i hi; exact ih _ (hi ▸ hd i) (i + 1) rfl
  exact H _ 0 rfl

end Verif.Backward
