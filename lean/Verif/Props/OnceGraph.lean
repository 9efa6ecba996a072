import Verif.Model.MultiHead
import Mathlib.Logic.Relation

set_option autoImplicit false
set_option linter.unusedSimpArgs false

/-!
# `RequiresGrad` with its `sync.Once` and `prepareBackwardPass`, on any graph

Used for C35. On the part of the graph below a tensor that has no cycle both return; an operator that is
its own first operand makes both wait for ever.
-/

namespace Verif.MultiHead
open Function (update)
variable {N : Type} [DecidableEq N] {G : N → Node N}

/-! ### specification -/

/-- A tensor requires gradients when it is a leaf with the flag or an operator with such an operand. -/
inductive Req (G : N → Node N) : N → Prop
  | leaf {x : N} : G x = .leaf true → Req G x
  | op {x y : N} {os : List N} : G x = .op os → y ∈ os → Req G y → Req G x

/-- `y` is an operand of the operator `x`. -/
def Child (G : N → Node N) (y x : N) : Prop := ∃ os, G x = .op os ∧ y ∈ os

/-- Operators reachable from a list of tensors through operators. -/
inductive OpReach (G : N → Node N) (roots : List N) : N → Prop
  | root {x : N} {os : List N} : x ∈ roots → G x = .op os → OpReach G roots x
  | child {x y : N} {os : List N} : OpReach G roots x → Child G y x → G y = .op os → OpReach G roots y

/-- The memoised answers are right. -/
structure Sound (G : N → Node N) (o : N → Once) : Prop where
  val : ∀ x b, o x = .done b → (b = true ↔ Req G x)
  kids : ∀ x os, G x = .op os → o x = .done false → ∀ y ∈ os, ∀ os', G y = .op os' → o y = .done false

/-! ### partial correctness of the loop -/

structure RgPost (G : N → Node N) (o : N → Once) (l : List N) (r : (N → Once) × Bool) : Prop where
  sound : Sound G r.1
  val : r.2 = true ↔ ∃ x ∈ l, Req G x
  mono : ∀ y b, o y = .done b → r.1 y = .done b
  run : ∀ y, r.1 y = .running ↔ o y = .running
  kids : r.2 = false → ∀ x ∈ l, ∀ os, G x = .op os → r.1 x = .done false
  head : ∀ x xs os, l = x :: xs → G x = .op os → o x ≠ .running
  self : ∀ x os, G x = .op (x :: os) → (∀ b, o x ≠ .done b) → ∀ b, r.1 x ≠ .done b
  first : ∀ x xs os, l = x :: xs → G x = .op os → r.1 x ≠ .fresh

theorem req_op {x : N} {os : List N} (h : G x = .op os) : Req G x ↔ ∃ y ∈ os, Req G y := by
  constructor
  · intro hr
    cases hr with
    | leaf h' => rw [h] at h'; cases h'
    | op h' hy hr => rw [h] at h'; cases h'; exact ⟨_, hy, hr⟩
  · rintro ⟨y, hy, hr⟩
    exact .op h hy hr

theorem req_leaf {x : N} {b : Bool} (h : G x = .leaf b) : Req G x ↔ b = true := by
  constructor
  · intro hr
    cases hr with
    | leaf h' => rw [h] at h'; cases h'; rfl
    | op h' _ _ => rw [h] at h'; cases h'
  · rintro rfl
    exact .leaf h

theorem req_blocker {x : N} (h : G x = .blocker) : ¬ Req G x := by
  intro hr
  cases hr with
  | leaf h' => rw [h] at h'; cases h'
  | op h' _ _ => rw [h] at h'; cases h'

theorem rgList_post {o : N → Once} {l : List N} {r : (N → Once) × Bool}
    (h : rgList G o l = some r) (hs : Sound G o) : RgPost G o l r := by
  revert hs
  refine rgList.partial_correctness G (motive := fun o l r => Sound G o → RgPost G o l r) ?_ o l r h
  clear h o l r
  intro f ih o l r h hs
  match l, h with
  | [], h =>
    cases h
    exact ⟨hs, by simp, fun _ _ h => h, fun _ => Iff.rfl, by simp, by simp, fun _ _ _ h => h, by simp⟩
  | x :: xs, h =>
    simp only at h
    -- skipping `x` without a change
    have skip : (∀ os, G x = .op os → o x = .done false) → ¬ Req G x → f o xs = some r →
        RgPost G o (x :: xs) r := by
      intro h1 h2 h3
      have P := ih o xs r h3 hs
      refine ⟨P.sound, ?_, P.mono, P.run, ?_, ?_, P.self, ?_⟩
      · rw [P.val]; simp [h2]
      · intro hb y hy os hos
        rw [List.mem_cons] at hy
        rcases hy with rfl | hy
        · exact P.mono _ _ (h1 os hos)
        · exact P.kids hb y hy os hos
      · intro y ys os he hos
        cases he
        rw [h1 os hos]; simp
      · intro y ys os he hos
        cases he
        rw [P.mono _ _ (h1 os hos)]; simp
    have stop : (∀ os, G x = .op os → o x = .done true) → Req G x → r = (o, true) →
        RgPost G o (x :: xs) r := by
      rintro h1 h2 rfl
      refine ⟨hs, ?_, fun _ _ h => h, fun _ => Iff.rfl, by simp, ?_, fun _ _ _ h => h, ?_⟩
      · simp only [true_iff]; exact ⟨x, by simp, h2⟩
      · intro y ys os he hos
        cases he
        rw [h1 os hos]; simp
      · intro y ys os he hos
        cases he
        show o x ≠ .fresh
        rw [h1 os hos]; simp
    cases hx : G x with
    | leaf b =>
      rw [hx] at h
      cases b with
      | true =>
        simp only [Option.some.injEq] at h
        exact stop (by simp [hx]) (.leaf hx) h.symm
      | false => exact skip (by simp [hx]) (by rw [req_leaf hx]; simp) h
    | blocker =>
      rw [hx] at h
      exact skip (by simp [hx]) (req_blocker hx) h
    | op os =>
      rw [hx] at h
      simp only at h
      cases hox : o x with
      | done b =>
        rw [hox] at h
        have hv := hs.val x b hox
        cases b with
        | true =>
          simp only [Option.some.injEq] at h
          exact stop (fun _ _ => hox) (hv.mp rfl) h.symm
        | false => exact skip (fun _ _ => hox) (by rw [← hv]; simp) h
      | running => rw [hox] at h; cases h
      | fresh =>
        rw [hox] at h
        simp only [Option.bind_eq_bind, Option.bind_eq_some_iff] at h
        obtain ⟨p, hp, h⟩ := h
        have hs1 : Sound G (update o x .running) := by
          refine ⟨?_, ?_⟩
          · intro y b hy
            rw [Function.update_apply] at hy
            split at hy
            · cases hy
            · exact hs.val y b hy
          · intro y os' hos' hy z hz oz hoz
            rw [Function.update_apply] at hy ⊢
            split at hy
            · cases hy
            · have := hs.kids y os' hos' hy z hz oz hoz
              by_cases hzx : z = x
              · subst hzx; rw [hox] at this; cases this
              · rw [if_neg hzx]; exact this
        have P := ih _ _ _ hp hs1
        have hrx : p.1 x = .running := (P.run x).mpr (by simp)
        have hreq : p.2 = true ↔ Req G x := by rw [P.val, req_op hx]
        have hs2 : Sound G (update p.1 x (.done p.2)) := by
          refine ⟨?_, ?_⟩
          · intro y b hy
            rw [Function.update_apply] at hy
            split at hy
            · rename_i e; subst e; cases hy; exact hreq
            · exact P.sound.val y b hy
          · intro y os' hos' hy z hz oz hoz
            rw [Function.update_apply] at hy ⊢
            by_cases hzx : z = x
            · subst hzx
              rw [if_pos rfl]
              split at hy
              · exact hy
              · have := P.sound.kids y os' hos' hy z hz oz hoz
                rw [hrx] at this; cases this
            · rw [if_neg hzx]
              split at hy
              · rename_i e
                subst e
                rw [hx] at hos'; cases hos'
                simp only [Once.done.injEq] at hy
                exact P.kids hy z hz oz hoz
              · exact P.sound.kids y os' hos' hy z hz oz hoz
        have mono2 : ∀ y b, o y = .done b → update p.1 x (.done p.2) y = .done b := by
          intro y b hy
          have hne : y ≠ x := by rintro rfl; rw [hox] at hy; cases hy
          rw [Function.update_of_ne hne]
          exact P.mono y b (by rw [Function.update_of_ne hne]; exact hy)
        have run2 : ∀ y, update p.1 x (.done p.2) y = .running ↔ o y = .running := by
          intro y
          by_cases hne : y = x
          · subst hne; rw [Function.update_self, hox]; simp
          · rw [Function.update_of_ne hne, P.run y, Function.update_of_ne hne]
        have self2 : ∀ y os', G y = .op (y :: os') → (∀ b, o y ≠ .done b) →
            ∀ b, update p.1 x (.done p.2) y ≠ .done b := by
          intro y os' hy hd b
          by_cases hne : y = x
          · subst hne
            rw [hx] at hy; cases hy
            exact absurd (by simp) (P.head y os' _ rfl hx)
          · rw [Function.update_of_ne hne]
            refine P.self y os' hy ?_ b
            intro b'
            rw [Function.update_of_ne hne]; exact hd b'
        cases hb : p.2 with
        | true =>
          rw [hb] at h
          simp only [if_true, Option.some.injEq] at h
          subst h
          rw [hb] at hs2 mono2 run2 self2
          refine ⟨hs2, ?_, mono2, run2, by simp, ?_, self2, ?_⟩
          · simp only [true_iff]; exact ⟨x, by simp, hreq.mp hb⟩
          · intro y ys os' he hos'
            cases he
            rw [hox]; simp
          · intro y ys os' he hos'
            cases he
            simp
        | false =>
          rw [hb] at h
          simp only [Bool.false_eq_true, if_false] at h
          rw [hb] at hs2 mono2 run2 self2
          have Q := ih _ _ _ h hs2
          have hnr : ¬ Req G x := by rw [← hreq, hb]; simp
          have hxd : r.1 x = .done false := Q.mono x false (by simp)
          refine ⟨Q.sound, ?_, fun y b hy => Q.mono y b (mono2 y b hy),
            fun y => (Q.run y).trans (run2 y), ?_, ?_, ?_, ?_⟩
          · rw [Q.val]; simp [hnr]
          · intro hb' y hy os' hos'
            rw [List.mem_cons] at hy
            rcases hy with rfl | hy
            · exact hxd
            · exact Q.kids hb' y hy os' hos'
          · intro y ys os' he hos'
            cases he
            rw [hox]; simp
          · intro y os' hy hd
            exact Q.self y os' hy (self2 y os' hy hd)
          · intro y ys os' he hos'
            cases he
            rw [hxd]; simp

/-- What a returning `RequiresGrad` answers: the truth. (C01: in the absence of cycles it returns, see
`requiresGrad_returns`.) -/
theorem requiresGrad_correct {o : N → Once} {x : N} {r : (N → Once) × Bool}
    (h : requiresGrad G o x = some r) (hs : Sound G o) : (r.2 = true ↔ Req G x) ∧ Sound G r.1 := by
  have P := rgList_post h hs
  exact ⟨by rw [P.val]; simp, P.sound⟩

/-- `RequiresGrad` on an operator that is its own first operand never returns, unless its answer was
stored before (which never happens, see `prepare_hangs`). -/
theorem requiresGrad_hangs {o : N → Once} {x : N} {os : List N} (h : G x = .op (x :: os))
    (hs : Sound G o) (hd : ∀ b, o x ≠ .done b) : requiresGrad G o x = none := by
  by_contra hc
  obtain ⟨r, hr⟩ := Option.ne_none_iff_exists'.mp hc
  have P := rgList_post hr hs
  have h1 := P.self x os h hd
  have h2 := P.first x [] _ rfl h
  have h3 := P.head x [] _ rfl h
  cases hq : r.1 x with
  | fresh => exact h2 hq
  | running => exact h3 ((P.run x).mp hq)
  | done b => exact h1 b hq

/-! ### `prepareBackwardPass` -/

structure PrepPost (G : N → Node N) (s : Prep N) (l : List N) (s' : Prep N) : Prop where
  sound : Sound G s'.once
  mono : ∀ y b, s.once y = .done b → s'.once y = .done b
  monoP : ∀ y, s.pending y = true → s'.pending y = true
  self : ∀ x os, G x = .op (x :: os) → (∀ b, s.once x ≠ .done b) → ∀ b, s'.once x ≠ .done b
  all : ∀ x ∈ l, ∀ os, G x = .op os → (∃ b, s'.once x = .done b) ∧ (Req G x → s'.pending x = true)
  new : ∀ x os, s'.pending x = true → s.pending x = false → G x = .op os → ∀ y ∈ os, ∀ os',
    G y = .op os' → (∃ b, s'.once y = .done b) ∧ (Req G y → s'.pending y = true)

theorem prepareList_post {s : Prep N} {l : List N} {s' : Prep N}
    (h : prepareList G s l = some s') (hs : Sound G s.once) : PrepPost G s l s' := by
  revert hs
  refine prepareList.partial_correctness G (motive := fun s l s' => Sound G s.once → PrepPost G s l s')
    ?_ s l s' h
  clear h s l s'
  intro f ih s l s' h hs
  match l, h with
  | [], h =>
    cases h
    refine ⟨hs, fun _ _ h => h, fun _ h => h, fun _ _ _ h => h, by simp, ?_⟩
    intro x os h1 h2
    rw [h1] at h2; cases h2
  | x :: xs, h =>
    simp only at h
    cases hx : G x with
    | leaf b =>
      rw [hx] at h
      have P := ih s xs s' h hs
      refine ⟨P.sound, P.mono, P.monoP, P.self, ?_, P.new⟩
      intro y hy os hos
      rw [List.mem_cons] at hy
      rcases hy with rfl | hy
      · rw [hx] at hos; cases hos
      · exact P.all y hy os hos
    | blocker =>
      rw [hx] at h
      have P := ih s xs s' h hs
      refine ⟨P.sound, P.mono, P.monoP, P.self, ?_, P.new⟩
      intro y hy os hos
      rw [List.mem_cons] at hy
      rcases hy with rfl | hy
      · rw [hx] at hos; cases hos
      · exact P.all y hy os hos
    | op os =>
      rw [hx] at h
      simp only [Option.bind_eq_bind, Option.bind_eq_some_iff] at h
      obtain ⟨r, hr, h⟩ := h
      have R := rgList_post hr hs
      have hdone : ∃ b, r.1 x = .done b := by
        cases hq : r.1 x with
        | fresh => exact absurd hq (R.first x [] os rfl hx)
        | running => exact absurd ((R.run x).mp hq) (R.head x [] os rfl hx)
        | done b => exact ⟨b, rfl⟩
      have hval : r.2 = true ↔ Req G x := by rw [R.val]; simp
      obtain ⟨b, hb⟩ := hdone
      cases hr2 : r.2 with
      | false =>
        rw [hr2] at h
        simp only [Bool.false_eq_true, if_false] at h
        have P := ih _ _ _ h R.sound
        refine ⟨P.sound, fun y b hy => P.mono y b (R.mono y b hy), P.monoP,
          fun y os' hy hd => P.self y os' hy (R.self y os' hy hd), ?_, P.new⟩
        intro y hy os' hos'
        rw [List.mem_cons] at hy
        rcases hy with rfl | hy
        · exact ⟨⟨b, P.mono _ _ hb⟩, fun hq => absurd (hval.mpr hq) (by rw [hr2]; simp)⟩
        · exact P.all y hy os' hos'
      | true =>
        rw [hr2] at h
        simp only [if_true] at h
        cases hpx : s.pending x with
        | true =>
          rw [hpx] at h
          simp only [if_true] at h
          have P := ih _ _ _ h R.sound
          refine ⟨P.sound, fun y b hy => P.mono y b (R.mono y b hy), P.monoP,
            fun y os' hy hd => P.self y os' hy (R.self y os' hy hd), ?_, P.new⟩
          intro y hy os' hos'
          rw [List.mem_cons] at hy
          rcases hy with rfl | hy
          · exact ⟨⟨b, P.mono _ _ hb⟩, fun _ => P.monoP _ hpx⟩
          · exact P.all y hy os' hos'
        | false =>
          rw [hpx] at h
          simp only [Bool.false_eq_true, if_false, Option.bind_eq_some_iff] at h
          obtain ⟨s1, h1, h⟩ := h
          have P := ih _ _ _ h1 R.sound
          have Q := ih _ _ _ h P.sound
          have hpx1 : s1.pending x = true := P.monoP x (by simp)
          refine ⟨Q.sound, fun y b hy => Q.mono y b (P.mono y b (R.mono y b hy)), ?_,
            fun y os' hy hd => Q.self y os' hy (P.self y os' hy (R.self y os' hy hd)), ?_, ?_⟩
          · intro y hy
            refine Q.monoP y (P.monoP y ?_)
            by_cases hne : y = x
            · subst hne; simp
            · simpa [Function.update_of_ne hne] using hy
          · intro y hy os' hos'
            rw [List.mem_cons] at hy
            rcases hy with rfl | hy
            · exact ⟨⟨b, Q.mono _ _ (P.mono _ _ hb)⟩, fun _ => Q.monoP _ hpx1⟩
            · exact Q.all y hy os' hos'
          · intro y os' hy1 hy2 hos' z hz oz hoz
            by_cases hy3 : s1.pending y = true
            · have key : (∃ b, s1.once z = .done b) ∧ (Req G z → s1.pending z = true) := by
                by_cases hne : y = x
                · subst hne
                  rw [hx] at hos'; cases hos'
                  exact P.all z hz oz hoz
                · exact P.new y os' hy3 (by simpa [Function.update_of_ne hne] using hy2) hos' z hz oz hoz
              obtain ⟨⟨bz, hbz⟩, k2⟩ := key
              exact ⟨⟨bz, Q.mono z bz hbz⟩, fun hq => Q.monoP z (k2 hq)⟩
            · exact Q.new y os' hy1 (by simpa using hy3) hos' z hz oz hoz

theorem sound_init : Sound G (Prep.init : Prep N).once := by
  refine ⟨?_, ?_⟩
  · intro x b h; cases h
  · intro x os _ h; cases h

/-- When the preparation returns, every operator below the roots has its answer stored. -/
theorem prepare_done {roots : List N} {s : Prep N} (h : prepareList G Prep.init roots = some s) {x : N}
    (hx : OpReach G roots x) : (∃ b, s.once x = .done b) ∧ (Req G x → s.pending x = true) := by
  have P := prepareList_post h sound_init
  induction hx with
  | root hx hos => exact P.all _ hx _ hos
  | @child x y os hx hc hos ih =>
    obtain ⟨os', hos', hy⟩ := hc
    obtain ⟨⟨b, hb⟩, hp⟩ := ih
    cases b with
    | true =>
      exact P.new x os' (hp ((P.sound.val x true hb).mp rfl)) rfl hos' y hy os hos
    | false =>
      have hd := P.sound.kids x os' hos' hb y hy os hos
      exact ⟨⟨false, hd⟩, fun hq => by simpa using (P.sound.val y false hd).mpr hq⟩

/-- **C35.** If an operator below the roots is its own first operand, the preparation phase of
`Backward` never returns. -/
theorem prepare_hangs {roots : List N} {x : N} {os : List N} (hx : OpReach G roots x)
    (h : G x = .op (x :: os)) : prepareList G Prep.init roots = none := by
  by_contra hc
  obtain ⟨s, hs⟩ := Option.ne_none_iff_exists'.mp hc
  obtain ⟨⟨b, hb⟩, -⟩ := prepare_done hs hx
  exact (prepareList_post hs sound_init).self x os h (by intro b; simp [Prep.init]) b hb

/-! ### termination without cycles -/

theorem acc_no_cycle {x : N} (h : Acc (Child G) x) : ¬ Relation.TransGen (Child G) x x := by
  intro hc
  have : ∀ y, Acc (Child G) y → ¬ Relation.TransGen (Child G) y y := by
    intro y hy
    have hy' := hy.transGen
    clear hy
    induction hy' with
    | intro y _ ih => intro hyy; exact ih y hyy hyy
  exact this x h hc

theorem rgList_returns {x : N} (h : Acc (Child G) x) :
    ∀ (o : N → Once) (xs : List N), Sound G o →
      (∀ y, o y = .running → ¬ Relation.ReflTransGen (Child G) y x) →
      (∀ o', Sound G o' → (∀ y, o' y = .running ↔ o y = .running) → (rgList G o' xs).isSome) →
      (rgList G o (x :: xs)).isSome := by
  induction h with
  | intro x hacc ih =>
    intro o xs hs hrun hxs
    have h0 := hxs o hs fun _ => Iff.rfl
    rw [rgList.eq_def]
    simp only
    cases hx : G x with
    | leaf b => cases b <;> simp [h0]
    | blocker => simp [h0]
    | op os =>
      simp only
      cases hox : o x with
      | done b => cases b <;> simp [h0]
      | running => exact absurd .refl (hrun x hox)
      | fresh =>
        have hs1 : Sound G (update o x .running) := by
          refine ⟨?_, ?_⟩
          · intro y b hy
            rw [Function.update_apply] at hy
            split at hy
            · cases hy
            · exact hs.val y b hy
          · intro y os' hos' hy z hz oz hoz
            rw [Function.update_apply] at hy ⊢
            split at hy
            · cases hy
            · have := hs.kids y os' hos' hy z hz oz hoz
              by_cases hzx : z = x
              · subst hzx; rw [hox] at this; cases this
              · rw [if_neg hzx]; exact this
        have hcyc := acc_no_cycle (Acc.intro x hacc)
        have hins : ∀ (l : List N), (∀ y ∈ l, Child G y x) → ∀ o' : N → Once, Sound G o' →
            (∀ y, o' y = .running ↔ (update o x .running) y = .running) → (rgList G o' l).isSome := by
          intro l
          induction l with
          | nil => intro _ o' _ _; rw [rgList.eq_def]; rfl
          | cons y l ihl =>
            intro hl o' hso hro
            refine ih y (hl y (by simp)) o' l hso ?_ ?_
            · intro z hz hzy
              rw [hro z, Function.update_apply] at hz
              have hyx := hl y (by simp)
              split at hz
              · rename_i e; subst e
                exact hcyc (Relation.TransGen.tail' hzy hyx)
              · exact hrun z hz (hzy.tail hyx)
            · intro o'' hso' hro'
              exact ihl (fun z hz => hl z (by simp [hz])) o'' hso' fun z => (hro' z).trans (hro z)
        obtain ⟨p, hp⟩ := Option.isSome_iff_exists.mp
          (hins os (fun y hy => ⟨os, hx, hy⟩) _ hs1 fun _ => Iff.rfl)
        simp only [hp, Option.bind_eq_bind, Option.bind_some]
        -- the state after the call
        have P : RgPost G o [x] (update p.1 x (.done p.2), p.2) := by
          apply rgList_post _ hs
          rw [rgList.eq_def]
          simp only [hx, hox, hp, Option.bind_eq_bind, Option.bind_some]
          cases p.2 <;> simp [rgList.eq_def]
        cases hb : p.2 with
        | true => simp
        | false =>
          rw [hb] at P
          simpa using hxs _ P.sound P.run

/-- On a tensor without a cycle below it, `RequiresGrad` returns (and answers correctly, see
`requiresGrad_correct`). -/
theorem requiresGrad_returns {o : N → Once} {x : N} (h : Acc (Child G) x) (hs : Sound G o)
    (hr : ∀ y, o y ≠ .running) : (requiresGrad G o x).isSome :=
  rgList_returns h o [] hs (fun y hy => absurd hy (hr y)) fun o' _ _ => by rw [rgList.eq_def]; rfl

theorem prepareList_returns {x : N} (h : Acc (Child G) x) :
    ∀ (s : Prep N) (xs : List N), Sound G s.once → (∀ y, s.once y ≠ .running) →
      (∀ s' : Prep N, Sound G s'.once → (∀ y, s'.once y ≠ .running) → ∃ t, prepareList G s' xs = some t ∧
        Sound G t.once ∧ ∀ y, t.once y ≠ .running) →
      ∃ t, prepareList G s (x :: xs) = some t ∧ Sound G t.once ∧ ∀ y, t.once y ≠ .running := by
  induction h with
  | intro x hacc ih =>
    intro s xs hs hrun hxs
    have h0 := hxs s hs hrun
    rw [prepareList.eq_def]
    simp only
    cases hx : G x with
    | leaf b => exact h0
    | blocker => exact h0
    | op os =>
      simp only
      obtain ⟨r, hr⟩ := Option.isSome_iff_exists.mp (requiresGrad_returns (Acc.intro x hacc) hs hrun)
      have R := rgList_post hr hs
      have hrun1 : ∀ y, r.1 y ≠ .running := fun y hy => hrun y ((R.run y).mp hy)
      simp only [hr, Option.bind_eq_bind, Option.bind_some]
      cases r.2 with
      | false => simpa using hxs _ R.sound hrun1
      | true =>
        simp only [if_true]
        cases s.pending x with
        | true => simpa using hxs _ R.sound hrun1
        | false =>
          have hins : ∀ (l : List N), (∀ y ∈ l, Child G y x) → ∀ s' : Prep N, Sound G s'.once →
              (∀ y, s'.once y ≠ .running) → ∃ t, prepareList G s' l = some t ∧ Sound G t.once ∧
                ∀ y, t.once y ≠ .running := by
            intro l
            induction l with
            | nil => intro _ s' h1 h2; exact ⟨s', by rw [prepareList.eq_def], h1, h2⟩
            | cons y l ihl =>
              intro hl s' h1 h2
              exact ih y (hl y (by simp)) s' l h1 h2 fun s'' h3 h4 =>
                ihl (fun z hz => hl z (by simp [hz])) s'' h3 h4
          obtain ⟨t, ht, h1, h2⟩ := hins os (fun y hy => ⟨os, hx, hy⟩)
            ⟨r.1, update s.pending x true, update s.pend x (s.pend x + 1)⟩ R.sound hrun1
          simp only [Bool.false_eq_true, if_false, ht, Option.bind_some]
          exact hxs t h1 h2

/-- **C35.** Without cycles below the roots the preparation phase returns, and marks every operator
below the roots that requires gradients. -/
theorem prepare_returns {roots : List N} (h : ∀ x ∈ roots, Acc (Child G) x) :
    ∃ s, prepareList G Prep.init roots = some s ∧
      ∀ x, OpReach G roots x → Req G x → s.pending x = true := by
  have key : ∀ (l : List N), (∀ x ∈ l, Acc (Child G) x) → ∀ s' : Prep N, Sound G s'.once →
      (∀ y, s'.once y ≠ .running) → ∃ t, prepareList G s' l = some t ∧ Sound G t.once ∧
        ∀ y, t.once y ≠ .running := by
    intro l
    induction l with
    | nil => intro _ s' h1 h2; exact ⟨s', by rw [prepareList.eq_def], h1, h2⟩
    | cons y l ihl =>
      intro hl s' h1 h2
      exact prepareList_returns (hl y (by simp)) s' l h1 h2 fun s'' h3 h4 =>
        ihl (fun z hz => hl z (by simp [hz])) s'' h3 h4
  obtain ⟨t, ht, -⟩ := key roots h Prep.init sound_init (by intro y; simp [Prep.init])
  exact ⟨t, ht, fun x hx hq => (prepare_done ht hx).2 hq⟩

end Verif.MultiHead
