import Verif.Model.Select32
import Verif.Spec.Select32
import Verif.Lemmas.F32Int

set_option autoImplicit false
set_option linter.unusedSimpArgs false

/-!
# C99: selection among float32, with infinities and NaN

Without NaN, `Max`, `Min`, `ArgMax`, `Maximum`, `Minimum` and `Clip` do what their names say, also with infinities and zeros of both signs.
With a NaN, what they do depends on where it stands: `Max`, `Min` and `ArgMax` ignore it unless it comes first, and then they ignore all
numbers; `Maximum` and `Minimum` keep it from the argument and drop it from the receiver.
-/

namespace Verif.Select32
open Verif.F32 Verif.Spec.Select32

/-! ### The order -/

theorem number_lt {x y : W} (hx : isNaN x = false) (hy : isNaN y = false) : number x < number y ↔ key x < key y := by
  have kb : ∀ {z : W}, isNaN z = false → z ≠ posInf → z ≠ negInf → -0x7f800000 < key z ∧ key z < 0x7f800000 := by
    intro z hz h1 h2
    have h1' : z.toNat ≠ 0x7f800000 := fun h => h1 (BitVec.eq_of_toNat_eq h)
    have h2' : z.toNat ≠ 0xff800000 := fun h => h2 (BitVec.eq_of_toNat_eq h)
    have := z.isLt
    simp only [isNaN, decide_eq_false_iff_not, not_lt] at hz
    unfold key
    split <;> omega
  have kp : key posInf = 0x7f800000 := by decide
  have kn : key negInf = -0x7f800000 := by decide
  have pn : negInf ≠ posInf := by decide
  unfold number
  by_cases x1 : x = posInf
  · subst x1
    by_cases y1 : y = posInf
    · subst y1; simp
    · by_cases y2 : y = negInf
      · subst y2
        rw [if_pos rfl, kp, kn]
        simp
      · have := kb hy y1 y2
        rw [if_pos rfl, kp]
        simp
        omega
  · by_cases x2 : x = negInf
    · subst x2
      rw [if_neg x1, if_pos rfl, kn]
      by_cases y1 : y = posInf
      · subst y1
        rw [if_pos rfl, kp]
        simp
      · by_cases y2 : y = negInf
        · subst y2
          rw [if_neg y1, if_pos rfl, kn]
          simp
        · have := kb hy y1 y2
          rw [if_neg y1, if_neg y2]
          simp [EReal.bot_lt_coe]
          omega
    · have hxk := kb hx x1 x2
      rw [if_neg x1, if_neg x2]
      by_cases y1 : y = posInf
      · subst y1
        rw [if_pos rfl, kp]
        simp [EReal.coe_lt_top]
        omega
      · by_cases y2 : y = negInf
        · subst y2
          rw [if_neg y1, if_pos rfl, kn]
          simp
          omega
        · rw [if_neg y1, if_neg y2, EReal.coe_lt_coe_iff, key_lt]

/-- The comparison of Go is that of the numbers. -/
theorem lt_number {x y : W} (hx : isNaN x = false) (hy : isNaN y = false) : lt x y = true ↔ number x < number y := by
  rw [number_lt hx hy]
  simp [lt, hx, hy]

theorem lt_nan_left {x y : W} (h : isNaN x = true) : lt x y = false := by simp [lt, h]
theorem lt_nan_right {x y : W} (h : isNaN y = true) : lt x y = false := by simp [lt, h]

/-! ### `Max` and `Min` -/

theorem max_loop (l : List W) : ∀ a : W, isNaN a = false → Largest (a :: l) (l.foldl (fun m v => if lt m v then v else m) a) := by
  induction l with
  | nil => intro a ha; exact ⟨by simp, ha, fun v hv _ => by simp at hv; subst hv; exact le_rfl⟩
  | cons b l ih =>
    intro a ha
    rw [List.foldl_cons]
    by_cases hb : isNaN b = true
    · rw [lt_nan_right hb, if_neg (by simp)]
      obtain ⟨h1, h2, h3⟩ := ih a ha
      refine ⟨?_, h2, fun v hv hn => ?_⟩
      · rcases List.mem_cons.mp h1 with h | h <;> simp [h]
      · rcases List.mem_cons.mp hv with rfl | hv
        · exact h3 _ (by simp) hn
        · rcases List.mem_cons.mp hv with rfl | hv
          · rw [hb] at hn; cases hn
          · exact h3 v (List.mem_cons_of_mem _ hv) hn
    · have hb : isNaN b = false := by simpa using hb
      by_cases hlt : lt a b = true
      · rw [if_pos hlt]
        obtain ⟨h1, h2, h3⟩ := ih b hb
        refine ⟨List.mem_cons_of_mem _ h1, h2, fun v hv hn => ?_⟩
        rcases List.mem_cons.mp hv with rfl | hv
        · exact ((lt_number ha hb).mp hlt).le.trans (h3 b (by simp) hb)
        · exact h3 v hv hn
      · rw [if_neg hlt]
        obtain ⟨h1, h2, h3⟩ := ih a ha
        refine ⟨?_, h2, fun v hv hn => ?_⟩
        · rcases List.mem_cons.mp h1 with h | h <;> simp [h]
        · rcases List.mem_cons.mp hv with rfl | hv
          · exact h3 _ (by simp) hn
          · rcases List.mem_cons.mp hv with rfl | hv
            · have : number v ≤ number a := not_lt.mp fun h => hlt ((lt_number ha hb).mpr h)
              exact this.trans (h3 a (by simp) ha)
            · exact h3 v (List.mem_cons_of_mem _ hv) hn

theorem min_loop (l : List W) : ∀ a : W, isNaN a = false → Smallest (a :: l) (l.foldl (fun m v => if lt v m then v else m) a) := by
  induction l with
  | nil => intro a ha; exact ⟨by simp, ha, fun v hv _ => by simp at hv; subst hv; exact le_rfl⟩
  | cons b l ih =>
    intro a ha
    rw [List.foldl_cons]
    by_cases hb : isNaN b = true
    · rw [lt_nan_left hb, if_neg (by simp)]
      obtain ⟨h1, h2, h3⟩ := ih a ha
      refine ⟨?_, h2, fun v hv hn => ?_⟩
      · rcases List.mem_cons.mp h1 with h | h <;> simp [h]
      · rcases List.mem_cons.mp hv with rfl | hv
        · exact h3 _ (by simp) hn
        · rcases List.mem_cons.mp hv with rfl | hv
          · rw [hb] at hn; cases hn
          · exact h3 v (List.mem_cons_of_mem _ hv) hn
    · have hb : isNaN b = false := by simpa using hb
      by_cases hlt : lt b a = true
      · rw [if_pos hlt]
        obtain ⟨h1, h2, h3⟩ := ih b hb
        refine ⟨List.mem_cons_of_mem _ h1, h2, fun v hv hn => ?_⟩
        rcases List.mem_cons.mp hv with rfl | hv
        · exact (h3 b (by simp) hb).trans ((lt_number hb ha).mp hlt).le
        · exact h3 v hv hn
      · rw [if_neg hlt]
        obtain ⟨h1, h2, h3⟩ := ih a ha
        refine ⟨?_, h2, fun v hv hn => ?_⟩
        · rcases List.mem_cons.mp h1 with h | h <;> simp [h]
        · rcases List.mem_cons.mp hv with rfl | hv
          · exact h3 _ (by simp) hn
          · rcases List.mem_cons.mp hv with rfl | hv
            · have : number a ≤ number v := not_lt.mp fun h => hlt ((lt_number hb ha).mpr h)
              exact (h3 a (by simp) ha).trans this
            · exact h3 v (List.mem_cons_of_mem _ hv) hn

/-- **C99: `Max` and `Min`.**  When the first element is a number, they return a largest and a smallest of the numbers. -/
theorem max_partial {a : W} (ha : isNaN a = false) (l : List W) : ∃ m, maxOf (a :: l) = some m ∧ Largest (a :: l) m := ⟨_, rfl, max_loop l a ha⟩
theorem min_partial {a : W} (ha : isNaN a = false) (l : List W) : ∃ m, minOf (a :: l) = some m ∧ Smallest (a :: l) m := ⟨_, rfl, min_loop l a ha⟩

/-- **C99: a NaN in front.**  `Max` and `Min` are this NaN, whatever follows. -/
theorem max_nan_first {a : W} (ha : isNaN a = true) (l : List W) : maxOf (a :: l) = some a ∧ minOf (a :: l) = some a := by
  have key : l.foldl (fun m v => if lt m v then v else m) a = a ∧ l.foldl (fun m v => if lt v m then v else m) a = a := by
    induction l with
    | nil => exact ⟨rfl, rfl⟩
    | cons b l ih =>
      rw [List.foldl_cons, List.foldl_cons, lt_nan_left ha, lt_nan_right ha]
      exact ih
  exact ⟨congrArg some key.1, congrArg some key.2⟩

/-- **C99: the order of the elements.**  Without NaN it does not matter which order the elements are in. -/
theorem max_order_partial {l l' : List W} (hp : l.Perm l') (hn : ∀ v ∈ l, isNaN v = false) {m m' : W} (h : maxOf l = some m) (h' : maxOf l' = some m') :
    number m = number m' := by
  cases l with
  | nil => cases h
  | cons a l =>
    cases l' with
    | nil => cases h'
    | cons b l' =>
      have hn' : ∀ v ∈ b :: l', isNaN v = false := fun v hv => hn v (hp.mem_iff.mpr hv)
      have h1 := max_loop l a (hn a (by simp))
      have h2 := max_loop l' b (hn' b (by simp))
      simp only [maxOf, Option.some.injEq] at h h'
      rw [h] at h1
      rw [h'] at h2
      exact le_antisymm (h2.2.2 m (hp.mem_iff.mp h1.1) h1.2.1) (h1.2.2 m' (hp.mem_iff.mpr h2.1) h2.2.1)

/-- **C99: not so with a NaN.**  Any NaN and any number: the result depends on which comes first. -/
theorem max_order_fails {n x : W} (hn : isNaN n = true) (hx : isNaN x = false) :
    maxOf [n, x] = some n ∧ maxOf [x, n] = some x ∧ minOf [n, x] = some n ∧ minOf [x, n] = some x ∧ n ≠ x := by
  refine ⟨?_, ?_, ?_, ?_, fun h => by rw [h, hx] at hn; cases hn⟩ <;> simp [maxOf, minOf, lt_nan_left hn, lt_nan_right hn]

/-! ### `ArgMax` -/

theorem arg_loop (l : List W) : ∀ (pre : List W) (k : Nat) (m : W), pre[k]? = some m → isNaN m = false →
    (∀ v ∈ pre, isNaN v = false → number v ≤ number m) → (∀ i v, i < k → pre[i]? = some v → isNaN v = false → number v < number m) →
    FirstLargest (pre ++ l) (argLoop pre.length k m l) := by
  induction l with
  | nil =>
    intro pre k m h1 h2 h3 h4
    rw [List.append_nil]
    exact ⟨m, h1, h2, h3, h4⟩
  | cons v l ih =>
    intro pre k m h1 h2 h3 h4
    have e : pre ++ v :: l = (pre ++ [v]) ++ l := by simp
    have el : pre.length + 1 = (pre ++ [v]).length := by simp
    have kl : k < pre.length := (List.getElem?_eq_some_iff.mp h1).1
    unfold argLoop
    rw [e, el]
    by_cases hlt : lt m v = true
    · have hv : isNaN v = false := by
        by_contra hc
        rw [lt_nan_right (by simpa using hc)] at hlt
        cases hlt
      have hmv := (lt_number h2 hv).mp hlt
      rw [if_pos hlt]
      refine ih (pre ++ [v]) pre.length v (by simp) hv (fun w hw hn => ?_) (fun i w hi hw hn => ?_)
      · rcases List.mem_append.mp hw with hw | hw
        · exact (h3 w hw hn).trans hmv.le
        · simp at hw; subst hw; exact le_rfl
      · rw [List.getElem?_append_left hi] at hw
        exact (h3 w (List.mem_of_getElem? hw) hn).trans_lt hmv
    · rw [if_neg hlt]
      refine ih (pre ++ [v]) k m (by rw [List.getElem?_append_left kl]; exact h1) h2 (fun w hw hn => ?_) (fun i w hi hw hn => ?_)
      · rcases List.mem_append.mp hw with hw | hw
        · exact h3 w hw hn
        · simp at hw
          subst hw
          exact not_lt.mp fun h => hlt ((lt_number h2 hn).mpr h)
      · rw [List.getElem?_append_left (hi.trans kl)] at hw
        exact h4 i w hi hw hn

theorem lt_self (a : W) : lt a a = false := by simp [lt]

/-- **C99: `ArgMax`.**  When the first element is a number, it is the first index of a largest number. -/
theorem argMax_partial {a : W} (ha : isNaN a = false) (l : List W) : ∃ i, argMax (a :: l) = some i ∧ FirstLargest (a :: l) i := by
  have := arg_loop l [a] 0 a rfl ha (fun v hv _ => by simp at hv; subst hv; exact le_rfl) (fun i v hi => by omega)
  refine ⟨_, rfl, ?_⟩
  rw [argLoop, if_neg (by simp [lt_self])]
  exact this

/-- **C99: a NaN in front.**  `ArgMax` is 0. -/
theorem argMax_nan_first {a : W} (ha : isNaN a = true) (l : List W) : argMax (a :: l) = some 0 := by
  have key : ∀ (l : List W) (i : Nat), argLoop i 0 a l = 0 := by
    intro l
    induction l with
    | nil => intro i; rfl
    | cons b l ih => intro i; rw [argLoop, lt_nan_left ha, if_neg (by simp)]; exact ih _
  simp only [argMax, key]

/-! ### `Maximum`, `Minimum` and `Clip` -/

/-- **C99: `Maximum` and `Minimum`.**  Of two numbers they take the larger and the smaller. -/
theorem bigger_partial {d o : W} (hd : isNaN d = false) (ho : isNaN o = false) :
    number (bigger d o) = max (number d) (number o) ∧ number (smaller d o) = min (number d) (number o) ∧
      (bigger d o = d ∨ bigger d o = o) ∧ (smaller d o = d ∨ smaller d o = o) := by
  unfold bigger smaller
  refine ⟨?_, ?_, by split <;> simp, by split <;> simp⟩
  · by_cases h : lt o d = true
    · rw [if_pos h, max_eq_left ((lt_number ho hd).mp h).le]
    · rw [if_neg h, max_eq_right (not_lt.mp fun h' => h ((lt_number ho hd).mpr h'))]
  · by_cases h : lt d o = true
    · rw [if_pos h, min_eq_left ((lt_number hd ho).mp h).le]
    · rw [if_neg h, min_eq_right (not_lt.mp fun h' => h ((lt_number hd ho).mpr h'))]

/-- **C99: with a NaN.**  They take the element of the argument: so a NaN of the receiver is lost, and one of the argument stays. -/
theorem bigger_nan {d o : W} (h : isNaN d = true ∨ isNaN o = true) : bigger d o = o ∧ smaller d o = o := by
  unfold bigger smaller
  rcases h with h | h <;> simp [lt_nan_left h, lt_nan_right h]

/-- **C99: not symmetric.** -/
theorem bigger_fails {n x : W} (hn : isNaN n = true) (hx : isNaN x = false) : bigger n x = x ∧ bigger x n = n ∧ smaller n x = x ∧ smaller x n = n :=
  ⟨(bigger_nan (.inl hn)).1, (bigger_nan (.inr hn)).1, (bigger_nan (.inl hn)).2, (bigger_nan (.inr hn)).2⟩

theorem maximum_get {a b z : List W} (h : maximum a b = some z) : z.length = a.length ∧ b.length = a.length ∧
    ∀ i (ha : i < a.length) (hb : i < b.length), z[i]? = some (bigger a[i] b[i]) := by
  unfold maximum at h
  split at h
  · rename_i hl
    simp only [Option.some.injEq] at h
    subst h
    exact ⟨by simp [hl], hl.symm, fun i ha hb => by simp [ha, hb]⟩
  · cases h
theorem minimum_get {a b z : List W} (h : minimum a b = some z) : z.length = a.length ∧ b.length = a.length ∧
    ∀ i (ha : i < a.length) (hb : i < b.length), z[i]? = some (smaller a[i] b[i]) := by
  unfold minimum at h
  split at h
  · rename_i hl
    simp only [Option.some.injEq] at h
    subst h
    exact ⟨by simp [hl], hl.symm, fun i ha hb => by simp [ha, hb]⟩
  · cases h

/-- **C99: `Clip`.**  For bounds that are numbers in order, a number ends as the nearest one between them; a NaN stays. -/
theorem clip_number {lo hi v : W} (hl : isNaN lo = false) (hh : isNaN hi = false) (hlh : number lo ≤ number hi) (hv : isNaN v = false) :
    number (clip lo hi v) = max (number lo) (min (number v) (number hi)) := by
  unfold clip
  by_cases h1 : lt v lo = true
  · have := (lt_number hv hl).mp h1
    rw [if_pos h1, max_eq_left ((min_le_left _ _).trans this.le)]
  · rw [if_neg h1]
    have a1 : number lo ≤ number v := not_lt.mp fun h => h1 ((lt_number hv hl).mpr h)
    by_cases h2 : lt hi v = true
    · have := (lt_number hh hv).mp h2
      rw [if_pos h2, min_eq_right this.le, max_eq_right hlh]
    · have a2 : number v ≤ number hi := not_lt.mp fun h => h2 ((lt_number hh hv).mpr h)
      rw [if_neg h2, min_eq_left a2, max_eq_right a1]
theorem clip_nan {lo hi v : W} (hv : isNaN v = true) : clip lo hi v = v := by
  unfold clip
  rw [lt_nan_left hv, lt_nan_right hv]
  simp

/-! ### Examples -/

/-- 1, a NaN, infinity and 2. -/
example : maxOf [0x3f800000, 0x7fc00000, 0x7f800000, 0x40000000] = some 0x7f800000 ∧ argMax [0x3f800000, 0x7fc00000, 0x7f800000, 0x40000000] = some 2 ∧
    minOf [0x3f800000, 0x7fc00000, 0xff800000] = some 0xff800000 ∧ isNaN (0x3f800000 : W) = false := by decide
/-- The NaN first. -/
example : isNaN (0x7fc00000 : W) = true ∧ argMax [0x7fc00000, 0x3f800000, 0x40000000] = some 0 := by decide
/-- `Clip` of 5 to the numbers from -1 to 1. -/
example : clip 0xbf800000 0x3f800000 0x40a00000 = 0x3f800000 := by decide

end Verif.Select32
