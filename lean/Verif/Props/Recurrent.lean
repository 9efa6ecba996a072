import Verif.Spec.Recurrent
import Verif.Lemmas.Col
import Mathlib.Tactic.NormNum
import Mathlib.Tactic.Positivity

set_option autoImplicit false
set_option linter.unusedSimpArgs false

/-! # C37: recurrent networks -/

namespace Verif.Recurrent
open GradFn Dense
open scoped BigOperators

/-! ### sequences of steps, for every kind of cell -/

section Generic
variable {S X Y : Type} {next : Option S → X → Option S} {out : S → Y}

theorem run_length : ∀ {xs : List X} {s : Option S} {r : List Y × Option S}, run next out s xs = some r →
    r.1.length = xs.length
  | [], s, r, h => by obtain rfl := Option.some.inj h; rfl
  | x :: xs, s, r, h => by
    simp only [run, Option.bind_eq_bind, Option.bind_eq_some_iff] at h
    obtain ⟨s', h1, r', h2, h3⟩ := h
    obtain rfl := Option.some.inj h3
    simp [run_length h2]

/-- **C37.** A sequence may be processed in two parts: the state after the first part carries all that is
needed. -/
theorem run_append : ∀ (xs ys : List X) (s : Option S), run next out s (xs ++ ys) = (do
    let r ← run next out s xs
    let q ← run next out r.2 ys
    some (r.1 ++ q.1, q.2))
  | [], ys, s => by simp [run]
  | x :: xs, ys, s => by
    simp only [List.cons_append, run, run_append xs ys, Option.bind_eq_bind]
    cases next s x with
    | none => rfl
    | some s' =>
      simp only [Option.bind_some]
      cases run next out (some s') xs with
      | none => rfl
      | some r =>
        simp only [Option.bind_some]
        cases run next out r.2 ys <;> rfl

/-- **C37.** Output `i` does not depend on later inputs: the outputs of a prefix are a prefix of the
outputs. -/
theorem forward_prefix {xs ys : List X} {zs : List Y} (h : forward next out (xs ++ ys) = some zs) :
    forward next out xs = some (zs.take xs.length) := by
  simp only [forward, run_append, Option.bind_eq_bind] at h ⊢
  cases hr : run next out none xs with
  | none => rw [hr] at h; cases h
  | some r =>
    rw [hr] at h
    simp only [Option.bind_some] at h ⊢
    cases hq : run next out r.2 ys with
    | none => rw [hq] at h; cases h
    | some q =>
      rw [hq] at h
      simp only [Option.bind_some, Option.some.injEq] at h
      rw [← h, List.take_left' (run_length hr)]

/-- **C37.** Causality: sequences equal up to `i` have equal outputs up to `i`. -/
theorem forward_causal {xs xs' : List X} {zs zs' : List Y} (h : forward next out xs = some zs)
    (h' : forward next out xs' = some zs') {i : Nat} (he : xs.take (i + 1) = xs'.take (i + 1)) : zs[i]? = zs'[i]? := by
  have aux : ∀ {xs : List X} {zs : List Y}, forward next out xs = some zs →
      ∃ p, forward next out (xs.take (i + 1)) = some p ∧ p[i]? = zs[i]? := by
    intro xs zs h
    rw [← List.take_append_drop (i + 1) xs] at h
    refine ⟨_, forward_prefix h, ?_⟩
    rw [List.getElem?_take]
    have hl : zs.length = xs.length := by
      simp only [forward, Option.bind_eq_bind, Option.bind_eq_some_iff] at h
      obtain ⟨r, h1, h2⟩ := h
      rw [← Option.some.inj h2, run_length h1, List.take_append_drop]
    split
    · rfl
    · rename_i hlt
      rw [List.getElem?_eq_none]
      simp at hlt
      omega
  obtain ⟨p, h1, h2⟩ := aux h
  obtain ⟨p', h3, h4⟩ := aux h'
  rw [he, h3] at h1
  rw [← h2, ← h4, Option.some.inj h1]

/-- If `next` computes `step` on encoded values, starting without state like with `s₀`, then `Forward`
computes the states after every prefix. -/
theorem forward_refines {V W : Type} {step : V → W → V} {s₀ : V} {enc : V → S} {encX : W → X}
    (h0 : ∀ x, next none (encX x) = some (enc (step s₀ x)))
    (h1 : ∀ s x, next (some (enc s)) (encX x) = some (enc (step s x))) (ws : List W) :
    forward next out (ws.map encX) =
      some ((List.range ws.length).map fun t => out (enc (stateAt step s₀ ws t))) := by
  have aux : ∀ (ws : List W) (s : Option S) (v : V),
      (∀ x, next s (encX x) = some (enc (step v x))) → ∃ s', run next out s (ws.map encX) =
      some ((List.range ws.length).map fun t => out (enc (stateAt step v ws t)), s') := by
    intro ws
    induction ws with
    | nil => intro s v _; exact ⟨s, rfl⟩
    | cons w ws ih =>
      intro s v hs
      obtain ⟨s', hs'⟩ := ih (some (enc (step v w))) (step v w) (h1 _)
      refine ⟨s', ?_⟩
      simp only [List.map_cons, run, hs, Option.bind_eq_bind, Option.bind_some, hs', List.length_cons,
        List.range_succ_eq_map, List.map_map]
      rfl
  obtain ⟨s', hs'⟩ := aux ws none s₀ h0
  simp only [forward, hs', Option.bind_eq_bind, Option.bind_some]

end Generic

/-! ### gates -/

theorem gate_some {i o : Nat} {g : Gate} (h : GateOK i o g) (x y : Nat → ℝ) :
    g.affine (col i x) (some (col o y)) = some (col o (pre i o g x y)) := by
  obtain ⟨⟨w1, w2, w3⟩, ⟨r1, r2, r3⟩, b1, b2, b3⟩ := h
  have hb : g.b = col o g.b.val := by rw [← b2]; exact eq_col b1 b3
  have := affine2_col w1 r1 (r2.trans w2.symm) g.b.val x y
  rw [w2, w3, r3, ← hb] at this
  exact this

theorem gate_none {i o : Nat} {g : Gate} (h : GateOK i o g) (x : Nat → ℝ) :
    g.affine (col i x) none = some (col o (pre i o g x 0)) := by
  obtain ⟨⟨w1, w2, w3⟩, ⟨r1, r2, r3⟩, b1, b2, b3⟩ := h
  have hb : g.b = col o g.b.val := by rw [← b2]; exact eq_col b1 b3
  have := affine_col w1 g.b.val x
  rw [w2, w3, ← hb] at this
  refine this.trans (congrArg some (col_congr fun j _ => ?_))
  simp [pre]

theorem sigmoid_col (n : Nat) (v : Nat → ℝ) : sigmoid.forward [col n v] = some (col n fun i => logistic (v i)) := by
  rw [show sigmoid = _ from rfl]
  simp only [sigmoid, elementwise_col, sigmoidF, logistic, mul_neg, mul_one]

theorem tanh_col (n : Nat) (v : Nat → ℝ) : GradFn.tanh.forward [col n v] = some (col n fun i => Real.tanh (v i)) := by
  simp only [GradFn.tanh, elementwise_col, tanhF]

theorem logistic_pos (a : ℝ) : 0 < logistic a := by unfold logistic; positivity
theorem logistic_lt_one (a : ℝ) : logistic a < 1 := by
  unfold logistic
  rw [div_lt_one (by positivity)]
  have := Real.exp_pos (-a); linarith

/-! ### the cells compute the recurrences -/

theorem srnNext_some {i o : Nat} {m : Gate} (h : GateOK i o m) (y x : Nat → ℝ) :
    srnNext m (some (col o y)) (col i x) = some (col o (srnStep i o m y x)) := by
  simp only [srnNext, gate_some h, Option.bind_eq_bind, Option.bind_some, tanh_col]
  rfl

theorem srnNext_none {i o : Nat} {m : Gate} (h : GateOK i o m) (x : Nat → ℝ) :
    srnNext m none (col i x) = some (col o (srnStep i o m 0 x)) := by
  simp only [srnNext, gate_none h, Option.bind_eq_bind, Option.bind_some, tanh_col]
  rfl

/-- The matrices of a GRU state. -/
def gruEnc (o : Nat) (s : GRUVals) : GRUState := ⟨col o s.r, col o s.p, col o s.c, col o s.y⟩

theorem gruNext_some {i o : Nat} {m : GRU} (h1 : GateOK i o m.part) (h2 : GateOK i o m.res) (h3 : GateOK i o m.cand)
    (s : GRUVals) (x : Nat → ℝ) : gruNext m (some (gruEnc o s)) (col i x) = some (gruEnc o (gruStep i o m s x)) := by
  simp only [gruNext, gruEnc, Option.map_some, gate_some h1, gate_some h2, gate_some h3, Option.bind_eq_bind,
    Option.bind_some, sigmoid_col, tanh_col, tryProd, prod_col, reverseSubScalar_col, add_col]
  rfl

theorem gruNext_none {i o : Nat} {m : GRU} (h1 : GateOK i o m.part) (h2 : GateOK i o m.res) (h3 : GateOK i o m.cand)
    (x : Nat → ℝ) : gruNext m none (col i x) = some (gruEnc o (gruStep i o m gruZero x)) := by
  simp only [gruNext, gruEnc, Option.map_none, gate_none h1, gate_none h2, gate_none h3, Option.bind_eq_bind,
    Option.bind_some, sigmoid_col, tanh_col, tryProd, prod_col, gruStep, gruZero, Pi.zero_apply, zero_mul, mul_zero,
    add_zero]
  rfl

/-- The matrices of an LSTM state. -/
def lstmEnc (o : Nat) (s : LSTMVals) : LSTMState :=
  ⟨col o s.inG, col o s.outG, col o s.forG, col o s.cand, col o s.cell, col o s.y⟩

/-- All gates have the constructors' shapes; refined gates need equal input and output sizes. -/
structure LSTMOK (i o : Nat) (m : LSTM) : Prop where
  inp : GateOK i o m.inp
  outp : GateOK i o m.outp
  forg : GateOK i o m.forg
  cand : GateOK i o m.cand
  refined : m.refined = true → i = o

theorem lstmNext_some {i o : Nat} {m : LSTM} (h : LSTMOK i o m) (s : LSTMVals) (x : Nat → ℝ) :
    lstmNext m (some (lstmEnc o s)) (col i x) = some (lstmEnc o (lstmStep i o m s x)) := by
  cases hr : m.refined
  · simp only [lstmNext, lstmEnc, Option.map_some, gate_some h.inp, gate_some h.outp, gate_some h.forg,
      gate_some h.cand, Option.bind_eq_bind, Option.bind_some, sigmoid_col, tanh_col, prod_col, add_col, hr,
      Bool.false_eq_true, if_false, lstmStep, mul_one]
  · obtain rfl := h.refined hr
    simp only [lstmNext, lstmEnc, Option.map_some, gate_some h.inp, gate_some h.outp, gate_some h.forg,
      gate_some h.cand, Option.bind_eq_bind, Option.bind_some, sigmoid_col, tanh_col, prod_col, add_col, hr,
      if_true, lstmStep]

theorem lstmNext_none {i o : Nat} {m : LSTM} (h : LSTMOK i o m) (x : Nat → ℝ) :
    lstmNext m none (col i x) = some (lstmEnc o (lstmStep i o m lstmZero x)) := by
  cases hr : m.refined
  · simp only [lstmNext, lstmEnc, Option.map_none, gate_none h.inp, gate_none h.outp, gate_none h.forg,
      gate_none h.cand, Option.bind_eq_bind, Option.bind_some, sigmoid_col, tanh_col, prod_col, add_col, hr,
      Bool.false_eq_true, if_false, lstmStep, lstmZero, mul_one, Pi.zero_apply, mul_zero, add_zero]
  · obtain rfl := h.refined hr
    simp only [lstmNext, lstmEnc, Option.map_none, gate_none h.inp, gate_none h.outp, gate_none h.forg,
      gate_none h.cand, Option.bind_eq_bind, Option.bind_some, sigmoid_col, tanh_col, prod_col, add_col, hr,
      if_true, lstmStep, lstmZero, Pi.zero_apply, mul_zero, add_zero]

/-- **C37.** `srn.Model.Forward` computes the recurrence from the zero vector. -/
theorem srn_forward {i o : Nat} {m : Gate} (h : GateOK i o m) (xs : List (Nat → ℝ)) :
    forward (srnNext m) id (xs.map (col i)) =
      some ((List.range xs.length).map fun t => col o (stateAt (srnStep i o m) 0 xs t)) :=
  forward_refines (enc := col o) (srnNext_none h) (srnNext_some h) xs

/-- **C37.** `gru.Model.Forward` computes the recurrence from the zero vector. -/
theorem gru_forward {i o : Nat} {m : GRU} (h1 : GateOK i o m.part) (h2 : GateOK i o m.res) (h3 : GateOK i o m.cand)
    (xs : List (Nat → ℝ)) :
    forward (gruNext m) GRUState.y (xs.map (col i)) =
      some ((List.range xs.length).map fun t => col o (stateAt (gruStep i o m) gruZero xs t).y) :=
  forward_refines (enc := gruEnc o) (gruNext_none h1 h2 h3) (gruNext_some h1 h2 h3) xs

/-- **C37.** `lstm.Model.Forward` computes the recurrence from zero vectors, with and without refined
gates. -/
theorem lstm_forward {i o : Nat} {m : LSTM} (h : LSTMOK i o m) (xs : List (Nat → ℝ)) :
    forward (lstmNext m) LSTMState.y (xs.map (col i)) =
      some ((List.range xs.length).map fun t => col o (stateAt (lstmStep i o m) lstmZero xs t).y) :=
  forward_refines (enc := lstmEnc o) (lstmNext_none h) (lstmNext_some h) xs

/-! ### bounds -/

theorem foldl_inv {S X : Type} {step : S → X → S} {P : S → Prop} (h : ∀ s x, P s → P (step s x)) :
    ∀ (xs : List X) (s : S), P s → P (xs.foldl step s)
  | [], _, hs => hs
  | x :: xs, s, hs => foldl_inv h xs (step s x) (h s x hs)

theorem abs_tanh_lt (a : ℝ) : |Real.tanh a| < 1 := Real.abs_tanh_lt_one a

theorem srn_bound {i o : Nat} (m : Gate) (xs : List (Nat → ℝ)) (t j : Nat) :
    |stateAt (srnStep i o m) 0 xs t j| < 1 := by
  refine foldl_inv (P := fun y : Nat → ℝ => ∀ j, |y j| < 1) (fun y x _ j => abs_tanh_lt _) _ _ ?_ j
  simp

theorem gru_bound {i o : Nat} (m : GRU) (xs : List (Nat → ℝ)) (t j : Nat) :
    |(stateAt (gruStep i o m) gruZero xs t).y j| < 1 := by
  refine foldl_inv (P := fun s : GRUVals => ∀ j, |s.y j| < 1) ?_ _ _ (by simp [gruZero]) j
  intro s x hs j
  have h1 := abs_lt.mp (hs j)
  simp only [gruStep]
  generalize pre i o m.part x s.y j = a
  generalize pre i o m.cand x _ j = b
  have h2 := abs_lt.mp (abs_tanh_lt b)
  have hp := logistic_pos a
  have hq : 0 < 1 - logistic a := by have := logistic_lt_one a; linarith
  rw [abs_lt]
  constructor
  · nlinarith [mul_pos hp (by linarith : 0 < Real.tanh b + 1), mul_pos hq (by linarith : 0 < s.y j + 1)]
  · nlinarith [mul_pos hp (by linarith : 0 < 1 - Real.tanh b), mul_pos hq (by linarith : 0 < 1 - s.y j)]

theorem lstm_bound {i o : Nat} {m : LSTM} (hm : m.refined = false) (xs : List (Nat → ℝ)) (t j : Nat) :
    |(stateAt (lstmStep i o m) lstmZero xs t).y j| < 1 := by
  refine foldl_inv (P := fun s : LSTMVals => ∀ j, |s.y j| < 1) ?_ _ _ (by simp [lstmZero]) j
  intro s x _ j
  simp only [lstmStep, hm, Bool.false_eq_true, if_false, mul_one]
  rw [abs_mul, abs_of_pos (logistic_pos _)]
  exact mul_lt_one_of_nonneg_of_lt_one_left (logistic_pos _).le (logistic_lt_one _) (abs_tanh_lt _).le

/-- The input as vectors. -/
theorem cols_of {i : Nat} {xs : List (Dense ℝ)} (h : ∀ x ∈ xs, x.WF ∧ x.rows = i ∧ x.cols = 1) :
    (xs.map Dense.val).map (col i) = xs := by
  rw [List.map_map]
  conv_rhs => rw [← List.map_id xs]
  refine List.map_congr_left fun x hx => ?_
  obtain ⟨h1, h2, h3⟩ := h x hx
  simp only [Function.comp, id]
  rw [← h2]; exact (eq_col h1 h3).symm

theorem bound_of {n o : Nat} {v : Nat → Nat → ℝ} {ys : List (Dense ℝ)} (hv : ∀ t j, |v t j| < 1)
    (h : some ((List.range n).map fun t => col o (v t)) = some ys) :
    ys.length = n ∧ ∀ y ∈ ys, y.WF ∧ y.rows = o ∧ y.cols = 1 ∧ ∀ a ∈ y.data, |a| < 1 := by
  obtain rfl := Option.some.inj h
  refine ⟨by simp, ?_⟩
  intro y hy
  obtain ⟨t, -, rfl⟩ := List.mem_map.mp hy
  refine ⟨col_WF _ _, rfl, rfl, ?_⟩
  intro a ha
  obtain ⟨j, -, rfl⟩ := List.mem_map.mp ha
  exact hv t j

/-- **C37.** An SRN of the constructor's shapes accepts every sequence of vectors of its input size, gives
one output per input, and every component lies in (-1, 1). -/
theorem srn_outputs {i o : Nat} {m : Gate} (hm : GateOK i o m) {xs : List (Dense ℝ)}
    (h : ∀ x ∈ xs, x.WF ∧ x.rows = i ∧ x.cols = 1) :
    ∃ ys, forward (srnNext m) id xs = some ys ∧ ys.length = xs.length ∧
      ∀ y ∈ ys, y.WF ∧ y.rows = o ∧ y.cols = 1 ∧ ∀ a ∈ y.data, |a| < 1 := by
  have := srn_forward hm (xs.map Dense.val)
  rw [cols_of h, List.length_map] at this
  exact ⟨_, this, bound_of (v := fun t => stateAt (srnStep i o m) 0 (xs.map Dense.val) t) (srn_bound m _) rfl⟩

/-- **C37.** The same for a GRU. -/
theorem gru_outputs {i o : Nat} {m : GRU} (h1 : GateOK i o m.part) (h2 : GateOK i o m.res) (h3 : GateOK i o m.cand)
    {xs : List (Dense ℝ)} (h : ∀ x ∈ xs, x.WF ∧ x.rows = i ∧ x.cols = 1) :
    ∃ ys, forward (gruNext m) GRUState.y xs = some ys ∧ ys.length = xs.length ∧
      ∀ y ∈ ys, y.WF ∧ y.rows = o ∧ y.cols = 1 ∧ ∀ a ∈ y.data, |a| < 1 := by
  have := gru_forward h1 h2 h3 (xs.map Dense.val)
  rw [cols_of h, List.length_map] at this
  exact ⟨_, this, bound_of (v := fun t => (stateAt (gruStep i o m) gruZero (xs.map Dense.val) t).y) (gru_bound m _) rfl⟩

/-- **C37.** The same for an LSTM without refined gates. -/
theorem lstm_outputs {i o : Nat} {m : LSTM} (hm : LSTMOK i o m) (hr : m.refined = false)
    {xs : List (Dense ℝ)} (h : ∀ x ∈ xs, x.WF ∧ x.rows = i ∧ x.cols = 1) :
    ∃ ys, forward (lstmNext m) LSTMState.y xs = some ys ∧ ys.length = xs.length ∧
      ∀ y ∈ ys, y.WF ∧ y.rows = o ∧ y.cols = 1 ∧ ∀ a ∈ y.data, |a| < 1 := by
  have := lstm_forward hm (xs.map Dense.val)
  rw [cols_of h, List.length_map] at this
  exact ⟨_, this, bound_of (v := fun t => (stateAt (lstmStep i o m) lstmZero (xs.map Dense.val) t).y)
    (lstm_bound hr _) rfl⟩

/-- **C37.** The cell of an LSTM grows at most linearly: after `n` steps every component is at most `n`. -/
theorem lstm_cell_bound {i o : Nat} {m : LSTM} (hm : m.refined = false) (xs : List (Nat → ℝ)) (j : Nat) :
    |(xs.foldl (lstmStep i o m) lstmZero).cell j| ≤ xs.length := by
  have aux : ∀ (xs : List (Nat → ℝ)) (s : LSTMVals), |(xs.foldl (lstmStep i o m) s).cell j| ≤ |s.cell j| + xs.length := by
    intro xs
    induction xs with
    | nil => intro s; simp
    | cons x xs ih =>
      intro s
      refine (ih _).trans ?_
      have : |(lstmStep i o m s x).cell j| ≤ |s.cell j| + 1 := by
        simp only [lstmStep, hm, Bool.false_eq_true, if_false, mul_one]
        refine (abs_add_le _ _).trans ?_
        rw [abs_mul, abs_mul, abs_of_pos (logistic_pos _), abs_of_pos (logistic_pos _)]
        have h1 := mul_lt_one_of_nonneg_of_lt_one_left (logistic_pos (pre i o m.inp x s.y j)).le
          (logistic_lt_one _) (abs_tanh_lt (pre i o m.cand x s.y j)).le
        have h2 := mul_le_of_le_one_left (abs_nonneg (s.cell j)) (logistic_lt_one (pre i o m.forg x s.y j)).le
        linarith
      simp only [List.length_cons, Nat.cast_add, Nat.cast_one]
      linarith
  simpa [lstmZero] using aux xs lstmZero

/-- With refined gates the outputs are bounded by the inputs instead. -/
theorem lstm_refined_bound {i o : Nat} {m : LSTM} (hm : m.refined = true) (s : LSTMVals) (x : Nat → ℝ) (j : Nat) :
    |(lstmStep i o m s x).y j| ≤ |x j| := by
  simp only [lstmStep, hm, if_true]
  rw [abs_mul, abs_mul, abs_of_pos (logistic_pos _)]
  have h1 := mul_le_of_le_one_left (abs_nonneg (x j)) (logistic_lt_one (pre i o m.outp x s.y j)).le
  refine le_trans (mul_le_mul h1 (abs_tanh_lt _).le (abs_nonneg _) (abs_nonneg _)) (by rw [mul_one])

/-- An input of the wrong size is a panic, in every cell. -/
theorem gate_mismatch {i o n : Nat} {g : Gate} (h : GateOK i o g) (hn : n ≠ i) (x : Nat → ℝ)
    (y : Option (Dense ℝ)) : g.affine (col n x) y = none := by
  have : g.w.mul (col n x) = none := by
    rw [← Option.not_isSome_iff_eq_none, (mul_spec h.w.1 (col_WF n x)).1, h.w.2.2]
    exact fun e => hn e.symm
  cases y <;> simp [Gate.affine, affineRec, affine, this]

section Examples

/-- a gate of two inputs and one output -/
noncomputable def exGate : Gate := ⟨⟨1, 2, [1, -1]⟩, ⟨1, 1, [2]⟩, ⟨1, 1, [3]⟩⟩

theorem exGate_ok : GateOK 2 1 exGate := ⟨⟨rfl, rfl, rfl⟩, ⟨rfl, rfl, rfl⟩, rfl, rfl, rfl⟩

example : ∃ ys, forward (gruNext ⟨exGate, exGate, exGate⟩) GRUState.y [⟨2, 1, [1, 5]⟩, ⟨2, 1, [-4, 7]⟩] = some ys ∧
    ys.length = 2 ∧ ∀ y ∈ ys, y.WF ∧ y.rows = 1 ∧ y.cols = 1 ∧ ∀ a ∈ y.data, |a| < 1 :=
  gru_outputs exGate_ok exGate_ok exGate_ok (by simp [WF])

example : LSTMOK 2 1 ⟨false, exGate, exGate, exGate, exGate⟩ :=
  ⟨exGate_ok, exGate_ok, exGate_ok, exGate_ok, by simp⟩

/-- the first step of the SRN: tanh(1·1 - 1·5 + 3) -/
example : srnStep 2 1 exGate 0 (fun k => if k = 0 then 1 else 5) 0 = Real.tanh (-1) := by
  unfold srnStep
  congr 1
  norm_num [pre, exGate, el, at2, Dense.val, Finset.sum_range_succ]

end Examples
end Verif.Recurrent
